import Verif.Model.Clipboard
import Verif.Model.ExportHtml
import Verif.Model.ImportMarkup
/-
`DocumentFragment`: public_api/src/fragment.rs.  A fragment carries its data as JSON text (`serde_json`) beside its plain text; here the
data is the value itself, and no data (`new`, an empty string) is `none`.
-/
namespace Verif
namespace Store

/-- `FragmentTableCell`, fragment_schema.rs L41-L58.  Of `format` only the four formats of a cell are used. -/
structure FragCell where
  row : Nat
  column : Nat
  rowSpan : Nat := 1
  columnSpan : Nat := 1
  blocks : List FragBlock
  format : TableCell := {}
deriving DecidableEq, Repr

/-- `FragmentTable`, fragment_schema.rs L14-L38.  Of `format` only the five formats of a table and its
column widths are used. -/
structure FragTable where
  rows : Nat
  columns : Nat
  cells : List FragCell
  index : Nat := 0
  format : Table := {}
deriving DecidableEq, Repr

/-- `DocumentFragment`, fragment.rs L15-L18, with `FragmentData`, fragment_schema.rs L6-L12. -/
structure Fragment where
  data : Option (List FragBlock × List FragTable) := none
  plain : List Char := []
deriving DecidableEq, Repr

/-- The blocks of the data. -/
def Fragment.blocks (fr : Fragment) : List FragBlock := (fr.data.map Prod.fst).getD []

/-- The tables of the data. -/
def Fragment.tables (fr : Fragment) : List FragTable := (fr.data.map Prod.snd).getD []

/-- `new`, L22-L27. -/
def Fragment.new : Fragment := {}

/-- `from_plain_text`, L33-L87. -/
def Fragment.fromPlainText (t : List Char) : Fragment :=
  { data := some ((splitLines t).map fun line => { text := line, elements := [.text line {}] }, [])
    plain := t }

/-- `span_to_fragment_element`, L613-L652. -/
def spanElement (x : ParsedSpan) : Segment CharFormat :=
  .text x.text
    { fontFamily := if x.code then some "monospace" else none
      fontBold := if x.bold then some true else none
      fontItalic := if x.italic then some true else none
      fontUnderline := if x.underline then some true else none
      fontStrikeout := if x.strikeout then some true else none
      anchorHref := x.linkHref
      isAnchor := if x.linkHref.isSome then some true else none }

/-- A `ParsedElement::Block`, L664-L700. -/
def blockFrag (b : ParsedBlock) : FragBlock :=
  { text := b.spans.flatMap ParsedSpan.text
    elements := b.spans.map spanElement
    format :=
      { fmtHeadingLevel := b.headingLevel
        fmtLineHeight := b.lineHeight
        fmtNonBreakableLines := b.nonBreakableLines
        fmtDirection := b.direction
        fmtBackgroundColor := b.backgroundColor }
    list := b.listStyle.map fun style => ⟨style, (b.listIndent : Int), "", ""⟩ }

/-- The block of a cell, L716-L740. -/
def cellFrag (xs : List ParsedSpan) : FragBlock := { text := xs.flatMap ParsedSpan.text, elements := xs.map spanElement }

/-- A `ParsedElement::Table`, L701-L765; `index` is the number of blocks so far. -/
def tableFrag (index : Nat) (rows : List (List (List ParsedSpan))) : FragTable :=
  { rows := rows.length
    columns := (rows.map List.length).foldl max 0
    cells := (rows.zipIdx).flatMap fun (row, r) => (row.zipIdx).map fun (cell, c) => { row := r, column := c, blocks := [cellFrag cell] }
    index := index }

/-- The loop of `parsed_elements_to_fragment`, L656-L768; `n` is the number of blocks so far. -/
def elementFrags : Nat → List ParsedElement → List FragBlock × List FragTable
  | _, [] => ([], [])
  | n, .block b :: es =>
    let r := elementFrags (n + 1) es
    (blockFrag b :: r.1, r.2)
  | n, .table rows :: es =>
    let r := elementFrags n es
    (r.1, tableFrag n rows :: r.2)

/-- `parsed_elements_to_fragment` and `parsed_plain_text_from_data`, L654-L786; `from_html` and `from_markdown`, L90-L99, are this of
the parsed text. -/
def Fragment.ofElements (es : List ParsedElement) : Fragment :=
  let d := elementFrags 0 es
  { data := some d, plain := joinWith ['\n'] (d.1.map FragBlock.text) }

/-- `from_document`, L102-L116, of a document without tables: what is copied from 0 to `i64::MAX`. -/
def Fragment.fromDocument (s : Store) : Option Fragment :=
  (s.extractFragment 0 (2 ^ 63 - 1)).map fun r => { data := some (r.1, []), plain := r.2 }

/-- `is_empty`, L326-L328. -/
def Fragment.isEmpty (fr : Fragment) : Bool := fr.plain = []

/-! ### to_html -/

/-- The marks around a text, `push_inline_html`, L433-L466. -/
def fragMarks (f : CharFormat) (t : List Char) : List Char :=
  let t := if f.fontFamily = some "monospace" then htmlElem "code".toList t else t
  let t := if f.fontBold = some true then htmlElem "strong".toList t else t
  let t := if f.fontItalic = some true then htmlElem "em".toList t else t
  let t := if f.fontUnderline = some true then htmlElem "u".toList t else t
  let t := if f.fontStrikeout = some true then htmlElem "s".toList t else t
  if f.isAnchor = some true then
    match f.anchorHref with
    | some href => "<a href=\"".toList ++ escapeHtmlFragment href.toList ++ "\">".toList ++ t ++ "</a>".toList
    | none => t
  else t

/-- One element of `push_inline_html`, L413-L469. -/
def fragSegment : Segment CharFormat → List Char
  | .text t f => fragMarks f (escapeHtmlFragment t)
  | .image i => fragMarks i.fmt ("<img src=\"".toList ++ escapeHtmlFragment i.name.toList ++ "\" width=\"".toList ++
      showInt i.width ++ "\" height=\"".toList ++ showInt i.height ++ "\">".toList)

/-- `push_inline_html`, L412-L470. -/
def fragInline (b : FragBlock) : List Char := b.elements.flatMap fragSegment

/-- `block_style_attr`, L380-L410: the parts before they are joined. -/
def fragStyles (b : Block) : List (List Char) :=
  (match b.fmtAlignment with
    | some .left => ["text-align: left".toList]
    | some .right => ["text-align: right".toList]
    | some .center => ["text-align: center".toList]
    | some .justify => ["text-align: justify".toList]
    | none => []) ++
  (match b.fmtIndent with
    | some n => if n > 0 then ["margin-left: ".toList ++ showInt n ++ "em".toList] else []
    | none => []) ++
  (match b.fmtTextIndent with
    | some n => if n ≠ 0 then ["text-indent: ".toList ++ showInt n ++ "px".toList] else []
    | none => []) ++
  (match b.fmtTopMargin with
    | some n => ["margin-top: ".toList ++ showInt n ++ "px".toList]
    | none => []) ++
  (match b.fmtBottomMargin with
    | some n => ["margin-bottom: ".toList ++ showInt n ++ "px".toList]
    | none => []) ++
  (match b.fmtLeftMargin with
    | some n => ["margin-left: ".toList ++ showInt n ++ "px".toList]
    | none => []) ++
  (match b.fmtRightMargin with
    | some n => ["margin-right: ".toList ++ showInt n ++ "px".toList]
    | none => [])

/-- A block that is not an item, L185-L204. -/
def fragPara (b : FragBlock) : List Char :=
  match b.format.fmtHeadingLevel with
  | some l => htmlElem ('h' :: showInt (max 1 (min 6 l))) (fragInline b)
  | none =>
    let style := joinWith "; ".toList (fragStyles b.format)
    (if style = [] then "<p>".toList else "<p style=\"".toList ++ style ++ "\">".toList) ++ fragInline b ++ "</p>".toList

/-- The items of one list, L172-L184: the blocks from here on that are in a list of the same kind. -/
def fragItems (ordered : Bool) : List FragBlock → List (List Char) × List FragBlock
  | [] => ([], [])
  | b :: bs =>
    match b.list with
    | some l =>
      if isOrdered l.style = ordered then
        let r := fragItems ordered bs
        (htmlElem "li".toList (fragInline b) :: r.1, r.2)
      else ([], b :: bs)
    | none => ([], b :: bs)

/-- One cell of a table, `push_table_html`, L478-L495. -/
def fragCellHtml (c : FragCell) : List Char :=
  "<td".toList ++
  (if c.rowSpan > 1 then " rowspan=\"".toList ++ (toString c.rowSpan).toList ++ ['"'] else []) ++
  (if c.columnSpan > 1 then " colspan=\"".toList ++ (toString c.columnSpan).toList ++ ['"'] else []) ++
  '>' :: joinWith "<br>".toList (c.blocks.map fragInline) ++ "</td>".toList

/-- `push_table_html`, L473-L501. -/
def fragTableHtml (t : FragTable) : List Char :=
  htmlElem "table".toList ((List.range t.rows).flatMap fun r =>
    htmlElem "tr".toList ((List.range t.columns).flatMap fun c =>
      match t.cells.find? fun x => x.row = r ∧ x.column = c with
      | some x => fragCellHtml x
      | none => []))

/-- The loop over the blocks, L156-L212; `i` is the number of the block, `ts` the tables not written yet in order, `fuel` at least the
number of blocks left. -/
def fragBody : Nat → Nat → List FragBlock → List FragTable → List Char
  | 0, _, _, ts => ts.flatMap fragTableHtml
  | _ + 1, _, [], ts => ts.flatMap fragTableHtml
  | n + 1, i, b :: bs, ts =>
    let now := ts.takeWhile fun t => t.index ≤ i
    let later := ts.dropWhile fun t => t.index ≤ i
    now.flatMap fragTableHtml ++
    match b.list with
    | some l =>
      let r := fragItems (isOrdered l.style) (b :: bs)
      htmlElem (if isOrdered l.style then "ol".toList else "ul".toList) r.1.flatten ++
        fragBody n (i + ((b :: bs).length - r.2.length)) r.2 later
    | none => fragPara b ++ fragBody n (i + 1) bs later

/-- `to_html`, L127-L224. -/
def Fragment.toHtml (fr : Fragment) : List Char :=
  "<html><head><meta charset=\"utf-8\"></head><body>".toList ++
  (match fr.data with
    | none => []
    | some ([b], []) => if b.inlineOnly then fragInline b else fragBody 1 0 [b] []
    | some (bs, ts) => fragBody bs.length 0 bs (sortByKey (fun t => (t.index : Int)) ts)) ++
  "</body></html>".toList

/-! ### Inserting -/

/-- The end of `TextCursor::insert_fragment`, `insert_html` and `insert_markdown`, cursor.rs L573-L632, without a selection and for
fragments without tables: `insert_fragment` of the data at the caret.  No data is refused (not JSON, insert_fragment_uc.rs L1519-L1520). -/
def insertDocumentFragment (s : Store) (pos : Int) (fr : Fragment) : Option (Store × PasteResult × Snapshot) :=
  s.insertFragment pos pos fr.blocks

end Store
end Verif
