import Verif.Model.PlainText
import Verif.Model.Inspect
import Verif.Model.Escape
/-
HTML export of a document: document_io/src/use_cases/export_html_uc.rs (`TextDocument::to_html`).
`none` is an error or a panic.  The decimal notation of a line height (`lh as f64 / 1000.0` printed by
Rust) is a parameter `num`.
-/
namespace Verif
namespace Store

/-- `format!("<{tag}>{body}</{tag}>")`. -/
def htmlElem (tag body : List Char) : List Char :=
  '<' :: tag ++ '>' :: body ++ '<' :: '/' :: tag ++ ['>']

/-- `format!("{}", n)` for an integer. -/
def showInt (n : Int) : List Char := (toString n).toList

/-- The cells of a table: the relationship, then `get_table_cell_multi` without the missing ones. -/
def tableCellsOf (s : Store) (t : Nat) : List TableCell :=
  (((s.tables t).map Table.cells).getD []).filterMap fun i => s.tableCells i

/-- `cell_frame_ids`, export_html_uc.rs L66-L82 (also export_latex_uc.rs, export_markdown_uc.rs). -/
def cellFrameIds (s : Store) (did : Nat) : List Nat :=
  (s.docTables did).flatMap fun t => (s.tableCellsOf t).filterMap TableCell.cellFrame

/-- `get_block_relationship(.., List)`, then `get_list` of the first id, L268-L278: the list an item
belongs to. -/
def blockList (s : Store) (b : Block) : Option TList :=
  ((s.blocks b.id).bind Block.list).bind fun l => s.lists l

/-- The styles exported as numbered lists, L281-L288. -/
def isOrdered : ListStyle → Bool
  | .decimal | .lowerAlpha | .upperAlpha | .lowerRoman | .upperRoman => true
  | _ => false

/-- Block text, then `inline_segments_for_block`. -/
def blockSegments (s : Store) (id : Nat) : Option (List (Segment CharFormat)) :=
  (blockContent s.text id).bind fun t => s.segmentsOf id t

/-- Inline marks around an escaped text, L489-L509. -/
def htmlMarks (f : CharFormat) (t : List Char) : List Char :=
  let t := if f.fontFamily = some "monospace" then htmlElem "code".toList t else t
  let t := if f.fontBold = some true then htmlElem "strong".toList t else t
  let t := if f.fontItalic = some true then htmlElem "em".toList t else t
  let t := if f.fontUnderline = some true then htmlElem "u".toList t else t
  let t := if f.fontStrikeout = some true then htmlElem "s".toList t else t
  match f.anchorHref with
  | some href => "<a href=\"".toList ++ escapeHtmlExport href.toList ++ "\">".toList ++ t ++ "</a>".toList
  | none => t

/-- One segment in the loop of `render_inline_html`, L457-L512.  An escaped text never starts with
`<img `. -/
def htmlSegment : Segment CharFormat → List Char
  | .image i => "<img src=\"".toList ++ escapeHtmlExport i.name.toList ++ "\" width=\"".toList ++
      showInt i.width ++ "\" height=\"".toList ++ showInt i.height ++ "\" />".toList
  | .text t f => if t = [] then [] else htmlMarks f (escapeHtmlExport t)

/-- `render_inline_html`, L443-L516. -/
def inlineHtml (s : Store) (b : Block) : Option (List Char) :=
  (s.blockSegments b.id).map fun segs => segs.flatMap htmlSegment

/-- The text of the segments of a code block, images left out, L236-L243. -/
def rawText (segs : List (Segment CharFormat)) : List Char :=
  segs.flatMap fun
    | .text t _ => t
    | .image _ => []

/-- A code block, L228-L261. -/
def codeHtml (s : Store) (b : Block) : Option (List Char) :=
  (s.blockSegments b.id).map fun segs =>
    let lang := (b.fmtCodeLanguage.getD "").toList
    let open_ := if lang = [] then "<code>".toList
      else "<code class=\"language-".toList ++ escapeHtmlExport lang ++ "\">".toList
    "<pre>".toList ++ open_ ++ escapeHtmlExport (rawText segs) ++ "</code></pre>".toList

/-- `[String]::join(sep)`. -/
def joinWith (sep : List Char) : List (List Char) → List Char
  | [] => []
  | x :: xs => x ++ xs.flatMap fun y => sep ++ y

/-- The styles of a paragraph, L318-L334. -/
def htmlStyles (num : Int → List Char) (b : Block) : List (List Char) :=
  (match b.fmtAlignment with
    | some .left => ["text-align: left".toList]
    | some .right => ["text-align: right".toList]
    | some .center => ["text-align: center".toList]
    | some .justify => ["text-align: justify".toList]
    | none => []) ++
  (match b.fmtLineHeight with
    | some lh => ["line-height: ".toList ++ num lh]
    | none => []) ++
  (if b.fmtNonBreakableLines = some true then ["white-space: pre".toList] else []) ++
  (if b.fmtDirection = some .rightToLeft then ["direction: rtl".toList] else []) ++
  (match b.fmtBackgroundColor with
    | some c => ["background-color: ".toList ++ c.toList]
    | none => [])

/-- A paragraph or heading, L316-L349. -/
def paraHtml (num : Int → List Char) (s : Store) (b : Block) : Option (List Char) :=
  (s.inlineHtml b).map fun inline =>
    let styles := htmlStyles num b
    let attr := if styles = [] then []
      else " style=\"".toList ++ joinWith "; ".toList styles ++ ['"']
    let tag := match b.fmtHeadingLevel with
      | some l => 'h' :: showInt (max 1 (min 6 l))
      | none => ['p']
    '<' :: tag ++ attr ++ '>' :: inline ++ '<' :: '/' :: tag ++ ['>']

/-- The items of a list: the blocks up to the first without a list, L291-L311.  Returns the items and
the other blocks. -/
def htmlItems (s : Store) : List Block → Option (List (List Char) × List Block)
  | [] => some ([], [])
  | b :: bs =>
    if (s.blockList b).isSome then
      (s.inlineHtml b).bind fun inline =>
        (htmlItems s bs).map fun (items, rest) => (htmlElem "li".toList inline :: items, rest)
    else some ([], b :: bs)

/-- `render_blocks_html`, L216-L355: the loop, `fuel` being at least the number of blocks left. -/
def blocksHtml (num : Int → List Char) (s : Store) : Nat → List Block → Option (List Char)
  | 0, _ => some []
  | _ + 1, [] => some []
  | n + 1, b :: bs =>
    if b.fmtIsCodeBlock = some true then
      (s.codeHtml b).bind fun x => (blocksHtml num s n bs).map fun y => x ++ y
    else match s.blockList b with
      | some l =>
        (s.htmlItems (b :: bs)).bind fun (items, rest) =>
        let tag := if isOrdered l.style then "ol".toList else "ul".toList
        (blocksHtml num s n rest).map fun y => htmlElem tag items.flatten ++ y
      | none => (paraHtml num s b).bind fun x => (blocksHtml num s n bs).map fun y => x ++ y

/-- The content of a cell, L404-L421. -/
def cellHtml (s : Store) (cell : TableCell) : Option (List Char) :=
  match cell.cellFrame with
  | none => some []
  | some f =>
    (mapOpt s.inlineHtml (s.getBlocks (s.frameBlocks f))).map fun xs =>
      joinWith "<br/>".toList (xs.filter fun x => x ≠ [])

/-- The cells of one row from column `c` on, L379-L435; `covered` are the places covered by a spanning
cell.  Returns the markup and the covered places.  `find` runs over the cells in row and column order
in the code: the first of several cells at one place is the same in both orders. -/
def rowHtml (s : Store) (cells : List TableCell) (rows cols r : Nat) :
    Nat → Nat → List (Nat × Nat) → Option (List Char × List (Nat × Nat))
  | 0, _, covered => some ([], covered)
  | n + 1, c, covered =>
    if (r, c) ∈ covered then rowHtml s cells rows cols r n (c + 1) covered
    else match cells.find? fun cell => cell.row = (r : Int) ∧ cell.column = (c : Int) with
      | some cell =>
        (s.cellHtml cell).bind fun x =>
        let td := "<td".toList ++
          (if cell.rowSpan > 1 then " rowspan=\"".toList ++ showInt cell.rowSpan ++ ['"'] else []) ++
          (if cell.columnSpan > 1 then " colspan=\"".toList ++ showInt cell.columnSpan ++ ['"'] else []) ++
          '>' :: x ++ "</td>".toList
        let new := (List.range cell.rowSpan.toNat).flatMap fun sr =>
          (List.range cell.columnSpan.toNat).filterMap fun sc =>
            if sr = 0 ∧ sc = 0 then none
            else if r + sr < rows ∧ c + sc < cols then some (r + sr, c + sc) else none
        (rowHtml s cells rows cols r n (c + 1) (new ++ covered)).map fun (y, cov) => (td ++ y, cov)
      | none => (rowHtml s cells rows cols r n (c + 1) covered).map fun (y, cov) =>
          ("<td></td>".toList ++ y, cov)

/-- The rows from `r` on, L377-L437. -/
def rowsHtml (s : Store) (cells : List TableCell) (rows cols : Nat) :
    Nat → Nat → List (Nat × Nat) → Option (List Char)
  | 0, _, _ => some []
  | n + 1, r, covered =>
    (rowHtml s cells rows cols r cols 0 covered).bind fun (x, covered) =>
    (rowsHtml s cells rows cols n (r + 1) covered).map fun y => htmlElem "tr".toList x ++ y

/-- `render_table_html`, L357-L441. -/
def tableHtml (s : Store) (t : Nat) : Option (List Char) :=
  (s.tables t).bind fun table =>
  let open_ := "<table".toList ++ (match table.fmtBorder with
    | some b => " border=\"".toList ++ showInt b ++ ['"']
    | none => []) ++ ['>']
  (rowsHtml s (s.tableCellsOf t) table.rows.toNat table.columns.toNat table.rows.toNat 0 []).map fun x =>
    open_ ++ x ++ "</table>".toList

/-- `for &entry in &frame.child_order`, L163-L203, and the final flush; `pending` are the accumulated
blocks and `sub` renders a sub-frame.  Empty parts are skipped in the code, which changes nothing: the
parts are concatenated. -/
def childrenHtml (num : Int → List Char) (s : Store) (cells : List Nat) (sub : Nat → Option (List Char)) :
    List Int → List Block → Option (List Char)
  | [], pending => blocksHtml num s pending.length pending
  | e :: es, pending =>
    if e > 0 then
      match s.blocks e.toNat with
      | some b => childrenHtml num s cells sub es (pending ++ [b])
      | none => childrenHtml num s cells sub es pending
    else
      (blocksHtml num s pending.length pending).bind fun x =>
      if (-e).toNat ∈ cells then (childrenHtml num s cells sub es []).map fun y => x ++ y
      else match s.frames (-e).toNat with
        | none => (childrenHtml num s cells sub es []).map fun y => x ++ y
        | some fr =>
          (sub (-e).toNat).bind fun inner =>
          let part := if fr.fmtIsBlockquote = some true then
            (if inner = [] then [] else htmlElem "blockquote".toList inner) else inner
          (childrenHtml num s cells sub es []).map fun y => x ++ part ++ y

/-- `render_frame_html` and `render_frame_by_child_order`, L105-L214.  `fuel` bounds the nesting of
frames (the code would overflow its stack). -/
def frameHtml (num : Int → List Char) (s : Store) (cells : List Nat) : Nat → Nat → Option (List Char)
  | 0, _ => none
  | n + 1, f =>
    (s.frames f).bind fun frame =>
    match frame.table with
    | some t => s.tableHtml t
    | none =>
      if frame.childOrder = [] then
        let bs := sortByKey Block.documentPosition (s.getBlocks (s.frameBlocks f))
        blocksHtml num s bs.length bs
      else childrenHtml num s cells (frameHtml num s cells n) frame.childOrder []

/-- `ExportHtmlUseCase::execute`, L41-L101. -/
def exportHtml (num : Int → List Char) (s : Store) : Option (List Char) :=
  s.docId.bind fun did =>
  let cells := s.cellFrameIds did
  let fids := (s.docFrames did).filter fun f => f ∉ cells
  (mapOpt (frameHtml num s cells (s.frames.keys.length + 1)) fids).map fun parts =>
    "<html><head><meta charset=\"utf-8\"></head><body>".toList ++ parts.flatten ++
      "</body></html>".toList

end Store
end Verif
