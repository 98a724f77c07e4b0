import Verif.Model.FragmentText
import Verif.Spec.Clipboard
import Verif.Spec.ImportMarkup
import Verif.Spec.Html
/-
What fragments made from text, Markdown or HTML hold, what inserting them does, and the page a fragment should give.
-/
namespace Verif

/-- Characters with the formats they show: no format shows as the default one. -/
def visibleChars (cs : List SChar) : List (Char × CharFormat) := cs.map fun c => (c.1, c.2.getD {})

/-- The blocks among parsed elements. -/
def parsedBlocks : List ParsedElement → List ParsedBlock
  | [] => []
  | .block b :: es => b :: parsedBlocks es
  | .table _ :: es => parsedBlocks es

/-- The tables among parsed elements, each with the number of blocks before it. -/
def parsedTables : Nat → List ParsedElement → List (Nat × List (List (List ParsedSpan)))
  | _, [] => []
  | n, .block _ :: es => parsedTables (n + 1) es
  | n, .table rows :: es => (n, rows) :: parsedTables n es

/-- A paragraph of a fragment holds a parsed block: its text with the marks, its heading level, line height, wrapping, direction and
background, the kind and depth of its list. -/
structure FragOf (b : ParsedBlock) (fb : Store.FragBlock) : Prop where
  text : fb.IsText
  chars : visibleChars fb.chars = visibleChars (spansChars false b.spans)
  format : fb.format = { parsedShape true b none with fmtIsCodeBlock := none, fmtCodeLanguage := none }
  list : fb.list = b.listStyle.map fun style => ⟨style, (b.listIndent : Int), "", ""⟩

/-- Paragraphs of a fragment hold parsed blocks, one by one. -/
def FragsOf : List ParsedBlock → List Store.FragBlock → Prop
  | [], [] => True
  | b :: bs, fb :: fbs => FragOf b fb ∧ FragsOf bs fbs
  | _, _ => False

/-- A table of a fragment holds a parsed table: as many rows, as many columns as its longest row, and at every place the text of the
cell with its marks; no cell twice. -/
structure TableOf (n : Nat) (rows : List (List (List ParsedSpan))) (t : Store.FragTable) : Prop where
  index : t.index = n
  height : t.rows = rows.length
  width : (∀ row ∈ rows, row.length ≤ t.columns) ∧ (rows = [] ∧ t.columns = 0 ∨ ∃ row ∈ rows, row.length = t.columns)
  cells : ∀ r c, (t.cells.filter fun x => x.row = r ∧ x.column = c).map (fun x => (x.rowSpan, x.columnSpan, x.blocks.map fun fb => visibleChars fb.chars)) =
    match (rows[r]?).bind fun row => row[c]? with
    | some xs => [(1, 1, [visibleChars (spansChars false xs)])]
    | none => []

/-- Tables of a fragment hold parsed tables, one by one. -/
def TablesOf : List (Nat × List (List (List ParsedSpan))) → List Store.FragTable → Prop
  | [], [] => True
  | x :: xs, t :: ts => TableOf x.1 x.2 t ∧ TablesOf xs ts
  | _, _ => False

/-- A block without paragraph formatting. -/
def plainBlock (b : ParsedBlock) : Bool :=
  b.headingLevel.isNone && b.listStyle.isNone && b.lineHeight.isNone && b.nonBreakableLines.isNone && b.direction.isNone &&
    b.backgroundColor.isNone

/-- The characters of parsed blocks, paragraph ends between them. -/
def markupChars : List ParsedBlock → List SChar
  | [] => []
  | [b] => spansChars false b.spans
  | b :: bs => spansChars false b.spans ++ ('\n', none) :: markupChars bs

/-- Paragraph ends added before pasted paragraphs: the first is kept apart from the text before the caret if it has paragraph formatting. -/
def gapBefore (firstPlain : Bool) (a : List SChar) : List SChar := if firstPlain = false ∧ a ≠ [] then [('\n', none)] else []

/-- Paragraph ends added behind pasted paragraphs: the last is kept apart from the text behind the caret if it has paragraph formatting; a
single one put behind text is always followed by a paragraph. -/
def gapAfter (single lastPlain : Bool) (a b : List SChar) : List SChar :=
  if lastPlain = false ∧ (b ≠ [] ∨ (single = true ∧ a ≠ [])) then [('\n', none)] else []

/-! ### The page a fragment should give -/

/-- The marks of a fragment's text: a link is one only if it is said to be. -/
def fragMarksOf (f : CharFormat) : HtmlMarks :=
  { htmlMarksOf (some f) with link := if f.isAnchor = some true then f.anchorHref.map String.toList else none }

def pixels (n : Int) : List Char := (toString n).toList ++ "px".toList

/-- The style declarations of a paragraph of a fragment. -/
def fragStyleOf (b : Block) : List (List Char × List Char) :=
  (match b.fmtAlignment with
    | some .left => [("text-align".toList, "left".toList)]
    | some .right => [("text-align".toList, "right".toList)]
    | some .center => [("text-align".toList, "center".toList)]
    | some .justify => [("text-align".toList, "justify".toList)]
    | none => []) ++
  (if 0 < b.fmtIndent.getD 0 then [("margin-left".toList, (toString (b.fmtIndent.getD 0)).toList ++ "em".toList)] else []) ++
  (if b.fmtTextIndent.getD 0 ≠ 0 then [("text-indent".toList, pixels (b.fmtTextIndent.getD 0))] else []) ++
  (b.fmtTopMargin.toList.map fun n => ("margin-top".toList, pixels n)) ++
  (b.fmtBottomMargin.toList.map fun n => ("margin-bottom".toList, pixels n)) ++
  (b.fmtLeftMargin.toList.map fun n => ("margin-left".toList, pixels n)) ++
  (b.fmtRightMargin.toList.map fun n => ("margin-right".toList, pixels n))

/-- What a paragraph of a fragment should look like on a page. -/
def fragPageOf (fb : Store.FragBlock) : HtmlPara :=
  let chars := fb.chars.map fun c => (c.1, fragMarksOf (c.2.getD {}))
  match fb.list with
  | some l => ⟨.item (numbered l.style), [], chars⟩
  | none =>
    match fb.format.fmtHeadingLevel with
    | some l => ⟨.heading (max 1 (min 6 l)).toNat, [], chars⟩
    | none => ⟨.para, fragStyleOf fb.format, chars⟩

/-- Put `new` behind the first `t`. -/
def behindFirst (t : HtmlToken) (new : List HtmlToken) : List HtmlToken → List HtmlToken
  | [] => []
  | x :: xs => if x = t then x :: (new ++ xs) else x :: behindFirst t new xs

/-- Reading a page whose body is the text of one paragraph, without an element around it: the reader takes the paragraph
    to begin behind the first `<body>` and to end before the last `</body>`. -/
def readInlineHtml (t : List Char) : Option (List HtmlPara) :=
  (htmlTokens .text t).bind fun ts =>
  let ts := behindFirst (.tag "body".toList) [.tag "p".toList] ts
  let ts := (behindFirst (.tag "/body".toList) [.tag "/p".toList] ts.reverse).reverse
  (ts.foldlM HtmlReader.step ⟨[], false, []⟩).bind fun r =>
  if r.open_ = [] then some r.paras.reverse else none

end Verif
