import Verif.Model.ImportMarkup
import Verif.Spec.Tables
import Verif.Spec.Lists
/- What a document loaded from parsed Markdown or HTML should show. -/
namespace Verif

/-- The format of the text of a span: none if the span has no mark, else just its marks; text in a code block
or marked as code is monospaced. -/
def spanLook (code : Bool) (x : ParsedSpan) : Option CharFormat :=
  if x.bold = false ∧ x.italic = false ∧ x.underline = false ∧ x.strikeout = false ∧ x.code = false ∧
      x.linkHref = none ∧ code = false then none
  else some
    { fontBold := if x.bold then some true else none
      fontItalic := if x.italic then some true else none
      fontUnderline := if x.underline then some true else none
      fontStrikeout := if x.strikeout then some true else none
      fontFamily := if x.code ∨ code then some "monospace" else none
      anchorHref := x.linkHref
      isAnchor := x.linkHref.map fun _ => true }

/-- The characters of spans with their formats. -/
def spansChars (code : Bool) (xs : List ParsedSpan) : List SChar := xs.flatMap fun x => styled x.text (spanLook code x)

/-- The paragraph format of a parsed block in a given list.  From Markdown only the heading level and the code
block come; HTML also gives line height, non-breaking lines, direction and background. -/
def parsedShape (html : Bool) (b : ParsedBlock) (list : Option Nat) : Block :=
  { list := list
    fmtHeadingLevel := b.headingLevel
    fmtIsCodeBlock := if b.isCodeBlock then some true else none
    fmtCodeLanguage := b.codeLanguage
    fmtLineHeight := if html then b.lineHeight else none
    fmtNonBreakableLines := if html then b.nonBreakableLines else none
    fmtDirection := if html then b.direction else none
    fmtBackgroundColor := if html then b.backgroundColor else none }

/-- What is seen of a paragraph. -/
abbrev ParaFace := List SChar × Block

/-- What is seen of an item: a paragraph, or a table (its size, widths and format) with its cells (place, spans
and format) and their paragraphs. -/
inductive Face where
  | para (p : ParaFace)
  | table (t : Table) (cells : List (TableCell × List ParaFace))

/-- The same without identities. -/
def SPara.face (p : SPara) : ParaFace := (p.chars, p.shape)

/-- The same without identities. -/
def SCell.face (c : SCell) : TableCell × List ParaFace :=
  ({ c.cell with id := 0, cellFrame := none }, c.paras.map SPara.face)

/-- The same without identities. -/
def SItem.face : SItem → Face
  | .para p => .para p.face
  | .table t => .table { t.table with id := 0, cells := [] } (t.cells.map SCell.face)

/-- A table that has a row and a column. -/
def hasCells (rows : List (List (List ParsedSpan))) : Bool := rows ≠ [] ∧ rows.head? ≠ some []

/-- Every row has as many cells as the first. -/
def Rectangular (rows : List (List (List ParsedSpan))) : Prop :=
  ∀ row ∈ rows, row.length = ((rows.head?.map List.length).getD 0)

/-- A cell with some text at a place. -/
def cellFace (r c : Nat) (xs : List ParsedSpan) : TableCell × List ParaFace :=
  ({ row := r, column := c, rowSpan := 1, columnSpan := 1 }, [(spansChars false xs, {})])

/-- The cells of a table row by row. -/
def cellFaces (rows : List (List (List ParsedSpan))) : List (TableCell × List ParaFace) :=
  rows.zipIdx.flatMap fun (row, r) => row.zipIdx.map fun (xs, c) => cellFace r c xs

/-- What an element becomes, given the list it joins if it is a list item; a table without cells becomes
nothing. -/
def faceOf (html : Bool) : ParsedElement → Option Nat → List Face
  | .block b, list => [.para (spansChars b.isCodeBlock b.spans, parsedShape html b list)]
  | .table rows, _ =>
    if hasCells rows then
      [.table { rows := rows.length, columns := (rows.head?.map List.length).getD 0 } (cellFaces rows)]
    else []

/-- What the elements become, given their lists. -/
def facesOf (html : Bool) (es : List ParsedElement) (lists : List (Option Nat)) : List Face :=
  (es.zip lists).flatMap fun x => faceOf html x.1 x.2

/-- The list a block joins if it is a list item, by the rule of `joins`: `past` is what came before, `fresh` the
identity of the next new list. -/
def listChoice (past : Imported) (fresh : Nat) (b : ParsedBlock) : Option Nat :=
  b.listStyle.map fun style => joins past style b.listIndent fresh

/-- What came before, once the block is there. -/
def pastAfter (past : Imported) (b : ParsedBlock) (list : Option Nat) : Imported :=
  (match b.listStyle, list with
    | some style, some l => some (b.listIndent, l, style)
    | _, _ => none) :: past

/-- A change of the depth of block quotes ends all lists. -/
def pastQuote (past : Imported) (depth : Nat) (b : ParsedBlock) : Imported :=
  if b.quoteDepth = depth then past else none :: past

/-- The lists the elements join; `depth` is the depth of block quotes so far. -/
def listsOf : Imported → Nat → Nat → List ParsedElement → List (Option Nat)
  | _, _, _, [] => []
  | past, depth, fresh, .table _ :: es => none :: listsOf (none :: past) depth fresh es
  | past, depth, fresh, .block b :: es =>
    let l := listChoice (pastQuote past depth b) fresh b
    l :: listsOf (pastAfter (pastQuote past depth b) b l) b.quoteDepth (if l = some fresh then fresh + 1 else fresh) es

/-- The first thing to be seen of the elements is a table. -/
def startsTable : List ParsedElement → Bool
  | [] => false
  | .block _ :: _ => false
  | .table rows :: es => hasCells rows || startsTable es

/-- The document does not begin with an empty paragraph right before a table. -/
def OpensWell : List ParsedElement → Prop
  | [] => True
  | .block b :: es => b.spans.flatMap ParsedSpan.text = [] → startsTable es = false
  | .table rows :: es => if hasCells rows then True else OpensWell es

/-- The text of a document in the order it is stored: a table is marked by one character before its cells. -/
def flowText (items : List SItem) : List Para :=
  items.flatMap fun
    | .para p => paras [p]
    | .table t => (.table t.table.id, [objChar]) :: paras (t.cells.flatMap SCell.paras)

end Verif
