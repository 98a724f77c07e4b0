import Verif.Spec.Tables
import Verif.Spec.Grid
import Verif.Model.ExportDocx
/-
What a DOCX file shows, and when it shows a paragraph or a table of a document.  Of the model only the data types are used.
-/
namespace Verif
open Store

/-- How a character looks in a DOCX file. -/
structure DocxLook where
  bold : Bool
  italic : Bool
  underline : Bool
  strike : Bool
  courier : Bool
deriving DecidableEq

/-- The characters of runs with their look. -/
def docxRead (rs : List DocxRun) : List (Char × DocxLook) :=
  rs.flatMap fun r => r.text.map fun c => (c, ⟨r.bold, r.italic, r.underline, r.strike, r.courier⟩)

/-- How the characters of a paragraph should look. -/
def docxLooks (p : SPara) : List (Char × DocxLook) :=
  p.chars.map fun (c, f) =>
    let f := f.getD {}
    (c, ⟨f.fontBold == some true, f.fontItalic == some true, f.fontUnderline == some true, f.fontStrikeout == some true,
      f.fontFamily == some "monospace"⟩)

/-- The DOCX paragraph shows the paragraph: its text with its marks, heading level, line spacing, and whether its lines stay
together. -/
structure ShowsDocxPara (twips : Int → Int) (p : SPara) (x : DocxPara) : Prop where
  text : docxRead x.runs = docxLooks p
  heading : x.heading = p.shape.fmtHeadingLevel.map fun l => max 1 (min 6 l)
  line : x.line = p.shape.fmtLineHeight.map twips
  keep : x.keepLines = (p.shape.fmtNonBreakableLines == some true)

/-- The DOCX paragraph in a cell shows the text of the paragraph with its marks. -/
structure ShowsDocxText (p : SPara) (x : DocxPara) : Prop where
  text : docxRead x.runs = docxLooks p
  rest : x = { runs := x.runs }

/-- Two lists of one length whose elements are related in turn. -/
def InTurn {α β : Type} (R : α → β → Prop) : List α → List β → Prop
  | [], [] => True
  | a :: as, b :: bs => R a b ∧ InTurn R as bs
  | _, _ => False

/-- The number of grid columns a DOCX cell takes. -/
def docxWidth (x : DocxCell) : Nat := x.gridSpan.getD 1

/-- The cells of a DOCX row with the grid column each stands in: each begins where the one before ends. -/
def docxColumns : Nat → List DocxCell → List (Nat × DocxCell)
  | _, [] => []
  | k, x :: xs => (k, x) :: docxColumns (k + docxWidth x) xs

/-- The DOCX cell shows the cell where it begins: its span, whether it is continued below, and its paragraphs. -/
structure ShowsDocxCell (c : SCell) (x : DocxCell) : Prop where
  width : (docxWidth x : Int) = c.cell.columnSpan
  merge : x.vMerge = if c.cell.rowSpan > 1 then some .restart else none
  paras : InTurn ShowsDocxText c.paras x.paras

/-- The DOCX cell continues the cell from above. -/
def ContinuesDocx (c : SCell) (x : DocxCell) : Prop :=
  (docxWidth x : Int) = c.cell.columnSpan ∧ x.vMerge = some .continue_ ∧ x.paras = []

/-- The DOCX rows show the table: a row for each row, each as wide as the table has columns; what stands in row `r` and column `k`
begins a cell of the table that is there or continues one from above; and every cell has its place in each of its rows. -/
structure ShowsDocxTable (t : STable) (out : List (List DocxCell)) : Prop where
  rows : (out.length : Int) = t.table.rows
  width : ∀ row ∈ out, ((row.map docxWidth).sum : Int) = t.table.columns
  sound : ∀ (r : Nat) row (k : Nat) x, out[r]? = some row → (k, x) ∈ docxColumns 0 row → ∃ c ∈ t.cells, c.cell.column = k ∧
    (c.cell.row = r ∧ ShowsDocxCell c x ∨ c.cell.row < r ∧ r < c.cell.row + c.cell.rowSpan ∧ ContinuesDocx c x)
  complete : ∀ c ∈ t.cells, ∀ (r : Nat) row, out[r]? = some row → c.cell.row ≤ r → r < c.cell.row + c.cell.rowSpan →
    ∃ x, (c.cell.column.toNat, x) ∈ docxColumns 0 row

/-- The DOCX rows hold the cells of the table: a row for each row, with the cells that begin there from left to right, and
otherwise only cells continued from above. -/
structure HoldsDocxTable (t : STable) (out : List (List DocxCell)) : Prop where
  rows : (out.length : Int) = t.table.rows
  begins : ∀ (r : Nat) row, out[r]? = some row →
    InTurn ShowsDocxCell (t.cells.filter fun c => decide (c.cell.row = (r : Int))) (row.filter fun x => decide (x.vMerge ≠ some .continue_))

/-- No cell of the table spans both rows and columns. -/
def STable.Thin (t : STable) : Prop := ∀ c ∈ t.cells, c.cell.rowSpan = 1 ∨ c.cell.columnSpan = 1

/-- The DOCX item is the table: the widths of its columns, if they are known, and its cells, each in its place unless some cell
spans both rows and columns. -/
def IsDocxTable (t : STable) (x : DocxItem) : Prop :=
  ∃ out, x = .table (if t.table.columnWidths = [] then none else some (t.table.columnWidths.map Int.toNat)) out ∧
    HoldsDocxTable t out ∧ (t.Thin → ShowsDocxTable t out)

/-- The DOCX item is the paragraph. -/
def IsDocxPara (twips : Int → Int) (p : SPara) (x : DocxItem) : Prop := ∃ y, x = .para y ∧ ShowsDocxPara twips p y

end Verif
