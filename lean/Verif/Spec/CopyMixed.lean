import Verif.Model.CopyMixed
import Verif.Spec.Clipboard
import Verif.Spec.Docx
import Verif.Spec.Tables
/-
Copying a selection that touches tables and text, as its user sees it.
-/
namespace Verif
open Store

/-- What a selection across cells takes: pieces of paragraphs outside the tables, and whole tables. -/
inductive SPart where
  | text (x : Piece)
  | table (t : STable)

/-- What lies between positions `lo` and `hi` of the document `items`, the first paragraph of which starts at position `n`: of a paragraph
outside the tables the selected characters, and every table the selection touches. -/
def parts (lo hi : Nat) : Nat → List SItem → List SPart
  | _, [] => []
  | n, .para p :: items =>
    (if n + p.chars.length < lo ∨ hi ≤ n then []
      else [.text ⟨(p.chars.take (hi - n)).drop (lo - n),
        if lo ≤ n ∧ (n + p.chars.length < hi ∨ (flowParas items = [] ∧ n + p.chars.length = hi)) then some p else none⟩]) ++
      parts lo hi (n + p.chars.length + 1) items
  | n, .table t :: items =>
    (if touched lo hi n (t.cells.flatMap SCell.paras) = [] then [] else [.table t]) ++
      parts lo hi (n + ((t.cells.flatMap SCell.paras).map fun q => q.chars.length + 1).sum) items

/-- The pieces of text among the parts. -/
def textParts : List SPart → List Piece
  | [] => []
  | .text x :: l => x :: textParts l
  | .table _ :: l => textParts l

/-- The tables among the parts, each with the number of pieces of text before it, counted from `k`. -/
def tableParts : Nat → List SPart → List (Nat × STable)
  | _, [] => []
  | k, .text _ :: l => tableParts (k + 1) l
  | k, .table t :: l => (k, t) :: tableParts k l

/-- The lines of a part. -/
def SPart.lines : SPart → List (List Char)
  | .text x => [x.chars.map Prod.fst]
  | .table t => t.cells.flatMap fun c => c.paras.map SPara.text

/-- A paragraph of a fragment is the copy of a paragraph of a cell: its text, its characters with the formats they show, and the paragraph
format, but no list. -/
structure WholeCopy (p : SPara) (fb : FragBlock) : Prop where
  text : fb.text = p.text
  chars : segItems fb.elements = p.chars.map fun c => .char c.1 (c.2.getD {})
  format : fb.format = { p.shape with id := 0, list := none, documentPosition := 0 }
  list : fb.list = none

/-- A cell of a fragment is the copy of a cell. -/
structure CellCopy (c : SCell) (fc : FragCell) : Prop where
  row : fc.row = c.cell.row.toNat
  column : fc.column = c.cell.column.toNat
  rowSpan : fc.rowSpan = (max c.cell.rowSpan 1).toNat
  columnSpan : fc.columnSpan = (max c.cell.columnSpan 1).toNat
  format : fc.format = c.cell
  blocks : InTurn WholeCopy c.paras fc.blocks

/-- A table of a fragment is the copy of a table, all its cells, and stands before the paragraph `x.1` of the fragment. -/
structure TableCopy (x : Nat × STable) (ft : FragTable) : Prop where
  rows : ft.rows = x.2.table.rows.toNat
  columns : ft.columns = x.2.table.columns.toNat
  index : ft.index = x.1
  format : ft.format = x.2.table
  cells : InTurn CellCopy x.2.cells ft.cells

/-- Two paragraphs are neither both outside the tables nor both in one cell. -/
def Elsewhere (items : List SItem) (p q : SPara) : Prop :=
  ¬ (p ∈ topParas items ∧ q ∈ topParas items) ∧ ∀ t ∈ tablesOf items, ∀ c ∈ t.cells, ¬ (p ∈ c.paras ∧ q ∈ c.paras)

end Verif
