import Verif.Spec.Clipboard
import Verif.Spec.TableEdits
import Verif.Model.PasteTable
/-
What a table of a fragment says about the table it is pasted as.
-/
namespace Verif
open Store

/-- The characters of a cell of a fragment with at most one paragraph. -/
def Store.FragCell.chars (c : FragCell) : List SChar := (c.blocks.head?.map FragBlock.chars).getD []

/-- A cell of at most one paragraph, which is text. -/
def Store.FragCell.Simple (c : FragCell) : Prop := c.blocks.length ≤ 1 ∧ ∀ fb ∈ c.blocks, fb.IsText

/-- The cell `x` is the pasted cell `c`: same place, same spans, same formats, and one paragraph with the
characters of `c` in their formats. -/
structure CellLike (c : FragCell) (x : SCell) : Prop where
  place : x.cell.row = c.row ∧ x.cell.column = c.column
  spans : x.cell.rowSpan = c.rowSpan ∧ x.cell.columnSpan = c.columnSpan
  formats : x.cell = { c.format with
    id := x.cell.id, row := c.row, column := c.column, rowSpan := c.rowSpan, columnSpan := c.columnSpan, cellFrame := x.cell.cellFrame }
  paras : ∃ i, x.paras = [⟨i, c.chars, {}⟩]

/-- The table `x` is the pasted table `t`: as many rows and columns, the widths (0 for each column when there are none), the
formats, and cell by cell the cells. -/
structure TableLike (t : FragTable) (x : STable) : Prop where
  size : x.table.rows = t.rows ∧ x.table.columns = t.columns
  widths : x.table.columnWidths = if t.format.columnWidths = [] then List.replicate t.columns 0 else t.format.columnWidths
  formats : x.table = { t.format with
    id := x.table.id, cells := x.table.cells, rows := t.rows, columns := t.columns, columnWidths := x.table.columnWidths }
  length : x.cells.length = t.cells.length
  cells : ∀ (k : Nat) c y, t.cells[k]? = some c → x.cells[k]? = some y → CellLike c y

/-- The cells of the table come row by row, and in a row column by column. -/
def Store.FragTable.InOrder (t : FragTable) : Prop :=
  t.cells.Pairwise fun a b => a.row < b.row ∨ (a.row = b.row ∧ a.column < b.column)

end Verif
