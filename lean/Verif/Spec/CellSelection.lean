import Verif.Spec.Tables
import Verif.Spec.Grid
/- Where cells are, and the rectangles that selections of cells take in. -/
namespace Verif

/-- The position `x` is in the cell `c` of the table `t`. -/
def InCell (items : List SItem) (t : STable) (c : SCell) (x : Nat) : Prop :=
  t ∈ tablesOf items ∧ c ∈ t.cells ∧ ∃ n p k, (flowParas items)[n]? = some p ∧ p ∈ c.paras ∧ k ≤ p.chars.length ∧
    x = paraStart (flowParas items) n + k

/-- A sound table: it has a row and a column, and its cells tile its grid. -/
structure STable.Sound (t : STable) : Prop where
  rows : 1 ≤ t.table.rows
  columns : 1 ≤ t.table.columns
  tiling : Tiling t.table.rows t.table.columns (t.cells.map SCell.cell)

/-- The places a cell takes in its grid. -/
def SCell.rect (c : SCell) : CellRange :=
  ⟨c.cell.row.toNat, c.cell.column.toNat, (c.cell.row + c.cell.rowSpan - 1).toNat, (c.cell.column + c.cell.columnSpan - 1).toNat⟩

/-- `R` is a rectangle of places that takes in the cells `a` and `b` and cuts no cell of the table. -/
structure Takes (t : STable) (a b : SCell) (R : CellRange) : Prop where
  first : a.rect.within R
  second : b.rect.within R
  whole : ∀ c ∈ t.cells, c.rect.meets R → c.rect.within R

/-- The cell starts inside the rectangle. -/
def SCell.startsIn (c : SCell) (R : CellRange) : Bool :=
  decide (R.startRow ≤ c.cell.row ∧ c.cell.row ≤ R.endRow ∧ R.startCol ≤ c.cell.column ∧ c.cell.column ≤ R.endCol)

end Verif
