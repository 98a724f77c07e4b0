import Verif.Model.Grid
/- What it means that the cells of a table tile its grid. -/
namespace Verif

/-- The cell occupies the grid place (`r`, `k`). -/
def TableCell.covers (c : TableCell) (r k : Int) : Bool :=
  decide (c.row ≤ r ∧ r < c.row + c.rowSpan ∧ c.column ≤ k ∧ k < c.column + c.columnSpan)

/-- No cell sticks out, no cell is empty, and each grid place is occupied by exactly one cell. -/
structure Tiling (rows columns : Int) (cells : List TableCell) : Prop where
  inside : ∀ c ∈ cells, 0 ≤ c.row ∧ c.row + c.rowSpan ≤ rows ∧ 0 ≤ c.column ∧
    c.column + c.columnSpan ≤ columns
  span : ∀ c ∈ cells, 1 ≤ c.rowSpan ∧ 1 ≤ c.columnSpan
  once : ∀ r k, 0 ≤ r → r < rows → 0 ≤ k → k < columns →
    (cells.filter fun c => c.covers r k).length = 1
  ids : (cells.map fun c => c.id).Nodup

/-- A sound table: at least one row and column, its cells tile the grid, each column has a width. -/
structure Tiled (g : Grid) : Prop where
  rows : 1 ≤ g.rows
  columns : 1 ≤ g.columns
  cells : Tiling g.rows g.columns g.cells
  widths : (g.widths.length : Int) = g.columns

/-- Rectangle `a` lies inside rectangle `b`. -/
def CellRange.within (a b : CellRange) : Prop :=
  b.startRow ≤ a.startRow ∧ a.endRow ≤ b.endRow ∧ b.startCol ≤ a.startCol ∧ a.endCol ≤ b.endCol

/-- The rectangle of a cell given as (row, column, row span, column span). -/
def cellRect (c : Nat × Nat × Nat × Nat) : CellRange :=
  ⟨c.1, c.2.1, c.1 + c.2.2.1 - 1, c.2.1 + c.2.2.2 - 1⟩

/-- Two rectangles share a place. -/
def CellRange.meets (a b : CellRange) : Prop :=
  a.startRow ≤ b.endRow ∧ b.startRow ≤ a.endRow ∧ a.startCol ≤ b.endCol ∧ b.startCol ≤ a.endCol

/-- The rectangle cuts no cell: every cell it touches lies inside. -/
def CellRange.cutsNone (r : CellRange) (cells : List (Nat × Nat × Nat × Nat)) : Prop :=
  ∀ c ∈ cells, (cellRect c).meets r → (cellRect c).within r

end Verif
