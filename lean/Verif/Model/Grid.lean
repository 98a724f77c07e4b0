import Verif.Model.Entities
/-
The cells of one table and the commands that change its structure:
document_editing/src/use_cases/{insert_table,insert_table_row,insert_table_column,
remove_table_row,remove_table_column,merge_table_cells,split_table_cell}_uc.rs, and the expansion of
a cell selection, public_api/src/flow.rs.

Only the table's own record and its cells are modelled here: cell frames, their paragraphs and the
text are not.  The cells of a table have different ids (they are keys of a map), so an update by id
is an update of that list member.  `none` is an error result.  `fresh i` gives the id and the cell
frame id of the `i`-th newly created cell.
-/
namespace Verif

/-- A table and its cells, in the order of `Table.cells`. -/
structure Grid where
  rows : Int
  columns : Int
  widths : List Int
  cells : List TableCell
deriving DecidableEq, Repr

/-- The record of a new cell, e.g. insert_table_row_uc.rs L123-L136. -/
def newCell (f : Nat × Nat) (row column rowSpan columnSpan : Int) : TableCell :=
  { id := f.1, row, column, rowSpan, columnSpan, cellFrame := some f.2 }

/-- `0..n` for an `i64` bound. -/
def intRange (n : Int) : List Int := (List.range n.toNat).map Int.ofNat

/-- New cells for a list of places, numbered from `i`. -/
def newCells (fresh : Nat → Nat × Nat) : Nat → List (Int × Int × Int × Int) → List TableCell
  | _, [] => []
  | i, (r, c, rs, cs) :: l => newCell (fresh i) r c rs cs :: newCells fresh (i + 1) l

/-- The table made by insert_table_uc.rs L57-L59 and L302-L349. -/
def insertTable (rows columns : Int) (fresh : Nat → Nat × Nat) : Option Grid :=
  if rows < 1 ∨ columns < 1 then none
  else some
    { rows, columns, widths := List.replicate columns.toNat 0
      cells := newCells fresh 0 ((intRange rows).flatMap fun r =>
        (intRange columns).map fun c => (r, c, 1, 1)) }

/-- The loop over the cells, insert_table_row_uc.rs L96-L110. -/
def rowShift (idx : Int) (c : TableCell) : TableCell :=
  if c.row ≥ idx then { c with row := c.row + 1 }
  else if c.row + c.rowSpan > idx then { c with rowSpan := c.rowSpan + 1 }
  else c

/-- `execute_insert_table_row`, insert_table_row_uc.rs L54-L220. -/
def insertRow (g : Grid) (idx : Int) (fresh : Nat → Nat × Nat) : Option Grid :=
  if idx < 0 ∨ idx > g.rows then none
  else some
    { g with
      rows := g.rows + 1
      cells := g.cells.map (rowShift idx) ++
        newCells fresh 0 ((intRange g.columns).map fun c => (idx, c, 1, 1)) }

/-- The loop over the cells, insert_table_column_uc.rs L96-L110. -/
def columnShift (idx : Int) (c : TableCell) : TableCell :=
  if c.column ≥ idx then { c with column := c.column + 1 }
  else if c.column + c.columnSpan > idx then { c with columnSpan := c.columnSpan + 1 }
  else c

/-- `execute_insert_table_column`, insert_table_column_uc.rs L54-L222. -/
def insertColumn (g : Grid) (idx : Int) (fresh : Nat → Nat × Nat) : Option Grid :=
  if idx < 0 ∨ idx > g.columns then none
  else some
    { g with
      columns := g.columns + 1
      widths := g.widths.insertIdx (min idx.toNat g.widths.length) 0
      cells := g.cells.map (columnShift idx) ++
        newCells fresh 0 ((intRange g.rows).map fun r => (r, idx, 1, 1)) }

/-- The loop over the cells, remove_table_row_uc.rs L108-L131; `none` is a removed cell. -/
def rowUnshift (idx : Int) (c : TableCell) : Option TableCell :=
  if c.row = idx ∧ c.rowSpan = 1 then none
  else if c.row = idx ∧ c.rowSpan > 1 then some { c with rowSpan := c.rowSpan - 1 }
  else if c.row < idx ∧ c.row + c.rowSpan > idx then some { c with rowSpan := c.rowSpan - 1 }
  else if c.row > idx then some { c with row := c.row - 1 }
  else some c

/-- `execute_remove_table_row`, remove_table_row_uc.rs L52-L232. -/
def removeRow (g : Grid) (idx : Int) : Option Grid :=
  if idx < 0 ∨ idx ≥ g.rows then none
  else if g.rows ≤ 1 then none
  else some { g with rows := g.rows - 1, cells := g.cells.filterMap (rowUnshift idx) }

/-- The loop over the cells, remove_table_column_uc.rs L110-L133. -/
def columnUnshift (idx : Int) (c : TableCell) : Option TableCell :=
  if c.column = idx ∧ c.columnSpan = 1 then none
  else if c.column = idx ∧ c.columnSpan > 1 then some { c with columnSpan := c.columnSpan - 1 }
  else if c.column < idx ∧ c.column + c.columnSpan > idx then
    some { c with columnSpan := c.columnSpan - 1 }
  else if c.column > idx then some { c with column := c.column - 1 }
  else some c

/-- `execute_remove_table_column`, remove_table_column_uc.rs L52-L240. -/
def removeColumn (g : Grid) (idx : Int) : Option Grid :=
  if g.columns ≤ 1 then none
  else if idx < 0 ∨ idx ≥ g.columns then none
  else some
    { g with
      columns := g.columns - 1
      widths := if idx.toNat < g.widths.length then g.widths.eraseIdx idx.toNat else g.widths
      cells := g.cells.filterMap (columnUnshift idx) }

/-- The filter of merge_table_cells_uc.rs L111-L119. -/
def startsInside (r0 c0 r1 c1 : Int) (c : TableCell) : Bool :=
  decide (c.row ≥ r0 ∧ c.row ≤ r1 ∧ c.column ≥ c0 ∧ c.column ≤ c1)

/-- `execute_merge_table_cells`, merge_table_cells_uc.rs L50-L257. -/
def mergeCells (g : Grid) (r0 c0 r1 c1 : Int) : Option Grid :=
  if r0 > r1 then none
  else if c0 > c1 then none
  else if r0 < 0 ∨ r1 ≥ g.rows ∨ c0 < 0 ∨ c1 ≥ g.columns then none
  else
    let inRange := g.cells.filter (startsInside r0 c0 r1 c1)
    if inRange.any fun c => decide (c.rowSpan > 1 ∨ c.columnSpan > 1) then none
    else
      (inRange.find? fun c => decide (c.row = r0 ∧ c.column = c0)).map fun surv =>
      { g with
        cells := (g.cells.filter fun c => !(startsInside r0 c0 r1 c1 c && decide (c.id ≠ surv.id))).map
          fun c => if c.id = surv.id then
            { c with rowSpan := r1 - r0 + 1, columnSpan := c1 - c0 + 1 } else c }

/-- The sizes handed out by the loops of split_table_cell_uc.rs L131-L149: `n` parts from part `i`
on, each of `base`, the first `extra` of them one larger, with their start positions. -/
def splitParts (base extra : Int) : Nat → Int → Int → List (Int × Int)
  | 0, _, _ => []
  | n + 1, i, pos =>
    let size := base + if i < extra then 1 else 0
    (pos, size) :: splitParts base extra n (i + 1) (pos + size)

/-- `sub_cells`, split_table_cell_uc.rs L138-L149. -/
def subCells (c : TableCell) (sr sc : Int) : List (Int × Int × Int × Int) :=
  (splitParts (c.rowSpan / sr) (c.rowSpan % sr) sr.toNat 0 c.row).flatMap fun r =>
  (splitParts (c.columnSpan / sc) (c.columnSpan % sc) sc.toNat 0 c.column).map fun k =>
  (r.1, k.1, r.2, k.2)

/-- `execute_split_table_cell`, split_table_cell_uc.rs L54-L270. -/
def splitCell (g : Grid) (cellId : Nat) (sr sc : Int) (fresh : Nat → Nat × Nat) : Option Grid :=
  if sr < 1 ∨ sc < 1 then none
  else
    (g.cells.find? fun c => decide (c.id = cellId)).bind fun cell =>
    if cell.rowSpan < sr then none
    else if cell.columnSpan < sc then none
    else if cell.rowSpan = 1 ∧ cell.columnSpan = 1 ∧ sr = 1 ∧ sc = 1 then none
    else
      match subCells cell sr sc with
      | [] => none
      | (_, _, rs, cs) :: rest => some
        { g with
          cells := (g.cells.map fun c =>
            if c.id = cellId then { cell with rowSpan := rs, columnSpan := cs } else c) ++
            newCells fresh 0 rest }

/-- `CellRange`, flow.rs L163-L170, without the table id. -/
structure CellRange where
  startRow : Nat
  startCol : Nat
  endRow : Nat
  endCol : Nat
deriving DecidableEq, Repr

/-- The body of the inner loop, flow.rs L181-L207, for the cell (row, column, row span, column span).
The code's subtraction overflows (panics in debug builds) when a cell has row and span 0; here it
gives 0. -/
def expandStep (s : CellRange × Bool) (c : Nat × Nat × Nat × Nat) : CellRange × Bool :=
  let bottom := c.1 + c.2.2.1 - 1
  let right := c.2.1 + c.2.2.2 - 1
  if c.1 ≤ s.1.endRow ∧ bottom ≥ s.1.startRow ∧ c.2.1 ≤ s.1.endCol ∧ right ≥ s.1.startCol then
    let s := if c.1 < s.1.startRow then ({ s.1 with startRow := c.1 }, true) else s
    let s := if bottom > s.1.endRow then ({ s.1 with endRow := bottom }, true) else s
    let s := if c.2.1 < s.1.startCol then ({ s.1 with startCol := c.2.1 }, true) else s
    let s := if right > s.1.endCol then ({ s.1 with endCol := right }, true) else s
    s
  else s

/-- One round of the outer loop, flow.rs L179-L210. -/
def expandPass (r : CellRange) (cells : List (Nat × Nat × Nat × Nat)) : CellRange × Bool :=
  cells.foldl expandStep (r, false)

/-- `expand_for_spans`, flow.rs L178-L213, run for at most `n` rounds; `none` means that it has not
stopped by then. -/
def expandForSpans (cells : List (Nat × Nat × Nat × Nat)) : Nat → CellRange → Option CellRange
  | 0, _ => none
  | n + 1, r =>
    if (expandPass r cells).2 then expandForSpans cells n (expandPass r cells).1
    else some (expandPass r cells).1

end Verif
