import Verif.Model.BoxFormats
/-
Selections of cells: public_api/src/cursor.rs L1060-L1185 (calls that work where the cursor is), L1205-L1352
(`selection_kind`, `selected_cell_range`, `selected_cells`), L1355-L1392 (explicit selections), L1502-L1550 (helpers).
A cursor is given by its override, position and anchor.  Simplifications: a negative row or column is 0 (the code casts
it to a huge number); the loop of `expand_for_spans` runs for at most `n` rounds, and `none` means that it has not
stopped by then.
-/
namespace Verif

/-- `SelectionKind`, flow.rs L216-L235; the table id of a range is kept beside it. -/
inductive SelectionKind where
  | none
  | text
  | cells (table : Nat) (range : CellRange)
  | mixed (table : Nat) (range : CellRange) (before after : Bool)
deriving DecidableEq, Repr

namespace Store

/-- `collect_cell_spans`, cursor.rs L1524-L1550. -/
def cellSpans (s : Store) (table : Nat) : List (Nat × Nat × Nat × Nat) :=
  ((s.tables table).map fun t => t.cells.filterMap fun c => (s.tableCells c).map fun x =>
    (x.row.toNat, x.column.toNat, (max x.rowSpan 1).toNat, (max x.columnSpan 1).toNat)).getD []

/-- Whether the first paragraph of the first cell of the table lies between two positions, cursor.rs L1510-L1519. -/
def originBetween (s : Store) (start stop : Nat) (table : Nat) : Bool :=
  match (s.cellAtPlace table 0 0).bind fun c => (s.cellBlocks c).head? with
  | some b => decide (s.blockPosition b > start) && decide (s.blockPosition b < stop)
  | none => false

/-- `find_table_between`, cursor.rs L1502-L1522. -/
def findTableBetween (s : Store) (start stop : Nat) : Option Nat :=
  s.flow.findSome? fun
    | .table t => if s.originBetween start stop t then some t else none
    | _ => none

/-- The whole grid of a table, cursor.rs L1241-L1247, L1288-L1294. -/
def wholeRange (s : Store) (table : Nat) : CellRange :=
  ⟨0, 0, if s.tableRows table > 0 then s.tableRows table - 1 else 0,
    if s.tableColumns table > 0 then s.tableColumns table - 1 else 0⟩

/-- `selection_kind`, cursor.rs L1212-L1306. -/
def selectionKind (s : Store) (n : Nat) (override : Option (Nat × CellRange)) (pos anchor : Nat) : Option SelectionKind :=
  match override with
  | some r => some (.cells r.1 r.2)
  | none =>
    if pos = anchor then some .none
    else
      match s.tableCellAt pos, s.tableCellAt anchor with
      | none, none =>
        match s.findTableBetween (min pos anchor) (max pos anchor) with
        | some t => (expandForSpans (s.cellSpans t) n (s.wholeRange t)).map fun r => .mixed t r true true
        | none => some .text
      | some p, some a =>
        if p.1 ≠ a.1 then some .text
        else if p.2.1 = a.2.1 ∧ p.2.2 = a.2.2 then some .text
        else (expandForSpans (s.cellSpans p.1) n ⟨min p.2.1.toNat a.2.1.toNat, min p.2.2.toNat a.2.2.toNat,
          max p.2.1.toNat a.2.1.toNat, max p.2.2.toNat a.2.2.toNat⟩).map fun r => .cells p.1 r
      | some p, none =>
        (expandForSpans (s.cellSpans p.1) n (s.wholeRange p.1)).map fun r =>
          .mixed p.1 r (decide (anchor < pos)) (!decide (anchor < pos))
      | none, some a =>
        (expandForSpans (s.cellSpans a.1) n (s.wholeRange a.1)).map fun r =>
          .mixed a.1 r (decide (pos < anchor)) (!decide (pos < anchor))

/-- The cells a range takes in, cursor.rs L1325-L1352: their rows and columns. -/
def cellsInRange (s : Store) (table : Nat) (r : CellRange) : List (Nat × Nat) :=
  (List.range' r.startRow (r.endRow + 1 - r.startRow)).flatMap fun row =>
    (List.range' r.startCol (r.endCol + 1 - r.startCol)).filterMap fun col =>
      if (s.cellAtPlace table row col).isSome then some (row, col) else none

/-- `selected_cell_range` and `selected_cells`, cursor.rs L1316-L1352. -/
def selectedCells (s : Store) (n : Nat) (override : Option (Nat × CellRange)) (pos anchor : Nat) : Option (List (Nat × Nat)) :=
  (s.selectionKind n override pos anchor).map fun
    | .cells t r => s.cellsInRange t r
    | .mixed t r _ _ => s.cellsInRange t r
    | _ => []

/-- `select_cell_range`, cursor.rs L1368-L1386: the new override; `select_table_cell`, L1356-L1365, sets the range of one
place as it is. -/
def selectCellRange (s : Store) (n table r0 c0 r1 c1 : Nat) : Option (Nat × CellRange) :=
  (expandForSpans (s.cellSpans table) n ⟨r0, c0, r1, c1⟩).map fun r => (table, r)

/-- `merge_selected_cells`, cursor.rs L1125-L1166.  The paragraph at the anchor is taken as it is found, unlike in
`table_cell_at`. -/
def mergeSelectedCells (s : Store) (pos anchor : Nat) : Option (Store × Nat × Snapshot) :=
  (s.tableCellAt pos).bind fun p =>
  (s.blockAt anchor).bind fun i =>
  (s.tableCellOf i.blockId).bind fun a =>
  if p.1 ≠ a.1 then none
  else s.mergeTableCells p.1 (min p.2.1 a.2.1) (min p.2.2 a.2.2) (max p.2.1 a.2.1) (max p.2.2 a.2.2)

/-- `remove_current_table`, cursor.rs L1063-L1068. -/
def removeCurrentTable (s : Store) (pos : Nat) := (s.tableCellAt pos).bind fun c => s.removeTable c.1

/-- `insert_row_above` and `insert_row_below`, cursor.rs L1072-L1086. -/
def insertRowBeside (s : Store) (pos : Nat) (below : Bool) :=
  (s.tableCellAt pos).bind fun c => s.insertTableRow c.1 (if below then c.2.1 + 1 else c.2.1)

/-- `insert_column_before` and `insert_column_after`, cursor.rs L1090-L1104. -/
def insertColumnBeside (s : Store) (pos : Nat) (after : Bool) :=
  (s.tableCellAt pos).bind fun c => s.insertTableColumn c.1 (if after then c.2.2 + 1 else c.2.2)

/-- `remove_current_row`, cursor.rs L1108-L1113. -/
def removeCurrentRow (s : Store) (pos : Nat) := (s.tableCellAt pos).bind fun c => s.removeTableRow c.1 c.2.1

/-- `remove_current_column`, cursor.rs L1117-L1122. -/
def removeCurrentColumn (s : Store) (pos : Nat) := (s.tableCellAt pos).bind fun c => s.removeTableColumn c.1 c.2.2

/-- `split_current_cell`, cursor.rs L1170-L1181. -/
def splitCurrentCell (s : Store) (pos : Nat) (rows columns : Int) :=
  (s.tableCellAt pos).bind fun c =>
  (s.cellAtPlace c.1 c.2.1.toNat c.2.2.toNat).bind fun id => s.splitTableCell id rows columns

end Store
end Verif
