import Verif.Model.Reading
/-
Handles of tables and cells: public_api/src/text_table.rs, with `build_table_snapshot`, text_frame.rs L358-L399.
Simplifications: `to_usize` of a negative number, an assertion, is 0; a negative row or column matches no place (in the
code it is cast to a huge number); formats are part of the entities.  `none` is a panic.
-/
namespace Verif
namespace Store

/-- `TextTable::rows`, text_table.rs L32-L39. -/
def tableRows (s : Store) (id : Nat) : Nat := ((s.tables id).map fun t => t.rows.toNat).getD 0

/-- `TextTable::columns`, text_table.rs L42-L49. -/
def tableColumns (s : Store) (id : Nat) : Nat := ((s.tables id).map fun t => t.columns.toNat).getD 0

/-- `TextTable::column_widths`, text_table.rs L75-L82. -/
def tableWidths (s : Store) (id : Nat) : List Int32 := ((s.tables id).map fun t => t.columnWidths.map Int32.ofInt).getD []

/-- `TextTable::cell`, text_table.rs L52-L72: the id of the cell at a place. -/
def cellAtPlace (s : Store) (id row column : Nat) : Option Nat :=
  (s.tables id).bind fun t => t.cells.findSome? fun c => (s.tableCells c).bind fun x =>
    if x.row = row ∧ x.column = column then some x.id else none

/-- `TextTableCell::row`, `column`, `row_span`, `column_span`, text_table.rs L124-L161. -/
def cellPlace (s : Store) (id : Nat) : Nat × Nat × Nat × Nat :=
  ((s.tableCells id).map fun c => (c.row.toNat, c.column.toNat, c.rowSpan.toNat, c.columnSpan.toNat)).getD (0, 0, 1, 1)

/-- The blocks of a frame as `blocks` and `snapshot_blocks` sort them, text_table.rs L197-L209, text_block.rs L947-L958. -/
def frameSorted (s : Store) (frame : Nat) : List Block :=
  ((s.frames frame).map fun f => sortByKey Block.documentPosition ((s.getBlocks f.blocks).map s.refreshBlock)).getD []

/-- `TextTableCell::blocks`, text_table.rs L174-L218: the ids of the handles. -/
def cellBlocks (s : Store) (id : Nat) : List Nat :=
  (((s.tableCells id).bind TableCell.cellFrame).map fun f => (s.frameSorted f).map Block.id).getD []

/-- `build_blocks_snapshot_for_frame`, text_block.rs L936-L964. -/
def frameSnapshots (s : Store) (frame : Nat) : Option (List BlockSnap) :=
  (mapOpt (fun b : Block => s.blockSnap b.id none none) (s.frameSorted frame)).map fun l => l.filterMap id

/-- The snapshots of the blocks of a frame that need not be, text_table.rs L231-L234, text_frame.rs L370-L375. -/
def cellContent (s : Store) : Option Nat → Option (List BlockSnap)
  | none => some []
  | some f => s.frameSnapshots f

/-- `TextTableCell::snapshot_blocks`, text_table.rs L221-L236. -/
def cellSnapshots (s : Store) (id : Nat) : Option (List BlockSnap) :=
  s.cellContent ((s.tableCells id).bind TableCell.cellFrame)

/-- `TextTable::snapshot`, text_table.rs L95-L108, text_frame.rs L358-L399; the inner `none` says there is no such table. -/
def tableSnapshot (s : Store) (id : Nat) : Option (Option (Table × List CellSnap)) :=
  match s.tables id with
  | none => some none
  | some t =>
    (mapOpt (fun c : TableCell => (s.cellContent c.cellFrame).map fun bs => (⟨c, bs⟩ : CellSnap)) (t.cells.filterMap fun c => s.tableCells c)).map
    fun cs => some (t, cs)

end Store
end Verif
