import Verif.Model.Editing
import Verif.Model.Grid
import Verif.Model.PlainText
/-
The table commands on the whole document: document_editing/src/use_cases/{insert_table,remove_table,
insert_table_row,insert_table_column,remove_table_row,remove_table_column,merge_table_cells,
split_table_cell}_uc.rs, with the entity operations on tables and cells they use
(common/src/direct_access/table, table_cell).  Model/Grid.lean has the part of these commands that
concerns the grid alone.  `none` is an error or a panic.  Clock stamps and events are left out, and
`i64` arithmetic does not overflow.
-/
namespace Verif
namespace Store

/-! ### Entity operations -/

/-- `DocumentRepository::set_relationship` for `Tables`, document_repository.rs L584-L700, and
document_table.rs L283-L294. -/
def setDocTables (s : Store) (did : Nat) (ids : List Nat) : Option Store :=
  if ids.all fun i => (s.tables i).isSome then
    match s.documents did with
    | some d => some { s with documents := s.documents.insert did { d with tables := ids } }
    | none => some s
  else none

/-- `TableTable::create` of a table without id, table_table.rs L39-L70. -/
def insertNewTable (s : Store) (t : Table) : Nat × Store :=
  let n := s.nextId "table"
  (n.1, { n.2 with tables := n.2.tables.insert n.1 { t with id := n.1 } })

/-- `TableRepository::create`, table_repository.rs L161-L186. -/
def createTable (s : Store) (t : Table) (owner : Nat) (index : Int) : Option (Nat × Store) :=
  let n := s.insertNewTable t
  (n.2.setDocTables owner (insertAtIndex (n.2.docTables owner) index n.1)).map fun s => (n.1, s)

/-- `get_table_relationship(id, Cells)`, table_table.rs L180-L194. -/
def tableCellIds (s : Store) (tid : Nat) : List Nat := ((s.tables tid).map Table.cells).getD []

/-- `get_table_cell_multi(ids).into_iter().flatten()`. -/
def getCells (s : Store) (ids : List Nat) : List TableCell := ids.filterMap fun i => s.tableCells i

/-- `TableRepository::set_relationship` for `Cells`, table_repository.rs L492-L540, table_table.rs
L276-L287. -/
def setTableCells (s : Store) (tid : Nat) (ids : List Nat) : Option Store :=
  if ids.all fun i => (s.tableCells i).isSome then
    match s.tables tid with
    | some t => some { s with tables := s.tables.insert tid { t with cells := ids } }
    | none => some s
  else none

/-- `TableCellTable::create` of a cell without id, table_cell_table.rs L45-L70. -/
def insertNewCell (s : Store) (c : TableCell) : Nat × Store :=
  let n := s.nextId "table_cell"
  (n.1, { n.2 with tableCells := n.2.tableCells.insert n.1 { c with id := n.1 } })

/-- `TableCellRepository::create`, table_cell_repository.rs L164-L189. -/
def createCell (s : Store) (c : TableCell) (owner : Nat) (index : Int) : Option (Nat × Store) :=
  let n := s.insertNewCell c
  (n.2.setTableCells owner (insertAtIndex (n.2.tableCellIds owner) index n.1)).map fun s => (n.1, s)

/-- The stored list of cells is kept, table_table.rs L103-L105. -/
def keepTable (t : Table) : Option Table → Table
  | some e => { t with cells := e.cells }
  | none => t

/-- `TableTable::update`, table_table.rs L93-L111. -/
def updateTable (s : Store) (t : Table) : Store :=
  { s with tables := s.tables.insert t.id (keepTable t (s.tables t.id)) }

/-- The stored cell frame is kept, table_cell_table.rs L105-L107. -/
def keepCell (c : TableCell) : Option TableCell → TableCell
  | some e => { c with cellFrame := e.cellFrame }
  | none => c

/-- `TableCellTable::update`, table_cell_table.rs L93-L112. -/
def updateCell (s : Store) (c : TableCell) : Store :=
  { s with tableCells := s.tableCells.insert c.id (keepCell c (s.tableCells c.id)) }

/-- `update_table_cell_multi`. -/
def updateCells (s : Store) (cs : List TableCell) : Store := cs.foldl updateCell s

/-- `TableCellTable::remove_multi`, table_cell_table.rs L141-L174. -/
def tableRemoveCells (s : Store) (ids : List Nat) : Store :=
  { s with
    tableCells := ids.foldl IdMap.erase s.tableCells
    tables := s.tables.mapValues fun t => { t with cells := t.cells.filter fun c => !ids.contains c } }

/-- The tables saved before a removal are rewritten without the removed cells,
table_cell_repository.rs L362-L376. -/
def rewriteTables (ids : List Nat) : List (Nat × List Nat) → Store → Option Store
  | [], s => some s
  | (o, l) :: os, s =>
    (s.setTableCells o (l.filter fun b => !ids.contains b)).bind fun s => rewriteTables ids os s

/-- `TableCellRepository::remove_multi`, table_cell_repository.rs L333-L379. -/
def removeCells (s : Store) (ids : List Nat) : Option Store :=
  if ids.all fun i => (s.tableCells i).isNone then some s
  else
    let owners := (s.tables.keys.filter fun t => (s.tableCellIds t).any fun c => ids.contains c).map
      fun t => (t, s.tableCellIds t)
    rewriteTables ids owners (s.tableRemoveCells ids)

/-- `TableTable::remove_multi` on one id, table_table.rs L137-L178. -/
def tableRemoveTable (s : Store) (id : Nat) : Store :=
  { s with
    tables := s.tables.erase id
    documents := s.documents.mapValues fun d => { d with tables := d.tables.filter fun i => i ≠ id }
    frames := s.frames.mapValues fun f => if f.table = some id then { f with table := none } else f }

/-- The documents saved before a table's removal are rewritten without it, table_repository.rs
L323-L330. -/
def rewriteDocTables (id : Nat) : List (Nat × List Nat) → Store → Option Store
  | [], s => some s
  | (o, l) :: os, s => (s.setDocTables o (l.filter fun b => b ≠ id)).bind fun s => rewriteDocTables id os s

/-- `TableRepository::remove`, table_repository.rs L282-L333. -/
def removeTableEntity (s : Store) (id : Nat) : Option Store :=
  match s.tables id with
  | none => some s
  | some t =>
    (s.removeCells t.cells).bind fun s =>
    let owners := (s.documents.keys.filter fun d => (s.docTables d).contains id).map fun d =>
      (d, s.docTables d)
    rewriteDocTables id owners (s.tableRemoveTable id)

/-- `update_frame_with_relationships`, frame_table.rs L120-L135. -/
def updateFrameRel (s : Store) (f : Frame) : Store := { s with frames := s.frames.insert f.id f }

/-! ### Shared steps -/

/-- `create_cell_frame`, editing_helpers.rs L52-L73: the frame and its block. -/
def createCellFrame (s : Store) (did : Nat) : Option ((Nat × Nat) × Store) :=
  (s.createFrame {} did (-1)).bind fun (g, s) =>
  (s.frames g).bind fun created =>
  (s.createBlock {} g (-1)).map fun (b, s) => ((g, b), s.updateFrame { created with childOrder := [(b : Int)] })

/-- The loops that create cells, e.g. insert_table_uc.rs L322-L349: for each place (row, column, row
span, column span) a frame, a block and a cell. -/
def createCells (s : Store) (did tid : Nat) : List (Int × Int × Int × Int) →
    Option (List (Nat × Nat × Nat) × Store)
  | [] => some ([], s)
  | (r, c, rs, cs) :: l =>
    (s.createCellFrame did).bind fun ((g, b), s) =>
    (s.createCell (newCell (0, g) r c rs cs) tid (-1)).bind fun (cell, s) =>
    (createCells s did tid l).map fun (xs, s) => ((g, b, cell) :: xs, s)

/-- `walk_frame_bounds`, rope_helpers.rs L956-L1010: the byte ranges of everything in a frame.
`fuel` bounds the nesting: a frame that contains itself overflows the stack in the code. -/
def frameRanges (s : Store) : Nat → Nat → Option (List (Nat × Nat))
  | 0, _ => none
  | fuel + 1, fid =>
    match s.frames fid with
    | none => some []
    | some f =>
      (mapOpt (fun b => s.blockOffsets.rangeOf (.block b)) f.blocks).bind fun own =>
      (mapOpt (fun t => s.blockOffsets.rangeOf (.table t)) f.table.toList).bind fun anchor =>
      (mapOpt (fun e : Int => if e < 0 then s.frameRanges fuel (-e).toNat else some []) f.childOrder).bind fun subs =>
      (mapOpt (s.frameRanges fuel) ((s.getCells (f.table.toList.flatMap s.tableCellIds)).filterMap
        TableCell.cellFrame)).map fun cells =>
      own.filterMap id ++ anchor.filterMap id ++ subs.flatten ++ cells.flatten

/-- The walk to the top, rope_helpers.rs L350-L362; inner `none`: a frame is missing. -/
def topFrame (s : Store) : Nat → Nat → Option (Option Nat)
  | 0, _ => none
  | fuel + 1, fid =>
    match s.frames fid with
    | none => some none
    | some f => match f.parentFrame with
      | none => some (some fid)
      | some p => s.topFrame fuel p

/-- `top_level_frame_end_byte`, rope_helpers.rs L349-L365. -/
def topLevelFrameEnd (s : Store) (fid : Nat) : Option Nat :=
  (s.topFrame (s.frames.len + 1) fid).bind fun
  | none => some 0
  | some top => (s.frameRanges (s.frames.len + 1) top).map fun rs => rs.foldl (fun m r => max m r.2) 0

/-- New empty blocks put into the text one after the other, e.g. insert_table_uc.rs L476-L486. -/
def ropeInsertEmpty : Nat → List Nat → RopeSt → Option RopeSt
  | _, [], st => some st
  | byte, b :: bs, st => (ropeInsertBlockAt st byte b []).bind fun st => ropeInsertEmpty (byte + 1) bs st

/-- The same at the end of the top-level frame of `fid`. -/
def addCellText (s : Store) (fid : Nat) (blocks : List Nat) : Option Store :=
  (s.topLevelFrameEnd fid).bind fun start =>
  (ropeInsertEmpty start blocks s.text).map fun r => s.withText r

/-! ### insert_table -/

/-- The place of a block in the text in characters, insert_table_uc.rs L79-L125. -/
def readSpot (rope : List Char) : Marker × Nat → Option (List (Nat × Nat))
  | (.block id, b) => (byteToChar rope b).map fun n => [(id, n)]
  | (.table _, _) => some []

/-- The stored positions brought up to date from the text, insert_table_uc.rs L79-L125. -/
def catchUp (s : Store) : Option Store :=
  if ropePositionsMatchFlow s.text s.blocks.len then
    (mapOpt (readSpot s.rope) s.blockOffsets.entries).map fun l =>
    s.updateBlocks (l.flatten.filterMap fun x => (s.blocks x.1).bind fun b =>
      if b.documentPosition = (x.2 : Int) then none else some { b with documentPosition := (x.2 : Int) })
  else some s

/-- The blocks of all frames of the document by stored position, insert_table_uc.rs L127-L139. -/
def allBlocks (s : Store) (did : Nat) : List Block :=
  sortByKey Block.documentPosition ((s.docFrames did).flatMap fun f => s.getBlocks (s.frameBlocks f))

/-- The frame and the index in its order of an entry, insert_table_uc.rs L189-L204. -/
def findChild (s : Store) (entry : Int) : List Nat → Option (Option (Nat × Nat))
  | [] => some none
  | f :: fs => (s.frames f).bind fun fr =>
    match fr.childOrder.findIdx? (fun e => decide (e = entry)) with
    | some i => some (some (f, i))
    | none => s.findChild entry fs

/-- The last position of a table, insert_table_uc.rs L262-L285: the largest end of a block in a frame
whose parent is `anchor`, 0 if there is none. -/
def lastEnd (s : Store) (did anchor : Nat) : Option Int :=
  (mapOpt (fun f => (s.frames f).bind fun fr =>
    if fr.parentFrame = some anchor then
      mapOpt (fun b : Block => (blockCharLength s.text b.id).map fun (n : Nat) => b.documentPosition + n)
        (s.getBlocks (s.frameBlocks f))
    else some []) (s.docFrames did)).map fun ends =>
  match ends.flatten with
  | [] => 0
  | e :: es => es.foldl max e

/-- Where the new table goes: parent frame, index in its order, neighbour in the text (and whether the
table comes after it), position of the first cell. -/
structure TablePlace where
  parent : Nat
  index : Nat
  neighbour : Option (Nat × Bool)
  start : Int

/-- insert_table_uc.rs L154-L307. -/
def tablePlace (s : Store) (did : Nat) (all : List Block) (position : Int) : Option TablePlace :=
  if all = [] then (s.docFrames did).head?.map fun f => ⟨f, 0, none, position⟩
  else
    (s.findBlockAtPosition all position).bind fun (target, _, offset) =>
    (blockCharLength s.text target.id).bind fun (len : Nat) =>
    (s.docFrames did).head?.bind fun first =>
    (s.findChild target.id (s.docFrames did)).bind fun found =>
    let home := found.getD (first, 0)
    let after := decide (offset > 0)
    let start := if after then target.documentPosition + len + 1 else target.documentPosition
    (s.frames home.1).bind fun owning =>
    (match owning.parentFrame with
      | none => some none
      | some p => (s.frames p).map fun (parent : Frame) =>
        if parent.table.isSome then parent.parentFrame.map fun g => (p, g) else none).bind
      fun (hoist : Option (Nat × Nat)) =>
    match hoist with
    | some (anchor, grand) =>
      (s.frames grand).bind fun gf =>
      (gf.childOrder.findIdx? fun e => decide (e = -(anchor : Int))).bind fun i =>
      (s.lastEnd did anchor).map fun e => ⟨grand, i + 1, some (target.id, true), e + 1⟩
    | none => some ⟨home.1, home.2 + (if after then 1 else 0), some (target.id, after), start⟩

/-- The cell frames get the anchor as their parent, insert_table_uc.rs L384-L391. -/
def adopt (anchor : Nat) (s : Store) (g : Nat) : Store :=
  match s.frames g with
  | some cf => s.updateFrameRel { cf with parentFrame := some anchor }
  | none => s

/-- Anchor frame, parents of the cell frames, entry in the parent's order, insert_table_uc.rs
L355-L405. -/
def linkTable (s : Store) (did tid parent index : Nat) (frames : List Nat) : Option Store :=
  (s.createFrame { parentFrame := some parent, table := some tid } did (-1)).bind fun (a, s) =>
  let s := frames.foldl (adopt a) s
  (s.frames parent).map fun (pf : Frame) =>
  s.updateFrame { pf with childOrder := pf.childOrder.insertIdx (min index pf.childOrder.length) (-(a : Int)) }

/-- The table's place in the text, insert_table_uc.rs L407-L414. -/
def anchorText (s : Store) (tid : Nat) : Option (Nat × Bool) → Option Store
  | some (b, after) => (ropeInsertTableAnchor s.text tid b after).map fun r => s.withText r
  | none => some s

/-- The positions of the new blocks, insert_table_uc.rs L449-L458: they are still as created. -/
def placeCells (s : Store) (start : Int) (blocks : List Nat) : Store :=
  s.updateBlocks (blocks.zipIdx.map fun (x : Nat × Nat) => { id := x.1, documentPosition := start + (x.2 : Int) })

/-- The blocks at or after a position are moved, insert_table_uc.rs L504-L515. -/
def shiftFrom (s : Store) (blocks : List Block) (start d : Int) : Store :=
  s.updateBlocks ((blocks.filter fun (b : Block) => decide (b.documentPosition ≥ start)).map fun (b : Block) =>
    { b with documentPosition := b.documentPosition + d })

/-- The places of a new table's cells, insert_table_uc.rs L322-L323. -/
def gridPlaces (rows columns : Int) : List (Int × Int × Int × Int) :=
  (intRange rows).flatMap fun r => (intRange columns).map fun c => (r, c, 1, 1)

/-- `execute_insert_table`, insert_table_uc.rs L53-L536: the store, the id of the table, the new
caret, the snapshot. -/
def insertTable (s : Store) (position anchor rows columns : Int) : Option (Store × Nat × Int × Snapshot) :=
  if rows < 1 ∨ columns < 1 then none
  else
    s.docId.bind fun did =>
    (s.documents did).bind fun document =>
    let snap := s.snapshot
    s.catchUp.bind fun s =>
    let all := s.allBlocks did
    let pos := min position anchor
    (s.tablePlace did all pos).bind fun place =>
    (s.createTable { rows, columns, columnWidths := List.replicate columns.toNat 0 } did (-1)).bind fun (tid, s) =>
    (s.createCells did tid (gridPlaces rows columns)).bind fun (cells, s) =>
    (s.linkTable did tid place.parent place.index (cells.map Prod.fst)).bind fun s =>
    (s.anchorText tid place.neighbour).bind fun s =>
    ((s.placeCells place.start (cells.map fun x => x.2.1)).addCellText place.parent (cells.map fun x => x.2.1)).map
      fun s =>
    ((s.shiftFrom all place.start (rows * columns)).updateDocument
      { document with blockCount := document.blockCount + rows * columns }, tid, pos, snap)

/-! ### remove_table -/

/-- `rope_remove_block` of several blocks. -/
def ropeRemoveBlocks : List Nat → RopeSt → Option RopeSt
  | [], st => some st
  | b :: bs, st => (ropeRemoveBlock st b).bind fun st => ropeRemoveBlocks bs st

/-- The first frame of the list with the table, remove_table_uc.rs L118-L130. -/
def anchorOf (s : Store) (tid : Nat) (frames : List Nat) : Option Nat :=
  frames.findSome? fun f => (s.frames f).bind fun fr => if fr.table = some tid then some fr.id else none

/-- The anchor leaves its parent's order and goes, remove_table_uc.rs L137-L153.  `frames` are the
frames of the document before anything was removed. -/
def dropAnchor (s : Store) (a : Nat) (frames : List Nat) : Option Store :=
  let s := match (frames.filterMap fun f => s.frames f).find? fun fr => fr.childOrder.contains (-(a : Int)) with
    | some fr => s.updateFrame { fr with childOrder := fr.childOrder.filter fun e => e ≠ -(a : Int) }
    | none => s
  s.removeFrame a

/-- remove_table_uc.rs L135-L154. -/
def dropAnchor? (s : Store) : Option Nat → List Nat → Option Store
  | some a, frames => s.dropAnchor a frames
  | none, _ => some s

/-- The blocks behind the removed cells are moved, remove_table_uc.rs L164-L188. -/
def closeGap (s : Store) (did : Nat) (total : Int) : List Int → Store
  | [] => s
  | p :: ps => s.shiftFrom ((s.docFrames did).flatMap fun f => s.getBlocks (s.frameBlocks f))
      (ps.foldl min p) (-total)

/-- `execute_remove_table`, remove_table_uc.rs L43-L198. -/
def removeTable (s : Store) (tid : Nat) : Option (Store × Snapshot) :=
  s.docId.bind fun did =>
  (s.documents did).bind fun document =>
  (s.tables tid).bind fun _ =>
  let snap := s.snapshot
  let frames := (s.getCells (s.tableCellIds tid)).filterMap TableCell.cellFrame
  let blocks := frames.flatMap fun f => s.getBlocks (s.frameBlocks f)
  let total : Int := blocks.length
  (ropeRemoveBlocks (blocks.map Block.id) s.text).bind fun r =>
  let s := s.withText r
  let docFrames := s.docFrames did
  let a := s.anchorOf tid docFrames
  (removeFrames frames s).bind fun s =>
  (s.dropAnchor? a docFrames).bind fun s =>
  (ropeRemoveTableAnchor s.text tid).bind fun r =>
  let s := s.withText r
  (s.removeTableEntity tid).map fun s =>
  ((s.closeGap did total (blocks.map Block.documentPosition)).updateDocument
    { document with blockCount := document.blockCount - total }, snap)

/-! ### Rows, columns, merging and splitting -/

/-- `compute_table_base_pos`, editing_helpers.rs L130-L150. -/
def tableBase (s : Store) (frames : List Nat) : Int :=
  match (frames.flatMap fun f => s.getBlocks (s.frameBlocks f)).map Block.documentPosition with
  | [] => 0
  | p :: ps => ps.foldl min p

/-- The cells of a table in row-major order, e.g. insert_table_row_uc.rs L169-L172. -/
def sortedCells (s : Store) (tid : Nat) : List TableCell :=
  sortByKey TableCell.row (sortByKey TableCell.column (s.getCells (s.tableCellIds tid)))

/-- `reassign_cell_block_positions`, editing_helpers.rs L102-L128, and the update that follows it. -/
def reassignCells (s : Store) (tid : Nat) (base : Int) : Store :=
  let blocks := (s.sortedCells tid).flatMap fun c =>
    c.cellFrame.toList.flatMap fun f => sortByKey Block.documentPosition (s.getBlocks (s.frameBlocks f))
  s.updateBlocks (blocks.zipIdx.map fun x => { x.1 with documentPosition := base + (x.2 : Int) })

/-- The blocks outside the table that lie behind its start are moved, e.g. insert_table_row_uc.rs
L183-L207. -/
def shiftOutside (s : Store) (did tid : Nat) (base d : Int) : Store :=
  let inside := (s.sortedCells tid).filterMap TableCell.cellFrame
  s.shiftFrom (((s.docFrames did).filter fun f => !inside.contains f).flatMap fun f =>
    s.getBlocks (s.frameBlocks f)) base d

/-- The new cells' blocks put into the text behind the frame of the table, e.g. insert_table_row_uc.rs
L150-L164.  The frame of the table is the first found in the map of frames. -/
def addToTable (s : Store) (tid : Nat) (blocks : List Nat) : Option Store :=
  match (s.frames.keys.findSome? fun f => (s.frames f).bind fun fr =>
    if fr.table = some tid then some fr.parentFrame else none).join with
  | some p => s.addCellText p blocks
  | none => some s

/-- The removed cells' frames and blocks, e.g. remove_table_row_uc.rs L136-L166. -/
def dropCells (s : Store) (gone : List TableCell) : Option Store :=
  let frames := gone.filterMap TableCell.cellFrame
  let blocks := frames.flatMap s.frameBlocks
  (removeFrames frames s).bind fun s =>
  (ropeRemoveBlocks blocks s.text).bind fun r =>
  let s := s.withText r
  if gone = [] then some s else s.removeCells (gone.map TableCell.id)

/-- `execute_insert_table_row`, insert_table_row_uc.rs L54-L220.  Every cell is written back, also
those that did not change; the code writes only the changed ones. -/
def insertTableRow (s : Store) (tid : Nat) (idx : Int) : Option (Store × Snapshot) :=
  s.docId.bind fun did =>
  (s.documents did).bind fun document =>
  (s.tables tid).bind fun table =>
  if idx < 0 ∨ idx > table.rows then none
  else
    let snap := s.snapshot
    let cells := s.getCells (s.tableCellIds tid)
    let base := s.tableBase (cells.filterMap TableCell.cellFrame)
    let s := s.updateCells (cells.map (rowShift idx))
    (s.createCells did tid ((intRange table.columns).map fun c => (idx, c, 1, 1))).bind fun (xs, s) =>
    let s := s.updateTable { table with rows := table.rows + 1 }
    (s.addToTable tid (xs.map fun x => x.2.1)).bind fun s =>
    let s := s.reassignCells tid base
    let s := s.shiftOutside did tid base table.columns
    some (s.updateDocument { document with blockCount := document.blockCount + table.columns }, snap)

/-- `execute_insert_table_column`, insert_table_column_uc.rs L54-L222. -/
def insertTableColumn (s : Store) (tid : Nat) (idx : Int) : Option (Store × Snapshot) :=
  s.docId.bind fun did =>
  (s.documents did).bind fun document =>
  (s.tables tid).bind fun table =>
  if idx < 0 ∨ idx > table.columns then none
  else
    let snap := s.snapshot
    let cells := s.getCells (s.tableCellIds tid)
    let base := s.tableBase (cells.filterMap TableCell.cellFrame)
    let s := s.updateCells (cells.map (columnShift idx))
    (s.createCells did tid ((intRange table.rows).map fun r => (r, idx, 1, 1))).bind fun (xs, s) =>
    let s := s.updateTable { table with
      columns := table.columns + 1
      columnWidths := table.columnWidths.insertIdx (min idx.toNat table.columnWidths.length) 0 }
    (s.addToTable tid (xs.map fun x => x.2.1)).bind fun s =>
    let s := s.reassignCells tid base
    let s := s.shiftOutside did tid base table.rows
    some (s.updateDocument { document with blockCount := document.blockCount + table.rows }, snap)

/-- `execute_remove_table_row`, remove_table_row_uc.rs L52-L232. -/
def removeTableRow (s : Store) (tid : Nat) (idx : Int) : Option (Store × Snapshot) :=
  s.docId.bind fun did =>
  (s.documents did).bind fun document =>
  (s.tables tid).bind fun table =>
  if idx < 0 ∨ idx ≥ table.rows then none
  else if table.rows ≤ 1 then none
  else
    let snap := s.snapshot
    let cells := s.getCells (s.tableCellIds tid)
    let base := s.tableBase (cells.filterMap TableCell.cellFrame)
    let gone := cells.filter fun c => (rowUnshift idx c).isNone
    (s.dropCells gone).bind fun s =>
    let s := s.updateCells (cells.filterMap (rowUnshift idx))
    let s := s.updateTable { table with rows := table.rows - 1 }
    let s := s.reassignCells tid base
    let s := s.shiftOutside did tid base (-(gone.length : Int))
    some (s.updateDocument { document with blockCount := document.blockCount - gone.length }, snap)

/-- `execute_remove_table_column`, remove_table_column_uc.rs L52-L240. -/
def removeTableColumn (s : Store) (tid : Nat) (idx : Int) : Option (Store × Snapshot) :=
  s.docId.bind fun did =>
  (s.documents did).bind fun document =>
  (s.tables tid).bind fun table =>
  if table.columns ≤ 1 then none
  else if idx < 0 ∨ idx ≥ table.columns then none
  else
    let snap := s.snapshot
    let cells := s.getCells (s.tableCellIds tid)
    let base := s.tableBase (cells.filterMap TableCell.cellFrame)
    let gone := cells.filter fun c => (columnUnshift idx c).isNone
    (s.dropCells gone).bind fun s =>
    let s := s.updateCells (cells.filterMap (columnUnshift idx))
    let s := s.updateTable { table with
      columns := table.columns - 1
      columnWidths := if idx.toNat < table.columnWidths.length then table.columnWidths.eraseIdx idx.toNat
        else table.columnWidths }
    let s := s.reassignCells tid base
    let s := s.shiftOutside did tid base (-(gone.length : Int))
    some (s.updateDocument { document with blockCount := document.blockCount - gone.length }, snap)

/-- `execute_merge_table_cells`, merge_table_cells_uc.rs L50-L257: the store, the surviving cell, the
snapshot. -/
def mergeTableCells (s : Store) (tid : Nat) (r0 c0 r1 c1 : Int) : Option (Store × Nat × Snapshot) :=
  s.docId.bind fun did =>
  (s.documents did).bind fun document =>
  (s.tables tid).bind fun table =>
  if r0 > r1 then none
  else if c0 > c1 then none
  else if r0 < 0 ∨ r1 ≥ table.rows ∨ c0 < 0 ∨ c1 ≥ table.columns then none
  else
    let cells := s.getCells (s.tableCellIds tid)
    let inRange := cells.filter (startsInside r0 c0 r1 c1)
    if inRange.any fun c => decide (c.rowSpan > 1 ∨ c.columnSpan > 1) then none
    else
      let snap := s.snapshot
      (inRange.find? fun c => decide (c.row = r0 ∧ c.column = c0)).bind fun surv =>
      let gone := inRange.filter fun c => decide (c.id ≠ surv.id)
      let base := s.tableBase (cells.filterMap TableCell.cellFrame)
      (s.dropCells gone).bind fun s =>
      let s := s.updateCell { surv with rowSpan := r1 - r0 + 1, columnSpan := c1 - c0 + 1 }
      let s := s.reassignCells tid base
      let s := s.shiftOutside did tid base (-(gone.length : Int))
      some (s.updateDocument { document with blockCount := document.blockCount - gone.length }, surv.id, snap)

/-- `execute_split_table_cell`, split_table_cell_uc.rs L54-L270: the store, the cells, the snapshot. -/
def splitTableCell (s : Store) (cid : Nat) (sr sc : Int) : Option (Store × List Nat × Snapshot) :=
  if sr < 1 ∨ sc < 1 then none
  else
    (s.tableCells cid).bind fun cell =>
    if cell.rowSpan < sr then none
    else if cell.columnSpan < sc then none
    else if cell.rowSpan = 1 ∧ cell.columnSpan = 1 ∧ sr = 1 ∧ sc = 1 then none
    else
      s.docId.bind fun did =>
      (s.documents did).bind fun document =>
      ((s.docTables did).find? fun t => (s.tableCellIds t).contains cid).bind fun tid =>
      (s.tables tid).bind fun _ =>
      let snap := s.snapshot
      let base := s.tableBase ((s.getCells (s.tableCellIds tid)).filterMap TableCell.cellFrame)
      match subCells cell sr sc with
      | [] => none
      | (_, _, rs, cs) :: rest =>
        let s := s.updateCell { cell with rowSpan := rs, columnSpan := cs }
        (s.createCells did tid rest).bind fun (xs, s) =>
        (s.addToTable tid (xs.map fun x => x.2.1)).bind fun s =>
        let s := s.reassignCells tid base
        let s := if rest.length > 0 then s.shiftOutside did tid base rest.length else s
        some (s.updateDocument { document with blockCount := document.blockCount + rest.length },
          cell.id :: xs.map fun x => x.2.2, snap)

/-- `undo` of every table command, e.g. insert_table_uc.rs L565-L576. -/
def undoTable (s : Store) (snap : Snapshot) : Store := s.restoreUndo snap

end Store
end Verif
