import Verif.Model.Repository
import Verif.Model.UndoRedo
/-
The entity layer behind the entity commands of the frontend (`frontend/src/commands/*_commands.rs`,
`direct_access/src/*/*_controller.rs`): tables (`common/src/direct_access/*/*_table.rs`),
repositories (`*_repository.rs`) and the undoable use cases (`common/src/direct_access/use_cases/`).
The eight entities have their own copy of the same code; here one definition covers all eight.
`none` is an error.  Events and time stamps are left out; a list of ids is sorted before a cascade
(`sort`, `dedup`), which only shows in the events, so the sorting is left out.
-/
namespace Verif

/-- The eight entities, common/src/entities.rs. -/
inductive EKind where
  | root | document | frame | block | list | resource | table | tableCell
deriving DecidableEq

/-- The type of each. -/
@[reducible] def Ent : EKind → Type
  | .root => Root
  | .document => Document
  | .frame => Frame
  | .block => Block
  | .list => TList
  | .resource => Resource
  | .table => Table
  | .tableCell => TableCell

/-- `HasId::id`, common/src/types.rs. -/
def entId : (k : EKind) → Ent k → Nat
  | .root, e => Root.id e
  | .document, e => Document.id e
  | .frame, e => Frame.id e
  | .block, e => Block.id e
  | .list, e => TList.id e
  | .resource, e => Resource.id e
  | .table, e => Table.id e
  | .tableCell, e => TableCell.id e

/-- `X { id, ..entity.clone() }`. -/
def entWithId : (k : EKind) → Ent k → Nat → Ent k
  | .root, (e : Root), i => { e with id := i }
  | .document, (e : Document), i => { e with id := i }
  | .frame, (e : Frame), i => { e with id := i }
  | .block, (e : Block), i => { e with id := i }
  | .list, (e : TList), i => { e with id := i }
  | .resource, (e : Resource), i => { e with id := i }
  | .table, (e : Table), i => { e with id := i }
  | .tableCell, (e : TableCell), i => { e with id := i }

/-- The name of the id counter, the argument of `next_id` in each `create_multi`. -/
def EKind.counter : EKind → String
  | .root => "root"
  | .document => "document"
  | .frame => "frame"
  | .block => "block"
  | .list => "list"
  | .resource => "resource"
  | .table => "table"
  | .tableCell => "table_cell"

/-- The relationship fields: `RootRelationshipField`, `DocumentRelationshipField`,
`FrameRelationshipField`, `BlockRelationshipField`, `TableRelationshipField`,
`TableCellRelationshipField` in the `*_repository.rs` files. -/
inductive RelField where
  | rootDocument
  | docFrames | docResources | docLists | docTables
  | frameBlocks | frameParent | frameTable
  | blockList
  | tableCells
  | cellFrame
deriving DecidableEq

/-- The entity that has the field. -/
@[reducible] def RelField.left : RelField → EKind
  | .rootDocument => .root
  | .docFrames | .docResources | .docLists | .docTables => .document
  | .frameBlocks | .frameParent | .frameTable => .frame
  | .blockList => .block
  | .tableCells => .table
  | .cellFrame => .tableCell

/-- The entity it refers to. -/
@[reducible] def RelField.right : RelField → EKind
  | .rootDocument => .document
  | .docFrames | .frameParent | .cellFrame => .frame
  | .docResources => .resource
  | .docLists | .blockList => .list
  | .docTables | .frameTable => .table
  | .frameBlocks => .block
  | .tableCells => .tableCell

/-- `read_field`: root_table.rs L30-L40, document_table.rs L19-L26, frame_table.rs L18-L24,
block_table.rs L16-L20, table_table.rs L16-L20, table_cell_table.rs L16-L20. -/
def RelField.read : (r : RelField) → Ent r.left → List Nat
  | .rootDocument, (e : Root) => if e.document = 0 then [] else [e.document]
  | .docFrames, (e : Document) => e.frames
  | .docResources, (e : Document) => e.resources
  | .docLists, (e : Document) => e.lists
  | .docTables, (e : Document) => e.tables
  | .frameBlocks, (e : Frame) => e.blocks
  | .frameParent, (e : Frame) => e.parentFrame.toList
  | .frameTable, (e : Frame) => e.table.toList
  | .blockList, (e : Block) => e.list.toList
  | .tableCells, (e : Table) => e.cells
  | .cellFrame, (e : TableCell) => e.cellFrame.toList

/-- `write_field`: root_table.rs L42-L48, document_table.rs L28-L35, frame_table.rs L26-L32,
block_table.rs L22-L26, table_table.rs L22-L26, table_cell_table.rs L22-L26.  A field with one value
takes the first id. -/
def RelField.write : (r : RelField) → Ent r.left → List Nat → Ent r.left
  | .rootDocument, (e : Root), ids => { e with document := ids.head?.getD 0 }
  | .docFrames, (e : Document), ids => { e with frames := ids }
  | .docResources, (e : Document), ids => { e with resources := ids }
  | .docLists, (e : Document), ids => { e with lists := ids }
  | .docTables, (e : Document), ids => { e with tables := ids }
  | .frameBlocks, (e : Frame), ids => { e with blocks := ids }
  | .frameParent, (e : Frame), ids => { e with parentFrame := ids.head? }
  | .frameTable, (e : Frame), ids => { e with table := ids.head? }
  | .blockList, (e : Block), ids => { e with list := ids.head? }
  | .tableCells, (e : Table), ids => { e with cells := ids }
  | .cellFrame, (e : TableCell), ids => { e with cellFrame := ids.head? }

/-- The field through which an entity is owned (`get_relationships_from_owner` of each repository);
a root has no owner. -/
def EKind.owner : EKind → Option RelField
  | .root => none
  | .document => some .rootDocument
  | .frame => some .docFrames
  | .block => some .frameBlocks
  | .list => some .docLists
  | .resource => some .docResources
  | .table => some .docTables
  | .tableCell => some .tableCells

/-- What `update_multi` keeps of the stored entity: root_table.rs L145-L158, document_table.rs
L114-L121, frame_table.rs L108-L113, block_table.rs L102-L105, table_table.rs L103-L106,
table_cell_table.rs L106-L109; list_table.rs L72-L80 and resource_table.rs L82-L90 keep nothing. -/
def keepEnt : (k : EKind) → Ent k → Ent k → Ent k
  | .root, (e : Root), (o : Root) => { e with document := o.document }
  | .document, (e : Document), (o : Document) =>
    { e with frames := o.frames, lists := o.lists, resources := o.resources, tables := o.tables }
  | .frame, (e : Frame), (o : Frame) =>
    { e with parentFrame := o.parentFrame, blocks := o.blocks, table := o.table }
  | .block, (e : Block), (o : Block) => { e with list := o.list }
  | .list, e, _ => e
  | .resource, e, _ => e
  | .table, (e : Table), (o : Table) => { e with cells := o.cells }
  | .tableCell, (e : TableCell), (o : TableCell) => { e with cellFrame := o.cellFrame }

namespace Store

/-- The map of one entity, `RopeStore` L25-L52. -/
def tab (s : Store) : (k : EKind) → IdMap (Ent k)
  | .root => s.roots
  | .document => s.documents
  | .frame => s.frames
  | .block => s.blocks
  | .list => s.lists
  | .resource => s.resources
  | .table => s.tables
  | .tableCell => s.tableCells

/-- Writing it back. -/
def withTab (s : Store) : (k : EKind) → IdMap (Ent k) → Store
  | .root, m => { s with roots := m }
  | .document, m => { s with documents := m }
  | .frame, m => { s with frames := m }
  | .block, m => { s with blocks := m }
  | .list, m => { s with lists := m }
  | .resource, m => { s with resources := m }
  | .table, m => { s with tables := m }
  | .tableCell, m => { s with tableCells := m }

/-! ### Reading -/

/-- `get_relationship`, e.g. frame_table.rs L219-L232. -/
def readRel (s : Store) (r : RelField) (id : Nat) : List Nat := ((s.tab r.left id).map r.read).getD []

/-- `get_relationship_count`, e.g. frame_table.rs L250-L264. -/
def countRel (s : Store) (r : RelField) (id : Nat) : Nat :=
  ((s.tab r.left id).map fun e => (r.read e).length).getD 0

/-- `get_relationship_in_range`, e.g. frame_table.rs L266-L288. -/
def rangeRel (s : Store) (r : RelField) (id offset limit : Nat) : List Nat :=
  ((s.tab r.left id).map fun e => ((r.read e).drop offset).take limit).getD []

/-! ### Writing relationships -/

/-- `check_one_to_one`, root_table.rs L51-L69. -/
def soleDoc (s : Store) (rid did : Nat) : Bool :=
  did == 0 || s.roots.keys.all fun i => i == rid || ((s.roots i).map Root.document != some did)

/-- `set_relationship` of a repository, e.g. frame_repository.rs L528-L607, and of its table,
frame_table.rs L320-L331; root_table.rs L305-L321.  Every id must exist; an absent entity is left
absent. -/
def setRel (s : Store) (r : RelField) (id : Nat) (ids : List Nat) : Option Store :=
  if ids.all fun i => (s.tab r.right i).isSome then
    if r = .rootDocument ∧ !(ids.head?.all fun d => s.soleDoc id d) then none
    else match s.tab r.left id with
      | some e => some (s.withTab r.left ((s.tab r.left).insert id (r.write e ids)))
      | none => some s
  else none

end Store

/-- `reorder`, frame_table.rs L470-L488 (the same in every table). -/
def reorderIds (current moved : List Nat) (index : Int) : List Nat :=
  if moved.isEmpty then current
  else
    let rest := current.filter fun i => !moved.contains i
    let at_ := if index < 0 ∨ index > (rest.length : Int) then rest.length else index.toNat
    rest.take at_ ++ moved ++ rest.drop at_

/-- Where created ids go in the owner's list, e.g. block_repository.rs L201-L207 (they are inserted
one after the other). -/
def insertIdsAt (l : List Nat) (index : Int) (ids : List Nat) : List Nat :=
  if 0 ≤ index ∧ index < (l.length : Int) then l.take index.toNat ++ ids ++ l.drop index.toNat
  else l ++ ids

namespace Store

/-- `move_relationship_ids`, e.g. frame_repository.rs and frame_table.rs L333-L348: the new list is
returned; nothing is checked. -/
def moveRel (s : Store) (r : RelField) (id : Nat) (moved : List Nat) (index : Int) :
    List Nat × Store :=
  match s.tab r.left id with
  | some e =>
    let l := reorderIds (r.read e) moved index
    (l, s.withTab r.left ((s.tab r.left).insert id (r.write e l)))
  | none => ([], s)

/-! ### Creating -/

/-- The document of a root, the argument of the one-to-one check in root_table.rs L108-L119; no other
entity is checked. -/
def rootDoc : (k : EKind) → Ent k → Nat
  | .root, e => Root.document e
  | _, _ => 0

/-- `create` of a table: root_table.rs L90-L121, document_table.rs, frame_table.rs L45-L75,
block_table.rs L39-L69, list_table.rs, resource_table.rs, table_table.rs, table_cell_table.rs. -/
def insertNew (s : Store) (k : EKind) (e : Ent k) : Option (Ent k × Store) :=
  let place (e : Ent k) (s : Store) : Option (Ent k × Store) :=
    if s.soleDoc (entId k e) (rootDoc k e) then
      some (e, s.withTab k ((s.tab k).insert (entId k e) e))
    else none
  if entId k e = 0 then
    let n := s.nextId k.counter
    place (entWithId k e n.1) n.2
  else if (s.tab k (entId k e)).isSome then none
  else place e s

/-- `create_multi` of a table (and `create_orphan_multi` of a repository). -/
def insertNews (k : EKind) : List (Ent k) → Store → Option (List (Ent k) × Store)
  | [], s => some ([], s)
  | e :: es, s =>
    (s.insertNew k e).bind fun p => (insertNews k es p.2).map fun q => (p.1 :: q.1, q.2)

/-! ### Updating -/

/-- One round of `update_multi`, e.g. frame_table.rs L103-L118. -/
def updateOne (k : EKind) (s : Store) (e : Ent k) : Store :=
  s.withTab k ((s.tab k).insert (entId k e) (match s.tab k (entId k e) with
    | some o => keepEnt k e o
    | none => e))

/-- `update_multi`. -/
def updateEnts (s : Store) (k : EKind) (es : List (Ent k)) : Store := es.foldl (updateOne k) s

/-- `update_with_relationships_multi`, e.g. frame_table.rs L125-L136.  For a root the one-to-one
check comes first (root_table.rs L165-L180): that command has no undo and is not modelled. -/
def updateEntsRel (s : Store) (k : EKind) (es : List (Ent k)) : Store :=
  es.foldl (fun (s : Store) e => s.withTab k ((s.tab k).insert (entId k e) e)) s

/-! ### Removing -/

/-- A removed id is taken out of a field, if the field has one. -/
def stripRel (r : RelField) (ids : List Nat) (e : Ent r.left) : Ent r.left :=
  if (r.read e).any fun i => ids.contains i then
    r.write e ((r.read e).filter fun i => !ids.contains i)
  else e

/-- `remove_multi` of a table: the entities go, and every field that referred to them forgets them.
root_table.rs L186-L194, document_table.rs L156-L177, frame_table.rs L142-L216, block_table.rs
L134-L189 (also `child_order`, format runs and images), list_table.rs L98-L149, resource_table.rs
L108-L141, table_table.rs L132-L184, table_cell_table.rs L135-L165. -/
def dropEnts (s : Store) : EKind → List Nat → Store
  | .root, ids => { s with roots := ids.foldl IdMap.erase s.roots }
  | .document, ids =>
    { s with
      documents := ids.foldl IdMap.erase s.documents
      roots := s.roots.mapValues (stripRel .rootDocument ids) }
  | .frame, ids =>
    { s with
      frames := (ids.foldl IdMap.erase s.frames).mapValues (stripRel .frameParent ids)
      documents := s.documents.mapValues (stripRel .docFrames ids)
      tableCells := s.tableCells.mapValues (stripRel .cellFrame ids) }
  | .block, ids => s.tableRemoveBlocks ids
  | .list, ids =>
    { s with
      lists := ids.foldl IdMap.erase s.lists
      blocks := s.blocks.mapValues (stripRel .blockList ids)
      documents := s.documents.mapValues (stripRel .docLists ids) }
  | .resource, ids =>
    { s with
      resources := ids.foldl IdMap.erase s.resources
      documents := s.documents.mapValues (stripRel .docResources ids) }
  | .table, ids =>
    { s with
      tables := ids.foldl IdMap.erase s.tables
      documents := s.documents.mapValues (stripRel .docTables ids)
      frames := s.frames.mapValues (stripRel .frameTable ids) }
  | .tableCell, ids =>
    { s with
      tableCells := ids.foldl IdMap.erase s.tableCells
      tables := s.tables.mapValues (stripRel .tableCells ids) }

/-- The entities whose field has one of the ids, with the field (`get_relationships_from_right_ids`,
e.g. frame_table.rs L290-L304). -/
def ownersOf (s : Store) (r : RelField) (ids : List Nat) : List (Nat × List Nat) :=
  ((s.tab r.left).keys.filter fun o => ids.any fun i => (s.readRel r o).contains i).map fun o =>
    (o, s.readRel r o)

/-- "Update each affected owner's relationship to exclude removed IDs", e.g. frame_repository.rs
L379-L392. -/
def relinkOwners (r : RelField) (ids : List Nat) : List (Nat × List Nat) → Store → Option Store
  | [], s => some s
  | (o, l) :: os, s =>
    (s.setRel r o (l.filter fun i => !ids.contains i)).bind fun s => relinkOwners r ids os s

/-- The end of every `remove_multi` of a repository: the owners are noted, the entities removed, the
owners rewritten; e.g. frame_repository.rs L358-L392.  A root has no owner, root_repository.rs. -/
def removeHere (s : Store) (k : EKind) (ids : List Nat) : Option Store :=
  match k.owner with
  | none => some (s.dropEnts k ids)
  | some r => relinkOwners r ids (s.ownersOf r ids) (s.dropEnts k ids)

end Store

/-- What is removed together with entities ("get all strong forward relationship fields"):
root_repository.rs, document_repository.rs, frame_repository.rs L340-L357, table_repository.rs; the
other entities own nothing. -/
def strongIds : (k : EKind) → List (Ent k) → List (EKind × List Nat)
  | .root, (es : List Root) => [(.document, es.map Root.document)]
  | .document, (es : List Document) =>
    [(.frame, (es.flatMap Document.frames).eraseDups),
     (.resource, (es.flatMap Document.resources).eraseDups),
     (.list, (es.flatMap Document.lists).eraseDups),
     (.table, (es.flatMap Document.tables).eraseDups)]
  | .frame, (es : List Frame) => [(.block, (es.flatMap Frame.blocks).eraseDups)]
  | .block, _ => []
  | .list, _ => []
  | .resource, _ => []
  | .table, (es : List Table) => [(.tableCell, (es.flatMap Table.cells).eraseDups)]
  | .tableCell, _ => []

namespace Store

/-- Removing several groups of entities, one after the other. -/
def removeGroups (down : EKind → List Nat → Store → Option Store) :
    List (EKind × List Nat) → Store → Option Store
  | [], s => some s
  | (k, ids) :: gs, s => (down k ids s).bind fun s => removeGroups down gs s

/-- `remove_multi` of a repository, given that of the repositories below it. -/
def removeWith (down : EKind → List Nat → Store → Option Store) (k : EKind) (ids : List Nat)
    (s : Store) : Option Store :=
  if ids.all fun i => (s.tab k i).isNone then some s
  else
    (removeGroups down (strongIds k (ids.filterMap fun i => s.tab k i)) s).bind fun s =>
    s.removeHere k ids

/-- The repositories call each other: root, document, frame or table, block or cell. -/
def removeLevel : Nat → EKind → List Nat → Store → Option Store
  | 0, _, _, s => some s
  | n + 1, k, ids, s => removeWith (removeLevel n) k ids s

/-- `remove_multi` of each repository: root_repository.rs, document_repository.rs,
frame_repository.rs L337-L394, block_repository.rs L326-L373, list_repository.rs,
resource_repository.rs, table_repository.rs, table_cell_repository.rs. -/
def removeEnts (s : Store) (k : EKind) (ids : List Nat) : Option Store := removeLevel 4 k ids s

/-- `create_multi` of a repository: document_repository.rs (the document already there is removed),
block_repository.rs L189-L217 and the other five.  A root has no owner. -/
def createIn (s : Store) (k : EKind) (es : List (Ent k)) (owner : Nat) (index : Int) :
    Option (List (Ent k) × Store) :=
  (insertNews k es s).bind fun p =>
  match k.owner with
  | none => none
  | some r =>
    let ids := p.1.map (entId k)
    let prev := p.2.readRel r owner
    (if k = EKind.document then
      (if prev.isEmpty then some p.2 else p.2.removeEnts k prev).bind fun t => t.setRel r owner ids
    else p.2.setRel r owner (insertIdsAt prev index ids)).map fun t => (p.1, t)

/-! ### The undoable use cases -/

/-- `begin_transaction`, the work, `commit`; on an error the unit of work is dropped and its
transaction rolls back (transactions.rs L98-L106), here from the state before the work. -/
def inTx {α : Type} (s : Store) (f : Store → Option (α × Store)) : Option α × Store :=
  match f s.beginWrite.2 with
  | some (a, t) => (some a, (s.beginWrite.1.commit t).2.2)
  | none => (none, (s.beginWrite.1.drop s.beginWrite.2).getD s)

end Store

/-- `UndoableCreateUseCase`, create.rs L62-L75. -/
structure CreateCmd (k : EKind) where
  created : List (Ent k) := []
  owner : Option Nat := none
  index : Int := -1
  old : Option Snapshot := none
  existing : List Nat := []
  displaced : Option Snapshot := none
  previous : Option (List Nat) := none

/-- `execute_multi`, create.rs L104-L138 (`execute` is the same on one entity).  A document replaces
(`OwnerStrategy::Replacing`, document_controller.rs L57), the others are added. -/
def CreateCmd.exec (k : EKind) (es : List (Ent k)) (owner : Nat) (index : Int) (s : Store) :
    Option (CreateCmd k) × Store :=
  s.inTx fun s =>
    let prev := match k.owner with
      | some r => s.readRel r owner
      | none => []
    (s.createIn k es owner index).map fun p =>
      (if k = EKind.document then
        { created := p.1, owner := some owner, index := index, existing := prev
          displaced := if prev.isEmpty then none else some s.snapshot }
      else { created := p.1, owner := some owner, index := index, previous := some prev }, p.2)

/-- `set_relationships_in_owner`. -/
def Store.setInOwner (s : Store) (k : EKind) (owner : Nat) (ids : List Nat) : Option Store :=
  match k.owner with
  | some r => s.setRel r owner ids
  | none => none

/-- The body of `undo`, create.rs L145-L179; a missing owner is a panic. -/
def CreateCmd.undoWork {k : EKind} (c : CreateCmd k) (s : Store) : Option (CreateCmd k × Store) :=
  c.owner.bind fun owner =>
  (s.removeEnts k (c.created.map (entId k))).bind fun t =>
  (if k = EKind.document then
    match c.displaced with
    | some snap => (t.restoreUndo snap).setInOwner k owner c.existing
    | none => t.setInOwner k owner []
  else
    match c.previous with
    | some prev => t.setInOwner k owner prev
    | none => some t).map fun u => ({ c with old := some s.snapshot }, u)

/-- `undo`, create.rs L145-L179. -/
def CreateCmd.undoIt {k : EKind} (c : CreateCmd k) (s : Store) : Bool × CreateCmd k × Store :=
  if c.created.isEmpty then (true, c, s)
  else
    match s.inTx c.undoWork with
    | (some c', s') => (true, c', s')
    | (none, s') => (false, c, s')

/-- The body of `redo`, create.rs L181-L224. -/
def CreateCmd.redoWork {k : EKind} (c : CreateCmd k) (snap : Snapshot) (s : Store) :
    Option (CreateCmd k × Store) :=
  c.owner.bind fun owner =>
  (if k = EKind.document then
    (if c.existing.isEmpty then some (c, s)
    else (s.removeEnts k c.existing).map fun t => ({ c with displaced := some s.snapshot }, t)).bind
      fun p => ((p.2.restoreUndo snap).setInOwner k owner (c.created.map (entId k))).map fun u =>
        (p.1, u)
  else
    match c.previous with
    | some prev =>
      ((s.restoreUndo snap).setInOwner k owner
        (insertIdsAt prev c.index (c.created.map (entId k)))).map fun u => (c, u)
    | none => some (c, s.restoreUndo snap))

/-- `redo`, create.rs L181-L224. -/
def CreateCmd.redoIt {k : EKind} (c : CreateCmd k) (s : Store) : Bool × CreateCmd k × Store :=
  match c.old with
  | none => (true, c, s)
  | some snap =>
    match s.inTx (c.redoWork snap) with
    | (some c', s') => (true, c', s')
    | (none, s') => (false, c, s')

/-- The two stacks of `UndoableCreateOrphanUseCase` (create_orphan.rs L45-L49) and of
`UndoableUpdateUseCase` (update.rs L53-L57); the head of a list is the end of the `VecDeque`. -/
structure EntStacks (k : EKind) where
  undo : List (List (Ent k)) := []
  redo : List (List (Ent k)) := []

/-- `UndoableCreateOrphanUseCase::execute_multi`, create_orphan.rs L68-L76. -/
def orphanExec (k : EKind) (es : List (Ent k)) (s : Store) : Option (EntStacks k) × Store :=
  s.inTx fun s => (Store.insertNews k es s).map fun p => ({ undo := [p.1] }, p.2)

/-- `undo`, create_orphan.rs L83-L92. -/
def orphanUndo {k : EKind} (c : EntStacks k) (s : Store) : Bool × EntStacks k × Store :=
  match c.undo with
  | [] => (true, c, s)
  | es :: rest =>
    match s.inTx fun s => (s.removeEnts k (es.map (entId k))).map fun t => ((), t) with
    | (some _, s') => (true, ⟨rest, es :: c.redo⟩, s')
    | (none, s') => (false, { c with undo := rest }, s')

/-- `redo`, create_orphan.rs L94-L103. -/
def orphanRedo {k : EKind} (c : EntStacks k) (s : Store) : Bool × EntStacks k × Store :=
  match c.redo with
  | [] => (true, c, s)
  | es :: rest =>
    match s.inTx fun s => (Store.insertNews k es s).map fun p => ((), p.2) with
    | (some _, s') => (true, ⟨es :: c.undo, rest⟩, s')
    | (none, s') => (false, { c with redo := rest }, s')

/-- `update_multi` or `update_with_relationships_multi`. -/
def Store.writeEnts (s : Store) (rels : Bool) (k : EKind) (es : List (Ent k)) : Store :=
  if rels then s.updateEntsRel k es else s.updateEnts k es

/-- `get_multi(&ids)?.into_iter().flatten()`. -/
def Store.entsOf (s : Store) (k : EKind) (ids : List Nat) : List (Ent k) :=
  ids.filterMap fun i => s.tab k i

/-- `UndoableUpdateUseCase::execute_multi`, update.rs L76-L98, and
`UndoableUpdateWithRelationshipsUseCase::execute_multi` (`rels`). -/
def updateExec (rels : Bool) (k : EKind) (es : List (Ent k)) (s : Store) :
    Option (EntStacks k) × Store :=
  s.inTx fun s =>
    if es.all fun e => (s.tab k (entId k e)).isSome then
      some ({ undo := [s.entsOf k (es.map (entId k))] }, s.writeEnts rels k es)
    else none

/-- `undo`, update.rs L105-L117. -/
def updateUndo (rels : Bool) {k : EKind} (c : EntStacks k) (s : Store) : Bool × EntStacks k × Store :=
  match c.undo with
  | [] => (true, c, s)
  | es :: rest =>
    match s.inTx fun s => some (s.entsOf k (es.map (entId k)), s.writeEnts rels k es) with
    | (some cur, s') => (true, ⟨rest, cur :: c.redo⟩, s')
    | (none, s') => (false, { c with undo := rest }, s')

/-- `redo`, update.rs L119-L131. -/
def updateRedo (rels : Bool) {k : EKind} (c : EntStacks k) (s : Store) : Bool × EntStacks k × Store :=
  match c.redo with
  | [] => (true, c, s)
  | es :: rest =>
    match s.inTx fun s => some (s.entsOf k (es.map (entId k)), s.writeEnts rels k es) with
    | (some cur, s') => (true, ⟨cur :: c.undo, rest⟩, s')
    | (none, s') => (false, { c with redo := rest }, s')

/-- `UndoableRemoveUseCase`, remove.rs L45-L49. -/
structure RemoveCmd where
  snap : Option Snapshot := none
  ids : Option (List Nat) := none

/-- `execute_multi`, remove.rs L64-L77.  `snapshot` of a repository is one of the whole store
(e.g. frame_repository.rs, `snapshot`). -/
def RemoveCmd.exec (k : EKind) (ids : List Nat) (s : Store) : Option RemoveCmd × Store :=
  s.inTx fun s =>
    if ids.all fun i => (s.tab k i).isSome then
      (s.removeEnts k ids).map fun t => (⟨some s.snapshot, some ids⟩, t)
    else none

/-- `undo`, remove.rs L84-L92; `restore` is `restore_store` (e.g. frame_repository.rs, `restore`). -/
def RemoveCmd.undoIt (c : RemoveCmd) (s : Store) : Bool × RemoveCmd × Store :=
  match c.snap with
  | none => (true, c, s)
  | some snap => (true, c, (s.inTx fun s => some ((), s.restoreUndo snap)).2)

/-- `redo`, remove.rs L94-L103. -/
def RemoveCmd.redoIt (k : EKind) (c : RemoveCmd) (s : Store) : Bool × RemoveCmd × Store :=
  match c.ids with
  | none => (true, c, s)
  | some ids =>
    match s.inTx fun s => (s.removeEnts k ids).map fun t => (s.snapshot, t) with
    | (some snap, s') => (true, { c with snap := some snap }, s')
    | (none, s') => (false, { c with snap := some s.snapshot }, s')

/-- `UndoableSetRelationshipUseCase` (set_relationship.rs L38-L42) and
`UndoableMoveRelationshipUseCase` (move_relationship.rs L44-L48): save points, and the arguments to
be used again. -/
structure RelCmd (α : Type) where
  undo : List Nat := []
  redo : List α := []

/-- `execute`, set_relationship.rs L53-L63, move_relationship.rs L59-L75; `act` is the call. -/
def RelCmd.exec {α : Type} (act : α → Store → Option Store) (a : α) (s : Store) :
    Option (RelCmd α) × Store :=
  s.inTx fun s => (act a s.createSavepoint.2).map fun t => (⟨[s.createSavepoint.1], [a]⟩, t)

/-- `undo`, set_relationship.rs L70-L78, move_relationship.rs L82-L90. -/
def RelCmd.undoIt {α : Type} (c : RelCmd α) (s : Store) : Bool × RelCmd α × Store :=
  match c.undo with
  | [] => (true, c, s)
  | sp :: rest =>
    match s.inTx fun s => (s.restoreSavepoint sp).map fun t => ((), t) with
    | (some _, s') => (true, { c with undo := rest }, s')
    | (none, s') => (false, { c with undo := rest }, s')

/-- `redo`, set_relationship.rs L80-L90, move_relationship.rs L92-L102. -/
def RelCmd.redoIt {α : Type} (act : α → Store → Option Store) (c : RelCmd α) (s : Store) :
    Bool × RelCmd α × Store :=
  match c.redo with
  | [] => (true, c, s)
  | a :: rest =>
    match s.inTx fun s => (act a s.createSavepoint.2).map fun t => (s.createSavepoint.1, t) with
    | (some sp, s') => (true, ⟨sp :: c.undo, rest⟩, s')
    | (none, s') => (false, { c with redo := rest }, s')

/-- The call of `set_relationship`. -/
def setAct (r : RelField) (a : Nat × List Nat) (s : Store) : Option Store := s.setRel r a.1 a.2

/-- The call of `move_relationship`. -/
def moveAct (r : RelField) (a : Nat × List Nat × Int) (s : Store) : Option Store :=
  some (s.moveRel r a.1 a.2.1 a.2.2).2

/-- The commands the controllers put on the undo stack. -/
inductive EntCmd where
  | create (k : EKind) (c : CreateCmd k)
  | orphan (k : EKind) (c : EntStacks k)
  | update (rels : Bool) (k : EKind) (c : EntStacks k)
  | remove (k : EKind) (c : RemoveCmd)
  | setRel (r : RelField) (c : RelCmd (Nat × List Nat))
  | moveRel (r : RelField) (c : RelCmd (Nat × List Nat × Int))

/-- `UndoRedoCommand` of the use cases; `can_merge` and `merge` are the defaults of the trait
(undo_redo.rs L49-L66). -/
def entApi : CmdApi EntCmd Store where
  undo
    | .create k c, s => match c.undoIt s with | (b, c, s) => (b, .create k c, s)
    | .orphan k c, s => match orphanUndo c s with | (b, c, s) => (b, .orphan k c, s)
    | .update rels k c, s => match updateUndo rels c s with | (b, c, s) => (b, .update rels k c, s)
    | .remove k c, s => match c.undoIt s with | (b, c, s) => (b, .remove k c, s)
    | .setRel r c, s => match c.undoIt s with | (b, c, s) => (b, .setRel r c, s)
    | .moveRel r c, s => match c.undoIt s with | (b, c, s) => (b, .moveRel r c, s)
  redo
    | .create k c, s => match c.redoIt s with | (b, c, s) => (b, .create k c, s)
    | .orphan k c, s => match orphanRedo c s with | (b, c, s) => (b, .orphan k c, s)
    | .update rels k c, s => match updateRedo rels c s with | (b, c, s) => (b, .update rels k c, s)
    | .remove k c, s => match c.redoIt k s with | (b, c, s) => (b, .remove k c, s)
    | .setRel r c, s => match c.redoIt (setAct r) s with | (b, c, s) => (b, .setRel r c, s)
    | .moveRel r c, s => match c.redoIt (moveAct r) s with | (b, c, s) => (b, .moveRel r c, s)
  canMerge _ _ := false
  merge a _ := (false, a)

/-- The calls of the controllers that can be undone, e.g. frame_controller.rs L18-L330 (those of the
root cannot, root_controller.rs). -/
inductive EntCall where
  | create (k : EKind) (es : List (Ent k)) (owner : Nat) (index : Int)
  | orphan (k : EKind) (es : List (Ent k))
  | update (rels : Bool) (k : EKind) (es : List (Ent k))
  | remove (k : EKind) (ids : List Nat)
  | setRel (r : RelField) (id : Nat) (ids : List Nat)
  | moveRel (r : RelField) (id : Nat) (ids : List Nat) (index : Int)

/-- The use case run by a call: the command to be put on the stack (`none`: an error). -/
def EntCall.exec : EntCall → Store → Option EntCmd × Store
  | .create k es owner index, s =>
    match CreateCmd.exec k es owner index s with | (c, s) => (c.map (.create k), s)
  | .orphan k es, s => match orphanExec k es s with | (c, s) => (c.map (.orphan k), s)
  | .update rels k es, s => match updateExec rels k es s with | (c, s) => (c.map (.update rels k), s)
  | .remove k ids, s => match RemoveCmd.exec k ids s with | (c, s) => (c.map (.remove k), s)
  | .setRel r id ids, s => match RelCmd.exec (setAct r) (id, ids) s with | (c, s) => (c.map (.setRel r), s)
  | .moveRel r id ids index, s =>
    match RelCmd.exec (moveAct r) (id, ids, index) s with | (c, s) => (c.map (.moveRel r), s)

/-- A call of a controller: the use case runs, and on success goes on the stack. -/
def EntCall.run (sid : Option Nat) (a : EntCall) (m : Mgr EntCmd) (s : Store) :
    Bool × Mgr EntCmd × Store :=
  match a.exec s with
  | (some c, s') => ((m.add entApi c sid).1, (m.add entApi c sid).2, s')
  | (none, s') => (false, m, s')

end Verif
