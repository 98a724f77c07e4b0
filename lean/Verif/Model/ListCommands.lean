import Verif.Model.Lists
import Verif.Model.Replace
import Verif.Model.Cursor
/-
The list commands: document_editing/src/use_cases/{create_list,insert_list,add_block_to_list,
remove_block_from_list}_uc.rs, document_formatting/src/use_cases/set_list_format_uc.rs, and the list
handle public_api/src/text_list.rs.  Transactions, events and time stamps are left out; `none` is an
error.  `redo` of each command is the command again, `undo` restores the snapshot.
-/
namespace Verif
namespace Store

/-- `BlockRepository::set_relationship` for `List` with at most one id, block_repository.rs
L467-L511, block_table.rs L22-L26 and L293-L304. -/
def setBlockList (s : Store) (id : Nat) (list : Option Nat) : Option Store :=
  if list.all fun l => (s.lists l).isSome then
    match s.blocks id with
    | some b => some { s with blocks := s.blocks.insert id { b with list := list } }
    | none => some s
  else none

/-- `get_document_relationship(id, Lists)`. -/
def docLists (s : Store) (id : Nat) : List Nat := ((s.documents id).map Document.lists).getD []

/-- `DocumentRepository::set_relationship` for `Lists`: every list must exist; an absent document is
left absent. -/
def setDocLists (s : Store) (did : Nat) (ids : List Nat) : Option Store :=
  if ids.all fun i => (s.lists i).isSome then
    match s.documents did with
    | some d => some { s with documents := s.documents.insert did { d with lists := ids } }
    | none => some s
  else none

/-- `ListTable::create`, list_table.rs L25-L53. -/
def insertNewList (s : Store) (l : TList) : Option (Nat × Store) :=
  if l.id = 0 then
    let n := s.nextId "list"
    some (n.1, { n.2 with lists := n.2.lists.insert n.1 { l with id := n.1 } })
  else if (s.lists l.id).isSome then none
  else some (l.id, { s with lists := s.lists.insert l.id l })

/-- `ListRepository::create`, list_repository.rs L84-L140. -/
def createListEntity (s : Store) (l : TList) (owner : Nat) (index : Int) : Option (Nat × Store) :=
  (s.insertNewList l).bind fun (id, s) =>
  (s.setDocLists owner (insertAtIndex (s.docLists owner) index id)).map fun s => (id, s)

/-- `ListTable::remove`, list_table.rs L93-L146. -/
def tableRemoveList (s : Store) (id : Nat) : Store :=
  { s with
    lists := s.lists.erase id
    blocks := s.blocks.mapValues fun b => if b.list = some id then { b with list := none } else b
    documents := s.documents.mapValues fun d => { d with lists := d.lists.filter fun l => l ≠ id } }

/-- The documents saved before a list's removal are rewritten without it, list_repository.rs
L238-L245. -/
def rewriteDocLists (id : Nat) : List (Nat × List Nat) → Store → Option Store
  | [], s => some s
  | (o, l) :: os, s => (s.setDocLists o (l.filter fun b => b ≠ id)).bind fun s => rewriteDocLists id os s

/-- `ListRepository::remove`, list_repository.rs L200-L248. -/
def removeListEntity (s : Store) (id : Nat) : Option Store :=
  if (s.lists id).isNone then some s
  else
    let owners := (s.documents.keys.filter fun d => (s.docLists d).contains id).map fun d => (d, s.docLists d)
    rewriteDocLists id owners (s.tableRemoveList id)

/-- The loop create_list_uc.rs L105-L120. -/
def assignList (lid : Nat) (lo hi : Int) : List Block → Store → Option Store
  | [], s => some s
  | b :: bs, s =>
    (blockCharLength s.text b.id).bind fun (len : Nat) =>
    if b.documentPosition + len ≥ lo ∧ b.documentPosition ≤ hi then
      (s.setBlockList b.id (some lid)).bind fun s => assignList lid lo hi bs s
    else assignList lid lo hi bs s

/-- `execute_create_list`, create_list_uc.rs L56-L130: the new store, the id of the list, and the
snapshot for undo. -/
def createList (s : Store) (style : ListStyle) (position anchor : Int) : Option (Store × Nat × Snapshot) :=
  s.docId.bind fun did =>
  (s.documents did).bind fun _ =>
  let snap := s.snapshot
  (s.docFrames did).head?.bind fun fid =>
  let blocks := sortByKey Block.documentPosition (s.getBlocks (s.frameBlocks fid))
  (s.createListEntity { style := style } did (-1)).bind fun (lid, s) =>
  (assignList lid (min position anchor) (max position anchor) blocks s).map fun s => (s, lid, snap)

/-- `execute_add_block_to_list`, add_block_to_list_uc.rs L29-L64. -/
def addBlockToList (s : Store) (block list : Nat) : Option (Store × Snapshot) :=
  s.docId.bind fun did =>
  (s.documents did).bind fun _ =>
  let snap := s.snapshot
  (s.blocks block).bind fun _ =>
  (s.lists list).bind fun _ =>
  (s.setBlockList block (some list)).map fun s => (s, snap)

/-- `execute_remove_block_from_list`, remove_block_from_list_uc.rs L31-L73. -/
def removeBlockFromList (s : Store) (block : Nat) : Option (Store × Snapshot) :=
  s.docId.bind fun did =>
  (s.documents did).bind fun _ =>
  let snap := s.snapshot
  (s.blocks block).bind fun b =>
  b.list.bind fun lid =>
  (s.setBlockList block none).bind fun s =>
  if (s.getBlocks s.blocks.keys).any fun x => decide (x.list = some lid) then some (s, snap)
  else (s.removeListEntity lid).map fun s => (s, snap)

/-- The fields of `SetListFormatDto`, document_formatting/src/dtos.rs L135-L141. -/
structure ListFormatDto where
  style : Option ListStyle := none
  indent : Option Int := none
  pre : Option String := none
  suffix : Option String := none
deriving DecidableEq, Repr

/-- The assignments of set_list_format_uc.rs L60-L72. -/
def applyListFormat (dto : ListFormatDto) (l : TList) : TList :=
  { l with
    style := dto.style.getD l.style
    indent := dto.indent.getD l.indent
    pre := dto.pre.getD l.pre
    suffix := dto.suffix.getD l.suffix }

/-- `execute_set_list_format`, set_list_format_uc.rs L31-L78, with `ListTable::update`,
list_table.rs L73-L81. -/
def setListFormat (s : Store) (list : Nat) (dto : ListFormatDto) : Option (Store × Snapshot) :=
  s.docId.bind fun did =>
  (s.documents did).bind fun _ =>
  (s.lists list).map fun l =>
    ({ s with lists := s.lists.insert l.id (applyListFormat dto l) }, s.snapshot)

/-- `execute_insert_list`, insert_list_uc.rs L60-L175.  The text store is not touched. -/
def insertList (s : Store) (style : ListStyle) (position : Int) : Option (Store × Nat × Int × Snapshot) :=
  s.docId.bind fun did =>
  (s.documents did).bind fun document =>
  let snap := s.snapshot
  (s.docFrames did).head?.bind fun fid =>
  (s.frames fid).bind fun frame =>
  let blocks := sortByKey Block.documentPosition (s.getBlocks (s.frameBlocks fid))
  (s.findBlockAtPosition blocks position).bind fun (_, i, _) =>
  (s.createListEntity { style := style } did (-1)).bind fun (lid, s) =>
  (match blocks[i]? with
    | some b => (blockCharLength s.text b.id).map fun (len : Nat) => b.documentPosition + len + 1
    | none => if blocks = [] then some 0 else none).bind fun newPos =>
  (s.createBlock { list := some lid, documentPosition := newPos } fid ((i + 1 : Nat) : Int)).bind fun (new, s) =>
  let s := s.updateFrame
    { frame with childOrder := frame.childOrder.insertIdx (min (i + 1) frame.childOrder.length) (new : Int) }
  let s := s.shiftStored (blocks.drop (i + 1)) 1
  let s := s.updateDocument { document with blockCount := document.blockCount + 1 }
  some (s, lid, newPos, snap)

/-- `undo` of all of these, e.g. create_list_uc.rs L154-L168. -/
def undoList (s : Store) (snap : Snapshot) : Store := s.restoreUndo snap

/-- The items of a list, `TextList::item`, text_list.rs L79-L99, in the order of their refreshed
positions (inner.rs L435-L449). -/
def listItems (s : Store) (list : Nat) : List Nat :=
  (sortByKey Block.documentPosition
    (((s.getBlocks s.blocks.keys).map fun b => { b with documentPosition := (s.blockPosition b.id : Int) }).filter
      fun b => decide (b.list = some list))).map Block.id

/-- `TextList::count`, text_list.rs L68-L76. -/
def listCount (s : Store) (list : Nat) : Nat :=
  ((s.getBlocks s.blocks.keys).filter fun b => decide (b.list = some list)).length

end Store
end Verif
