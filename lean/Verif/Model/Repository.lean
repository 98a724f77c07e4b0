import Verif.Model.Store
import Verif.Model.FormatRuns
/-
The entity operations the document commands are made of: common/src/direct_access/*_table.rs
(what is stored) and *_repository.rs (the checks around it).  `none` is an error; events and the
`created_at`/`updated_at` stamps are left out.
-/
namespace Verif

/-- `iter().map(f).collect::<Result<Vec<_>>>()`. -/
def mapOpt {α β : Type} (f : α → Option β) : List α → Option (List β)
  | [] => some []
  | a :: as => (f a).bind fun b => (mapOpt f as).map fun bs => b :: bs

namespace Store

/-- The document of the store: `get_root(ROOT_ENTITY_ID)` then `get_root_relationship(root.id,
Document).first()`, e.g. insert_text_uc.rs L278-L284; root_table.rs L30-L40, L196-L210. -/
def docId (s : Store) : Option Nat :=
  (s.roots 1).bind fun r => (s.roots r.id).bind fun r' =>
    if r'.document = 0 then none else some r'.document

/-- `get_document_relationship(id, Frames)`, document_table.rs L179-L193. -/
def docFrames (s : Store) (id : Nat) : List Nat := ((s.documents id).map Document.frames).getD []

/-- `get_document_relationship(id, Tables)`. -/
def docTables (s : Store) (id : Nat) : List Nat := ((s.documents id).map Document.tables).getD []

/-- `get_frame_relationship(id, Blocks)`, frame_table.rs L219-L232. -/
def frameBlocks (s : Store) (id : Nat) : List Nat := ((s.frames id).map Frame.blocks).getD []

/-- `get_block_multi(ids).into_iter().flatten()`, block_table.rs L75-L78. -/
def getBlocks (s : Store) (ids : List Nat) : List Block := ids.filterMap fun i => s.blocks i

/-- The relationship lists already stored are kept, document_table.rs L114-L121. -/
def keepDoc (d : Document) : Option Document → Document
  | some e => { d with frames := e.frames, lists := e.lists, resources := e.resources, tables := e.tables }
  | none => d

/-- `DocumentTable::update`, document_table.rs L100-L126. -/
def updateDocument (s : Store) (d : Document) : Store :=
  { s with documents := s.documents.insert d.id (keepDoc d (s.documents d.id)) }

/-- The stored `list` is kept, block_table.rs L102-L105. -/
def keepBlock (b : Block) : Option Block → Block
  | some e => { b with list := e.list }
  | none => b

/-- `BlockTable::update`, block_table.rs L91-L110. -/
def updateBlock (s : Store) (b : Block) : Store :=
  { s with blocks := s.blocks.insert b.id (keepBlock b (s.blocks b.id)) }

/-- `update_block_multi`, block_table.rs L98-L110. -/
def updateBlocks (s : Store) (bs : List Block) : Store := bs.foldl updateBlock s

/-- `parent_frame`, `blocks` and `table` are kept, frame_table.rs L108-L113. -/
def keepFrame (f : Frame) : Option Frame → Frame
  | some e => { f with parentFrame := e.parentFrame, blocks := e.blocks, table := e.table }
  | none => f

/-- `FrameTable::update`, frame_table.rs L97-L118. -/
def updateFrame (s : Store) (f : Frame) : Store :=
  { s with frames := s.frames.insert f.id (keepFrame f (s.frames f.id)) }

/-- `FrameRepository::set_relationship` for `Blocks`, frame_repository.rs L528-L607, and
frame_table.rs L320-L331: every id must exist; an absent frame is left absent. -/
def setFrameBlocks (s : Store) (fid : Nat) (ids : List Nat) : Option Store :=
  if ids.all fun i => (s.blocks i).isSome then
    match s.frames fid with
    | some f => some { s with frames := s.frames.insert fid { f with blocks := ids } }
    | none => some s
  else none

/-- `BlockTable::create`, block_table.rs L39-L69. -/
def insertNewBlock (s : Store) (b : Block) : Option (Nat × Store) :=
  if b.id = 0 then
    let n := s.nextId "block"
    some (n.1, { n.2 with blocks := n.2.blocks.insert n.1 { b with id := n.1 } })
  else if (s.blocks b.id).isSome then none
  else some (b.id, { s with blocks := s.blocks.insert b.id b })

/-- The position rule of every `create`: e.g. block_repository.rs L171-L177. -/
def insertAtIndex (l : List Nat) (index : Int) (x : Nat) : List Nat :=
  if 0 ≤ index ∧ index < (l.length : Int) then l.insertIdx index.toNat x else l ++ [x]

/-- `BlockRepository::create`, block_repository.rs L161-L187: the new id and the store. -/
def createBlock (s : Store) (b : Block) (owner : Nat) (index : Int) : Option (Nat × Store) :=
  (s.insertNewBlock b).bind fun (id, s) =>
  (s.setFrameBlocks owner (insertAtIndex (s.frameBlocks owner) index id)).map fun s => (id, s)

/-- What `BlockTable::remove_multi`, block_table.rs L134-L189, does to a frame listing a removed
block. -/
def stripFrame (ids : List Nat) (f : Frame) : Frame :=
  if f.blocks.any fun b => ids.contains b then
    { f with
      blocks := f.blocks.filter fun b => !ids.contains b
      childOrder := f.childOrder.filter fun e => !(decide (e > 0) && ids.contains e.toNat) }
  else f

/-- `BlockTable::remove_multi`, block_table.rs L134-L189. -/
def tableRemoveBlocks (s : Store) (ids : List Nat) : Store :=
  { s with
    blocks := ids.foldl IdMap.erase s.blocks
    frames := s.frames.mapValues (stripFrame ids)
    formatRuns := ids.foldl IdMap.erase s.formatRuns
    blockImages := ids.foldl IdMap.erase s.blockImages }

/-- The owners saved before a removal are rewritten without the removed ids,
block_repository.rs L315-L322. -/
def rewriteOwners (ids : List Nat) : List (Nat × List Nat) → Store → Option Store
  | [], s => some s
  | (o, l) :: os, s =>
    (s.setFrameBlocks o (l.filter fun b => !ids.contains b)).bind fun s => rewriteOwners ids os s

/-- The frames that list one of the blocks, with their lists
(`get_relationships_from_right_ids(Blocks, ids)`, frame_table.rs L290-L304). -/
def blockOwners (s : Store) (ids : List Nat) : List (Nat × List Nat) :=
  (s.frames.keys.filter fun f => (s.frameBlocks f).any fun b => ids.contains b).map fun f =>
    (f, s.frameBlocks f)

/-- `BlockRepository::remove_multi`, block_repository.rs L326-L373 (and `remove`, L282-L324, on one
id). -/
def removeBlocks (s : Store) (ids : List Nat) : Option Store :=
  if ids.all fun i => (s.blocks i).isNone then some s
  else rewriteOwners ids (s.blockOwners ids) (s.tableRemoveBlocks ids)

/-- `entry(id).or_default()` followed by a change of the run table. -/
def editRuns (s : Store) (id : Nat) (f : List (Run CharFormat) → List (Run CharFormat)) : Store :=
  { s with formatRuns := s.formatRuns.insert id (f ((s.formatRuns id).getD [])) }

/-- `entry(id).or_default()` followed by a change of the image table. -/
def editImages (s : Store) (id : Nat) (f : List (Img CharFormat) → List (Img CharFormat)) : Store :=
  { s with blockImages := s.blockImages.insert id (f ((s.blockImages id).getD [])) }

/-- `get(id).cloned().unwrap_or_default()` on `format_runs`. -/
def runsOf (s : Store) (id : Nat) : List (Run CharFormat) := (s.formatRuns id).getD []

/-- `get(id).cloned().unwrap_or_default()` on `block_images`. -/
def imagesOf (s : Store) (id : Nat) : List (Img CharFormat) := (s.blockImages id).getD []

/-- `DocumentRepository::set_relationship` for `Frames`, document_repository.rs: every frame must
exist; an absent document is left absent (document_table.rs L283-L294). -/
def setDocFrames (s : Store) (did : Nat) (ids : List Nat) : Option Store :=
  if ids.all fun i => (s.frames i).isSome then
    match s.documents did with
    | some d => some { s with documents := s.documents.insert did { d with frames := ids } }
    | none => some s
  else none

/-- `FrameTable::create`, frame_table.rs L45-L75. -/
def insertNewFrame (s : Store) (f : Frame) : Option (Nat × Store) :=
  if f.id = 0 then
    let n := s.nextId "frame"
    some (n.1, { n.2 with frames := n.2.frames.insert n.1 { f with id := n.1 } })
  else if (s.frames f.id).isSome then none
  else some (f.id, { s with frames := s.frames.insert f.id f })

/-- `FrameRepository::create`, frame_repository.rs L163-L188. -/
def createFrame (s : Store) (f : Frame) (owner : Nat) (index : Int) : Option (Nat × Store) :=
  (s.insertNewFrame f).bind fun (id, s) =>
  (s.setDocFrames owner (insertAtIndex (s.docFrames owner) index id)).map fun s => (id, s)

/-- `FrameTable::remove_multi` on one id, frame_table.rs L142-L216: the frame goes, its child frames
and table cells are detached, and the documents listing it forget it. -/
def tableRemoveFrame (s : Store) (id : Nat) : Store :=
  { s with
    frames := (s.frames.erase id).mapValues fun f =>
      if f.parentFrame = some id then { f with parentFrame := none } else f
    documents := s.documents.mapValues fun d => { d with frames := d.frames.filter fun i => i ≠ id }
    tableCells := s.tableCells.mapValues fun c =>
      if c.cellFrame = some id then { c with cellFrame := none } else c }

/-- The documents saved before a frame's removal are rewritten without it, frame_repository.rs
L325-L332. -/
def rewriteDocs (id : Nat) : List (Nat × List Nat) → Store → Option Store
  | [], s => some s
  | (o, l) :: os, s => (s.setDocFrames o (l.filter fun b => b ≠ id)).bind fun s => rewriteDocs id os s

/-- `FrameRepository::remove`, frame_repository.rs L284-L335. -/
def removeFrame (s : Store) (id : Nat) : Option Store :=
  match s.frames id with
  | none => some s
  | some f =>
    (s.removeBlocks f.blocks).bind fun s =>
    let owners := (s.documents.keys.filter fun d => (s.docFrames d).contains id).map fun d =>
      (d, s.docFrames d)
    rewriteDocs id owners (s.tableRemoveFrame id)

end Store
end Verif
