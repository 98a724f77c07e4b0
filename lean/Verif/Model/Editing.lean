import Verif.Model.Repository
import Verif.Model.Fragments
import Verif.Model.Sort
/-
The commands that type, delete and split paragraphs: document_editing/src/use_cases/
insert_text_uc.rs, delete_text_uc.rs, insert_block_uc.rs and editing_helpers.rs.

Each `execute` is a function from the store to the new store and the result; `none` is an error or
a panic, after which the enclosing transaction puts the old store back (Model/Store.lean, C27).
Clock stamps, events and the `debug_assert`s (release builds drop them) are left out.  `deleteText` has no
result for a selection that runs across table cells (delete_text_uc.rs L253-L592): that part, and the whole
command, are in Model/DeleteCells.lean.
-/
namespace Verif
namespace Store

/-- The cell frames of a table in row-major order: the closure `get_table_cell_frames`, e.g.
insert_text_uc.rs L152-L158. -/
def tableCellFrames (s : Store) (tid : Nat) : List Nat :=
  let cells := ((s.tables tid).map Table.cells).getD [] |>.filterMap fun c => s.tableCells c
  (sortByKey TableCell.row (sortByKey TableCell.column cells)).filterMap TableCell.cellFrame

/-- `collect_block_ids_recursive`, editing_helpers.rs L249-L301.  `fuel` bounds the nesting: a frame
that contains itself overflows the stack in the code and gives `none` here. -/
def collectBlockIds (s : Store) : Nat → Nat → Option (List Nat)
  | 0, _ => none
  | fuel + 1, fid =>
    (s.frames fid).bind fun f =>
    if f.childOrder = [] then some (s.frameBlocks fid)
    else
      (mapOpt (fun e : Int =>
        if e > 0 then some [e.toNat]
        else if e < 0 then
          (s.frames (-e).toNat).bind fun sub =>
          match sub.table with
          | some t => (mapOpt (s.collectBlockIds fuel) (s.tableCellFrames t)).map List.flatten
          | none => s.collectBlockIds fuel (-e).toNat
        else some []) f.childOrder).map List.flatten

/-- `collect_block_ids_recursive` with enough fuel for every store without cyclic frames. -/
def flowIds (s : Store) (fid : Nat) : Option (List Nat) := s.collectBlockIds (s.frames.len + 1) fid

/-- The linear walk of `find_block_at_position`, editing_helpers.rs L194-L209; `i` is the index of
the first block of the list. -/
def walkStored (st : RopeSt) (position : Int) : Nat → List Block → Option (Option (Block × Nat × Int))
  | _, [] => some none
  | i, b :: bs =>
    (blockCharLength st b.id).bind fun (len : Nat) =>
    if position ≥ b.documentPosition ∧ position ≤ b.documentPosition + len then
      some (some (b, i, position - b.documentPosition))
    else walkStored st position (i + 1) bs

/-- `find_block_at_position`, editing_helpers.rs L166-L209: the block (its position corrected when
it comes from the rope), its index in the list, and the offset in it. -/
def findBlockAtPosition (s : Store) (blocks : List Block) (position : Int) :
    Option (Block × Nat × Int) :=
  (findBlockAtCharPosition s.text s.blocks.len position).bind fun found =>
  match found.bind fun (id, off, start) =>
      ((blocks.findIdx? fun b => b.id == id).bind fun i =>
        blocks[i]?.map fun b => ({ b with documentPosition := start }, i, off)) with
  | some r => some r
  | none =>
    (walkStored s.text position 0 blocks).bind fun
    | some r => some r
    | none =>
      blocks.getLast?.bind fun b =>
      (blockCharLength s.text b.id).map fun (len : Nat) => (b, blocks.length - 1, (len : Int))

/-- A batch of blocks moved by `d` characters: the loops at insert_text_uc.rs L244-L253 and others. -/
def shiftStored (s : Store) (bs : List Block) (d : Int) : Store :=
  s.updateBlocks (bs.map fun b => { b with documentPosition := b.documentPosition + d })

/-! ### insert_text -/

/-- `InsertTextDto`, document_editing/src/dtos.rs. -/
structure InsertTextDto where
  position : Int
  anchor : Int
  text : List Char

/-- `InsertTextResultDto`. -/
structure InsertTextResult where
  newPosition : Int
  blocksAffected : Int
deriving DecidableEq

/-- `UndoData`, insert_text_uc.rs L51-L61. -/
structure InsertUndoData where
  blockId : Nat
  originalBlock : Block
  originalRuns : List (Run CharFormat)
  originalImages : List (Img CharFormat)
  docId : Nat
  originalCharacterCount : Int
  byteOffset : Nat
  byteLen : Nat

/-- `InsertTextUndo`, insert_text_uc.rs L63-L66. -/
inductive InsertUndo where
  | simple (d : InsertUndoData)
  | selection (snap : Snapshot)

/-- The insertion proper, insert_text_uc.rs L214-L243 and L347-L379: the byte offset and the store. -/
def insertInto (s : Store) (block : Block) (offset : Int) (text : List Char) :
    Option (Nat × Store) :=
  (blockContent s.text block.id).bind fun content =>
  let off := logicalOffsetToByte content (s.imagesOf block.id) offset
  let s := s.updateBlock block
  let s := s.editRuns block.id fun runs => shiftRunsForInsert runs off (utf8Len text)
  let s := if (s.blockImages block.id).isSome
    then s.editImages block.id fun im => shiftImagesForInsert im off (utf8Len text) else s
  (ropeInsertInBlock s.text block.id off text).map fun r => (off, s.withText r)

/-- `delete_range_in_block`, insert_text_uc.rs L72-L126: the number of positions removed. -/
def deleteRange (s : Store) (block : Block) (so eo : Int) : Option (Int × Store) :=
  if eo ≤ so then some (0, s)
  else
    (blockContent s.text block.id).bind fun content =>
    let bs := logicalOffsetToByte content (s.imagesOf block.id) so
    let be := logicalOffsetToByte content (s.imagesOf block.id) eo
    (sliceBytes content bs be).bind fun gone =>
    let nimg := (shiftImagesForDelete (s.imagesOf block.id) bs be).2
    let s := s.editRuns block.id fun runs => shiftRunsForDelete runs bs be
    let s := s.editImages block.id fun im => (shiftImagesForDelete im bs be).1
    (ropeDeleteInBlock s.text block.id bs be).map fun r =>
      ((gone.length : Int) + nimg, (s.withText r).updateBlock block)

/-- The blocks of the document sorted by stored position, insert_text_uc.rs L147-L168. -/
def flowBlocks (s : Store) (did : Nat) : Option (List Nat) :=
  (s.docFrames did).head?.bind fun fid => s.flowIds fid

/-- `execute_insert_with_selection`, insert_text_uc.rs L129-L270. -/
def insertWithSelection (s : Store) (dto : InsertTextDto) :
    Option (Store × InsertTextResult × InsertUndo) :=
  s.docId.bind fun did =>
  (s.documents did).bind fun document =>
  let snap := s.snapshot
  (s.flowBlocks did).bind fun ids =>
  let blocks := sortByKey Block.documentPosition (s.getBlocks ids)
  let selStart := min dto.position dto.anchor
  let selEnd := max dto.position dto.anchor
  (s.findBlockAtPosition blocks selStart).bind fun (b1, i1, o1) =>
  (s.findBlockAtPosition blocks selEnd).bind fun (_, i2, o2) =>
  if i1 ≠ i2 then none
  else
    (s.deleteRange b1 o1 o2).bind fun (removed, s) =>
    let s := s.updateDocument { document with characterCount := document.characterCount - removed }
    let s := s.shiftStored (blocks.drop (i1 + 1)) (-removed)
    let blocks := sortByKey Block.documentPosition (s.getBlocks ids)
    (s.documents did).bind fun document =>
    (s.findBlockAtPosition blocks selStart).bind fun (b, i, off) =>
    (s.insertInto b off dto.text).bind fun (_, s) =>
    let s := s.shiftStored (blocks.drop (i + 1)) dto.text.length
    let s := s.updateDocument
      { document with characterCount := document.characterCount + dto.text.length }
    some (s, ⟨b.documentPosition + off + dto.text.length, 1⟩, .selection snap)

/-- The scan of `find_block_at_position_sequential`, insert_text_uc.rs L441-L466. -/
def walkFlow (s : Store) (position : Int) : Int → List Nat → Option (Option (Block × Int))
  | _, [] => some none
  | running, id :: ids =>
    (s.blocks id).bind fun b =>
    (blockCharLength s.text b.id).bind fun (len : Nat) =>
    if position ≥ running ∧ position ≤ running + len then some (some (b, running))
    else s.walkFlow position (running + len + 1) ids

/-- The start of the last block, insert_text_uc.rs L472-L478. -/
def flowStart (s : Store) : List Nat → Option Int
  | [] => some 0
  | id :: ids =>
    (s.flowStart ids).bind fun rest =>
    match s.blocks id with
    | some b => (blockCharLength s.text b.id).map fun (len : Nat) => len + 1 + rest
    | none => some rest

/-- The block lookup of `execute_insert_simple`, insert_text_uc.rs L291-L331: the block, its start,
and the offset in it. -/
def locateSimple (s : Store) (did : Nat) (position : Int) : Option (Block × Int × Int) :=
  (findBlockAtCharPosition s.text s.blocks.len position).bind fun
  | some (id, off, start) =>
    (s.blocks id).bind fun b =>
    (blockCharLength s.text b.id).map fun (len : Nat) => (b, start, max 0 (min off len))
  | none =>
    (s.flowBlocks did).bind fun ids =>
    if ids = [] then none
    else
      (s.walkFlow position 0 ids).bind fun
      | some (b, pos) =>
        (blockCharLength s.text b.id).map fun (len : Nat) => (b, pos, max 0 (min (position - pos) len))
      | none =>
        (ids.getLast?.bind fun i => s.blocks i).bind fun b =>
        (s.flowStart ids.dropLast).bind fun pos =>
        (blockCharLength s.text b.id).map fun (len : Nat) => (b, pos, max 0 (min (position - pos) len))

/-- The blocks whose stored position a simple insertion moves when the rope does not mirror the
flow, insert_text_uc.rs L391-L411. -/
def staleAfter (s : Store) (did : Nat) (block : Block) : List Block :=
  ((s.docFrames did).flatMap fun f => s.getBlocks (s.frameBlocks f)).filter fun b =>
    decide (b.id ≠ block.id) && decide (b.documentPosition > block.documentPosition)

/-- `execute_insert_simple`, insert_text_uc.rs L272-L434. -/
def insertSimple (s : Store) (dto : InsertTextDto) :
    Option (Store × InsertTextResult × InsertUndo) :=
  s.docId.bind fun did =>
  (s.documents did).bind fun document =>
  (s.locateSimple did dto.position).bind fun (block, pos, offset) =>
  let runs := s.runsOf block.id
  let images := s.imagesOf block.id
  (s.insertInto block offset dto.text).bind fun (off, s) =>
  let s := if ropePositionsMatchFlow s.text s.blocks.len then s
    else s.shiftStored (s.staleAfter did block) dto.text.length
  let s := s.updateDocument
    { document with characterCount := document.characterCount + dto.text.length }
  some (s, ⟨pos + offset + dto.text.length, 1⟩,
    .simple ⟨block.id, block, runs, images, did, document.characterCount, off, utf8Len dto.text⟩)

/-- `InsertTextUseCase::execute` without its transaction, insert_text_uc.rs L498-L518. -/
def insertText (s : Store) (dto : InsertTextDto) : Option (Store × InsertTextResult × InsertUndo) :=
  if dto.position ≠ dto.anchor then s.insertWithSelection dto else s.insertSimple dto

/-- `InsertTextUseCase::undo`, insert_text_uc.rs L521-L570. -/
def undoInsert (s : Store) : InsertUndo → Option Store
  | .selection snap => some (s.restoreUndo snap)
  | .simple d =>
    let s := s.updateBlock d.originalBlock
    let s := { s with
      formatRuns := s.formatRuns.insert d.blockId d.originalRuns
      blockImages := s.blockImages.insert d.blockId d.originalImages }
    (if d.byteLen > 0 then ropeDeleteInBlock s.text d.blockId d.byteOffset (d.byteOffset + d.byteLen)
      else some s.text).bind fun r =>
    let s := s.withText r
    (s.documents d.docId).map fun doc =>
      s.updateDocument { doc with characterCount := d.originalCharacterCount }

/-! ### insert_block -/

/-- `InsertBlockResultDto`. -/
structure InsertBlockResult where
  newPosition : Int
  newBlockId : Nat
deriving DecidableEq

/-- The loop of `find_owner_frame` over `child_order`, insert_block_uc.rs L182-L191; `sub` is the
recursive call. -/
def searchChildren (sub : Nat → Option (Option Nat)) (fid target : Nat) :
    List Int → Option (Option Nat)
  | [] => some none
  | e :: es =>
    if e > 0 ∧ e.toNat = target then some (some fid)
    else if e < 0 then
      (sub (-e).toNat).bind fun
      | some o => some (some o)
      | none => searchChildren sub fid target es
    else searchChildren sub fid target es

/-- `find_owner_frame`, insert_block_uc.rs L174-L199, with fuel for the nesting of frames. -/
def ownerFrame (s : Store) (target : Nat) : Nat → Nat → Option (Option Nat)
  | 0, _ => none
  | fuel + 1, fid =>
    (s.frames fid).bind fun f =>
    (searchChildren (s.ownerFrame target fuel) fid target f.childOrder).map fun
    | some o => some o
    | none => if (s.frameBlocks fid).contains target then some fid else none

/-- `execute_insert_block`, insert_block_uc.rs L51-L263. -/
def insertBlock (s : Store) (position : Int) : Option (Store × InsertBlockResult × Snapshot) :=
  s.docId.bind fun did =>
  (s.documents did).bind fun document =>
  let snap := s.snapshot
  (s.docFrames did).head?.bind fun fid =>
  (s.flowIds fid).bind fun ids =>
  let blocks := s.getBlocks ids
  (s.findBlockAtPosition blocks position).bind fun (cur, i, offset) =>
  let runs := s.runsOf cur.id
  let images := s.imagesOf cur.id
  (blockContent s.text cur.id).bind fun content =>
  let split := logicalOffsetToByte content images offset
  (splitAtByte content split).bind fun (before, _) =>
  let s := s.updateBlock cur
  let s := s.editRuns cur.id fun _ => (splitRunsAt runs split).1
  let s := s.editImages cur.id fun _ => (splitImagesAt images split).1
  let newPos := cur.documentPosition + before.length + ((splitImagesAt images split).1.length : Nat) + 1
  (s.ownerFrame cur.id (s.frames.len + 1) fid).bind fun owner? =>
  let owner := owner?.getD fid
  (s.createBlock { cur with id := 0, documentPosition := newPos } owner (-1)).bind fun (new, s) =>
  let s := s.editRuns new fun _ => (splitRunsAt runs split).2
  let s := s.editImages new fun _ => (splitImagesAt images split).2
  (ropeSplitBlock s.text cur.id split new).bind fun r =>
  let s := s.withText r
  (s.frames owner).bind fun frame =>
  let at_ := ((frame.childOrder.findIdx? fun e => decide (e > 0) && e.toNat == cur.id).map (· + 1)).getD
    frame.childOrder.length
  let s := s.updateFrame { frame with childOrder := frame.childOrder.insertIdx at_ (new : Int) }
  let s := s.shiftStored (blocks.drop (i + 1)) 1
  let s := s.updateDocument { document with blockCount := document.blockCount + 1 }
  some (s, ⟨newPos, new⟩, snap)

/-! ### delete_text -/

/-- `DeleteTextResultDto`. -/
structure DeleteTextResult where
  newPosition : Int
  deletedText : List Char
deriving DecidableEq

/-- The first block of the list with the given id gets a new position. -/
def setPosition (id : Nat) (p : Int) : List Block → List Block
  | [] => []
  | b :: bs => if b.id = id then { b with documentPosition := p } :: bs else b :: setPosition id p bs

/-- The refresh of the stored positions, delete_text_uc.rs L185-L206: the blocks and, in order, the
changed ones. -/
def refreshPositions (st : RopeSt) : List Int → Int → List Block → Option (List Block × List Block)
  | [], _, blocks => some (blocks, [])
  | e :: es, running, blocks =>
    if e ≤ 0 then refreshPositions st es running blocks
    else match blocks.find? fun b => b.id == e.toNat with
      | none => refreshPositions st es running blocks
      | some b =>
        (blockCharLength st b.id).bind fun (len : Nat) =>
        if b.documentPosition ≠ running then
          (refreshPositions st es (running + (len + 1)) (setPosition e.toNat running blocks)).map
            fun r => (r.1, { b with documentPosition := running } :: r.2)
        else refreshPositions st es (running + (len + 1)) blocks

/-- `block_to_cell_frame`, delete_text_uc.rs L213-L231. -/
def cellFrameOf (s : Store) (did : Nat) (bid : Nat) : Option Nat :=
  let cells := (s.docTables did).flatMap fun t =>
    (((s.tables t).map Table.cells).getD []).filterMap fun c => s.tableCells c
  let frames := cells.filterMap TableCell.cellFrame
  frames.reverse.find? fun f => (s.frameBlocks f).contains bid

/-- `is_cross_cell`, delete_text_uc.rs L233-L256: the touched blocks do not all lie in the same cell
(or all outside the tables). -/
def isCrossCell (s : Store) (did : Nat) (blocks : List Block) (start stop : Int) : Option Bool :=
  (mapOpt (fun b : Block => (blockCharLength s.text b.id).map fun (len : Nat) =>
    if b.documentPosition + len < start ∨ b.documentPosition > stop then []
    else [s.cellFrameOf did b.id]) blocks).map fun l =>
    match l.flatten with
    | [] => false
    | c :: cs => cs.any fun c' => decide (c' ≠ c)

/-- The same-block branch of `execute_delete`, delete_text_uc.rs L601-L669. -/
def deleteSame (s : Store) (document : Document) (blocks : List Block) (b : Block) (i : Nat)
    (so eo start stop : Int) : Option (Store × DeleteTextResult) :=
  let images := s.imagesOf b.id
  (blockContent s.text b.id).bind fun content =>
  let bs := logicalOffsetToByte content images so
  let be := logicalOffsetToByte content images eo
  (sliceBytes content bs be).bind fun gone =>
  let s := s.editRuns b.id fun runs => shiftRunsForDelete runs bs be
  let s := s.editImages b.id fun im => (shiftImagesForDelete im bs be).1
  (ropeDeleteInBlock s.text b.id bs be).bind fun r =>
  let s := (s.withText r).updateBlock b
  let s := if ropePositionsMatchFlow s.text s.blocks.len then s
    else s.shiftStored (blocks.drop (i + 1)) (-(stop - start))
  let s := s.updateDocument
    { document with characterCount := document.characterCount - (stop - start) }
  some (s, ⟨start, gone⟩)

/-- The loop removing the merged blocks, delete_text_uc.rs L795-L809. -/
def dropBlocks : List Nat → Store → Option Store
  | [], s => some s
  | id :: ids, s =>
    let s := { s with formatRuns := s.formatRuns.erase id, blockImages := s.blockImages.erase id }
    (ropeRemoveBlock s.text id).bind fun r =>
    ((s.withText r).removeBlocks [id]).bind fun s => dropBlocks ids s

/-- The cross-block branch of `execute_delete`, delete_text_uc.rs L670-L856. -/
def deleteAcross (s : Store) (did fid : Nat) (document : Document) (blocks : List Block)
    (b1 : Block) (i1 : Nat) (so : Int) (b2 : Block) (i2 : Nat) (eo start stop : Int) :
    Option (Store × DeleteTextResult) :=
  if i2 < i1 then none else  -- the slice `blocks[i1 + 1..i2]` panics
  (blockContent s.text b1.id).bind fun t1 =>
  (blockContent s.text b2.id).bind fun t2 =>
  let middle := (blocks.take i2).drop (i1 + 1)
  (mapOpt (fun b : Block => blockContent s.text b.id) middle).bind fun mids =>
  let bs := logicalOffsetToByte t1 (s.imagesOf b1.id) so
  let be := logicalOffsetToByte t2 (s.imagesOf b2.id) eo
  (splitAtByte t1 bs).bind fun p1 =>
  (splitAtByte t2 be).bind fun p2 =>
  let gone := p1.2 ++ mids.flatMap (fun t => '\n' :: t) ++ '\n' :: p2.1
  let runs := mergeRunsForJoin (s.runsOf b1.id) bs (s.runsOf b2.id) be
  let images := mergeImagesForJoin (s.imagesOf b1.id) bs (s.imagesOf b2.id) be
  let s := s.updateBlock b1
  let s := { s with
    formatRuns := s.formatRuns.insert b1.id runs
    blockImages := s.blockImages.insert b1.id images }
  (ropeMergeBlockRange s.text b1.id bs b2.id be).bind fun r =>
  let s := s.withText r
  let removed := ((blocks.take (i2 + 1)).drop (i1 + 1)).map Block.id
  (dropBlocks removed s).bind fun s =>
  let owner := (s.cellFrameOf did b1.id).getD fid
  (s.frames owner).bind fun frame =>
  let s := s.updateFrame
    { frame with childOrder := frame.childOrder.filter fun e => !(decide (0 ≤ e) && removed.contains e.toNat) }
  let chars := ((t1.length : Int) - so) + ((mids.map List.length).sum : Nat) + eo
  let s := if ropePositionsMatchFlow s.text s.blocks.len then s
    else s.shiftStored (blocks.drop (i2 + 1)) (-(stop - start))
  let s := s.updateDocument
    { document with
      characterCount := document.characterCount - chars
      blockCount := document.blockCount - removed.length }
  some (s, ⟨start, gone⟩)

/-- `execute_delete`, delete_text_uc.rs L121-L857. -/
def deleteText (s : Store) (position anchor : Int) : Option (Store × DeleteTextResult × Snapshot) :=
  s.docId.bind fun did =>
  if position = anchor then some (s, ⟨position, []⟩, s.snapshot)
  else
    let start := min position anchor
    let stop := max position anchor
    (s.documents did).bind fun document =>
    let snap := s.snapshot
    (s.docFrames did).head?.bind fun fid =>
    (s.flowIds fid).bind fun ids =>
    (s.frames fid).bind fun rootFrame =>
    (refreshPositions s.text rootFrame.childOrder 0 (s.getBlocks ids)).bind fun (blocks, changed) =>
    let s := s.updateBlocks changed
    let blocks := sortByKey Block.documentPosition blocks
    (s.findBlockAtPosition blocks start).bind fun (b1, i1, so) =>
    (s.isCrossCell did blocks start stop).bind fun cross =>
    if cross then none
    else
      (s.findBlockAtPosition blocks stop).bind fun (b2, i2, eo) =>
      (if i1 = i2 then s.deleteSame document blocks b1 i1 so eo start stop
        else s.deleteAcross did fid document blocks b1 i1 so b2 i2 eo start stop).map fun r =>
        (r.1, r.2, snap)

end Store
end Verif
