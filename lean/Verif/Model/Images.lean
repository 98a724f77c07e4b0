import Verif.Model.Inspect
import Verif.Model.Stats
/-
Inserting an image: document_editing/src/use_cases/insert_image_uc.rs.
-/
namespace Verif
namespace Store

/-- `find_segment_at_offset`, editing_helpers.rs L211-L237, followed by the computation of the byte offset,
insert_image_uc.rs L107-L128, in one walk: `running` counts positions and `bo` the bytes of the text segments
passed.  `char_indices().nth(k)` with a negative `k` wraps to a huge number, giving the end. -/
def imageByte (offset : Int) : Int → Nat → List (Segment CharFormat) → Nat
  | _, bo, [] => bo
  | running, bo, seg :: segs =>
    let len : Int := (segChars seg).length
    match seg with
    | .text cs _ =>
      if offset ≤ running + len then
        bo + utf8Len (if offset < running then cs else cs.take (offset - running).toNat)
      else if segs = [] then bo + utf8Len cs
      else imageByte offset (running + len) (bo + utf8Len cs) segs
    | .image _ =>
      if offset ≤ running + len then bo else if segs = [] then bo
      else imageByte offset (running + len) bo segs

/-- The anchor goes after those at the same offset, insert_image_uc.rs L136-L155. -/
def putAnchor (a : Img CharFormat) (images : List (Img CharFormat)) : List (Img CharFormat) :=
  images.insertIdx ((images.findIdx? fun x => a.off < x.off).getD images.length) a

/-- `InsertImageDto`. -/
structure ImageDto where
  position : Int
  anchor : Int
  name : String
  width : Int
  height : Int

/-- `execute_insert_image`, insert_image_uc.rs L44-L206: the store, the new position, the element id and the
snapshot for undo. -/
def insertImage (s : Store) (dto : ImageDto) : Option (Store × Int × Nat × Snapshot) :=
  if dto.position ≠ dto.anchor then none
  else if dto.width ≤ 0 ∨ dto.height ≤ 0 then none
  else
    s.docId.bind fun did =>
    (s.documents did).bind fun document =>
    let snap := s.snapshot
    (s.docFrames did).head?.bind fun fid =>
    let blocks := sortByKey Block.documentPosition (s.getBlocks (s.frameBlocks fid))
    (s.findBlockAtPosition blocks dto.position).bind fun r =>
    (blockContent s.text r.1.id).bind fun content =>
    (s.segmentsOf r.1.id content).bind fun segs =>
    let off := imageByte r.2.2 0 0 segs
    let s := s.editImages r.1.id (putAnchor ⟨off, dto.name, dto.width, dto.height, 100, {}⟩)
    (ropeInsertInBlock s.text r.1.id off [objChar]).map fun st =>
    let s := (s.withText st).updateBlock r.1
    let s := s.shiftStored (blocks.drop (r.2.1 + 1)) 1
    (s.updateDocument { document with characterCount := document.characterCount + 1 },
      dto.position + 1, synthElementId r.1.id off, snap)

/-- `UndoRedoCommand::undo` of it, insert_image_uc.rs L233-L246. -/
def undoImage (s : Store) (snap : Snapshot) : Store := s.restoreUndo snap

end Store
end Verif
