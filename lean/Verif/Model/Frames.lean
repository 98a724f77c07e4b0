import Verif.Model.Editing
/-
Inserting a frame: document_editing/src/use_cases/insert_frame_uc.rs (`TextCursor::insert_frame`,
public_api/src/cursor.rs L740-L765, which passes the caret and leaves it in place).
-/
namespace Verif
namespace Store

/-- The loop over the blocks of the frame that holds the position, insert_frame_uc.rs L66-L74: the first block
that ends at or after it, else the last. -/
def closestBlock (st : RopeSt) (position : Int) : Nat → List Block → Option Nat
  | i, [] => some (i - 1)
  | i, b :: bs => (blockCharLength st b.id).bind fun len =>
    if position ≤ b.documentPosition + len then some i else closestBlock st position (i + 1) bs

/-- `find_frame_at_position`, insert_frame_uc.rs L45-L80. -/
def findFrameAt (s : Store) (position : Int) : List Nat → Option (Option (Frame × Nat))
  | [] => some none
  | f :: fs =>
    match s.frames f with
    | none => findFrameAt s position fs
    | some frame =>
      let blocks := sortByKey Block.documentPosition (s.getBlocks (s.frameBlocks f))
      match blocks.head?, blocks.getLast? with
      | some first, some last =>
        (blockCharLength s.text last.id).bind fun len =>
        if position ≥ first.documentPosition ∧ position ≤ last.documentPosition + len then
          (closestBlock s.text position 0 blocks).map fun i => some (frame, i)
        else findFrameAt s position fs
      | _, _ => findFrameAt s position fs

/-- The new frame in the order of its parent, insert_frame_uc.rs L165-L182. -/
def linkFrame (s : Store) (g : Nat) : Option (Frame × Nat) → Option Store
  | none => some s
  | some (parent, i) =>
    (s.frames parent.id).map fun p =>
      let idx := min (min (i + 1) parent.childOrder.length) p.childOrder.length
      s.updateFrame { p with childOrder := p.childOrder.insertIdx idx (-(g : Int)) }

/-- `execute_insert_frame`, insert_frame_uc.rs L82-L215: the new store, the id of the frame, the snapshot. -/
def insertFrame (s : Store) (position : Int) : Option (Store × Nat × Snapshot) :=
  s.docId.bind fun did =>
  (s.documents did).bind fun document =>
  let snap := s.snapshot
  (s.findFrameAt position (s.docFrames did)).bind fun parent =>
  (s.createFrame { parentFrame := parent.map fun x => x.1.id } did (-1)).bind fun (g, s) =>
  (s.frames g).bind fun created =>
  (s.createBlock { documentPosition := position } g (-1)).bind fun (b, s) =>
  let s := s.updateFrame { created with childOrder := [(b : Int)] }
  (s.linkFrame g parent).bind fun s =>
  let s := s.updateDocument { document with blockCount := document.blockCount + 1 }
  some (if parent.isNone then s.withText (ropeAppendEmptyBlock s.text b) else s, g, snap)

/-- `undo`, insert_frame_uc.rs L243-L256. -/
def undoFrame (s : Store) (snap : Snapshot) : Store := s.restoreUndo snap

end Store
end Verif
