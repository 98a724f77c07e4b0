import Verif.Model.Editing
import Verif.Model.Search
/-
Search and replace: document_search/src/use_cases/replace_text_uc.rs.  `none` is an error or a panic.
-/
namespace Verif
namespace Store

/-- The blocks of all frames of the document, sorted by stored position, L52-L67 and L267-L275. -/
def sortedBlocks (s : Store) (did : Nat) : List Block :=
  sortByKey Block.documentPosition
    (s.getBlocks ((s.docFrames did).flatMap fun f => s.frameBlocks f))

/-- `build_full_text_via_store`, search_helpers.rs L22-L31. -/
def joinedText (st : RopeSt) : List Block → Option (List Char)
  | [] => some []
  | [b] => blockContent st b.id
  | b :: bs => (blockContent st b.id).bind fun t => (joinedText st bs).map fun r => t ++ '\n' :: r

/-- `fetch_blocks_and_build_text`, L43-L74: the text that is searched. -/
def searchText (s : Store) (did : Nat) : Option (List Char) :=
  match ropeFlatTextIfSimple s.text (s.docFrames did).length with
  | some t => some t
  | none => joinedText s.text (s.sortedBlocks did)

/-- `find_block_for_position`, L76-L90, with `i` the index of the first block of the list.  A negative
stored position, which `as usize` turns into a huge one, never matches. -/
def blockForPosition (st : RopeSt) (position : Nat) : Nat → List Block → Option (Option (Nat × Nat × Nat))
  | _, [] => some none
  | i, b :: bs =>
    (blockCharLength st b.id).bind fun (len : Nat) =>
    if b.documentPosition ≤ position ∧ (position : Int) < b.documentPosition + len ∧ 0 ≤ b.documentPosition then
      some (some (i, position - b.documentPosition.toNat, len))
    else blockForPosition st position (i + 1) bs

/-- `match_in_single_block`, L92-L106. -/
def matchInBlock (st : RopeSt) (blocks : List Block) (m : Nat × Nat) : Option (Option (Nat × Nat)) :=
  (blockForPosition st m.1 0 blocks).map fun
  | some (i, off, len) => if off + m.2 ≤ len then some (i, off) else none
  | none => none

/-- A match that lies in one block: its length, the index of the block, and the offset in it. -/
structure ValidMatch where
  len : Nat
  block : Nat
  off : Nat
deriving DecidableEq, Repr

/-- The loop L218-L226: the valid matches and the number of the others. -/
def validMatches (st : RopeSt) (blocks : List Block) : List (Nat × Nat) → Option (List ValidMatch × Nat)
  | [] => some ([], 0)
  | m :: ms =>
    (matchInBlock st blocks m).bind fun r =>
    (validMatches st blocks ms).map fun (vs, skipped) =>
    match r with
    | some (i, off) => (⟨m.2, i, off⟩ :: vs, skipped)
    | none => (vs, skipped + 1)

/-- `replace_in_block`, L113-L179. -/
def replaceInBlock (s : Store) (block : Block) (so eo : Nat) (rep : List Char) : Option Store :=
  (blockContent s.text block.id).bind fun content =>
  let bs := logicalOffsetToByte content (s.imagesOf block.id) so
  let be := logicalOffsetToByte content (s.imagesOf block.id) eo
  (sliceBytes content bs be).bind fun _ =>
  let s := s.editRuns block.id fun runs =>
    shiftRunsForInsert (shiftRunsForDelete runs bs be) bs (utf8Len rep)
  let s := s.editImages block.id fun im =>
    shiftImagesForInsert (shiftImagesForDelete im bs be).1 bs (utf8Len rep)
  let s := s.updateBlock block
  (ropeDeleteInBlock s.text block.id bs be).bind fun r =>
  (ropeInsertInBlock r block.id bs rep).map fun r => s.withText r

/-- The loop L248-L265 over the valid matches, last one first; `blocks` is the list of before. -/
def replaceLoop (rep : List Char) (blocks : List Block) : List ValidMatch → Store → Option Store
  | [], s => some s
  | v :: vs, s =>
    (replaceLoop rep blocks vs s).bind fun s =>
    (blocks[v.block]?).bind fun b =>
    (s.blocks b.id).bind fun b => s.replaceInBlock b v.off (v.off + v.len) rep

/-- `delta_by_block`, L277-L282, for one block; `none` when it has no match. -/
def deltaOf (repLen : Nat) (vs : List ValidMatch) (i : Nat) : Option Int :=
  let mine := vs.filter fun v => v.block == i
  if mine = [] then none else some (mine.map fun v => (repLen : Int) - v.len).sum

/-- The loop L284-L310: the blocks whose stored position moves. -/
def shiftedBlocks (repLen : Nat) (vs : List ValidMatch) (blocks : List Block) : Int → List Block → List Block
  | _, [] => []
  | shift, b :: bs =>
    let d := ((blocks.findIdx? fun x => x.id == b.id).bind (deltaOf repLen vs)).getD 0
    let rest := shiftedBlocks repLen vs blocks (shift + d) bs
    if shift ≠ 0 then { b with documentPosition := b.documentPosition + shift } :: rest else rest

/-- `ReplaceTextDto`. -/
structure ReplaceDto where
  query : List Char
  replacement : List Char
  replaceAll : Bool
  caseSensitive : Bool
  wholeWord : Bool
  useRegex : Bool

/-- `ReplaceResultDto`. -/
structure ReplaceResult where
  replaced : Nat
  skipped : Nat
deriving DecidableEq, Repr

/-- `execute_replace` once the matches are found, L205-L330. -/
def replaceMatches (s : Store) (did : Nat) (rep : List Char) (replaceAll : Bool) (ms : List (Nat × Nat)) :
    Option (Store × ReplaceResult) :=
  if ms = [] then some (s, ⟨0, 0⟩)
  else
    let blocks := s.sortedBlocks did
    (validMatches s.text blocks ms).bind fun (vs, skipped) =>
    let vs := if replaceAll then vs else vs.take 1
    if vs = [] then some (s, ⟨0, skipped⟩)
    else
      (replaceLoop rep blocks vs s).bind fun s =>
      let s := s.updateBlocks (shiftedBlocks rep.length vs blocks 0 (s.sortedBlocks did))
      (s.documents did).map fun document =>
      (s.updateDocument { document with
          characterCount := document.characterCount + (vs.map fun v => (rep.length : Int) - v.len).sum },
        ⟨vs.length, skipped⟩)

/-- `execute_replace`, L181-L331; `redo`, L376-L389, is the same. -/
def replaceText (env : SearchEnv) (s : Store) (dto : ReplaceDto) : Option (Store × ReplaceResult × Snapshot) :=
  s.docId.bind fun did =>
  let snap := s.snapshot
  (s.searchText did).bind fun text =>
  (findAllMatches env text dto.query dto.caseSensitive dto.wholeWord dto.useRegex).bind fun ms =>
  (s.replaceMatches did dto.replacement dto.replaceAll ms).map fun (s, r) => (s, r, snap)

/-- `ReplaceTextUseCase::undo`, L362-L374. -/
def undoReplace (s : Store) (snap : Snapshot) : Store := s.restoreUndo snap

end Store
end Verif
