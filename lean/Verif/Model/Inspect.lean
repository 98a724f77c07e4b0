import Verif.Model.Editing
import Verif.Model.Fragments
import Verif.Model.Lists
/-
Reading a document by position: document_inspection/src/use_cases/{get_text_at_position,
get_block_at_position}_uc.rs.  `none` is an error or a panic.
-/
namespace Verif
namespace Store

/-- `inline_segments_for_block`, common/src/format_runs_query.rs L42-L50. -/
def segmentsOf (s : Store) (id : Nat) (plain : List Char) : Option (List (Segment CharFormat)) :=
  inlineSegmentsView {} plain (s.runsOf id) (s.imagesOf id)

/-- `elem_text`, get_text_at_position_uc.rs L142-L146. -/
def segChars : Segment CharFormat → List Char
  | .text cs _ => cs
  | .image _ => [objChar]

/-- The bytes a segment stands for, L174-L178. -/
def segBytes : Segment CharFormat → Nat
  | .text cs _ => utf8Len cs
  | .image _ => 0

/-- What the loops of `get_text_at_position` carry: the text so far, how many characters are still
wanted, and the element id of the first segment used. -/
structure ReadSt where
  text : List Char
  remaining : Nat
  first : Option Nat

/-- The loop over the segments of one block, L137-L181: `bid` is the block, `off` the offset to read
from, `cur` and `byte` where the segment starts. -/
def readSegs (bid off : Nat) : Nat → Nat → List (Segment CharFormat) → ReadSt → ReadSt
  | _, _, [], r => r
  | cur, byte, seg :: segs, r =>
    if r.remaining = 0 then r
    else
      let cs := segChars seg
      let r' : ReadSt :=
        if cur + cs.length > off then
          let start := off - cur
          let take := min (cs.length - start) r.remaining
          ⟨r.text ++ (cs.drop start).take take, r.remaining - take,
            some (r.first.getD (synthElementId bid byte))⟩
        else r
      readSegs bid off (cur + cs.length) (byte + segBytes seg) segs r'

/-- The loop over the blocks, L108-L183; `first` tells whether this is the block of the position. -/
def readBlocks (s : Store) (off : Nat) : Bool → List Nat → ReadSt → Option ReadSt
  | _, [], r => some r
  | first, bid :: bids, r =>
    if r.remaining = 0 then some r
    else
      let r : ReadSt := if first then r else ⟨r.text ++ ['\n'], r.remaining - 1, r.first⟩
      if r.remaining = 0 then some r
      else
        (blockContent s.text bid).bind fun plain =>
        (s.segmentsOf bid plain).bind fun segs =>
        s.readBlocks off false bids (readSegs bid (if first then off else 0) 0 0 segs r)

/-- The search for the first block, L81-L101, with positions computed on the fly: the offset in it and
the blocks from it on; inner `none` is the error "out of document range". -/
def seekBlock (s : Store) (position : Int) : Int → List Nat → Option (Option (Nat × List Nat))
  | _, [] => some none
  | running, id :: ids =>
    (blockCharLength s.text id).bind fun (len : Nat) =>
    if position ≥ running ∧ position ≤ running + len then
      some (some ((position - running).toNat, id :: ids))
    else s.seekBlock position (running + (len + 1)) ids

/-- `TextAtPositionDto`. -/
structure TextAt where
  text : List Char
  blockId : Nat
  elementId : Nat
deriving DecidableEq, Repr

/-- `GetTextAtPositionUseCase::execute`, get_text_at_position_uc.rs L45-L193. -/
def textAt (s : Store) (position length : Int) : Option TextAt :=
  if length < 0 then some ⟨[], 0, 0⟩
  else
    s.docId.bind fun did =>
    (s.flowBlocks did).bind fun ids =>
    (s.seekBlock position 0 ((s.getBlocks ids).map Block.id)).bind fun
    | none => none
    | some (_, []) => none
    | some (off, bid :: bids) =>
      (s.readBlocks off true (bid :: bids) ⟨[], length.toNat, none⟩).map fun r =>
        ⟨r.text, bid, r.first.getD 0⟩

/-- `BlockInfoDto`. -/
structure BlockInfo where
  blockId : Nat
  start : Int
  length : Int
  number : Int
deriving DecidableEq, Repr

/-- The walk of the slow path, get_block_at_position_uc.rs L125-L165; `n` is the number of the first
block of the list; inner `none` is the end of the loop. -/
def walkInfo (s : Store) (position : Int) : Int → Nat → List Nat → Option (Option BlockInfo)
  | _, _, [] => some none
  | running, n, id :: ids =>
    (s.blocks id).bind fun b =>
    (blockCharLength s.text b.id).bind fun (len : Nat) =>
    if position < running ∨ position < running + len ∨ (len = 0 ∧ position = running) then
      some (some ⟨b.id, running, len, n⟩)
    else s.walkInfo position (running + len + 1) (n + 1) ids

/-- The successor of a block in the index, L66-L72: its id and start byte, if it is a paragraph. -/
def nextBlock (st : RopeSt) (id : Nat) : Option (Nat × Nat) :=
  (st.idx.positionOf (.block id)).bind fun i => (st.idx.entries[i + 1]?).bind fun e =>
    e.1.asBlock.map fun id => (id, e.2)

/-- `GetBlockAtPositionUseCase::execute`, get_block_at_position_uc.rs L41-L191. -/
def blockAt (s : Store) (position : Int) : Option BlockInfo :=
  (findBlockAtCharPosition s.text s.blocks.len position).bind fun
  | some (id, off, start) =>
    (s.blocks id).bind fun b =>
    (blockCharLength s.text b.id).bind fun (len : Nat) =>
    match if 0 < len ∧ off = len then nextBlock s.text id else none with
    | some (next, bs) =>
      (byteToChar s.rope bs).bind fun start' =>
      (s.blocks next).bind fun b' =>
      (blockCharLength s.text b'.id).map fun (len' : Nat) =>
        ⟨next, start', len', (((s.text.idx.positionOf (.block next)).getD 0 : Nat) : Int)⟩
    | none => some ⟨id, start, len, (((s.text.idx.positionOf (.block id)).getD 0 : Nat) : Int)⟩
  | none =>
    s.docId.bind fun did =>
    (s.flowBlocks did).bind fun ids =>
    (s.walkInfo position 0 0 ids).bind fun
    | some r => some r
    | none =>
      ids.getLast?.bind fun last =>
      (s.blocks last).bind fun b =>
      (s.flowStart ids.dropLast).bind fun pos =>
      (blockCharLength s.text b.id).map fun (len : Nat) =>
        ⟨b.id, pos, len, ((ids.length - 1 : Nat) : Int)⟩

/-- `DocumentStatsDto` as far as modelled: `get_document_stats_uc.rs` reads the two counters of the
document record. -/
def stats (s : Store) : Option (Int × Int) :=
  s.docId.bind fun did => (s.documents did).map fun d => (d.characterCount, d.blockCount)

end Store
end Verif
