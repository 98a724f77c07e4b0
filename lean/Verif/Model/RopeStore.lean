import Verif.Model.OffsetIndex
/-
The global text of a document and its paragraph index:
common/src/database/rope_helpers.rs.  `none` is a panic of the code.  Byte counts are unbounded
naturals (the code uses `u32`/`i32`, so it holds less than 2 GiB of text).  Locks are dropped.
-/
namespace Verif

/-- `store.rope` and `store.block_offsets`. -/
structure RopeSt where
  rope : List Char
  idx : Index

/-- U+FFFC, the stand-in character of a table or an image. -/
def objChar : Char := '￼'

/-- The `content_end` computation repeated in rope_helpers.rs L30, L52, L163, L211. -/
def contentEnd (bs be : Nat) (hasSucc : Bool) : Nat := if hasSucc && be > bs then be - 1 else be

/-- `block_content_via_store`, L20-L35. -/
def blockContent (st : RopeSt) (id : Nat) : Option (List Char) :=
  (st.idx.rangeWithSuccessor (.block id)).bind fun
    | none => some []
    | some (bs, be, hs) => sliceBytes st.rope bs (contentEnd bs be hs)

/-- `block_char_length`, L46-L58. -/
def blockCharLength (st : RopeSt) (id : Nat) : Option Nat :=
  (st.idx.rangeWithSuccessor (.block id)).bind fun
    | none => some 0
    | some (bs, be, hs) =>
      (byteToChar st.rope bs).bind fun a =>
      (byteToChar st.rope (contentEnd bs be hs)).bind fun b =>
      if b < a then none else some (b - a)

/-- `block_document_position`, L69-L77; `stored` is the block's own field. -/
def blockDocumentPosition (st : RopeSt) (id : Nat) (stored : Int) : Option Int :=
  (st.idx.rangeOf (.block id)).bind fun
    | none => some stored
    | some (bs, _) => (byteToChar st.rope bs).map Int.ofNat

/-- `rope_positions_match_flow`, L95-L106; `blocks` is the number of blocks in the store. -/
def ropePositionsMatchFlow (st : RopeSt) (blocks : Nat) : Bool :=
  if st.idx.anchors > 0 then false else st.idx.entries.length == blocks

/-- `find_block_at_char_position`, L126-L185.  Outer `Option`: panic.  The result is (block,
character offset in the block, character position of the block). -/
def findBlockAtCharPosition (st : RopeSt) (blocks : Nat) (position : Int) :
    Option (Option (Nat × Int × Int)) :=
  if st.idx.anchors > 0 then some none
  else if st.idx.entries.length ≠ blocks then some none
  else
    let p := (max 0 (min position st.rope.length)).toNat
    (charToByte st.rope p).bind fun absByte =>
    match (st.idx.markerAtByte absByte).bind Marker.asBlock with
    | none => some none
    | some id =>
      (st.idx.rangeWithSuccessor (.block id)).bind fun
        | none => some none
        | some (bs, be, hs) =>
          (byteToChar st.rope bs).bind fun start =>
          (byteToChar st.rope (min absByte (contentEnd bs be hs))).map fun ac =>
            some (id, (ac : Int) - (start : Int), (start : Int))

/-- `block_char_to_byte_in_block`, L201-L225. -/
def blockCharToByteInBlock (st : RopeSt) (id : Nat) (off : Nat) : Option (Nat × Nat) :=
  (st.idx.rangeWithSuccessor (.block id)).bind fun
    | none => some (0, 0)
    | some (bs, be, hs) =>
      let ce := contentEnd bs be hs
      if ce < bs then none else
      (byteToChar st.rope bs).bind fun cs =>
      (byteToChar st.rope ce).bind fun c2 =>
      if c2 < cs then none else
      (charToByte st.rope (cs + min off (c2 - cs))).bind fun ab =>
      if ab < bs then none else some (ab - bs, ce - bs)

/-- `rope_flat_text_if_simple`, L244-L258. -/
def ropeFlatTextIfSimple (st : RopeSt) (topFrames : Nat) : Option (List Char) :=
  if topFrames ≠ 1 then none
  else if st.idx.entries.any fun e => e.1.isTable then none
  else some st.rope

/-- `rope_reset`, L262-L266. -/
def ropeReset : RopeSt := ⟨[], .empty⟩

/-- `rope_append_block`, L274-L286. -/
def ropeAppendBlock (st : RopeSt) (id : Nat) (text : List Char) : RopeSt :=
  let rope := st.rope ++ text
  ⟨rope, (st.idx.push (.block id) (utf8Len st.rope)).setTotal (utf8Len rope)⟩

/-- `rope_insert_block_boundary`, L387-L399. -/
def ropeInsertBlockBoundary (st : RopeSt) : RopeSt :=
  let rope := st.rope ++ ['\n']
  ⟨rope, st.idx.setTotal (utf8Len rope)⟩

/-- `rope_append_empty_block`, L372-L382. -/
def ropeAppendEmptyBlock (st : RopeSt) (id : Nat) : RopeSt :=
  let st := if utf8Len st.rope = 0 then st else ropeInsertBlockBoundary st
  ⟨st.rope, (st.idx.push (.block id) (utf8Len st.rope)).setTotal (utf8Len st.rope)⟩

/-- `rope_insert_block_at`, L305-L337. -/
def ropeInsertBlockAt (st : RopeSt) (bytePos : Nat) (id : Nat) (text : List Char) :
    Option RopeSt :=
  let vecPos := (st.idx.entries.findIdx? fun e => decide (e.2 > bytePos)).getD st.idx.entries.length
  (insertAtByte st.rope bytePos ('\n' :: text)).bind fun rope =>
  (st.idx.shiftAfter (bytePos + 1) ((1 + utf8Len text : Nat) : Int)).bind fun idx =>
  (idx.insertAt vecPos (.block id) (bytePos + 1)).map fun idx => ⟨rope, idx⟩

/-- `rope_insert_in_block`, L409-L440. -/
def ropeInsertInBlock (st : RopeSt) (id off : Nat) (text : List Char) : Option RopeSt :=
  if utf8Len text = 0 then some st
  else
    (st.idx.rangeOf (.block id)).bind fun
      | none => some st
      | some (start, _) =>
        (insertAtByte st.rope (start + off) text).bind fun rope =>
        (st.idx.shiftAfter (start + 1) (utf8Len text : Nat)).map fun idx => ⟨rope, idx⟩

/-- `entries.iter().position(|(m, _)| *m == marker).unwrap()`, L465-L469 and others. -/
def Index.entryIndex (x : Index) (m : Marker) : Option Nat :=
  x.entries.findIdx? fun e => decide (e.1 = m)

/-- `rope_split_block`, L453-L497. -/
def ropeSplitBlock (st : RopeSt) (cur off new : Nat) : Option RopeSt :=
  (st.idx.rangeOf (.block cur)).bind fun
    | none => some st
    | some (start, _) =>
      (st.idx.entryIndex (.block cur)).bind fun i =>
      let split := start + off
      (insertAtByte st.rope split ['\n']).bind fun rope =>
      (st.idx.shiftAfter (split + 1) 1).bind fun idx =>
      (idx.insertAt (i + 1) (.block new) (split + 1)).map fun idx => ⟨rope, idx⟩

/-- `rope_merge_block_range`, L511-L574. -/
def ropeMergeBlockRange (st : RopeSt) (startId so endId eo : Nat) : Option RopeSt :=
  (st.idx.rangeOf (.block startId)).bind fun
    | none => some st
    | some (sb, _) =>
      (st.idx.rangeOf (.block endId)).bind fun
        | none => some st
        | some (eb, _) =>
          (st.idx.entryIndex (.block startId)).bind fun si =>
          (st.idx.entryIndex (.block endId)).bind fun ei =>
          if ei ≤ si then some st
          else
            let ds := sb + so
            let de := eb + eo
            if de ≤ ds then some st
            else
              (removeBytes st.rope ds de).bind fun rope =>
              (st.idx.drainInclusive (si + 1) ei).bind fun idx =>
              (idx.shiftAfter (ds + 1) (-((de - ds : Nat) : Int))).map fun idx => ⟨rope, idx⟩

/-- `rope_insert_table_anchor`, L598-L674. -/
def ropeInsertTableAnchor (st : RopeSt) (tid target : Nat) (after : Bool) : Option RopeSt :=
  (st.idx.rangeOf (.block target)).bind fun
    | none => some st
    | some (start, stop) =>
      (st.idx.entryIndex (.block target)).bind fun i =>
      let isLast := i + 1 == st.idx.entries.length
      let pos := if after then stop else start
      let plan : List Char × Nat × Nat :=
        if !after then ([objChar, '\n'], pos, i)
        else if !isLast then ([objChar, '\n'], pos, i + 1)
        else (['\n', objChar], pos + 1, i + 1)
      (insertAtByte st.rope pos plan.1).bind fun rope =>
      (st.idx.shiftAfter pos 4).bind fun idx =>
      (idx.insertAt plan.2.2 (.table tid) plan.2.1).map fun idx => ⟨rope, idx⟩

/-- `rope_append_table_anchor`, L685-L702. -/
def ropeAppendTableAnchor (st : RopeSt) (tid : Nat) : RopeSt :=
  let rope := st.rope ++ (if utf8Len st.rope = 0 then [objChar] else ['\n', objChar])
  ⟨rope, (st.idx.push (.table tid) (utf8Len rope - 3)).setTotal (utf8Len rope)⟩

/-- `rope_remove_table_anchor`, L712-L755. -/
def ropeRemoveTableAnchor (st : RopeSt) (tid : Nat) : Option RopeSt :=
  (st.idx.rangeOf (.table tid)).bind fun
    | none => some st
    | some (start, _) =>
      (st.idx.entryIndex (.table tid)).bind fun i =>
      let isLast := i + 1 == st.idx.entries.length
      if isLast && decide (i > 0) then
        if start < 1 then none
        else
          (removeBytes st.rope (start - 1) (start + 3)).bind fun rope =>
          (st.idx.removeAt i).bind fun idx =>
          (idx.shiftAfter (start - 1) (-4)).map fun idx => ⟨rope, idx⟩
      else
        (removeBytes st.rope start (start + 4)).bind fun rope =>
        (st.idx.removeAt i).bind fun idx =>
        (idx.shiftAfter start (-4)).map fun idx => ⟨rope, idx⟩

/-- `rope_remove_block`, L767-L823. -/
def ropeRemoveBlock (st : RopeSt) (id : Nat) : Option RopeSt :=
  (st.idx.rangeOf (.block id)).bind fun
    | none => some st
    | some (start, stop) =>
      (st.idx.entryIndex (.block id)).bind fun i =>
      let isLast := i + 1 == st.idx.entries.length
      let rs := if isLast && decide (i > 0) then start - 1 else start
      if stop ≤ rs then (st.idx.removeAt i).map fun idx => ⟨st.rope, idx⟩
      else
        (removeBytes st.rope rs stop).bind fun rope =>
        (st.idx.removeAt i).bind fun idx =>
        (idx.shiftAfter stop (-((stop - rs : Nat) : Int))).map fun idx => ⟨rope, idx⟩

/-- `rope_replace_block_content`, L837-L887. -/
def ropeReplaceBlockContent (st : RopeSt) (id : Nat) (text : List Char) : Option RopeSt :=
  (st.idx.rangeOf (.block id)).bind fun
    | none => some st
    | some (start, stop) =>
      let sub := if stop < st.idx.total then 1 else 0
      if stop < start + sub then none
      else
        let content := stop - start - sub
        if content = 0 ∧ utf8Len text = 0 then some st
        else
          ((if content > 0 then removeBytes st.rope start (start + content) else some st.rope).bind
            fun rope =>
          -- the insertion uses the character index found before the removal
          (byteToChar st.rope start).bind fun k =>
          let rope := if utf8Len text > 0 then rope.take k ++ text ++ rope.drop k else rope
          let d : Int := (utf8Len text : Int) - (content : Int)
          if d ≠ 0 then (st.idx.shiftAfter (start + 1) d).map fun idx => ⟨rope, idx⟩
          else some ⟨rope, st.idx⟩)

/-- `rope_delete_in_block`, L892-L922. -/
def ropeDeleteInBlock (st : RopeSt) (id bs be : Nat) : Option RopeSt :=
  if be ≤ bs then some st
  else
    (st.idx.rangeOf (.block id)).bind fun
      | none => some st
      | some (start, _) =>
        (removeBytes st.rope (start + bs) (start + be)).bind fun rope =>
        (st.idx.shiftAfter (start + 1) (-((be - bs : Nat) : Int))).map fun idx => ⟨rope, idx⟩

end Verif
