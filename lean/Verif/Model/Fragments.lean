import Verif.Model.FormatRuns
import Verif.Model.Text
/-
Reader views of one paragraph: `inline_segments_view` (common/src/format_runs.rs, used by the
exporters and by fragment extraction) and `build_raw_fragments` (public_api/src/text_block.rs,
behind `TextBlock::fragments`).
-/
namespace Verif
variable {F : Type}

/-- `InlineSegment`, common/src/format_runs.rs (text or image with its format).  Only the
content and the format are kept. -/
inductive Segment (F : Type) where
  | text (cs : List Char) (fmt : F)
  | image (img : Img F)
deriving DecidableEq, Repr

/-- `emit_text` closure, format_runs.rs L561-L577; `none` is the `expect` panic on a slice
that is not valid UTF-8, or a slice out of range. -/
def segEmitText (plain : List Char) (out : List (Segment F)) (a b : Nat) (fmt : F) :
    Option (List (Segment F)) :=
  if a ≥ b then some out
  else (sliceBytes plain a b).map fun t => out ++ [.text t fmt]

/-- `while let Some(img) = img_iter.peek()` loop, format_runs.rs L594-L610: emit the images
strictly before `runStart`.  Returns output, cursor and the images left. -/
def segImagesBefore (plain : List Char) (d : F) (runStart : Nat) :
    List (Img F) → List (Segment F) → Nat → Option (List (Segment F) × Nat × List (Img F))
  | [], out, cur => some (out, cur, [])
  | i :: is, out, cur =>
    if i.off < runStart then
      (segEmitText plain out cur i.off d).bind fun out =>
        segImagesBefore plain d runStart is (out ++ [.image i]) i.off
    else some (out, cur, i :: is)

/-- `for run in runs`, format_runs.rs L593-L631. -/
def segRuns (plain : List Char) (d : F) :
    List (Run F) → List (Img F) → List (Segment F) → Nat →
      Option (List (Segment F) × Nat × List (Img F))
  | [], imgs, out, cur => some (out, cur, imgs)
  | r :: rs, imgs, out, cur =>
    (segImagesBefore plain d r.bs imgs out cur).bind fun (out, cur, imgs) =>
    (if cur < r.bs then segEmitText plain out cur r.bs d else some out).bind fun out =>
    (segEmitText plain out r.bs r.be r.fmt).bind fun out =>
    segRuns plain d rs imgs out r.be

/-- `for img in img_iter`, format_runs.rs L633-L645. -/
def segTailImages (plain : List Char) (d : F) :
    List (Img F) → List (Segment F) → Nat → Option (List (Segment F) × Nat)
  | [], out, cur => some (out, cur)
  | i :: is, out, cur =>
    if i.off > cur then
      (segEmitText plain out cur i.off d).bind fun out =>
        segTailImages plain d is (out ++ [.image i]) i.off
    else segTailImages plain d is (out ++ [.image i]) cur

/-- `inline_segments_view`, format_runs.rs L549-L658; `d` is `CharacterFormat::default()`. -/
def inlineSegmentsView (d : F) (plain : List Char) (runs : List (Run F)) (imgs : List (Img F)) :
    Option (List (Segment F)) :=
  (segRuns plain d runs imgs [] 0).bind fun (out, cur, imgs) =>
  (segTailImages plain d imgs out cur).bind fun (out, cur) =>
  if cur < utf8Len plain then segEmitText plain out cur (utf8Len plain) d else some out

/-- `FragmentContent`, public_api/src/flow.rs: text or image with character offset (and
length).  `element_id` is `synth_element_id(block_id, byte)`, kept here as the byte (see C41);
`word_starts` (accessibility data from the unicode-segmentation crate) is omitted. -/
inductive Frag (F : Type) where
  | text (cs : List Char) (fmt : F) (offset length : Nat) (byte : Nat)
  | image (img : Img F) (offset : Nat)
deriving DecidableEq, Repr

/-- Mutable state of `build_raw_fragments`, text_block.rs L527-L530. -/
structure FragSt (F : Type) where
  out : List (Frag F)
  chars : Nat
  cur : Nat
deriving DecidableEq, Repr

/-- `emit_default_text` / `emit_run_text`, text_block.rs L534-L598 (identical up to the
format). `none` is the panic of `&plain[a..b]`. -/
def fragEmitText (plain : List Char) (fmt : F) (a b : Nat) (st : FragSt F) : Option (FragSt F) :=
  if a ≥ b then some st
  else (sliceBytes plain a b).map fun t =>
    { out := st.out ++ [.text t fmt st.chars t.length a], chars := st.chars + t.length, cur := b }

/-- `fragments.push(FragmentContent::Image {..}); char_offset += 1`, text_block.rs L618-L627. -/
def fragEmitImage (i : Img F) (st : FragSt F) : FragSt F :=
  { st with out := st.out ++ [.image i st.chars], chars := st.chars + 1 }

/-- `while let Some(img) = img_iter.peek()` loop for one run, text_block.rs L606-L668.
Returns the state, `run_cursor` and the images left. -/
def fragImages (plain : List Char) (d : F) (r : Run F) :
    List (Img F) → Nat → FragSt F → Option (FragSt F × Nat × List (Img F))
  | [], rc, st => some (st, rc, [])
  | i :: is, rc, st =>
    if i.off < r.bs then
      (fragEmitText plain d st.cur i.off st).bind fun st =>
        fragImages plain d r is rc (fragEmitImage i st)
    else if i.off ≤ r.be then
      (fragEmitText plain d st.cur rc st).bind fun st =>
      (fragEmitText plain r.fmt rc i.off st).bind fun st =>
        fragImages plain d r is i.off { fragEmitImage i st with cur := i.off }
    else some (st, rc, i :: is)

/-- `for run in &runs`, text_block.rs L600-L694. -/
def fragRuns (plain : List Char) (d : F) :
    List (Run F) → List (Img F) → FragSt F → Option (FragSt F × List (Img F))
  | [], imgs, st => some (st, imgs)
  | r :: rs, imgs, st =>
    (fragImages plain d r imgs r.bs st).bind fun (st, rc, imgs) =>
    (fragEmitText plain d st.cur rc st).bind fun st =>
    (fragEmitText plain r.fmt rc r.be st).bind fun st =>
    fragRuns plain d rs imgs st

/-- `for img in img_iter`, text_block.rs L697-L718. -/
def fragTailImages (plain : List Char) (d : F) : List (Img F) → FragSt F → Option (FragSt F)
  | [], st => some st
  | i :: is, st =>
    (fragEmitText plain d st.cur i.off st).bind fun st =>
      fragTailImages plain d is (fragEmitImage i st)

/-- `build_raw_fragments`, text_block.rs L488-L731, from the point where text, runs and
images have been fetched.  `d` is `TextFormat::default()`; the conversion
`TextFormat::from(&CharacterFormat)` is applied field by field and left out. -/
def buildRawFragments (d : F) (plain : List Char) (runs : List (Run F)) (imgs : List (Img F)) :
    Option (List (Frag F)) :=
  (fragRuns plain d runs imgs ⟨[], 0, 0⟩).bind fun (st, imgs) =>
  (fragTailImages plain d imgs st).bind fun st =>
  (fragEmitText plain d st.cur (utf8Len plain) st).map (·.out)

end Verif

namespace Verif
variable {F : Type}

/-- `while images_consumed < images.len() && images[..].byte_offset <= b`,
format_runs.rs L419-L425.  `Sum.inl ()` is `return b`, `Sum.inr` the new
`(logical, remaining images)`. -/
def logicalImages (b target : Nat) : Nat → List (Img F) → Unit ⊕ (Nat × List (Img F))
  | logical, [] => .inr (logical, [])
  | logical, i :: is =>
    if i.off ≤ b then
      if logical = target then .inl () else logicalImages b target (logical + 1) is
    else .inr (logical, i :: is)

/-- `for (b, _) in plain_text.char_indices()`, format_runs.rs L418-L430, followed by the loop
over the remaining images L432-L439 (which returns `plain_len` in every case). -/
def logicalChars (target : Nat) : Nat → Nat → List Char → List (Img F) → Nat
  | b, _, [], _ => b
  | b, logical, c :: cs, imgs =>
    match logicalImages b target logical imgs with
    | .inl () => b
    | .inr (logical, imgs) =>
      if logical = target then b else logicalChars target (b + c.utf8Size) (logical + 1) cs imgs

/-- `logical_offset_to_byte`, format_runs.rs L412-L440. -/
def logicalOffsetToByte (plain : List Char) (imgs : List (Img F)) (charOffset : Int) : Nat :=
  if charOffset ≤ 0 then 0 else logicalChars charOffset.toNat 0 0 plain imgs

end Verif
