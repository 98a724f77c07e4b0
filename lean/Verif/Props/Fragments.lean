import Verif.Lemmas.Fragments
/-
Property theorems C07, C08: what a reader sees of one paragraph, and how a character offset
inside a paragraph becomes a byte offset.  Vocabulary: `Verif/Spec/Stream.lean`.
-/
namespace Verif
variable {F : Type}

/-! ## C07  Fragments tile the paragraph -/

/-- **C07 (fragments).** For every well-formed span table and sorted image list aligned to
character boundaries, `fragments` does not panic; read in order it is exactly the paragraph:
every character once with the format stored for it (default where none is stored), every image
once, each image just before the character it is anchored at; and every fragment's reported
offset is the number of characters and images before it, its length its number of characters. -/
theorem C07_fragments_tile (d : F) (plain : List Char) (runs : List (Run F)) (imgs : List (Img F))
    (hw : WellFormed (utf8Len plain) runs) (hi : ImagesOk (utf8Len plain) imgs)
    (ha : Aligned plain runs imgs) :
    ∃ frags, buildRawFragments d plain runs imgs = some frags ∧
      fragItems frags = reading (shownFmt d runs) 0 plain imgs ∧
      (∀ before after cs fmt o n byte, frags = before ++ .text cs fmt o n byte :: after →
        o = (fragItems before).length ∧ n = cs.length) ∧
      (∀ before after i o, frags = before ++ .image i o :: after →
        o = (fragItems before).length) :=
  buildRawFragments_spec d plain runs imgs hw.ordered hi.sorted ha

/-- **C07 (text and images of the fragments).** The text of the fragments is the paragraph's
text; the images of the fragments are the paragraph's images, in order. -/
theorem C07_fragments_text_and_images (d : F) (plain : List Char) (runs : List (Run F))
    (imgs : List (Img F)) (hw : WellFormed (utf8Len plain) runs)
    (hi : ImagesOk (utf8Len plain) imgs) (ha : Aligned plain runs imgs) :
    ∃ frags, buildRawFragments d plain runs imgs = some frags ∧
      fragText frags = plain ∧
      fragImgs frags = imgs := by
  obtain ⟨frags, h1, h2, _⟩ := C07_fragments_tile d plain runs imgs hw hi ha
  refine ⟨frags, h1, ?_, ?_⟩
  · rw [fragItems_chars, h2]
    exact reading_chars _ _ _ _
  · rw [fragItems_imgs, h2]
    exact reading_imgs _ _ _ _

/-- **C07 (exporters' view, partial).** The same for `inline_segments_view`, the view used by
the HTML, Markdown, LaTeX and DOCX exporters, provided no image is anchored at a byte covered
by a span.  Full statement: without `hout`; false, see `C07_inline_segments_fails`. -/
theorem C07_inline_segments_partial (d : F) (plain : List Char) (runs : List (Run F))
    (imgs : List (Img F)) (hw : WellFormed (utf8Len plain) runs)
    (hi : ImagesOk (utf8Len plain) imgs) (ha : Aligned plain runs imgs)
    (hout : ∀ i ∈ imgs, fmtAt runs i.off = none) :
    ∃ segs, inlineSegmentsView d plain runs imgs = some segs ∧
      segItems segs = reading (shownFmt d runs) 0 plain imgs :=
  inlineSegmentsView_spec d plain runs imgs hw.ordered hi.sorted ha hout

/-- **C07 fails for `inline_segments_view`.** Text `abcd`, `abc` bold, `d` italic, an image
before `b`: the view lists `abc`, the image, **`bc` again**, `d`. -/
theorem C07_inline_segments_fails :
    ∃ (plain : List Char) (runs : List (Run Char)) (imgs : List (Img Char)) (segs : _),
      WellFormed (utf8Len plain) runs ∧ ImagesOk (utf8Len plain) imgs ∧ Aligned plain runs imgs ∧
      inlineSegmentsView '-' plain runs imgs = some segs ∧
      segs = [.text ['a', 'b', 'c'] 'b', .image ⟨1, "p", 1, 1, 1, '-'⟩, .text ['b', 'c'] '-',
        .text ['d'] 'i'] ∧
      segItems segs ≠ reading (shownFmt '-' runs) 0 plain imgs := by
  refine ⟨['a', 'b', 'c', 'd'], [⟨0, 3, 'b'⟩, ⟨3, 4, 'i'⟩], [⟨1, "p", 1, 1, 1, '-'⟩], _,
    ⟨⟨by simp, by simp⟩, by simp [Coalesced], by simp; decide⟩, ⟨by simp, by simp; decide⟩,
    ⟨?_, ?_⟩, rfl, by decide, by decide⟩
  · intro r hr
    simp only [List.mem_cons, List.not_mem_nil, or_false] at hr
    rcases hr with rfl | rfl
    · exact ⟨⟨[], _, rfl, rfl⟩, ⟨['a', 'b', 'c'], ['d'], rfl, by decide⟩⟩
    · exact ⟨⟨['a', 'b', 'c'], ['d'], rfl, by decide⟩, ⟨['a', 'b', 'c', 'd'], [], rfl, by decide⟩⟩
  · intro i hi
    simp only [List.mem_cons, List.not_mem_nil, or_false] at hi
    subst hi
    exact ⟨['a'], ['b', 'c', 'd'], rfl, by decide⟩

/-- Non-vacuity: multi-byte text, an image inside a span; the fragments split the span. -/
example : buildRawFragments '-' ['é', 'b', 'c', 'd'] [⟨0, 4, 'b'⟩] [⟨2, "p", 1, 1, 1, '-'⟩] =
    some [.text ['é'] 'b' 0 1 0, .image ⟨2, "p", 1, 1, 1, '-'⟩ 1, .text ['b', 'c'] 'b' 2 2 2,
      .text ['d'] '-' 4 1 4] := by decide

example : Aligned ['é', 'b', 'c', 'd'] [⟨0, 4, 'b'⟩] [⟨2, "p", 1, 1, 1, '-'⟩] := by
  constructor
  · intro r hr
    simp only [List.mem_cons, List.not_mem_nil, or_false] at hr
    subst hr
    exact ⟨⟨[], _, rfl, rfl⟩, ⟨['é', 'b', 'c'], ['d'], rfl, by decide⟩⟩
  · intro i hi
    simp only [List.mem_cons, List.not_mem_nil, or_false] at hi
    subst hi
    exact ⟨['é'], ['b', 'c', 'd'], rfl, by decide⟩

/-! ## C08  In-paragraph character offsets map to the right byte -/

/-- **C08 (meaning).** The byte offset computed for character offset `k` is the number of
bytes of the characters among the first `k` items (characters and images) of the paragraph. -/
theorem C08_offset_meaning (f : Nat → F) (plain : List Char) (imgs : List (Img F)) (k : Int) :
    logicalOffsetToByte plain imgs k =
      itemBytes ((reading f 0 plain imgs).take k.toNat) := by
  unfold logicalOffsetToByte
  split
  · have : k.toNat = 0 := by omega
    simp [this, itemBytes]
  · rw [logicalChars_spec f _ 0 0 plain imgs (Nat.zero_le _)]
    simp

/-- **C08 (boundary).** It is always a character boundary inside the text. -/
theorem C08_offset_is_boundary [Inhabited F] (plain : List Char) (imgs : List (Img F)) (k : Int) :
    IsBoundary plain (logicalOffsetToByte plain imgs k) := by
  rw [C08_offset_meaning (fun _ => default)]
  exact reading_take_boundary _ _ _ _ _

/-- **C08 (monotone).** -/
theorem C08_offset_monotone [Inhabited F] (plain : List Char) (imgs : List (Img F)) (j k : Int) (h : j ≤ k) :
    logicalOffsetToByte plain imgs j ≤ logicalOffsetToByte plain imgs k := by
  rw [C08_offset_meaning (fun _ => default), C08_offset_meaning (fun _ => default)]
  exact itemBytes_take_mono _ (by omega)

/-- **C08 (clamping).** Offsets at or below 0 give 0, offsets at or past the number of
characters plus images give the length of the text. -/
theorem C08_offset_clamps [Inhabited F] (plain : List Char) (imgs : List (Img F)) (k : Int) :
    (k ≤ 0 → logicalOffsetToByte plain imgs k = 0) ∧
    ((plain.length + imgs.length : Nat) ≤ k → logicalOffsetToByte plain imgs k = utf8Len plain) := by
  constructor
  · intro h; simp [logicalOffsetToByte, h]
  · intro h
    rw [C08_offset_meaning (fun _ => default), List.take_of_length_le, itemBytes_reading]
    rw [reading_length]; omega

/-- **C08 (no images).** Without images the offset lands exactly after `k` characters. -/
theorem C08_offset_plain (plain : List Char) (k : Nat) :
    logicalOffsetToByte plain ([] : List (Img F)) k = utf8Len (plain.take k) := by
  cases k with
  | zero => simp [logicalOffsetToByte]
  | succ n =>
    unfold logicalOffsetToByte
    rw [if_neg (by omega)]
    have key : ∀ (cs : List Char) (b l t : Nat), l ≤ t →
        logicalChars t b l cs ([] : List (Img F)) = b + utf8Len (cs.take (t - l)) := by
      intro cs
      induction cs with
      | nil => intro b l t _; simp [logicalChars]
      | cons c cs ih =>
        intro b l t h
        simp only [logicalChars, logicalImages]
        split
        · have : t - l = 0 := by omega
          simp [this]
        · have : t - l = (t - (l + 1)) + 1 := by omega
          rw [ih _ _ _ (by omega), this, List.take_succ_cons, utf8Len_cons]
          omega
    rw [key plain 0 0 _ (by omega)]
    simp

/-- **C08 fails for paragraphs with images.** `insert_image` stores an image both as an anchor
and as the character U+FFFC in the text (insert_image_uc.rs L128-L159), and the conversion
counts both: in the 3-character paragraph "a￼b" character offset 3 (the end) is
converted to byte 4, before `b`, instead of byte 5. -/
theorem C08_offset_with_image_fails :
    let plain := ['a', '￼', 'b']
    let imgs : List (Img Unit) := [⟨1, "p", 1, 1, 1, ()⟩]
    plain.length = 3 ∧ logicalOffsetToByte plain imgs 3 = 4 ∧ utf8Len (plain.take 3) = 5 := by
  decide

/-- Sanity: 1-, 2-, 3- and 4-byte characters. -/
example : logicalOffsetToByte ['a', 'é', '€', '😀', 'z'] ([] : List (Img Unit)) 3 = 6 ∧
    logicalOffsetToByte ['a', 'é', '€', '😀', 'z'] ([] : List (Img Unit)) 4 = 10 := by decide

end Verif
