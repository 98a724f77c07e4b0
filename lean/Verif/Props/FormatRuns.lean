import Verif.Lemmas.CharFormat
/-
Property theorems C01 - C06: character formats of one paragraph.
Vocabulary: `Verif/Spec/Formats.lean` (`fmtAt`, `WellFormed`).
-/
namespace Verif
variable {F : Type}

/-! ## C01  Character-format tables stay well formed -/

/-- One edit of a paragraph, as seen by its span table.  The paragraph is described
by its byte length and its span table. -/
inductive FmtEdit (F : Type) where
  /-- apply a character format (`m` overrides the set fields) to bytes `[s, e)` -/
  | format (m : F → F) (s e : Nat)
  /-- type `n` bytes at `o` -/
  | insert (o n : Nat)
  /-- delete bytes `[s, e)` -/
  | delete (s e : Nat)
  /-- split at `o`, continue with the first half -/
  | splitLeft (o : Nat)
  /-- split at `o`, continue with the second half -/
  | splitRight (o : Nat)
  /-- delete from byte `so` of this paragraph to byte `eo` of a later paragraph with
  the given length and span table, joining the two -/
  | joinAfter (so : Nat) (otherLen : Nat) (other : List (Run F)) (eo : Nat)
  /-- same, but this paragraph is the later one -/
  | joinBefore (otherLen : Nat) (other : List (Run F)) (so eo : Nat)

/-- The edit addresses existing bytes only, and the other paragraph of a join is a
well-formed one. -/
def FmtEdit.Valid (len : Nat) : FmtEdit F → Prop
  | .format _ s e => s ≤ e ∧ e ≤ len
  | .insert o _ => o ≤ len
  | .delete s e => s ≤ e ∧ e ≤ len
  | .splitLeft o => o ≤ len
  | .splitRight o => o ≤ len
  | .joinAfter so ol other eo => so ≤ len ∧ eo ≤ ol ∧ WellFormed ol other
  | .joinBefore ol other so eo => so ≤ ol ∧ eo ≤ len ∧ WellFormed ol other

/-- Effect of one edit on (length, span table), by the functions of the model. -/
def FmtEdit.apply [DecidableEq F] (d : F) : FmtEdit F → Nat × List (Run F) → Nat × List (Run F)
  | .format m s e, (len, l) => (len, (formatBlock m d ⟨l, []⟩ s e).1.runs)
  | .insert o n, (len, l) => (len + n, shiftRunsForInsert l o n)
  | .delete s e, (len, l) => (len - (e - s), shiftRunsForDelete l s e)
  | .splitLeft o, (_, l) => (o, (splitRunsAt l o).1)
  | .splitRight o, (len, l) => (len - o, (splitRunsAt l o).2)
  | .joinAfter so ol other eo, (_, l) => (so + (ol - eo), mergeRunsForJoin l so other eo)
  | .joinBefore _ other so eo, (len, l) => (so + (len - eo), mergeRunsForJoin other so l eo)

/-- A sequence of edits, each valid for the paragraph it meets. -/
inductive FmtHistory [DecidableEq F] (d : F) : Nat × List (Run F) → Nat × List (Run F) → Prop
  | refl (st) : FmtHistory d st st
  | step (st st' op) : FmtHistory d st st' → FmtEdit.Valid st'.1 op → FmtHistory d st (op.apply d st')

theorem C01_edit_keeps_wellFormed [DecidableEq F] (d : F) (op : FmtEdit F) (len : Nat)
    (runs : List (Run F)) (hv : op.Valid len) (h : WellFormed len runs) :
    WellFormed (op.apply d (len, runs)).1 (op.apply d (len, runs)).2 := by
  cases op with
  | format m s e =>
    simp only [FmtEdit.apply, formatBlock]
    split
    · exact h
    · obtain ⟨h1, h2, _⟩ := buildReplacement_spec m d (s := s) (e := e) (by omega) h.ordered
      exact wellFormed_spliceRange hv.1 hv.2 h.ordered h.inside h1 h2
  | insert o n => exact wellFormed_shiftRunsForInsert o n h
  | delete s e => exact wellFormed_shiftRunsForDelete h hv.2
  | splitLeft o => exact wellFormed_splitRunsLeft h
  | splitRight o => exact wellFormed_splitRunsRight h
  | joinAfter so ol other eo => exact wellFormed_mergeRunsForJoin h hv.2.2
  | joinBefore ol other so eo => exact wellFormed_mergeRunsForJoin hv.2.2 h

/-- **C01.** After any sequence of format changes, insertions, deletions, splits and
joins, starting from a well-formed paragraph, the span table is well formed. -/
theorem C01_history_keeps_wellFormed [DecidableEq F] (d : F) (st st' : Nat × List (Run F))
    (h : WellFormed st.1 st.2) (hist : FmtHistory d st st') : WellFormed st'.1 st'.2 := by
  induction hist with
  | refl => exact h
  | step st' op _ hv ih => exact C01_edit_keeps_wellFormed d op _ _ hv ih

/-- A freshly imported paragraph has no spans, hence every paragraph built from one by
edits is well formed. -/
theorem C01_from_scratch [DecidableEq F] (d : F) (len : Nat) (st : Nat × List (Run F))
    (hist : FmtHistory d (len, []) st) : WellFormed st.1 st.2 :=
  C01_history_keeps_wellFormed d (len, []) st ⟨⟨by simp, by simp⟩, trivial, by simp⟩ hist

/-- Non-vacuity: a paragraph of 9 bytes with three spans, two of them touching. -/
example : WellFormed 9 [⟨0, 2, 'b'⟩, ⟨2, 5, 'i'⟩, (⟨7, 8, 'b'⟩ : Run Char)] :=
  ⟨⟨by simp, by simp⟩, by simp [Coalesced], by simp⟩

/-- Non-vacuity: a history with a format change, an insertion and a split. -/
example : FmtHistory 'd' (9, [⟨0, 2, 'b'⟩, ⟨2, 5, 'i'⟩])
    (FmtEdit.apply 'd' (.splitLeft 4) (FmtEdit.apply 'd' (.insert 2 3)
      (FmtEdit.apply 'd' (.format (fun _ => 'x') 1 4) (9, [⟨0, 2, 'b'⟩, ⟨2, 5, 'i'⟩])))) :=
  .step _ _ _ (.step _ _ _ (.step _ _ _ (.refl _) (by simp [FmtEdit.Valid])) (by simp [FmtEdit.Valid, FmtEdit.apply])) (by simp [FmtEdit.Valid, FmtEdit.apply])

/-! ## C02  Formatting a range changes exactly that range -/

/-- **C02 (locality).** After formatting bytes `[s, e)`, a byte inside has its old format
(the default one if it had none) overridden by `m`; a byte outside is unchanged. -/
theorem C02_format_range_exact [DecidableEq F] (m : F → F) (d : F) (len : Nat) (b : BlockFmt F)
    (s e : Nat) (hse : s ≤ e) (h : WellFormed len b.runs) (i : Nat) :
    fmtAt (formatBlock m d b s e).1.runs i =
      if s ≤ i ∧ i < e then some (m ((fmtAt b.runs i).getD d)) else fmtAt b.runs i := by
  unfold formatBlock
  split
  · rw [if_neg (by omega)]
  · obtain ⟨h1, h2, h3⟩ := buildReplacement_spec m d (s := s) (e := e) (by omega) h.ordered
    simp only
    rw [fmtAt_spliceRange _ _ _ _ _ hse (fun r hr => Nat.le_of_lt (h.ordered.nonempty r hr))
      (fun r hr => Nat.le_of_lt (h1.nonempty r hr)) h2]
    split
    · rename_i hi; rw [h3 i hi.1 hi.2]
    · rfl

/-- **C02 (images).** Formatting leaves the images in place and overrides the format of
exactly those anchored inside the range. -/
theorem C02_format_images_exact [DecidableEq F] (m : F → F) (d : F) (b : BlockFmt F) (s e k : Nat) :
    (formatBlock m d b s e).1.imgs[k]? =
      b.imgs[k]?.map fun i =>
        if s ≤ i.off ∧ i.off < e then { i with fmt := m i.fmt } else i := by
  unfold formatBlock
  split
  · rename_i h
    have : (fun i : Img F => if s ≤ i.off ∧ i.off < e then { i with fmt := m i.fmt } else i) = id := by
      funext i; rw [if_neg (by omega)]; rfl
    simp [this]
  · simp

/-- **C02 (fields, `set_text_format`).** Every field of the new format is the given one if
it was given and the old one otherwise; link, anchor and tooltip data never change. -/
theorem C02_set_fields (dto : SetFormatDto) (f : CharFormat) :
    mergeSet dto f =
      { fontFamily := dto.fontFamily.or f.fontFamily
        fontPointSize := dto.fontPointSize.or f.fontPointSize
        fontWeight := dto.fontWeight.or f.fontWeight
        fontBold := dto.fontBold.or f.fontBold
        fontItalic := dto.fontItalic.or f.fontItalic
        fontUnderline := dto.fontUnderline.or f.fontUnderline
        fontOverline := dto.fontOverline.or f.fontOverline
        fontStrikeout := dto.fontStrikeout.or f.fontStrikeout
        letterSpacing := dto.letterSpacing.or f.letterSpacing
        wordSpacing := dto.wordSpacing.or f.wordSpacing
        anchorHref := f.anchorHref
        anchorNames := f.anchorNames
        isAnchor := f.isAnchor
        tooltip := f.tooltip
        underlineStyle := dto.underlineStyle.or f.underlineStyle
        verticalAlignment := dto.verticalAlignment.or f.verticalAlignment } := by
  have h : ∀ {α : Type} (a b : Option α), assignIfSome a b = a.or b := by
    intro α a b; cases a <;> rfl
  simp only [mergeSet, h]

/-- **C02 (fields, `merge_text_format`).** Only bold, italic, underline, strike-out and a
non-empty font family are overridden. -/
theorem C02_merge_fields (dto : MergeFormatDto) (f : CharFormat) :
    mergeMerge dto f =
      { f with
        fontFamily := (dto.fontFamily.filter (· ≠ "")).or f.fontFamily
        fontBold := dto.fontBold.or f.fontBold
        fontItalic := dto.fontItalic.or f.fontItalic
        fontUnderline := dto.fontUnderline.or f.fontUnderline
        fontStrikeout := dto.fontStrikeout.or f.fontStrikeout } := by
  have h : ∀ {α : Type} (a b : Option α), assignIfSome a b = a.or b := by
    intro α a b; cases a <;> rfl
  simp only [mergeMerge, h]
  cases dto.fontFamily with
  | none => rfl
  | some v => by_cases hv : v = "" <;> simp [hv, Option.filter]

/-- Non-vacuity / sanity: bold over the middle of "plain then italic". -/
example : (formatBlock (mergeSet { fontBold := some true }) {}
      ⟨[⟨3, 6, { fontItalic := some true }⟩], []⟩ 2 5).1.runs =
    [⟨2, 3, { fontBold := some true }⟩, ⟨3, 5, { fontBold := some true, fontItalic := some true }⟩,
     ⟨5, 6, { fontItalic := some true }⟩] := by decide

/-! ## C03  Typed text inherits the format to its left -/

/-- **C03.** Insertion of `n` bytes at `o`. -/
theorem C03_insert_formats (len : Nat) (runs : List (Run F)) (h : WellFormed len runs)
    (o n i : Nat) :
    fmtAt (shiftRunsForInsert runs o n) i =
      if i < o then fmtAt runs i
      else if i < o + n then (if o = 0 then none else fmtAt runs (o - 1))
      else fmtAt runs (i - n) :=
  fmtAt_shiftRunsForInsert runs o n i h.ordered.nonempty

/-- **C03 (images).** Anchors before the insertion point stay, the others move by `n`; no
anchor is lost, added or otherwise changed. -/
theorem C03_insert_images (imgs : List (Img F)) (o n k : Nat) :
    (shiftImagesForInsert imgs o n)[k]? =
      imgs[k]?.map fun i => { i with off := if i.off < o then i.off else i.off + n } := by
  unfold shiftImagesForInsert
  split
  · subst_vars; simp
  · simp only [List.getElem?_map]
    congr 1
    funext i
    split
    · rw [if_neg (by omega)]
    · rw [if_pos (by omega)]

/-- **C03 (images stay ordered and inside).** -/
theorem C03_insert_images_ok (len : Nat) (imgs : List (Img F)) (o n : Nat) (h : ImagesOk len imgs) :
    ImagesOk (len + n) (shiftImagesForInsert imgs o n) := by
  unfold shiftImagesForInsert
  split
  · exact ⟨h.sorted, fun i hi => by have := h.inside i hi; omega⟩
  · constructor
    · rw [List.pairwise_map]
      apply h.sorted.imp
      grind
    · intro i hi
      simp only [List.mem_map] at hi
      obtain ⟨a, ha, rfl⟩ := hi
      have := h.inside a ha
      grind

/-- Sanity: typing at the right edge of a bold span extends it, typing at the left edge of
the next span does not. -/
example : shiftRunsForInsert [⟨0, 2, 'b'⟩, ⟨2, 4, 'i'⟩] 2 3 = [⟨0, 5, 'b'⟩, ⟨5, 7, 'i'⟩] := by decide

/-! ## C04  Deleting text keeps the format of what remains -/

/-- **C04.** Deletion of bytes `[s, e)`. -/
theorem C04_delete_formats [DecidableEq F] (len : Nat) (runs : List (Run F))
    (h : WellFormed len runs) (s e : Nat) (hse : s ≤ e) (i : Nat) :
    fmtAt (shiftRunsForDelete runs s e) i =
      if i < s then fmtAt runs i else fmtAt runs (i + (e - s)) := by
  rw [fmtAt_shiftRunsForDelete _ _ _ _ h.ordered]
  split
  · have : e - s = 0 := by omega
    rw [this]; simp
  · rfl

/-- **C04 (images).** The anchors in the range disappear, those before stay, those after
move left by the deleted length; the reported number is the number of removed anchors. -/
theorem C04_delete_images (imgs : List (Img F)) (s e : Nat) (hse : s ≤ e) :
    (shiftImagesForDelete imgs s e).1 =
      imgs.filterMap (fun i =>
        if i.off < s then some i
        else if i.off < e then none
        else some { i with off := i.off - (e - s) }) ∧
    (shiftImagesForDelete imgs s e).2 =
      (imgs.filter fun i => decide (s ≤ i.off ∧ i.off < e)).length := by
  unfold shiftImagesForDelete
  split
  · have hes : e = s := by omega
    subst hes
    constructor
    · simp only
      have : (fun i : Img F => if i.off < e then some i else if i.off < e then none
          else some { i with off := i.off - (e - e) }) = some := by
        funext i
        split
        · rfl
        · simp
      rw [this, List.filterMap_some]
    · simp only
      symm
      rw [List.length_eq_zero_iff, List.filter_eq_nil_iff]
      intro i _
      simp
  · constructor
    · induction imgs with
      | nil => rfl
      | cons a l ih =>
        simp only [shiftImagesAfter] at ih ⊢
        rw [List.filter_cons, List.filterMap_cons]
        by_cases h1 : a.off < s
        · have h2 : ¬ s ≤ a.off := by omega
          have h3 : ¬ e ≤ a.off := by omega
          simp only [ge_iff_le, h1, h2, h3, decide_false, Bool.false_and, Bool.not_false,
            if_true, List.map_cons, if_false]
          rw [ih]
        · by_cases h2 : a.off < e
          · have : s ≤ a.off := by omega
            simp only [ge_iff_le, this, h1, h2, decide_true, Bool.and_self, Bool.not_true,
              Bool.false_eq_true, if_false, if_true]
            exact ih
          · have h3 : s ≤ a.off := by omega
            have h4 : e ≤ a.off := by omega
            have h5 : ((a.off : Int) + -((e - s : Nat) : Int)).toNat = a.off - (e - s) := by omega
            simp only [ge_iff_le, h1, h2, h3, h4, decide_false, decide_true, Bool.and_false,
              Bool.not_false, if_true, if_false, List.map_cons]
            rw [ih, h5]
    · simp only
      have h1 : (imgs.filter fun i => decide (s ≤ i.off ∧ i.off < e)).length +
          (imgs.filter fun i => !(decide (i.off ≥ s) && decide (i.off < e))).length = imgs.length := by
        induction imgs with
        | nil => rfl
        | cons a l ih =>
          rw [List.filter_cons, List.filter_cons]
          by_cases h : s ≤ a.off ∧ a.off < e
          · have h' : ¬ ((!(decide (a.off ≥ s) && decide (a.off < e))) = true) := by
              simp; omega
            rw [if_pos (by simpa using h), if_neg h', List.length_cons, List.length_cons]
            omega
          · have h' : (!(decide (a.off ≥ s) && decide (a.off < e))) = true := by
              simp; omega
            rw [if_neg (by simpa using h), if_pos h', List.length_cons, List.length_cons]
            omega
      omega

/-- Sanity: a range that cuts two spans and swallows an image. -/
example : shiftRunsForDelete [⟨0, 3, 'b'⟩, ⟨4, 6, 'i'⟩, ⟨6, 9, 'b'⟩] 2 7 = [⟨0, 4, 'b'⟩] := by decide
example : shiftImagesForDelete [⟨1, "p", 1, 1, 1, 'b'⟩, ⟨3, "q", 1, 1, 1, 'b'⟩, ⟨8, "r", 1, 1, 1, 'b'⟩] 2 7
    = ([⟨1, "p", 1, 1, 1, 'b'⟩, ⟨3, "r", 1, 1, 1, 'b'⟩], 1) := by decide

/-! ## C05  Splitting and re-joining a paragraph -/

/-- **C05 (split, formats).** -/
theorem C05_split_formats (len : Nat) (runs : List (Run F)) (h : WellFormed len runs) (o i : Nat) :
    fmtAt (splitRunsAt runs o).1 i = (if i < o then fmtAt runs i else none) ∧
    fmtAt (splitRunsAt runs o).2 i = fmtAt runs (o + i) :=
  ⟨fmtAt_splitRunsLeft h.ordered i, fmtAt_splitRunsRight h.ordered i⟩

/-- **C05 (join, formats).** Joining the first `so` bytes of one paragraph with another
one from byte `eo` on keeps the format of every kept byte. -/
theorem C05_join_formats [DecidableEq F] (la lb : Nat) (a b : List (Run F)) (so eo : Nat)
    (ha : WellFormed la a) (hb : WellFormed lb b) (i : Nat) :
    fmtAt (mergeRunsForJoin a so b eo) i =
      if i < so then fmtAt a i else fmtAt b (eo + (i - so)) :=
  fmtAt_mergeRunsForJoin so eo i ha.ordered hb.ordered

/-- **C05 (round trip, formats).** Splitting at `o` and joining the halves again gives
back exactly the original table. -/
theorem C05_split_join_runs [DecidableEq F] (len : Nat) (runs : List (Run F))
    (h : WellFormed len runs) (o : Nat) :
    mergeRunsForJoin (splitRunsAt runs o).1 o (splitRunsAt runs o).2 0 = runs := by
  have hl := wellFormed_splitRunsLeft (o := o) h
  have hr := wellFormed_splitRunsRight (o := o) h
  have hm := wellFormed_mergeRunsForJoin (so := o) (eo := 0) hl hr
  refine wf_ext hm.ordered h.ordered hm.coalesced h.coalesced ?_
  intro i
  simp only [splitRunsAt]
  rw [fmtAt_mergeRunsForJoin _ _ _ hl.ordered hr.ordered, fmtAt_splitRunsLeft h.ordered,
    fmtAt_splitRunsRight h.ordered]
  split
  · rfl
  · congr 1; omega

/-- **C05 (round trip, images).** -/
theorem C05_split_join_images (len : Nat) (imgs : List (Img F)) (h : ImagesOk len imgs) (o : Nat) :
    mergeImagesForJoin (splitImagesAt imgs o).1 o (splitImagesAt imgs o).2 0 = imgs := by
  have hs := h.sorted
  clear h
  simp only [mergeImagesForJoin, splitImagesAt, List.filter_filter, Bool.and_self,
    ge_iff_le, Nat.zero_le, decide_true, List.filter_eq_self.mpr, implies_true, List.map_map]
  induction imgs with
  | nil => rfl
  | cons a l ih =>
    simp only [List.pairwise_cons] at hs
    rw [List.filter_cons, List.filter_cons]
    by_cases hc : a.off < o
    · simp only [hc, decide_true, if_true, Bool.not_true, List.cons_append]
      simp only [Bool.false_eq_true, if_false]
      rw [ih hs.2]
    · have hnil : (l.filter fun i => decide (i.off < o)) = [] := by
        rw [List.filter_eq_nil_iff]
        intro i hi
        have := hs.1 i hi
        simp; omega
      have ih := ih hs.2
      rw [hnil] at ih ⊢
      simp only [hc, decide_false, Bool.not_false, if_true, Bool.false_eq_true, if_false,
        List.map_cons, List.nil_append] at ih ⊢
      rw [ih]
      congr 1
      simp only [Function.comp]
      have : o + (a.off - o - 0) = a.off := by omega
      rw [this]

/-- Non-vacuity / sanity: a split through the middle of a span and back. -/
example : splitRunsAt [⟨0, 2, 'b'⟩, ⟨3, 7, 'i'⟩] 5 = ([⟨0, 2, 'b'⟩, ⟨3, 5, 'i'⟩], [⟨0, 2, 'i'⟩]) ∧
    mergeRunsForJoin [⟨0, 2, 'b'⟩, ⟨3, 5, 'i'⟩] 5 [⟨0, 2, 'i'⟩] 0 = [⟨0, 2, 'b'⟩, ⟨3, 7, 'i'⟩] := by
  constructor <;> decide

/-! ## C06  Undoing a character-format change -/

/-- **C06 (spans).** Undo restores the exact span table, for every well-formed table. -/
theorem C06_undo_restores_runs [DecidableEq F] (m : F → F) (d : F) (len : Nat) (b b' : BlockFmt F)
    (inv : FmtInverse F) (s e : Nat) (h : WellFormed len b.runs)
    (hdo : formatBlock m d b s e = (b', some inv)) : (applyInverse b' inv).runs = b.runs := by
  unfold formatBlock at hdo
  split at hdo
  · simp at hdo
  · simp only [Prod.mk.injEq, Option.some.injEq] at hdo
    obtain ⟨rfl, rfl⟩ := hdo
    obtain ⟨h1, h2, _⟩ := buildReplacement_spec m d (s := s) (e := e) (by omega) h.ordered
    exact splice_capture_undo (s := s) (e := e) (by omega) h h1 h2

/-- **C06 (no change, nothing to undo).** -/
theorem C06_no_inverse_no_change [DecidableEq F] (m : F → F) (d : F) (b b' : BlockFmt F) (s e : Nat)
    (hdo : formatBlock m d b s e = (b', none)) : b' = b := by
  unfold formatBlock at hdo
  split at hdo <;> simp_all

/-- **C06 (partial).** Undo restores spans *and* image formats, and redo then reproduces
the result, provided no two images inside the range share an anchor offset.
Full statement: the same without `himg`; it is false, see `C06_undo_images_fails`. -/
theorem C06_undo_redo_partial [DecidableEq F] (m : F → F) (d : F) (len : Nat) (b b' : BlockFmt F)
    (inv : FmtInverse F) (s e : Nat) (h : WellFormed len b.runs)
    (himg : b.imgs.Pairwise fun x y => ¬ (x.off = y.off ∧ s ≤ x.off ∧ x.off < e))
    (hdo : formatBlock m d b s e = (b', some inv)) :
    applyInverse b' inv = b ∧ formatBlock m d (applyInverse b' inv) s e = (b', some inv) := by
  have h1 := C06_undo_restores_runs m d len b b' inv s e h hdo
  have h2 : (applyInverse b' inv).imgs = b.imgs := by
    have hdo' := hdo
    unfold formatBlock at hdo'
    split at hdo'
    · simp at hdo'
    · simp only [Prod.mk.injEq, Option.some.injEq] at hdo'
      obtain ⟨rfl, rfl⟩ := hdo'
      exact images_undo m s e b.imgs himg
  have h3 : applyInverse b' inv = b := by
    cases hb : applyInverse b' inv
    cases b
    simp_all
  exact ⟨h3, by rw [h3, hdo]⟩

/-- **C06 fails in general.** Two images anchored at the same offset (reachable: insert an
image twice at the same position, `insert_image_uc.rs` does not move earlier anchors) with
different formats: undo writes both saved formats to the first image. -/
theorem C06_undo_images_fails :
    ∃ (b b' : BlockFmt CharFormat) (inv : FmtInverse CharFormat) (dto : SetFormatDto),
      WellFormed 7 b.runs ∧ ImagesOk 7 b.imgs ∧
      formatBlock (mergeSet dto) {} b 0 7 = (b', some inv) ∧ applyInverse b' inv ≠ b := by
  refine ⟨⟨[], [⟨0, "p", 1, 1, 1, { fontItalic := some true }⟩, ⟨0, "q", 1, 1, 1, {}⟩]⟩, _, _,
    { fontBold := some true }, ⟨⟨by simp, by simp⟩, trivial, by simp⟩, ⟨by simp, by simp⟩, rfl, ?_⟩
  decide

/-- Non-vacuity of the partial theorem: two spans, two images at different offsets. -/
example : ∃ b' inv, formatBlock (mergeSet { fontBold := some true }) {}
      ⟨[⟨0, 3, { fontItalic := some true }⟩], [⟨1, "p", 1, 1, 1, {}⟩, ⟨4, "q", 1, 1, 1, {}⟩]⟩ 2 5
      = (b', some inv) ∧ b'.runs ≠ [⟨0, 3, { fontItalic := some true }⟩] :=
  ⟨_, _, rfl, by decide⟩

end Verif
