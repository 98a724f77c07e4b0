import Verif.Spec.Highlight
import Verif.Lemmas.Sort
/- C42 highlighting overlays formats, C43 incremental re-highlighting. -/
namespace Verif

/-! ### C42 -/

theorem lastSet_append {α : Type} (l : List (Option α)) (a : Option α) :
    lastSet (l ++ [a]) = a.or (lastSet l) := by
  induction l with
  | nil => cases a <;> rfl
  | cons b l ih => rw [List.cons_append, lastSet, ih, lastSet, Option.or_assoc]

theorem merge_field {α : Type} (field : HighlightFormat → Option α) (h0 : field {} = none)
    (hstep : ∀ m f, field (overrideHighlight m f) = if (field f).isSome then field f else field m)
    (spans : List HighlightSpan) :
    field (mergeOverlapping spans) = lastSet (spans.map fun s => field s.format) := by
  unfold mergeOverlapping
  have key : ∀ (m : HighlightFormat), field (spans.foldl (fun m s => overrideHighlight m s.format) m) =
      (lastSet (spans.map fun s => field s.format)).or (field m) := by
    induction spans with
    | nil => intro m; rfl
    | cons s l ih =>
      intro m
      rw [List.foldl_cons, ih, hstep, List.map_cons, lastSet, Option.or_assoc]
      congr 1
      cases field s.format <;> rfl
  rw [key, h0, Option.or_none]

theorem overlay_eq (spans : List HighlightSpan) (a b p : Nat) (base : TextFormat)
    (h : activeSpans spans a b = spans.filter fun s => s.coversAt p) :
    overlayFormat spans a b base = formatAt spans p base := by
  unfold overlayFormat formatAt fieldAt
  rw [h]
  by_cases he : (spans.filter fun s => s.coversAt p).isEmpty = true
  · rw [if_pos he]
    rw [List.isEmpty_iff] at he
    rw [he]
    rfl
  · rw [if_neg he]
    generalize spans.filter (fun s => s.coversAt p) = l
    unfold applyHighlight
    rw [merge_field (·.fontFamily) rfl (fun _ _ => rfl), merge_field (·.fontPointSize) rfl (fun _ _ => rfl),
      merge_field (·.fontWeight) rfl (fun _ _ => rfl), merge_field (·.fontBold) rfl (fun _ _ => rfl),
      merge_field (·.fontItalic) rfl (fun _ _ => rfl), merge_field (·.fontUnderline) rfl (fun _ _ => rfl),
      merge_field (·.fontOverline) rfl (fun _ _ => rfl), merge_field (·.fontStrikeout) rfl (fun _ _ => rfl),
      merge_field (·.letterSpacing) rfl (fun _ _ => rfl), merge_field (·.wordSpacing) rfl (fun _ _ => rfl),
      merge_field (·.underlineStyle) rfl (fun _ _ => rfl),
      merge_field (·.verticalAlignment) rfl (fun _ _ => rfl), merge_field (·.tooltip) rfl (fun _ _ => rfl),
      merge_field (·.foregroundColor) rfl (fun _ _ => rfl),
      merge_field (·.backgroundColor) rfl (fun _ _ => rfl),
      merge_field (·.underlineColor) rfl (fun _ _ => rfl)]

theorem dedupAdj_mem (l : List Nat) (x : Nat) : x ∈ dedupAdj l ↔ x ∈ l := by
  induction l with
  | nil => rfl
  | cons a l ih =>
    cases l with
    | nil => rfl
    | cons b l =>
      rw [dedupAdj]; split
      · rename_i h; subst h; rw [ih]; simp
      · rw [List.mem_cons, ih, List.mem_cons (a := x) (b := a)]

theorem dedupAdj_strict {l : List Nat} (h : l.Pairwise (· ≤ ·)) : (dedupAdj l).Pairwise (· < ·) := by
  induction l with
  | nil => exact .nil
  | cons a l ih =>
    rw [List.pairwise_cons] at h
    cases l with
    | nil => simp [dedupAdj]
    | cons b l =>
      rw [dedupAdj]; split
      · exact ih h.2
      · rename_i hne
        refine List.pairwise_cons.mpr ⟨fun x hx => ?_, ih h.2⟩
        rw [dedupAdj_mem] at hx
        have h1 := h.1 b (List.mem_cons_self ..)
        rcases List.mem_cons.mp hx with rfl | hx
        · omega
        · have := (List.pairwise_cons.mp h.2).1 x hx; omega

theorem boundaries_strict (o e : Nat) (spans : List HighlightSpan) :
    (boundaries o e spans).Pairwise (· < ·) := by
  apply dedupAdj_strict
  exact (sortByKey_sorted (fun n : Nat => (n : Int)) _).imp fun h => by omega

theorem boundaries_mem (o e : Nat) (spans : List HighlightSpan) (x : Nat) : x ∈ boundaries o e spans ↔
    x = o ∨ x = e ∨ ∃ s ∈ spans, x ∈ spanBoundaries o e s := by
  unfold boundaries
  rw [dedupAdj_mem, mem_sortByKey]
  simp only [List.mem_cons, List.mem_flatMap]

theorem spanBoundaries_between {o e : Nat} {s : HighlightSpan} {x : Nat} (h : x ∈ spanBoundaries o e s) :
    o < x ∧ x < e := by
  unfold spanBoundaries at h
  split at h
  · rcases List.mem_append.mp h with h | h <;> split at h <;> simp at h <;> omega
  · simp at h

theorem shownChars_append (f : TextFormat) (id o : Nat) (a b : List Char) :
    shownChars f id o (a ++ b) = shownChars f id o a ++ shownChars f id (o + a.length) b := by
  induction a generalizing o with
  | nil => rfl
  | cons c a ih =>
    rw [List.cons_append, shownChars, shownChars, ih, List.length_cons]
    simp only [List.cons_append]
    rw [show o + 1 + a.length = o + (a.length + 1) by omega]

theorem shownChars_highlighted (spans : List HighlightSpan) (f g : TextFormat) (id o : Nat) (l : List Char)
    (h : ∀ p, o ≤ p → p < o + l.length → g = formatAt spans p f) :
    shownChars g id o l = (shownChars f id o l).map (Shown.highlighted spans) := by
  induction l generalizing o with
  | nil => rfl
  | cons c l ih =>
    rw [shownChars, shownChars, List.map_cons, ih (o + 1)]
    · have := h o (by omega) (by simp)
      simp only [Shown.highlighted, ← this]
    · intro p h1 h2
      exact h p (by omega) (by simp only [List.length_cons]; omega)

theorem splitText_spec (words : List Char → List Nat) (spans : List HighlightSpan) (chars : List Char)
    (f : TextFormat) (o id : Nat) (B : List Nat) (hs : B.Pairwise (· < ·))
    (hB : ∀ x ∈ B, o ≤ x ∧ x ≤ o + chars.length)
    (hcover : ∀ s ∈ spans, ∀ a b, a ∈ B → b ∈ B → a < b → (∀ x ∈ B, x ≤ a ∨ b ≤ x) →
      s.start < b → s.start + s.length > a → s.start ≤ a ∧ b ≤ s.start + s.length) :
    ∀ pre L, B = pre ++ L → ∃ out, splitText words spans chars f o id L = some out ∧
      (∀ a, L.head? = some a → shownAll out =
        ((shownChars f id a ((chars.drop (a - o)).take (L.getLastD 0 - a))).map (Shown.highlighted spans))) ∧
      (L = [] → out = []) ∧ ∀ g ∈ out, g.wellFormed words := by
  intro pre L
  induction L generalizing pre with
  | nil =>
    intro _
    exact ⟨[], rfl, by simp, fun _ => rfl, by simp⟩
  | cons a L ih =>
    intro hL
    cases L with
    | nil =>
      refine ⟨[], rfl, ?_, by simp, by simp⟩
      intro x hx
      simp only [List.head?_cons, Option.some.injEq] at hx
      subst hx
      simp [shownAll, shownChars]
    | cons b L =>
      obtain ⟨out, e, h1, _, h3⟩ := ih (pre ++ [a]) (by simp [hL])
      have hab : a < b := by
        rw [hL, List.pairwise_append] at hs
        exact (List.pairwise_cons.mp hs.2.1).1 b (List.mem_cons_self ..)
      have haB : a ∈ B := by rw [hL]; simp
      have hbB : b ∈ B := by rw [hL]; simp
      have hbetween : ∀ x ∈ B, x ≤ a ∨ b ≤ x := by
        intro x hx
        rw [hL, List.pairwise_append] at hs
        rw [hL] at hx
        obtain ⟨s1, s2, s3⟩ := hs
        rw [List.pairwise_cons, List.pairwise_cons] at s2
        rcases List.mem_append.mp hx with hx | hx
        · have := s3 x hx a (List.mem_cons_self ..); omega
        · rcases List.mem_cons.mp hx with rfl | hx
          · omega
          · rcases List.mem_cons.mp hx with rfl | hx
            · omega
            · have := s2.2.1 x hx; omega
      have ha := hB a haB
      have hb := hB b hbB
      have hlast : b ≤ (b :: L).getLastD 0 ∧ (b :: L).getLastD 0 ≤ o + chars.length := by
        have hm : (b :: L).getLastD 0 ∈ b :: L := by
          rw [List.getLastD_eq_getLast?, List.getLast?_eq_some_getLast (by simp)]
          exact List.getLast_mem _
        have hmB : (b :: L).getLastD 0 ∈ B := by
          rw [hL]
          exact List.mem_append_right _ (List.mem_cons_of_mem _ hm)
        refine ⟨?_, (hB _ hmB).2⟩
        rw [hL, List.pairwise_append, List.pairwise_cons, List.pairwise_cons] at hs
        rcases List.mem_cons.mp hm with h | h
        · omega
        · have := hs.2.1.2.1 _ h; omega
      have hsub : ((chars.drop (a - o)).take (b - a)).length = b - a := by
        rw [List.length_take, List.length_drop]; omega
      refine ⟨.text ((chars.drop (a - o)).take (b - a)) (overlayFormat spans a b f) a
            (b - a) id (words ((chars.drop (a - o)).take (b - a))) :: out, ?_, ?_, by simp, ?_⟩
      · rw [splitText, if_neg (by omega), if_pos (by omega), e]; rfl
      · intro x hx
        simp only [List.head?_cons, Option.some.injEq] at hx
        subst hx
        rw [show shownAll (Fragment.text ((chars.drop (a - o)).take (b - a)) (overlayFormat spans a b f) a
            (b - a) id (words ((chars.drop (a - o)).take (b - a))) :: out) =
          shownChars (overlayFormat spans a b f) id a ((chars.drop (a - o)).take (b - a)) ++ shownAll out
          from rfl, h1 b rfl, shownChars_highlighted spans f]
        · rw [← List.map_append]
          have hl : (a :: b :: L).getLastD 0 = (b :: L).getLastD 0 := by simp
          rw [hl]
          have hsplit : (chars.drop (a - o)).take ((b :: L).getLastD 0 - a) =
              (chars.drop (a - o)).take (b - a) ++
                (chars.drop (b - o)).take ((b :: L).getLastD 0 - b) := by
            rw [show (b :: L).getLastD 0 - a = (b - a) + ((b :: L).getLastD 0 - b) by omega,
              List.take_add, List.drop_drop, show a - o + (b - a) = b - o by omega]
          rw [hsplit, shownChars_append, hsub, show a + (b - a) = b by omega]
        · intro p hp1 hp2
          rw [hsub] at hp2
          apply overlay_eq
          unfold activeSpans
          apply List.filter_congr
          intro s hs'
          rw [Bool.eq_iff_iff]
          simp only [HighlightSpan.coversAt, decide_eq_true_eq]
          constructor
          · rintro ⟨c1, c2⟩
            have := hcover s hs' a b haB hbB hab hbetween c1 c2
            omega
          · intro c; omega
      · intro g hg
        rcases List.mem_cons.mp hg with rfl | hg
        · exact ⟨hsub.symm, rfl⟩
        · exact h3 g hg

theorem head_of_least {B : List Nat} (hs : B.Pairwise (· < ·)) {o : Nat} (ho : o ∈ B)
    (h : ∀ x ∈ B, o ≤ x) : B.head? = some o := by
  cases B with
  | nil => simp at ho
  | cons a B =>
    rcases List.mem_cons.mp ho with rfl | ho
    · rfl
    · have := (List.pairwise_cons.mp hs).1 o ho
      have := h a (List.mem_cons_self ..)
      omega

theorem last_of_greatest {B : List Nat} (hs : B.Pairwise (· < ·)) {e : Nat} (he : e ∈ B)
    (h : ∀ x ∈ B, x ≤ e) : B.getLastD 0 = e := by
  induction B with
  | nil => simp at he
  | cons a B ih =>
    rw [List.pairwise_cons] at hs
    cases B with
    | nil => simp at he; simp [he]
    | cons b B =>
      have hne : e ≠ a := by
        rintro rfl
        have := hs.1 b (List.mem_cons_self ..)
        have := h b (by simp)
        omega
      have := ih hs.2 (by rcases List.mem_cons.mp he with h | h; exact absurd h hne; exact h)
        fun x hx => h x (List.mem_cons_of_mem _ hx)
      simpa using this

theorem splitFragment_spec (words : List Char → List Nat) (spans : List HighlightSpan) {f : Fragment}
    (hf : f.wellFormed words) : ∃ out, splitFragment words spans f = some out ∧
      shownAll out = f.shown.map (Shown.highlighted spans) ∧ ∀ g ∈ out, g.wellFormed words := by
  cases f with
  | text t fmt o len id ws =>
    obtain ⟨rfl, _⟩ := hf
    have hmem := boundaries_mem o (o + t.length) spans
    have hs := boundaries_strict o (o + t.length) spans
    have hB : ∀ x ∈ boundaries o (o + t.length) spans, o ≤ x ∧ x ≤ o + t.length := by
      intro x hx
      rcases (hmem x).mp hx with rfl | rfl | ⟨s, _, hx⟩
      · omega
      · omega
      · have := spanBoundaries_between hx; omega
    obtain ⟨out, e, h1, _, h3⟩ := splitText_spec words spans t fmt o id _ hs hB (by
      intro s hsm a b ha hb hab hbt c1 c2
      have ha' := hB a ha
      have hb' := hB b hb
      constructor
      · by_cases hc : s.start ≤ a
        · exact hc
        · have : s.start ∈ boundaries o (o + t.length) spans := by
            refine (hmem _).mpr (.inr (.inr ⟨s, hsm, ?_⟩))
            unfold spanBoundaries
            rw [if_pos (by omega)]
            exact List.mem_append_left _ (by rw [if_pos (by omega)]; exact List.mem_singleton.mpr rfl)
          have := hbt _ this; omega
      · by_cases hc : b ≤ s.start + s.length
        · exact hc
        · have : s.start + s.length ∈ boundaries o (o + t.length) spans := by
            refine (hmem _).mpr (.inr (.inr ⟨s, hsm, ?_⟩))
            unfold spanBoundaries
            rw [if_pos (by omega)]
            exact List.mem_append_right _ (by rw [if_pos (by omega)]; exact List.mem_singleton.mpr rfl)
          have := hbt _ this; omega) [] (boundaries o (o + t.length) spans) rfl
    refine ⟨out, e, ?_, h3⟩
    rw [h1 o (head_of_least hs ((hmem o).mpr (.inl rfl)) fun x hx => (hB x hx).1),
      last_of_greatest hs ((hmem _).mpr (.inr (.inl rfl))) fun x hx => (hB x hx).2]
    rw [Nat.sub_self, List.drop_zero, show o + t.length - o = t.length by omega, List.take_length]
    rfl
  | image n w h q fmt o id =>
    refine ⟨_, rfl, ?_, ?_⟩
    · simp only [shownAll, List.flatMap_cons, List.flatMap_nil, List.append_nil, Fragment.shown,
        List.map_cons, List.map_nil, Shown.highlighted]
      rw [overlay_eq spans o (o + 1) o]
      unfold activeSpans
      apply List.filter_congr
      intro s _
      rw [Bool.eq_iff_iff]
      simp only [HighlightSpan.coversAt, decide_eq_true_eq]
      omega
    · intro g hg
      rw [List.mem_singleton.mp hg]
      trivial

/-- Overlaying highlight spans on a paragraph's fragments succeeds, and shows the same characters and
images at the same offsets with the same element ids, each in its own format overridden, field by
field, by the last span covering it that sets the field; links and anchors stay.  The new fragments have
right lengths and word starts. -/
theorem C42_overlay (words : List Char → List Nat) (fragments : List Fragment) (spans : List HighlightSpan)
    (h : ∀ f ∈ fragments, f.wellFormed words) :
    ∃ out, mergeHighlightSpans words fragments spans = some out ∧
      shownAll out = (shownAll fragments).map (Shown.highlighted spans) ∧
      ∀ g ∈ out, g.wellFormed words := by
  unfold mergeHighlightSpans
  by_cases he : spans.isEmpty = true
  · rw [if_pos he]
    rw [List.isEmpty_iff] at he
    subst he
    refine ⟨fragments, rfl, ?_, h⟩
    rw [List.map_congr_left (g := id), List.map_id]
    intro s _
    rfl
  · rw [if_neg he]
    clear he
    induction fragments with
    | nil => exact ⟨[], rfl, rfl, by simp⟩
    | cons f l ih =>
      obtain ⟨a, e1, s1, w1⟩ := splitFragment_spec words spans (h f (List.mem_cons_self ..))
      obtain ⟨b, e2, s2, w2⟩ := ih fun g hg => h g (List.mem_cons_of_mem _ hg)
      refine ⟨a ++ b, by rw [splitFragments, e1, Option.bind_some, e2]; rfl, ?_, ?_⟩
      · simp only [shownAll, List.flatMap_append, List.flatMap_cons, List.map_append] at s1 s2 ⊢
        rw [s1, s2]
      · intro g hg
        rcases List.mem_append.mp hg with hg | hg
        · exact w1 g hg
        · exact w2 g hg

/-- The text and the offsets do not change. -/
theorem C42_text_kept (words : List Char → List Nat) (fragments : List Fragment)
    (spans : List HighlightSpan) (h : ∀ f ∈ fragments, f.wellFormed words) :
    ∃ out, mergeHighlightSpans words fragments spans = some out ∧
      (shownAll out).map (fun s => (s.offset, s.glyph)) =
        (shownAll fragments).map (fun s => (s.offset, s.glyph)) := by
  obtain ⟨out, e, s, _⟩ := C42_overlay words fragments spans h
  refine ⟨out, e, ?_⟩
  rw [s, List.map_map]
  rfl

/-- Two overlapping spans on one fragment. -/
example : mergeHighlightSpans (fun _ => []) [.text ['a', 'b', 'c', 'd'] {} 0 4 7 []]
    [⟨1, 2, { fontBold := some true }⟩, ⟨2, 5, { fontBold := some false, fontItalic := some true }⟩] =
    some [.text ['a'] {} 0 1 7 [], .text ['b'] { fontBold := some true } 1 1 7 [],
      .text ['c'] { fontBold := some false, fontItalic := some true } 2 1 7 [],
      .text ['d'] { fontBold := some false, fontItalic := some true } 3 1 7 []] := rfl

/-! ### C43 -/

section
variable {U : Type} {h : Highlighter U}

/-- The state a run of paragraphs ends in. -/
def endState (h : Highlighter U) : Int → List (Nat × List Char) → Int
  | p, [] => p
  | p, (id, t) :: l => endState h (h id t p none).state l

theorem highlightFrom_other (l : List (Nat × List Char)) : ∀ (p : Int) (d : HlData U) (id : Nat),
    id ∉ l.map (·.1) → highlightFrom h p d l id = d id := by
  induction l with
  | nil => intro p d id _; rfl
  | cons b l ih =>
    intro p d id hid
    obtain ⟨i, t⟩ := b
    simp only [List.map_cons, List.mem_cons, not_or] at hid
    rw [highlightFrom, ih _ _ _ hid.2]
    simp [HlData.put, hid.1]

theorem highlightFrom_append (a b : List (Nat × List Char)) : ∀ (p : Int) (d : HlData U),
    highlightFrom h p d (a ++ b) = highlightFrom h (endState h p a) (highlightFrom h p d a) b := by
  induction a with
  | nil => intro p d; rfl
  | cons x a ih => intro p d; obtain ⟨i, t⟩ := x; rw [List.cons_append, highlightFrom, ih]; rfl

/-- What full highlighting writes does not depend on what was there before. -/
theorem highlightFrom_indep (l : List (Nat × List Char)) : ∀ (p : Int) (d d' : HlData U) (id : Nat),
    id ∈ l.map (·.1) → highlightFrom h p d l id = highlightFrom h p d' l id := by
  induction l with
  | nil => intro p d d' id hid; simp at hid
  | cons b l ih =>
    intro p d d' id hid
    obtain ⟨i, t⟩ := b
    rw [highlightFrom, highlightFrom]
    by_cases hm : id ∈ l.map (·.1)
    · exact ih _ _ _ _ hm
    · rw [highlightFrom_other l _ _ _ hm, highlightFrom_other l _ _ _ hm]
      simp only [List.map_cons, List.mem_cons, hm, or_false] at hid
      simp [HlData.put, hid]

/-- The data of each paragraph of the list are those of highlighting the list from state `p`. -/
def Right (h : Highlighter U) (p : Int) (d : HlData U) (l : List (Nat × List Char)) : Prop :=
  ∀ id ∈ l.map (·.1), sameAt d (highlightFrom h p (fun _ => none) l) id

theorem Right.cons {p : Int} {d : HlData U} {i : Nat} {t : List Char} {l : List (Nat × List Char)}
    (hn : i ∉ l.map (·.1)) : Right h p d ((i, t) :: l) ↔
      ((d i).map (fun r => (r.spans, r.state)) = some ((h i t p none).spans, (h i t p none).state) ∧
        Right h (h i t p none).state d l) := by
  unfold Right
  constructor
  · intro hr
    constructor
    · have := hr i (by simp)
      rw [sameAt, highlightFrom, highlightFrom_other l _ _ _ hn] at this
      simpa [HlData.put] using this
    · intro id hid
      have := hr id (by simp only [List.map_cons, List.mem_cons]; exact .inr hid)
      rw [sameAt, highlightFrom, highlightFrom_indep l _ _ (fun _ => none) _ hid] at this
      exact this
  · rintro ⟨h1, h2⟩ id hid
    rw [sameAt, highlightFrom]
    by_cases hm : id ∈ l.map (·.1)
    · rw [highlightFrom_indep l _ _ (fun _ => none) _ hm]; exact h2 id hm
    · rw [highlightFrom_other l _ _ _ hm]
      simp only [List.map_cons, List.mem_cons, hm, or_false] at hid
      subst hid
      simp [HlData.put, h1]

theorem Right.congr {p : Int} {d d' : HlData U} {l : List (Nat × List Char)} (hr : Right h p d l)
    (he : ∀ id ∈ l.map (·.1), d' id = d id) : Right h p d' l := by
  intro id hid
  have := hr id hid
  rw [sameAt] at this ⊢
  rw [he id hid]; exact this

theorem cascade_other (l : List (Nat × List Char)) : ∀ (f : Bool) (prev : Option Nat) (d : HlData U)
    (id : Nat), id ∉ l.map (·.1) → cascade h f prev d l id = d id := by
  induction l with
  | nil => intro f prev d id _; rfl
  | cons b l ih =>
    intro f prev d id hid
    obtain ⟨i, t⟩ := b
    simp only [List.map_cons, List.mem_cons, not_or] at hid
    rw [cascade]
    split
    · simp [HlData.put, hid.1]
    · rw [ih _ _ _ _ hid.2]; simp [HlData.put, hid.1]

theorem cascade_unfold (f : Bool) (prev : Option Nat) (d : HlData U) (i : Nat) (t : List Char)
    (l : List (Nat × List Char)) : cascade h f prev d ((i, t) :: l) =
      if f = false ∧ (h i t (prevState d prev) ((d i).bind fun r => r.user)).state = d.state i then
        d.put i (h i t (prevState d prev) ((d i).bind fun r => r.user))
      else cascade h false (some i)
        (d.put i (h i t (prevState d prev) ((d i).bind fun r => r.user))) l := by
  rw [cascade]

/-- From a paragraph on, the cascade makes the data right: the paragraphs `mid` are new and end in a
state other than −1, the paragraphs `suf` were right after some state. -/
theorem cascade_right (hp : h.pure) (mid suf : List (Nat × List Char)) :
    ∀ (prev : Option Nat) (d : HlData U) (p q : Int), prevState d prev = p →
      ((mid ++ suf).map (·.1)).Nodup →
      (∀ id ∈ mid.map (·.1), d id = none) →
      (∀ pre' id t post, mid = pre' ++ (id, t) :: post → (h id t (endState h p pre') none).state ≠ -1) →
      Right h q d suf →
      Right h p (cascade h false prev d (mid ++ suf)) (mid ++ suf) := by
  induction mid with
  | cons b mid ih =>
    intro prev d p q hprev hnd hnew hst hsuf
    obtain ⟨i, t⟩ := b
    rw [List.cons_append] at hnd ⊢
    rw [List.map_cons, List.nodup_cons] at hnd
    have hdi : d i = none := hnew i (by simp)
    have hstate : d.state i = -1 := by rw [HlData.state, hdi]
    have hu : ((d i).bind fun r => r.user) = none := by rw [hdi]; rfl
    rw [cascade_unfold, hprev, hu, hstate, if_neg]
    · have hx := ih (some i) (d.put i (h i t p none)) (h i t p none).state q (by
          simp [prevState, HlData.state, HlData.put]) hnd.2 (by
          intro id hid
          have : id ≠ i := by
            rintro rfl; exact hnd.1 (by rw [List.map_append]; exact List.mem_append_left _ hid)
          simp only [HlData.put, if_neg this]
          exact hnew id (by simp only [List.map_cons, List.mem_cons]; exact .inr hid)) (by
          intro pre' id t' post e
          exact hst ((i, t) :: pre') id t' post (by rw [e]; rfl)) (by
          apply hsuf.congr
          intro id hid
          have : id ≠ i := by
            rintro rfl; exact hnd.1 (by rw [List.map_append]; exact List.mem_append_right _ hid)
          simp only [HlData.put, if_neg this])
      refine (Right.cons hnd.1).mpr ⟨?_, hx⟩
      rw [cascade_other _ _ _ _ _ hnd.1]
      simp [HlData.put]
    · rintro ⟨_, hs⟩
      exact hst [] i t mid rfl hs
  | nil =>
    simp only [List.nil_append]
    intro prev d p q hprev hnd _ _ hsuf
    induction suf generalizing prev d p q with
    | nil => intro id hid; simp at hid
    | cons b suf ihs =>
      obtain ⟨i, t⟩ := b
      rw [List.map_cons, List.nodup_cons] at hnd
      obtain ⟨hold, hrest⟩ := (Right.cons hnd.1).mp hsuf
      obtain ⟨hps, hpt⟩ := hp i i t p ((d i).bind fun r => r.user) none
      rw [cascade_unfold, hprev]
      split
      · rename_i hcond
        refine (Right.cons hnd.1).mpr ⟨?_, ?_⟩
        · simp [HlData.put, hps, hpt]
        · have hst : (h i t p none).state = (h i t q none).state := by
            rw [← hpt, hcond.2, HlData.state]
            cases hd : d i with
            | none => rw [hd] at hold; simp at hold
            | some r => rw [hd] at hold; simp at hold; exact hold.2
          rw [hst]
          apply hrest.congr
          intro id hid
          have : id ≠ i := by rintro rfl; exact hnd.1 hid
          simp only [HlData.put, if_neg this]
      · have hx := ihs (some i) (d.put i (h i t p ((d i).bind fun r => r.user)))
          (h i t p none).state (h i t q none).state (by
            simp [prevState, HlData.state, HlData.put, hpt]) hnd.2 (by simp) (by simp) (by
            apply hrest.congr
            intro id hid
            have : id ≠ i := by rintro rfl; exact hnd.1 hid
            simp only [HlData.put, if_neg this])
        refine (Right.cons hnd.1).mpr ⟨?_, hx⟩
        rw [cascade_other _ _ _ _ _ hnd.1]
        simp [HlData.put, hps, hpt]

theorem Right.append (a b : List (Nat × List Char)) : ∀ (p : Int) (d : HlData U),
    ((a ++ b).map (·.1)).Nodup →
    (Right h p d (a ++ b) ↔ Right h p d a ∧ Right h (endState h p a) d b) := by
  induction a with
  | nil =>
    intro p d _
    constructor
    · intro hr; exact ⟨fun id hid => by simp at hid, hr⟩
    · exact fun hr => hr.2
  | cons x a ih =>
    intro p d hnd
    obtain ⟨i, t⟩ := x
    rw [List.cons_append, List.map_cons, List.nodup_cons] at hnd
    rw [List.cons_append, Right.cons hnd.1, ih _ _ hnd.2, Right.cons, and_assoc]
    · rfl
    · intro hm; exact hnd.1 (by rw [List.map_append]; exact List.mem_append_left _ hm)

/-- The id of the paragraph before the rest. -/
def lastId : Option Nat → List (Nat × List Char) → Option Nat
  | prev, [] => prev
  | _, (i, _) :: l => lastId (some i) l

theorem cascadeAt_append (start : Nat) (t : List Char) (l pre : List (Nat × List Char)) :
    ∀ (prev : Option Nat) (d : HlData U), start ∉ pre.map (·.1) →
    cascadeAt h start prev d (pre ++ (start, t) :: l) =
      cascade h true (lastId prev pre) d ((start, t) :: l) := by
  induction pre with
  | nil => intro prev d _; rw [List.nil_append, cascadeAt, if_pos rfl]; rfl
  | cons x pre ih =>
    intro prev d hs
    obtain ⟨i, u⟩ := x
    simp only [List.map_cons, List.mem_cons, not_or] at hs
    rw [List.cons_append, cascadeAt, if_neg (fun e => hs.1 e.symm), ih _ _ hs.2]; rfl

theorem prevState_last (pre : List (Nat × List Char)) : ∀ (prev : Option Nat) (d : HlData U) (p : Int),
    prevState d prev = p → (pre.map (·.1)).Nodup → Right h p d pre →
    prevState d (lastId prev pre) = endState h p pre := by
  induction pre with
  | nil => intro prev d p hp _ _; exact hp
  | cons x pre ih =>
    intro prev d p _ hnd hr
    obtain ⟨i, t⟩ := x
    rw [List.map_cons, List.nodup_cons] at hnd
    obtain ⟨h1, h2⟩ := (Right.cons hnd.1).mp hr
    refine ih (some i) d _ ?_ hnd.2 h2
    rw [prevState, HlData.state]
    cases hd : d i with
    | none => rw [hd] at h1; simp at h1
    | some r => rw [hd] at h1; simp at h1; exact h1.2

/-- The paragraphs `pre` and `suf` are kept; in between, the paragraphs `gone` are replaced by the edited
paragraph `b` and the new paragraphs `new`.  If the data were those of full highlighting and every new
paragraph ends in a state other than −1, then re-highlighting from the edited paragraph gives every
paragraph the spans and state of full highlighting.  With `new = []` this is every edit inside a
paragraph and every deletion across paragraphs.  Missing from the full claim: new paragraphs that end in
the default state −1, see `C43_new_paragraph_fails`. -/
theorem C43_incremental_partial (hp : h.pure) (pre gone suf new : List (Nat × List Char))
    (b : Nat × List Char) (d : HlData U)
    (hold : ((pre ++ (gone ++ suf)).map (·.1)).Nodup)
    (hnew : ((pre ++ (b :: new ++ suf)).map (·.1)).Nodup)
    (hd : ∀ id ∈ (pre ++ (gone ++ suf)).map (·.1), sameAt d (rehighlightAll h (pre ++ (gone ++ suf))) id)
    (hfresh : ∀ id ∈ new.map (·.1), d id = none)
    (hstate : ∀ pre' id t post, new = pre' ++ (id, t) :: post →
      (h id t (endState h (-1) (pre ++ b :: pre')) none).state ≠ -1) :
    ∀ id ∈ (pre ++ (b :: new ++ suf)).map (·.1),
      sameAt (rehighlightFromBlock h b.1 d (pre ++ (b :: new ++ suf)))
        (rehighlightAll h (pre ++ (b :: new ++ suf))) id := by
  have hes : ∀ (x y : List (Nat × List Char)) p, endState h p (x ++ y) = endState h (endState h p x) y := by
    intro x
    induction x with
    | nil => intro y p; rfl
    | cons z x ih => intro y p; obtain ⟨i, t⟩ := z; exact ih y _
  obtain ⟨i, t⟩ := b
  have hr : Right h (-1) d (pre ++ (gone ++ suf)) := hd
  have hold2 : ((gone ++ suf).map (·.1)).Nodup := by
    rw [List.map_append] at hold; exact (List.nodup_append.mp hold).2.1
  obtain ⟨hpre, hgs⟩ := (Right.append pre (gone ++ suf) (-1) d hold).mp hr
  obtain ⟨_, hsuf⟩ := (Right.append gone suf _ d hold2).mp hgs
  have hn2 : ((((i, t) :: new) ++ suf).map (·.1)).Nodup := by
    rw [List.map_append] at hnew; exact (List.nodup_append.mp hnew).2.1
  have hnpre : (pre.map (·.1)).Nodup := by
    rw [List.map_append] at hnew; exact (List.nodup_append.mp hnew).1
  have hdisj : ∀ x ∈ pre.map (·.1), x ∉ (((i, t) :: new) ++ suf).map (·.1) := by
    rw [List.map_append] at hnew
    intro x hx hx'
    exact (List.nodup_append.mp hnew).2.2 x hx x hx' rfl
  have hipre : i ∉ pre.map (·.1) := fun hi => hdisj i hi (by simp)
  have hprev := prevState_last pre none d (-1) rfl hnpre hpre
  rw [List.cons_append, List.map_cons, List.nodup_cons] at hn2
  show Right h (-1) (cascadeAt h i none d (pre ++ ((i, t) :: new ++ suf))) (pre ++ ((i, t) :: new ++ suf))
  rw [List.cons_append, cascadeAt_append i t _ pre none d hipre]
  refine (Right.append pre _ (-1) _ hnew).mpr ⟨?_, ?_⟩
  · apply hpre.congr
    intro id hid
    exact cascade_other _ _ _ _ _ (hdisj id hid)
  · obtain ⟨hps, hpt⟩ := hp i i t (endState h (-1) pre) ((d i).bind fun r => r.user) none
    rw [cascade_unfold, if_neg (by simp), hprev]
    refine (Right.cons hn2.1).mpr ⟨?_, ?_⟩
    · rw [cascade_other _ _ _ _ _ hn2.1]
      simp [HlData.put, hps, hpt]
    · refine cascade_right hp new suf (some i) _ _ (endState h (endState h (-1) pre) gone) (by
          simp [prevState, HlData.state, HlData.put, hpt]) hn2.2 ?_ ?_ ?_
      · intro id hid
        have : id ≠ i := by
          rintro rfl; exact hn2.1 (by rw [List.map_append]; exact List.mem_append_left _ hid)
        simp only [HlData.put, if_neg this]
        exact hfresh id hid
      · intro pre' id t' post e
        have := hstate pre' id t' post e
        rw [hes] at this
        exact this
      · apply hsuf.congr
        intro id hid
        have : id ≠ i := by
          rintro rfl; exact hn2.1 (by rw [List.map_append]; exact List.mem_append_right _ hid)
        simp only [HlData.put, if_neg this]

end

/-- A highlighter for comments that run from `{` to `}` over paragraphs: state 1 inside, else the default
−1; a paragraph that begins inside is marked. -/
def commentHl : Highlighter Unit := fun _ text prev _ =>
  let inside := decide (prev = 1)
  { spans := if inside then [⟨0, text.length, { fontItalic := some true }⟩] else []
    state := if text.contains '{' then 1 else if text.contains '}' then -1 else if inside then 1 else -1
    user := none }

theorem commentHl_pure : commentHl.pure := fun _ _ _ _ _ _ => ⟨rfl, rfl⟩

/-- The paragraphs "{" and "a": the second is marked.  A newline typed before the "{" and the "{" removed
by replacing it with "b" — in general, any edit that adds a paragraph ending in the default state — stops
the cascade at the new paragraph: "a" keeps its mark although the comment is gone, and a second new
paragraph gets no data at all. -/
theorem C43_new_paragraph_fails :
    let old := [(1, ['{']), (2, ['a'])]
    let d := rehighlightAll commentHl old
    let split := [(1, ['b']), (3, ['c']), (2, ['a'])]
    let paste := [(1, ['{']), (3, ['}']), (4, ['c']), (2, ['a'])]
    (∀ id ∈ [3, 4], d id = none) ∧
    ¬ sameAt (rehighlightFromBlock commentHl 1 d split) (rehighlightAll commentHl split) 2 ∧
    ¬ sameAt (rehighlightFromBlock commentHl 1 d paste) (rehighlightAll commentHl paste) 4 := by
  refine ⟨by intro id h; simp at h; rcases h with rfl | rfl <;> rfl, ?_, ?_⟩ <;>
    (unfold sameAt; decide)

/-- Removing the "{" in place: the cascade reaches the marked paragraph and stops behind it. -/
example : let d := rehighlightAll commentHl [(1, ['{']), (2, ['a']), (3, ['}']), (4, ['x'])]
    (d 2).map (·.spans.length) = some 1 ∧
    ((rehighlightFromBlock commentHl 1 d [(1, ['b']), (2, ['a']), (3, ['}']), (4, ['x'])]) 2).map
      (·.spans.length) = some 0 := by decide

/-- The paragraph re-highlighting starts from is the last one that begins at or before the edit, if any
does. -/
theorem C43_affected (a : List (Nat × Nat)) (b : Nat × Nat) (c : List (Nat × Nat)) (position : Nat)
    (hb : b.2 ≤ position) (hc : ∀ x ∈ c, position < x.2) :
    affectedBlock (a ++ b :: c) position = b.1 := by
  unfold affectedBlock
  have : (a ++ b :: c).reverse.find? (fun b => decide (position ≥ b.2)) = some b := by
    rw [List.reverse_append, List.reverse_cons, List.append_assoc, List.find?_append]
    have h1 : c.reverse.find? (fun b => decide (position ≥ b.2)) = none := by
      rw [List.find?_eq_none]
      intro x hx
      have := hc x (List.mem_reverse.mp hx)
      simp only [decide_eq_true_eq]; omega
    rw [h1, Option.none_or, List.singleton_append, List.find?_cons_of_pos]
    simpa using hb
  rw [this]

example : affectedBlock [(1, 0), (2, 5), (3, 9)] 7 = 2 := rfl

end Verif
