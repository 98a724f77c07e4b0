import Verif.Model.CharFormat
import Verif.Lemmas.FormatRunsEdit
namespace Verif
variable {F : Type}

theorem buildReplacementGo_spec (m : F → F) (d : F) (s e : Nat) (hse : s < e) :
    ∀ (l : List (Run F)) (cursor : Nat), Ordered l → s ≤ cursor → cursor ≤ e →
      (∀ r ∈ l, cursor ≤ max r.bs s) →
      Ordered (buildReplacementGo m d s e cursor l) ∧
      InRange cursor e (buildReplacementGo m d s e cursor l) ∧
      ∀ i, cursor ≤ i → i < e →
        fmtAt (buildReplacementGo m d s e cursor l) i = some (m ((fmtAt l i).getD d)) := by
  intro l
  induction l with
  | nil =>
    intro cursor _ h1 h2 _
    simp only [buildReplacementGo]
    split
    · refine ⟨by rw [ordered_cons]; exact ⟨by simpa, by simp, ordered_nil⟩, by simp [InRange], ?_⟩
      intro i h3 h4
      simp [fmtAt_cons, h3, h4]
    · refine ⟨ordered_nil, by simp [InRange], ?_⟩
      intro i h3 h4; omega
  | cons r l ih =>
    intro cursor ho h1 h2 hb
    obtain ⟨ho1, ho2, ho3⟩ := ordered_cons.mp ho
    simp only [buildReplacementGo]
    split
    · rename_i hskip
      obtain ⟨h3, h4, h5⟩ := ih cursor ho3 h1 h2 (fun x hx => hb x (by simp [hx]))
      refine ⟨h3, h4, ?_⟩
      intro i hi1 hi2
      rw [h5 i hi1 hi2, fmtAt_cons, if_neg (by omega)]
    · rename_i hskip
      have hb0 := hb r (by simp)
      obtain ⟨h3, h4, h5⟩ := ih (min r.be e) ho3 (by omega) (by omega)
        (fun x hx => by have := ho2 x hx; omega)
      have hmain : Ordered ((⟨max r.bs s, min r.be e, m r.fmt⟩ : Run F) ::
          buildReplacementGo m d s e (min r.be e) l) := by
        rw [ordered_cons]
        exact ⟨by simp only; omega, fun b hb => by have := h4 b hb; simp only; omega, h3⟩
      refine ⟨?_, ?_, ?_⟩
      · split
        · simp only [List.cons_append, List.nil_append]
          rw [ordered_cons]
          refine ⟨by simpa, ?_, hmain⟩
          intro b hb
          simp only [List.mem_cons] at hb
          rcases hb with rfl | hb
          · simp
          · have := h4 b hb; simp only; omega
        · simpa using hmain
      · intro b hb
        simp only [List.mem_append, List.mem_cons] at hb
        rcases hb with hb | rfl | hb
        · split at hb
          · simp at hb; subst hb; simp only; omega
          · simp at hb
        · simp only; omega
        · have := h4 b hb; omega
      · intro i hi1 hi2
        rw [fmtAt_append, fmtAt_cons]
        simp only
        by_cases hA : i < max r.bs s
        · rw [if_pos (by omega)]
          rw [fmtAt_cons, if_pos (by simp only; omega)]
          have : fmtAt (r :: l) i = none := by
            rw [fmtAt_cons, if_neg (by omega), fmtAt_of_lt (l := l) (k := r.be) ho2 (by omega)]
          rw [this]
          simp
        · have hpre : fmtAt (if max r.bs s > cursor then
              [(⟨cursor, max r.bs s, m d⟩ : Run F)] else []) i = none := by
            split
            · rw [fmtAt_cons, if_neg (by simp only; omega)]; rfl
            · rfl
          rw [hpre, Option.none_or]
          by_cases hB : i < min r.be e
          · rw [if_pos (by omega), fmtAt_cons, if_pos (by omega)]
            rfl
          · rw [if_neg (by omega), h5 i (by omega) hi2, fmtAt_cons, if_neg (by omega)]

theorem buildReplacement_spec (m : F → F) (d : F) {l : List (Run F)} {s e : Nat} (hse : s < e)
    (h : Ordered l) :
    Ordered (buildReplacement m d l s e) ∧ InRange s e (buildReplacement m d l s e) ∧
      ∀ i, s ≤ i → i < e →
        fmtAt (buildReplacement m d l s e) i = some (m ((fmtAt l i).getD d)) :=
  buildReplacementGo_spec m d s e hse l s h (Nat.le_refl _) (Nat.le_of_lt hse) (fun _ _ => Nat.le_max_right _ _)

/-- Splicing back what was captured undoes any splice of the same range. -/
theorem splice_capture_undo [DecidableEq F] {n : Nat} {l rep : List (Run F)} {s e : Nat}
    (hse : s ≤ e) (h : WellFormed n l) (hrep : Ordered rep) (hin : InRange s e rep) :
    spliceRange (spliceRange l s e rep) s e (captureRuns l s e) = l := by
  have hmid : Ordered (spliceRange l s e rep) :=
    ordered_coalesce _ (ordered_splice_parts hse h.ordered hrep hin)
  have hcap := ordered_captureRuns s e h.ordered
  have hcin := inRange_captureRuns l s e
  refine wf_ext (ordered_coalesce _ (ordered_splice_parts hse hmid hcap hcin)) h.ordered
    (coalesced_coalesce _) h.coalesced ?_
  intro i
  rw [fmtAt_spliceRange _ _ _ _ _ hse (fun r hr => Nat.le_of_lt (hmid.nonempty r hr))
    (fun r hr => Nat.le_of_lt (hcap.nonempty r hr)) hcin,
    fmtAt_spliceRange _ _ _ _ _ hse (fun r hr => Nat.le_of_lt (h.ordered.nonempty r hr))
    (fun r hr => Nat.le_of_lt (hrep.nonempty r hr)) hin, fmtAt_captureRuns]
  split
  · rfl
  · rfl

theorem setFirst_notMem (off : Nat) (f : F) (l : List (Img F)) (h : ∀ i ∈ l, i.off ≠ off) :
    setFirstImageFormat off f l = l := by
  induction l with
  | nil => rfl
  | cons a l ih =>
    simp only [setFirstImageFormat]
    rw [if_neg (h a (by simp)), ih (fun i hi => h i (by simp [hi]))]

theorem foldl_setFirst_skip (ps : List (Nat × F)) (a : Img F) (l : List (Img F))
    (h : ∀ p ∈ ps, p.1 ≠ a.off) :
    ps.foldl (fun is p => setFirstImageFormat p.1 p.2 is) (a :: l) =
      a :: ps.foldl (fun is p => setFirstImageFormat p.1 p.2 is) l := by
  induction ps generalizing l with
  | nil => rfl
  | cons p ps ih =>
    simp only [List.foldl_cons]
    have : setFirstImageFormat p.1 p.2 (a :: l) = a :: setFirstImageFormat p.1 p.2 l := by
      simp only [setFirstImageFormat]
      rw [if_neg (fun hc => h p (by simp) hc.symm)]
    rw [this, ih _ (fun q hq => h q (by simp [hq]))]

theorem images_undo (m : F → F) (s e : Nat) (l : List (Img F))
    (h : l.Pairwise fun a b => ¬ (a.off = b.off ∧ s ≤ a.off ∧ a.off < e)) :
    (captureImageFormats l s e).foldl (fun is p => setFirstImageFormat p.1 p.2 is)
      (l.map fun i => if i.off ≥ s ∧ i.off < e then { i with fmt := m i.fmt } else i) = l := by
  induction l with
  | nil => rfl
  | cons a l ih =>
    simp only [List.pairwise_cons] at h
    have ih := ih h.2
    simp only [captureImageFormats, List.filterMap_cons, List.map_cons] at ih ⊢
    by_cases hc : a.off ≥ s ∧ a.off < e
    · simp only [hc, and_self, if_true, List.foldl_cons]
      have h1 : setFirstImageFormat a.off a.fmt
          ({ a with fmt := m a.fmt } ::
            l.map fun i => if i.off ≥ s ∧ i.off < e then { i with fmt := m i.fmt } else i) =
          a :: l.map fun i => if i.off ≥ s ∧ i.off < e then { i with fmt := m i.fmt } else i := by
        simp [setFirstImageFormat]
      rw [h1, foldl_setFirst_skip, ih]
      intro p hp
      simp only [List.mem_filterMap] at hp
      obtain ⟨b, hb, hb'⟩ := hp
      have := h.1 b hb
      split at hb'
      · simp at hb'
        subst hb'
        simp only
        omega
      · simp at hb'
    · simp only [hc, if_false]
      rw [foldl_setFirst_skip, ih]
      intro p hp
      simp only [List.mem_filterMap] at hp
      obtain ⟨b, hb, hb'⟩ := hp
      split at hb'
      · simp at hb'
        subst hb'
        simp only
        intro heq
        omega
      · simp at hb'

end Verif
