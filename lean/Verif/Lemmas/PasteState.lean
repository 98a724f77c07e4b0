import Verif.Spec.Clipboard
import Verif.Lemmas.Styled
import Verif.Lemmas.FormattedText
/- The span tables of pasted paragraphs. -/
namespace Verif
variable {a b : List SChar}
open Store

/-- The characters of elements. -/
def elemChars (segs : List (Segment CharFormat)) : List SChar :=
  segs.flatMap fun
    | .text t fm => styled t (some fm)
    | .image _ => []

theorem elemChars_text (t : List Char) (fm : CharFormat) (segs : List (Segment CharFormat)) :
    elemChars (.text t fm :: segs) = styled t (some fm) ++ elemChars segs := rfl

theorem fragSpans_spec (segs : List (Segment CharFormat)) (ht : ∀ g ∈ segs, ∃ t fm, g = .text t fm) (off : Nat) :
    (fragSpans off segs).2 = [] ∧ Ordered (fragSpans off segs).1 ∧
    (∀ r ∈ (fragSpans off segs).1, off ≤ r.bs ∧ r.be ≤ off + utf8Len ((elemChars segs).map Prod.fst)) ∧
    ∀ i, fmtAt (fragSpans off segs).1 (off + i) = ((byteFmts (elemChars segs))[i]?).join := by
  induction segs generalizing off with
  | nil => exact ⟨rfl, ⟨by simp [fragSpans], by simp [fragSpans]⟩, by simp [fragSpans], by simp [fragSpans, elemChars, byteFmts]⟩
  | cons g segs ih =>
    obtain ⟨t, fm, rfl⟩ := ht g (by simp)
    have ih := ih fun x hx => ht x (by simp [hx])
    rw [elemChars_text]
    simp only [fragSpans]
    by_cases hz : utf8Len t > 0
    · rw [if_pos hz]
      obtain ⟨h1, h2, h3, h4⟩ := ih (off + utf8Len t)
      refine ⟨h1, ⟨?_, ?_⟩, ?_, ?_⟩
      · intro r hr
        rcases List.mem_cons.mp hr with rfl | hr
        · simp; omega
        · exact h2.nonempty r hr
      · rw [List.pairwise_cons]
        exact ⟨fun r hr => (h3 r hr).1, h2.sorted⟩
      · intro r hr
        simp only [List.map_append, utf8Len_append, styled_fst]
        rcases List.mem_cons.mp hr with rfl | hr
        · simp
        · have := h3 r hr
          omega
      · intro i
        rw [fmtAt_cons, byteFmts_append, byteFmts_styled]
        simp only []
        by_cases hi : i < utf8Len t
        · rw [if_pos (by omega), List.getElem?_append_left (by simpa using hi)]
          simp [List.getElem?_replicate_of_lt hi]
        · rw [if_neg (by omega), List.getElem?_append_right (by simp; omega)]
          have := h4 (i - utf8Len t)
          rw [show off + utf8Len t + (i - utf8Len t) = off + i by omega] at this
          rw [this]; simp
    · rw [if_neg hz]
      have : t = [] := utf8Len_eq_zero.mp (by omega)
      subst this
      simpa [styled] using ih off

/-- The spans of a paragraph of a fragment. -/
theorem fragState_styled {fb : FragBlock} (h : fb.IsText) : StyledOk (fragState fb).1 fb.chars ∧ (fragState fb).2 = [] := by
  obtain ⟨h1, h2, h3, h4⟩ := fragSpans_spec fb.elements h.elements 0
  have e : elemChars fb.elements = fb.chars := rfl
  rw [e] at h3 h4
  have hle : ∀ r ∈ (fragSpans 0 fb.elements).1, r.bs ≤ r.be := fun r hr => Nat.le_of_lt (h2.nonempty r hr)
  refine ⟨⟨⟨ordered_coalesce _ h2, coalesced_coalesce _, ?_⟩, ?_⟩, h1⟩
  · intro r hr
    obtain ⟨b, hb, e⟩ := (coalesce_mem _ r hr).2
    have := (h3 b hb).2
    omega
  · intro i
    show fmtAt (coalesce (fragSpans 0 fb.elements).1) i = _
    rw [fmtAt_coalesce _ hle]
    have := h4 i
    rwa [Nat.zero_add] at this

theorem state_len {fb : FragBlock} (h : fb.IsText) : fb.state.len = fb.chars.length := by
  unfold ParaState.len FragBlock.state
  rw [(fragState_styled h).2, h.text]
  simp

theorem fmtAt_moveRuns (n i : Nat) (l : List (Run CharFormat)) :
    fmtAt (moveRuns n l) i = if n ≤ i then fmtAt l (i - n) else none := by
  induction l with
  | nil => simp [moveRuns]
  | cons r l ih =>
    have : moveRuns n (r :: l) = { r with bs := r.bs + n, be := r.be + n } :: moveRuns n l := rfl
    rw [this, fmtAt_cons, ih, fmtAt_cons]
    simp only []
    by_cases h : n ≤ i
    · simp only [if_pos h]
      by_cases h2 : r.bs ≤ i - n ∧ i - n < r.be
      · rw [if_pos h2, if_pos (by omega)]
      · rw [if_neg h2, if_neg (by omega)]
    · rw [if_neg (by omega), if_neg h, if_neg h]

theorem ordered_moveRuns (n : Nat) {l : List (Run CharFormat)} (h : Ordered l) : Ordered (moveRuns n l) := by
  constructor
  · intro r hr
    obtain ⟨q, hq, rfl⟩ := List.mem_map.mp hr
    have := h.nonempty q hq
    simp; omega
  · unfold moveRuns
    rw [List.pairwise_map]
    exact h.sorted.imp fun hab => by simp; omega

/-- Two paragraphs put together. -/
theorem StyledOk.append {r1 r2 : List (Run CharFormat)} (h1 : StyledOk r1 a) (h2 : StyledOk r2 b) :
    StyledOk (coalesce (r1 ++ moveRuns (utf8Len (a.map Prod.fst)) r2)) (a ++ b) := by
  have hm := ordered_moveRuns (utf8Len (a.map Prod.fst)) h2.wf.ordered
  have hord : Ordered (r1 ++ moveRuns (utf8Len (a.map Prod.fst)) r2) := by
    constructor
    · intro r hr
      rcases List.mem_append.mp hr with hr | hr
      · exact h1.wf.ordered.nonempty r hr
      · exact hm.nonempty r hr
    · rw [List.pairwise_append]
      refine ⟨h1.wf.ordered.sorted, hm.sorted, ?_⟩
      intro x hx y hy
      obtain ⟨q, hq, rfl⟩ := List.mem_map.mp hy
      have := h1.wf.inside x hx
      simp; omega
  have hle : ∀ r ∈ r1 ++ moveRuns (utf8Len (a.map Prod.fst)) r2, r.bs ≤ r.be :=
    fun r hr => Nat.le_of_lt (hord.nonempty r hr)
  refine ⟨⟨ordered_coalesce _ hord, coalesced_coalesce _, ?_⟩, ?_⟩
  · intro r hr
    obtain ⟨q, hq, e⟩ := (coalesce_mem _ r hr).2
    rw [List.map_append, utf8Len_append, e]
    rcases List.mem_append.mp hq with hq | hq
    · have := h1.wf.inside q hq; omega
    · obtain ⟨q', hq', rfl⟩ := List.mem_map.mp hq
      have := h2.wf.inside q' hq'
      simp; omega
  · intro i
    rw [fmtAt_coalesce _ hle, fmtAt_append, fmtAt_moveRuns, byteFmts_append]
    by_cases hi : i < utf8Len (a.map Prod.fst)
    · rw [if_neg (by omega), Option.or_none, h1.fmt, List.getElem?_append_left (by simpa using hi)]
    · have hz : fmtAt r1 i = none := fmtAt_eq_none fun r hr => by have := h1.wf.inside r hr; omega
      rw [if_pos (by omega), hz, Option.none_or, h2.fmt, List.getElem?_append_right (by simp; omega)]
      simp

/-- A fragment pasted into a paragraph. -/
theorem StyledOk.paste {runs : List (Run CharFormat)} {a b m : List SChar} {rs : List (Run CharFormat)}
    (h : StyledOk runs (a ++ b)) (hm : StyledOk rs m) :
    StyledOk (coalesce (spliceRange (shiftRunsForInsert runs (utf8Len (a.map Prod.fst)) (utf8Len (m.map Prod.fst)))
        (utf8Len (a.map Prod.fst)) (utf8Len (a.map Prod.fst) + utf8Len (m.map Prod.fst))
        (moveRuns (utf8Len (a.map Prod.fst)) rs))) (a ++ m ++ b) := by
  have h1 := h.insert (m.map Prod.fst)
  have hin : InRange (utf8Len (a.map Prod.fst)) (utf8Len (a.map Prod.fst) + utf8Len (m.map Prod.fst))
      (moveRuns (utf8Len (a.map Prod.fst)) rs) := by
    intro r hr
    obtain ⟨q, hq, rfl⟩ := List.mem_map.mp hr
    have := hm.wf.inside q hq
    simp; omega
  have hord := ordered_moveRuns (utf8Len (a.map Prod.fst)) hm.wf.ordered
  have hlen : utf8Len ((a ++ m ++ b).map Prod.fst) =
      utf8Len ((a ++ styled (m.map Prod.fst) (inheritFmt a) ++ b).map Prod.fst) := by simp [styled_fst]
  have hw : WellFormed (utf8Len ((a ++ m ++ b).map Prod.fst))
      (spliceRange (shiftRunsForInsert runs (utf8Len (a.map Prod.fst)) (utf8Len (m.map Prod.fst)))
        (utf8Len (a.map Prod.fst)) (utf8Len (a.map Prod.fst) + utf8Len (m.map Prod.fst))
        (moveRuns (utf8Len (a.map Prod.fst)) rs)) := by
    rw [hlen]
    refine wellFormed_spliceRange (by omega) ?_ h1.wf.ordered h1.wf.inside hord hin
    simp [styled_fst]
  rw [coalesce_of_coalesced _ hw.coalesced]
  refine ⟨hw, ?_⟩
  intro i
  rw [fmtAt_spliceRange _ _ _ _ _ (by omega) (fun r hr => Nat.le_of_lt (h1.wf.ordered.nonempty r hr))
    (fun r hr => Nat.le_of_lt (hord.nonempty r hr)) hin, h1.fmt, fmtAt_moveRuns]
  simp only [byteFmts_append, byteFmts_styled]
  by_cases hi : utf8Len (a.map Prod.fst) ≤ i ∧ i < utf8Len (a.map Prod.fst) + utf8Len (m.map Prod.fst)
  · rw [if_pos hi, if_pos hi.1, hm.fmt, List.append_assoc, List.getElem?_append_right (by simp; omega),
      List.getElem?_append_left (by simp; omega)]
    simp
  · rw [if_neg hi]
    by_cases h2 : i < utf8Len (a.map Prod.fst)
    · rw [List.append_assoc, List.append_assoc, List.getElem?_append_left (by simpa using h2),
        List.getElem?_append_left (by simpa using h2)]
    · rw [List.append_assoc, List.append_assoc, List.getElem?_append_right (by simp; omega),
        List.getElem?_append_right (by simp; omega),
        List.getElem?_append_right (by simp; omega), List.getElem?_append_right (by simp; omega)]
      simp

end Verif
