import Verif.Model.Images
import Verif.Lemmas.Flat
import Verif.Lemmas.Inspect
import Verif.Spec.Inspect
/-
Helpers for C61 and C62.
-/
namespace Verif
open Store

/-- The byte offset of a position, when no segment is an image. -/
theorem imageByte_text (segs : List (Segment CharFormat)) (hne : segs ≠ [])
    (ht : ∀ g ∈ segs, ∃ cs fm, g = .text cs fm) (k : Nat) (hk : k ≤ (segsText segs).length)
    (r : Int) (bo : Nat) :
    imageByte (r + k) r bo segs = bo + utf8Len ((segsText segs).take k) := by
  induction segs generalizing k r bo with
  | nil => exact absurd rfl hne
  | cons g segs ih =>
    obtain ⟨cs, fm, rfl⟩ := ht g (by simp)
    have hst : segsText (.text cs fm :: segs) = cs ++ segsText segs := by simp [segsText, segChars]
    rw [hst] at hk ⊢
    unfold imageByte
    simp only []
    have hl : (segChars (Segment.text cs fm)).length = cs.length := rfl
    by_cases h : k ≤ cs.length
    · rw [if_pos (show r + (k : Int) ≤ r + ((segChars (Segment.text cs fm)).length : Int) by omega), if_neg (show ¬ r + (k : Int) < r by omega),
        List.take_append_of_le_length h, show (r + (k : Int) - r).toNat = k by omega]
    · rw [if_neg (show ¬ r + (k : Int) ≤ r + ((segChars (Segment.text cs fm)).length : Int) by omega)]
      by_cases hs : segs = []
      · subst hs
        rw [List.length_append] at hk
        simp only [segsText, List.flatMap_nil, List.length_nil] at hk
        omega
      · rw [if_neg hs]
        have := ih hs (fun x hx => ht x (by simp [hx])) (k - cs.length) (by rw [List.length_append] at hk; omega)
          (r + cs.length) (bo + utf8Len cs)
        rw [show (r + (cs.length : Int) + ((k - cs.length : Nat) : Int)) = r + k by omega] at this
        have ht2 : (cs ++ segsText segs).take k = cs ++ (segsText segs).take (k - cs.length) := by
          rw [List.take_append, List.take_of_length_le (l := cs) (by omega)]
        rw [hl, this, ht2, utf8Len_append]
        omega

theorem segs_all_text {segs : List (Segment CharFormat)} {cs : List SChar} {d : CharFormat}
    (h : segItems segs = cs.map fun c => .char c.1 (c.2.getD d)) : ∀ g ∈ segs, ∃ t fm, g = .text t fm := by
  intro g hg
  cases g with
  | text t fm => exact ⟨t, fm, rfl⟩
  | image i =>
    have : (Item.image i : Item CharFormat) ∈ segItems segs := by
      simp only [segItems, List.mem_flatMap]
      exact ⟨_, hg, by simp⟩
    rw [h] at this
    obtain ⟨c, _, e⟩ := List.mem_map.mp this
    cases e

/-- Plain characters at the end may be preceded by one more. -/
theorem StyledOk.insertPlain {runs : List (Run CharFormat)} {a b : List SChar} (c : Char)
    (h : StyledOk runs (a ++ b)) (hb : ∀ x ∈ b, x.2 = none) : StyledOk runs (a ++ (c, none) :: b) := by
  have hnone : ∀ l : List SChar, (∀ x ∈ l, x.2 = none) → byteFmts l = List.replicate (utf8Len (l.map Prod.fst)) none := by
    intro l hl
    induction l with
    | nil => rfl
    | cons x l ih =>
      have : byteFmts (x :: l) = List.replicate x.1.utf8Size x.2 ++ byteFmts l := by simp [byteFmts]
      rw [this, ih fun y hy => hl y (by simp [hy]), hl x (by simp), List.replicate_append_replicate]
      simp
  have hj : ∀ (n i : Nat), ((List.replicate n (none : Option CharFormat))[i]?).join = none := by
    intro n i
    rw [List.getElem?_replicate]
    by_cases hi : i < n
    · rw [if_pos hi]; rfl
    · rw [if_neg hi]; rfl
  constructor
  · refine ⟨h.wf.ordered, h.wf.coalesced, ?_⟩
    intro r hr
    have := h.wf.inside r hr
    simp only [List.map_append, List.map_cons, utf8Len_append, utf8Len_cons] at this ⊢
    omega
  · intro i
    rw [h.fmt, byteFmts_append, byteFmts_append, hnone b hb, hnone ((c, none) :: b) (by
      intro x hx
      rcases List.mem_cons.mp hx with rfl | hx
      · rfl
      · exact hb x hx)]
    by_cases hi : i < (byteFmts a).length
    · rw [List.getElem?_append_left hi, List.getElem?_append_left hi]
    · rw [List.getElem?_append_right (by omega), List.getElem?_append_right (by omega), hj, hj]

/-- Updating blocks changes the table of blocks only, and depends on nothing else. -/
theorem updateBlocks_blocks (bs : List Block) : ∀ (s t : Store), s.blocks = t.blocks →
    (s.updateBlocks bs).blocks = (t.updateBlocks bs).blocks ∧
    s.updateBlocks bs = { s with blocks := (s.updateBlocks bs).blocks } := by
  induction bs with
  | nil => intro s t h; exact ⟨h, rfl⟩
  | cons b bs ih =>
    intro s t h
    have h1 : (s.updateBlock b).blocks = (t.updateBlock b).blocks := by simp only [updateBlock, h]
    obtain ⟨e1, e2⟩ := ih (s.updateBlock b) (t.updateBlock b) h1
    exact ⟨e1, e2⟩

end Verif
