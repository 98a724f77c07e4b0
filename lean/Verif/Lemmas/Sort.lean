import Verif.Model.Sort
/- The sort orders and keeps the elements. -/
namespace Verif

theorem insertByKey_perm {α : Type} (key : α → Int) (a : α) (l : List α) :
    (insertByKey key a l).Perm (a :: l) := by
  induction l with
  | nil => exact .refl _
  | cons b l ih =>
    rw [insertByKey]; split
    · exact .refl _
    · exact (ih.cons b).trans (.swap a b l)

theorem sortByKey_perm {α : Type} (key : α → Int) (l : List α) : (sortByKey key l).Perm l := by
  induction l with
  | nil => exact .refl _
  | cons a l ih => exact (insertByKey_perm key a _).trans (ih.cons a)

theorem insertByKey_sorted {α : Type} (key : α → Int) (a : α) {l : List α}
    (h : l.Pairwise fun x y => key x ≤ key y) :
    (insertByKey key a l).Pairwise fun x y => key x ≤ key y := by
  induction l with
  | nil => simp [insertByKey]
  | cons b l ih =>
    rw [insertByKey]
    rw [List.pairwise_cons] at h
    split
    · rename_i hab
      refine List.pairwise_cons.mpr ⟨fun y hy => ?_, List.pairwise_cons.mpr h⟩
      rcases List.mem_cons.mp hy with rfl | hy
      · exact hab
      · exact Int.le_trans hab (h.1 y hy)
    · rename_i hab
      refine List.pairwise_cons.mpr ⟨fun y hy => ?_, ih h.2⟩
      rcases List.mem_cons.mp ((insertByKey_perm key a l).mem_iff.mp hy) with rfl | hy
      · omega
      · exact h.1 y hy

theorem sortByKey_sorted {α : Type} (key : α → Int) (l : List α) :
    (sortByKey key l).Pairwise fun x y => key x ≤ key y := by
  induction l with
  | nil => exact .nil
  | cons a l ih => exact insertByKey_sorted key a ih

/-- A sorted list stays as it is. -/
theorem sortByKey_of_sorted {α : Type} (key : α → Int) {l : List α}
    (h : l.Pairwise fun x y => key x ≤ key y) : sortByKey key l = l := by
  induction l with
  | nil => rfl
  | cons a l ih =>
    rw [List.pairwise_cons] at h
    rw [sortByKey, ih h.2]
    cases l with
    | nil => rfl
    | cons b l => rw [insertByKey, if_pos (h.1 b (List.mem_cons_self ..))]

theorem mem_sortByKey {α : Type} {key : α → Int} {l : List α} {a : α} : a ∈ sortByKey key l ↔ a ∈ l :=
  (sortByKey_perm key l).mem_iff

/-- Elements with one key keep their order. -/
theorem sortByKey_stable {α : Type} (key : α → Int) (l : List α) (k : Int) :
    (sortByKey key l).filter (fun a => decide (key a = k)) = l.filter (fun a => decide (key a = k)) := by
  have ins : ∀ a l, (insertByKey key a l).filter (fun a => decide (key a = k)) =
      (a :: l).filter (fun a => decide (key a = k)) := by
    intro a l
    induction l with
    | nil => rfl
    | cons b l ih =>
      rw [insertByKey]; split
      · rfl
      · rename_i hab
        rw [List.filter_cons, ih]
        by_cases h1 : key a = k <;> by_cases h2 : key b = k
        · omega
        · simp [h1, h2]
        · simp [h1, h2]
        · simp [h1, h2]
  induction l with
  | nil => rfl
  | cons a l ih => rw [sortByKey, ins, List.filter_cons, List.filter_cons, ih]

end Verif
