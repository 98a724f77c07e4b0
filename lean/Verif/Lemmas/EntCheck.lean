import Verif.Lemmas.EntRemove
/-
A check for stores in good order, for the examples.
-/
namespace Verif

def ordersB : (k : EKind) → Ent k → Bool
  | .frame, (e : Frame) => decide e.blocks.Nodup && e.childOrder.all fun j => !decide (0 < j) || e.blocks.contains j.toNat
  | _, _ => true

def refsB (s : Store) (k : EKind) (e : Ent k) : Bool :=
  ((owns k e).all fun p => (s.tab p.1 p.2).isSome) && ((mentions k e).all fun p => (s.tab p.1 p.2).isSome) &&
    ordersB k e

theorem refsB_ok {s : Store} {k : EKind} {e : Ent k} (h : refsB s k e = true) : RefsOk s k e := by
  simp only [refsB, Bool.and_eq_true, List.all_eq_true] at h
  refine ⟨h.1.1, h.1.2, ?_⟩
  have := h.2
  cases k with
  | frame =>
    simp only [ordersB, Bool.and_eq_true, decide_eq_true_eq, List.all_eq_true, Bool.or_eq_true, Bool.not_eq_true', decide_eq_false_iff_not,
      List.contains_iff_mem] at this
    refine ⟨this.1, ?_⟩
    intro j hj h0
    rcases this.2 j hj with h | h
    · exact absurd h0 h
    · exact h
  | _ => trivial

def EKind.all : List EKind := [.root, .document, .frame, .block, .list, .resource, .table, .tableCell]

def tidyB (s : Store) : Bool :=
  (EKind.all.all fun k => (s.tab k).keys.all fun i => decide (i ≠ 0) &&
    ((s.tab k i).all fun e => decide (entId k e = i) && refsB s k e)) &&
  (s.formatRuns.keys.all fun i => (s.blocks i).isSome) &&
  (s.blockImages.keys.all fun i => (s.blocks i).isSome) &&
  (s.roots.keys.all fun i => s.roots.keys.all fun j => decide (i = j) ||
    ((s.roots i).all fun r => (s.roots j).all fun r' =>
      decide (r.document ≠ r'.document) || decide (r.document = 0)))

theorem tidyB_ok {s : Store} (h : tidyB s = true) : Tidy s := by
  simp only [tidyB, Bool.and_eq_true, List.all_eq_true, decide_eq_true_eq, Option.all_eq_true_iff_get,
    Bool.or_eq_true] at h
  obtain ⟨⟨⟨h1, h2⟩, h3⟩, h4⟩ := h
  have hk : ∀ k i e, s.tab k i = some e → i ≠ 0 ∧ entId k e = i ∧ refsB s k e = true := by
    intro k i e he
    have hm : i ∈ (s.tab k).keys := ((s.tab k).mem i).mpr (by simp [he])
    obtain ⟨a, b⟩ := h1 k (by cases k <;> simp [EKind.all]) i hm
    have := b (by simp [he])
    simp only [he, Option.get_some] at this
    exact ⟨a, this⟩
  refine ⟨fun k i e he => (hk k i e he).2.1, ?_, fun k i e he => refsB_ok (hk k i e he).2.2, ?_, ?_, ?_⟩
  · intro k
    cases he : s.tab k 0 with
    | none => rfl
    | some e => exact absurd rfl (hk k 0 e he).1
  · intro i hi; exact h2 i ((s.formatRuns.mem i).mpr hi)
  · intro i hi; exact h3 i ((s.blockImages.mem i).mpr hi)
  · intro i j r r' hr hr' he h0
    rcases h4 i ((s.roots.mem i).mpr (by simp [hr])) j ((s.roots.mem j).mpr (by simp [hr'])) with h | h
    · exact h
    · have := h (by simp [hr]) (by simp [hr'])
      simp only [hr, hr', Option.get_some] at this
      rcases this with h | h
      · exact absurd he h
      · exact absurd h h0

def aheadB (s : Store) : Bool :=
  EKind.all.all fun k => decide (1 ≤ (s.counters k.counter).getD 1) &&
    (s.tab k).keys.all fun i => decide (i < (s.counters k.counter).getD 1)

theorem aheadB_ok {s : Store} (h : aheadB s = true) : Ahead s := by
  simp only [aheadB, Bool.and_eq_true, List.all_eq_true, decide_eq_true_eq] at h
  intro k
  obtain ⟨a, b⟩ := h k (by cases k <;> simp [EKind.all])
  exact ⟨a, fun i hi => b i (((s.tab k).mem i).mpr hi)⟩

end Verif
