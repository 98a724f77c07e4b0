import Verif.Spec.Grid
/- Counting the cells over a grid place. -/
namespace Verif

/-- A place given as (row, column, row span, column span) occupies (`r`, `k`). -/
def placeCovers (r k : Int) (p : Int × Int × Int × Int) : Bool :=
  decide (p.1 ≤ r ∧ r < p.1 + p.2.2.1) && decide (p.2.1 ≤ k ∧ k < p.2.1 + p.2.2.2)

theorem newCells_count (fresh : Nat → Nat × Nat) (r k : Int) (ps : List (Int × Int × Int × Int)) :
    ∀ i, ((newCells fresh i ps).filter fun c => c.covers r k).length = ps.countP (placeCovers r k) := by
  induction ps with
  | nil => intro i; rfl
  | cons p ps ih =>
    intro i
    obtain ⟨a, b, c, d⟩ := p
    have e : (newCell (fresh i) a b c d).covers r k = placeCovers r k (a, b, c, d) := by
      rw [Bool.eq_iff_iff]
      simp [newCell, TableCell.covers, placeCovers, and_assoc]
      exact decide_eq_true_iff
    simp only [newCells, List.filter_cons, List.countP_cons, e]
    split <;> simp [ih (i + 1)]

theorem newCells_mem {fresh : Nat → Nat × Nat} {c : TableCell} {ps : List (Int × Int × Int × Int)} :
    ∀ {i}, c ∈ newCells fresh i ps → ∃ j p, i ≤ j ∧ p ∈ ps ∧ c = newCell (fresh j) p.1 p.2.1 p.2.2.1 p.2.2.2 := by
  induction ps with
  | nil => intro i h; simp [newCells] at h
  | cons p ps ih =>
    intro i h
    obtain ⟨a, b, x, d⟩ := p
    simp only [newCells, List.mem_cons] at h
    rcases h with rfl | h
    · exact ⟨i, _, Nat.le_refl _, List.mem_cons_self .., rfl⟩
    · obtain ⟨j, p, h1, h2, h3⟩ := ih h
      exact ⟨j, p, by omega, List.mem_cons_of_mem _ h2, h3⟩

theorem newCells_ids {fresh : Nat → Nat × Nat} (hf : ∀ i j, (fresh i).1 = (fresh j).1 → i = j)
    (ps : List (Int × Int × Int × Int)) : ∀ i, ((newCells fresh i ps).map fun c => c.id).Nodup := by
  induction ps with
  | nil => intro i; simp [newCells]
  | cons p ps ih =>
    intro i
    obtain ⟨a, b, c, d⟩ := p
    simp only [newCells, List.map_cons, List.nodup_cons, ih (i + 1), and_true, List.mem_map, not_exists]
    rintro c ⟨hc, he⟩
    obtain ⟨j, p, h1, _, rfl⟩ := newCells_mem hc
    simp only [newCell] at he
    have := hf _ _ he
    omega

/-- Counting over a product of two lists. -/
theorem countP_product {α β γ : Type} (f : α → β → γ) (P : γ → Bool) (p : α → Bool) (q : β → Bool)
    (h : ∀ a b, P (f a b) = (p a && q b)) (A : List α) (B : List β) :
    (A.flatMap fun a => B.map fun b => f a b).countP P = A.countP p * B.countP q := by
  induction A with
  | nil => simp
  | cons a A ih =>
    simp only [List.flatMap_cons, List.countP_append, ih, List.countP_cons, List.countP_map]
    cases hp : p a with
    | true =>
      have e : (P ∘ fun b => f a b) = q := by funext b; simp [h, hp]
      rw [e]; simp [Nat.add_mul]; omega
    | false =>
      have e : (P ∘ fun b => f a b) = fun _ => false := by funext b; simp [h, hp]
      rw [e]; simp

theorem range_count (n : Nat) (r : Int) :
    ((List.range n).map Int.ofNat).countP (fun x => decide (x ≤ r ∧ r < x + 1)) =
      if 0 ≤ r ∧ r < n then 1 else 0 := by
  induction n with
  | zero => simp
  | succ n ih =>
    rw [List.range_succ, List.map_append, List.countP_append, ih]
    simp only [List.map_cons, List.map_nil, List.countP_cons, List.countP_nil, Int.ofNat_eq_natCast,
      decide_eq_true_eq]
    by_cases h1 : 0 ≤ r ∧ r < n
    · rw [if_pos h1, if_neg (by omega), if_pos (by omega)]
    · rw [if_neg h1]
      by_cases h2 : r = n
      · rw [if_pos (by omega), if_pos (by omega)]
      · rw [if_neg (by omega), if_neg (by omega)]

theorem intRange_count {n : Int} (hn : 0 ≤ n) (r : Int) :
    (intRange n).countP (fun x => decide (x ≤ r ∧ r < x + 1)) = if 0 ≤ r ∧ r < n then 1 else 0 := by
  rw [intRange, range_count]
  have : ((n.toNat : Nat) : Int) = n := Int.toNat_of_nonneg hn
  rw [this]

theorem intRange_mem {n x : Int} : x ∈ intRange n ↔ 0 ≤ x ∧ x < n := by
  simp only [intRange, List.mem_map, List.mem_range]
  constructor
  · rintro ⟨a, h, rfl⟩; simp only [Int.ofNat_eq_natCast]; omega
  · rintro ⟨h1, h2⟩; exact ⟨x.toNat, by omega, by simp only [Int.ofNat_eq_natCast]; omega⟩

/-- The whole length handed out by `splitParts`. -/
def partsTotal (base extra : Int) : Nat → Int → Int
  | 0, _ => 0
  | n + 1, i => (base + if i < extra then 1 else 0) + partsTotal base extra n (i + 1)

theorem partsTotal_nonneg {base extra : Int} (hb : 1 ≤ base) : ∀ n i, 0 ≤ partsTotal base extra n i := by
  intro n
  induction n with
  | zero => intro i; simp [partsTotal]
  | succ n ih =>
    intro i
    have := ih (i + 1)
    simp only [partsTotal]
    split <;> omega

theorem partsTotal_eq (base extra : Int) : ∀ (n : Nat) (i : Int), i ≤ extra → extra ≤ i + n →
    partsTotal base extra n i = base * n + (extra - i) := by
  intro n
  induction n with
  | zero => intro i h1 h2; simp only [partsTotal]; simp at h2 ⊢; omega
  | succ n ih =>
    intro i h1 h2
    simp only [partsTotal]
    by_cases h : i < extra
    · rw [if_pos h, ih (i + 1) (by omega) (by omega)]
      rw [show ((n + 1 : Nat) : Int) = (n : Int) + 1 by omega, Int.mul_add]
      omega
    · have e : i = extra := by omega
      subst e
      rw [if_neg (by omega)]
      have : ∀ (m : Nat) (j : Int), i ≤ j → partsTotal base i m j = base * m := by
        intro m
        induction m with
        | zero => intro j _; simp [partsTotal]
        | succ m ihm =>
          intro j hj
          simp only [partsTotal]
          rw [if_neg (by omega), ihm (j + 1) (by omega),
            show ((m + 1 : Nat) : Int) = (m : Int) + 1 by omega, Int.mul_add]
          omega
      rw [this n (i + 1) (by omega), show ((n + 1 : Nat) : Int) = (n : Int) + 1 by omega, Int.mul_add]
      omega

theorem pieces_count {pos size T r : Int} (h0 : 0 ≤ T) (h1 : 1 ≤ size) :
    ((if pos + size ≤ r ∧ r < pos + size + T then 1 else 0) + if pos ≤ r ∧ r < pos + size then 1 else 0) =
      if pos ≤ r ∧ r < pos + (size + T) then 1 else 0 := by
  by_cases a : pos ≤ r ∧ r < pos + size
  · rw [if_neg (by omega), if_pos a, if_pos (by omega)]
  · rw [if_neg a]
    by_cases b : pos + size ≤ r ∧ r < pos + size + T
    · rw [if_pos b, if_pos (by omega)]
    · rw [if_neg b, if_neg (by omega)]

theorem splitParts_count {base extra : Int} (hb : 1 ≤ base) (r : Int) : ∀ (n : Nat) (i pos : Int),
    (splitParts base extra n i pos).countP (fun p => decide (p.1 ≤ r ∧ r < p.1 + p.2)) =
      if pos ≤ r ∧ r < pos + partsTotal base extra n i then 1 else 0 := by
  intro n
  induction n with
  | zero => intro i pos; simp [splitParts, partsTotal]
  | succ n ih =>
    intro i pos
    simp only [splitParts, List.countP_cons, partsTotal, ih, decide_eq_true_eq]
    have h0 := partsTotal_nonneg (extra := extra) hb n (i + 1)
    exact pieces_count h0 (by split <;> omega)

theorem splitParts_mem {base extra : Int} (hb : 1 ≤ base) {p : Int × Int} : ∀ (n : Nat) (i pos : Int),
    p ∈ splitParts base extra n i pos →
      pos ≤ p.1 ∧ 1 ≤ p.2 ∧ p.1 + p.2 ≤ pos + partsTotal base extra n i := by
  intro n
  induction n with
  | zero => intro i pos h; simp [splitParts] at h
  | succ n ih =>
    intro i pos h
    have h0 := partsTotal_nonneg (extra := extra) hb n (i + 1)
    have h1 : 1 ≤ base + (if i < extra then (1 : Int) else 0) := by split <;> omega
    simp only [splitParts, List.mem_cons] at h
    simp only [partsTotal]
    rcases h with rfl | h
    · simp only; omega
    · have := ih _ _ h; omega

theorem partsTotal_span {span n : Int} (hn : 1 ≤ n) (h : n ≤ span) :
    1 ≤ span / n ∧ partsTotal (span / n) (span % n) n.toNat 0 = span := by
  have e1 := Int.mul_ediv_add_emod span n
  have e2 := Int.emod_nonneg span (show n ≠ 0 by omega)
  have e3 := Int.emod_lt_of_pos span (show 0 < n by omega)
  have hn' : ((n.toNat : Nat) : Int) = n := Int.toNat_of_nonneg (by omega)
  refine ⟨Int.le_ediv_of_mul_le (by omega) (by omega), ?_⟩
  rw [partsTotal_eq _ _ _ _ e2 (by rw [hn']; omega), hn', Int.mul_comm]
  omega

end Verif
