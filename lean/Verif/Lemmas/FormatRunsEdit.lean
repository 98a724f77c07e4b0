import Verif.Lemmas.FormatRuns
namespace Verif
variable {F : Type}

/-! ### Insertion -/

theorem fmtAt_shiftRunsForInsert (l : List (Run F)) (o n i : Nat) (_h : ∀ r ∈ l, r.bs < r.be) :
    fmtAt (shiftRunsForInsert l o n) i =
      if i < o then fmtAt l i
      else if i < o + n then (if o = 0 then none else fmtAt l (o - 1))
      else fmtAt l (i - n) := by
  unfold shiftRunsForInsert
  split
  · subst_vars
    grind
  · induction l with
    | nil => simp
    | cons a l ih =>
      have ih := ih (fun r hr => _h r (by simp [hr]))
      have ha := _h a (by simp)
      simp only [List.map_cons, fmtAt_cons, ih]
      grind

theorem ordered_shiftRunsForInsert {l : List (Run F)} (o n : Nat) (h : Ordered l) :
    Ordered (shiftRunsForInsert l o n) := by
  unfold shiftRunsForInsert
  split
  · exact h
  · constructor
    · intro r hr
      simp only [List.mem_map] at hr
      obtain ⟨a, ha, rfl⟩ := hr
      have := h.nonempty a ha
      grind
    · rw [List.pairwise_map]
      have hs := h.sorted
      have hn := h.nonempty
      clear h
      induction l with
      | nil => simp
      | cons a l ih =>
        simp only [List.pairwise_cons] at hs ⊢
        refine ⟨?_, ih hs.2 (fun r hr => hn r (by simp [hr]))⟩
        intro b hb
        have h1 := hs.1 b hb
        have h2 := hn a (by simp)
        have h3 := hn b (by simp [hb])
        grind

theorem coalesced_map {l : List (Run F)} (g : Run F → Run F) (hf : ∀ r, (g r).fmt = r.fmt)
    (hadj : ∀ a ∈ l, ∀ b ∈ l, a.be ≤ b.bs → (g a).be = (g b).bs → a.be = b.bs)
    (ho : Ordered l) (hc : Coalesced l) : Coalesced (l.map g) := by
  induction l with
  | nil => trivial
  | cons a l ih =>
    cases l with
    | nil => trivial
    | cons b l =>
      obtain ⟨h1, h2, h3⟩ := ordered_cons.mp ho
      refine ⟨?_, ih (fun a ha b hb => hadj a (by simp [ha]) b (by simp [hb])) h3 hc.2⟩
      rintro ⟨h4, h5⟩
      apply hc.1
      rw [hf, hf] at h5
      exact ⟨hadj a (by simp) b (by simp) (h2 b (by simp)) h4, h5⟩

theorem coalesced_shiftRunsForInsert {l : List (Run F)} (o n : Nat) (h : Ordered l)
    (hc : Coalesced l) : Coalesced (shiftRunsForInsert l o n) := by
  unfold shiftRunsForInsert
  split
  · exact hc
  · apply coalesced_map _ _ _ h hc
    · intro r; grind
    · intro a ha b hb hab hg
      have := h.nonempty a ha
      grind

theorem wellFormed_shiftRunsForInsert {len : Nat} {l : List (Run F)} (o n : Nat)
    (h : WellFormed len l) : WellFormed (len + n) (shiftRunsForInsert l o n) := by
  refine ⟨ordered_shiftRunsForInsert o n h.ordered,
    coalesced_shiftRunsForInsert o n h.ordered h.coalesced, ?_⟩
  intro r hr
  unfold shiftRunsForInsert at hr
  split at hr
  · have := h.inside r hr; omega
  · simp only [List.mem_map] at hr
    obtain ⟨a, ha, rfl⟩ := hr
    have := h.inside a ha
    grind

/-! ### Deletion -/

theorem shiftAfter_neg_mem {l : List (Run F)} {e d : Nat} {r : Run F}
    (h : r ∈ shiftAfter l e (-(d : Int))) :
    ∃ a ∈ l, r.fmt = a.fmt ∧ ((a.bs ≥ e ∧ r.bs = a.bs - d ∧ r.be = a.be - d) ∨ (a.bs < e ∧ r = a)) := by
  simp only [shiftAfter, List.mem_map] at h
  obtain ⟨a, ha, rfl⟩ := h
  refine ⟨a, ha, ?_⟩
  by_cases hc : a.bs ≥ e
  · simp only [hc, if_true, true_and]
    left
    constructor <;> omega
  · simp only [hc, if_false, true_and]
    right
    exact ⟨by omega, trivial⟩

/-- Shifting back by `e - s` when nothing covers `[s, e)`. -/
theorem fmtAt_shiftAfter_neg (l : List (Run F)) (s e i : Nat) (hse : s ≤ e)
    (h : ∀ r ∈ l, r.bs < r.be ∧ (r.be ≤ s ∨ e ≤ r.bs)) :
    fmtAt (shiftAfter l e (-((e - s : Nat) : Int))) i =
      if i < s then fmtAt l i else fmtAt l (i + (e - s)) := by
  induction l with
  | nil => simp [shiftAfter]
  | cons a l ih =>
    have ih := ih (fun r hr => h r (by simp [hr]))
    have ha := h a (by simp)
    simp only [shiftAfter, List.map_cons] at ih ⊢
    rw [fmtAt_cons, ih]
    simp only [fmtAt_cons]
    by_cases hc : a.bs ≥ e
    · simp only [hc, if_true]
      have e1 : ((a.bs : Int) + -((e - s : Nat) : Int)).toNat = a.bs - (e - s) := by omega
      have e2 : ((a.be : Int) + -((e - s : Nat) : Int)).toNat = a.be - (e - s) := by omega
      rw [e1, e2]
      grind
    · simp only [hc, if_false]
      grind

theorem spliceRange_nil_mem [DecidableEq F] {l : List (Run F)} {s e : Nat} (hse : s < e)
    (h : Ordered l) : ∀ r ∈ spliceRange l s e [], r.bs < r.be ∧ (r.be ≤ s ∨ e ≤ r.bs) := by
  intro r hr
  have ho : Ordered (spliceRange l s e []) :=
    ordered_coalesce _ (ordered_splice_parts (by omega) h ordered_nil (by simp [InRange]))
  have hlt := ho.nonempty r hr
  refine ⟨hlt, ?_⟩
  -- no byte of `[s, e)` is covered
  have hpt : ∀ i, s ≤ i → i < e → fmtAt (spliceRange l s e []) i = none := by
    intro i h1 h2
    rw [fmtAt_spliceRange _ _ _ _ _ (by omega) (fun r hr => Nat.le_of_lt (h.nonempty r hr))
      (by simp) (by simp [InRange]), if_pos ⟨h1, h2⟩]
    rfl
  have hcov : ∀ i, r.bs ≤ i → i < r.be → fmtAt (spliceRange l s e []) i ≠ none := by
    intro i h1 h2 h3
    simp only [fmtAt, Option.map_eq_none_iff, List.find?_eq_none] at h3
    have := h3 r hr
    simp at this
    omega
  by_cases hs : r.be ≤ s
  · exact Or.inl hs
  · right
    by_cases h2 : e ≤ r.bs
    · exact h2
    · exfalso
      have : max r.bs s < e := by omega
      exact hcov (max r.bs s) (by omega) (by omega) (hpt (max r.bs s) (by omega) this)

theorem ordered_shiftAfter_neg {l : List (Run F)} {s e : Nat} (hse : s ≤ e) (ho : Ordered l)
    (h : ∀ r ∈ l, r.be ≤ s ∨ e ≤ r.bs) :
    Ordered (shiftAfter l e (-((e - s : Nat) : Int))) := by
  constructor
  · intro r hr
    obtain ⟨a, ha, _, h'⟩ := shiftAfter_neg_mem hr
    have := ho.nonempty a ha
    rcases h' with h' | h'
    · omega
    · rw [h'.2]; exact this
  · rw [shiftAfter, List.pairwise_map]
    have hs := ho.sorted
    have hn := ho.nonempty
    clear ho
    induction l with
    | nil => simp
    | cons a l ih =>
      simp only [List.pairwise_cons] at hs ⊢
      refine ⟨?_, ih (fun r hr => h r (by simp [hr])) hs.2 (fun r hr => hn r (by simp [hr]))⟩
      intro b hb
      have h1 := hs.1 b hb
      have h2 := hn a (by simp)
      have h3 := hn b (by simp [hb])
      have h4 := h a (by simp)
      have h5 := h b (by simp [hb])
      by_cases ha : a.bs ≥ e <;> by_cases hb : b.bs ≥ e <;> simp only [ha, hb, if_true, if_false] <;>
        omega

theorem fmtAt_shiftRunsForDelete [DecidableEq F] (l : List (Run F)) (s e i : Nat)
    (h : Ordered l) :
    fmtAt (shiftRunsForDelete l s e) i =
      if e ≤ s then fmtAt l i
      else if i < s then fmtAt l i else fmtAt l (i + (e - s)) := by
  unfold shiftRunsForDelete
  split
  · rfl
  · rename_i hse
    have hm := spliceRange_nil_mem (by omega : s < e) h
    have ho : Ordered (spliceRange l s e []) :=
      ordered_coalesce _ (ordered_splice_parts (by omega) h ordered_nil (by simp [InRange]))
    have hosh := ordered_shiftAfter_neg (by omega : s ≤ e) ho (fun r hr => (hm r hr).2)
    simp only
    rw [fmtAt_coalesce _ (fun r hr => Nat.le_of_lt (hosh.nonempty r hr)),
      fmtAt_shiftAfter_neg _ _ _ _ (by omega) hm]
    rw [fmtAt_spliceRange _ _ _ _ _ (by omega) (fun r hr => Nat.le_of_lt (h.nonempty r hr))
      (by simp) (by simp [InRange]), fmtAt_spliceRange _ _ _ _ _ (by omega)
      (fun r hr => Nat.le_of_lt (h.nonempty r hr)) (by simp) (by simp [InRange])]
    split
    · rw [if_neg (by omega)]
    · rw [if_neg (by omega)]

theorem wellFormed_shiftRunsForDelete [DecidableEq F] {len : Nat} {l : List (Run F)} {s e : Nat}
    (h : WellFormed len l) (he : e ≤ len) :
    WellFormed (len - (e - s)) (shiftRunsForDelete l s e) := by
  unfold shiftRunsForDelete
  split
  · have : e - s = 0 := by omega
    rw [this]; exact h
  · rename_i hse
    have hm := spliceRange_nil_mem (by omega : s < e) h.ordered
    have hwf : WellFormed len (spliceRange l s e []) :=
      wellFormed_spliceRange (by omega) he h.ordered h.inside ordered_nil (by simp [InRange])
    have hosh := ordered_shiftAfter_neg (by omega : s ≤ e) hwf.ordered (fun r hr => (hm r hr).2)
    refine ⟨ordered_coalesce _ hosh, coalesced_coalesce _, ?_⟩
    intro r hr
    obtain ⟨_, ⟨b, hb, hbe⟩⟩ := coalesce_mem _ r hr
    obtain ⟨a, ha, _, h'⟩ := shiftAfter_neg_mem hb
    have h1 := hwf.inside a ha
    have h2 := hm a ha
    rcases h' with h' | h'
    · omega
    · rw [hbe, h'.2]; omega

/-! ### Splitting and joining -/

theorem splitRunsLeft_eq (l : List (Run F)) (o : Nat) (_h : ∀ r ∈ l, r.bs < r.be) :
    splitRunsLeft l o = keepLeft o l := by
  induction l with
  | nil => rfl
  | cons a l ih =>
    have ih := ih (fun r hr => _h r (by simp [hr]))
    simp only [splitRunsLeft, keepLeft, List.flatMap_cons, List.filterMap_cons] at ih ⊢
    rw [ih]
    have := _h a (by simp)
    split
    · simp
    · split
      · rw [if_neg (by omega)]; simp
      · rw [if_pos (by omega)]; simp

theorem splitRunsRight_eq (l : List (Run F)) (o : Nat) (_h : ∀ r ∈ l, r.bs < r.be) :
    splitRunsRight l o =
      (keepRight o l).map fun r => { r with bs := r.bs - o, be := r.be - o } := by
  induction l with
  | nil => rfl
  | cons a l ih =>
    have ih := ih (fun r hr => _h r (by simp [hr]))
    simp only [splitRunsRight, keepRight, List.flatMap_cons, List.filterMap_cons] at ih ⊢
    rw [ih]
    have := _h a (by simp)
    split
    · rw [if_neg (by omega), if_neg (by omega)]; simp
    · split
      · simp
      · rw [if_pos (by omega)]; simp

theorem fmtAt_map_sub (l : List (Run F)) (o i : Nat) (h : ∀ r ∈ l, o ≤ r.bs) :
    fmtAt (l.map fun r => { r with bs := r.bs - o, be := r.be - o }) i = fmtAt l (i + o) := by
  induction l with
  | nil => rfl
  | cons a l ih =>
    have ih := ih (fun r hr => h r (by simp [hr]))
    have := h a (by simp)
    simp only [List.map_cons, fmtAt_cons, ih]
    grind

theorem keepRight_ge (l : List (Run F)) (e : Nat) : ∀ r ∈ keepRight e l, e ≤ r.bs := by
  intro r hr
  obtain ⟨a, ha, h⟩ := keepRight_mem hr
  omega

theorem keepLeft_le (l : List (Run F)) (s : Nat) : ∀ r ∈ keepLeft s l, r.be ≤ s := by
  intro r hr
  obtain ⟨a, ha, h⟩ := keepLeft_mem hr
  omega

theorem coalesced_tail {a : Run F} {l : List (Run F)} (h : Coalesced (a :: l)) : Coalesced l := by
  cases l with
  | nil => trivial
  | cons b l => exact h.2

theorem keepLeft_cons (s : Nat) (a : Run F) (l : List (Run F)) :
    keepLeft s (a :: l) = if a.be ≤ s then a :: keepLeft s l
      else if a.bs < s then { a with be := s } :: keepLeft s l else keepLeft s l := by
  simp only [keepLeft, List.filterMap_cons]
  grind

theorem keepRight_cons (e : Nat) (a : Run F) (l : List (Run F)) :
    keepRight e (a :: l) = if a.bs ≥ e then a :: keepRight e l
      else if a.be > e then { a with bs := e } :: keepRight e l else keepRight e l := by
  simp only [keepRight, List.filterMap_cons]
  grind

theorem keepLeft_eq_nil {s : Nat} {l : List (Run F)} (h : Ordered l) (hl : ∀ r ∈ l, s ≤ r.bs) :
    keepLeft s l = [] := by
  rw [List.eq_nil_iff_forall_not_mem]
  intro r hr
  obtain ⟨a, ha, h'⟩ := keepLeft_mem hr
  have := h.nonempty a ha
  have := hl a ha
  omega

theorem keepRight_eq_self {e : Nat} {l : List (Run F)} (hl : ∀ r ∈ l, e ≤ r.bs) :
    keepRight e l = l := by
  induction l with
  | nil => rfl
  | cons a l ih =>
    rw [keepRight_cons, if_pos (hl a (by simp)), ih (fun r hr => hl r (by simp [hr]))]

theorem coalesced_keepLeft {s : Nat} {l : List (Run F)} (h : Ordered l) (hc : Coalesced l) :
    Coalesced (keepLeft s l) := by
  induction l with
  | nil => trivial
  | cons a l ih =>
    obtain ⟨h1, h2, h3⟩ := ordered_cons.mp h
    have ih := ih h3 (coalesced_tail hc)
    rw [keepLeft_cons]
    split
    · apply coalesced_cons ih
      intro b l' hb
      cases l with
      | nil => simp [keepLeft] at hb
      | cons c l =>
        obtain ⟨h4, h5, h6⟩ := ordered_cons.mp h3
        rw [keepLeft_cons] at hb
        split at hb
        · simp at hb; rw [← hb.1]; exact hc.1
        · split at hb
          · simp at hb; rw [← hb.1]; exact hc.1
          · rw [keepLeft_eq_nil h6 (fun r hr => by have := h5 r hr; omega)] at hb
            simp at hb
    · rw [keepLeft_eq_nil h3 (fun r hr => by have := h2 r hr; omega)]
      split <;> trivial

theorem coalesced_keepRight {e : Nat} {l : List (Run F)} (h : Ordered l) (hc : Coalesced l) :
    Coalesced (keepRight e l) := by
  induction l with
  | nil => trivial
  | cons a l ih =>
    obtain ⟨h1, h2, h3⟩ := ordered_cons.mp h
    rw [keepRight_cons]
    split
    · rw [keepRight_eq_self (fun r hr => by have := h2 r hr; omega)]
      exact hc
    · split
      · rw [keepRight_eq_self (fun r hr => by have := h2 r hr; omega)]
        cases l with
        | nil => trivial
        | cons b l => exact ⟨hc.1, hc.2⟩
      · exact ih h3 (coalesced_tail hc)

theorem ordered_map_sub {l : List (Run F)} (o : Nat) (h : ∀ r ∈ l, o ≤ r.bs) (ho : Ordered l) :
    Ordered (l.map fun r => { r with bs := r.bs - o, be := r.be - o }) := by
  constructor
  · intro r hr
    simp only [List.mem_map] at hr
    obtain ⟨a, ha, rfl⟩ := hr
    have := ho.nonempty a ha
    have := h a ha
    simp; omega
  · rw [List.pairwise_map]
    apply ho.sorted.imp
    intro a b; simp; omega

theorem wellFormed_splitRunsLeft {len : Nat} {l : List (Run F)} {o : Nat} (h : WellFormed len l) :
    WellFormed o (splitRunsLeft l o) := by
  rw [splitRunsLeft_eq _ _ h.ordered.nonempty]
  exact ⟨ordered_keepLeft o h.ordered, coalesced_keepLeft h.ordered h.coalesced, keepLeft_le l o⟩

theorem wellFormed_splitRunsRight {len : Nat} {l : List (Run F)} {o : Nat} (h : WellFormed len l) :
    WellFormed (len - o) (splitRunsRight l o) := by
  rw [splitRunsRight_eq _ _ h.ordered.nonempty]
  have ho := ordered_keepRight o h.ordered
  refine ⟨ordered_map_sub o (keepRight_ge l o) ho, ?_, ?_⟩
  · apply coalesced_map _ (by simp) _ ho (coalesced_keepRight h.ordered h.coalesced)
    intro a ha b hb hab hg
    have h1 := keepRight_ge l o a ha
    have h2 := keepRight_ge l o b hb
    have h3 := ho.nonempty a ha
    simp at hg; omega
  · intro r hr
    simp only [List.mem_map] at hr
    obtain ⟨a, ha, rfl⟩ := hr
    obtain ⟨b, hb, h'⟩ := keepRight_mem ha
    have := h.inside b hb
    simp; omega

theorem fmtAt_splitRunsLeft {l : List (Run F)} {o : Nat} (h : Ordered l) (i : Nat) :
    fmtAt (splitRunsLeft l o) i = if i < o then fmtAt l i else none := by
  rw [splitRunsLeft_eq _ _ h.nonempty, fmtAt_keepLeft]

theorem fmtAt_splitRunsRight {l : List (Run F)} {o : Nat} (h : Ordered l) (i : Nat) :
    fmtAt (splitRunsRight l o) i = fmtAt l (o + i) := by
  rw [splitRunsRight_eq _ _ h.nonempty, fmtAt_map_sub _ _ _ (keepRight_ge l o), fmtAt_keepRight,
    if_pos (by omega), Nat.add_comm]

theorem fmtAt_map_rebase (l : List (Run F)) (so eo i : Nat) (h : ∀ r ∈ l, eo ≤ r.bs ∧ r.bs ≤ r.be) :
    fmtAt (l.map fun r => { r with bs := so + (r.bs - eo), be := so + (r.be - eo) }) i =
      if i < so then none else fmtAt l (i - so + eo) := by
  induction l with
  | nil => simp
  | cons a l ih =>
    have ih := ih (fun r hr => h r (by simp [hr]))
    have := h a (by simp)
    simp only [List.map_cons, fmtAt_cons, ih]
    grind

theorem ordered_join_parts {a b : List (Run F)} (so eo : Nat) (ha : Ordered a) (hb : Ordered b) :
    Ordered (keepLeft so a ++
      (keepRight eo b).map fun r => { r with bs := so + (r.bs - eo), be := so + (r.be - eo) }) := by
  rw [ordered_append]
  refine ⟨ordered_keepLeft so ha, ?_, ?_⟩
  · have hr := ordered_keepRight eo hb
    constructor
    · intro r hr'
      simp only [List.mem_map] at hr'
      obtain ⟨x, hx, rfl⟩ := hr'
      have := hr.nonempty x hx
      have := keepRight_ge b eo x hx
      simp; omega
    · rw [List.pairwise_map]
      apply hr.sorted.imp
      intro x y; simp; omega
  · intro x hx y hy
    simp only [List.mem_map] at hy
    obtain ⟨z, hz, rfl⟩ := hy
    have := keepLeft_le a so x hx
    simp; omega

theorem fmtAt_mergeRunsForJoin [DecidableEq F] {a b : List (Run F)} (so eo i : Nat)
    (ha : Ordered a) (hb : Ordered b) :
    fmtAt (mergeRunsForJoin a so b eo) i =
      if i < so then fmtAt a i else fmtAt b (eo + (i - so)) := by
  rw [mergeRunsForJoin, fmtAt_coalesce _ (fun r hr =>
      Nat.le_of_lt ((ordered_join_parts so eo ha hb).nonempty r hr)), fmtAt_append,
    fmtAt_keepLeft, fmtAt_map_rebase _ _ _ _ (fun r hr => ⟨keepRight_ge b eo r hr,
      Nat.le_of_lt ((ordered_keepRight eo hb).nonempty r hr)⟩), fmtAt_keepRight]
  split
  · simp
  · rw [if_pos (by omega)]
    simp [Nat.add_comm]

theorem wellFormed_mergeRunsForJoin [DecidableEq F] {la lb : Nat} {a b : List (Run F)} {so eo : Nat}
    (ha : WellFormed la a) (hb : WellFormed lb b) :
    WellFormed (so + (lb - eo)) (mergeRunsForJoin a so b eo) := by
  refine ⟨ordered_coalesce _ (ordered_join_parts so eo ha.ordered hb.ordered),
    coalesced_coalesce _, ?_⟩
  intro r hr
  obtain ⟨_, ⟨x, hx, hxe⟩⟩ := coalesce_mem _ r hr
  rw [hxe]
  simp only [List.mem_append, List.mem_map] at hx
  rcases hx with hx | ⟨y, hy, rfl⟩
  · have := keepLeft_le a so x hx
    omega
  · obtain ⟨z, hz, h'⟩ := keepRight_mem hy
    have := hb.inside z hz
    simp; omega

end Verif
