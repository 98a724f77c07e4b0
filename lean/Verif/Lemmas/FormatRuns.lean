import Verif.Spec.Formats
namespace Verif
variable {F : Type}

@[simp] theorem fmtAt_nil (i : Nat) : fmtAt ([] : List (Run F)) i = none := rfl

theorem fmtAt_cons (r : Run F) (rs : List (Run F)) (i : Nat) :
    fmtAt (r :: rs) i = if r.bs ≤ i ∧ i < r.be then some r.fmt else fmtAt rs i := by
  by_cases h : r.bs ≤ i ∧ i < r.be <;> simp [fmtAt, h]

theorem fmtAt_append (l m : List (Run F)) (i : Nat) :
    fmtAt (l ++ m) i = (fmtAt l i).or (fmtAt m i) := by
  induction l with
  | nil => simp
  | cons a l ih =>
    simp only [List.cons_append, fmtAt_cons, ih]
    split <;> simp

theorem fmtAt_eq_none {l : List (Run F)} {i : Nat} (h : ∀ r ∈ l, ¬ (r.bs ≤ i ∧ i < r.be)) :
    fmtAt l i = none := by
  induction l with
  | nil => rfl
  | cons a l ih =>
    rw [fmtAt_cons, if_neg (h a (by simp))]
    exact ih fun r hr => h r (by simp [hr])

theorem fmtAt_some_mem {l : List (Run F)} {i : Nat} {f : F} (h : fmtAt l i = some f) :
    ∃ r ∈ l, r.bs ≤ i ∧ i < r.be ∧ r.fmt = f := by
  induction l with
  | nil => simp at h
  | cons a l ih =>
    rw [fmtAt_cons] at h
    split at h
    · exact ⟨a, by simp, by grind⟩
    · obtain ⟨r, hr, h'⟩ := ih h
      exact ⟨r, by simp [hr], h'⟩

theorem fmtAt_keepLeft (s : Nat) (l : List (Run F)) (i : Nat) :
    fmtAt (keepLeft s l) i = if i < s then fmtAt l i else none := by
  induction l with
  | nil => simp [keepLeft]
  | cons a l ih =>
    simp only [keepLeft, List.filterMap_cons] at ih ⊢
    grind [fmtAt_cons]

theorem fmtAt_keepRight (e : Nat) (l : List (Run F)) (i : Nat) :
    fmtAt (keepRight e l) i = if e ≤ i then fmtAt l i else none := by
  induction l with
  | nil => simp [keepRight]
  | cons a l ih =>
    simp only [keepRight, List.filterMap_cons] at ih ⊢
    grind [fmtAt_cons]

theorem fmtAt_captureRuns (l : List (Run F)) (s e i : Nat) :
    fmtAt (captureRuns l s e) i = if s ≤ i ∧ i < e then fmtAt l i else none := by
  induction l with
  | nil => simp [captureRuns]
  | cons a l ih =>
    simp only [captureRuns, List.filterMap_cons] at ih ⊢
    grind [fmtAt_cons]

/-! ### Coalescing -/

theorem coalesce_cons_cons [DecidableEq F] (a b : Run F) (rest : List (Run F)) :
    coalesce (a :: b :: rest) =
      if a.be = b.bs ∧ a.fmt = b.fmt then coalesce ({ a with be := b.be } :: rest)
      else a :: coalesce (b :: rest) := by
  simp only [coalesce, coalesceGo]

/-- Induction following the recursion of `coalesce`. -/
theorem coalesceInduct [DecidableEq F] {motive : List (Run F) → Prop} (l : List (Run F))
    (case1 : motive []) (case2 : ∀ a, motive [a])
    (case3 : ∀ a b rest, (a.be = b.bs ∧ a.fmt = b.fmt) →
      motive ({ a with be := b.be } :: rest) → motive (a :: b :: rest))
    (case4 : ∀ a b rest, ¬ (a.be = b.bs ∧ a.fmt = b.fmt) →
      motive (b :: rest) → motive (a :: b :: rest)) : motive l := by
  cases l with
  | nil => exact case1
  | cons a l =>
    induction l generalizing a with
    | nil => exact case2 a
    | cons b rest ih =>
      by_cases h : a.be = b.bs ∧ a.fmt = b.fmt
      · exact case3 a b rest h (ih _)
      · exact case4 a b rest h (ih _)

theorem fmtAt_coalesce [DecidableEq F] (l : List (Run F)) (h : ∀ r ∈ l, r.bs ≤ r.be) (i : Nat) :
    fmtAt (coalesce l) i = fmtAt l i := by
  induction l using coalesceInduct with
  | case1 => rfl
  | case2 => rfl
  | case3 a b rest hc ih =>
    rw [coalesce_cons_cons, if_pos hc]
    have ha := h a (by simp)
    have hb := h b (by simp)
    rw [ih (by intro r hr; simp at hr; rcases hr with rfl | hr; · simp; omega
               · exact h r (by simp [hr]))]
    simp only [fmtAt_cons]
    grind
  | case4 a b rest hc ih =>
    rw [coalesce_cons_cons, if_neg hc]
    rw [fmtAt_cons, ih (fun r hr => h r (by simp at hr ⊢; grind)), ← fmtAt_cons]

theorem coalesce_head [DecidableEq F] (a : Run F) (l : List (Run F)) :
    ∃ e l', coalesce (a :: l) = { a with be := e } :: l' := by
  induction h : l.length generalizing a l with
  | zero =>
    cases l with
    | nil => exact ⟨a.be, [], rfl⟩
    | cons b l => simp at h
  | succ n ih =>
    cases l with
    | nil => simp at h
    | cons b l =>
      rw [coalesce_cons_cons]
      split
      · obtain ⟨e, l', he⟩ := ih { a with be := b.be } l (by simpa using h)
        exact ⟨e, l', by simpa using he⟩
      · exact ⟨a.be, _, rfl⟩

theorem coalesced_cons {a : Run F} {l : List (Run F)} (h : Coalesced l)
    (hn : ∀ b l', l = b :: l' → ¬ (a.be = b.bs ∧ a.fmt = b.fmt)) : Coalesced (a :: l) := by
  cases l with
  | nil => trivial
  | cons b l => exact ⟨hn b l rfl, h⟩

theorem coalesced_coalesce [DecidableEq F] (l : List (Run F)) : Coalesced (coalesce l) := by
  induction l using coalesceInduct with
  | case1 => trivial
  | case2 => trivial
  | case3 a b rest hc ih =>
    rw [coalesce_cons_cons, if_pos hc]
    exact ih
  | case4 a b rest hc ih =>
    rw [coalesce_cons_cons, if_neg hc]
    refine coalesced_cons ih ?_
    intro c l' hcl
    obtain ⟨e, l'', he⟩ := coalesce_head b rest
    rw [he] at hcl
    simp at hcl
    rw [← hcl.1]
    exact hc

theorem ordered_cons {a : Run F} {l : List (Run F)} :
    Ordered (a :: l) ↔ a.bs < a.be ∧ (∀ b ∈ l, a.be ≤ b.bs) ∧ Ordered l := by
  constructor
  · rintro ⟨h1, h2⟩
    simp at h1 h2
    exact ⟨h1.1, h2.1, ⟨h1.2, h2.2⟩⟩
  · rintro ⟨h1, h2, h3⟩
    exact ⟨by simpa using ⟨h1, h3.nonempty⟩, by simpa using ⟨h2, h3.sorted⟩⟩

theorem ordered_nil : Ordered ([] : List (Run F)) := ⟨by simp, by simp⟩

theorem ordered_append {l m : List (Run F)} :
    Ordered (l ++ m) ↔ Ordered l ∧ Ordered m ∧ ∀ a ∈ l, ∀ b ∈ m, a.be ≤ b.bs := by
  constructor
  · rintro ⟨h1, h2⟩
    rw [List.pairwise_append] at h2
    exact ⟨⟨fun r hr => h1 r (by simp [hr]), h2.1⟩, ⟨fun r hr => h1 r (by simp [hr]), h2.2.1⟩, h2.2.2⟩
  · rintro ⟨⟨h1, h2⟩, ⟨h3, h4⟩, h5⟩
    refine ⟨?_, List.pairwise_append.mpr ⟨h2, h4, h5⟩⟩
    intro r hr
    rcases List.mem_append.mp hr with hr | hr
    · exact h1 r hr
    · exact h3 r hr

theorem coalesce_mem [DecidableEq F] (l : List (Run F)) :
    ∀ r ∈ coalesce l, (∃ a ∈ l, r.bs = a.bs ∧ r.fmt = a.fmt) ∧ (∃ b ∈ l, r.be = b.be) := by
  induction l using coalesceInduct with
  | case1 => simp [coalesce]
  | case2 a => simp [coalesce, coalesceGo]
  | case3 a b rest hc ih =>
    rw [coalesce_cons_cons, if_pos hc]
    intro r hr
    obtain ⟨⟨x, hx, hx'⟩, ⟨y, hy, hy'⟩⟩ := ih r hr
    constructor
    · simp only [List.mem_cons] at hx
      rcases hx with rfl | hx
      · exact ⟨a, by simp, by simpa using hx'⟩
      · exact ⟨x, by simp [hx], hx'⟩
    · simp only [List.mem_cons] at hy
      rcases hy with rfl | hy
      · exact ⟨b, by simp, by simpa using hy'⟩
      · exact ⟨y, by simp [hy], hy'⟩
  | case4 a b rest hc ih =>
    rw [coalesce_cons_cons, if_neg hc]
    intro r hr
    simp only [List.mem_cons] at hr
    rcases hr with rfl | hr
    · exact ⟨⟨r, by simp⟩, ⟨r, by simp⟩⟩
    · obtain ⟨⟨x, hx, hx'⟩, ⟨y, hy, hy'⟩⟩ := ih r hr
      exact ⟨⟨x, by simp at hx ⊢; grind, hx'⟩, ⟨y, by simp at hy ⊢; grind, hy'⟩⟩

theorem ordered_coalesce [DecidableEq F] (l : List (Run F)) (h : Ordered l) :
    Ordered (coalesce l) := by
  induction l using coalesceInduct with
  | case1 => exact h
  | case2 => exact h
  | case3 a b rest hc ih =>
    rw [coalesce_cons_cons, if_pos hc]
    apply ih
    simp only [ordered_cons, List.mem_cons] at h ⊢
    grind
  | case4 a b rest hc ih =>
    rw [coalesce_cons_cons, if_neg hc]
    simp only [ordered_cons] at h ⊢
    refine ⟨h.1, ?_, ih (by simp only [ordered_cons]; exact h.2.2)⟩
    intro r hr
    obtain ⟨⟨x, hx, hx', _⟩, _⟩ := coalesce_mem _ r hr
    rw [hx']
    exact h.2.1 x hx

theorem coalesce_of_coalesced [DecidableEq F] (l : List (Run F)) (h : Coalesced l) :
    coalesce l = l := by
  induction l using coalesceInduct with
  | case1 => rfl
  | case2 => rfl
  | case3 a b rest hc ih =>
    rw [coalesce_cons_cons, if_pos hc]
    exact absurd hc h.1
  | case4 a b rest hc ih =>
    rw [coalesce_cons_cons, if_neg hc]
    rw [ih h.2]

/-! ### Ordered lists and the pieces of `splice_range` -/

theorem keepLeft_mem {s : Nat} {l : List (Run F)} {r : Run F} (h : r ∈ keepLeft s l) :
    ∃ a ∈ l, r.bs = a.bs ∧ r.fmt = a.fmt ∧ r.be = min a.be s ∧ (a.be ≤ s ∨ a.bs < s) := by
  simp only [keepLeft, List.mem_filterMap] at h
  obtain ⟨a, ha, h⟩ := h
  refine ⟨a, ha, ?_⟩
  grind

theorem keepRight_mem {e : Nat} {l : List (Run F)} {r : Run F} (h : r ∈ keepRight e l) :
    ∃ a ∈ l, r.be = a.be ∧ r.fmt = a.fmt ∧ r.bs = max a.bs e ∧ (e ≤ a.bs ∨ e < a.be) := by
  simp only [keepRight, List.mem_filterMap] at h
  obtain ⟨a, ha, h⟩ := h
  refine ⟨a, ha, ?_⟩
  grind

theorem captureRuns_mem {s e : Nat} {l : List (Run F)} {r : Run F} (h : r ∈ captureRuns l s e) :
    ∃ a ∈ l, r.fmt = a.fmt ∧ r.bs = max a.bs s ∧ r.be = min a.be e ∧ r.bs < r.be := by
  simp only [captureRuns, List.mem_filterMap] at h
  obtain ⟨a, ha, h⟩ := h
  refine ⟨a, ha, ?_⟩
  grind

theorem ordered_keepLeft {l : List (Run F)} (s : Nat) (h : Ordered l) : Ordered (keepLeft s l) := by
  constructor
  · intro r hr
    obtain ⟨a, ha, h'⟩ := keepLeft_mem hr
    have := h.nonempty a ha
    grind
  · rw [keepLeft, List.pairwise_filterMap]
    apply h.sorted.imp
    grind

theorem ordered_keepRight {l : List (Run F)} (e : Nat) (h : Ordered l) : Ordered (keepRight e l) := by
  constructor
  · intro r hr
    obtain ⟨a, ha, h'⟩ := keepRight_mem hr
    have := h.nonempty a ha
    grind
  · rw [keepRight, List.pairwise_filterMap]
    have hs := h.sorted
    have hn := h.nonempty
    clear h
    induction l with
    | nil => simp
    | cons a l ih =>
      simp only [List.pairwise_cons] at hs ⊢
      refine ⟨?_, ih hs.2 (fun r hr => hn r (by simp [hr]))⟩
      intro b hb
      have h1 := hs.1 b hb
      have h2 := hn a (by simp)
      have h3 := hn b (by simp [hb])
      grind

theorem ordered_captureRuns {l : List (Run F)} (s e : Nat) (h : Ordered l) :
    Ordered (captureRuns l s e) := by
  constructor
  · intro r hr
    obtain ⟨a, ha, h'⟩ := captureRuns_mem hr
    grind
  · rw [captureRuns, List.pairwise_filterMap]
    apply h.sorted.imp
    grind

/-- Membership in a range. -/
def InRange (s e : Nat) (l : List (Run F)) : Prop := ∀ r ∈ l, s ≤ r.bs ∧ r.be ≤ e

theorem inRange_captureRuns (l : List (Run F)) (s e : Nat) : InRange s e (captureRuns l s e) := by
  intro r hr
  obtain ⟨a, ha, h⟩ := captureRuns_mem hr
  omega

theorem ordered_splice_parts {l rep : List (Run F)} {s e : Nat} (hse : s ≤ e)
    (h : Ordered l) (hr : Ordered rep) (hin : InRange s e rep) :
    Ordered (keepLeft s l ++ rep ++ keepRight e l) := by
  rw [ordered_append, ordered_append]
  refine ⟨⟨ordered_keepLeft s h, hr, ?_⟩, ordered_keepRight e h, ?_⟩
  · intro a ha b hb
    obtain ⟨x, hx, h'⟩ := keepLeft_mem ha
    have := hin b hb
    omega
  · intro a ha b hb
    obtain ⟨y, hy, hy'⟩ := keepRight_mem hb
    rcases List.mem_append.mp ha with ha | ha
    · obtain ⟨x, hx, h'⟩ := keepLeft_mem ha
      omega
    · have := hin a ha
      omega

/-! ### `splice_range` -/

theorem fmtAt_spliceRange [DecidableEq F] (l rep : List (Run F)) (s e i : Nat) (hse : s ≤ e)
    (hl : ∀ r ∈ l, r.bs ≤ r.be) (hrep : ∀ r ∈ rep, r.bs ≤ r.be) (hin : InRange s e rep) :
    fmtAt (spliceRange l s e rep) i =
      if s ≤ i ∧ i < e then fmtAt rep i else fmtAt l i := by
  rw [spliceRange, fmtAt_coalesce, fmtAt_append, fmtAt_append, fmtAt_keepLeft, fmtAt_keepRight]
  · by_cases h1 : i < s
    · have : fmtAt rep i = none := fmtAt_eq_none fun r hr => by have := hin r hr; omega
      have h2 : ¬ e ≤ i := by omega
      have h3 : ¬ (s ≤ i ∧ i < e) := by omega
      rw [if_pos h1, if_neg h2, if_neg h3, this]
      simp
    · by_cases h2 : e ≤ i
      · have : fmtAt rep i = none := fmtAt_eq_none fun r hr => by have := hin r hr; omega
        have h3 : ¬ (s ≤ i ∧ i < e) := by omega
        rw [if_neg h1, if_pos h2, if_neg h3, this]
        simp
      · rw [if_neg h1, if_neg h2, if_pos (by omega)]
        simp
  · intro r hr
    simp only [List.mem_append] at hr
    rcases hr with (hr | hr) | hr
    · obtain ⟨a, ha, h'⟩ := keepLeft_mem hr
      have := hl a ha
      omega
    · exact hrep r hr
    · obtain ⟨a, ha, h'⟩ := keepRight_mem hr
      have := hl a ha
      omega

theorem wellFormed_spliceRange [DecidableEq F] {n : Nat} {l rep : List (Run F)} {s e : Nat}
    (hse : s ≤ e) (hen : e ≤ n) (h : Ordered l) (hn : ∀ r ∈ l, r.be ≤ n)
    (hr : Ordered rep) (hin : InRange s e rep) :
    WellFormed n (spliceRange l s e rep) := by
  refine ⟨ordered_coalesce _ (ordered_splice_parts hse h hr hin), coalesced_coalesce _, ?_⟩
  intro r hr'
  obtain ⟨_, ⟨b, hb, hbe⟩⟩ := coalesce_mem _ r hr'
  rw [hbe]
  simp only [List.mem_append] at hb
  rcases hb with (hb | hb) | hb
  · obtain ⟨a, ha, h'⟩ := keepLeft_mem hb
    have := hn a ha
    omega
  · have := hin b hb
    omega
  · obtain ⟨a, ha, h'⟩ := keepRight_mem hb
    have := hn a ha
    omega

/-! ### Canonicity: a well-formed table is determined by its pointwise meaning -/

theorem fmtAt_of_lt {l : List (Run F)} {i k : Nat} (h : ∀ r ∈ l, k ≤ r.bs) (hi : i < k) :
    fmtAt l i = none :=
  fmtAt_eq_none fun r hr => by have := h r hr; omega

theorem wf_ext {l m : List (Run F)} (hl : Ordered l) (hm : Ordered m)
    (cl : Coalesced l) (cm : Coalesced m) (h : ∀ i, fmtAt l i = fmtAt m i) : l = m := by
  induction l generalizing m with
  | nil =>
    cases m with
    | nil => rfl
    | cons b m =>
      have := h b.bs
      have hb := (ordered_cons.mp hm).1
      simp [fmtAt_cons, hb] at this
  | cons a l ih =>
    cases m with
    | nil =>
      have := h a.bs
      have ha := (ordered_cons.mp hl).1
      simp [fmtAt_cons, ha] at this
    | cons b m =>
      obtain ⟨ha, hal, hl'⟩ := ordered_cons.mp hl
      obtain ⟨hb, hbm, hm'⟩ := ordered_cons.mp hm
      have hbs : a.bs = b.bs := by
        rcases Nat.lt_trichotomy a.bs b.bs with hlt | heq | hgt
        · have h1 := h a.bs
          rw [fmtAt_cons, if_pos (by omega)] at h1
          rw [fmtAt_of_lt (k := b.bs) (by intro r hr; simp at hr; rcases hr with rfl | hr
                                          · omega
                                          · have := hbm r hr; omega) hlt] at h1
          simp at h1
        · exact heq
        · have h1 := h b.bs
          rw [fmtAt_cons (r := b), if_pos (by omega)] at h1
          rw [fmtAt_of_lt (k := a.bs) (by intro r hr; simp at hr; rcases hr with rfl | hr
                                          · omega
                                          · have := hal r hr; omega) hgt] at h1
          simp at h1
      have hfmt : a.fmt = b.fmt := by
        have h1 := h a.bs
        rw [fmtAt_cons, if_pos (by omega), fmtAt_cons, if_pos (by omega)] at h1
        exact Option.some.inj h1
      have key : ∀ {x y : Run F} {l m : List (Run F)}, (∀ c ∈ l, x.be ≤ c.bs) → Ordered l →
          Coalesced (x :: l) → x.bs = y.bs → x.fmt = y.fmt → x.bs < x.be → x.be < y.be →
          (∀ i, fmtAt (x :: l) i = fmtAt (y :: m) i) → False := by
        intro x y l m hxl hol hc hbs hf hx hlt h
        have h1 := h x.be
        rw [fmtAt_cons, if_neg (by omega), fmtAt_cons, if_pos (by omega)] at h1
        cases l with
        | nil => simp at h1
        | cons c l =>
          have hc1 := hxl c (by simp)
          obtain ⟨hcc, hcl, hol'⟩ := ordered_cons.mp hol
          rw [fmtAt_cons] at h1
          split at h1
          · have : x.be = c.bs := by omega
            have hcf : c.fmt = y.fmt := Option.some.inj h1
            exact hc.1 ⟨this, by rw [hf, hcf]⟩
          · rw [fmtAt_of_lt (k := c.be) hcl (by omega)] at h1
            simp at h1
      have hbe : a.be = b.be := by
        rcases Nat.lt_trichotomy a.be b.be with hlt | heq | hgt
        · exact (key hal hl' cl hbs hfmt ha hlt h).elim
        · exact heq
        · exact (key hbm hm' cm hbs.symm hfmt.symm hb hgt (fun i => (h i).symm)).elim
      have hab : a = b := by
        cases a; cases b; simp_all
      subst hab
      have htail : l = m := by
        apply ih hl' hm'
        · cases l with
          | nil => trivial
          | cons c l => exact cl.2
        · cases m with
          | nil => trivial
          | cons c m => exact cm.2
        · intro i
          have h1 := h i
          rw [fmtAt_cons, fmtAt_cons] at h1
          split at h1
          · rw [fmtAt_eq_none fun r hr => by have := hal r hr; omega,
              fmtAt_eq_none fun r hr => by have := hbm r hr; omega]
          · exact h1
      rw [htail]

end Verif
