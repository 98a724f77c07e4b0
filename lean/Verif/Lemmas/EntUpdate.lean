import Verif.Lemmas.EntCreate
/-
Updating entities, and writing back what they were.
-/
namespace Verif

theorem keep_left (k : EKind) (a b c : Ent k) : keepEnt k (keepEnt k a b) c = keepEnt k a c := by
  cases k <;> rfl
theorem keep_right (k : EKind) (a b c : Ent k) : keepEnt k a (keepEnt k b c) = keepEnt k a c := by
  cases k <;> rfl
theorem keep_self (k : EKind) (a : Ent k) : keepEnt k a a = a := by cases k <;> rfl
theorem entId_keep (k : EKind) (a b : Ent k) : entId k (keepEnt k a b) = entId k a := by cases k <;> rfl

/-- Two stores that differ in the entities `ids` only, which both have; with the same relationships
unless `rels`. -/
structure Differ (rels : Bool) (k : EKind) (ids : List Nat) (s t : Store) : Prop where
  keys : (t.tab k).keys = (s.tab k).keys
  at_ : ∀ i ∈ ids, ∃ e f, s.tab k i = some e ∧ t.tab k i = some f ∧ entId k e = i ∧ entId k f = i ∧
    (rels = false → keepEnt k e f = e ∧ keepEnt k f e = f)
  off : ∀ i, i ∉ ids → t.tab k i = s.tab k i
  others : ∀ k', k' ≠ k → t.tab k' = s.tab k'
  runs : t.formatRuns = s.formatRuns
  images : t.blockImages = s.blockImages
  rope : t.rope = s.rope
  offsets : t.blockOffsets = s.blockOffsets

variable {rels : Bool} {k : EKind} {ids : List Nat} {s t : Store}

theorem Differ.symm (h : Differ rels k ids s t) : Differ rels k ids t s where
  keys := h.keys.symm
  at_ i hi := by
    obtain ⟨e, f, a, b, c, d, g⟩ := h.at_ i hi
    exact ⟨f, e, b, a, d, c, fun hr => (g hr).symm⟩
  off i hi := (h.off i hi).symm
  others k' hk := (h.others k' hk).symm
  runs := h.runs.symm
  images := h.images.symm
  rope := h.rope.symm
  offsets := h.offsets.symm

theorem Differ.nil (h : Differ rels k [] s t) : t.content = s.content := by
  refine Store.content_ext h.rope (fun k' => ?_) h.runs h.images h.offsets
  by_cases hk : k' = k
  · subst hk
    exact IdMap.ext' h.keys fun i => h.off i (by simp)
  · exact h.others k' hk

theorem Differ.refl (h : ∀ i ∈ ids, ∃ e, s.tab k i = some e ∧ entId k e = i) : Differ rels k ids s s where
  keys := rfl
  at_ i hi := by
    obtain ⟨e, a, b⟩ := h i hi
    exact ⟨e, e, a, a, b, b, fun _ => ⟨keep_self k e, keep_self k e⟩⟩
  off _ _ := rfl
  others _ _ := rfl
  runs := rfl
  images := rfl
  rope := rfl
  offsets := rfl

/-- One of the entities is written. -/
theorem Differ.write {i : Nat} {e f : Ent k} (h : Differ rels k ids s t) (hi : i ∈ ids)
    (he : s.tab k i = some e) (hf : entId k f = i)
    (hk : rels = false → keepEnt k e f = e ∧ keepEnt k f e = f) :
    Differ rels k ids s (t.withTab k ((t.tab k).insert i f)) := by
  obtain ⟨e0, f0, a, b, c, _, _⟩ := h.at_ i hi
  rw [he] at a; cases a
  obtain ⟨r1, r2, r3, r4⟩ := withTab_rest t k ((t.tab k).insert i f)
  refine ⟨?_, ?_, ?_, ?_, r1.trans h.runs, r2.trans h.images, r3.trans h.rope, r4.trans h.offsets⟩
  · rw [Store.tab_withTab]
    simp [IdMap.insert, b, h.keys]
  · intro j hj
    by_cases hji : j = i
    · subst hji
      exact ⟨e, f, he, by rw [Store.tab_withTab]; simp [IdMap.insert], c, hf, hk⟩
    · obtain ⟨e1, f1, a1, b1, c1⟩ := h.at_ j hj
      exact ⟨e1, f1, a1, by rw [Store.tab_withTab]; simpa [IdMap.insert, hji] using b1, c1⟩
  · intro j hj
    rw [Store.tab_withTab]
    simp only [IdMap.insert]
    rw [if_neg (by rintro rfl; exact hj hi)]
    exact h.off j hj
  · intro k' hk'
    rw [Store.tab_withTab_ne _ _ hk']; exact h.others k' hk'

/-- One of the entities becomes what it is in `s`. -/
theorem Differ.one {i : Nat} {e : Ent k} (h : Differ rels k (i :: ids) s t) (he : s.tab k i = some e) :
    Differ rels k ids s (t.withTab k ((t.tab k).insert i e)) := by
  obtain ⟨e0, f0, a, b, c, _, _⟩ := h.at_ i (.head _)
  rw [he] at a; cases a
  obtain ⟨r1, r2, r3, r4⟩ := withTab_rest t k ((t.tab k).insert i e)
  refine ⟨?_, ?_, ?_, ?_, r1.trans h.runs, r2.trans h.images, r3.trans h.rope, r4.trans h.offsets⟩
  · rw [Store.tab_withTab]
    simp [IdMap.insert, b, h.keys]
  · intro j hj
    by_cases hji : j = i
    · subst hji
      exact ⟨e, e, he, by rw [Store.tab_withTab]; simp [IdMap.insert], c, c,
        fun _ => ⟨keep_self k e, keep_self k e⟩⟩
    · obtain ⟨e1, f1, a1, b1, c1⟩ := h.at_ j (.tail _ hj)
      exact ⟨e1, f1, a1, by rw [Store.tab_withTab]; simpa [IdMap.insert, hji] using b1, c1⟩
  · intro j hj
    rw [Store.tab_withTab]
    simp only [IdMap.insert]
    split
    · rename_i hh; rw [hh, he]
    · rename_i hh
      exact h.off j (by simp [hh, hj])
  · intro k' hk'
    rw [Store.tab_withTab_ne _ _ hk']; exact h.others k' hk'

theorem writeEnts_cons (rels : Bool) (k : EKind) (e : Ent k) (es : List (Ent k)) (t : Store) :
    t.writeEnts rels k (e :: es) = (if rels then t.withTab k ((t.tab k).insert (entId k e) e)
      else Store.updateOne k t e).writeEnts rels k es := by
  cases rels <;> rfl

theorem writeEnts_nil (rels : Bool) (k : EKind) (t : Store) : t.writeEnts rels k [] = t := by
  cases rels <;> rfl

/-- Writing back what the entities were in `s` gives `s`. -/
theorem Differ.back : ∀ (ids : List Nat) (t : Store), Differ rels k ids s t →
    (t.writeEnts rels k (s.entsOf k ids)).content = s.content := by
  intro ids
  induction ids with
  | nil => intro t h; simp only [Store.entsOf, List.filterMap_nil, writeEnts_nil]; exact h.nil
  | cons i ids ih =>
    intro t h
    obtain ⟨e, f, a, b, c, d, g⟩ := h.at_ i (.head _)
    have : s.entsOf k (i :: ids) = e :: s.entsOf k ids := by simp [Store.entsOf, a]
    rw [this, writeEnts_cons, c]
    have h' := ih _ (h.one a)
    cases rels with
    | true => exact h'
    | false =>
      have : Store.updateOne k t e = t.withTab k ((t.tab k).insert i e) := by
        simp only [Store.updateOne, c, b, (g rfl).1]
      simp only [Bool.false_eq_true, if_false, this]
      exact h'

theorem writeEnts_counters (rels : Bool) (k : EKind) : ∀ (es : List (Ent k)) (t : Store),
    (t.writeEnts rels k es).counters = t.counters := by
  intro es
  induction es with
  | nil => intro t; rw [writeEnts_nil]
  | cons e es ih =>
    intro t
    rw [writeEnts_cons, ih]
    cases rels
    · simp only [Bool.false_eq_true, if_false, Store.updateOne, Store.withTab_counters]
    · simp only [if_true, Store.withTab_counters]

theorem writeEnts_over (rels : Bool) (k : EKind) (g : Store) : ∀ (es : List (Ent k)) (t : Store),
    (g.over t).writeEnts rels k es = g.over (t.writeEnts rels k es) := by
  intro es
  induction es with
  | nil => intro t; simp only [writeEnts_nil]
  | cons e es ih =>
    intro t
    rw [writeEnts_cons, writeEnts_cons, ← ih]
    cases rels
    · simp only [Bool.false_eq_true, if_false, Store.updateOne, Store.over_tab, Store.over_withTab]
    · simp only [if_true, Store.over_tab, Store.over_withTab]

theorem entsOf_ids (h : ∀ i ∈ ids, ∃ e, s.tab k i = some e ∧ entId k e = i) :
    (s.entsOf k ids).map (entId k) = ids := by
  induction ids with
  | nil => rfl
  | cons i ids ih =>
    obtain ⟨e, a, b⟩ := h i (.head _)
    have : s.entsOf k (i :: ids) = e :: s.entsOf k ids := by simp [Store.entsOf, a]
    rw [this, List.map_cons, b, ih fun j hj => h j (.tail _ hj)]

/-- What an update does. -/
theorem writeEnts_differ (es : List (Ent k)) (hsub : ∀ e ∈ es, entId k e ∈ ids)
    (hr : ∀ e ∈ es, ∀ o, s.tab k (entId k e) = some o → RefsOk s k (if rels then e else keepEnt k e o)) :
    ∀ t, Differ rels k ids s t → (∀ i f, t.tab k i = some f → RefsOk s k f) →
      Differ rels k ids s (t.writeEnts rels k es) ∧
      ∀ i f, (t.writeEnts rels k es).tab k i = some f → RefsOk s k f := by
  induction es with
  | nil => intro t h h'; rw [writeEnts_nil]; exact ⟨h, h'⟩
  | cons e es ih =>
    intro t h h'
    rw [writeEnts_cons]
    obtain ⟨o, f, a, b, c, d, g⟩ := h.at_ _ (hsub e (.head _))
    have hq := hr e (.head _) o a
    have main : ∀ v : Ent k, entId k v = entId k e → (rels = false → keepEnt k o v = o ∧ keepEnt k v o = v) →
        RefsOk s k v →
        Differ rels k ids s (t.withTab k ((t.tab k).insert (entId k e) v)) ∧
        ∀ i f, (t.withTab k ((t.tab k).insert (entId k e) v)).tab k i = some f → RefsOk s k f := by
      intro v hv hk hrv
      refine ⟨h.write (hsub e (.head _)) a hv hk, ?_⟩
      intro i x hx
      rw [Store.tab_withTab] at hx
      simp only [IdMap.insert] at hx
      split at hx
      · cases hx; exact hrv
      · exact h' i x hx
    cases rels with
    | true =>
      simp only [if_true] at hq ⊢
      obtain ⟨m1, m2⟩ := main e rfl (by simp) hq
      exact ih (fun x hx => hsub x (.tail _ hx)) (fun x hx => hr x (.tail _ hx)) _ m1 m2
    | false =>
      simp only [Bool.false_eq_true, if_false] at hq ⊢
      obtain ⟨g1, g2⟩ := g rfl
      have hkeep : keepEnt k e f = keepEnt k e o := by rw [← g2, keep_right]
      have : Store.updateOne k t e = t.withTab k ((t.tab k).insert (entId k e) (keepEnt k e o)) := by
        simp only [Store.updateOne, b, hkeep]
      rw [this]
      obtain ⟨m1, m2⟩ := main (keepEnt k e o) (entId_keep k e o)
        (fun _ => ⟨by rw [keep_right, keep_self], by rw [keep_left]⟩) hq
      exact ih (fun x hx => hsub x (.tail _ hx)) (fun x hx => hr x (.tail _ hx)) _ m1 m2

theorem Differ.isSome (h : Differ rels k ids s t) (k' : EKind) (i : Nat) :
    (t.tab k' i).isSome = (s.tab k' i).isSome := by
  by_cases hk : k' = k
  · subst hk
    by_cases hi : i ∈ ids
    · obtain ⟨e, f, a, b, _⟩ := h.at_ i hi
      simp [a, b]
    · rw [h.off i hi]
  · rw [h.others k' hk]

theorem Differ.tidy (hk : k ≠ .root) (hs : Tidy s) (h : Differ rels k ids s t)
    (hr : ∀ i f, t.tab k i = some f → RefsOk s k f) : Tidy t := by
  have hm : ∀ k' i, (s.tab k' i).isSome = true → (t.tab k' i).isSome = true := fun k' i hi => by
    rw [h.isSome]; exact hi
  refine ⟨?_, ?_, ?_, ?_, ?_, ?_⟩
  · intro k' i x hx
    by_cases hkk : k' = k
    · subst hkk
      by_cases hi : i ∈ ids
      · obtain ⟨e, f, a, b, c, d, _⟩ := h.at_ i hi
        rw [b] at hx; cases hx; exact d
      · rw [h.off i hi] at hx; exact hs.keyed k' i x hx
    · rw [h.others k' hkk] at hx; exact hs.keyed k' i x hx
  · intro k'
    have := h.isSome k' 0
    rw [hs.positive] at this
    simpa using this
  · intro k' i x hx
    by_cases hkk : k' = k
    · subst hkk; exact (hr i x hx).mono hm
    · rw [h.others k' hkk] at hx; exact (hs.refs k' i x hx).mono hm
  · intro i hi
    rw [h.runs] at hi; exact hm .block i (hs.runs i hi)
  · intro i hi
    rw [h.images] at hi; exact hm .block i (hs.images i hi)
  · have : t.roots = s.roots := h.others .root (Ne.symm hk)
    rw [this]; exact hs.sole

theorem Differ.ahead (h : Differ rels k ids s t) (hn : t.counters = s.counters) (ha : Ahead s) :
    Ahead t := by
  intro k'
  rw [hn]
  exact ⟨(ha k').1, fun i hi => (ha k').2 i (by rwa [h.isSome] at hi)⟩

end Verif
