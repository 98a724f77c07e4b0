import Verif.Lemmas.EntContent
/-
Creating entities, and taking away what was created.
-/
namespace Verif

namespace Store

/-- The entities are put into their table, one after the other. -/
def addAll (k : EKind) : List (Ent k) → Store → Store
  | [], s => s
  | e :: es, s => addAll k es (s.withTab k ((s.tab k).insert (entId k e) e))

theorem addAll_over (f : Store) (k : EKind) : ∀ (es : List (Ent k)) (s : Store),
    addAll k es (f.over s) = f.over (addAll k es s) := by
  intro es
  induction es with
  | nil => intro s; rfl
  | cons e es ih => intro s; simp only [addAll, over_tab, over_withTab, ih]

theorem soleDoc_other {k : EKind} (hk : k ≠ .root) (s : Store) (i : Nat) (e : Ent k) :
    s.soleDoc i (rootDoc k e) = true := by
  cases k <;> first | exact absurd rfl hk | simp [rootDoc, soleDoc]

theorem insertNew_again {k : EKind} (hk : k ≠ .root) {s : Store} {e : Ent k} (h0 : entId k e ≠ 0)
    (hn : s.tab k (entId k e) = none) :
    s.insertNew k e = some (e, s.withTab k ((s.tab k).insert (entId k e) e)) := by
  simp [insertNew, h0, hn, soleDoc_other hk]

theorem insertNews_again {k : EKind} (hk : k ≠ .root) : ∀ (es : List (Ent k)) (s : Store),
    (es.map (entId k)).Nodup → (∀ e ∈ es, entId k e ≠ 0 ∧ s.tab k (entId k e) = none) →
    insertNews k es s = some (es, addAll k es s) := by
  intro es
  induction es with
  | nil => intro s _ _; rfl
  | cons e es ih =>
    intro s hnd h
    rw [List.map_cons, List.nodup_cons] at hnd
    obtain ⟨h0, hn⟩ := h e (.head _)
    simp only [insertNews, insertNew_again hk h0 hn, Option.bind_some]
    rw [ih _ hnd.2]
    · rfl
    · intro e' he'
      refine ⟨(h e' (.tail _ he')).1, ?_⟩
      rw [tab_withTab]
      simp only [IdMap.insert]
      rw [if_neg]
      · exact (h e' (.tail _ he')).2
      · intro heq
        exact hnd.1 (heq ▸ List.mem_map_of_mem he')

end Store

theorem entId_withId (k : EKind) (e : Ent k) (i : Nat) : entId k (entWithId k e i) = i := by
  cases k <;> rfl
theorem owns_withId (k : EKind) (e : Ent k) (i : Nat) : owns k (entWithId k e i) = owns k e := by
  cases k <;> rfl
theorem mentions_withId (k : EKind) (e : Ent k) (i : Nat) :
    mentions k (entWithId k e i) = mentions k e := by cases k <;> rfl
theorem orders_withId (k : EKind) (e : Ent k) (i : Nat) (h : OrdersOwn k e) :
    OrdersOwn k (entWithId k e i) := by cases k <;> exact h

theorem RefsOk.withId {s : Store} {k : EKind} {e : Ent k} (h : RefsOk s k e) (i : Nat) :
    RefsOk s k (entWithId k e i) :=
  ⟨by rw [owns_withId]; exact h.owns, by rw [mentions_withId]; exact h.mentions,
    orders_withId k e i h.orders⟩

theorem RefsOk.mono {s t : Store} (h : ∀ k i, (s.tab k i).isSome = true → (t.tab k i).isSome = true)
    {k : EKind} {e : Ent k} (hr : RefsOk s k e) : RefsOk t k e :=
  ⟨fun p hp => h _ _ (hr.owns p hp), fun p hp => h _ _ (hr.mentions p hp), hr.orders⟩

/-- `t` is `s` with the new entities `es`. -/
structure Added (s : Store) (k : EKind) (es : List (Ent k)) (t : Store) : Prop where
  keys : (t.tab k).keys = (s.tab k).keys ++ es.map (entId k)
  old : ∀ i, i ∉ es.map (entId k) → t.tab k i = s.tab k i
  new : ∀ e ∈ es, t.tab k (entId k e) = some e
  others : ∀ k', k' ≠ k → t.tab k' = s.tab k'
  runs : t.formatRuns = s.formatRuns
  images : t.blockImages = s.blockImages
  rope : t.rope = s.rope
  offsets : t.blockOffsets = s.blockOffsets

theorem withTab_rest (s : Store) (k : EKind) (m : IdMap (Ent k)) :
    (s.withTab k m).formatRuns = s.formatRuns ∧ (s.withTab k m).blockImages = s.blockImages ∧
    (s.withTab k m).rope = s.rope ∧ (s.withTab k m).blockOffsets = s.blockOffsets := by
  cases k <;> exact ⟨rfl, rfl, rfl, rfl⟩

theorem addAll_added (k : EKind) : ∀ (es : List (Ent k)) (s : Store), (es.map (entId k)).Nodup →
    (∀ e ∈ es, s.tab k (entId k e) = none) → Added s k es (Store.addAll k es s) := by
  intro es
  induction es with
  | nil => intro s _ _; exact ⟨by simp [Store.addAll], by simp [Store.addAll], by simp, by simp [Store.addAll],
      rfl, rfl, rfl, rfl⟩
  | cons e es ih =>
    intro s hnd h
    rw [List.map_cons, List.nodup_cons] at hnd
    have hn := h e (.head _)
    have := ih (s.withTab k ((s.tab k).insert (entId k e) e)) hnd.2 (by
      intro e' he'
      rw [Store.tab_withTab]
      simp only [IdMap.insert]
      rw [if_neg]
      · exact h e' (.tail _ he')
      · intro heq
        exact hnd.1 (heq ▸ List.mem_map_of_mem he'))
    obtain ⟨r1, r2, r3, r4⟩ := withTab_rest s k ((s.tab k).insert (entId k e) e)
    refine ⟨?_, ?_, ?_, ?_, this.runs.trans r1, this.images.trans r2, this.rope.trans r3,
      this.offsets.trans r4⟩
    · simp only [Store.addAll]
      rw [this.keys, Store.tab_withTab]
      simp [IdMap.insert, hn]
    · intro i hi
      simp only [List.map_cons, List.mem_cons, not_or] at hi
      simp only [Store.addAll]
      rw [this.old i hi.2, Store.tab_withTab]
      simp [IdMap.insert, hi.1]
    · intro e' he'
      simp only [Store.addAll]
      rcases List.mem_cons.mp he' with rfl | he'
      · rw [this.old _ hnd.1, Store.tab_withTab]
        simp [IdMap.insert]
      · exact this.new e' he'
    · intro k' hk'
      simp only [Store.addAll]
      rw [this.others k' hk', Store.tab_withTab_ne _ _ hk']

/-- What is needed of the new entities: new ids, nothing owned yet, references to what exists. -/
structure Fresh (s : Store) (k : EKind) (es : List (Ent k)) : Prop where
  nodup : (es.map (entId k)).Nodup
  pos : ∀ e ∈ es, entId k e ≠ 0
  absent : ∀ e ∈ es, s.tab k (entId k e) = none
  refs : ∀ e ∈ es, RefsOk s k e
  bare : ∀ e ∈ es, owns k e = []

theorem Fresh.congr {s t : Store} (hc : s.content = t.content) {k : EKind} {es : List (Ent k)}
    (h : Fresh s k es) : Fresh t k es :=
  ⟨h.nodup, h.pos, fun e he => Store.tab_of_content hc k ▸ h.absent e he,
    fun e he => (h.refs e he).congr (Store.tab_of_content hc), h.bare⟩

theorem Added.congr {s s' t t' : Store} {k : EKind} {es : List (Ent k)} (hs : s.content = s'.content)
    (ht : t.content = t'.content) (h : Added s k es t) : Added s' k es t' := by
  have hr := Store.eq_over ht
  have hr' := Store.eq_over hs
  rw [hr, hr'] at h
  have a := Store.over_tab t t'
  have b := Store.over_tab s s'
  obtain ⟨h1, h2, h3, h4, h5, h6, h7, h8⟩ := h
  simp only [a, b] at h1 h2 h3 h4
  exact ⟨h1, h2, h3, h4, h5, h6, h7, h8⟩

theorem Added.isSome {s t : Store} {k : EKind} {es : List (Ent k)} (h : Added s k es t) {k' : EKind}
    {i : Nat} (hi : (s.tab k' i).isSome = true) : (t.tab k' i).isSome = true := by
  by_cases hk : k' = k
  · subst hk
    by_cases hm : i ∈ es.map (entId k')
    · obtain ⟨e, he, rfl⟩ := List.mem_map.mp hm
      simp [h.new e he]
    · rw [h.old i hm]; exact hi
  · rw [h.others k' hk]; exact hi

theorem Added.get {s t : Store} {k : EKind} {es : List (Ent k)} (h : Added s k es t) {k' : EKind}
    {i : Nat} {e : Ent k'} (he : t.tab k' i = some e) :
    s.tab k' i = some e ∨ ∃ hk : k' = k, ∃ f ∈ es, entId k f = i ∧ hk ▸ e = f := by
  by_cases hk : k' = k
  · subst hk
    by_cases hm : i ∈ es.map (entId k')
    · obtain ⟨f, hf, rfl⟩ := List.mem_map.mp hm
      rw [h.new f hf] at he
      cases he
      exact .inr ⟨rfl, e, hf, rfl, rfl⟩
    · rw [h.old i hm] at he; exact .inl he
  · rw [h.others k' hk] at he; exact .inl he

theorem Added.tidy {s t : Store} {k : EKind} {es : List (Ent k)} (hk : k ≠ .root) (hs : Tidy s)
    (hf : Fresh s k es) (h : Added s k es t) : Tidy t := by
  refine ⟨?_, ?_, ?_, ?_, ?_, ?_⟩
  · intro k' i e he
    rcases h.get he with h1 | ⟨rfl, f, _, h2, rfl⟩
    · exact hs.keyed k' i e h1
    · exact h2
  · intro k'
    cases he : t.tab k' 0 with
    | none => rfl
    | some e =>
      rcases h.get he with h1 | ⟨rfl, f, h2, h3, rfl⟩
      · rw [hs.positive] at h1; cases h1
      · exact absurd h3 (hf.pos _ h2)
  · intro k' i e he
    rcases h.get he with h1 | ⟨rfl, f, h2, _, rfl⟩
    · exact (hs.refs k' i e h1).mono fun _ _ => h.isSome
    · exact (hf.refs _ h2).mono fun _ _ => h.isSome
  · intro i hi
    rw [h.runs] at hi
    exact h.isSome (k' := .block) (hs.runs i hi)
  · intro i hi
    rw [h.images] at hi
    exact h.isSome (k' := .block) (hs.images i hi)
  · have : t.roots = s.roots := h.others .root (Ne.symm hk)
    rw [this]
    exact hs.sole

/-- Only what was created goes when it is removed. -/
theorem Goes.bare {s : Store} {k : EKind} {ids : List Nat}
    (hb : ∀ i ∈ ids, ∀ e, s.tab k i = some e → owns k e = []) {k' : EKind} {i : Nat}
    (h : Goes s k ids k' i) : k' = k ∧ i ∈ ids := by
  induction h with
  | self hi => exact ⟨rfl, hi⟩
  | owned _ he hp ih =>
    obtain ⟨rfl, hi⟩ := ih
    rw [hb _ hi _ he] at hp
    cases hp

/-- A removal of entities that own nothing: exactly those go. -/
theorem removeEnts_bare {s : Store} (hs : Tidy s) {k : EKind} {ids : List Nat} (h0 : 0 ∉ ids)
    (hb : ∀ i ∈ ids, ∀ e, s.tab k i = some e → owns k e = []) :
    ∃ t g, s.removeEnts k ids = some t ∧ Forgot g s t ∧
      ∀ k' i, i ≠ 0 → (g k' i = true ↔ k' = k ∧ i ∈ ids) := by
  obtain ⟨g, t, e, r⟩ := removeEnts_spec hs k ids
  refine ⟨t, g, e, r.forgot, ?_⟩
  intro k' i hi
  rw [r.iff k' i hi]
  constructor
  · exact Goes.bare hb
  · rintro ⟨rfl, h⟩; exact .self h

/-- The id counter of one kind is set. -/
def Store.withCounters (s : Store) (c : String → Option Nat) : Store := { s with counters := c }

theorem withCounters_tab (s : Store) (c : String → Option Nat) (k : EKind) :
    (s.withCounters c).tab k = s.tab k := by cases k <;> rfl

theorem withCounters_content (s : Store) (c : String → Option Nat) :
    (s.withCounters c).content = s.content := rfl

theorem withTab_withCounters (s : Store) (c : String → Option Nat) (k : EKind) (m : IdMap (Ent k)) :
    (s.withCounters c).withTab k m = (s.withTab k m).withCounters c := by cases k <;> rfl

/-- No counter went back. -/
def CountersLe (c c' : String → Option Nat) : Prop := ∀ k : EKind, (c k.counter).getD 1 ≤ (c' k.counter).getD 1

theorem counter_inj {k k' : EKind} (h : k.counter = k'.counter) : k = k' := by
  cases k <;> cases k' <;> first | rfl | (simp [EKind.counter] at h)

theorem Fresh.cons {s : Store} {k : EKind} {e : Ent k} {es : List (Ent k)}
    (h0 : entId k e ≠ 0) (hn : s.tab k (entId k e) = none) (hr : RefsOk s k e) (ho : owns k e = [])
    (hm : ∀ f ∈ es, RefsOk s k f)
    (h : Fresh (s.withTab k ((s.tab k).insert (entId k e) e)) k es) : Fresh s k (e :: es) := by
  have hne : ∀ f ∈ es, entId k f ≠ entId k e ∧ s.tab k (entId k f) = none := by
    intro f hf
    have := h.absent f hf
    rw [Store.tab_withTab] at this
    simp only [IdMap.insert] at this
    split at this
    · cases this
    · rename_i hh; exact ⟨hh, this⟩
  refine ⟨?_, ?_, ?_, ?_, ?_⟩
  · rw [List.map_cons, List.nodup_cons]
    refine ⟨?_, h.nodup⟩
    intro hmem
    obtain ⟨f, hf, he⟩ := List.mem_map.mp hmem
    exact (hne f hf).1 he
  · intro f hf
    rcases List.mem_cons.mp hf with rfl | hf
    · exact h0
    · exact h.pos f hf
  · intro f hf
    rcases List.mem_cons.mp hf with rfl | hf
    · exact hn
    · exact (hne f hf).2
  · intro f hf
    rcases List.mem_cons.mp hf with rfl | hf
    · exact hr
    · exact hm f hf
  · intro f hf
    rcases List.mem_cons.mp hf with rfl | hf
    · exact ho
    · exact h.bare f hf

/-- Creating entities without id: they get the next ids. -/
theorem insertNews_new {k : EKind} (hk : k ≠ .root) : ∀ (es : List (Ent k)) (s : Store), Ahead s →
    (∀ e ∈ es, entId k e = 0 ∧ owns k e = [] ∧ RefsOk s k e) →
    ∃ es' c, Store.insertNews k es s = some (es', (Store.addAll k es' s).withCounters c) ∧
      Fresh s k es' ∧ CountersLe s.counters c ∧ es'.length = es.length ∧
      Ahead ((Store.addAll k es' s).withCounters c) ∧
      ∀ f ∈ es', ∃ e ∈ es, ∃ i, f = entWithId k e i := by
  intro es
  induction es with
  | nil =>
    intro s ha _
    exact ⟨[], s.counters, rfl, ⟨by simp, by simp, by simp, by simp, by simp⟩, fun _ => Nat.le_refl _, rfl, ha,
      by simp⟩
  | cons e es ih =>
    intro s ha h
    obtain ⟨h0, ho, hr⟩ := h e (.head _)
    generalize hn : (s.counters k.counter).getD 1 = n
    have hn1 : 1 ≤ n := hn ▸ (ha k).1
    have habs : s.tab k n = none := by
      cases hx : s.tab k n with
      | none => rfl
      | some x =>
        have := (ha k).2 n (by simp [hx])
        omega
    let c1 : String → Option Nat := fun m => if m = k.counter then some (n + 1) else s.counters m
    let e1 := entWithId k e n
    let s1 := (s.withTab k ((s.tab k).insert n e1)).withCounters c1
    have e1' : s.insertNew k e = some (e1, s1) := by
      simp only [Store.insertNew, h0, if_true, Store.nextId, hn]
      rw [entId_withId]
      show (if (s.withCounters c1).soleDoc n (Store.rootDoc k (entWithId k e n)) = true then
        some (e1, (s.withCounters c1).withTab k (((s.withCounters c1).tab k).insert n e1)) else none) = _
      rw [if_pos (Store.soleDoc_other hk _ _ _), withTab_withCounters, withCounters_tab]
    have hmono : ∀ k' i, (s.tab k' i).isSome = true → (s1.tab k' i).isSome = true := by
      intro k' i hi
      simp only [s1, withCounters_tab]
      by_cases hkk : k' = k
      · subst hkk
        rw [Store.tab_withTab]
        simp only [IdMap.insert]
        split
        · rfl
        · exact hi
      · rw [Store.tab_withTab_ne _ _ hkk]; exact hi
    have hc1 : CountersLe s.counters c1 := by
      intro k'
      simp only [c1]
      split
      · rename_i hh
        rw [hh, hn]; simp
      · exact Nat.le_refl _
    have ha1 : Ahead s1 := by
      intro k'
      refine ⟨Nat.le_trans (ha k').1 (hc1 k'), ?_⟩
      intro i hi
      simp only [s1, withCounters_tab] at hi
      show i < (c1 k'.counter).getD 1
      by_cases hkk : k' = k
      · subst hkk
        rw [Store.tab_withTab] at hi
        simp only [IdMap.insert] at hi
        simp only [c1, if_true, Option.getD_some]
        split at hi
        · omega
        · have := (ha k').2 i hi; omega
      · rw [Store.tab_withTab_ne _ _ hkk] at hi
        exact Nat.lt_of_lt_of_le ((ha k').2 i hi) (hc1 k')
    obtain ⟨es', c, q1, q2, q3, q4, q5, q6⟩ := ih s1 ha1 (by
      intro f hf
      obtain ⟨a, b, d⟩ := h f (.tail _ hf)
      exact ⟨a, b, d.mono hmono⟩)
    have heq : (Store.addAll k es' s1).withCounters c = (Store.addAll k (e1 :: es') s).withCounters c := by
      simp only [Store.addAll, e1, entId_withId, s1]
      have : ∀ (l : List (Ent k)) (t : Store), Store.addAll k l (t.withCounters c1) =
          (Store.addAll k l t).withCounters c1 := by
        intro l
        induction l with
        | nil => intro t; rfl
        | cons a l ih => intro t; simp only [Store.addAll, withCounters_tab, withTab_withCounters, ih]
      rw [this]
      rfl
    rw [heq] at q1 q5
    have hnew : ∀ f ∈ es', RefsOk s k f := by
      intro f hf
      obtain ⟨a, ha, i, rfl⟩ := q6 f hf
      exact (h a (.tail _ ha)).2.2.withId i
    refine ⟨e1 :: es', c, ?_, ?_, fun k' => Nat.le_trans (hc1 k') (q3 k'), by simp [q4], q5, ?_⟩
    rotate_left 2
    · intro f hf
      rcases List.mem_cons.mp hf with rfl | hf
      · exact ⟨e, .head _, n, rfl⟩
      · obtain ⟨a, ha, i, rfl⟩ := q6 f hf
        exact ⟨a, .tail _ ha, i, rfl⟩
    · simp only [Store.insertNews, e1', Option.bind_some, q1, Option.map_some]
    · refine Fresh.cons (by simp only [e1, entId_withId]; omega) ?_ (hr.withId n) ?_ hnew ?_
      · simp only [e1, entId_withId]; exact habs
      · simp only [e1, owns_withId]; exact ho
      · refine Fresh.congr ?_ q2
        simp only [e1, entId_withId, s1]
        rfl

end Verif
