import Verif.Lemmas.UndoRedo
/-
The time line of C21 for commands that restore what is seen of the document rather than the very
same state: undoing goes back to a known state `X`, redoing to a state with the same view `V`.
-/
namespace Verif
variable {C S X V : Type} {api : CmdApi C S}

structure ViewContract (api : CmdApi C S) (X V : Type) where
  Sees : S → X → Prop
  view : X → V
  Done : C → X → X → Prop
  Undone : C → V → V → Prop
  /-- a mark undo and redo keep -/
  mark : C → Option Nat
  undo_ok : ∀ {c x x' s}, Done c x x' → Sees s x' → ∃ c' s0, api.undo c s = (true, c', s0) ∧
    Sees s0 x ∧ Undone c' (view x) (view x') ∧ mark c' = mark c
  redo_ok : ∀ {c x v' s}, Undone c (view x) v' → Sees s x → ∃ c' s' x', api.redo c s = (true, c', s') ∧
    Sees s' x' ∧ view x' = v' ∧ Done c' x x' ∧ mark c' = mark c
  merge_ok : ∀ {a c x x' x''}, mark a = none → Done a x x' → Done c x' x'' →
    api.canMerge a c = true → (api.merge a c).1 = true ∧ Done (api.merge a c).2 x x'' ∧
      mark (api.merge a c).2 = none

namespace ViewContract
variable (k : ViewContract api X V)

/-- The marks of an entry are among those of `P`. -/
def Marked (P : Nat → Prop) : Entry C → Prop
  | .single c => ∀ o, k.mark c = some o → P o
  | .group _ => True

def EDone : Entry C → X → X → Prop
  | .single c => k.Done c
  | .group cs => Chain k.Done cs

def EUndone : Entry C → V → V → Prop
  | .single c => k.Undone c
  | .group cs => Chain k.Undone cs

theorem chain_undo (cs : List C) {x x' : X} {s : S} (h : Chain k.Done cs x x') (hs : k.Sees s x') :
    ∃ cs' s0, runAll api.undo cs.reverse s = (true, cs', s0) ∧ k.Sees s0 x ∧
      Chain k.Undone cs'.reverse (k.view x) (k.view x') := by
  induction hn : cs.length generalizing cs x x' s with
  | zero =>
    have : cs = [] := List.length_eq_zero_iff.mp hn
    subst this
    cases h
    exact ⟨[], s, rfl, hs, .nil⟩
  | succ n ih =>
    rcases List.eq_nil_or_concat cs with rfl | ⟨cs, c, rfl⟩
    · simp at hn
    · rw [List.concat_eq_append] at h hn
      obtain ⟨t, h1, h2⟩ := h.unsnoc
      obtain ⟨c', s1, hc', hs1, hu, _⟩ := k.undo_ok h2 hs
      obtain ⟨cs', s0, hr, hs0, hch⟩ := ih cs h1 hs1 (by simpa using hn)
      refine ⟨c' :: cs', s0, ?_, hs0, ?_⟩
      · simp [runAll, hc', hr]
      · simp only [List.reverse_cons]; exact hch.snoc hu

theorem chain_redo {cs : List C} {v v' : V} (h : Chain k.Undone cs v v') {x : X} {s : S}
    (hv : k.view x = v) (hs : k.Sees s x) :
    ∃ cs' s' x', runAll api.redo cs s = (true, cs', s') ∧ k.Sees s' x' ∧ k.view x' = v' ∧
      Chain k.Done cs' x x' := by
  induction h generalizing x s with
  | nil => exact ⟨[], s, x, rfl, hs, hv, .nil⟩
  | cons h1 _ ih =>
    subst hv
    obtain ⟨c', s1, x1, hc', hs1, hv1, hd, _⟩ := k.redo_ok h1 hs
    obtain ⟨cs', s', x', hr, hs', hv', hch⟩ := ih hv1 hs1
    exact ⟨c' :: cs', s', x', by simp [runAll, hc', hr], hs', hv', .cons hd hch⟩

theorem entry_undo {P : Nat → Prop} {e : Entry C} {x x' : X} {s : S} (h : k.EDone e x x')
    (hs : k.Sees s x') (hP : k.Marked P e) :
    ∃ e' s0, e.undo api s = (true, e', s0) ∧ k.Sees s0 x ∧ k.EUndone e' (k.view x) (k.view x') ∧
      k.Marked P e' := by
  cases e with
  | single c =>
    obtain ⟨c', s0, h1, h2, h3, h4⟩ := k.undo_ok h hs
    exact ⟨.single c', s0, by simp [Entry.undo, h1], h2, h3, by simpa [Marked, h4] using hP⟩
  | group cs =>
    obtain ⟨cs', s0, h1, h2, h3⟩ := k.chain_undo cs h hs
    exact ⟨.group cs'.reverse, s0, by simp [Entry.undo, h1], h2, h3, trivial⟩

theorem entry_redo {P : Nat → Prop} {e : Entry C} {x : X} {v' : V} {s : S}
    (h : k.EUndone e (k.view x) v') (hs : k.Sees s x) (hP : k.Marked P e) :
    ∃ e' s' x', e.redo api s = (true, e', s') ∧ k.Sees s' x' ∧ k.view x' = v' ∧ k.EDone e' x x' ∧
      k.Marked P e' := by
  cases e with
  | single c =>
    obtain ⟨c', s', x', h1, h2, h3, h4, h5⟩ := k.redo_ok h hs
    exact ⟨.single c', s', x', by simp [Entry.redo, h1], h2, h3, h4, by simpa [Marked, h5] using hP⟩
  | group cs =>
    obtain ⟨cs', s', x', h1, h2, h3, h4⟩ := k.chain_redo h rfl hs
    exact ⟨.group cs', s', x', by simp [Entry.redo, h1], h2, h3, h4, trivial⟩

inductive PastOk : List (Entry C) → List X → X → Prop where
  | nil {x} : PastOk [] [] x
  | cons {e es p ps x} : k.EDone e p x → PastOk es ps p → PastOk (e :: es) (p :: ps) x

inductive FutOk : List (Entry C) → List V → V → Prop where
  | nil {v} : FutOk [] [] v
  | cons {e es f fs v} : k.EUndone e v f → FutOk es fs f → FutOk (e :: es) (f :: fs) v

/-- The stack `sid` holds the time line `t` of views; `x` is the present state, the marks of the
entries satisfy `P`, and no group is open. -/
structure Holds (P : Nat → Prop) (m : Mgr C) (sid : Option Nat) (s : S) (x : X) (t : Timeline V) :
    Prop where
  st : ∃ st xs, m.stacks (sid.getD 0) = some st ∧ k.PastOk st.undo xs x ∧
    k.FutOk st.redo t.future t.cur ∧ xs.map k.view = t.past ∧
    (∀ e ∈ st.undo, k.Marked P e) ∧ (∀ e ∈ st.redo, k.Marked P e)
  idle : m.comp = none
  level : m.level = 0
  stack : m.compStack = none ∨ m.compStack = sid
  cur : k.view x = t.cur
  sees : k.Sees s x

variable {k} {P : Nat → Prop} {m : Mgr C} {sid : Option Nat} {s s' : S} {x x' : X} {t : Timeline V}

theorem PastOk.length {es ps s} (h : k.PastOk es ps s) : es.length = ps.length := by
  induction h with
  | nil => rfl
  | cons _ _ ih => simp [ih]

theorem FutOk.length {es ps s} (h : k.FutOk es ps s) : es.length = ps.length := by
  induction h with
  | nil => rfl
  | cons _ _ ih => simp [ih]

theorem Holds.flags (h : k.Holds P m sid s x t) :
    m.canUndo sid = !t.past.isEmpty ∧ m.canRedo sid = !t.future.isEmpty := by
  obtain ⟨st, xs, h1, h2, h3, h4, _⟩ := h.st
  have e1 := h2.length
  have e2 := h3.length
  constructor
  · simp only [Mgr.canUndo, h1, ← h4]
    revert e1
    cases st.undo <;> cases xs <;> simp
  · simp only [Mgr.canRedo, h1]
    revert e2
    cases st.redo <;> cases t.future <;> simp

theorem Holds.mono {Q : Nat → Prop} (h : k.Holds P m sid s x t) (hPQ : ∀ o, P o → Q o) :
    k.Holds Q m sid s x t := by
  obtain ⟨⟨st, xs, h1, h2, h3, h4, h5, h6⟩, h7, h8, h9, h10, h11⟩ := h
  have hM : ∀ e, k.Marked P e → k.Marked Q e := by
    intro e he
    cases e with
    | single c => exact fun o ho => hPQ o (he o ho)
    | group cs => trivial
  exact ⟨⟨st, xs, h1, h2, h3, h4, fun e he => hM e (h5 e he), fun e he => hM e (h6 e he)⟩,
    h7, h8, h9, h10, h11⟩

theorem Holds.undo (h : k.Holds P m sid s x t) :
    ∃ m' s' x', m.undo api sid s = (true, m', s') ∧ k.Holds P m' sid s' x' t.undo := by
  obtain ⟨⟨st, xs, h1, h2, h3, h4, h5, h6⟩, h7, h8, h9, h10, h11⟩ := h
  obtain ⟨past, cur, fut⟩ := t
  obtain ⟨u, r⟩ := st
  simp only at h2 h3 h4 h5 h6 h10
  unfold Mgr.undo
  rw [h1]
  simp only
  cases h2 with
  | nil =>
    simp only [List.map_nil] at h4
    subst h4
    exact ⟨m, s, x, rfl, ⟨⟨_, [], h1, .nil, h3, rfl, h5, h6⟩, h7, h8, h9, h10, h11⟩⟩
  | @cons e es p ps _ he hp =>
    obtain ⟨e', s0, e1, e2, e3, e4⟩ := k.entry_undo he h11 (h5 e (by simp))
    simp only [e1]
    simp only [List.map_cons] at h4
    subst h4
    subst h10
    refine ⟨_, s0, p, rfl, ⟨⟨_, ps, setStack_same .., hp, .cons e3 h3, rfl, ?_, ?_⟩, h7, h8, h9, rfl, e2⟩⟩
    · exact fun e he => h5 e (by simp [he])
    · intro e he
      simp only [List.mem_cons] at he
      rcases he with rfl | he
      · exact e4
      · exact h6 e he

theorem Holds.redo (h : k.Holds P m sid s x t) :
    ∃ m' s' x', m.redo api sid s = (true, m', s') ∧ k.Holds P m' sid s' x' t.redo := by
  obtain ⟨⟨st, xs, h1, h2, h3, h4, h5, h6⟩, h7, h8, h9, h10, h11⟩ := h
  obtain ⟨past, cur, fut⟩ := t
  obtain ⟨u, r⟩ := st
  simp only at h2 h3 h4 h5 h6 h10
  unfold Mgr.redo
  rw [h1]
  simp only
  cases h3 with
  | nil => exact ⟨m, s, x, rfl, ⟨⟨_, xs, h1, h2, .nil, h4, h5, h6⟩, h7, h8, h9, h10, h11⟩⟩
  | @cons e es f fs _ he hf =>
    subst h10
    obtain ⟨e', s', x', e1, e2, e3, e4, e5⟩ := k.entry_redo he h11 (h6 e (by simp))
    simp only [e1]
    refine ⟨_, s', x', rfl, ⟨⟨_, x :: xs, setStack_same .., .cons e4 h2, hf, ?_, ?_, ?_⟩, h7, h8, h9, e3, e2⟩⟩
    · simp only [List.map_cons, h4, Timeline.redo]
    · intro e he
      simp only [List.mem_cons] at he
      rcases he with rfl | he
      · exact e5
      · exact h5 e he
    · exact fun e he => h6 e (by simp [he])

/-- Adding a command makes a new step, or extends the last one if the command is fit to merge with
it. -/
theorem Holds.add {c : C} (h : k.Holds P m sid s x t) (hc : k.Done c x x') (hs : k.Sees s' x')
    (hm : ∀ o, k.mark c = some o → P o)
    (hsafe : ∀ a, (∀ o, k.mark a = some o → P o) → api.canMerge a c = true → k.mark a = none) :
    ∃ m' t', m.add api c sid = (true, m') ∧ k.Holds P m' sid s' x' t' ∧
      (t' = t.edit (k.view x') ∨
        (t' = t.extend (k.view x') ∧ t.past ≠ [] ∧ ∃ a, api.canMerge a c = true)) := by
  obtain ⟨⟨st, xs, h1, h2, h3, h4, h5, h6⟩, h7, h8, h9, h10, h11⟩ := h
  obtain ⟨past, cur, fut⟩ := t
  obtain ⟨u, r⟩ := st
  simp only at h2 h3 h4 h5 h6 h10
  subst h10
  unfold Mgr.add
  rw [h7, h1]
  simp only
  have hnew : ∀ (ss : Stack C), ss.redo = [] → k.PastOk ss.undo (x :: xs) x' →
      (∀ e ∈ ss.undo, k.Marked P e) →
      k.Holds P (m.setStack (sid.getD 0) (some ss)) sid s' x'
        (Timeline.edit ⟨past, k.view x, fut⟩ (k.view x')) := by
    intro ss hr hp hmk
    refine ⟨⟨ss, x :: xs, setStack_same .., hp, ?_, ?_, hmk, ?_⟩, h7, h8, h9, rfl, hs⟩
    · rw [hr]; exact .nil
    · simp [Timeline.edit, h4]
    · rw [hr]; simp
  cases h2 with
  | nil =>
    exact ⟨_, _, rfl, hnew ⟨[.single c], []⟩ rfl (.cons hc .nil) (by
      intro e he; simp only [List.mem_singleton] at he; subst he; exact hm), Or.inl rfl⟩
  | @cons e es p ps _ he hp =>
    have hall : ∀ f ∈ (Entry.single c :: e :: es), k.Marked P f := by
      intro f hf
      simp only [List.mem_cons] at hf
      rcases hf with rfl | hf
      · exact hm
      · exact h5 f (by simpa using hf)
    cases e with
    | group cs =>
      exact ⟨_, _, rfl, hnew ⟨.single c :: .group cs :: es, []⟩ rfl (.cons hc (.cons he hp)) hall,
        Or.inl rfl⟩
    | single a =>
      simp only [tryMerge]
      by_cases hcm : api.canMerge a c = true
      · obtain ⟨hk1, hk2, hk3⟩ := k.merge_ok (hsafe a (h5 (.single a) (by simp)) hcm) he hc hcm
        rw [if_pos hcm]
        have hmg : (api.4 a c).fst = true := hk1
        simp only [hmg]
        refine ⟨_, Timeline.extend ⟨past, k.view x, fut⟩ (k.view x'), rfl, ?_, Or.inr ⟨rfl, ?_, a, hcm⟩⟩
        · refine ⟨⟨_, p :: ps, setStack_same .., .cons hk2 hp, .nil, ?_, ?_, ?_⟩, h7, h8, h9, rfl, hs⟩
          · simp [Timeline.extend, ← h4]
          · intro f hf
            simp only [List.mem_cons] at hf
            rcases hf with rfl | hf
            · intro o ho; rw [hk3] at ho; exact absurd ho (by simp)
            · exact h5 f (by simp [hf])
          · simp
        · simp only [← h4]; simp
      · rw [if_neg hcm]
        exact ⟨_, _, rfl, hnew ⟨.single c :: .single a :: es, []⟩ rfl (.cons hc (.cons he hp)) hall,
          Or.inl rfl⟩

/-- A group of commands, begun and ended, makes a new step. -/
theorem Holds.group {cs : List C} (h : k.Holds P m sid s x t) (hc : Chain k.Done cs x x')
    (hne : cs ≠ []) (hs : k.Sees s' x') :
    ∃ m', ({ (m.begin sid).2 with comp := some (sid.getD 0, cs) } : Mgr C).end = some m' ∧
      k.Holds P m' sid s' x' (t.edit (k.view x')) := by
  obtain ⟨⟨st, xs, h1, h2, h3, h4, h5, h6⟩, h7, h8, h9, h10, h11⟩ := h
  have hb : (m.begin sid).2 = { m with compStack := sid, level := 1, comp := some (sid.getD 0, []) } := by
    unfold Mgr.begin
    rw [if_neg, h7, h8]
    rcases h9 with h | h <;> simp [h]
  rw [hb]
  unfold Mgr.end
  have he : cs.isEmpty = false := by cases cs <;> simp_all
  simp only [Nat.sub_self, if_true, he, Bool.false_eq_true, if_false, h1]
  refine ⟨_, rfl, ⟨⟨⟨.group cs :: st.undo, []⟩, x :: xs, setStack_same .., .cons hc h2, .nil, ?_, ?_, ?_⟩,
    rfl, rfl, Or.inr rfl, rfl, hs⟩⟩
  · simp [Timeline.edit, h4, h10]
  · intro f hf
    simp only [List.mem_cons] at hf
    rcases hf with rfl | hf
    · trivial
    · exact h5 f hf
  · simp

end ViewContract
end Verif
