import Verif.Spec.Timeline
namespace Verif
variable {C S : Type} {api : CmdApi C S}

/-- Commands done one after the other. -/
inductive Chain (R : C → S → S → Prop) : List C → S → S → Prop where
  | nil {s} : Chain R [] s s
  | cons {c cs s s' s''} : R c s s' → Chain R cs s' s'' → Chain R (c :: cs) s s''

theorem Chain.snoc {R : C → S → S → Prop} {cs c s s' s''} (h : Chain R cs s s') (hc : R c s' s'') :
    Chain R (cs ++ [c]) s s'' := by
  induction h with
  | nil => exact .cons hc .nil
  | cons h1 _ ih => exact .cons h1 (ih hc)

theorem Chain.unsnoc {R : C → S → S → Prop} {cs c s s''} (h : Chain R (cs ++ [c]) s s'') :
    ∃ s', Chain R cs s s' ∧ R c s' s'' := by
  induction cs generalizing s with
  | nil => cases h with | cons h1 h2 => cases h2; exact ⟨s, .nil, h1⟩
  | cons a cs ih =>
    cases h with
    | cons h1 h2 =>
      obtain ⟨s', h3, h4⟩ := ih h2
      exact ⟨s', .cons h1 h3, h4⟩

def EDone (k : Contract api) : Entry C → S → S → Prop
  | .single c => k.Done c
  | .group cs => Chain k.Done cs

def EUndone (k : Contract api) : Entry C → S → S → Prop
  | .single c => k.Undone c
  | .group cs => Chain k.Undone cs

theorem chain_undo (k : Contract api) (cs : List C) {s s' : S} (h : Chain k.Done cs s s') :
    ∃ cs', runAll api.undo cs.reverse s' = (true, cs', s) ∧ Chain k.Undone cs'.reverse s s' := by
  induction hn : cs.length generalizing cs s s' with
  | zero =>
    have : cs = [] := List.length_eq_zero_iff.mp hn
    subst this
    cases h
    exact ⟨[], rfl, .nil⟩
  | succ n ih =>
    rcases List.eq_nil_or_concat cs with rfl | ⟨cs, c, rfl⟩
    · simp at hn
    · rw [List.concat_eq_append] at h hn
      obtain ⟨t, h1, h2⟩ := h.unsnoc
      obtain ⟨c', hc', hu⟩ := k.undo_ok h2
      obtain ⟨cs', hr, hch⟩ := ih cs h1 (by simpa using hn)
      refine ⟨c' :: cs', ?_, ?_⟩
      · simp [runAll, hc', hr]
      · simp only [List.reverse_cons]; exact hch.snoc hu

theorem chain_redo (k : Contract api) {cs : List C} {s s' : S} (h : Chain k.Undone cs s s') :
    ∃ cs', runAll api.redo cs s = (true, cs', s') ∧ Chain k.Done cs' s s' := by
  induction h with
  | nil => exact ⟨[], rfl, .nil⟩
  | cons h1 _ ih =>
    obtain ⟨c', hc', hd⟩ := k.redo_ok h1
    obtain ⟨cs', hr, hch⟩ := ih
    exact ⟨c' :: cs', by simp [runAll, hc', hr], .cons hd hch⟩

theorem entry_undo (k : Contract api) {e : Entry C} {s s' : S} (h : EDone k e s s') :
    ∃ e', e.undo api s' = (true, e', s) ∧ EUndone k e' s s' := by
  cases e with
  | single c =>
    obtain ⟨c', h1, h2⟩ := k.undo_ok h
    exact ⟨.single c', by simp [Entry.undo, h1], h2⟩
  | group cs =>
    obtain ⟨cs', h1, h2⟩ := chain_undo k cs h
    exact ⟨.group cs'.reverse, by simp [Entry.undo, h1], h2⟩

theorem entry_redo (k : Contract api) {e : Entry C} {s s' : S} (h : EUndone k e s s') :
    ∃ e', e.redo api s = (true, e', s') ∧ EDone k e' s s' := by
  cases e with
  | single c =>
    obtain ⟨c', h1, h2⟩ := k.redo_ok h
    exact ⟨.single c', by simp [Entry.redo, h1], h2⟩
  | group cs =>
    obtain ⟨cs', h1, h2⟩ := chain_redo k h
    exact ⟨.group cs', by simp [Entry.redo, h1], h2⟩

/-- The undo list leads back through the past states. -/
inductive PastOk (k : Contract api) : List (Entry C) → List S → S → Prop where
  | nil {s} : PastOk k [] [] s
  | cons {e es p ps s} : EDone k e p s → PastOk k es ps p → PastOk k (e :: es) (p :: ps) s

/-- The redo list leads forward through the future states. -/
inductive FutOk (k : Contract api) : List (Entry C) → List S → S → Prop where
  | nil {s} : FutOk k [] [] s
  | cons {e es f fs s} : EUndone k e s f → FutOk k es fs f → FutOk k (e :: es) (f :: fs) s

/-- The stack `sid` of the manager holds exactly the time line. -/
structure Holds (k : Contract api) (m : Mgr C) (sid : Option Nat) (s : S) (t : Timeline S) : Prop where
  st : ∃ st, m.stacks (sid.getD 0) = some st ∧ PastOk k st.undo t.past t.cur ∧
    FutOk k st.redo t.future t.cur
  idle : m.comp = none
  cur : s = t.cur

theorem PastOk.length {k : Contract api} {es ps s} (h : PastOk k es ps s) : es.length = ps.length := by
  induction h with
  | nil => rfl
  | cons _ _ ih => simp [ih]

theorem FutOk.length {k : Contract api} {es ps s} (h : FutOk k es ps s) : es.length = ps.length := by
  induction h with
  | nil => rfl
  | cons _ _ ih => simp [ih]

theorem setStack_same (m : Mgr C) (i : Nat) (x : Option (Stack C)) : (m.setStack i x).stacks i = x := by
  simp [Mgr.setStack]

theorem holds_undo (k : Contract api) {m : Mgr C} {sid : Option Nat} {s : S} {t : Timeline S}
    (h : Holds k m sid s t) :
    ∃ m' s', m.undo api sid s = (true, m', s') ∧ Holds k m' sid s' t.undo ∧
      m'.compStack = m.compStack ∧ m'.level = m.level := by
  obtain ⟨⟨st, h1, h2, h3⟩, h4, h5⟩ := h
  obtain ⟨past, cur, fut⟩ := t
  simp only at h2 h3 h5
  subst h5
  unfold Mgr.undo
  rw [h1]
  obtain ⟨u, r⟩ := st
  simp only at h2 h3 ⊢
  cases h2 with
  | nil => exact ⟨m, s, rfl, ⟨⟨_, h1, .nil, h3⟩, h4, rfl⟩, rfl, rfl⟩
  | cons he hp =>
    obtain ⟨e', he', hu⟩ := entry_undo k he
    simp only [he']
    refine ⟨_, _, rfl, ⟨⟨_, setStack_same .., hp, .cons hu h3⟩, h4, rfl⟩, rfl, rfl⟩

theorem holds_redo (k : Contract api) {m : Mgr C} {sid : Option Nat} {s : S} {t : Timeline S}
    (h : Holds k m sid s t) :
    ∃ m' s', m.redo api sid s = (true, m', s') ∧ Holds k m' sid s' t.redo ∧
      m'.compStack = m.compStack ∧ m'.level = m.level := by
  obtain ⟨⟨st, h1, h2, h3⟩, h4, h5⟩ := h
  obtain ⟨past, cur, fut⟩ := t
  simp only at h2 h3 h5
  subst h5
  unfold Mgr.redo
  rw [h1]
  obtain ⟨u, r⟩ := st
  simp only at h2 h3 ⊢
  cases h3 with
  | nil => exact ⟨m, s, rfl, ⟨⟨_, h1, h2, .nil⟩, h4, rfl⟩, rfl, rfl⟩
  | cons he hf =>
    obtain ⟨e', he', hu⟩ := entry_redo k he
    simp only [he']
    refine ⟨_, _, rfl, ⟨⟨_, setStack_same .., .cons hu h2, hf⟩, h4, rfl⟩, rfl, rfl⟩

/-- Whether adding `c` merges it into the last entry. -/
def merges (api : CmdApi C S) (m : Mgr C) (sid : Option Nat) (c : C) : Bool :=
  match m.stacks (sid.getD 0) with
  | some ⟨e :: _, _⟩ => (tryMerge api e c).1
  | _ => false

theorem holds_add (k : Contract api) {m : Mgr C} {sid : Option Nat} {s s' : S} {t : Timeline S} {c : C}
    (h : Holds k m sid s t) (hc : k.Done c s s') :
    ∃ m', m.add api c sid = (true, m') ∧
      Holds k m' sid s' (if merges api m sid c then t.extend s' else t.edit s') ∧
      m'.compStack = m.compStack ∧ m'.level = m.level := by
  obtain ⟨⟨st, h1, h2, h3⟩, h4, h5⟩ := h
  obtain ⟨past, cur, fut⟩ := t
  simp only at h2 h3 h5
  subst h5
  replace hc : EDone k (.single c) s s' := hc
  unfold Mgr.add merges
  rw [h4, h1]
  obtain ⟨u, r⟩ := st
  simp only at h2 h3 ⊢
  cases h2 with
  | nil =>
    exact ⟨_, rfl, ⟨⟨_, setStack_same .., .cons hc .nil, .nil⟩, h4, rfl⟩, rfl, rfl⟩
  | @cons e es p ps _ he hp =>
    cases e with
    | group cs =>
      exact ⟨_, rfl, ⟨⟨_, setStack_same .., .cons hc (.cons he hp), .nil⟩, h4, rfl⟩, rfl, rfl⟩
    | single a =>
      simp only [tryMerge]
      by_cases hm : api.canMerge a c = true
      · have hk := k.merge_ok he hc hm
        rw [if_pos hm]
        cases hmg : api.merge a c with
        | mk ok a' =>
          rw [hmg] at hk
          simp only at hk
          cases ok with
          | true =>
            replace hk : EDone k (.single a') p s' := by simpa [EDone] using hk
            simp only [hmg]
            exact ⟨_, rfl, ⟨⟨_, setStack_same .., .cons hk hp, .nil⟩, h4, rfl⟩, rfl, rfl⟩
          | false =>
            replace hk : EDone k (.single a') p s := by simpa [EDone] using hk
            simp only [hmg]
            exact ⟨_, rfl, ⟨⟨_, setStack_same .., .cons hc (.cons hk hp), .nil⟩, h4, rfl⟩, rfl, rfl⟩
      · rw [if_neg hm]
        exact ⟨_, rfl, ⟨⟨_, setStack_same .., .cons hc (.cons he hp), .nil⟩, h4, rfl⟩, rfl, rfl⟩

end Verif
