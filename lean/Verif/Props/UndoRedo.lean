import Verif.Lemmas.UndoRedo
/-
C21–C25: the undo/redo manager.  The commands are abstract: any object satisfying `Contract`
(Spec/Timeline.lean).
-/
namespace Verif
variable {C S : Type} {api : CmdApi C S}

/-- A command object used in the examples: it remembers the text before and after, refuses to act
on any other text, and merges with a command continuing where it ended. -/
def snapApi : CmdApi (List Nat × List Nat) (List Nat) where
  undo c s := if s = c.2 then (true, c, c.1) else (false, c, s)
  redo c s := if s = c.1 then (true, c, c.2) else (false, c, s)
  canMerge a c := a.2 = c.1 ∧ c.2.length = 1
  merge a c := (true, (a.1, c.2))

def snapContract : Contract snapApi where
  Done c s s' := c = (s, s')
  Undone c s s' := c = (s, s')
  undo_ok := by rintro c s s' rfl; exact ⟨(s, s'), by simp [snapApi], rfl⟩
  redo_ok := by rintro c s s' rfl; exact ⟨(s, s'), by simp [snapApi], rfl⟩
  merge_ok := by rintro a c s s' s'' rfl rfl _; simp [snapApi]

/-! ## C21 -/

/-- One step of the user on the stack `sid`: an edit changes the document and adds its command. -/
def histStep (api : CmdApi C S) (sid : Option Nat) (m : Mgr C) (s : S) :
    HistOp C S → Bool × Mgr C × S
  | .edit c s' => ((m.add api c sid).1, (m.add api c sid).2, s')
  | .undo => m.undo api sid s
  | .redo => m.redo api sid s

/-- Running several steps; the Boolean says that none reported an error. -/
def histRun (api : CmdApi C S) (sid : Option Nat) : List (HistOp C S) → Mgr C → S → Bool × Mgr C × S
  | [], m, s => (true, m, s)
  | op :: ops, m, s =>
    match histStep api sid m s op with
    | (ok, m', s') =>
      match histRun api sid ops m' s' with
      | (ok', m'', s'') => (ok && ok', m'', s'')

/-- Every edit of the run really goes from the then current state to its new state. -/
def EditsOk (k : Contract api) : List (HistOp C S) → Timeline S → Prop
  | [], _ => True
  | .edit c s' :: ops, t => k.Done c t.cur s' ∧ EditsOk k ops (t.edit s')
  | .undo :: ops, t => EditsOk k ops t.undo
  | .redo :: ops, t => EditsOk k ops t.redo

/-- A fresh manager holds the one-point time line. -/
theorem C21_start (k : Contract api) (s : S) : Holds k (Mgr.new : Mgr C) none s ⟨[], s, []⟩ :=
  ⟨⟨{}, rfl, .nil, .nil⟩, rfl, rfl⟩

/-- Any mixture of edits, undos and redos moves the document along the time line; no step reports
an error (commands that do not merge). -/
theorem C21_timeline (k : Contract api) (hnm : ∀ a c, api.canMerge a c = false) {sid : Option Nat}
    (ops : List (HistOp C S)) {m : Mgr C} {s : S} {t : Timeline S} (h : Holds k m sid s t)
    (hv : EditsOk k ops t) :
    ∃ m' s', histRun api sid ops m s = (true, m', s') ∧ s' = (ops.foldl Timeline.step t).cur ∧
      m'.canUndo sid = !(ops.foldl Timeline.step t).past.isEmpty ∧
      m'.canRedo sid = !(ops.foldl Timeline.step t).future.isEmpty ∧
      Holds k m' sid s' (ops.foldl Timeline.step t) := by
  induction ops generalizing m s t with
  | nil =>
    refine ⟨m, s, rfl, h.cur, ?_, ?_, h⟩
    · obtain ⟨st, h1, h2, h3⟩ := h.st
      have := h2.length
      simp only [Mgr.canUndo, h1, List.foldl_nil]
      cases hu : st.undo <;> cases hp : t.past <;> simp_all
    · obtain ⟨st, h1, h2, h3⟩ := h.st
      have := h3.length
      simp only [Mgr.canRedo, h1, List.foldl_nil]
      cases hu : st.redo <;> cases hp : t.future <;> simp_all
  | cons op ops ih =>
    cases op with
    | edit c s1 =>
      have hd : k.Done c s s1 := by rw [h.cur]; exact hv.1
      obtain ⟨m1, h1, h2, _⟩ := holds_add k h hd
      have hm : merges api m sid c = false := by
        unfold merges
        split
        · rename_i e _ _ _
          cases e with
          | single a => simp [tryMerge, hnm]
          | group cs => rfl
        · rfl
      rw [hm] at h2
      obtain ⟨m', s', h3, h4⟩ := ih h2 hv.2
      exact ⟨m', s', by simp [histRun, histStep, h1, h3], h4⟩
    | undo =>
      obtain ⟨m1, s1, h1, h2, _⟩ := holds_undo k h
      obtain ⟨m', s', h3, h4⟩ := ih h2 hv
      exact ⟨m', s', by simp [histRun, histStep, h1, h3], h4⟩
    | redo =>
      obtain ⟨m1, s1, h1, h2, _⟩ := holds_redo k h
      obtain ⟨m', s', h3, h4⟩ := ih h2 hv
      exact ⟨m', s', by simp [histRun, histStep, h1, h3], h4⟩

/-- After edits through the states `ss`, `i` undos lead to the state `i` edits earlier and `j` of
them redone to the state `i - j` edits earlier. -/
theorem C21_undo_redo_count (s0 : S) (ss : List (C × S)) (i j : Nat) (hi : i ≤ ss.length) (hj : j ≤ i) :
    ((ss.map (fun e : C × S => (HistOp.edit e.1 e.2 : HistOp C S)) ++
        List.replicate i (.undo : HistOp C S) ++
        List.replicate j (.redo : HistOp C S)).foldl Timeline.step (⟨[], s0, []⟩ : Timeline S)).cur =
      (s0 :: ss.map Prod.snd)[ss.length - i + j]'(by simp; omega) := by
  -- the time line seen as one list with a cursor
  have edits : ∀ (ss : List (C × S)) (t : Timeline S), t.future = [] →
      (ss.map (fun e => HistOp.edit e.1 e.2)).foldl Timeline.step t =
        (⟨((t.past.reverse ++ t.cur :: ss.map Prod.snd).dropLast).reverse,
          (t.past.reverse ++ t.cur :: ss.map Prod.snd).getLast (by simp), []⟩ : Timeline S) := by
    intro ss
    induction ss with
    | nil => intro t ht; obtain ⟨p, c, f⟩ := t; simp at ht; subst ht; simp
    | cons e ss ih =>
      intro t _
      simp only [List.map_cons, List.foldl_cons, Timeline.step]
      rw [ih (t.edit e.2) rfl]
      simp [Timeline.edit]
  have undos : ∀ (i : Nat) (p : List S) (c : S) (f : List S), i ≤ p.length →
      (List.replicate i (HistOp.undo : HistOp C S)).foldl Timeline.step (⟨p, c, f⟩ : Timeline S) =
        ⟨p.drop i, ((c :: p)[i]?).getD c, ((c :: p).take i).reverse ++ f⟩ := by
    intro i
    induction i with
    | zero => intro p c f _; simp
    | succ i ih =>
      intro p c f hi
      cases p with
      | nil => simp at hi
      | cons x p =>
        simp only [List.replicate_succ, List.foldl_cons, Timeline.step, Timeline.undo]
        simp at hi
        rw [ih p x (c :: f) hi]
        have : i < (x :: p).length := by simp; omega
        simp only [List.drop_succ_cons, List.getElem?_cons_succ, List.take_succ_cons,
          List.reverse_cons, List.append_assoc, List.singleton_append, Timeline.mk.injEq, true_and,
          and_true]
        rw [List.getElem?_eq_getElem this]; rfl
  have redos : ∀ (j : Nat) (p : List S) (c : S) (f : List S), j ≤ f.length →
      ((List.replicate j (HistOp.redo : HistOp C S)).foldl Timeline.step (⟨p, c, f⟩ : Timeline S)).cur =
        ((c :: f)[j]?).getD c := by
    intro j
    induction j with
    | zero => intro p c f _; simp
    | succ j ih =>
      intro p c f hj
      cases f with
      | nil => simp at hj
      | cons x f =>
        simp only [List.replicate_succ, List.foldl_cons, Timeline.step, Timeline.redo]
        simp at hj
        rw [ih (c :: p) x f hj]
        have : j < (x :: f).length := by simp; omega
        simp only [List.getElem?_cons_succ]
        rw [List.getElem?_eq_getElem this]; rfl
  rw [List.foldl_append, List.foldl_append, edits _ _ rfl]
  simp only [List.reverse_nil, List.nil_append]
  suffices H : ∀ (L : List S) (hne : L ≠ []) (hlen : L.length = ss.length + 1),
      (List.foldl Timeline.step
        (List.foldl Timeline.step (⟨L.dropLast.reverse, L.getLast hne, []⟩ : Timeline S)
          (List.replicate i (HistOp.undo : HistOp C S)))
        (List.replicate j (HistOp.redo : HistOp C S))).cur = L[ss.length - i + j]'(by omega) from
    H _ _ (by simp)
  intro L hne hlen
  have hrev : L.getLast hne :: L.dropLast.reverse = L.reverse := by
    conv => rhs; rw [← List.dropLast_concat_getLast hne]
    simp
  rw [undos i _ _ _ (by simp; omega), redos j _ _ _ (by simp; omega)]
  rw [hrev]
  have h1 : (L.reverse[i]?).getD (L.getLast hne) = L[ss.length - i]'(by omega) := by
    rw [List.getElem?_reverse (by omega), List.getElem?_eq_getElem (by omega)]
    simp only [Option.getD_some]
    congr 1; omega
  rw [h1]
  have h2 : ((L.reverse.take i).reverse ++ ([] : List S)) = L.drop (ss.length + 1 - i) := by
    rw [List.append_nil, List.take_reverse, List.reverse_reverse, hlen]
  rw [h2]
  have h3 : L[ss.length - i]'(by omega) :: L.drop (ss.length + 1 - i) = L.drop (ss.length - i) := by
    have : ss.length + 1 - i = ss.length - i + 1 := by omega
    rw [this]
    exact List.getElem_cons_drop ..
  rw [h3, List.getElem?_drop, List.getElem?_eq_getElem (by omega)]
  rfl

/-- With commands that merge, each edit either becomes a new step or extends the last one; undo and
redo move along the resulting time line. -/
theorem C21_step_with_merging (k : Contract api) {sid : Option Nat} (op : HistOp C S) {m : Mgr C}
    {s : S} {t : Timeline S} (h : Holds k m sid s t)
    (hv : ∀ c s', op = .edit c s' → k.Done c s s') :
    ∃ m' s' t', histStep api sid m s op = (true, m', s') ∧ Holds k m' sid s' t' ∧
      (t' = t.step op ∨ ∃ c s1, op = .edit c s1 ∧ merges api m sid c = true ∧ t' = t.extend s1) := by
  cases op with
  | edit c s1 =>
    obtain ⟨m1, h1, h2, _⟩ := holds_add k h (hv c s1 rfl)
    refine ⟨m1, s1, _, by simp [histStep, h1], h2, ?_⟩
    split
    · rename_i hm; exact Or.inr ⟨c, s1, rfl, hm, rfl⟩
    · exact Or.inl rfl
  | undo =>
    obtain ⟨m1, s1, h1, h2, _⟩ := holds_undo k h
    exact ⟨m1, s1, _, by simp [histStep, h1], h2, Or.inl rfl⟩
  | redo =>
    obtain ⟨m1, s1, h1, h2, _⟩ := holds_redo k h
    exact ⟨m1, s1, _, by simp [histStep, h1], h2, Or.inl rfl⟩

/-- Undo with nothing to undo and redo with nothing to redo change nothing and report no error. -/
theorem C21_empty (m : Mgr C) (sid : Option Nat) (s : S) (st : Stack C)
    (hs : m.stacks (sid.getD 0) = some st) :
    (st.undo = [] → m.undo api sid s = (true, m, s)) ∧
    (st.redo = [] → m.redo api sid s = (true, m, s)) := by
  constructor
  · intro h; simp [Mgr.undo, hs, h]
  · intro h; simp [Mgr.redo, hs, h]

/-- Edits, undo, redo, undo, new edit: the hypotheses of `C21_timeline` hold for it. -/
example : EditsOk (api := { snapApi with canMerge := fun _ _ => false })
    { snapContract with merge_ok := by intro a c s s' s'' _ _ h; simp at h }
    [.edit ([], [1]) [1], .edit ([1], [1, 2]) [1, 2], .undo, .redo, .undo, .edit ([1], [3]) [3]]
    ⟨[], [], []⟩ := by
  refine ⟨rfl, rfl, ?_⟩
  exact ⟨rfl, trivial⟩

/-! ## C22 -/

/-- Outside a group, every accepted command empties the redo list of its stack, merged or not. -/
theorem C22_add_clears_redo_partial (m m' : Mgr C) (c : C) (sid : Option Nat) (hidle : m.comp = none)
    (h : m.add api c sid = (true, m')) :
    ∃ st, m'.stacks (sid.getD 0) = some st ∧ st.redo = [] ∧ st.undo ≠ [] := by
  unfold Mgr.add at h
  rw [hidle] at h
  simp only at h
  split at h
  · simp at h
  · split at h
    · simp only [Prod.mk.injEq, true_and] at h; subst h
      exact ⟨_, setStack_same .., rfl, by simp⟩
    · split at h <;>
      · simp only [Prod.mk.injEq, true_and] at h; subst h
        exact ⟨_, setStack_same .., rfl, by simp⟩

/-- Ending a non-empty group empties the redo list too. -/
theorem C22_group_clears_redo (m m' : Mgr C) (i : Nat) (cs : List C) (hl : m.level ≤ 1)
    (hc : m.comp = some (i, cs)) (hne : cs ≠ []) (h : m.end = some m') :
    ∃ st, m'.stacks (m.compStack.getD 0) = some st ∧ st.redo = [] := by
  unfold Mgr.end at h
  have : m.level - 1 = 0 := by omega
  simp only [this, if_true, hc] at h
  have he : cs.isEmpty = false := by cases cs <;> simp_all
  rw [he] at h
  simp only [Bool.false_eq_true, if_false] at h
  split at h
  · simp at h
  · simp only [Option.some.injEq] at h; subst h
    exact ⟨_, setStack_same .., rfl⟩

/-- While a group is open, adding a command leaves the redo list as it is: a redo is then still
possible although a new edit was made. -/
theorem C22_open_group_fails :
    ∃ (m : Mgr Nat) (m' : Mgr Nat) (api : CmdApi Nat Nat), m.add api 5 none = (true, m') ∧
      m.canRedo none = true ∧ m'.canRedo none = true :=
  ⟨{ (Mgr.new : Mgr Nat) with
      stacks := fun _ => some ⟨[], [.single 7]⟩, comp := some (0, []), level := 1 }, _,
    ⟨fun c s => (true, c, s), fun c s => (true, c, s), fun _ _ => false, fun a _ => (false, a)⟩,
    rfl, rfl, rfl⟩

example : (Mgr.new : Mgr (List Nat × List Nat)).comp = none ∧
    ((Mgr.new.add snapApi ([], [1]) none).1 = true) := ⟨rfl, rfl⟩

/-! ## C23 -/

/-- What happens between a begin and its end: commands, and complete inner groups. -/
inductive Script (C : Type) where
  | nil
  | add (c : C) (rest : Script C)
  | group (inner rest : Script C)

/-- All commands of a script in order. -/
def Script.cmds : Script C → List C
  | .nil => []
  | .add c r => c :: r.cmds
  | .group i r => i.cmds ++ r.cmds

/-- Run a script on stack `sid`; `none` if any call fails or panics. -/
def Script.run (api : CmdApi C S) (sid : Option Nat) : Script C → Mgr C → Option (Mgr C)
  | .nil, m => some m
  | .add c r, m => match m.add api c sid with
    | (true, m') => r.run api sid m'
    | (false, _) => none
  | .group i r, m => match m.begin sid with
    | (true, m1) => (i.run api sid m1).bind fun m2 => m2.end.bind fun m3 => r.run api sid m3
    | (false, _) => none

/-- Inside an open group a script only appends its commands to the group. -/
theorem script_open (sid : Option Nat) (sc : Script C) (m : Mgr C) (cs : List C) (l : Nat)
    (hc : m.comp = some (sid.getD 0, cs)) (hs : m.compStack = sid) (hl : m.level = l + 1) :
    sc.run api sid m = some { m with comp := some (sid.getD 0, cs ++ sc.cmds) } := by
  induction sc generalizing m cs l with
  | nil => simp [Script.run, Script.cmds, ← hc]
  | add c r ih =>
    simp only [Script.run, Mgr.add, hc]
    rw [if_neg (by simp)]
    simp only
    rw [ih { m with comp := some (sid.getD 0, cs ++ [c]) } (cs ++ [c]) l rfl hs hl]
    simp [Script.cmds]
  | group i r ihi ihr =>
    simp only [Script.run, Mgr.begin, hs]
    rw [if_neg (by simp)]
    simp only
    rw [ihi _ cs (l + 1) (by simp [hc]) rfl (by simp [hl])]
    simp only [Option.bind_some, Mgr.end]
    rw [if_neg (by simp [hl])]
    simp only [Option.bind_some]
    rw [ihr _ (cs ++ i.cmds) l rfl rfl (by simp [hl])]
    simp [Script.cmds, hl]

/-- A complete group, however nested inside, becomes one history entry holding its commands in
order; a group without commands leaves the history as it was. -/
theorem C23_group_is_one_entry (sid : Option Nat) (sc : Script C) (m : Mgr C) (st : Stack C)
    (hidle : m.comp = none) (hl : m.level = 0) (hcs : m.compStack = none ∨ m.compStack = sid)
    (hst : m.stacks (sid.getD 0) = some st) :
    ∃ m', (Script.group sc .nil).run api sid m = some m' ∧
      m'.stacks (sid.getD 0) =
        some (if sc.cmds = [] then st else ⟨.group sc.cmds :: st.undo, []⟩) ∧
      (∀ j, j ≠ sid.getD 0 → m'.stacks j = m.stacks j) ∧
      m'.comp = none ∧ m'.level = 0 ∧ m'.compStack = sid := by
  have hb : m.begin sid = (true, { m with compStack := sid, level := 1, comp := some (sid.getD 0, []) }) := by
    unfold Mgr.begin
    rw [if_neg, hidle, hl]
    rcases hcs with h | h <;> simp [h]
  simp only [Script.run, hb]
  rw [script_open sid sc _ [] 0 rfl rfl rfl]
  simp only [Option.bind_some, List.nil_append, Mgr.end]
  simp only [Nat.sub_self, if_true]
  by_cases hc : sc.cmds = []
  · simp [hc, hst]
  · have he : sc.cmds.isEmpty = false := by cases h : sc.cmds <;> simp_all
    simp only [he, Bool.false_eq_true, if_false, hst, Option.bind_some, hc]
    refine ⟨_, rfl, setStack_same .., ?_, rfl, rfl, rfl⟩
    intro j hj
    simp [Mgr.setStack, hj]

/-- In terms of the time line: a group taking the document from `s` to `s'` is one step, so a single
undo reverts all of it and a single redo replays it. -/
theorem C23_group_is_one_step (k : Contract api) (sid : Option Nat) (sc : Script C) {m : Mgr C}
    {s s' : S} {t : Timeline S} (h : Holds k m sid s t) (hl : m.level = 0)
    (hcs : m.compStack = none ∨ m.compStack = sid) (hne : sc.cmds ≠ [])
    (hch : Chain k.Done sc.cmds s s') :
    ∃ m', (Script.group sc .nil).run api sid m = some m' ∧ Holds k m' sid s' (t.edit s') ∧
      (∃ m2 m3, m'.undo api sid s' = (true, m2, s) ∧ m2.redo api sid s = (true, m3, s')) := by
  obtain ⟨st, h1, h2, h3⟩ := h.st
  obtain ⟨m', hr, hs', _, hc', _⟩ := C23_group_is_one_entry (api := api) sid sc m st h.idle hl hcs h1
  rw [if_neg hne] at hs'
  have hh : Holds k m' sid s' (t.edit s') := by
    refine ⟨⟨_, hs', ?_, .nil⟩, hc', rfl⟩
    refine .cons ?_ h2
    show EDone k (.group sc.cmds) t.cur s'
    rw [← h.cur]; exact hch
  refine ⟨m', hr, hh, ?_⟩
  obtain ⟨m2, s2, hu, hu2, _⟩ := holds_undo k hh
  have e2 : s2 = s := by rw [hu2.cur, h.cur]; rfl
  subst e2
  obtain ⟨m3, s3, hr3, hr4, _⟩ := holds_redo k hu2
  have e3 : s3 = s' := by rw [hr4.cur]; rfl
  subst e3
  exact ⟨m2, m3, hu, hr3⟩

/-- Cancelling an open group takes its edits back and leaves every history list alone. -/
theorem C23_cancel (k : Contract api) {m : Mgr C} {i : Nat} {cs : List C} {s s' : S}
    (hc : m.comp = some (i, cs)) (hch : Chain k.Done cs s s') :
    (m.cancel api s').2 = s ∧ (m.cancel api s').1.stacks = m.stacks ∧
      (m.cancel api s').1.comp = none := by
  obtain ⟨cs', h1, _⟩ := chain_undo k cs hch
  simp [Mgr.cancel, hc, Entry.undo, h1]

/-- The stack of a finished group stays remembered: a group on another stack is then refused
although none is open. -/
theorem C23_other_stack_fails :
    ∃ m1 m2 m3 : Mgr Nat, m1 = (Mgr.create (Mgr.create Mgr.new).2).2 ∧
      m1.begin (some 1) = (true, m2) ∧ m2.end = some m3 ∧ m3.comp = none ∧ m3.level = 0 ∧
      (m3.begin (some 2)).1 = false :=
  ⟨_, _, _, rfl, rfl, rfl, rfl, rfl, rfl⟩

/-- Cancelling an inner group closes the outer one as well: later commands of the outer group become
history entries of their own. -/
theorem C23_inner_cancel_fails :
    ∃ (api : CmdApi Nat Nat) (m1 m2 m4 m5 m6 : Mgr Nat),
      (Mgr.new : Mgr Nat).begin none = (true, m1) ∧ m1.begin none = (true, m2) ∧
      ((m2.cancel api 0).1).add api 1 none = (true, m4) ∧ m4.add api 2 none = (true, m5) ∧
      m5.end = some m6 ∧ (m6.stacks 0).map (·.undo.length) = some 2 :=
  ⟨⟨fun c s => (true, c, s), fun c s => (true, c, s), fun _ _ => false, fun a _ => (false, a)⟩,
    _, _, _, _, _, rfl, rfl, rfl, rfl, rfl, rfl⟩

/-- Deleting the stack of an open group makes ending the group panic. -/
theorem C23_deleted_stack_fails :
    ∃ (api : CmdApi Nat Nat) (m0 m1 m2 m3 : Mgr Nat), m0 = (Mgr.create Mgr.new).2 ∧
      m0.begin (some 1) = (true, m1) ∧ m1.add api 4 (some 1) = (true, m2) ∧
      m2.delete 1 = (true, m3) ∧ m3.end = none :=
  ⟨⟨fun c s => (true, c, s), fun c s => (true, c, s), fun _ _ => false, fun a _ => (false, a)⟩,
    _, _, _, _, rfl, rfl, rfl, rfl, rfl⟩

example : ∃ m', (Script.group (Script.add ([], [1]) (.group (.add ([1], [2]) .nil) .nil)) .nil).run
    snapApi none Mgr.new = some m' ∧ Holds snapContract m' none [2] ⟨[[]], [2], []⟩ := by
  obtain ⟨m', h1, h2, _⟩ := C23_group_is_one_step snapContract none
    (Script.add ([], [1]) (.group (.add ([1], [2]) .nil) .nil)) (C21_start snapContract []) rfl
    (Or.inl rfl) (by simp [Script.cmds]) (s' := [2]) (.cons rfl (.cons rfl .nil))
  exact ⟨m', h1, h2⟩

/-! ## C24 -/

/-- Same entries in the same order, up to the inner state of the command objects: a plain command
stays a plain command, a group keeps its number of commands. -/
def SameEntry : Entry C → Entry C → Prop
  | .single _, .single _ => True
  | .group a, .group b => a.length = b.length
  | _, _ => False

theorem runAll_length {f : C → S → Bool × C × S} (cs : List C) (s : S) :
    (runAll f cs s).2.1.length = cs.length := by
  induction cs generalizing s with
  | nil => rfl
  | cons c cs ih =>
    unfold runAll
    split
    · rename_i c' s' _
      have := ih s'
      split
      rename_i heq
      rw [heq] at this
      simpa using this
    · simp

/-- If undo reports an error, the failed command is still the next to be undone and both lists are
otherwise untouched, in this and all other stacks; likewise for redo. -/
theorem C24_failed_step_keeps_history (m m' : Mgr C) (sid : Option Nat) (s s' : S) :
    (m.undo api sid s = (false, m', s') →
      (m.stacks (sid.getD 0) = none ∧ m' = m ∧ s' = s) ∨
      ∃ e e' rest redo, m.stacks (sid.getD 0) = some ⟨e :: rest, redo⟩ ∧
        m'.stacks (sid.getD 0) = some ⟨e' :: rest, redo⟩ ∧ SameEntry e e' ∧
        ∀ j, j ≠ sid.getD 0 → m'.stacks j = m.stacks j) ∧
    (m.redo api sid s = (false, m', s') →
      (m.stacks (sid.getD 0) = none ∧ m' = m ∧ s' = s) ∨
      ∃ e e' rest undo, m.stacks (sid.getD 0) = some ⟨undo, e :: rest⟩ ∧
        m'.stacks (sid.getD 0) = some ⟨undo, e' :: rest⟩ ∧ SameEntry e e' ∧
        ∀ j, j ≠ sid.getD 0 → m'.stacks j = m.stacks j) := by
  have hsame : ∀ (e e' : Entry C) (s s' : S) (b : Bool), e.undo api s = (b, e', s') → SameEntry e e' := by
    intro e e' s s' b h
    cases e with
    | single c => simp only [Entry.undo, Prod.mk.injEq] at h; rw [← h.2.1]; trivial
    | group cs =>
      simp only [Entry.undo, Prod.mk.injEq] at h
      have := runAll_length (f := api.undo) cs.reverse s
      rw [← h.2.1]
      simp at this
      simp [SameEntry, this]
  have hsame' : ∀ (e e' : Entry C) (s s' : S) (b : Bool), e.redo api s = (b, e', s') → SameEntry e e' := by
    intro e e' s s' b h
    cases e with
    | single c => simp only [Entry.redo, Prod.mk.injEq] at h; rw [← h.2.1]; trivial
    | group cs =>
      simp only [Entry.redo, Prod.mk.injEq] at h
      have := runAll_length (f := api.redo) cs s
      rw [← h.2.1]
      simp [SameEntry, this]
  constructor
  · intro h
    unfold Mgr.undo at h
    split at h
    · rename_i hn; simp at h; exact Or.inl ⟨hn, h.1.symm, h.2.symm⟩
    · rename_i st hst
      obtain ⟨u, r⟩ := st
      simp only at h
      split at h
      · simp at h
      · rename_i e rest
        split at h
        · rename_i e' s1 heq
          simp only [Prod.mk.injEq, true_and] at h
          right
          refine ⟨e, e', rest, r, hst, ?_, hsame _ _ _ _ _ heq, ?_⟩
          · rw [← h.1]; exact setStack_same ..
          · intro j hj; rw [← h.1]; simp [Mgr.setStack, hj]
        · simp at h
  · intro h
    unfold Mgr.redo at h
    split at h
    · rename_i hn; simp at h; exact Or.inl ⟨hn, h.1.symm, h.2.symm⟩
    · rename_i st hst
      obtain ⟨u, r⟩ := st
      simp only at h
      split at h
      · simp at h
      · rename_i e rest
        split at h
        · rename_i e' s1 heq
          simp only [Prod.mk.injEq, true_and] at h
          right
          refine ⟨e, e', rest, u, hst, ?_, hsame' _ _ _ _ _ heq, ?_⟩
          · rw [← h.1]; exact setStack_same ..
          · intro j hj; rw [← h.1]; simp [Mgr.setStack, hj]
        · simp at h

/-- A successful undo moves exactly one entry from the undo to the redo list, a successful redo
moves one back. -/
theorem C24_successful_step (m m' : Mgr C) (sid : Option Nat) (s s' : S) (e : Entry C)
    (rest other : List (Entry C)) :
    (m.stacks (sid.getD 0) = some ⟨e :: rest, other⟩ → m.undo api sid s = (true, m', s') →
      ∃ e', m'.stacks (sid.getD 0) = some ⟨rest, e' :: other⟩) ∧
    (m.stacks (sid.getD 0) = some ⟨other, e :: rest⟩ → m.redo api sid s = (true, m', s') →
      ∃ e', m'.stacks (sid.getD 0) = some ⟨e' :: other, rest⟩) := by
  constructor
  · intro hs h
    simp only [Mgr.undo, hs] at h
    split at h
    · simp at h
    · rename_i e' s1 _
      simp only [Prod.mk.injEq, true_and] at h
      exact ⟨e', by rw [← h.1]; exact setStack_same ..⟩
  · intro hs h
    simp only [Mgr.redo, hs] at h
    split at h
    · simp at h
    · rename_i e' s1 _
      simp only [Prod.mk.injEq, true_and] at h
      exact ⟨e', by rw [← h.1]; exact setStack_same ..⟩

/-- When a command inside a group fails to undo, the later ones of the group have already been
undone: the document is left half way although the group is still listed as done. -/
theorem C24_group_half_undone_fails :
    ∃ (m m' : Mgr (List Nat × List Nat)) (s' : List Nat),
      m.stacks 0 = some ⟨[.group [([], [1]), ([5], [6])]], []⟩ ∧
      m.undo snapApi none [6] = (false, m', s') ∧ s' = [5] ∧
      m'.stacks 0 = some ⟨[.group [([], [1]), ([5], [6])]], []⟩ :=
  ⟨{ (Mgr.new : Mgr (List Nat × List Nat)) with
      stacks := fun _ => some ⟨[.group [([], [1]), ([5], [6])]], []⟩ }, _, _, rfl, rfl, rfl, rfl⟩

example : ∃ m' s', ({ (Mgr.new : Mgr (List Nat × List Nat)) with
      stacks := fun _ => some ⟨[.single ([], [1])], []⟩ }).undo snapApi none [9] = (false, m', s') :=
  ⟨_, _, rfl⟩

/-! ## C25 -/

/-- The calls of the manager that name a stack, with the stack they concern. -/
inductive MgrCall (C : Type) where
  | undo (sid : Option Nat)
  | redo (sid : Option Nat)
  | add (c : C) (sid : Option Nat)
  | clear (i : Nat)
  | delete (i : Nat)
  | begin (sid : Option Nat)
  | finish
  | cancel
  | create

def MgrCall.run (api : CmdApi C S) : MgrCall C → Mgr C → S → Option (Mgr C × S)
  | .undo sid, m, s => some (m.undo api sid s).2
  | .redo sid, m, s => some (m.redo api sid s).2
  | .add c sid, m, s => some ((m.add api c sid).2, s)
  | .clear i, m, s => some (m.clearStack i, s)
  | .delete i, m, s => some ((m.delete i).2, s)
  | .begin sid, m, s => some ((m.begin sid).2, s)
  | .finish, m, s => m.end.map fun m' => (m', s)
  | .cancel, m, s => some (m.cancel api s)
  | .create, m, s => some (m.create.2, s)

/-- The stack a call concerns. -/
def MgrCall.target : MgrCall C → Mgr C → Option Nat
  | .undo sid, _ => some (sid.getD 0)
  | .redo sid, _ => some (sid.getD 0)
  | .add _ sid, _ => some (sid.getD 0)
  | .clear i, _ => some i
  | .delete i, _ => some i
  | .begin _, _ => none
  | .finish, m => some (m.compStack.getD 0)
  | .cancel, _ => none
  | .create, m => some m.next

theorem end_cases {m m' : Mgr C} (h : m.end = some m') :
    m'.next = m.next ∧ (m'.stacks = m.stacks ∨ ∃ st x, m.stacks (m.compStack.getD 0) = some st ∧
      m'.stacks = (m.setStack (m.compStack.getD 0) (some x)).stacks) := by
  unfold Mgr.end at h
  simp only at h
  split at h
  · split at h
    · split at h
      · simp only [Option.some.injEq] at h; subst h; exact ⟨rfl, Or.inl rfl⟩
      · split at h
        · simp at h
        · rename_i st hst
          simp only [Option.some.injEq] at h; subst h; exact ⟨rfl, Or.inr ⟨st, _, hst, rfl⟩⟩
    · simp only [Option.some.injEq] at h; subst h; exact ⟨rfl, Or.inl rfl⟩
  · simp only [Option.some.injEq] at h; subst h; exact ⟨rfl, Or.inl rfl⟩

/-- A call never changes the lists of any stack but its own. -/
theorem C25_isolated (call : MgrCall C) (m m' : Mgr C) (s s' : S) (j : Nat)
    (h : call.run api m s = some (m', s')) (hj : some j ≠ call.target m) :
    m'.stacks j = m.stacks j := by
  have hset : ∀ (m : Mgr C) (i : Nat) (x : Option (Stack C)), j ≠ i → (m.setStack i x).stacks j = m.stacks j := by
    intro m i x h; simp [Mgr.setStack, h]
  cases call with
  | undo sid =>
    simp only [MgrCall.target, ne_eq, Option.some.injEq] at hj
    simp only [MgrCall.run, Option.some.injEq] at h
    unfold Mgr.undo at h
    split at h
    · simp at h; rw [← h.1]
    · split at h
      · simp at h; rw [← h.1]
      · split at h <;> · simp at h; rw [← h.1]; exact hset _ _ _ hj
  | redo sid =>
    simp only [MgrCall.target, ne_eq, Option.some.injEq] at hj
    simp only [MgrCall.run, Option.some.injEq] at h
    unfold Mgr.redo at h
    split at h
    · simp at h; rw [← h.1]
    · split at h
      · simp at h; rw [← h.1]
      · split at h <;> · simp at h; rw [← h.1]; exact hset _ _ _ hj
  | add c sid =>
    simp only [MgrCall.target, ne_eq, Option.some.injEq] at hj
    simp only [MgrCall.run, Option.some.injEq, Prod.mk.injEq] at h
    rw [← h.1]
    unfold Mgr.add
    split
    · split <;> rfl
    · split
      · rfl
      · split
        · exact hset _ _ _ hj
        · split <;> exact hset _ _ _ hj
  | clear i =>
    simp only [MgrCall.target, ne_eq, Option.some.injEq] at hj
    simp only [MgrCall.run, Option.some.injEq, Prod.mk.injEq] at h
    rw [← h.1]
    unfold Mgr.clearStack
    split
    · rfl
    · exact hset _ _ _ hj
  | delete i =>
    simp only [MgrCall.target, ne_eq, Option.some.injEq] at hj
    simp only [MgrCall.run, Option.some.injEq, Prod.mk.injEq] at h
    rw [← h.1]
    unfold Mgr.delete
    split
    · rfl
    · split
      · exact hset _ _ _ hj
      · rfl
  | begin sid =>
    simp only [MgrCall.run, Option.some.injEq, Prod.mk.injEq] at h
    rw [← h.1]
    unfold Mgr.begin
    split <;> rfl
  | finish =>
    simp only [MgrCall.target, ne_eq, Option.some.injEq] at hj
    simp only [MgrCall.run, Option.map_eq_some_iff, Prod.mk.injEq] at h
    obtain ⟨m1, h1, rfl, _⟩ := h
    rcases (end_cases h1).2 with e | ⟨st, x, _, e⟩
    · rw [e]
    · rw [e]; exact hset _ _ _ hj
  | cancel =>
    simp only [MgrCall.run, Option.some.injEq] at h
    have : m' = (m.cancel api s).1 := by rw [h]
    rw [this]; rfl
  | create =>
    simp only [MgrCall.target, ne_eq, Option.some.injEq] at hj
    simp only [MgrCall.run, Option.some.injEq, Prod.mk.injEq] at h
    rw [← h.1]
    exact hset _ _ _ hj

/-- States reachable from a new manager by any calls. -/
inductive MgrReach (api : CmdApi C S) : Mgr C → Prop where
  | new : MgrReach api Mgr.new
  | step {m m' s s'} (call : MgrCall C) : MgrReach api m → call.run api m s = some (m', s') →
      MgrReach api m'
  | clearAll {m} : MgrReach api m → MgrReach api m.clearAll

theorem next_le_of_call (call : MgrCall C) (m m' : Mgr C) (s s' : S)
    (h : call.run api m s = some (m', s')) :
    m.next ≤ m'.next ∧ ∀ j, (m'.stacks j).isSome → (m.stacks j).isSome ∨ j < m'.next := by
  by_cases hcr : call = .create
  · subst hcr
    simp only [MgrCall.run, Option.some.injEq, Prod.mk.injEq] at h
    rw [← h.1]
    refine ⟨by simp [Mgr.create], ?_⟩
    intro j hj
    by_cases hjn : j = m.next
    · right; simp [Mgr.create, hjn]
    · left; simpa [Mgr.create, Mgr.setStack, hjn] using hj
  · have hnext : m'.next = m.next := by
      cases call with
      | undo sid =>
        simp only [MgrCall.run, Option.some.injEq] at h
        unfold Mgr.undo at h
        (repeat' split at h) <;> · simp at h; rw [← h.1]; try rfl
      | redo sid =>
        simp only [MgrCall.run, Option.some.injEq] at h
        unfold Mgr.redo at h
        (repeat' split at h) <;> · simp at h; rw [← h.1]; try rfl
      | add c sid =>
        simp only [MgrCall.run, Option.some.injEq, Prod.mk.injEq] at h
        rw [← h.1]; unfold Mgr.add
        repeat' split
        all_goals rfl
      | clear i =>
        simp only [MgrCall.run, Option.some.injEq, Prod.mk.injEq] at h
        rw [← h.1]; unfold Mgr.clearStack; split <;> rfl
      | delete i =>
        simp only [MgrCall.run, Option.some.injEq, Prod.mk.injEq] at h
        rw [← h.1]; unfold Mgr.delete
        repeat' split
        all_goals rfl
      | begin sid =>
        simp only [MgrCall.run, Option.some.injEq, Prod.mk.injEq] at h
        rw [← h.1]; unfold Mgr.begin; split <;> rfl
      | finish =>
        simp only [MgrCall.run, Option.map_eq_some_iff, Prod.mk.injEq] at h
        obtain ⟨m1, h1, rfl, _⟩ := h
        exact (end_cases h1).1
      | cancel =>
        simp only [MgrCall.run, Option.some.injEq] at h
        have : m' = (m.cancel api s).1 := by rw [h]
        rw [this]; rfl
      | create => exact absurd rfl hcr
    refine ⟨by omega, ?_⟩
    intro j hj
    left
    by_cases htj : some j = call.target m
    · -- the target existed already, or is left as it was
      cases hm : m.stacks j with
      | some x => rfl
      | none =>
        exfalso
        cases call with
        | undo sid =>
          simp only [MgrCall.target, Option.some.injEq] at htj
          subst htj
          simp only [MgrCall.run, Option.some.injEq, Mgr.undo, hm, Prod.mk.injEq] at h
          rw [← h.1, hm] at hj; simp at hj
        | redo sid =>
          simp only [MgrCall.target, Option.some.injEq] at htj
          subst htj
          simp only [MgrCall.run, Option.some.injEq, Mgr.redo, hm, Prod.mk.injEq] at h
          rw [← h.1, hm] at hj; simp at hj
        | add c sid =>
          simp only [MgrCall.target, Option.some.injEq] at htj
          subst htj
          simp only [MgrCall.run, Option.some.injEq, Prod.mk.injEq] at h
          have : m'.stacks (sid.getD 0) = none := by
            rw [← h.1]; unfold Mgr.add
            split
            · split <;> exact hm
            · simp only [hm]
          rw [this] at hj; simp at hj
        | clear i =>
          simp only [MgrCall.target, Option.some.injEq] at htj
          subst htj
          simp only [MgrCall.run, Option.some.injEq, Mgr.clearStack, hm, Prod.mk.injEq] at h
          rw [← h.1, hm] at hj; simp at hj
        | delete i =>
          simp only [MgrCall.target, Option.some.injEq] at htj
          subst htj
          simp only [MgrCall.run, Option.some.injEq, Mgr.delete, hm, Prod.mk.injEq] at h
          have : m'.stacks j = none := by rw [← h.1]; split <;> exact hm
          rw [this] at hj; simp at hj
        | begin sid => simp [MgrCall.target] at htj
        | finish =>
          simp only [MgrCall.target, Option.some.injEq] at htj
          subst htj
          simp only [MgrCall.run, Option.map_eq_some_iff, Prod.mk.injEq] at h
          obtain ⟨m1, h1, rfl, _⟩ := h
          have : m1.stacks (m.compStack.getD 0) = none := by
            rcases (end_cases h1).2 with e | ⟨st, x, e, _⟩
            · rw [e]; exact hm
            · rw [hm] at e; simp at e
          rw [this] at hj; simp at hj
        | cancel => simp [MgrCall.target] at htj
        | create => exact hcr rfl
    · rw [C25_isolated call m m' s s' j h htj] at hj
      exact hj

/-- The root stack exists in every reachable state, deleting it is refused, and a new stack never
takes over an existing one. -/
theorem C25_root_and_fresh {m : Mgr C} (h : MgrReach api m) :
    (m.stacks 0).isSome ∧ (m.delete 0) = (false, m) ∧ m.stacks m.create.1 = none := by
  have inv : (m.stacks 0).isSome ∧ 0 < m.next ∧ ∀ j, (m.stacks j).isSome → j < m.next := by
    induction h with
    | new =>
      refine ⟨rfl, by simp [Mgr.new], ?_⟩
      intro j hj
      simp only [Mgr.new] at hj ⊢
      by_cases h0 : j = 0
      · omega
      · simp [h0] at hj
    | @step m m' s s' call _ hr ih =>
      obtain ⟨i1, i2, i3⟩ := ih
      obtain ⟨h1, h2⟩ := next_le_of_call call m m' s s' hr
      refine ⟨?_, by omega, ?_⟩
      · by_cases ht : some 0 = call.target m
        · cases call with
          | undo sid =>
            simp only [MgrCall.target, Option.some.injEq] at ht
            simp only [MgrCall.run, Option.some.injEq] at hr
            unfold Mgr.undo at hr
            rw [← ht] at hr
            (repeat' split at hr) <;> · simp at hr; rw [← hr.1]; first | exact i1 | simp [Mgr.setStack]
          | redo sid =>
            simp only [MgrCall.target, Option.some.injEq] at ht
            simp only [MgrCall.run, Option.some.injEq] at hr
            unfold Mgr.redo at hr
            rw [← ht] at hr
            (repeat' split at hr) <;> · simp at hr; rw [← hr.1]; first | exact i1 | simp [Mgr.setStack]
          | add c sid =>
            simp only [MgrCall.target, Option.some.injEq] at ht
            simp only [MgrCall.run, Option.some.injEq, Prod.mk.injEq] at hr
            rw [← hr.1]; unfold Mgr.add
            rw [← ht]
            repeat' split
            all_goals first | exact i1 | simp [Mgr.setStack]
          | clear i =>
            simp only [MgrCall.target, Option.some.injEq] at ht
            simp only [MgrCall.run, Option.some.injEq, Prod.mk.injEq] at hr
            rw [← hr.1]; unfold Mgr.clearStack
            rw [← ht]
            split
            · exact i1
            · simp [Mgr.setStack]
          | delete i =>
            simp only [MgrCall.target, Option.some.injEq] at ht
            subst ht
            simp only [MgrCall.run, Option.some.injEq, Mgr.delete, if_true, Prod.mk.injEq] at hr
            rw [← hr.1]; exact i1
          | begin sid => simp [MgrCall.target] at ht
          | finish =>
            simp only [MgrCall.target, Option.some.injEq] at ht
            simp only [MgrCall.run, Option.map_eq_some_iff, Prod.mk.injEq] at hr
            obtain ⟨m1, hm1, rfl, _⟩ := hr
            rcases (end_cases hm1).2 with e | ⟨st, x, _, e⟩
            · rw [e]; exact i1
            · rw [e, ← ht]; simp [Mgr.setStack]
          | cancel => simp [MgrCall.target] at ht
          | create => simp only [MgrCall.target, Option.some.injEq] at ht; omega
        · rw [C25_isolated call m m' s s' 0 hr ht]; exact i1
      · intro j hj
        rcases h2 j hj with h | h
        · have := i3 j h; omega
        · exact h
    | clearAll _ ih =>
      obtain ⟨i1, i2, i3⟩ := ih
      refine ⟨by simpa [Mgr.clearAll] using i1, i2, ?_⟩
      intro j hj
      exact i3 j (by simpa [Mgr.clearAll] using hj)
  refine ⟨inv.1, by simp [Mgr.delete], ?_⟩
  cases hn : m.stacks m.create.1 with
  | none => rfl
  | some x =>
    have : m.next < m.next := inv.2.2 m.next (by
      have : m.create.1 = m.next := rfl
      rw [← this, hn]; rfl)
    omega

/-- While a group is open on one history, a command for another is refused and changes nothing. -/
theorem C25_group_keeps_to_its_stack (m : Mgr C) (c : C) (i : Nat) (cs : List C) (sid : Option Nat)
    (hc : m.comp = some (i, cs)) (hi : i ≠ sid.getD 0) : m.add api c sid = (false, m) := by
  simp only [Mgr.add, hc, if_pos hi]

example : ∃ m : Mgr (List Nat × List Nat), (Mgr.new.create.2.begin (some 1)) = (true, m) ∧
    m.add snapApi ([], [1]) none = (false, m) := ⟨_, rfl, rfl⟩

/-- After clearing every history nothing can be undone or redone on any of them, also once an open group is
ended or cancelled; the same histories exist. -/
theorem C25_clear_all (m : Mgr C) (sid : Option Nat) (s : S) :
    m.clearAll.canUndo sid = false ∧ m.clearAll.canRedo sid = false ∧
    (∃ m', m.clearAll.end = some m' ∧ m'.canUndo sid = false ∧ m'.canRedo sid = false) ∧
    ((m.clearAll.cancel api s).1.canUndo sid = false ∧ (m.clearAll.cancel api s).2 = s) ∧
    (∀ i, (m.clearAll.stacks i).isSome = (m.stacks i).isSome) := by
  have h1 : ∀ m' : Mgr C, m'.stacks = m.clearAll.stacks → m'.canUndo sid = false ∧ m'.canRedo sid = false := by
    intro m' h
    unfold Mgr.canUndo Mgr.canRedo
    rw [h]
    simp only [Mgr.clearAll]
    cases m.stacks (sid.getD 0) <;> simp
  refine ⟨(h1 _ rfl).1, (h1 _ rfl).2, ⟨m.clearAll, by simp [Mgr.end, Mgr.clearAll], h1 _ rfl⟩,
    ⟨(h1 _ rfl).1, by simp [Mgr.cancel, Mgr.clearAll]⟩, ?_⟩
  intro i
  simp [Mgr.clearAll]

example : MgrReach snapApi ((Mgr.new : Mgr (List Nat × List Nat)).create).2 :=
  .step (s := []) (s' := []) .create .new rfl

end Verif
