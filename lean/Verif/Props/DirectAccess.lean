import Verif.Lemmas.EntRel
import Verif.Lemmas.EntCheck
import Verif.Lemmas.Properties
import Verif.Model.PlainText
import Verif.Model.TableCommands
/-
C87: removing entities.  C88: undo and redo of the entity commands.  C89: calls and references.
C90: relationships.
-/
namespace Verif
variable {s : Store}

/-! ### A document to try things on: a new one with a table of two rows and two columns -/

def entSample : Store := ((Store.newStore.bind fun s => s.insertTable 0 0 2 2).map Prod.fst).getD Store.empty

theorem entSample_tidy : Tidy entSample := tidyB_ok (by decide +kernel)
theorem entSample_ahead : Ahead entSample := aheadB_ok (by decide +kernel)

/-! ### C87 -/

theorem Forgot.same {g : EKind → Nat → Bool} {s t u : Store} (h : Forgot g s t) (hc : u.content = t.content)
    (hn : u.counters = t.counters) : Forgot g s u := by
  have e := Store.eq_over hc
  refine ⟨?_, ?_, ?_, ?_, ?_, ?_, ?_, ?_, hn.trans h.counters⟩
  · intro k i; rw [Store.tab_of_content hc]; exact h.tab k i
  · intro k; rw [Store.tab_of_content hc]; exact h.keys k
  all_goals rw [e]
  · exact h.runs
  · exact h.runKeys
  · exact h.images
  · exact h.imageKeys
  · exact h.rope
  · exact h.offsets

/-- Removing entities that exist removes exactly them and everything they own, however deep, and no
reference to any of it is left; everything else stays as it is. -/
theorem C87_remove (ht : Tidy s) (k : EKind) (ids : List Nat) (hex : ∀ i ∈ ids, (s.tab k i).isSome = true) :
    ∃ c s' gone, (EntCall.remove k ids).exec s = (some c, s') ∧
      (∀ k' i, i ≠ 0 → (gone k' i = true ↔ Goes s k ids k' i)) ∧ Forgot gone s s' ∧ Tidy s' := by
  have ht1 : Tidy s.beginWrite.2 := Tidy.congr (s := s) rfl ht
  obtain ⟨g, t, e, r⟩ := removeEnts_spec ht1 k ids
  obtain ⟨u, e1, e2, e3⟩ := Store.inTx_some (s := s) (a := (⟨some s.beginWrite.2.snapshot, some ids⟩ : RemoveCmd))
    (f := fun s => if ids.all fun i => (s.tab k i).isSome then
      (s.removeEnts k ids).map fun t => (⟨some s.snapshot, some ids⟩, t) else none) (u := t) (by
    show (if ids.all (fun i => (s.beginWrite.2.tab k i).isSome) then _ else none) = _
    rw [if_pos, e]
    · rfl
    · rw [List.all_eq_true]
      intro i hi
      have := hex i hi
      cases k <;> exact this)
  have htab : ∀ k, s.beginWrite.2.tab k = s.tab k := fun k => by cases k <;> rfl
  have hgo : ∀ k' i, Goes s.beginWrite.2 k ids k' i ↔ Goes s k ids k' i := by
    intro k' i
    constructor
    · intro h
      induction h with
      | self h => exact .self h
      | owned _ h1 h2 ih => exact .owned ih (htab _ ▸ h1) h2
    · intro h
      induction h with
      | self h => exact .self h
      | owned _ h1 h2 ih => exact .owned ih ((htab _).symm ▸ h1) h2
  have hf : Forgot g s t := by
    obtain ⟨a1, a2, a3, a4, a5, a6, a7, a8, a9⟩ := r.forgot
    simp only [htab] at a1 a2
    exact ⟨a1, a2, a3, a4, a5, a6, a7, a8, a9⟩
  refine ⟨.remove k ⟨some s.beginWrite.2.snapshot, some ids⟩, u, g, ?_, ?_, hf.same e2 e3, (ht1.forgot r.forgot).congr e2.symm⟩
  · simp only [EntCall.exec, RemoveCmd.exec]
    rw [e1]
    rfl
  · intro k' i h0
    rw [r.iff k' i h0, hgo]

/-- Removing an entity that does not exist is refused. -/
theorem C87_missing (k : EKind) (ids : List Nat) (h : ∃ i ∈ ids, s.tab k i = none) :
    ((EntCall.remove k ids).exec s).1 = none := by
  obtain ⟨i, hi, hn⟩ := h
  obtain ⟨t, e, _⟩ := Store.inTx_none (α := RemoveCmd) (s := s)
    (f := fun s => if ids.all fun i => (s.tab k i).isSome then
      (s.removeEnts k ids).map fun t => (⟨some s.snapshot, some ids⟩, t) else none) (by
    show (if ids.all (fun i => (s.beginWrite.2.tab k i).isSome) then _ else none) = _
    rw [if_neg]
    rw [List.all_eq_true]
    intro hh
    have := hh i hi
    rw [show s.beginWrite.2.tab k = s.tab k by cases k <;> rfl, hn] at this
    cases this)
  simp only [EntCall.exec, RemoveCmd.exec, e]
  rfl

/-- Removing the table: its four cells go, and the document and the frames forget it. -/
example : (∀ i ∈ [1], (entSample.tab .table i).isSome = true) ∧
    (((EntCall.remove .table [1]).exec entSample).2.tableCells 3).isNone = true ∧
    (entSample.tableCells 3).isSome = true ∧
    ((EntCall.remove .table [1]).exec entSample).2.readRel .docTables 1 = [] ∧
    (((EntCall.remove .table [1]).exec entSample).2.frames 3).isSome = true := by
  decide +kernel

/-- The place of a removed frame among the children of its parent is kept: the entry of the table's
frame is still there when the frame is not. -/
theorem C87_child_order_fails :
    ∃ (s : Store) (f p : Frame), Tidy s ∧ s.frames 6 = some f ∧ f.parentFrame = some 1 ∧
      (((EntCall.remove .frame [6]).exec s).1).isSome = true ∧
      ((EntCall.remove .frame [6]).exec s).2.frames 6 = none ∧
      ((EntCall.remove .frame [6]).exec s).2.frames 1 = some p ∧ (-6) ∈ p.childOrder := by
  have h1 : (entSample.frames 6).isSome = true := by decide +kernel
  have h2 : (((EntCall.remove .frame [6]).exec entSample).2.frames 1).isSome = true := by decide +kernel
  refine ⟨entSample, (entSample.frames 6).get h1, (((EntCall.remove .frame [6]).exec entSample).2.frames 1).get h2,
    entSample_tidy, by simp, ?_, ?_, ?_, by simp, ?_⟩ <;> decide +kernel +revert

/-! ### C89 -/

/-- A call that reports an error has changed nothing: neither the content, nor the ids to be given out,
nor the history. -/
theorem C89_error (sid : Option Nat) (a : EntCall) (m : Mgr EntCmd) (h : (a.exec s).1 = none) :
    (a.run sid m s).1 = false ∧ (a.run sid m s).2.1 = m ∧ (a.run sid m s).2.2.content = s.content ∧
      (a.run sid m s).2.2.counters = s.counters := by
  have key : ∀ {α : Type} (q : Option α × Store) (g : α → EntCmd), (∃ f, q = s.inTx f) →
      a.exec s = (q.1.map g, q.2) →
      (a.exec s).2.content = s.content ∧ (a.exec s).2.counters = s.counters := by
    rintro α _ g ⟨f, rfl⟩ he
    rw [he] at h ⊢
    simp only [Option.map_eq_none_iff] at h
    cases hf : f s.beginWrite.2 with
    | none =>
      obtain ⟨t, e1, e2, e3⟩ := Store.inTx_none hf
      rw [e1]; exact ⟨e2, e3⟩
    | some p =>
      obtain ⟨t, e1, _⟩ := Store.inTx_some (a := p.1) (u := p.2) hf
      rw [e1] at h; cases h
  have hk : (a.exec s).2.content = s.content ∧ (a.exec s).2.counters = s.counters := by
    cases a with
    | create k es owner index => exact key (CreateCmd.exec k es owner index s) (.create k) ⟨_, rfl⟩ rfl
    | orphan k es => exact key (orphanExec k es s) (.orphan k) ⟨_, rfl⟩ rfl
    | update rels k es => exact key (updateExec rels k es s) (.update rels k) ⟨_, rfl⟩ rfl
    | remove k ids => exact key (RemoveCmd.exec k ids s) (.remove k) ⟨_, rfl⟩ rfl
    | setRel r id ids => exact key (RelCmd.exec (setAct r) (id, ids) s) (.setRel r) ⟨_, rfl⟩ rfl
    | moveRel r id ids index => exact key (RelCmd.exec (moveAct r) (id, ids, index) s) (.moveRel r) ⟨_, rfl⟩ rfl
  have hrun : a.run sid m s = (false, m, (a.exec s).2) := by
    unfold EntCall.run
    cases he : a.exec s with
    | mk c t =>
      rw [he] at h
      cases c with
      | none => rfl
      | some c => cases h
  rw [hrun]
  exact ⟨rfl, rfl, hk⟩

/-- Calls that respect the preconditions succeed, leave no dangling reference and give out no id
twice. -/
theorem C89_valid (ht : Tidy s) (ha : Ahead s) (a : EntCall) (hv : a.Valid s) :
    ∃ c s', a.exec s = (some c, s') ∧ Tidy s' ∧ Ahead s' := by
  obtain ⟨c, t, e1, _, e2, e3, _⟩ := ent_exec ht ha hv
  exact ⟨c, t, e1, e2, e3⟩

example : (EntCall.create .block [{ fmtHeadingLevel := some 1 }, {}] 1 0).Valid entSample :=
  ⟨by decide, (by intro h; cases h), by
    intro e he
    simp only [List.mem_cons, List.not_mem_nil, or_false] at he
    rcases he with rfl | rfl <;>
      exact ⟨rfl, rfl, by simp [owns], by simp [mentions], trivial⟩⟩

/-- A document cannot be belong to two roots, nor a relationship be set to something that does not
exist. -/
theorem C89_set_refused (r : RelField) (id : Nat) (ids : List Nat)
    (h : (∃ i ∈ ids, s.tab r.right i = none) ∨ (r = .rootDocument ∧ ∃ d o x, ids.head? = some d ∧ d ≠ 0 ∧ o ≠ id ∧
      s.roots o = some x ∧ x.document = d)) :
    ((EntCall.setRel r id ids).exec s).1 = none := by
  obtain ⟨t, e, _⟩ := Store.inTx_none (α := RelCmd (Nat × List Nat)) (s := s)
    (f := fun s => (setAct r (id, ids) s.createSavepoint.2).map fun t => (⟨[s.createSavepoint.1], [(id, ids)]⟩, t)) (by
    rw [Option.map_eq_none_iff]
    have htab : ∀ k, s.beginWrite.2.createSavepoint.2.tab k = s.tab k := fun k => by cases k <;> rfl
    show s.beginWrite.2.createSavepoint.2.setRel r id ids = none
    unfold Store.setRel
    rcases h with ⟨i, hi, hn⟩ | ⟨rfl, d, o, x, h1, h2, h3, h4, h5⟩
    · rw [if_neg]
      rw [List.all_eq_true]
      intro hh
      have := hh i hi
      rw [htab, hn] at this
      cases this
    · split
      · rw [if_pos]
        refine ⟨rfl, ?_⟩
        rw [h1]
        simp only [Option.all_some, Bool.not_eq_true', Store.soleDoc, Bool.or_eq_false_iff, beq_eq_false_iff_ne]
        refine ⟨h2, ?_⟩
        rw [List.all_eq_false]
        refine ⟨o, (s.roots.mem o).mpr (by simp [h4]), ?_⟩
        rw [show s.beginWrite.2.createSavepoint.2.roots = s.roots from rfl, h4]
        simp [h3, h5]
      · rfl)
  simp only [EntCall.exec, RelCmd.exec, e]
  rfl

/-- Creation only adds to a table. -/
theorem insertNew_grows {k : EKind} {e : Ent k} {p : Ent k × Store} (h : s.insertNew k e = some p) (i : Nat)
    (hi : (s.tab k i).isSome = true ∨ entId k e = i ∧ i ≠ 0) : (p.2.tab k i).isSome = true := by
  have hput : ∀ (m : IdMap (Ent k)) (t : Store), (t.withTab k m).tab k = m := fun m t => by cases k <;> rfl
  unfold Store.insertNew at h
  by_cases h0 : entId k e = 0
  · rw [if_pos h0] at h
    dsimp only at h
    split at h
    · cases h
      simp only [hput, IdMap.insert]
      split
      · rfl
      · rcases hi with hi | ⟨rfl, hi⟩
        · rw [show (s.nextId k.counter).2.tab k = s.tab k by cases k <;> rfl]; exact hi
        · exact absurd h0 hi
    · cases h
  · rw [if_neg h0] at h
    split at h
    · cases h
    · dsimp only at h
      split at h
      · cases h
        simp only [hput, IdMap.insert]
        split
        · rfl
        · rcases hi with hi | ⟨rfl, hi⟩
          · exact hi
          · rename_i hne; exact absurd rfl hne
      · cases h

theorem insertNews_used {k : EKind} : ∀ (es : List (Ent k)) (s : Store),
    (∃ e ∈ es, entId k e ≠ 0 ∧ (s.tab k (entId k e)).isSome = true) → Store.insertNews k es s = none := by
  intro es
  induction es with
  | nil => intro s ⟨_, h, _⟩; cases h
  | cons x es ih =>
    intro s ⟨e, he, h0, hs⟩
    simp only [Store.insertNews]
    rcases List.mem_cons.mp he with rfl | he
    · have : s.insertNew k e = none := by
        unfold Store.insertNew
        rw [if_neg h0, if_pos hs]
      rw [this]; rfl
    · cases hn : s.insertNew k x with
      | none => rfl
      | some p =>
        rw [Option.bind_some, ih p.2 ⟨e, he, h0, insertNew_grows hn _ (.inl hs)⟩]
        rfl

theorem insertNews_twice {k : EKind} : ∀ (a : List (Ent k)) (x : Ent k) (b : List (Ent k)) (s : Store),
    (∃ e ∈ b, entId k e = entId k x ∧ entId k x ≠ 0) → Store.insertNews k (a ++ x :: b) s = none := by
  intro a
  induction a with
  | nil =>
    intro x b s ⟨e, he, h1, h0⟩
    simp only [List.nil_append, Store.insertNews]
    cases hn : s.insertNew k x with
    | none => rfl
    | some p =>
      rw [Option.bind_some, insertNews_used b p.2 ⟨e, he, by rw [h1]; exact h0, insertNew_grows hn _ (.inr ⟨h1.symm, by rw [h1]; exact h0⟩)⟩]
      rfl
  | cons y a ih =>
    intro x b s h
    simp only [List.cons_append, Store.insertNews]
    cases hn : s.insertNew k y with
    | none => rfl
    | some p => rw [Option.bind_some, ih x b p.2 h]; rfl

/-- Creating an entity with an id that is in use, or two entities with one id, is refused, with an owner
and without: nothing is overwritten. -/
theorem C89_id_in_use {k : EKind} (es : List (Ent k))
    (h : (∃ e ∈ es, entId k e ≠ 0 ∧ (s.tab k (entId k e)).isSome = true) ∨
      ∃ a x b, es = a ++ x :: b ∧ ∃ e ∈ b, entId k e = entId k x ∧ entId k x ≠ 0) (owner : Nat) (index : Int) :
    ((EntCall.create k es owner index).exec s).1 = none ∧ ((EntCall.orphan k es).exec s).1 = none := by
  have hn : Store.insertNews k es s.beginWrite.2 = none := by
    rcases h with ⟨e, he, h0, hs⟩ | ⟨a, x, b, rfl, h⟩
    · exact insertNews_used es _ ⟨e, he, h0, by rw [show s.beginWrite.2.tab k = s.tab k by cases k <;> rfl]; exact hs⟩
    · exact insertNews_twice a x b _ h
  constructor
  · simp only [EntCall.exec, CreateCmd.exec, Store.inTx, Store.createIn, hn, Option.bind_none, Option.map_none]
  · simp only [EntCall.exec, orphanExec, Store.inTx, hn, Option.map_none]

example : (∃ e ∈ [({ id := 2 } : Block)], entId .block e ≠ 0 ∧ (entSample.tab .block (entId .block e)).isSome = true) ∧
    (entSample.blocks 2).isSome = true := by
  refine ⟨⟨{ id := 2 }, .head _, by decide, by decide +kernel⟩, by decide +kernel⟩

/-- Moving ids within a relationship checks nothing: it can add an entity that does not exist. -/
theorem C89_move_dangling_fails :
    ∃ (s : Store), Tidy s ∧ s.blocks 99 = none ∧ (((EntCall.moveRel .frameBlocks 1 [99] 0).exec s).1).isSome = true ∧
      99 ∈ ((EntCall.moveRel .frameBlocks 1 [99] 0).exec s).2.readRel .frameBlocks 1 ∧
      ((EntCall.moveRel .frameBlocks 1 [99] 0).exec s).2.blocks 99 = none :=
  ⟨entSample, entSample_tidy, by decide +kernel, by decide +kernel, by decide +kernel, by decide +kernel⟩

/-- Nor do updates with relationships, or the creation of entities that come with relationships. -/
theorem C89_update_dangling_fails :
    ∃ (s : Store), Tidy s ∧ s.lists 7 = none ∧
      (((EntCall.update true .block [{ id := 1, list := some 7 }]).exec s).1).isSome = true ∧
      ((EntCall.update true .block [{ id := 1, list := some 7 }]).exec s).2.readRel .blockList 1 = [7] ∧
      (((EntCall.create .block [{ list := some 7 }] 1 0).exec s).1).isSome = true ∧
      7 ∈ ((EntCall.create .block [{ list := some 7 }] 1 0).exec s).2.blocks.keys.flatMap fun i =>
        ((EntCall.create .block [{ list := some 7 }] 1 0).exec s).2.readRel .blockList i :=
  ⟨entSample, entSample_tidy, by decide +kernel, by decide +kernel, by decide +kernel, by decide +kernel,
    by decide +kernel⟩

/-! ### C88 -/

theorem ent_start {m : Mgr EntCmd} {sid : Option Nat} (hm : NoHistory m sid) (ht : Tidy s) (ha : Ahead s) :
    (entContract s.counters).Holds (fun _ => True) m sid s s.content ⟨[], s.content, []⟩ :=
  ⟨⟨{}, [], hm.stack, .nil, .nil, rfl, (by intro e he; cases he), (by intro e he; cases he)⟩, hm.idle, hm.level, hm.comp,
    rfl, rfl, rfl, GoodAt.of ht ha⟩

theorem ent_step {m : Mgr EntCmd} {sid : Option Nat} {n : String → Option Nat} {x : Snapshot}
    {t : Timeline Snapshot} (h : (entContract n).Holds (fun _ => True) m sid s x t) (op : EntOp)
    (hv : ∀ a, op = .call a → a.Valid s ∨ (a.exec s).1 = none) :
    ∃ n' x', (entStep sid op m s t).1 = true ∧
      (entContract n').Holds (fun _ => True) (entStep sid op m s t).2.1 sid (entStep sid op m s t).2.2.1 x'
        (entStep sid op m s t).2.2.2 := by
  obtain ⟨hx, hn, hg⟩ := h.sees
  obtain ⟨ht, ha⟩ := hg s hx hn
  cases op with
  | call a =>
    rcases hv a rfl with hv | hv
    · obtain ⟨c, s', e1, e2, e3, e4, e5⟩ := ent_exec ht ha hv
      have hg1 : GoodAt s'.counters s.content := (GoodAt.of ht ha).mono e5
      have hg2 : GoodAt s'.counters s'.content := GoodAt.of e3 e4
      have hle : CountersLe n s'.counters := hn ▸ e5
      have h1 : (entContract s'.counters).Holds (fun _ => True) m sid { s with counters := s'.counters } x t :=
        ViewContract.Holds.transfer (k1 := entContract n) (k2 := entContract s'.counters) rfl rfl
          (fun c x y hd => ⟨hd.1, hd.2.1.mono hle, hd.2.2.mono hle⟩)
          (fun c x y hd => ⟨hd.1, hd.2.1.mono hle, hd.2.2.mono hle⟩)
          h ⟨hx, rfl, hg.mono hle⟩
      obtain ⟨m', t', f1, f2, f3⟩ := h1.add (c := c) (s' := s') (x' := s'.content)
        ⟨hx ▸ e2, hx ▸ hg1, hg2⟩ ⟨rfl, rfl, hg2⟩ (by intro o ho; cases ho) (by intro a _ ha; rfl)
      have hrun : a.run sid m s = (true, m', s') := by
        unfold EntCall.run
        rw [e1]
        simp only [f1]
      have ht' : t' = t.edit s'.content := by
        rcases f3 with h | ⟨_, _, a, ha⟩
        · exact h
        · cases ha
      subst ht'
      refine ⟨s'.counters, s'.content, ?_, ?_⟩
      · simp only [entStep]
      · simp only [entStep, hrun, if_true]
        exact f2
    · obtain ⟨e1, e2, e3, e4⟩ := C89_error sid a m hv
      refine ⟨n, x, ?_, ?_⟩
      · simp only [entStep]
      · simp only [entStep, e1, e2]
        exact h.transfer rfl rfl (fun _ _ _ h => h) (fun _ _ _ h => h) ⟨e3.trans hx, e4.trans hn, hg⟩
  | undo =>
    obtain ⟨m', s', x', e1, e2⟩ := h.undo
    refine ⟨n, x', ?_, ?_⟩
    · simp only [entStep, e1]
    · simp only [entStep, e1]; exact e2
  | redo =>
    obtain ⟨m', s', x', e1, e2⟩ := h.redo
    refine ⟨n, x', ?_, ?_⟩
    · simp only [entStep, e1]
    · simp only [entStep, e1]; exact e2

theorem ent_steps {sid : Option Nat} (ops : List EntOp) : ∀ {m : Mgr EntCmd} {s : Store}
    {n : String → Option Nat} {x : Snapshot} {t : Timeline Snapshot},
    (entContract n).Holds (fun _ => True) m sid s x t → ValidRun sid ops m s t →
    ∃ n' x', (entRun sid ops m s t).1 = true ∧
      (entContract n').Holds (fun _ => True) (entRun sid ops m s t).2.1 sid (entRun sid ops m s t).2.2.1 x'
        (entRun sid ops m s t).2.2.2 := by
  induction ops with
  | nil => intro m s n x t h _; exact ⟨n, x, rfl, h⟩
  | cons op ops ih =>
    intro m s n x t h hv
    obtain ⟨n1, x1, e1, e2⟩ := ent_step h op hv.1
    obtain ⟨n2, x2, f1, f2⟩ := ih e2 hv.2
    refine ⟨n2, x2, ?_, ?_⟩
    · simp only [entRun, e1, f1, Bool.and_self]
    · simp only [entRun]; exact f2

/-- Creations, updates and removals of entities, undone and redone in any order: the content is that of
the time line, undo and redo never fail, and no reference dangles. -/
theorem C88_history_partial {sid : Option Nat} {m : Mgr EntCmd} (hm : NoHistory m sid) (ht : Tidy s)
    (ha : Ahead s) (ops : List EntOp) (hv : ValidRun sid ops m s ⟨[], s.content, []⟩) :
    ∃ m' s' t', entRun sid ops m s ⟨[], s.content, []⟩ = (true, m', s', t') ∧ s'.content = t'.cur ∧
      m'.canUndo sid = !t'.past.isEmpty ∧ m'.canRedo sid = !t'.future.isEmpty ∧ Tidy s' ∧ Ahead s' := by
  obtain ⟨n, x, e1, e2⟩ := ent_steps ops (ent_start hm ht ha) hv
  obtain ⟨hx, hn, hg⟩ := e2.sees
  obtain ⟨g1, g2⟩ := hg _ hx hn
  exact ⟨_, _, _, Prod.ext e1 rfl, hx.trans e2.cur, e2.flags.1, e2.flags.2, g1, g2⟩

/-- A paragraph is created, the creation undone and redone; the table is removed, a frame that does not
exist cannot be; the removal is undone. -/
example : ValidRun none [.call (.create .block [{ fmtHeadingLevel := some 1 }] 1 0), .undo, .redo,
    .call (.remove .table [1]), .call (.remove .frame [77]), .undo]
    (Mgr.new : Mgr EntCmd) entSample ⟨[], entSample.content, []⟩ := by
  refine ⟨?_, ?_, ?_, ?_, ?_, ?_, trivial⟩
  · intro a ha
    cases ha
    refine .inl ⟨by decide, (by intro h; cases h), ?_⟩
    intro e he
    simp only [List.mem_cons, List.not_mem_nil, or_false] at he
    subst he
    exact ⟨rfl, rfl, by simp [owns], by simp [mentions], trivial⟩
  · intro a ha; cases ha
  · intro a ha; cases ha
  · intro a ha
    cases ha
    refine .inl ⟨by decide, ?_⟩
    decide +kernel
  · intro a ha
    cases ha
    exact .inr (C87_missing _ _ ⟨77, by simp, by decide +kernel⟩)
  · intro a ha; cases ha

example : NoHistory (Mgr.new : Mgr EntCmd) none := ⟨rfl, rfl, rfl, .inl rfl⟩

/-- Setting a relationship can be redone only once. -/
theorem C88_redo_set_fails :
    ∃ (s : Store), Tidy s ∧ Ahead s ∧
      let r := fun ops => entRun none ops (Mgr.new : Mgr EntCmd) s ⟨[], s.content, []⟩
      let set := EntOp.call (.setRel .docTables 1 [])
      (r [set, .undo, .redo]).2.2.1.readRel .docTables 1 = [] ∧
      (r [set, .undo, .redo, .undo, .redo]).1 = true ∧
      (r [set, .undo, .redo, .undo, .redo]).2.2.1.readRel .docTables 1 = [1] :=
  ⟨entSample, entSample_tidy, entSample_ahead, by decide +kernel, by decide +kernel, by decide +kernel⟩

/-- Undoing it takes back the ids given out since: after redoing, the next paragraph created replaces
one that is there. -/
theorem C88_ids_again_fails :
    ∃ (s : Store), Tidy s ∧ Ahead s ∧
      let r := fun ops => entRun none ops (Mgr.new : Mgr EntCmd) s ⟨[], s.content, []⟩
      let new := fun (t : Int) => EntOp.call (.create .block [{ fmtHeadingLevel := some t }] 1 0)
      let ops := [.call (.setRel .docTables 1 []), new 1, .undo, .undo, .redo, .redo]
      ((r ops).2.2.1.blocks 6).map Block.fmtHeadingLevel = some (some 1) ∧ 6 ∈ (r ops).2.2.1.readRel .frameBlocks 1 ∧
      ((r (ops ++ [new 2])).2.2.1.blocks 6).map Block.fmtHeadingLevel = some (some 2) ∧
      ((r (ops ++ [new 2])).2.2.1.readRel .frameBlocks 1).count 6 = 2 :=
  ⟨entSample, entSample_tidy, entSample_ahead, by decide +kernel, by decide +kernel, by decide +kernel,
    by decide +kernel⟩

/-- Creating no document at all removes the document there is, and undo does not bring it back. -/
theorem C88_no_document_fails :
    ∃ (s : Store), Tidy s ∧ Ahead s ∧ (s.documents 1).isSome = true ∧
      let r := fun ops => entRun none ops (Mgr.new : Mgr EntCmd) s ⟨[], s.content, []⟩
      let none_ := EntOp.call (.create .document [] 1 0)
      (r [none_]).2.2.1.documents 1 = none ∧ (r [none_, .undo]).1 = true ∧
      (r [none_, .undo]).2.2.1.documents 1 = none :=
  ⟨entSample, entSample_tidy, entSample_ahead, by decide +kernel, by decide +kernel, by decide +kernel,
    by decide +kernel⟩

/-- Creating a frame that takes over a paragraph there is, and undoing it, removes the paragraph. -/
theorem C88_adopted_fails :
    ∃ (s : Store), Tidy s ∧ Ahead s ∧ (s.blocks 1).isSome = true ∧
      let r := fun ops => entRun none ops (Mgr.new : Mgr EntCmd) s ⟨[], s.content, []⟩
      let new := EntOp.call (.create .frame [{ blocks := [1] }] 1 (-1))
      (r [new]).1 = true ∧ ((r [new]).2.2.1.blocks 1).isSome = true ∧ (r [new, .undo]).1 = true ∧
      (r [new, .undo]).2.2.1.blocks 1 = none :=
  ⟨entSample, entSample_tidy, entSample_ahead, by decide +kernel, by decide +kernel, by decide +kernel,
    by decide +kernel, by decide +kernel⟩

/-! ### C90 -/

/-- The list, its length and any part of it agree. -/
theorem C90_read (r : RelField) (id offset limit : Nat) :
    s.countRel r id = (s.readRel r id).length ∧
      s.rangeRel r id offset limit = ((s.readRel r id).drop offset).take limit := by
  unfold Store.countRel Store.rangeRel Store.readRel
  cases s.tab r.left id <;> simp

/-- Creating entities in an owner. -/
theorem C90_create (ht : Tidy s) (ha : Ahead s) (k : EKind) (hd : k ≠ .document) (r : RelField)
    (hr : k.owner = some r) (es : List (Ent k)) (owner : Nat) (index : Int)
    (hv : (EntCall.create k es owner index).Valid s) :
    ∃ c s', (EntCall.create k es owner index).exec s = (some (.create k c), s') ∧
      Created s k es r owner index c.created s' := by
  obtain ⟨h1, _, h3⟩ := hv
  obtain ⟨c, t, e1, e2⟩ := create_effect ht ha h1 hd hr (owner := owner) (index := index) h3
  exact ⟨c, t, by simp only [EntCall.exec, e1, Option.map_some], e2⟩

/-- Setting a relationship: the entity has exactly these (the first, if it can have one only); nothing
else changes. -/
theorem C90_set (ht : Tidy s) (r : RelField) (id : Nat) (ids : List Nat) (c : EntCmd) (s' : Store)
    (h : (EntCall.setRel r id ids).exec s = (some c, s')) :
    ((s.tab r.left id).isSome = true → s'.readRel r id = if r.single then ids.take 1 else ids) ∧
    (∀ r' i, (r', i) ≠ (r, id) → s'.readRel r' i = s.readRel r' i) ∧
    (∀ k i, (s'.tab k i).map (itself k) = (s.tab k i).map (itself k)) ∧
    s'.rope = s.rope ∧ s'.counters = s.counters := by
  simp only [EntCall.exec, RelCmd.exec] at h
  have htab : ∀ k, s.beginWrite.2.createSavepoint.2.tab k = s.tab k := fun k => by cases k <;> rfl
  have ht1 : Tidy s.beginWrite.2.createSavepoint.2 := Tidy.congr (s := s) rfl ht
  have hread : ∀ r i, s.beginWrite.2.createSavepoint.2.readRel r i = s.readRel r i := fun r i => by
    unfold Store.readRel; rw [htab]
  cases hw : setAct r (id, ids) s.beginWrite.2.createSavepoint.2 with
  | none =>
    obtain ⟨t, e, _⟩ := Store.inTx_none (α := RelCmd (Nat × List Nat)) (s := s)
      (f := fun s => (setAct r (id, ids) s.createSavepoint.2).map fun t => (⟨[s.createSavepoint.1], [(id, ids)]⟩, t))
      (by simp only [hw, Option.map_none])
    rw [e] at h
    cases h
  | some u =>
    obtain ⟨t, e, e2, e3⟩ := Store.inTx_some (α := RelCmd (Nat × List Nat)) (s := s)
      (f := fun s => (setAct r (id, ids) s.createSavepoint.2).map fun t => (⟨[s.createSavepoint.1], [(id, ids)]⟩, t))
      (a := ⟨[s.beginWrite.2.createSavepoint.1], [(id, ids)]⟩) (u := u) (by simp only [hw, Option.map_some])
    rw [e] at h
    cases h
    have hset : s.beginWrite.2.createSavepoint.2.setRel r id ids = some u := hw
    obtain ⟨w1, w2, w3⟩ := setRel_read ht1 hset
    have hc := setRel_counters hset
    have hr := (setRel_rest hset).1
    refine ⟨?_, ?_, ?_, ?_, ?_⟩
    · rw [readRel_of_content e2, ← htab]; exact w1
    · intro r' i hne
      rw [readRel_of_content e2, w2 r' i hne, hread]
    · intro k i
      rw [Store.tab_of_content e2, ← htab]
      by_cases hk : k = r.left
      · subst hk; exact w3 i
      · rw [setRel_other hset hk]
    · rw [Store.eq_over e2]; exact hr
    · exact e3.trans hc

/-- Moving ids within a relationship: the others keep their order, and the moved ones stand together,
in the order given, at the place asked for. -/
theorem C90_move (r : RelField) (hr : r.single = false) (id : Nat) (moved : List Nat) (index : Int) :
    ∃ c s', (EntCall.moveRel r id moved index).exec s = (some c, s') ∧
    ((s.tab r.left id).isSome = true → moved ≠ [] →
      PutIn ((s.readRel r id).filter fun i => !moved.contains i) index moved (s'.readRel r id)) ∧
    (moved = [] → s'.readRel r id = s.readRel r id) ∧
    (∀ r' i, (r', i) ≠ (r, id) → s'.readRel r' i = s.readRel r' i) ∧ s'.rope = s.rope ∧
    s'.counters = s.counters := by
  have htab : ∀ k, s.beginWrite.2.createSavepoint.2.tab k = s.tab k := fun k => by cases k <;> rfl
  obtain ⟨t, e, e2, e3⟩ := Store.inTx_some (α := RelCmd (Nat × List Nat × Int)) (s := s)
    (f := fun s => (moveAct r (id, moved, index) s.createSavepoint.2).map fun t =>
      (⟨[s.createSavepoint.1], [(id, moved, index)]⟩, t))
    (a := ⟨[s.beginWrite.2.createSavepoint.1], [(id, moved, index)]⟩)
    (u := (s.beginWrite.2.createSavepoint.2.moveRel r id moved index).2) rfl
  refine ⟨.moveRel r _, t, by simp only [EntCall.exec, RelCmd.exec]; rw [e]; rfl, ?_⟩
  obtain ⟨p1, p2⟩ := reorderIds_putIn (s.readRel r id) moved index
  have hread : ∀ r i, s.beginWrite.2.createSavepoint.2.readRel r i = s.readRel r i := fun r i => by
    unfold Store.readRel; rw [htab]
  generalize hs1 : s.beginWrite.2.createSavepoint.2 = s1 at *
  have hw : ∀ (l : List Nat) (x : Ent r.left), r.read (r.write x l) = l := by
    intro l x
    cases r <;> first | rfl | cases hr
  have hrope : s1.rope = s.rope ∧ s1.counters = s.counters := by rw [← hs1]; exact ⟨rfl, rfl⟩
  cases hx : s1.tab r.left id with
  | none =>
    have hm : (s1.moveRel r id moved index).2 = s1 := by unfold Store.moveRel; rw [hx]
    rw [hm] at e2 e3
    refine ⟨?_, ?_, ?_, ?_, ?_⟩
    · intro h; rw [← htab, hx] at h; cases h
    · intro _; rw [readRel_of_content e2, hread]
    · intro r' i _; rw [readRel_of_content e2, hread]
    · rw [Store.eq_over e2]; exact hrope.1
    · rw [e3]; exact hrope.2
  | some x =>
    have hm : (s1.moveRel r id moved index).2 =
        s1.withTab r.left ((s1.tab r.left).insert id (r.write x (reorderIds (r.read x) moved index))) := by
      unfold Store.moveRel; rw [hx]
    rw [hm] at e2 e3
    have hrx : r.read x = s.readRel r id := by rw [← hread]; unfold Store.readRel; rw [hx]; rfl
    have hat : t.readRel r id = reorderIds (s.readRel r id) moved index := by
      rw [readRel_of_content e2]
      unfold Store.readRel
      rw [Store.tab_withTab]
      simp only [IdMap.insert, if_true, Option.map_some, Option.getD_some, hw, hrx]
      rfl
    refine ⟨?_, ?_, ?_, ?_, ?_⟩
    · intro _ _; rw [hat]; exact p2
    · intro h; rw [hat]; exact p1 h
    · intro r' i hne
      rw [readRel_of_content e2]
      by_cases hrr : r' = r
      · subst hrr
        have hi : i ≠ id := by rintro rfl; exact hne rfl
        rw [← hread]
        unfold Store.readRel
        rw [Store.tab_withTab]
        simp [IdMap.insert, hi]
      · rw [readRel_withTab_ne s1 hrr i hx, hread]
    · rw [Store.eq_over e2]
      exact (withTab_rest s1 r.left _).2.2.1.trans hrope.1
    · rw [e3, Store.withTab_counters]; exact hrope.2

theorem updateOne_read {k : EKind} {e o : Ent k} (ho : s.tab k (entId k e) = some o) (r : RelField) (i : Nat) :
    (Store.updateOne k s e).readRel r i = s.readRel r i := by
  unfold Store.updateOne Store.readRel
  rw [ho]
  by_cases hl : r.left = k
  · subst hl
    rw [Store.tab_withTab]
    simp only [IdMap.insert]
    by_cases h : i = entId r.left e
    · rw [if_pos h, h, ho]
      cases r <;> rfl
    · rw [if_neg h]
  · rw [Store.tab_withTab_ne _ _ hl]

theorem updateOne_tab {k : EKind} {e o : Ent k} (ho : s.tab k (entId k e) = some o) (i : Nat) :
    (Store.updateOne k s e).tab k i = if i = entId k e then some (keepEnt k e o) else s.tab k i := by
  unfold Store.updateOne
  rw [Store.tab_withTab, ho]
  rfl

/-- What is written by updates, without relationships or with. -/
theorem writeEnts_effect (rels : Bool) (k : EKind) : ∀ (es : List (Ent k)) (s : Store),
    (∀ e ∈ es, (s.tab k (entId k e)).isSome = true) →
    (rels = false → ∀ r i, (s.writeEnts rels k es).readRel r i = s.readRel r i) ∧
    ((es.map (entId k)).Nodup → ∀ e ∈ es, ∃ f, (s.writeEnts rels k es).tab k (entId k e) = some f ∧
      itself k f = itself k e ∧ (rels = true → f = e)) ∧
    (∀ i, i ∉ es.map (entId k) → (s.writeEnts rels k es).tab k i = s.tab k i) ∧
    (∀ k', k' ≠ k → (s.writeEnts rels k es).tab k' = s.tab k') ∧
    (s.writeEnts rels k es).rope = s.rope := by
  intro es
  induction es with
  | nil =>
    intro s _
    rw [writeEnts_nil]
    exact ⟨fun _ _ _ => rfl, by simp, fun _ _ => rfl, fun _ _ => rfl, rfl⟩
  | cons e es ih =>
    intro s h
    obtain ⟨o, ho⟩ := Option.isSome_iff_exists.mp (h e (.head _))
    rw [writeEnts_cons]
    generalize hs1 : (if rels = true then s.withTab k ((s.tab k).insert (entId k e) e) else Store.updateOne k s e) = s1
    have htab : ∃ f, s1.tab k (entId k e) = some f ∧ itself k f = itself k e ∧ (rels = true → f = e) := by
      rw [← hs1]
      cases rels
      · simp only [Bool.false_eq_true, if_false, updateOne_tab ho, if_true]
        exact ⟨_, rfl, keepEnt_itself k e o, by simp⟩
      · simp only [if_true, Store.tab_withTab, IdMap.insert]
        exact ⟨e, rfl, rfl, fun _ => rfl⟩
    have hoff : ∀ i, i ≠ entId k e → s1.tab k i = s.tab k i := by
      intro i hi
      rw [← hs1]
      cases rels
      · simp only [Bool.false_eq_true, if_false, updateOne_tab ho, if_neg hi]
      · simp only [if_true, Store.tab_withTab, IdMap.insert, if_neg hi]
    have hoth : ∀ k', k' ≠ k → s1.tab k' = s.tab k' := by
      intro k' hk
      rw [← hs1]
      cases rels
      · simp only [Bool.false_eq_true, if_false]; exact Store.tab_withTab_ne _ _ hk
      · simp only [if_true]; exact Store.tab_withTab_ne _ _ hk
    have hrope : s1.rope = s.rope := by
      rw [← hs1]
      cases rels
      · simp only [Bool.false_eq_true, if_false]; exact (withTab_rest s k _).2.2.1
      · simp only [if_true]; exact (withTab_rest s k _).2.2.1
    obtain ⟨w1, w2, w3, w4, w5⟩ := ih s1 (by
      intro f hf
      by_cases hi : entId k f = entId k e
      · obtain ⟨g, hg, _⟩ := htab
        rw [hi, hg]; rfl
      · rw [hoff _ hi]; exact h f (.tail _ hf))
    refine ⟨?_, ?_, ?_, ?_, w5.trans hrope⟩
    · intro hr r i
      rw [w1 hr, ← hs1, hr]
      exact updateOne_read ho r i
    · intro hnd f hf
      rw [List.map_cons, List.nodup_cons] at hnd
      rcases List.mem_cons.mp hf with rfl | hf
      · rw [w3 _ hnd.1]; exact htab
      · exact w2 hnd.2 f hf
    · intro i hi
      rw [List.map_cons, List.mem_cons, not_or] at hi
      rw [w3 i hi.2, hoff i hi.1]
    · intro k' hk; rw [w4 k' hk, hoth k' hk]

/-- Updating entities: each gets the values given, and keeps its relationships; with relationships it
becomes the entity given.  Nothing else changes. -/
theorem C90_update (rels : Bool) (k : EKind) (es : List (Ent k)) (c : EntCmd) (s' : Store)
    (h : (EntCall.update rels k es).exec s = (some c, s')) :
    (∀ e ∈ es, (s.tab k (entId k e)).isSome = true) ∧
    (rels = false → ∀ r i, s'.readRel r i = s.readRel r i) ∧
    ((es.map (entId k)).Nodup → ∀ e ∈ es, ∃ f, s'.tab k (entId k e) = some f ∧ itself k f = itself k e ∧
      (rels = true → f = e)) ∧
    (∀ i, i ∉ es.map (entId k) → s'.tab k i = s.tab k i) ∧ (∀ k', k' ≠ k → s'.tab k' = s.tab k') ∧
    s'.rope = s.rope := by
  simp only [EntCall.exec, updateExec] at h
  have htab : ∀ k, s.beginWrite.2.tab k = s.tab k := fun k => by cases k <;> rfl
  have hread : ∀ r i, s.beginWrite.2.readRel r i = s.readRel r i := fun r i => by
    unfold Store.readRel; rw [htab]
  by_cases hall : es.all (fun e => (s.beginWrite.2.tab k (entId k e)).isSome) = true
  · obtain ⟨t, e, e2, e3⟩ := Store.inTx_some (α := EntStacks k) (s := s)
      (f := fun s => if es.all fun e => (s.tab k (entId k e)).isSome then
        some ({ undo := [s.entsOf k (es.map (entId k))] }, s.writeEnts rels k es) else none)
      (by simp only [if_pos hall]; rfl)
    rw [e] at h
    cases h
    rw [List.all_eq_true] at hall
    obtain ⟨w1, w2, w3, w4, w5⟩ := writeEnts_effect rels k es s.beginWrite.2 hall
    refine ⟨fun e he => htab k ▸ hall e he, ?_, ?_, ?_, ?_, ?_⟩
    · intro hr r i; rw [readRel_of_content e2, w1 hr, hread]
    · rw [Store.tab_of_content e2]; exact w2
    · intro i hi; rw [Store.tab_of_content e2, w3 i hi, htab]
    · intro k' hk; rw [Store.tab_of_content e2, w4 k' hk, htab]
    · rw [Store.eq_over e2]; exact w5
  · obtain ⟨t, e, _⟩ := Store.inTx_none (α := EntStacks k) (s := s)
      (f := fun s => if es.all fun e => (s.tab k (entId k e)).isSome then
        some ({ undo := [s.entsOf k (es.map (entId k))] }, s.writeEnts rels k es) else none)
      (by simp only [if_neg hall])
    rw [e] at h
    cases h

/-- Cells moved, a paragraph created before another, a frame updated without its paragraphs. -/
example : (((EntCall.moveRel .tableCells 1 [4, 1] 1).exec entSample).2.readRel .tableCells 1 = [2, 4, 1, 3]) ∧
    (((EntCall.create .block [{}, {}] 1 0).exec entSample).2.readRel .frameBlocks 1 = [6, 7, 1]) ∧
    (((EntCall.update false .frame [{ id := 1, fmtPadding := some 3 }]).exec entSample).2.readRel .frameBlocks 1 = [1]) ∧
    (((EntCall.setRel .tableCells 1 [2, 3]).exec entSample).2.readRel .tableCells 1 = [2, 3]) ∧
    ((EntCall.update false .frame [{ id := 1, fmtPadding := some 3 }]).exec entSample).1.isSome = true := by
  decide +kernel

end Verif
