import Verif.Spec.Store
/-
C27, C28: transactions and id counters.
-/
namespace Verif

/-! ## C27 -/

/-- What can happen between the start of a write transaction and a crash, a rollback or a commit:
any writes, save points, restores to a save point, and complete inner transactions. -/
inductive TxSteps : Store → Store → Prop where
  | nil (s) : TxSteps s s
  | write {s a b} : TxSteps s a → Written a b → TxSteps s b
  | savepoint {s a} : TxSteps s a → TxSteps s a.createSavepoint.2
  | restoreTo {s a b} (t : Tx) (sp : Nat) : TxSteps s a → t.restoreTo a sp = some b → TxSteps s b
  | innerCommit {s a b t c} : TxSteps s a → TxSteps a.beginWrite.2 b →
      a.beginWrite.1.commit b = (true, t, c) → TxSteps s c
  | innerDrop {s a b c} : TxSteps s a → TxSteps a.beginWrite.2 b →
      a.beginWrite.1.drop b = some c → TxSteps s c

theorem restoreSavepoint_sps {a b : Store} {sp : Nat} (h : a.restoreSavepoint sp = some b) :
    b.savepoints = a.savepoints ∧ b.nextSavepoint = a.nextSavepoint := by
  simp only [Store.restoreSavepoint, Option.map_eq_some_iff] at h
  obtain ⟨x, _, rfl⟩ := h
  exact ⟨rfl, rfl⟩

theorem TxSteps.keeps {s a : Store} (h : TxSteps s a) :
    s.nextSavepoint ≤ a.nextSavepoint ∧
      ∀ sp, sp < s.nextSavepoint → a.savepoints sp = s.savepoints sp := by
  induction h with
  | nil s => exact ⟨Nat.le_refl _, fun _ _ => rfl⟩
  | write _ hw ih =>
    refine ⟨by rw [hw.next]; exact ih.1, fun sp h => ?_⟩
    rw [hw.savepoints]; exact ih.2 sp h
  | @savepoint s a _ ih =>
    refine ⟨by show s.nextSavepoint ≤ a.nextSavepoint + 1; omega, fun sp h => ?_⟩
    show (if sp = a.nextSavepoint then _ else a.savepoints sp) = _
    rw [if_neg (by omega)]; exact ih.2 sp h
  | restoreTo t sp0 _ hr ih =>
    unfold Tx.restoreTo at hr
    split at hr
    · obtain ⟨h1, h2⟩ := restoreSavepoint_sps hr
      exact ⟨by rw [h2]; exact ih.1, fun sp h => by rw [h1]; exact ih.2 sp h⟩
    · simp at hr
  | @innerCommit s a b t c _ _ hc ih1 ih2 =>
    simp only [Store.beginWrite, Tx.commit, Bool.not_true, Bool.false_eq_true, if_false,
      Prod.mk.injEq, true_and] at hc
    obtain ⟨_, rfl⟩ := hc
    have h2a := ih2.1
    have h2b := ih2.2
    simp only [Store.beginWrite, Store.createSavepoint] at h2a h2b
    refine ⟨by simp only [Store.discardSavepoint]; omega, fun sp h => ?_⟩
    show (if sp = a.nextSavepoint then none else b.savepoints sp) = _
    have := ih1.1
    rw [if_neg (by omega), h2b sp (by omega)]
    simp only [IdMap.insert]
    rw [if_neg (by omega)]; exact ih1.2 sp h
  | @innerDrop s a b c _ _ hc ih1 ih2 =>
    simp only [Store.beginWrite, Tx.drop] at hc
    obtain ⟨h1, h2⟩ := restoreSavepoint_sps hc
    have h2a := ih2.1
    have h2b := ih2.2
    simp only [Store.beginWrite, Store.createSavepoint] at h2a h2b
    refine ⟨by rw [h2]; omega, fun sp h => ?_⟩
    rw [h1, h2b sp (by omega)]
    simp only [IdMap.insert]
    rw [if_neg (by omega)]; exact ih1.2 sp h

/-- Dropping an unfinished write transaction, after any work whatever, brings the whole document and
the id counters back, and does not panic. -/
theorem C27_drop {s a : Store} (h : TxSteps s.beginWrite.2 a) :
    ∃ b, s.beginWrite.1.drop a = some b ∧ SameDocument b s := by
  have hk := h.keeps.2 s.nextSavepoint (by simp [Store.beginWrite, Store.createSavepoint])
  simp only [Store.beginWrite, Store.createSavepoint, IdMap.insert, if_true] at hk
  refine ⟨a.restore s.snapshot, ?_, ?_⟩
  · simp [Store.beginWrite, Store.createSavepoint, Tx.drop, Store.restoreSavepoint, hk]
  · exact ⟨⟨rfl, rfl, rfl, rfl, rfl, rfl, rfl, rfl, rfl, rfl, rfl, rfl⟩, rfl⟩

/-- An explicit rollback does the same, and the later drop of the transaction adds nothing. -/
theorem C27_rollback {s a : Store} (h : TxSteps s.beginWrite.2 a) :
    ∃ t b, s.beginWrite.1.rollback a = some (true, t, b) ∧ SameDocument b s ∧ t.drop b = some b := by
  have hk := h.keeps.2 s.nextSavepoint (by simp [Store.beginWrite, Store.createSavepoint])
  simp only [Store.beginWrite, Store.createSavepoint, IdMap.insert, if_true] at hk
  refine ⟨⟨true, none⟩, a.restore s.snapshot, ?_, ?_, rfl⟩
  · simp [Store.beginWrite, Store.createSavepoint, Tx.rollback, Store.restoreSavepoint, hk]
  · exact ⟨⟨rfl, rfl, rfl, rfl, rfl, rfl, rfl, rfl, rfl, rfl, rfl, rfl⟩, rfl⟩

/-- A commit keeps every write, for good: dropping the committed transaction, or trying to roll it
back, changes nothing any more. -/
theorem C27_commit {s a : Store} :
    ∃ t b, s.beginWrite.1.commit a = (true, t, b) ∧ SameDocument b a ∧ t.drop b = some b ∧
      t.rollback b = some (true, t, b) := by
  refine ⟨⟨true, none⟩, a.discardSavepoint s.nextSavepoint, ?_, ?_, rfl, rfl⟩
  · simp [Store.beginWrite, Store.createSavepoint, Tx.commit]
  · exact ⟨⟨rfl, rfl, rfl, rfl, rfl, rfl, rfl, rfl, rfl, rfl, rfl, rfl⟩, rfl⟩

/-- A read transaction refuses commit, rollback and save points, and its end changes nothing. -/
theorem C27_read (s a : Store) :
    s.beginRead.2 = s ∧ s.beginRead.1.commit a = (false, s.beginRead.1, a) ∧
    s.beginRead.1.rollback a = some (false, s.beginRead.1, a) ∧
    s.beginRead.1.createSavepoint a = none ∧ s.beginRead.1.drop a = some a :=
  ⟨rfl, rfl, rfl, rfl, rfl⟩

/-- Restoring to a save point brings back the document of the moment it was made, whatever was done
in between. -/
theorem C27_savepoint {s a : Store} (h : TxSteps s.createSavepoint.2 a) (t : Tx) (hw : t.isWrite = true) :
    ∃ b, t.restoreTo a s.createSavepoint.1 = some b ∧ SameDocument b s := by
  have hk := h.keeps.2 s.nextSavepoint (by simp [Store.createSavepoint])
  simp only [Store.createSavepoint, IdMap.insert, if_true] at hk
  refine ⟨a.restore s.snapshot, ?_, ?_⟩
  · simp [Store.createSavepoint, Tx.restoreTo, Store.restoreSavepoint, hk, hw]
  · exact ⟨⟨rfl, rfl, rfl, rfl, rfl, rfl, rfl, rfl, rfl, rfl, rfl, rfl⟩, rfl⟩

/-- Restoring an undo snapshot brings the whole content back and leaves the id counters. -/
theorem C27_undo_snapshot (s a : Store) :
    SameContent (a.restoreUndo s.snapshot) s ∧ (a.restoreUndo s.snapshot).counters = a.counters :=
  ⟨⟨rfl, rfl, rfl, rfl, rfl, rfl, rfl, rfl, rfl, rfl, rfl, rfl⟩, rfl⟩

/-- A transaction that writes, makes a save point, runs an inner transaction and is then dropped. -/
example : ∃ a b : Store, TxSteps Store.empty.beginWrite.2 a ∧ a.rope = ['x', 'y'] ∧
    Store.empty.beginWrite.1.drop a = some b ∧ b.rope = [] := by
  let s1 : Store := { Store.empty.beginWrite.2 with rope := ['x'] }
  let s2 := s1.createSavepoint.2
  let s3 : Store := { s2.beginWrite.2 with rope := ['x', 'y'] }
  have h : TxSteps Store.empty.beginWrite.2 (s3.discardSavepoint s2.nextSavepoint) :=
    .innerCommit (a := s2) (b := s3) (t := ⟨true, none⟩)
      (.savepoint (a := s1) (.write (.nil _) ⟨rfl, rfl⟩)) (.write (.nil _) ⟨rfl, rfl⟩) rfl
  obtain ⟨b, h1, h2⟩ := C27_drop h
  exact ⟨_, b, h, rfl, h1, h2.rope⟩

/-! ## C28 -/

/-- The work inside one transaction, with the ids it hands out in order: creations, any writes that
leave the counters alone, and undo restores to any snapshot. -/
inductive TxIds : Store → List (String × Nat) → Store → Prop where
  | nil (s) : TxIds s [] s
  | create {s ids a} (name : String) : TxIds s ids a →
      TxIds s (ids ++ [(name, (a.nextId name).1)]) (a.nextId name).2
  | write {s ids a b} : TxIds s ids a → Written a b → b.counters = a.counters → TxIds s ids b
  | undoRestore {s ids a} (snap : Snapshot) : TxIds s ids a → TxIds s ids (a.restoreUndo snap)
  | savepoint {s ids a} : TxIds s ids a → TxIds s ids a.createSavepoint.2

/-- The life of a document: transactions, committed or dropped, with the ids of the committed ones. -/
inductive IdLife : Store → List (String × Nat) → Store → Prop where
  | nil (s) : IdLife s [] s
  | committed {s ids a ids' b t c} : IdLife s ids a → TxIds a.beginWrite.2 ids' b →
      a.beginWrite.1.commit b = (true, t, c) → IdLife s (ids ++ ids') c
  | dropped {s ids a ids' b c} : IdLife s ids a → TxIds a.beginWrite.2 ids' b →
      a.beginWrite.1.drop b = some c → IdLife s ids c

/-- The next id of a kind. -/
def Store.upcoming (s : Store) (name : String) : Nat := (s.counters name).getD 1

/-- Ids are handed out in increasing order between the counters before and after. -/
def IdsBetween (s : Store) (ids : List (String × Nat)) (t : Store) : Prop :=
  ids.Nodup ∧ (∀ e ∈ ids, s.upcoming e.1 ≤ e.2 ∧ e.2 < t.upcoming e.1) ∧
    ∀ n, s.upcoming n ≤ t.upcoming n

theorem IdsBetween.trans {s t u : Store} {l l' : List (String × Nat)} (h : IdsBetween s l t)
    (h' : IdsBetween t l' u) : IdsBetween s (l ++ l') u := by
  obtain ⟨a1, a2, a3⟩ := h
  obtain ⟨b1, b2, b3⟩ := h'
  refine ⟨?_, ?_, fun n => Nat.le_trans (a3 n) (b3 n)⟩
  · rw [List.nodup_append]
    refine ⟨a1, b1, ?_⟩
    intro x hx y hy hxy
    subst hxy
    have := (a2 x hx).2
    have := (b2 x hy).1
    omega
  · intro e he
    rcases List.mem_append.mp he with h | h
    · have := a2 e h; have := b3 e.1; omega
    · have := b2 e h; have := a3 e.1; omega

theorem TxIds.between {s t : Store} {ids : List (String × Nat)} (h : TxIds s ids t) :
    IdsBetween s ids t ∧ s.nextSavepoint ≤ t.nextSavepoint ∧
      ∀ sp, sp < s.nextSavepoint → t.savepoints sp = s.savepoints sp := by
  induction h with
  | nil => exact ⟨⟨List.nodup_nil, by simp, fun _ => Nat.le_refl _⟩, Nat.le_refl _, fun _ _ => rfl⟩
  | @create ids a name h ih =>
    refine ⟨ih.1.trans ⟨by simp, ?_, ?_⟩, ih.2⟩
    · intro e he
      simp only [List.mem_singleton] at he
      subst he
      simp [Store.nextId, Store.upcoming]
    · intro n
      simp only [Store.nextId, Store.upcoming]
      split
      · subst_vars; simp
      · exact Nat.le_refl _
  | @write ids a b _ hw hc ih =>
    refine ⟨⟨ih.1.1, ?_, ?_⟩, ?_, ?_⟩
    · intro e he; have := ih.1.2.1 e he; simp only [Store.upcoming, hc] at *; exact this
    · intro n; have := ih.1.2.2 n; simp only [Store.upcoming, hc] at *; exact this
    · rw [hw.next]; exact ih.2.1
    · rw [hw.savepoints]; exact ih.2.2
  | undoRestore snap _ ih => exact ih
  | @savepoint ids a _ ih =>
    refine ⟨ih.1, by show s.nextSavepoint ≤ a.nextSavepoint + 1; have := ih.2.1; omega, fun sp h => ?_⟩
    show (if sp = a.nextSavepoint then _ else a.savepoints sp) = _
    have := ih.2.1
    rw [if_neg (by omega)]; exact ih.2.2 sp h

/-- Over the whole life of a document no id is handed out twice for the same kind, with undo restores
anywhere; ids of dropped transactions, which nobody has seen, may come again. -/
theorem C28_ids_unique_partial {s t : Store} {ids : List (String × Nat)} (h : IdLife s ids t) :
    ids.Nodup ∧ (∀ e ∈ ids, (s.counters e.1).getD 1 ≤ e.2 ∧ e.2 < (t.counters e.1).getD 1) := by
  suffices H : IdsBetween s ids t from ⟨H.1, H.2.1⟩
  induction h with
  | nil => exact ⟨List.nodup_nil, by simp, fun _ => Nat.le_refl _⟩
  | @committed ids a ids' b t c _ h2 hc ih =>
    refine ih.trans ?_
    obtain ⟨k1, k2, k3⟩ := h2.between.1
    simp only [Store.beginWrite, Tx.commit, Bool.not_true, Bool.false_eq_true, if_false,
      Prod.mk.injEq, true_and] at hc
    obtain ⟨_, rfl⟩ := hc
    exact ⟨k1, k2, k3⟩
  | @dropped ids a ids' b c _ h2 hc ih =>
    obtain ⟨_, _, h4⟩ := h2.between
    have hk := h4 a.nextSavepoint (by simp [Store.beginWrite, Store.createSavepoint])
    simp only [Store.beginWrite, Store.createSavepoint, IdMap.insert, if_true] at hk
    simp only [Store.beginWrite, Store.createSavepoint, Tx.drop, Store.restoreSavepoint, hk,
      Option.map_some, Option.some.injEq] at hc
    subst hc
    exact ih

/-- A new id is never one that is handed out already in this life. -/
theorem C28_new_id_fresh_partial {s t : Store} {ids : List (String × Nat)} (h : IdLife s ids t)
    (name : String) : (name, (t.nextId name).1) ∉ ids := by
  intro hm
  have := (C28_ids_unique_partial h).2 _ hm
  simp [Store.nextId] at this

/-- Restoring to a save point (the undo of a changed or reordered relationship,
direct_access/use_cases/set_relationship.rs L71-L79) does rewind the counters: the same id is then
handed out a second time. -/
theorem C28_savepoint_fails :
    ∃ (s1 s2 s3 : Store) (i : Nat), s1 = Store.empty.createSavepoint.2 ∧
      s1.nextId "block" = (i, s2) ∧ (Tx.mk true none).restoreTo s2 0 = some s3 ∧
      (s3.nextId "block").1 = i :=
  ⟨_, _, _, _, rfl, rfl, rfl, rfl⟩

example : ∃ t, IdLife Store.empty [("block", 1), ("frame", 1), ("block", 2)] t := by
  have h1 : TxIds Store.empty.beginWrite.2 [("block", 1), ("frame", 1)] _ :=
    .create "frame" (.create "block" (.nil _))
  have h2 := IdLife.committed (IdLife.nil Store.empty) h1 rfl
  exact ⟨_, IdLife.committed h2 (TxIds.create "block" (.undoRestore Store.empty.snapshot (.nil _))) rfl⟩

end Verif
