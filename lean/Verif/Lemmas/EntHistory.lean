import Verif.Lemmas.EntUpdate
import Verif.Lemmas.UndoView
import Verif.Lemmas.Properties
/-
The entity commands keep the undo contract.
-/
namespace Verif

/-- A content in good order, its ids below the counters. -/
def GoodAt (c : String → Option Nat) (x : Snapshot) : Prop :=
  ∀ s : Store, s.content = x → s.counters = c → Tidy s ∧ Ahead s

theorem GoodAt.of {s : Store} (ht : Tidy s) (ha : Ahead s) : GoodAt s.counters s.content :=
  fun _ h1 h2 => ⟨ht.congr h1.symm, ha.congr h1.symm h2.symm⟩

theorem GoodAt.mono {c c' : String → Option Nat} (h : CountersLe c c') {x : Snapshot} (hg : GoodAt c x) :
    GoodAt c' x := by
  intro s h1 h2
  obtain ⟨a, b⟩ := hg (s.withCounters c) h1 rfl
  refine ⟨Tidy.congr (s := s.withCounters c) rfl a, ?_⟩
  intro k
  obtain ⟨b1, b2⟩ := b k
  have hk : (c k.counter).getD 1 ≤ (s.counters k.counter).getD 1 := h2 ▸ h k
  refine ⟨Nat.le_trans b1 hk, fun i hi => Nat.lt_of_lt_of_le (b2 i ?_) hk⟩
  rw [withCounters_tab]; exact hi

def Removes (k : EKind) (ids : List Nat) (x x' : Snapshot) : Prop :=
  ∀ s : Store, s.content = x → ∃ t, s.removeEnts k ids = some t ∧ t.content = x' ∧ t.counters = s.counters

def SetsIn (k : EKind) (o : Nat) (l : List Nat) (x x' : Snapshot) : Prop :=
  ∀ s : Store, s.content = x → ∃ t, s.setInOwner k o l = some t ∧ t.content = x' ∧ t.counters = s.counters

def Inserts (k : EKind) (es : List (Ent k)) (x x' : Snapshot) : Prop :=
  ∀ s : Store, s.content = x →
    ∃ t, Store.insertNews k es s = some (es, t) ∧ t.content = x' ∧ t.counters = s.counters

theorem Removes.of {s t : Store} {k : EKind} {ids : List Nat} (h : s.removeEnts k ids = some t) :
    Removes k ids s.content t.content := fun _ hu => Store.removeEnts_content hu h

theorem SetsIn.of {s t : Store} {k : EKind} {o : Nat} {l : List Nat} (h : s.setInOwner k o l = some t) :
    SetsIn k o l s.content t.content := fun _ hu => Store.setInOwner_content hu h

/-- The entities swapped by an update. -/
structure Swap (rels : Bool) (k : EKind) (x x' : Snapshot) (old new : List (Ent k)) : Prop where
  back : ∀ s : Store, s.content = x' → (s.writeEnts rels k old).content = x
  forth : ∀ s : Store, s.content = x → (s.writeEnts rels k new).content = x'
  here : ∀ s : Store, s.content = x → s.entsOf k (new.map (entId k)) = old
  there : ∀ s : Store, s.content = x' → s.entsOf k (old.map (entId k)) = new

/-- What is known of a create command that created something. -/
def CreateFacts (k : EKind) (c : CreateCmd k) (x x' : Snapshot) : Prop :=
  c.created ≠ [] ∧ ∃ o, c.owner = some o ∧
    ((k ≠ .document ∧ ∃ prev, c.previous = some prev ∧ Removes k (c.created.map (entId k)) x' x ∧
        SetsIn k o prev x x ∧ SetsIn k o (insertIdsAt prev c.index (c.created.map (entId k))) x' x') ∨
     (k = .document ∧ SetsIn k o (c.created.map (entId k)) x' x' ∧ SetsIn k o c.existing x x ∧
      ((c.displaced = none ∧ c.existing = [] ∧ Removes k (c.created.map (entId k)) x' x) ∨
       (∃ p y z, c.displaced = some p ∧ p.content = x ∧ c.existing ≠ [] ∧
          Removes k (c.created.map (entId k)) x' y ∧ Removes k c.existing x z))))

/-- The command has taken the content from `x` to `x'`. -/
def EntDone : EntCmd → Snapshot → Snapshot → Prop
  | .create k c, x, x' => (c.created = [] ∧ x = x' ∧ c.old = none) ∨ CreateFacts k c x x'
  | .orphan k c, x, x' => ∃ es, c = ⟨[es], []⟩ ∧ Removes k (es.map (entId k)) x' x ∧ Inserts k es x x'
  | .update rels k c, x, x' => ∃ old new, c = ⟨[old], []⟩ ∧ Swap rels k x x' old new
  | .remove k c, x, x' => ∃ p ids, c = ⟨some p, some ids⟩ ∧ p.content = x ∧ Removes k ids x x'
  | .setRel _ _, _, _ => False
  | .moveRel _ _, _, _ => False

def EntUndone : EntCmd → Snapshot → Snapshot → Prop
  | .create k c, x, x' => (c.created = [] ∧ x = x' ∧ c.old = none) ∨
      (CreateFacts k c x x' ∧ ∃ p, c.old = some p ∧ p.content = x')
  | .orphan k c, x, x' => ∃ es, c = ⟨[], [es]⟩ ∧ Removes k (es.map (entId k)) x' x ∧ Inserts k es x x'
  | .update rels k c, x, x' => ∃ old new, c = ⟨[], [new]⟩ ∧ Swap rels k x x' old new
  | .remove k c, x, x' => ∃ p ids, c = ⟨p, some ids⟩ ∧ Removes k ids x x'
  | .setRel _ _, _, _ => False
  | .moveRel _ _, _, _ => False

theorem restoreUndo_content (s : Store) (p : Snapshot) : (s.restoreUndo p).content = p.content := rfl
theorem restoreUndo_counters (s : Store) (p : Snapshot) : (s.restoreUndo p).counters = s.counters := rfl

/-- A step inside a transaction. -/
theorem inTx_step {α : Type} {s : Store} {f : Store → Option (α × Store)} {a : α} {x : Snapshot}
    (h : ∃ u, f s.beginWrite.2 = some (a, u) ∧ u.content = x ∧ u.counters = s.counters) :
    ∃ t, s.inTx f = (some a, t) ∧ t.content = x ∧ t.counters = s.counters := by
  obtain ⟨u, h1, h2, h3⟩ := h
  obtain ⟨t, e1, e2, e3⟩ := Store.inTx_some h1
  exact ⟨t, e1, e2.trans h2, e3.trans h3⟩

variable {x x' : Snapshot} {s : Store}

theorem create_undo {k : EKind} {c : CreateCmd k} (h : CreateFacts k c x x') (hs : s.content = x') :
    ∃ c' s0, c.undoIt s = (true, c', s0) ∧ s0.content = x ∧ s0.counters = s.counters ∧
      CreateFacts k c' x x' ∧ ∃ p, c'.old = some p ∧ p.content = x' := by
  have h0 := h
  obtain ⟨hne, o, ho, hc⟩ := h
  have hs1 : s.beginWrite.2.content = x' := hs
  have he : c.created.isEmpty = false := by cases hx : c.created <;> simp_all
  have key : ∃ u, c.undoWork s.beginWrite.2 = some ({ c with old := some s.beginWrite.2.snapshot }, u) ∧
      u.content = x ∧ u.counters = s.counters := by
    rcases hc with ⟨hk, prev, hp, h1, h2, _⟩ | ⟨rfl, _, h2, hd⟩
    · obtain ⟨t, e1, e2, e3⟩ := h1 _ hs1
      obtain ⟨u, f1, f2, f3⟩ := h2 t e2
      refine ⟨u, ?_, f2, f3.trans e3⟩
      unfold CreateCmd.undoWork
      rw [ho, Option.bind_some, e1, Option.bind_some, if_neg hk, hp]
      simp only [f1, Option.map_some]
    · rcases hd with ⟨d1, d2, h1⟩ | ⟨p, y, z, d1, d2, d3, h1, _⟩
      · obtain ⟨t, e1, e2, e3⟩ := h1 _ hs1
        rw [d2] at h2
        obtain ⟨u, f1, f2, f3⟩ := h2 t e2
        refine ⟨u, ?_, f2, f3.trans e3⟩
        unfold CreateCmd.undoWork
        rw [ho, Option.bind_some, e1, Option.bind_some, if_pos rfl, d1]
        simp only [f1, Option.map_some]
      · obtain ⟨t, e1, e2, e3⟩ := h1 _ hs1
        obtain ⟨u, f1, f2, f3⟩ := h2 (t.restoreUndo p) d2
        refine ⟨u, ?_, f2, f3.trans e3⟩
        unfold CreateCmd.undoWork
        rw [ho, Option.bind_some, e1, Option.bind_some, if_pos rfl, d1]
        simp only [f1, Option.map_some]
  obtain ⟨t, e1, e2, e3⟩ := inTx_step key
  refine ⟨{ c with old := some s.beginWrite.2.snapshot }, t, ?_, e2, e3, h0, _, rfl, hs⟩
  simp only [CreateCmd.undoIt, he, Bool.false_eq_true, if_false]
  rw [e1]

theorem create_redo {k : EKind} {c : CreateCmd k} (h : CreateFacts k c x x') {p : Snapshot}
    (hold : c.old = some p) (hp : p.content = x') (hs : s.content = x) :
    ∃ c' s', c.redoIt s = (true, c', s') ∧ s'.content = x' ∧ s'.counters = s.counters ∧
      CreateFacts k c' x x' := by
  have h0 := h
  obtain ⟨hne, o, ho, hc⟩ := h
  have hs1 : s.beginWrite.2.content = x := hs
  have key : ∃ c' u, c.redoWork p s.beginWrite.2 = some (c', u) ∧ u.content = x' ∧
      u.counters = s.counters ∧ CreateFacts k c' x x' := by
    rcases hc with ⟨hk, prev, hv, h1, h2, h3⟩ | ⟨rfl, h3, h2, hd⟩
    · obtain ⟨u, f1, f2, f3⟩ := h3 (s.beginWrite.2.restoreUndo p) hp
      refine ⟨c, u, ?_, f2, f3, h0⟩
      simp only [CreateCmd.redoWork, ho, Option.bind_some, if_neg hk, hv, f1, Option.map_some]
    · rcases hd with ⟨d1, d2, h1⟩ | ⟨q, y, z, d1, d2, d3, h1, h4⟩
      · obtain ⟨u, f1, f2, f3⟩ := h3 (s.beginWrite.2.restoreUndo p) hp
        refine ⟨c, u, ?_, f2, f3, h0⟩
        simp only [CreateCmd.redoWork, ho, Option.bind_some, if_true, d2, List.isEmpty_nil, f1,
          Option.map_some]
      · obtain ⟨v, g1, g2, g3⟩ := h4 _ hs1
        obtain ⟨u, f1, f2, f3⟩ := h3 (v.restoreUndo p) hp
        have hne' : c.existing.isEmpty = false := by cases hx : c.existing <;> simp_all
        refine ⟨{ c with displaced := some s.beginWrite.2.snapshot }, u, ?_, f2, f3.trans g3, hne, o, ho,
          .inr ⟨rfl, h3, h2, .inr ⟨_, y, z, rfl, hs, d3, h1, h4⟩⟩⟩
        simp only [CreateCmd.redoWork]
        rw [ho, Option.bind_some, if_pos trivial, hne', if_neg (by simp), g1, Option.map_some,
          Option.bind_some, f1, Option.map_some]
  obtain ⟨c', u, k1, k2, k3, k4⟩ := key
  obtain ⟨t, e1, e2, e3⟩ := inTx_step (a := c') (x := x') ⟨u, k1, k2, k3⟩
  refine ⟨c', t, ?_, e2, e3, k4⟩
  simp only [CreateCmd.redoIt, hold]
  rw [e1]

theorem ent_undo {c : EntCmd} (h : EntDone c x x') (hs : s.content = x') :
    ∃ c' s0, entApi.undo c s = (true, c', s0) ∧ s0.content = x ∧ s0.counters = s.counters ∧
      EntUndone c' x x' := by
  cases c with
  | create k c =>
    rcases h with ⟨h1, rfl, h3⟩ | h
    · exact ⟨.create k c, s, by simp only [entApi, CreateCmd.undoIt, h1, List.isEmpty_nil, if_true], hs, rfl,
        Or.inl ⟨h1, rfl, h3⟩⟩
    · obtain ⟨c', s0, e1, e2, e3, e4, e5⟩ := create_undo h hs
      exact ⟨.create k c', s0, by simp only [entApi, e1], e2, e3, Or.inr ⟨e4, e5⟩⟩
  | orphan k c =>
    obtain ⟨es, rfl, h1, h2⟩ := h
    obtain ⟨u, e1, e2, e3⟩ := h1 s.beginWrite.2 hs
    obtain ⟨t, f1, f2, f3⟩ := inTx_step (s := s) (a := ()) (x := x)
      (f := fun s : Store => (s.removeEnts k (es.map (entId k))).map fun t => ((), t))
      ⟨u, by simp only [e1, Option.map_some], e2, e3⟩
    exact ⟨.orphan k ⟨[], [es]⟩, t, by simp only [entApi, orphanUndo, f1], f2, f3, es, rfl, h1, h2⟩
  | update rels k c =>
    obtain ⟨old, new, rfl, h⟩ := h
    obtain ⟨t, f1, f2, f3⟩ := inTx_step (s := s) (a := new) (x := x)
      (f := fun s : Store => some (s.entsOf k (old.map (entId k)), s.writeEnts rels k old))
      ⟨_, by rw [h.there s.beginWrite.2 hs], h.back s.beginWrite.2 hs, writeEnts_counters ..⟩
    exact ⟨.update rels k ⟨[], [new]⟩, t, by simp only [entApi, updateUndo, f1], f2, f3, old, new, rfl, h⟩
  | remove k c =>
    obtain ⟨p, ids, rfl, h1, h2⟩ := h
    obtain ⟨t, f1, f2, f3⟩ := inTx_step (s := s) (a := ()) (x := x)
      (f := fun s : Store => some ((), s.restoreUndo p)) ⟨_, rfl, h1, rfl⟩
    exact ⟨.remove k ⟨some p, some ids⟩, t, by simp only [entApi, RemoveCmd.undoIt, f1], f2, f3,
      some p, ids, rfl, h2⟩
  | setRel => exact h.elim
  | moveRel => exact h.elim

theorem ent_redo {c : EntCmd} (h : EntUndone c x x') (hs : s.content = x) :
    ∃ c' s', entApi.redo c s = (true, c', s') ∧ s'.content = x' ∧ s'.counters = s.counters ∧
      EntDone c' x x' := by
  cases c with
  | create k c =>
    rcases h with ⟨h1, rfl, h3⟩ | ⟨h, p, h1, h2⟩
    · exact ⟨.create k c, s, by simp only [entApi, CreateCmd.redoIt, h3], hs, rfl, Or.inl ⟨h1, rfl, h3⟩⟩
    · obtain ⟨c', s0, e1, e2, e3, e4⟩ := create_redo h h1 h2 hs
      exact ⟨.create k c', s0, by simp only [entApi, e1], e2, e3, Or.inr e4⟩
  | orphan k c =>
    obtain ⟨es, rfl, h1, h2⟩ := h
    obtain ⟨u, e1, e2, e3⟩ := h2 s.beginWrite.2 hs
    obtain ⟨t, f1, f2, f3⟩ := inTx_step (s := s) (a := ()) (x := x')
      (f := fun s : Store => (Store.insertNews k es s).map fun p => ((), p.2))
      ⟨u, by simp only [e1, Option.map_some], e2, e3⟩
    exact ⟨.orphan k ⟨[es], []⟩, t, by simp only [entApi, orphanRedo, f1], f2, f3, es, rfl, h1, h2⟩
  | update rels k c =>
    obtain ⟨old, new, rfl, h⟩ := h
    obtain ⟨t, f1, f2, f3⟩ := inTx_step (s := s) (a := old) (x := x')
      (f := fun s : Store => some (s.entsOf k (new.map (entId k)), s.writeEnts rels k new))
      ⟨_, by rw [h.here s.beginWrite.2 hs], h.forth s.beginWrite.2 hs, writeEnts_counters ..⟩
    exact ⟨.update rels k ⟨[old], []⟩, t, by simp only [entApi, updateRedo, f1], f2, f3, old, new, rfl, h⟩
  | remove k c =>
    obtain ⟨p, ids, rfl, h2⟩ := h
    obtain ⟨u, e1, e2, e3⟩ := h2 s.beginWrite.2 hs
    obtain ⟨t, f1, f2, f3⟩ := inTx_step (s := s) (a := s.beginWrite.2.snapshot) (x := x')
      (f := fun s : Store => (s.removeEnts k ids).map fun t => (s.snapshot, t))
      ⟨u, by simp only [e1, Option.map_some], e2, e3⟩
    exact ⟨.remove k ⟨some s.beginWrite.2.snapshot, some ids⟩, t,
      by simp only [entApi, RemoveCmd.redoIt, f1], f2, f3, _, ids, rfl, hs, h2⟩
  | setRel => exact h.elim
  | moveRel => exact h.elim

/-- The contract, while the counters are `c`. -/
def entContract (n : String → Option Nat) : ViewContract entApi Snapshot Snapshot where
  Sees s x := s.content = x ∧ s.counters = n ∧ GoodAt n x
  view := id
  Done c x x' := EntDone c x x' ∧ GoodAt n x ∧ GoodAt n x'
  Undone c x x' := EntUndone c x x' ∧ GoodAt n x ∧ GoodAt n x'
  mark _ := none
  undo_ok := by
    rintro c x x' s ⟨h, g, g'⟩ ⟨h1, h2, _⟩
    obtain ⟨c', s0, e1, e2, e3, e4⟩ := ent_undo h h1
    exact ⟨c', s0, e1, ⟨e2, e3.trans h2, g⟩, ⟨e4, g, g'⟩, rfl⟩
  redo_ok := by
    rintro c x x' s ⟨h, g, g'⟩ ⟨h1, h2, _⟩
    obtain ⟨c', s0, e1, e2, e3, e4⟩ := ent_redo h h1
    exact ⟨c', s0, x', e1, ⟨e2, e3.trans h2, g'⟩, rfl, ⟨e4, g, g'⟩, rfl⟩
  merge_ok := by
    intro a c x x' x'' _ _ _ hm
    simp [entApi] at hm

end Verif
