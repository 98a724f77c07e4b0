import Verif.Lemmas.EntRemove
/-
What the entity commands read and write: the content of the store, and the id counters; save points
do not matter.
-/
namespace Verif

theorem IdMap.ext' {α : Type} {m m' : IdMap α} (hk : m.keys = m'.keys) (hg : ∀ i, m i = m' i) :
    m = m' := by
  obtain ⟨k, g, _, _⟩ := m
  obtain ⟨k', g', _, _⟩ := m'
  simp only at hk hg
  obtain rfl : g = g' := funext hg
  subst hk
  rfl

namespace Store

/-- `s` with the save points and the counters of `f`. -/
def over (f s : Store) : Store := f.restoreUndo s.snapshot

theorem over_tab (f s : Store) (k : EKind) : (f.over s).tab k = s.tab k := by cases k <;> rfl
theorem over_withTab (f s : Store) (k : EKind) (m : IdMap (Ent k)) :
    (f.over s).withTab k m = f.over (s.withTab k m) := by cases k <;> rfl
theorem over_content (f s : Store) : (f.over s).content = s.content := rfl
theorem over_counters (f s : Store) : (f.over s).counters = f.counters := rfl
theorem over_roots (f s : Store) : (f.over s).roots = s.roots := rfl
theorem over_runs (f s : Store) : (f.over s).formatRuns = s.formatRuns := rfl
theorem over_images (f s : Store) : (f.over s).blockImages = s.blockImages := rfl
theorem over_self (s : Store) : s.over s = s := rfl

/-- Stores with the same content. -/
theorem eq_over {s t : Store} (h : s.content = t.content) : s = s.over t := by
  obtain ⟨a1, a2, a3, a4, a5, a6, a7, a8, a9, a10, a11, a12, a13, a14, a15⟩ := s
  obtain ⟨b1, b2, b3, b4, b5, b6, b7, b8, b9, b10, b11, b12, b13, b14, b15⟩ := t
  simp only [Store.content, Store.snapshot, Snapshot.content, Snapshot.mk.injEq, and_true] at h
  obtain ⟨rfl, rfl, rfl, rfl, rfl, rfl, rfl, rfl, rfl, rfl, rfl, rfl⟩ := h
  rfl

theorem tab_of_content {s t : Store} (h : s.content = t.content) (k : EKind) : s.tab k = t.tab k := by
  rw [eq_over h, over_tab]

theorem runs_of_content {s t : Store} (h : s.content = t.content) : s.formatRuns = t.formatRuns := by
  rw [eq_over h, over_runs]

theorem images_of_content {s t : Store} (h : s.content = t.content) : s.blockImages = t.blockImages := by
  rw [eq_over h, over_images]

theorem content_ext {s t : Store} (h1 : s.rope = t.rope) (h2 : ∀ k, s.tab k = t.tab k)
    (h3 : s.formatRuns = t.formatRuns) (h4 : s.blockImages = t.blockImages)
    (h5 : s.blockOffsets = t.blockOffsets) : s.content = t.content := by
  have r1 : s.roots = t.roots := h2 .root
  have r2 : s.documents = t.documents := h2 .document
  have r3 : s.frames = t.frames := h2 .frame
  have r4 : s.blocks = t.blocks := h2 .block
  have r5 : s.lists = t.lists := h2 .list
  have r6 : s.resources = t.resources := h2 .resource
  have r7 : s.tables = t.tables := h2 .table
  have r8 : s.tableCells = t.tableCells := h2 .tableCell
  simp [Store.content, Store.snapshot, Snapshot.content, *]

theorem withTab_content {s t : Store} (h : s.content = t.content) (k : EKind) (m : IdMap (Ent k)) :
    (s.withTab k m).content = (t.withTab k m).content := by
  rw [eq_over h, over_withTab, over_content]

theorem withTab_counters (s : Store) (k : EKind) (m : IdMap (Ent k)) :
    (s.withTab k m).counters = s.counters := by cases k <;> rfl

/-! ### The operations do not look beyond the content -/

theorem readRel_over (f s : Store) (r : RelField) (o : Nat) : (f.over s).readRel r o = s.readRel r o := by
  simp only [readRel, over_tab]

theorem soleDoc_over (f s : Store) (a b : Nat) : (f.over s).soleDoc a b = s.soleDoc a b := rfl

theorem setRel_over (f s : Store) (r : RelField) (o : Nat) (ids : List Nat) :
    (f.over s).setRel r o ids = (s.setRel r o ids).map f.over := by
  unfold setRel
  simp only [over_tab, soleDoc_over, over_withTab]
  split
  · split
    · rfl
    · cases s.tab r.left o <;> rfl
  · rfl

theorem dropEnts_over (f s : Store) (k : EKind) (ids : List Nat) :
    (f.over s).dropEnts k ids = f.over (s.dropEnts k ids) := by cases k <;> rfl

theorem ownersOf_over (f s : Store) (r : RelField) (ids : List Nat) :
    (f.over s).ownersOf r ids = s.ownersOf r ids := by
  simp only [ownersOf, over_tab, readRel_over]

theorem relinkOwners_over (f : Store) (r : RelField) (ids : List Nat) :
    ∀ (os : List (Nat × List Nat)) (s : Store),
      relinkOwners r ids os (f.over s) = (relinkOwners r ids os s).map f.over := by
  intro os
  induction os with
  | nil => intro s; rfl
  | cons p os ih =>
    intro s
    obtain ⟨o, l⟩ := p
    simp only [relinkOwners, setRel_over]
    cases s.setRel r o (l.filter fun i => !ids.contains i) with
    | none => rfl
    | some t => simp [ih t]

theorem removeHere_over (f s : Store) (k : EKind) (ids : List Nat) :
    (f.over s).removeHere k ids = (s.removeHere k ids).map f.over := by
  unfold removeHere
  cases k.owner with
  | none => simp [dropEnts_over]
  | some r => simp only [ownersOf_over, dropEnts_over, relinkOwners_over]

theorem removeGroups_over {down : EKind → List Nat → Store → Option Store} (f : Store)
    (hd : ∀ k ids s, down k ids (f.over s) = (down k ids s).map f.over) :
    ∀ (gs : List (EKind × List Nat)) (s : Store),
      removeGroups down gs (f.over s) = (removeGroups down gs s).map f.over := by
  intro gs
  induction gs with
  | nil => intro s; rfl
  | cons p gs ih =>
    intro s
    obtain ⟨k, ids⟩ := p
    simp only [removeGroups, hd]
    cases down k ids s with
    | none => rfl
    | some t => simp [ih t]

theorem removeLevel_over (f : Store) : ∀ (n : Nat) (k : EKind) (ids : List Nat) (s : Store),
    removeLevel n k ids (f.over s) = (removeLevel n k ids s).map f.over := by
  intro n
  induction n with
  | zero => intro k ids s; rfl
  | succ n ih =>
    intro k ids s
    simp only [removeLevel, removeWith, over_tab, removeGroups_over f ih]
    split
    · rfl
    · cases removeGroups (removeLevel n) (strongIds k (ids.filterMap fun i => s.tab k i)) s with
      | none => rfl
      | some t => simp [removeHere_over]

theorem removeEnts_over (f s : Store) (k : EKind) (ids : List Nat) :
    (f.over s).removeEnts k ids = (s.removeEnts k ids).map f.over := removeLevel_over f 4 k ids s

theorem setInOwner_over (f s : Store) (k : EKind) (o : Nat) (ids : List Nat) :
    (f.over s).setInOwner k o ids = (s.setInOwner k o ids).map f.over := by
  unfold setInOwner
  cases k.owner with
  | none => rfl
  | some r => exact setRel_over f s r o ids

/-- What a removal does depends on the content only. -/
theorem removeEnts_content {s t u : Store} (h : s.content = t.content) {k : EKind} {ids : List Nat}
    (hr : t.removeEnts k ids = some u) :
    ∃ v, s.removeEnts k ids = some v ∧ v.content = u.content ∧ v.counters = s.counters := by
  refine ⟨s.over u, ?_, rfl, rfl⟩
  rw [eq_over h, removeEnts_over, hr]
  rfl

theorem setInOwner_content {s t u : Store} (h : s.content = t.content) {k : EKind} {o : Nat}
    {ids : List Nat} (hr : t.setInOwner k o ids = some u) :
    ∃ v, s.setInOwner k o ids = some v ∧ v.content = u.content ∧ v.counters = s.counters := by
  refine ⟨s.over u, ?_, rfl, rfl⟩
  rw [eq_over h, setInOwner_over, hr]
  rfl

/-! ### Transactions -/

theorem begin_content (s : Store) : s.beginWrite.2.content = s.content := rfl
theorem begin_counters (s : Store) : s.beginWrite.2.counters = s.counters := rfl

theorem inTx_some {α : Type} {s u : Store} {a : α} {f : Store → Option (α × Store)}
    (h : f s.beginWrite.2 = some (a, u)) :
    ∃ t, s.inTx f = (some a, t) ∧ t.content = u.content ∧ t.counters = u.counters := by
  unfold inTx
  rw [h]
  exact ⟨_, rfl, rfl, rfl⟩

/-- On an error everything is as before, the counters too. -/
theorem inTx_none {α : Type} {s : Store} {f : Store → Option (α × Store)}
    (h : f s.beginWrite.2 = none) :
    ∃ t, s.inTx f = (none, t) ∧ t.content = s.content ∧ t.counters = s.counters := by
  unfold inTx
  rw [h]
  refine ⟨_, rfl, ?_⟩
  simp only [Tx.drop, beginWrite, restoreSavepoint, createSavepoint, IdMap.insert]
  simp only [if_true, Option.map_some, Option.getD_some]
  exact ⟨rfl, rfl⟩

end Store

/-! ### Good order -/

theorem RefsOk.congr {s t : Store} (h : ∀ k, s.tab k = t.tab k) {k : EKind} {e : Ent k}
    (hr : RefsOk s k e) : RefsOk t k e :=
  ⟨fun p hp => h p.1 ▸ hr.owns p hp, fun p hp => h p.1 ▸ hr.mentions p hp, hr.orders⟩

theorem Tidy.congr {s t : Store} (hc : s.content = t.content) (h : Tidy s) : Tidy t := by
  have e := Store.tab_of_content hc
  have r : s.roots = t.roots := e .root
  have b : s.blocks = t.blocks := e .block
  refine ⟨?_, ?_, ?_, ?_, ?_, ?_⟩
  · intro k i x hx; rw [← e k] at hx; exact h.keyed k i x hx
  · intro k; rw [← e k]; exact h.positive k
  · intro k i x hx; rw [← e k] at hx; exact (h.refs k i x hx).congr e
  · rw [← b, ← Store.runs_of_content hc]; exact h.runs
  · rw [← b, ← Store.images_of_content hc]; exact h.images
  · rw [← r]; exact h.sole

theorem Ahead.congr {s t : Store} (hc : s.content = t.content) (hn : s.counters = t.counters)
    (h : Ahead s) : Ahead t := by
  intro k
  rw [← hn, ← Store.tab_of_content hc]
  exact h k

end Verif
