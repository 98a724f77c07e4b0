import Verif.Model.Entities
import Verif.Model.RopeStore
/-
The store, its snapshots, and transactions: common/src/database/rope_store.rs and
common/src/database/transactions.rs.  Locks are dropped.
-/
namespace Verif

/-- A persistent map from ids (`im::HashMap<EntityId, α>`): the ids present, each once, and the value
of each.  The order of `keys` stands for the unspecified order of iteration. -/
structure IdMap (α : Type) where
  keys : List Nat
  get : Nat → Option α
  nodup : keys.Nodup
  mem : ∀ i, i ∈ keys ↔ (get i).isSome

instance {α : Type} : CoeFun (IdMap α) (fun _ => Nat → Option α) := ⟨IdMap.get⟩

/-- `HashMap::new`. -/
def IdMap.empty {α : Type} : IdMap α := ⟨[], fun _ => none, by simp, by simp⟩

/-- `HashMap::len`. -/
def IdMap.len {α : Type} (m : IdMap α) : Nat := m.keys.length

/-- `HashMap::insert`. -/
def IdMap.insert {α : Type} (m : IdMap α) (k : Nat) (v : α) : IdMap α where
  keys := if (m k).isSome then m.keys else m.keys ++ [k]
  get i := if i = k then some v else m i
  nodup := by
    split
    · exact m.nodup
    · rename_i h
      refine List.nodup_append.mpr ⟨m.nodup, by simp, ?_⟩
      intro a ha b hb hab
      simp only [List.mem_singleton] at hb
      subst hab; subst hb
      exact h ((m.mem _).mp ha)
  mem i := by
    by_cases hi : i = k
    · subst hi
      simp only [if_true, Option.isSome_some, iff_true]
      split
      · rename_i h; exact (m.mem _).mpr h
      · simp
    · rw [if_neg hi, ← m.mem i]
      split
      · rfl
      · simp [hi]

/-- `HashMap::remove`. -/
def IdMap.erase {α : Type} (m : IdMap α) (k : Nat) : IdMap α where
  keys := m.keys.filter fun i => i ≠ k
  get i := if i = k then none else m i
  nodup := m.nodup.filter _
  mem i := by
    by_cases hi : i = k
    · simp [hi]
    · simp [hi, m.mem i]

/-- Rewriting every value in place (`iter` collected, then `insert` of each changed entry). -/
def IdMap.mapValues {α : Type} (m : IdMap α) (f : α → α) : IdMap α where
  keys := m.keys
  get i := (m i).map f
  nodup := m.nodup
  mem i := by simp [m.mem i]

/-- `RopeStoreSnapshot`, rope_store.rs L172-L186. -/
structure Snapshot where
  rope : List Char
  roots : IdMap Root
  documents : IdMap Document
  frames : IdMap Frame
  blocks : IdMap Block
  lists : IdMap TList
  resources : IdMap Resource
  tables : IdMap Table
  tableCells : IdMap TableCell
  formatRuns : IdMap (List (Run CharFormat))
  blockImages : IdMap (List (Img CharFormat))
  blockOffsets : Index
  counters : String → Option Nat

/-- `RopeStore`, rope_store.rs L25-L52. -/
structure Store where
  rope : List Char
  roots : IdMap Root
  documents : IdMap Document
  frames : IdMap Frame
  blocks : IdMap Block
  lists : IdMap TList
  resources : IdMap Resource
  tables : IdMap Table
  tableCells : IdMap TableCell
  formatRuns : IdMap (List (Run CharFormat))
  blockImages : IdMap (List (Img CharFormat))
  blockOffsets : Index
  counters : String → Option Nat
  savepoints : IdMap Snapshot
  nextSavepoint : Nat

/-- `RopeStore::new`, L55-L57. -/
def Store.empty : Store where
  rope := []
  roots := .empty
  documents := .empty
  frames := .empty
  blocks := .empty
  lists := .empty
  resources := .empty
  tables := .empty
  tableCells := .empty
  formatRuns := .empty
  blockImages := .empty
  blockOffsets := .empty
  counters := fun _ => none
  savepoints := .empty
  nextSavepoint := 0

/-- `snapshot`, L63-L79. -/
def Store.snapshot (s : Store) : Snapshot where
  rope := s.rope
  roots := s.roots
  documents := s.documents
  frames := s.frames
  blocks := s.blocks
  lists := s.lists
  resources := s.resources
  tables := s.tables
  tableCells := s.tableCells
  formatRuns := s.formatRuns
  blockImages := s.blockImages
  blockOffsets := s.blockOffsets
  counters := s.counters

/-- `restore`, L83-L97. -/
def Store.restore (s : Store) (snap : Snapshot) : Store :=
  { s with
    rope := snap.rope
    roots := snap.roots
    documents := snap.documents
    frames := snap.frames
    blocks := snap.blocks
    lists := snap.lists
    resources := snap.resources
    tables := snap.tables
    tableCells := snap.tableCells
    formatRuns := snap.formatRuns
    blockImages := snap.blockImages
    blockOffsets := snap.blockOffsets
    counters := snap.counters }

/-- `restore_without_counters`, L101-L115; reached through `restore_store_snapshot` L157-L162 and
`Transaction::restore_store`, transactions.rs L93-L95. -/
def Store.restoreUndo (s : Store) (snap : Snapshot) : Store :=
  { s with
    rope := snap.rope
    roots := snap.roots
    documents := snap.documents
    frames := snap.frames
    blocks := snap.blocks
    lists := snap.lists
    resources := snap.resources
    tables := snap.tables
    tableCells := snap.tableCells
    formatRuns := snap.formatRuns
    blockImages := snap.blockImages
    blockOffsets := snap.blockOffsets }

/-- `create_savepoint`, L117-L124. -/
def Store.createSavepoint (s : Store) : Nat × Store :=
  (s.nextSavepoint,
    { s with
      nextSavepoint := s.nextSavepoint + 1
      savepoints := s.savepoints.insert s.nextSavepoint s.snapshot })

/-- `restore_savepoint`, L126-L135; `none` is the panic "savepoint not found". -/
def Store.restoreSavepoint (s : Store) (sp : Nat) : Option Store :=
  (s.savepoints sp).map s.restore

/-- `discard_savepoint`, L137-L139. -/
def Store.discardSavepoint (s : Store) (sp : Nat) : Store :=
  { s with savepoints := s.savepoints.erase sp }

/-- `next_id`, L142-L148. -/
def Store.nextId (s : Store) (name : String) : Nat × Store :=
  let id := (s.counters name).getD 1
  (id, { s with counters := fun n => if n = name then some (id + 1) else s.counters n })

/-- `Transaction`, transactions.rs L11-L15 (the store itself is passed separately). -/
structure Tx where
  isWrite : Bool
  savepoint : Option Nat

/-- `begin_write_transaction`, transactions.rs L18-L26. -/
def Store.beginWrite (s : Store) : Tx × Store :=
  (⟨true, some s.createSavepoint.1⟩, s.createSavepoint.2)

/-- `begin_read_transaction`, transactions.rs L28-L34. -/
def Store.beginRead (s : Store) : Tx × Store := (⟨false, none⟩, s)

/-- `commit`, transactions.rs L36-L48; `false` is the error on a read transaction.
The refresh of `Frame.byte_range` is left out with that field. -/
def Tx.commit (t : Tx) (s : Store) : Bool × Tx × Store :=
  if !t.isWrite then (false, t, s)
  else match t.savepoint with
    | some sp => (true, { t with savepoint := none }, s.discardSavepoint sp)
    | none => (true, t, s)

/-- `rollback`, transactions.rs L50-L59; outer `none` is a panic. -/
def Tx.rollback (t : Tx) (s : Store) : Option (Bool × Tx × Store) :=
  if !t.isWrite then some (false, t, s)
  else match t.savepoint with
    | some sp => (s.restoreSavepoint sp).map fun s' => (true, { t with savepoint := none }, s')
    | none => some (true, t, s)

/-- `Drop for Transaction`, transactions.rs L98-L106. -/
def Tx.drop (t : Tx) (s : Store) : Option Store :=
  match t.savepoint with
  | some sp => s.restoreSavepoint sp
  | none => some s

/-- `Transaction::create_savepoint`, transactions.rs L72-L77; `none` is the error on a read
transaction. -/
def Tx.createSavepoint (t : Tx) (s : Store) : Option (Nat × Store) :=
  if t.isWrite then some s.createSavepoint else none

/-- `restore_to_savepoint`, transactions.rs L79-L85 (error and panic both `none`). -/
def Tx.restoreTo (t : Tx) (s : Store) (sp : Nat) : Option Store :=
  if t.isWrite then s.restoreSavepoint sp else none

/-- The text store seen by the functions of rope_helpers.rs. -/
def Store.text (s : Store) : RopeSt := ⟨s.rope, s.blockOffsets⟩

/-- Writing the text store back. -/
def Store.withText (s : Store) (r : RopeSt) : Store := { s with rope := r.rope, blockOffsets := r.idx }

end Verif
