import Verif.Model.UndoRedo
/-
What a user expects of undo/redo: the document moves along a time line of states.
-/
namespace Verif
variable {C S : Type}

/-- What undo/redo relies on from each command: `Done c s s'` says that `c` has just taken the
document from `s` to `s'`, `Undone c s s'` that it has been undone and would do so again. -/
structure Contract (api : CmdApi C S) where
  Done : C → S → S → Prop
  Undone : C → S → S → Prop
  undo_ok : ∀ {c s s'}, Done c s s' → ∃ c', api.undo c s' = (true, c', s) ∧ Undone c' s s'
  redo_ok : ∀ {c s s'}, Undone c s s' → ∃ c', api.redo c s = (true, c', s') ∧ Done c' s s'
  merge_ok : ∀ {a c s s' s''}, Done a s s' → Done c s' s'' → api.canMerge a c = true →
    if (api.merge a c).1 then Done (api.merge a c).2 s s'' else Done (api.merge a c).2 s s'

/-- A time line: earlier states (latest first), the current one, states ahead (nearest first). -/
structure Timeline (S : Type) where
  past : List S
  cur : S
  future : List S

def Timeline.undo : Timeline S → Timeline S
  | ⟨p :: ps, c, f⟩ => ⟨ps, p, c :: f⟩
  | t => t

def Timeline.redo : Timeline S → Timeline S
  | ⟨ps, c, n :: f⟩ => ⟨c :: ps, n, f⟩
  | t => t

/-- A new edit leading to `s` becomes a new step and drops what was ahead. -/
def Timeline.edit (t : Timeline S) (s : S) : Timeline S := ⟨t.cur :: t.past, s, []⟩

/-- An edit merged into the last step. -/
def Timeline.extend (t : Timeline S) (s : S) : Timeline S := ⟨t.past, s, []⟩

/-- What the user does: an edit with command `c` leading to state `s`, an undo or a redo. -/
inductive HistOp (C S : Type) where
  | edit (c : C) (s : S)
  | undo
  | redo

/-- The time line after one step, without merging. -/
def Timeline.step : Timeline S → HistOp C S → Timeline S
  | t, .edit _ s => t.edit s
  | t, .undo => t.undo
  | t, .redo => t.redo

end Verif
