import Verif.Model.LongOps

/-! The words used in the statements about background operations. -/
namespace Verif.LongOps

/-- A state some schedule leads to, and the schedule. -/
def ReachedBy (acts : List Act) (s : Sys) : Prop := Sys.init.run acts = some s

/-- The id strings handed out by the calls of `start_operation` in a schedule. -/
def issued : Sys → List Act → List String
  | _, [] => []
  | s, a :: as =>
      match s.step a with
      | none => []
      | some s' => (if a = .alloc then [opName s'.next] else []) ++ issued s' as

/-- The operation's thread has not read the cancel flag yet. -/
def Worker.undecided : Worker → Bool
  | .none | .executing | .returned _ => true
  | _ => false

/-- The operation's thread read the cancel flag, found it clear, and is on its
way to write the final status. -/
def Worker.committed : Worker → Bool
  | .passed _ => true
  | .decided f => f != .cancelled
  | .announced f => f != .cancelled
  | _ => false

/-- The events a listener sees for one operation, oldest first. -/
def seen (s : Sys) (id : Nat) : List EvKind :=
  (s.events.filter (fun e => e.id == id)).map Ev.kind

/-- `Started` first, then progress, then at most one end. -/
def InOrder (l : List EvKind) : Prop :=
  l = [] ∨ ∃ n last, l = .started :: (List.replicate n .progress ++ last) ∧
    (last = [] ∨ last = [.completed] ∨ last = [.failed])

end Verif.LongOps
