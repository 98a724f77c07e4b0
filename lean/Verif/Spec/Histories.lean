import Verif.Model.Commands
import Verif.Spec.DirectAccess
/-
What is asked of a history of commands.
-/
namespace Verif

/-- Markdown and HTML are loaded only while there is nothing to undo. -/
def NoLateLoad (w : Work) : List WorkOp → Prop
  | [] => True
  | o :: os => (∀ html es, o = .load html es → w.done = []) ∧ ∀ w', w.step o = some w' → NoLateLoad w' os

end Verif
