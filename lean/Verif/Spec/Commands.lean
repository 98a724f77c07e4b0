import Verif.Spec.Editing
import Verif.Model.Session
/-
The calls behind the editing commands, for stating what undo and redo of one command do.
-/
namespace Verif

/-- A call of `insert_text`, `delete_text` or `insert_block` with positions that are not negative. -/
inductive Request where
  | insert (x y : Nat) (t : List Char)
  | delete (x y : Nat)
  | split (x : Nat)

/-- Execute it: the store afterwards and the command for the history; `none` for an error. -/
def Request.run (s : Store) (now : Nat) : Request → Option (Store × EditCmd)
  | .insert x y t => (runInsert s ⟨x, y, t⟩ now).map fun r => (r.1, .insert r.2)
  | .delete x y => (runDelete s x y now).map fun r => (r.1, .delete r.2)
  | .split x => (runBlock s x).map fun r => (r.1, .block r.2.1)

/-- The positions lie in the document. -/
def Request.inRange (ps : List SPara) : Request → Prop
  | .insert x y _ => max x y ≤ docLen ps
  | .delete x y => max x y ≤ docLen ps
  | .split x => x ≤ docLen ps

/-- What the user expects of the call. -/
def Request.apply (ps : List SPara) : Request → List SPara
  | .insert x y t => typeAt (min x y) t (deleteBetween (min x y) (max x y) ps)
  | .delete x y => deleteBetween (min x y) (max x y) ps
  | .split x => splitPara x 0 ps

end Verif
