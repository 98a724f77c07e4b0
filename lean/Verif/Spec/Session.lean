import Verif.Spec.Editing
import Verif.Spec.Timeline
import Verif.Model.Session
/-
What a user expects of an editing session: the document on the screen moves along a time line.
-/
namespace Verif

/-- What each action does to the document on the screen.  A position past the end counts as the end;
typing and pressing Enter first delete the selection. -/
def SessionOp.apply (ps : List SPara) : SessionOp → List SPara
  | .type x y t =>
    let x := min x (docLen ps)
    let y := min y (docLen ps)
    typeAt (min x y) t (deleteBetween (min x y) (max x y) ps)
  | .erase x y =>
    let x := min x (docLen ps)
    let y := min y (docLen ps)
    deleteBetween (min x y) (max x y) ps
  | .enter x y =>
    let x := min x (docLen ps)
    let y := min y (docLen ps)
    splitPara (min x y) 0 (deleteBetween (min x y) (max x y) ps)
  | .undo => ps
  | .redo => ps

/-- Where the caret is afterwards; undo and redo report no caret. -/
def SessionOp.caret (ps : List SPara) : SessionOp → Option Int
  | .type x y t => some ((min (min x (docLen ps)) (min y (docLen ps)) + t.length : Nat) : Int)
  | .erase x y => some ((min (min x (docLen ps)) (min y (docLen ps)) : Nat) : Int)
  | .enter x y => some ((min (min x (docLen ps)) (min y (docLen ps)) + 1 : Nat) : Int)
  | .undo => none
  | .redo => none

/-- The actions that may be joined to the action before them: typing without a selection, and
deleting one position. -/
def SessionOp.joins (ps : List SPara) : SessionOp → Prop
  | .type x y _ => min x (docLen ps) = min y (docLen ps)
  | .erase x y => max (min x (docLen ps)) (min y (docLen ps)) = min (min x (docLen ps)) (min y (docLen ps)) + 1
  | _ => False

/-- How one action moves the time line of what is on the screen. -/
inductive Moves : SessionOp → Timeline (List SPara) → Timeline (List SPara) → Prop where
  /-- a new step, dropping what could have been redone -/
  | edit {op t} : op ≠ .undo → op ≠ .redo → Moves op t (t.edit (op.apply t.cur))
  /-- joined to the step before it -/
  | join {op t} : op.joins t.cur → t.past ≠ [] → Moves op t (t.extend (op.apply t.cur))
  | undo {t} : Moves .undo t t.undo
  | redo {t} : Moves .redo t t.redo

/-- The same for several actions. -/
inductive MovesAll : List (Nat × SessionOp) → Timeline (List SPara) → Timeline (List SPara) → Prop where
  | nil {t} : MovesAll [] t t
  | cons {now op ops t t' t''} : Moves op t t' → MovesAll ops t' t'' → MovesAll ((now, op) :: ops) t t''

/-- Typing follows a replaced selection only after more than two seconds. -/
def Spaced (ops : List (Nat × SessionOp)) : Prop :=
  ops.Pairwise fun a b => ∀ x y t x' y' t', a.2 = .type x y t → x ≠ y → b.2 = .type x' y' t' →
    a.1 + mergeWindow < b.1

end Verif
