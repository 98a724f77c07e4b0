import Verif.Spec.Session
import Verif.Model.PlainText
/-
What importing a plain text should give.
-/
namespace Verif

/-- The text with every line end ("\r\n", "\r" or "\n") written "\n". -/
def unixText : List Char → List Char
  | [] => []
  | '\r' :: '\n' :: cs => '\n' :: unixText cs
  | '\r' :: cs => '\n' :: unixText cs
  | c :: cs => c :: unixText cs

/-- A paragraph made of unformatted characters, in the default paragraph format. -/
def plainPara (id : Nat) (line : List Char) : SPara := ⟨id, styled line none, {}⟩

/-- `lines` are the lines of `t`: no line has a line end, and joined by "\n" they are `t`. -/
def LinesOf (t : List Char) (lines : List (List Char)) : Prop :=
  lines ≠ [] ∧ (∀ l ∈ lines, '\n' ∉ l) ∧ joinNl lines = t

/-- How a life of a document moves the time line: loading a text starts a new one. -/
inductive LifeMoves : LifeOp → Timeline (List SPara) → Timeline (List SPara) → Prop where
  | act {now op t t'} : Moves op t t' → LifeMoves (.act now op) t t'
  | load {txt t lines} : LinesOf (unixText txt) lines →
      LifeMoves (.load txt) t ⟨[], lines.map (plainPara 0), []⟩

/-- The same for several actions. -/
inductive LifeMovesAll : List LifeOp → Timeline (List SPara) → Timeline (List SPara) → Prop where
  | nil {t} : LifeMovesAll [] t t
  | cons {op ops t t' t''} : LifeMoves op t t' → LifeMovesAll ops t' t'' → LifeMovesAll (op :: ops) t t''

/-- The editing actions of a life, with their times. -/
def LifeOp.acts (ops : List LifeOp) : List (Nat × SessionOp) :=
  ops.filterMap fun | .act now op => some (now, op) | .load _ => none

end Verif
