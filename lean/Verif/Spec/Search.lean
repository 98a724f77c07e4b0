/- Occurrences of a query in a text. -/
namespace Verif

/-- `q` occurs in `t` at character position `p`. -/
def OccursAt (q : List Char) (p : Nat) (t : List Char) : Prop :=
  ∃ a b, t = a ++ q ++ b ∧ a.length = p

end Verif
