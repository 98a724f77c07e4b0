import Verif.Spec.TableEdits
/-
What deleting a selection across cells is expected to leave.
-/
namespace Verif

/-- The paragraph without its text, if it is one of `ids`. -/
def emptied (ids : List Nat) (q : SPara) : SPara := if q.id ∈ ids then { q with chars := [] } else q

/-- If the stored text ends in a paragraph, this one has some text and is not one of `ids`. -/
def EndsOutside (s : Store) (ps : List SPara) (ids : List Nat) : Prop :=
  ∀ q ∈ ps, s.blockOffsets.entries.getLast?.map Prod.fst = some (.block q.id) → q.chars ≠ [] ∧ q.id ∉ ids

end Verif
