import Verif.Spec.Editing
/- Where the paragraphs of a document are, as its user counts: every character is one, and so is the
end of every paragraph but the last. -/
namespace Verif

/-- The position of the first character of paragraph number `n`. -/
def paraStart (ps : List SPara) (n : Nat) : Nat := ((ps.take n).map fun p => p.chars.length + 1).sum

end Verif
