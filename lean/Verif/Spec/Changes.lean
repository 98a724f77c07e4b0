/-
Vocabulary for C31-C33: replacing a stretch of a list.
-/
namespace Verif

/-- The list obtained from `l` by replacing the `removed` elements at `pos` by `ins`. -/
def replaceAt {α : Type} (l : List α) (pos removed : Nat) (ins : List α) : List α :=
  l.take pos ++ ins ++ l.drop (pos + removed)

end Verif
