import Verif.Spec.Editing
/-
Typing text with a given format, on a document as its user sees it.
-/
namespace Verif

/-- Put `t` at position `pos`, every character of it with the format `fmt`. -/
def putAt (pos : Nat) (t : List Char) (fmt : CharFormat) : List SPara → List SPara
  | [] => []
  | p :: ps =>
    if pos ≤ p.chars.length then
      { p with chars := p.chars.take pos ++ styled t (some fmt) ++ p.chars.drop pos } :: ps
    else p :: putAt (pos - p.chars.length - 1) t fmt ps

end Verif
