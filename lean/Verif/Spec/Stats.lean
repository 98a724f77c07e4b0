import Verif.Model.Session
/-
What a word is: a stretch of characters other than whitespace, as long as possible.
-/
namespace Verif

/-- How many words begin in a text, given whether the character before it is part of a word. -/
def wordStarts : Bool → List Char → Nat
  | _, [] => 0
  | inside, c :: cs =>
    (if !isWhite c && !inside then 1 else 0) + wordStarts (!isWhite c) cs

end Verif
