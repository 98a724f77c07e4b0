import Verif.Model.Lists
/- How roman numerals are read, and which list an imported item belongs to. -/
namespace Verif

/-- The value of a roman digit, in either case. -/
def romanDigit (c : Char) : Nat :=
  if c = 'I' ∨ c = 'i' then 1 else if c = 'V' ∨ c = 'v' then 5 else if c = 'X' ∨ c = 'x' then 10
  else if c = 'L' ∨ c = 'l' then 50 else if c = 'C' ∨ c = 'c' then 100
  else if c = 'D' ∨ c = 'd' then 500 else if c = 'M' ∨ c = 'm' then 1000 else 0

/-- Reads a roman numeral: a digit before a larger one is subtracted, all others are added. -/
def romanValue : List Char → Int
  | [] => 0
  | [a] => romanDigit a
  | a :: b :: l =>
    (if romanDigit a < romanDigit b then -(romanDigit a : Int) else romanDigit a) + romanValue (b :: l)

/-- What has been imported so far, latest first: an item with its indent, list and style, or (`none`) a
block that is no item. -/
abbrev Imported := List (Option (Nat × Nat × ListStyle))

/-- The list still open at an indent: that of the latest item there, unless a shallower item or a block
that is no item came after it. -/
def openList (indent : Nat) : Imported → Option (Nat × ListStyle)
  | [] => none
  | none :: _ => none
  | some (i, id, style) :: past =>
    if i = indent then some (id, style)
    else if i < indent then none
    else openList indent past

/-- The list an item joins: the open list if it has the item's style, else a new one. -/
def joins (past : Imported) (style : ListStyle) (indent fresh : Nat) : Nat :=
  match openList indent past with
  | some (id, st) => if st = style then id else fresh
  | none => fresh

/-- The lists the blocks join, by the rule. -/
def joinAll : Imported → List ImportEv → List (Option Nat)
  | _, [] => []
  | past, .item style indent fresh :: es =>
    some (joins past style indent fresh) ::
      joinAll (some (indent, joins past style indent fresh, style) :: past) es
  | past, .other :: es => none :: joinAll (none :: past) es

end Verif
