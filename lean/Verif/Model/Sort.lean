/-
`sort_by_key`: the standard library's stable sort, as insertion sort.  All stable sorts give the same
list.
-/
namespace Verif

/-- Puts `a` before the first element with a larger or equal key. -/
def insertByKey {α : Type} (key : α → Int) (a : α) : List α → List α
  | [] => [a]
  | b :: l => if key a ≤ key b then a :: b :: l else b :: insertByKey key a l

/-- `slice::sort_by_key`: increasing keys, elements with equal keys in their old order. -/
def sortByKey {α : Type} (key : α → Int) : List α → List α
  | [] => []
  | a :: l => insertByKey key a (sortByKey key l)

end Verif
