import Verif.Spec.Lists
import Verif.Model.Clipboard
/- Which lists a sequence of inserted paragraphs is put in. -/
namespace Verif

/-- The list of a paragraph that asks for a list (or for none), after the paragraphs `past`: the rule of C44, where a
new list is one that is not among `old`. -/
def ListRule (old : List Nat) (past : Imported) (asked : Option Store.FragList) (l : Option Nat) : Prop :=
  match asked with
  | none => l = none
  | some x => ∃ fresh, fresh ∉ old ∧ l = some (joins past x.style (x.indent % 4294967296).toNat fresh)

/-- What C44's rule looks at: an item with its indent, list and style, or no item. -/
def listSeen : Option Store.FragList → Option Nat → Option (Nat × Nat × ListStyle)
  | some x, some id => some ((x.indent % 4294967296).toNat, id, x.style)
  | _, _ => none

/-- The lists of paragraphs that follow each other, after the paragraphs `past`; new lists are different from each other and
from the lists `old`. -/
def ListsJoined : List Nat → Imported → List (Option Store.FragList) → List (Option Nat) → Prop
  | _, _, [], [] => True
  | old, past, x :: xs, l :: ls => ListRule old past x l ∧ ListsJoined (l.toList ++ old) (listSeen x l :: past) xs ls
  | _, _, _, _ => False

/-- The paragraph with the caret, as C44's rule sees it. -/
def caretSeen (s : Store) (list : Option Nat) : Imported :=
  match list.bind s.lists with
  | some e => [some ((e.indent % 4294967296).toNat, list.getD 0, e.style)]
  | none => []

end Verif
