import Verif.Spec.Inspect
import Verif.Spec.Formatting
/- What the lists of a document are to its user.  Only the data types of the model are used. -/
namespace Verif

/-- The paragraph as an item of a list, or of none. -/
def SPara.inList (p : SPara) (l : Option Nat) : SPara := { p with shape := { p.shape with list := l } }

/-- The items of a list, in the order of the document. -/
def itemsOf (ps : List SPara) (l : Nat) : List Nat := (ps.filter fun p => decide (p.shape.list = some l)).map SPara.id

/-- The lists of a document are in order: the lists that exist are those the document names, each named once
and kept under its own id; every item belongs to one of them; and the id the next list will get is not in
use. -/
structure ListsOk (s : Store) (d : Document) (ps : List SPara) : Prop where
  known : ∀ l ∈ d.lists, ∃ e, s.lists l = some e ∧ e.id = l
  only : ∀ l, (s.lists l).isSome → l ∈ d.lists
  items : ∀ p ∈ ps, ∀ l, p.shape.list = some l → l ∈ d.lists
  nodup : d.lists.Nodup
  fresh : ∀ l, (s.lists l).isSome → l < s.next "list"

end Verif
