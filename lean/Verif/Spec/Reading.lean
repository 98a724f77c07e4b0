import Verif.Spec.ListCommands
import Verif.Spec.Stream
import Verif.Model.Reading
/- What a snapshot of a paragraph has to show.  Of the model only the data types and the list marker are used. -/
namespace Verif

/-- The snapshot shows paragraph number `n` of the document, `p`, in frame `f`
and, if it is in a table, in the cell `cell` (table, row, column): its identity, its start in the
document, its length and text, its characters with their formats, fragments that know where they are, its
paragraph format, and, for an item of a list, that list and the number of items of it before this one. -/
structure SnapShows (s : Store) (f : Nat) (cell : Option (Nat × Int × Int)) (ps : List SPara) (n : Nat) (p : SPara) (snap : Store.BlockSnap) : Prop where
  blockId : snap.blockId = p.id
  position : snap.position = paraStart ps n
  length : snap.length = p.chars.length
  text : snap.text = p.chars.map Prod.fst
  chars : fragItems snap.fragments = p.chars.map fun c => Item.char c.1 (c.2.getD {})
  offsets : ∀ before after cs fmt o k byte, snap.fragments = before ++ .text cs fmt o k byte :: after →
    o = (fragItems before).length ∧ k = cs.length
  format : snap.format = .ofBlock p.shape
  noList : p.shape.list = none → snap.listInfo = none
  item : ∀ l tl, p.shape.list = some l → s.lists l = some tl →
    ∃ info, snap.listInfo = some info ∧ info.listId = l ∧ info.style = tl.style ∧ info.indent = intToU8 tl.indent ∧
      info.itemIndex = (itemsOf (ps.take n) l).length ∧ info.marker = formatListMarker tl (itemsOf (ps.take n) l).length
  parentFrame : snap.parentFrame = some f
  tableCell : snap.tableCell = cell

end Verif
