import Verif.Spec.Reading
import Verif.Spec.Tables
/- What the flow snapshot of a document with tables has to show.  Of the model only the data types are used. -/
namespace Verif
open Store

/-- Where paragraph `p` is: outside the tables in the main frame `f`, or in the frame of a cell, which is named by
its table, row and column. -/
def HomeOf (items : List SItem) (f : Nat) (p : SPara) (g : Nat) (cell : Option (Nat × Int × Int)) : Prop :=
  p ∈ topParas items ∧ g = f ∧ cell = none ∨
  ∃ t ∈ tablesOf items, ∃ c ∈ t.cells, p ∈ c.paras ∧ g = c.frame ∧ cell = some (t.table.id, c.cell.row, c.cell.column)

/-- The snapshots show the paragraphs, one for one, the first of them being number `n` of the paragraphs `ps` of the document. -/
def ParasShow (s : Store) (f : Nat) (cell : Option (Nat × Int × Int)) (ps : List SPara) : Nat → List SPara → List BlockSnap → Prop
  | _, [], [] => True
  | n, p :: qs, b :: bs => SnapShows s f cell ps n p b ∧ ParasShow s f cell ps (n + 1) qs bs
  | _, _, _ => False

/-- The snapshots show the cells of the table `t`: place, spans and format of each and its paragraphs. -/
def CellsShow (s : Store) (t : Nat) (ps : List SPara) : Nat → List SCell → List CellSnap → Prop
  | _, [], [] => True
  | n, c :: cs, k :: ks => k.cell = c.cell ∧ ParasShow s c.frame (some (t, c.cell.row, c.cell.column)) ps n c.paras k.blocks ∧
      CellsShow s t ps (n + c.paras.length) cs ks
  | _, _, _ => False

/-- The snapshot shows the items of the document: a paragraph for a paragraph, a table for a table. -/
def ItemsShow (s : Store) (f : Nat) (ps : List SPara) : Nat → List SItem → List FlowSnap → Prop
  | _, [], [] => True
  | n, .para p :: is, .block b :: fs => SnapShows s f none ps n p b ∧ ItemsShow s f ps (n + 1) is fs
  | n, .table t :: is, .table tb cells :: fs => tb = t.table ∧ CellsShow s t.table.id ps n t.cells cells ∧
      ItemsShow s f ps (n + (t.cells.flatMap SCell.paras).length) is fs
  | _, _, _ => False

end Verif
