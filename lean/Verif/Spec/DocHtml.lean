import Verif.Spec.HtmlTables
import Verif.Spec.Tables
/- The page a document with tables should give: its tables, row by row, each after the paragraphs in front of it. -/
namespace Verif

/-- What a cell of a document looks like: its span and its paragraphs that are not empty, each a line.  (A cell without text is an empty
line.) -/
def docCellOf (c : SCell) : HtmlCell :=
  ⟨spanText c.cell.rowSpan.toNat, spanText c.cell.columnSpan.toNat,
    if c.paras.filter (fun p => p.chars ≠ []) = [] then [[]] else (c.paras.filter fun p => p.chars ≠ []).map fun p => marked p.chars⟩

/-- What a table of a document looks like: row by row the cells that begin there. -/
def docTableOf (t : STable) : List (List HtmlCell) :=
  (List.range t.table.rows.toNat).map fun (r : Nat) => (t.cells.filter fun c => decide (c.cell.row = (r : Int))).map docCellOf

/-- The tables of a document at their places: each with the number of paragraphs outside the tables in front of it (`n` of them before the
items). -/
def placedTables : Nat → List SItem → List (Nat × List (List HtmlCell))
  | _, [] => []
  | n, .para _ :: items => placedTables (n + 1) items
  | n, .table t :: items => (n, docTableOf t) :: placedTables n items

end Verif
