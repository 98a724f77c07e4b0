import Verif.Spec.Tables
import Verif.Spec.CellSelection
import Verif.Spec.Grid
/-
What changing the structure of a table means for the whole document.
-/
namespace Verif

/-- As `Tabled`, but the stored positions of the paragraphs may be anything. -/
structure Arranged (s : Store) (d : Document) (f : Nat) (items : List SItem) : Prop where
  root : ∃ r r', s.roots 1 = some r ∧ s.roots r.id = some r' ∧ r'.document = d.id ∧ d.id ≠ 0
  document : s.documents d.id = some d
  content : ∃ L, Carries s L (flowParas items) ((tablesOf items).map fun t => t.table.id) ∧
    (paras (topParas items)).Sublist L
  frame : ∃ fr, s.frames f = some fr ∧ fr.id = f ∧ fr.parentFrame = none ∧ fr.table = none ∧
    fr.fmtIsBlockquote = none ∧ fr.childOrder = items.map SItem.entry ∧ fr.blocks.Perm ((topParas items).map SPara.id)
  table : ∀ t ∈ tablesOf items, ShowsTable s f t
  frames : ∃ rest, d.frames = f :: rest ∧ rest.Perm (tableFrames items)
  distinct : (f :: tableFrames items).Nodup ∧ ((cellsOf items).map fun c => c.cell.id).Nodup
  onlyFrames : ∀ g, (s.frames g).isSome → g ∈ f :: tableFrames items
  tables : d.tables.Perm ((tablesOf items).map fun t => t.table.id)
  freshFrames : ∀ g, (s.frames g).isSome → 0 < g ∧ g < s.next "frame"
  freshTables : ∀ t, (s.tables t).isSome → t < s.next "table"
  freshCells : ∀ c, (s.tableCells c).isSome → c < s.next "table_cell"
  onlyTables : ∀ t, (s.tables t).isSome → t ∈ (tablesOf items).map fun t => t.table.id
  onlyCells : ∀ c, (s.tableCells c).isSome → c ∈ (cellsOf items).map fun c => c.cell.id
  positive : ∀ p ∈ flowParas items, 0 < p.id
  nonempty : topParas items ≠ []

theorem Tabled.arranged {s : Store} {d : Document} {f : Nat} {items : List SItem} (h : Tabled s d f items) : Arranged s d f items :=
  ⟨h.root, h.document, h.content, h.frame, h.table, h.frames, h.distinct, h.onlyFrames, h.tables, h.freshFrames, h.freshTables,
    h.freshCells, h.onlyTables, h.onlyCells, h.positive, h.nonempty⟩

theorem Arranged.tabled {s : Store} {d : Document} {f : Nat} {items : List SItem} (h : Arranged s d f items)
    (hs : tablesOf items ≠ [] → Seated s (flowParas items)) : Tabled s d f items :=
  ⟨h.root, h.document, h.content, h.frame, h.table, h.frames, h.distinct, h.onlyFrames, h.tables, h.freshFrames, h.freshTables,
    h.freshCells, h.onlyTables, h.onlyCells, h.positive, h.nonempty, hs⟩

/-- The grid of a table. -/
def STable.grid (t : STable) : Grid := ⟨t.table.rows, t.table.columns, t.table.columnWidths, t.cells.map SCell.cell⟩

/-- No two cells of the grid are at the same place. -/
def Grid.Apart (g : Grid) : Prop := (g.cells.map fun c => (c.row, c.column)).Nodup

/-- `t'` is the table `t` with its cells arranged as the grid `g` says: a cell that was there keeps its
paragraphs, a new cell has one empty paragraph without format. -/
structure Restructured (t : STable) (g : Grid) (t' : STable) : Prop where
  table : t'.table = { t.table with rows := g.rows, columns := g.columns, columnWidths := g.widths, cells := t'.table.cells }
  anchor : t'.anchor = t.anchor
  cells : (t'.cells.map SCell.cell).Perm g.cells
  old : ∀ c' ∈ t'.cells, ∀ c ∈ t.cells, c'.cell.id = c.cell.id → c'.paras = c.paras ∧ c'.frame = c.frame
  new : ∀ c' ∈ t'.cells, (∀ c ∈ t.cells, c'.cell.id ≠ c.cell.id) → ∃ i, c'.paras = [⟨i, [], {}⟩]

/-- All cells of the table are empty and it has at least one. -/
def STable.blank (t : STable) : Prop := t.cells ≠ [] ∧ ∀ c ∈ t.cells, ∀ p ∈ c.paras, p.chars = []

/-- Each cell has one empty paragraph, and there is a cell. -/
def STable.bare (t : STable) : Prop := t.cells ≠ [] ∧ ∀ c ∈ t.cells, ∃ i x, c.paras = [⟨i, [], x⟩]

/-- The place (`r`, `k`) of the table shows the paragraphs `ps`: a cell that takes in the place has them. -/
def STable.shows (t : STable) (r k : Int) (ps : List SPara) : Prop := ∃ c ∈ t.cells, c.cell.covers r k ∧ c.paras = ps

/-- The place (`r`, `k`) of the table shows one empty paragraph without format. -/
def STable.showsNothing (t : STable) (r k : Int) : Prop := ∃ i, t.shows r k [⟨i, [], {}⟩]

/-- The store holds no document but `d`. -/
def OnlyDocument (s : Store) (d : Document) : Prop := ∀ i, (s.documents i).isSome → i = d.id

/-- Behind the mark of the table `t` the stored text has something that is not a paragraph of its cells. -/
def STable.Followed (s : Store) (t : STable) : Prop :=
  ∃ X Y m, s.blockOffsets.entries.map Prod.fst = X ++ .table t.table.id :: Y ∧ m ∈ Y ∧ ∀ p ∈ t.cells.flatMap SCell.paras, m ≠ .block p.id

/-- Of `n` rows or columns cut into `m` parts, the size of the first part. -/
def firstPart (n m : Int) : Int := n / m + if n % m = 0 then 0 else 1

end Verif
