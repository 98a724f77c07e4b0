import Verif.Spec.Inspect
/-
A document with tables as its user sees it: paragraphs and tables in order, each table a list of cells
in reading order, each cell a list of paragraphs; and what it means for a store to show such a document.
-/
namespace Verif

/-- A cell: its entity (place, spans, format), the frame that holds its text, its paragraphs. -/
structure SCell where
  cell : TableCell
  frame : Nat
  paras : List SPara

/-- A table: its entity (size, widths, format), the frame that stands for it in the text, its cells. -/
structure STable where
  table : Table
  anchor : Nat
  cells : List SCell

/-- What a document is made of. -/
inductive SItem where
  | para (p : SPara)
  | table (t : STable)

/-- The paragraphs of an item in reading order. -/
def SItem.paras : SItem → List SPara
  | .para p => [p]
  | .table t => t.cells.flatMap SCell.paras

/-- An item with another content in its paragraphs. -/
def SItem.on (g : SPara → SPara) : SItem → SItem
  | .para p => .para (g p)
  | .table t => .table { t with cells := t.cells.map fun c => { c with paras := c.paras.map g } }

/-- The arrangement of a document: its paragraphs and tables without the characters. -/
def arrangement (items : List SItem) : List SItem := items.map (SItem.on fun q => { q with chars := [] })

/-- All paragraphs of a document in reading order, those in cells included. -/
def flowParas (items : List SItem) : List SPara := items.flatMap SItem.paras

/-- The paragraphs outside the tables. -/
def topParas (items : List SItem) : List SPara :=
  items.flatMap fun | .para p => [p] | .table _ => []

/-- The tables of a document. -/
def tablesOf (items : List SItem) : List STable :=
  items.flatMap fun | .para _ => [] | .table t => [t]

/-- The cells of a document. -/
def cellsOf (items : List SItem) : List SCell := (tablesOf items).flatMap STable.cells

/-- The frames of the tables: the one that stands for each table and those of its cells. -/
def tableFrames (items : List SItem) : List Nat :=
  (tablesOf items).flatMap fun t => t.anchor :: t.cells.map SCell.frame

/-- How an item is listed in its frame. -/
def SItem.entry : SItem → Int
  | .para p => p.id
  | .table t => -(t.anchor : Int)

/-- Reading order of cells. -/
def SCell.before (a b : SCell) : Prop :=
  a.cell.row < b.cell.row ∨ a.cell.row = b.cell.row ∧ a.cell.column < b.cell.column

/-- A table with nothing in it: one cell at each place of the grid, row by row, each spanning only its
place, without format, and holding one empty paragraph without format. -/
structure EmptyTable (t : STable) (rows columns : Nat) : Prop where
  table : t.table = { id := t.table.id, rows := rows, columns := columns, cells := t.table.cells
                      columnWidths := List.replicate columns 0 }
  places : (t.cells.map fun c => (c.cell.row, c.cell.column)) =
    (List.range rows).flatMap fun r : Nat => (List.range columns).map fun c : Nat => ((r : Int), (c : Int))
  cells : ∀ c ∈ t.cells, ∃ i, c.paras = [⟨i, [], {}⟩] ∧
    c.cell = { id := c.cell.id, row := c.cell.row, column := c.cell.column, rowSpan := 1, columnSpan := 1
               cellFrame := some c.frame }

/-- The store shows the table `t` in the frame `f`. -/
structure ShowsTable (s : Store) (f : Nat) (t : STable) : Prop where
  table : s.tables t.table.id = some t.table
  cells : t.table.cells.Perm (t.cells.map fun c => c.cell.id)
  order : t.cells.Pairwise SCell.before
  anchor : ∃ fr, s.frames t.anchor = some fr ∧ fr.id = t.anchor ∧ fr.parentFrame = some f ∧ fr.blocks = [] ∧
    fr.childOrder = [] ∧ fr.table = some t.table.id
  cell : ∀ c ∈ t.cells, s.tableCells c.cell.id = some c.cell ∧ c.cell.cellFrame = some c.frame ∧ c.paras ≠ [] ∧
    ∃ fr, s.frames c.frame = some fr ∧ fr.id = c.frame ∧ fr.table = none ∧
      (fr.parentFrame = some t.anchor ∨ fr.parentFrame = none) ∧
      fr.childOrder = c.paras.map (fun p => (p.id : Int)) ∧ fr.blocks.Perm (c.paras.map SPara.id)

/-- The stored position of every paragraph is where it starts. -/
def Seated (s : Store) (ps : List SPara) : Prop :=
  ∀ n p, ps[n]? = some p → ∃ b, s.blocks p.id = some b ∧ b.documentPosition = (paraStart ps n : Int)

/-- The store holds the paragraphs `ps`, without images, its text being `L` in some order. -/
structure Carries (s : Store) (L : List Para) (ps : List SPara) (tables : List Nat) : Prop where
  text : Repr s.text L
  perm : L.Perm (paras ps ++ tables.map fun t => (.table t, [objChar]))
  keys : s.blocks.keys.Perm (ps.map SPara.id)
  block : ∀ p ∈ ps, ∃ b, s.blocks p.id = some b ∧ IsBlock p b
  formats : ∀ p ∈ ps, StyledOk ((s.formatRuns p.id).getD []) p.chars
  images : ∀ p ∈ ps, (s.blockImages p.id).getD [] = []
  fresh : ∀ p ∈ ps, p.id < s.next "block"
  clean : ∀ i, s.next "block" ≤ i → s.formatRuns i = none ∧ s.blockImages i = none

/-- The store shows the document `d` made of the items `items` in its one main frame `f`: every paragraph
outside the tables is in `f`, in order; the other frames are those of the tables; nothing else is stored. -/
structure Tabled (s : Store) (d : Document) (f : Nat) (items : List SItem) : Prop where
  root : ∃ r r', s.roots 1 = some r ∧ s.roots r.id = some r' ∧ r'.document = d.id ∧ d.id ≠ 0
  document : s.documents d.id = some d
  content : ∃ L, Carries s L (flowParas items) ((tablesOf items).map fun t => t.table.id) ∧
    (paras (topParas items)).Sublist L
  frame : ∃ fr, s.frames f = some fr ∧ fr.id = f ∧ fr.parentFrame = none ∧ fr.table = none ∧
    fr.fmtIsBlockquote = none ∧ fr.childOrder = items.map SItem.entry ∧ fr.blocks.Perm ((topParas items).map SPara.id)
  table : ∀ t ∈ tablesOf items, ShowsTable s f t
  frames : ∃ rest, d.frames = f :: rest ∧ rest.Perm (tableFrames items)
  distinct : (f :: tableFrames items).Nodup ∧ ((cellsOf items).map fun c => c.cell.id).Nodup
  onlyFrames : ∀ g, (s.frames g).isSome → g ∈ f :: tableFrames items
  tables : d.tables.Perm ((tablesOf items).map fun t => t.table.id)
  freshFrames : ∀ g, (s.frames g).isSome → 0 < g ∧ g < s.next "frame"
  freshTables : ∀ t, (s.tables t).isSome → t < s.next "table"
  freshCells : ∀ c, (s.tableCells c).isSome → c < s.next "table_cell"
  onlyTables : ∀ t, (s.tables t).isSome → t ∈ (tablesOf items).map fun t => t.table.id
  onlyCells : ∀ c, (s.tableCells c).isSome → c ∈ (cellsOf items).map fun c => c.cell.id
  positive : ∀ p ∈ flowParas items, 0 < p.id
  nonempty : topParas items ≠ []
  seated : tablesOf items ≠ [] → Seated s (flowParas items)

/-- The document counts its characters and paragraphs right. -/
def Counted (d : Document) (ps : List SPara) : Prop := d.characterCount = charTotal ps ∧ d.blockCount = ps.length

/-- The position `x` is in a paragraph of the table `t`. -/
def InTable (items : List SItem) (t : STable) (x : Nat) : Prop :=
  ∃ A B n p k, items = A ++ .table t :: B ∧ (t.cells.flatMap SCell.paras)[n]? = some p ∧ k ≤ p.chars.length ∧
    x = paraStart (flowParas items) ((flowParas A).length + n) + k

/-- The position `x` is in a paragraph outside the tables. -/
def OutOfTables (items : List SItem) (x : Nat) : Prop :=
  ∃ A p B k, items = A ++ .para p :: B ∧ k ≤ p.chars.length ∧ x = paraStart (flowParas items) (flowParas A).length + k

/-- The start of the first paragraph outside the tables after the table `t`. -/
def EdgeAfter (items : List SItem) (t : STable) (x : Nat) : Prop :=
  ∃ A C q D, items = A ++ .table t :: (C ++ .para q :: D) ∧ topParas C = [] ∧
    x = paraStart (flowParas items) (flowParas (A ++ .table t :: C)).length

/-- The end of the last paragraph outside the tables before the table `t`. -/
def EdgeBefore (items : List SItem) (t : STable) (x : Nat) : Prop :=
  ∃ A q C B, items = A ++ .para q :: (C ++ .table t :: B) ∧ topParas C = [] ∧
    x = paraStart (flowParas items) (flowParas A).length + q.chars.length

end Verif
