import Verif.Spec.FragmentText
/-
Reading pages with tables: the reader of `Spec/Html.lean`, which does not know tables, for what is outside of them, and a reader of
rows, cells and lines for the tables.
-/
namespace Verif

/-- A cell of a table on a page: over how many rows and columns it goes, as written, and its lines. -/
structure HtmlCell where
  rowSpan : List Char
  columnSpan : List Char
  lines : List (List (Char × HtmlMarks))
deriving DecidableEq

/-- Attributes ` key="value" key="value"`, cut at the quotes. -/
def attrPairs : List (List Char) → List (List Char × List Char)
  | k :: v :: rest => (k, v) :: attrPairs rest
  | _ => []

/-- A number of rows or columns a cell goes over, `1` if it does not say. -/
def spanAttr (key : String) (e : HtmlElem) : List Char :=
  ((attrPairs (splitOnChar '"' e.rest)).lookup (' ' :: key.toList ++ ['='])).getD ['1']

/-- A table being read: its rows (last first), its open row (last cell first), its open cell with the reader of its text. -/
structure TableReader where
  rows : List (List HtmlCell) := []
  row : Option (List HtmlCell) := none
  cell : Option (HtmlElem × HtmlReader) := none

/-- A token inside a table; the text of a cell is lines with `<br>` or `<br/>` between them. -/
def TableReader.step (t : TableReader) (k : HtmlToken) : Option TableReader :=
  match t.cell, t.row with
  | some (e, r), row =>
    if k = .tag "/td".toList ∧ r.open_ = [] then
      row.map fun cells => { t with
        row := some (⟨spanAttr "rowspan" e, spanAttr "colspan" e, r.paras.reverse.map HtmlPara.chars⟩ :: cells), cell := none }
    else if k = .tag "br".toList ∨ k = .tag "br/".toList then some { t with cell := some (e, { r with paras := ⟨.para, [], []⟩ :: r.paras }) }
    else (r.step k).map fun r => { t with cell := some (e, r) }
  | none, some cells =>
    match k with
    | .tag body =>
      if body = "/tr".toList then some { t with rows := cells.reverse :: t.rows, row := none }
      else if (elemOf body).name = "td".toList then some { t with cell := some (elemOf body, ⟨[], true, [⟨.para, [], []⟩]⟩) }
      else none
    | .char _ => none
  | none, none => if k = .tag "tr".toList then some { t with row := some [] } else none

/-- Whether a token opens a table. -/
def HtmlToken.opensTable : HtmlToken → Bool
  | .tag body => (elemOf body).name = "table".toList
  | .char _ => false

/-- A page being read: what is outside of tables, the table being read, and the tables (last first), each with the number of paragraphs in
front of it. -/
structure PageReader where
  base : HtmlReader
  table : Option TableReader
  tables : List (Nat × List (List HtmlCell))

def PageReader.step (p : PageReader) (k : HtmlToken) : Option PageReader :=
  match p.table with
  | some t =>
    if k = .tag "/table".toList ∧ t.row = none ∧ t.cell.isNone then
      some { p with table := none, tables := (p.base.paras.length, t.rows.reverse) :: p.tables }
    else (t.step k).map fun t => { p with table := some t }
  | none =>
    if k.opensTable = true ∧ p.base.inPara = false then some { p with table := some {} }
    else (p.base.step k).map fun b => { p with base := b }

/-- The paragraphs of a page, and its tables, each with the number of paragraphs in front of it. -/
def readPage (t : List Char) : Option (List HtmlPara × List (Nat × List (List HtmlCell))) :=
  (htmlTokens .text t).bind fun ts =>
  (ts.foldlM PageReader.step ⟨⟨[], false, []⟩, none, []⟩).bind fun p =>
  if p.base.open_ = [] ∧ p.table.isNone then some (p.base.paras.reverse, p.tables.reverse) else none

/-! ### The page a table of a fragment should give -/

/-- A number of rows or columns; a cell goes over at least one. -/
def spanText (n : Nat) : List Char := if n > 1 then (toString n).toList else ['1']

/-- What a cell of a fragment should look like: every paragraph a line.  (A cell without paragraphs is an empty line.) -/
def fragCellOf (c : Store.FragCell) : HtmlCell :=
  ⟨spanText c.rowSpan, spanText c.columnSpan,
    if c.blocks = [] then [[]] else c.blocks.map fun fb => fb.chars.map fun x => (x.1, fragMarksOf (x.2.getD {}))⟩

/-- What a table of a fragment should look like: row by row the cells that start there, column by column. -/
def fragTableOf (t : Store.FragTable) : List (List HtmlCell) :=
  (List.range t.rows).map fun r => (List.range t.columns).flatMap fun c =>
    ((t.cells.find? fun x => x.row = r ∧ x.column = c).map fragCellOf).toList

end Verif
