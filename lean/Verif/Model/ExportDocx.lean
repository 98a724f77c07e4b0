import Verif.Model.ExportHtml
import Verif.Model.TableCommands
/-
DOCX export of a document: crates/document_io/src/use_cases/export_docx_uc.rs (`TextDocument::to_docx`), up to the value given to
the `docx_rs` crate.  `none` is an error or a panic.  Left out: checking and writing the file, progress reports, cancelling.
The line spacing (`(lh as f64 / 1000.0 * 240.0) as i32`) is a parameter `twips`.  Rows, columns, spans and widths of stored tables are
taken as not negative (the code casts them to `usize`).
-/
namespace Verif
namespace Store

/-- What is set on a `docx_rs::Run`. -/
structure DocxRun where
  text : List Char
  bold : Bool := false
  italic : Bool := false
  underline : Bool := false
  strike : Bool := false
  courier : Bool := false
deriving DecidableEq, Repr

/-- What is set on a `docx_rs::Paragraph`: the number in the name of the heading style, line spacing, whether lines are kept
together, and the runs. -/
structure DocxPara where
  heading : Option Int := none
  line : Option Int := none
  keepLines : Bool := false
  runs : List DocxRun := []
deriving DecidableEq, Repr

/-- `VMergeType`. -/
inductive VMerge where
  | restart
  | continue_
deriving DecidableEq, Repr

/-- What is set on a `docx_rs::TableCell`. -/
structure DocxCell where
  gridSpan : Option Nat := none
  vMerge : Option VMerge := none
  paras : List DocxPara := []
deriving DecidableEq, Repr

/-- The children of a `docx_rs::Docx`; a table with its grid and its rows. -/
inductive DocxItem where
  | para (p : DocxPara)
  | table (grid : Option (List Nat)) (rows : List (List DocxCell))
deriving DecidableEq, Repr

/-- A run with the formats of a text or an image, L210-L226. -/
def docxMarks (f : CharFormat) (t : List Char) : DocxRun :=
  { text := t
    bold := f.fontBold = some true
    italic := f.fontItalic = some true
    underline := f.fontUnderline = some true
    strike := f.fontStrikeout = some true
    courier := f.fontFamily = some "monospace" }

/-- One element of a paragraph, L197-L229. -/
def docxSegment : Segment CharFormat → List DocxRun
  | .text t f => if t = [] then [] else [docxMarks f t]
  | .image i => [docxMarks i.fmt ("[Image: ".toList ++ i.name.toList ++ "]".toList)]

/-- The runs of a block, L167-L172 and L197-L229, for cells L359-L398. -/
def docxRuns (s : Store) (b : Block) : Option (List DocxRun) :=
  (s.blockSegments b.id).map fun segs => segs.flatMap docxSegment

/-- A paragraph outside the tables, L167-L229. -/
def docxPara (twips : Int → Int) (s : Store) (b : Block) : Option DocxPara :=
  (s.docxRuns b).map fun runs =>
    { heading := b.fmtHeadingLevel.map fun l => max 1 (min 6 l)
      line := b.fmtLineHeight.map twips
      keepLines := b.fmtNonBreakableLines = some true
      runs }

/-- The paragraphs of a cell, L349-L401. -/
def docxCellParas (s : Store) (c : TableCell) : Option (List DocxPara) :=
  match c.cellFrame with
  | none => some []
  | some g => mapOpt (fun b => (s.docxRuns b).map fun runs => ({ runs } : DocxPara))
      (sortByKey Block.documentPosition (s.getBlocks (s.frameBlocks g)))

/-- The places a cell at (`r`, `k`) covers beside its own, L405-L415. -/
def docxCovered (rows columns r k : Nat) (c : TableCell) : List (Nat × Nat) :=
  (List.range c.rowSpan.toNat).flatMap fun i => (List.range c.columnSpan.toNat).flatMap fun j =>
    if i = 0 ∧ j = 0 then [] else if r + i < rows ∧ k + j < columns then [(r + i, k + j)] else []

/-- One place of the grid, L308-L421; `cov` are the places marked as covered. -/
def docxPlace (s : Store) (cells : List TableCell) (rows columns r k : Nat) (cov : List (Nat × Nat)) :
    Option (List DocxCell × List (Nat × Nat)) :=
  if cov.contains (r, k) then
    if decide (r > 0) && cells.any fun (c : TableCell) => decide (c.column = (k : Int) ∧ c.row < (r : Int) ∧ c.row + c.rowSpan > (r : Int)) then
      some ([{ vMerge := some .continue_ }], cov)
    else some ([], cov)
  else
    match cells.find? fun (c : TableCell) => decide (c.row = (r : Int) ∧ c.column = (k : Int)) with
    | some c => (s.docxCellParas c).map fun paras =>
        ([{ gridSpan := if c.columnSpan > 1 then some c.columnSpan.toNat else none
            vMerge := if c.rowSpan > 1 then some .restart else none
            paras }],
          cov ++ docxCovered rows columns r k c)
    | none => some ([{ paras := [{}] }], cov)

/-- A row, L306-L423, from the column `k` on; `n` columns are left. -/
def docxRow (s : Store) (cells : List TableCell) (rows columns r : Nat) : Nat → Nat → List (Nat × Nat) →
    Option (List DocxCell × List (Nat × Nat))
  | 0, _, cov => some ([], cov)
  | n + 1, k, cov =>
    (s.docxPlace cells rows columns r k cov).bind fun (x, cov) =>
    (docxRow s cells rows columns r n (k + 1) cov).map fun (xs, cov) => (x ++ xs, cov)

/-- The rows, L303-L424, from the row `r` on; `n` rows are left. -/
def docxRows (s : Store) (cells : List TableCell) (rows columns : Nat) : Nat → Nat → List (Nat × Nat) →
    Option (List (List DocxCell))
  | 0, _, _ => some []
  | n + 1, r, cov =>
    (s.docxRow cells rows columns r columns 0 cov).bind fun (x, cov) =>
    (docxRows s cells rows columns n (r + 1) cov).map fun xs => x :: xs

/-- `render_table_docx`, L276-L432. -/
def docxTable (s : Store) (tid : Nat) : Option DocxItem :=
  (s.tables tid).bind fun t =>
  (s.docxRows (s.sortedCells tid) t.rows.toNat t.columns.toNat t.rows.toNat 0 []).map fun rows =>
    .table (if t.columnWidths = [] then none else some (t.columnWidths.map Int.toNat)) rows

/-- One frame, L131-L242. -/
def docxFrame (twips : Int → Int) (s : Store) (did f : Nat) : Option (List DocxItem) :=
  if (s.cellFrameIds did).contains f then some []
  else
    match (s.frames f).bind Frame.table with
    | some tid => (s.docxTable tid).map fun t => [t]
    | none => (mapOpt (s.docxPara twips) (sortByKey Block.documentPosition (s.getBlocks (s.frameBlocks f)))).map
        fun ps => ps.map DocxItem.para

/-- `execute`, L52-L273: what is written, and the number of paragraphs reported. -/
def exportDocx (twips : Int → Int) (s : Store) : Option (List DocxItem × Int) :=
  s.docId.bind fun did =>
  (mapOpt (s.docxFrame twips did) (s.docFrames did)).map fun l => (l.flatten, (l.flatten.length : Int))

end Store
end Verif
