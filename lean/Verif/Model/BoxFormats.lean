import Verif.Model.TableHandles
import Verif.Model.TableCommands
import Verif.Model.Cursor
/-
The formats of tables, cells and frames: document_formatting/src/use_cases/{set_table_format,set_table_cell_format,
set_frame_format}_uc.rs, public_api/src/{convert.rs L300-L389, text_frame.rs L469-L508, cursor.rs L1012-L1057,
L1186-L1204, L1976-L1994}.  The DTO enums have the constructors of the entity enums and are mapped to their namesakes.
`none` is an error.  `redo` executes the same again.  Clock stamps and events are left out.
-/
namespace Verif

/-- public_api `TableFormat`, flow.rs L240-L247. -/
structure TableFormat where
  border : Option Int32 := none
  cellSpacing : Option Int32 := none
  cellPadding : Option Int32 := none
  width : Option Int32 := none
  alignment : Option Alignment := none
deriving DecidableEq, Repr

/-- public_api `CellFormat`, flow.rs L250-L256. -/
structure CellFormat where
  padding : Option Int32 := none
  border : Option Int32 := none
  verticalAlignment : Option CellVAlign := none
  backgroundColor : Option String := none
deriving DecidableEq, Repr

/-- public_api `FrameFormat`, lib.rs L183-L194. -/
structure FrameFormat where
  height : Option Int32 := none
  width : Option Int32 := none
  topMargin : Option Int32 := none
  bottomMargin : Option Int32 := none
  leftMargin : Option Int32 := none
  rightMargin : Option Int32 := none
  padding : Option Int32 := none
  border : Option Int32 := none
  position : Option FramePosition := none
  isBlockquote : Option Bool := none
deriving DecidableEq, Repr

/-- The format fields of `SetTableFormatDto`. -/
structure SetTableFormatDto where
  border : Option Int
  cellSpacing : Option Int
  cellPadding : Option Int
  width : Option Int
  alignment : Option Alignment

/-- The format fields of `SetTableCellFormatDto`. -/
structure SetCellFormatDto where
  padding : Option Int
  border : Option Int
  verticalAlignment : Option CellVAlign
  backgroundColor : Option String

/-- The format fields of `SetFrameFormatDto`; it has no position. -/
structure SetFrameFormatDto where
  height : Option Int
  width : Option Int
  topMargin : Option Int
  bottomMargin : Option Int
  leftMargin : Option Int
  rightMargin : Option Int
  padding : Option Int
  border : Option Int
  isBlockquote : Option Bool

/-- `TableFormat::to_set_dto`, convert.rs L345-L359. -/
def TableFormat.toSetDto (t : TableFormat) : SetTableFormatDto where
  border := t.border.map Int32.toInt
  cellSpacing := t.cellSpacing.map Int32.toInt
  cellPadding := t.cellPadding.map Int32.toInt
  width := t.width.map Int32.toInt
  alignment := t.alignment

/-- `CellFormat::to_set_dto`, convert.rs L373-L389. -/
def CellFormat.toSetDto (c : CellFormat) : SetCellFormatDto where
  padding := c.padding.map Int32.toInt
  border := c.border.map Int32.toInt
  verticalAlignment := c.verticalAlignment
  backgroundColor := c.backgroundColor

/-- `FrameFormat::to_set_dto`, convert.rs L303-L324. -/
def FrameFormat.toSetDto (f : FrameFormat) : SetFrameFormatDto where
  height := f.height.map Int32.toInt
  width := f.width.map Int32.toInt
  topMargin := f.topMargin.map Int32.toInt
  bottomMargin := f.bottomMargin.map Int32.toInt
  leftMargin := f.leftMargin.map Int32.toInt
  rightMargin := f.rightMargin.map Int32.toInt
  padding := f.padding.map Int32.toInt
  border := f.border.map Int32.toInt
  isBlockquote := f.isBlockquote

/-- `table_dto_to_format`, text_frame.rs L484-L492; `as i32` keeps the low 32 bits. -/
def TableFormat.ofTable (t : Table) : TableFormat where
  border := t.fmtBorder.map Int32.ofInt
  cellSpacing := t.fmtCellSpacing.map Int32.ofInt
  cellPadding := t.fmtCellPadding.map Int32.ofInt
  width := t.fmtWidth.map Int32.ofInt
  alignment := t.fmtAlignment

/-- `cell_dto_to_format`, text_frame.rs L494-L508. -/
def CellFormat.ofCell (c : TableCell) : CellFormat where
  padding := c.fmtPadding.map Int32.ofInt
  border := c.fmtBorder.map Int32.ofInt
  verticalAlignment := c.fmtVerticalAlignment
  backgroundColor := c.fmtBackgroundColor

/-- `frame_dto_to_format`, text_frame.rs L469-L482. -/
def FrameFormat.ofFrame (f : Frame) : FrameFormat where
  height := f.fmtHeight.map Int32.ofInt
  width := f.fmtWidth.map Int32.ofInt
  topMargin := f.fmtTopMargin.map Int32.ofInt
  bottomMargin := f.fmtBottomMargin.map Int32.ofInt
  leftMargin := f.fmtLeftMargin.map Int32.ofInt
  rightMargin := f.fmtRightMargin.map Int32.ofInt
  padding := f.fmtPadding.map Int32.ofInt
  border := f.fmtBorder.map Int32.ofInt
  position := f.fmtPosition
  isBlockquote := f.fmtIsBlockquote

/-- `if let Some(v) = new { field = Some(v) }`. -/
def given {α : Type} (new old : Option α) : Option α :=
  match new with
  | some v => some v
  | none => old

/-- set_table_format_uc.rs L59-L75. -/
def Table.withFormat (t : Table) (dto : SetTableFormatDto) : Table :=
  { t with
    fmtBorder := given dto.border t.fmtBorder
    fmtCellSpacing := given dto.cellSpacing t.fmtCellSpacing
    fmtCellPadding := given dto.cellPadding t.fmtCellPadding
    fmtWidth := given dto.width t.fmtWidth
    fmtAlignment := given dto.alignment t.fmtAlignment }

/-- set_table_cell_format_uc.rs L64-L78. -/
def TableCell.withFormat (c : TableCell) (dto : SetCellFormatDto) : TableCell :=
  { c with
    fmtPadding := given dto.padding c.fmtPadding
    fmtBorder := given dto.border c.fmtBorder
    fmtVerticalAlignment := given dto.verticalAlignment c.fmtVerticalAlignment
    fmtBackgroundColor := given dto.backgroundColor c.fmtBackgroundColor }

/-- set_frame_format_uc.rs L50-L79. -/
def Frame.withFormat (f : Frame) (dto : SetFrameFormatDto) : Frame :=
  { f with
    fmtHeight := given dto.height f.fmtHeight
    fmtWidth := given dto.width f.fmtWidth
    fmtTopMargin := given dto.topMargin f.fmtTopMargin
    fmtBottomMargin := given dto.bottomMargin f.fmtBottomMargin
    fmtLeftMargin := given dto.leftMargin f.fmtLeftMargin
    fmtRightMargin := given dto.rightMargin f.fmtRightMargin
    fmtPadding := given dto.padding f.fmtPadding
    fmtBorder := given dto.border f.fmtBorder
    fmtIsBlockquote := given dto.isBlockquote f.fmtIsBlockquote }

namespace Store

/-- `execute_set_table_format`, set_table_format_uc.rs L33-L79, called by `set_table_format`, cursor.rs L1012-L1031. -/
def setTableFormat (s : Store) (id : Nat) (fmt : TableFormat) : Option (Store × Snapshot) :=
  s.docId.bind fun did =>
  (s.documents did).bind fun _ =>
  (s.tables id).map fun t => (s.updateTable (t.withFormat fmt.toSetDto), s.snapshot)

/-- `execute_set_table_cell_format`, set_table_cell_format_uc.rs L38-L82, called by `set_table_cell_format`, cursor.rs
L1034-L1057. -/
def setCellFormat (s : Store) (id : Nat) (fmt : CellFormat) : Option (Store × Snapshot) :=
  s.docId.bind fun did =>
  (s.documents did).bind fun _ =>
  (s.tableCells id).map fun c => (s.updateCell (c.withFormat fmt.toSetDto), s.snapshot)

/-- `execute_set_frame_format`, set_frame_format_uc.rs L24-L83, called by `set_frame_format`, cursor.rs L1976-L1994. -/
def setFrameFormat (s : Store) (id : Nat) (fmt : FrameFormat) : Option (Store × Snapshot) :=
  s.docId.bind fun did =>
  (s.documents did).bind fun _ =>
  (s.frames id).map fun f => (s.updateFrame (f.withFormat fmt.toSetDto), s.snapshot)

/-- `TextTable::format`, text_table.rs L85-L92. -/
def tableFormat (s : Store) (id : Nat) : TableFormat := ((s.tables id).map .ofTable).getD {}

/-- `TextTableCell::format`, text_table.rs L164-L171. -/
def cellFormat (s : Store) (id : Nat) : CellFormat := ((s.tableCells id).map .ofCell).getD {}

/-- `TextFrame::format`, text_frame.rs L34-L43. -/
def frameFormat (s : Store) (id : Nat) : FrameFormat := ((s.frames id).map .ofFrame).getD {}

/-- `set_current_table_format`, cursor.rs L1186-L1191, of a cursor at `position`; `current_table_cell`, L825-L856, is
`table_cell_at`. -/
def setCurrentTableFormat (s : Store) (position : Nat) (fmt : TableFormat) : Option (Store × Snapshot) :=
  (s.tableCellAt position).bind fun c => s.setTableFormat c.1 fmt

/-- `set_current_cell_format`, cursor.rs L1195-L1204.  A negative row or column, which no place has, is 0. -/
def setCurrentCellFormat (s : Store) (position : Nat) (fmt : CellFormat) : Option (Store × Snapshot) :=
  (s.tableCellAt position).bind fun c =>
  (s.cellAtPlace c.1 c.2.1.toNat c.2.2.toNat).bind fun id => s.setCellFormat id fmt

end Store
end Verif
