import Verif.Model.BoxFormats
/- Formats put over formats: what is given replaces, what is not given stays. -/
namespace Verif

/-- The table format `new` put over `old`. -/
def TableFormat.over (new old : TableFormat) : TableFormat where
  border := new.border.or old.border
  cellSpacing := new.cellSpacing.or old.cellSpacing
  cellPadding := new.cellPadding.or old.cellPadding
  width := new.width.or old.width
  alignment := new.alignment.or old.alignment

/-- The cell format `new` put over `old`. -/
def CellFormat.over (new old : CellFormat) : CellFormat where
  padding := new.padding.or old.padding
  border := new.border.or old.border
  verticalAlignment := new.verticalAlignment.or old.verticalAlignment
  backgroundColor := new.backgroundColor.or old.backgroundColor

/-- The frame format `new` put over `old`. -/
def FrameFormat.over (new old : FrameFormat) : FrameFormat where
  height := new.height.or old.height
  width := new.width.or old.width
  topMargin := new.topMargin.or old.topMargin
  bottomMargin := new.bottomMargin.or old.bottomMargin
  leftMargin := new.leftMargin.or old.leftMargin
  rightMargin := new.rightMargin.or old.rightMargin
  padding := new.padding.or old.padding
  border := new.border.or old.border
  position := new.position.or old.position
  isBlockquote := new.isBlockquote.or old.isBlockquote

/-- The table `b` is the table `a` with perhaps another format. -/
def Table.sameBut (a b : Table) : Prop :=
  a.id = b.id ∧ a.cells = b.cells ∧ a.rows = b.rows ∧ a.columns = b.columns ∧ a.columnWidths = b.columnWidths

/-- The cell `b` is the cell `a` with perhaps another format. -/
def TableCell.sameBut (a b : TableCell) : Prop :=
  a.id = b.id ∧ a.row = b.row ∧ a.column = b.column ∧ a.rowSpan = b.rowSpan ∧ a.columnSpan = b.columnSpan ∧
    a.cellFrame = b.cellFrame

end Verif
