import Verif.Model.CharFormat
import Verif.Model.OffsetIndex
/-
The stored entities: common/src/entities.rs.  Ids are natural numbers (`EntityId = u64`, types.rs
L4), 0 is "no id".  Left out of every entity: `created_at`, `updated_at` (clock readings), and
`Frame.byte_range` (L88: a cache rewritten at every commit and read by no code but tests).
-/
namespace Verif

/-- entities.rs L47. -/
inductive TextDirection where
  | leftToRight | rightToLeft
deriving DecidableEq, Repr

/-- entities.rs L53. -/
inductive WrapMode where
  | noWrap | wordWrap | wrapAnywhere | wrapAtWordBoundaryOrAnywhere
deriving DecidableEq, Repr

/-- entities.rs L97. -/
inductive FramePosition where
  | inFlow | floatLeft | floatRight
deriving DecidableEq, Repr

/-- entities.rs L137. -/
inductive Alignment where
  | left | right | center | justify
deriving DecidableEq, Repr

/-- entities.rs L145. -/
inductive MarkerType where
  | noMarker | unchecked | checked
deriving DecidableEq, Repr

/-- entities.rs L195. -/
inductive ListStyle where
  | disc | circle | square | decimal | lowerAlpha | upperAlpha | lowerRoman | upperRoman
deriving DecidableEq, Repr

/-- entities.rs L227. -/
inductive ResourceType where
  | image | styleSheet | other
deriving DecidableEq, Repr

/-- entities.rs L282. -/
inductive CellVAlign where
  | top | middle | bottom
deriving DecidableEq, Repr

/-- `Root`, entities.rs L8-L15. -/
structure Root where
  id : Nat := 0
  document : Nat := 0
deriving DecidableEq, Repr

/-- `Document`, entities.rs L24-L39. -/
structure Document where
  id : Nat := 0
  title : String := ""
  frames : List Nat := []
  textDirection : TextDirection := .leftToRight
  defaultWrapMode : WrapMode := .noWrap
  resources : List Nat := []
  lists : List Nat := []
  tables : List Nat := []
  characterCount : Int := 0
  blockCount : Int := 0
deriving DecidableEq, Repr

/-- `Frame`, entities.rs L62-L89.  In `childOrder` a positive entry is a block id, a negative one
the negated id of a child frame. -/
structure Frame where
  id : Nat := 0
  parentFrame : Option Nat := none
  blocks : List Nat := []
  childOrder : List Int := []
  fmtHeight : Option Int := none
  fmtWidth : Option Int := none
  fmtTopMargin : Option Int := none
  fmtBottomMargin : Option Int := none
  fmtLeftMargin : Option Int := none
  fmtRightMargin : Option Int := none
  fmtPadding : Option Int := none
  fmtBorder : Option Int := none
  fmtPosition : Option FramePosition := none
  fmtIsBlockquote : Option Bool := none
  table : Option Nat := none
deriving DecidableEq, Repr

/-- `Block`, entities.rs L105-L129. -/
structure Block where
  id : Nat := 0
  list : Option Nat := none
  documentPosition : Int := 0
  fmtAlignment : Option Alignment := none
  fmtTopMargin : Option Int := none
  fmtBottomMargin : Option Int := none
  fmtLeftMargin : Option Int := none
  fmtRightMargin : Option Int := none
  fmtHeadingLevel : Option Int := none
  fmtIndent : Option Int := none
  fmtTextIndent : Option Int := none
  fmtMarker : Option MarkerType := none
  fmtTabPositions : List Int := []
  fmtLineHeight : Option Int := none
  fmtNonBreakableLines : Option Bool := none
  fmtDirection : Option TextDirection := none
  fmtBackgroundColor : Option String := none
  fmtIsCodeBlock : Option Bool := none
  fmtCodeLanguage : Option String := none
deriving DecidableEq, Repr

/-- `List`, entities.rs L177-L187 (renamed: `List` is taken). -/
structure TList where
  id : Nat := 0
  style : ListStyle := .disc
  indent : Int := 0
  pre : String := ""
  suffix : String := ""
deriving DecidableEq, Repr

/-- `Resource`, entities.rs L208-L219. -/
structure Resource where
  id : Nat := 0
  resourceType : ResourceType := .image
  name : String := ""
  url : String := ""
  mimeType : String := ""
  dataBase64 : String := ""
deriving DecidableEq, Repr

/-- `Table`, entities.rs L235-L250. -/
structure Table where
  id : Nat := 0
  cells : List Nat := []
  rows : Int := 0
  columns : Int := 0
  columnWidths : List Int := []
  fmtBorder : Option Int := none
  fmtCellSpacing : Option Int := none
  fmtCellPadding : Option Int := none
  fmtWidth : Option Int := none
  fmtAlignment : Option Alignment := none
deriving DecidableEq, Repr

/-- `TableCell`, entities.rs L259-L274. -/
structure TableCell where
  id : Nat := 0
  row : Int := 0
  column : Int := 0
  rowSpan : Int := 0
  columnSpan : Int := 0
  cellFrame : Option Nat := none
  fmtPadding : Option Int := none
  fmtBorder : Option Int := none
  fmtVerticalAlignment : Option CellVAlign := none
  fmtBackgroundColor : Option String := none
deriving DecidableEq, Repr

end Verif
