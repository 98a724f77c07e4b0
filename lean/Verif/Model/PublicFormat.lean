import Verif.Model.Formatting
/-
The formats of the public API and their conversion: public_api/src/lib.rs L125-L169, convert.rs L96-L297.
The enums of the API are those of the entities (lib.rs re-exports them); the DTO enums have the same
constructors and the conversions between them (convert.rs L96-L168) map each to its namesake.
-/
namespace Verif

/-- public_api `Color`. -/
structure PColor where
  red : UInt8
  green : UInt8
  blue : UInt8
  alpha : UInt8
deriving DecidableEq, Repr

/-- `TextFormat`, lib.rs L128-L148. -/
structure TextFormat where
  fontFamily : Option String := none
  fontPointSize : Option UInt32 := none
  fontWeight : Option UInt32 := none
  fontBold : Option Bool := none
  fontItalic : Option Bool := none
  fontUnderline : Option Bool := none
  fontOverline : Option Bool := none
  fontStrikeout : Option Bool := none
  letterSpacing : Option Int32 := none
  wordSpacing : Option Int32 := none
  underlineStyle : Option UnderlineStyle := none
  verticalAlignment : Option VAlign := none
  anchorHref : Option String := none
  anchorNames : List String := []
  isAnchor : Option Bool := none
  tooltip : Option String := none
  foregroundColor : Option PColor := none
  backgroundColor : Option PColor := none
  underlineColor : Option PColor := none
deriving DecidableEq, Repr

/-- `v as i64` for a `u32`. -/
def u32ToInt (v : UInt32) : Int := v.toNat

/-- `v as u32` for an `i64`: modulo 2^32. -/
def intToU32 (v : Int) : UInt32 := UInt32.ofNat (v % 4294967296).toNat

/-- `TextFormat::to_set_dto`, convert.rs L176-L200. -/
def TextFormat.toSetDto (t : TextFormat) : SetFormatDto where
  fontFamily := t.fontFamily
  fontPointSize := t.fontPointSize.map u32ToInt
  fontWeight := t.fontWeight.map u32ToInt
  fontBold := t.fontBold
  fontItalic := t.fontItalic
  fontUnderline := t.fontUnderline
  fontOverline := t.fontOverline
  fontStrikeout := t.fontStrikeout
  letterSpacing := t.letterSpacing.map Int32.toInt
  wordSpacing := t.wordSpacing.map Int32.toInt
  underlineStyle := t.underlineStyle
  verticalAlignment := t.verticalAlignment

/-- `TextFormat::to_merge_dto`, convert.rs L202-L216. -/
def TextFormat.toMergeDto (t : TextFormat) : MergeFormatDto where
  fontFamily := t.fontFamily
  fontBold := t.fontBold
  fontItalic := t.fontItalic
  fontUnderline := t.fontUnderline
  fontStrikeout := t.fontStrikeout

/-- `From<&CharacterFormat> for TextFormat`, convert.rs L221-L245 (`as i32` truncates). -/
def TextFormat.ofCharFormat (f : CharFormat) : TextFormat where
  fontFamily := f.fontFamily
  fontPointSize := f.fontPointSize.map intToU32
  fontWeight := f.fontWeight.map intToU32
  fontBold := f.fontBold
  fontItalic := f.fontItalic
  fontUnderline := f.fontUnderline
  fontOverline := f.fontOverline
  fontStrikeout := f.fontStrikeout
  letterSpacing := f.letterSpacing.map Int32.ofInt
  wordSpacing := f.wordSpacing.map Int32.ofInt
  underlineStyle := f.underlineStyle
  verticalAlignment := f.verticalAlignment
  anchorHref := f.anchorHref
  anchorNames := f.anchorNames
  isAnchor := f.isAnchor
  tooltip := f.tooltip

/-- `BlockFormat`, lib.rs L152-L169, without `line_height` (an `f32`). -/
structure BlockFormat where
  alignment : Option Alignment := none
  topMargin : Option Int32 := none
  bottomMargin : Option Int32 := none
  leftMargin : Option Int32 := none
  rightMargin : Option Int32 := none
  headingLevel : Option UInt8 := none
  indent : Option UInt8 := none
  textIndent : Option Int32 := none
  marker : Option MarkerType := none
  tabPositions : List Int32 := []
  nonBreakableLines : Option Bool := none
  direction : Option TextDirection := none
  backgroundColor : Option String := none
  isCodeBlock : Option Bool := none
  codeLanguage : Option String := none
deriving DecidableEq, Repr

/-- `v as i64` for a `u8`. -/
def u8ToInt (v : UInt8) : Int := v.toNat

/-- `v as u8` for an `i64`: modulo 2^8. -/
def intToU8 (v : Int) : UInt8 := UInt8.ofNat (v % 256).toNat

/-- `BlockFormat::to_set_dto`, convert.rs L250-L276. -/
def BlockFormat.toSetDto (t : BlockFormat) : Store.BlockFormatDto where
  alignment := t.alignment
  headingLevel := t.headingLevel.map u8ToInt
  indent := t.indent.map u8ToInt
  marker := t.marker
  nonBreakableLines := t.nonBreakableLines
  direction := t.direction
  backgroundColor := t.backgroundColor
  isCodeBlock := t.isCodeBlock
  codeLanguage := t.codeLanguage
  topMargin := t.topMargin.map Int32.toInt
  bottomMargin := t.bottomMargin.map Int32.toInt
  leftMargin := t.leftMargin.map Int32.toInt
  rightMargin := t.rightMargin.map Int32.toInt
  textIndent := t.textIndent.map Int32.toInt

/-- `From<&BlockDto> for BlockFormat`, convert.rs L279-L300 (`BlockDto` has the fields of the entity). -/
def BlockFormat.ofBlock (b : Block) : BlockFormat where
  alignment := b.fmtAlignment
  topMargin := b.fmtTopMargin.map Int32.ofInt
  bottomMargin := b.fmtBottomMargin.map Int32.ofInt
  leftMargin := b.fmtLeftMargin.map Int32.ofInt
  rightMargin := b.fmtRightMargin.map Int32.ofInt
  headingLevel := b.fmtHeadingLevel.map intToU8
  indent := b.fmtIndent.map intToU8
  textIndent := b.fmtTextIndent.map Int32.ofInt
  marker := b.fmtMarker
  tabPositions := b.fmtTabPositions.map Int32.ofInt
  nonBreakableLines := b.fmtNonBreakableLines
  direction := b.fmtDirection
  backgroundColor := b.fmtBackgroundColor
  isCodeBlock := b.fmtIsCodeBlock
  codeLanguage := b.fmtCodeLanguage

end Verif
