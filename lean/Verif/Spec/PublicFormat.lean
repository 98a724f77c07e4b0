import Verif.Model.PublicFormat
/- What a format handed to the API should do to the one read before. -/
namespace Verif

/-- Every given field as given, every other one as in `old`. -/
def overlayText (new old : TextFormat) : TextFormat where
  fontFamily := new.fontFamily.or old.fontFamily
  fontPointSize := new.fontPointSize.or old.fontPointSize
  fontWeight := new.fontWeight.or old.fontWeight
  fontBold := new.fontBold.or old.fontBold
  fontItalic := new.fontItalic.or old.fontItalic
  fontUnderline := new.fontUnderline.or old.fontUnderline
  fontOverline := new.fontOverline.or old.fontOverline
  fontStrikeout := new.fontStrikeout.or old.fontStrikeout
  letterSpacing := new.letterSpacing.or old.letterSpacing
  wordSpacing := new.wordSpacing.or old.wordSpacing
  underlineStyle := new.underlineStyle.or old.underlineStyle
  verticalAlignment := new.verticalAlignment.or old.verticalAlignment
  anchorHref := new.anchorHref.or old.anchorHref
  anchorNames := if new.anchorNames = [] then old.anchorNames else new.anchorNames
  isAnchor := new.isAnchor.or old.isAnchor
  tooltip := new.tooltip.or old.tooltip
  foregroundColor := new.foregroundColor.or old.foregroundColor
  backgroundColor := new.backgroundColor.or old.backgroundColor
  underlineColor := new.underlineColor.or old.underlineColor

/-- The format has none of the fields `set_char_format` ignores. -/
structure TextFormat.Settable (t : TextFormat) : Prop where
  anchorHref : t.anchorHref = none
  anchorNames : t.anchorNames = []
  isAnchor : t.isAnchor = none
  tooltip : t.tooltip = none
  foregroundColor : t.foregroundColor = none
  backgroundColor : t.backgroundColor = none
  underlineColor : t.underlineColor = none

/-- The format has none of the fields `merge_char_format` ignores. -/
structure TextFormat.Mergeable (t : TextFormat) : Prop extends t.Settable where
  fontFamily : t.fontFamily ≠ some ""
  fontPointSize : t.fontPointSize = none
  fontWeight : t.fontWeight = none
  fontOverline : t.fontOverline = none
  letterSpacing : t.letterSpacing = none
  wordSpacing : t.wordSpacing = none
  underlineStyle : t.underlineStyle = none
  verticalAlignment : t.verticalAlignment = none

/-- The same for the format of a paragraph. -/
def overlayBlock (new old : BlockFormat) : BlockFormat where
  alignment := new.alignment.or old.alignment
  topMargin := new.topMargin.or old.topMargin
  bottomMargin := new.bottomMargin.or old.bottomMargin
  leftMargin := new.leftMargin.or old.leftMargin
  rightMargin := new.rightMargin.or old.rightMargin
  headingLevel := new.headingLevel.or old.headingLevel
  indent := new.indent.or old.indent
  textIndent := new.textIndent.or old.textIndent
  marker := new.marker.or old.marker
  tabPositions := if new.tabPositions = [] then old.tabPositions else new.tabPositions
  nonBreakableLines := new.nonBreakableLines.or old.nonBreakableLines
  direction := new.direction.or old.direction
  backgroundColor := new.backgroundColor.or old.backgroundColor
  isCodeBlock := new.isCodeBlock.or old.isCodeBlock
  codeLanguage := new.codeLanguage.or old.codeLanguage

end Verif
