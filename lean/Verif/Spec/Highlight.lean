import Verif.Model.Highlight
/- What highlighting should show at each place of a paragraph. -/
namespace Verif

/-- What stands at one place: a character, or an image. -/
inductive Glyph where
  | char (c : Char)
  | image (name : String) (width height quality : Nat)
deriving DecidableEq, Repr

/-- One shown place: its offset in the paragraph, what stands there, its format, its element id. -/
structure Shown where
  offset : Nat
  glyph : Glyph
  format : TextFormat
  elementId : Nat
deriving DecidableEq, Repr

/-- The characters of a text from an offset on. -/
def shownChars (format : TextFormat) (elementId : Nat) : Nat → List Char → List Shown
  | _, [] => []
  | o, c :: cs => ⟨o, .char c, format, elementId⟩ :: shownChars format elementId (o + 1) cs

/-- The places a fragment shows. -/
def Fragment.shown : Fragment → List Shown
  | .text t f o _ id _ => shownChars f id o t
  | .image n w h q f o id => [⟨o, .image n w h q, f, id⟩]

/-- The places a list of fragments shows, in order. -/
def shownAll (l : List Fragment) : List Shown := l.flatMap Fragment.shown

/-- The length field of a text fragment is its number of characters, and its word starts are those of
its text. -/
def Fragment.wellFormed (words : List Char → List Nat) : Fragment → Prop
  | .text t _ _ len _ ws => len = t.length ∧ ws = words t
  | .image .. => True

/-- The span covers the place. -/
def HighlightSpan.coversAt (s : HighlightSpan) (p : Nat) : Bool :=
  decide (s.start ≤ p ∧ p < s.start + s.length)

/-- The last value that is set. -/
def lastSet {α : Type} : List (Option α) → Option α
  | [] => none
  | a :: l => (lastSet l).or a

/-- A field of the format at a place: that of the last span covering the place which sets the field,
else that of the base format. -/
def fieldAt {α : Type} (spans : List HighlightSpan) (p : Nat) (field : HighlightFormat → Option α)
    (base : Option α) : Option α :=
  (lastSet ((spans.filter fun s => s.coversAt p).map fun s => field s.format)).or base

/-- The format that should be shown at a place. -/
def formatAt (spans : List HighlightSpan) (p : Nat) (base : TextFormat) : TextFormat where
  fontFamily := fieldAt spans p (·.fontFamily) base.fontFamily
  fontPointSize := fieldAt spans p (·.fontPointSize) base.fontPointSize
  fontWeight := fieldAt spans p (·.fontWeight) base.fontWeight
  fontBold := fieldAt spans p (·.fontBold) base.fontBold
  fontItalic := fieldAt spans p (·.fontItalic) base.fontItalic
  fontUnderline := fieldAt spans p (·.fontUnderline) base.fontUnderline
  fontOverline := fieldAt spans p (·.fontOverline) base.fontOverline
  fontStrikeout := fieldAt spans p (·.fontStrikeout) base.fontStrikeout
  letterSpacing := fieldAt spans p (·.letterSpacing) base.letterSpacing
  wordSpacing := fieldAt spans p (·.wordSpacing) base.wordSpacing
  underlineStyle := fieldAt spans p (·.underlineStyle) base.underlineStyle
  verticalAlignment := fieldAt spans p (·.verticalAlignment) base.verticalAlignment
  tooltip := fieldAt spans p (·.tooltip) base.tooltip
  foregroundColor := fieldAt spans p (·.foregroundColor) base.foregroundColor
  backgroundColor := fieldAt spans p (·.backgroundColor) base.backgroundColor
  underlineColor := fieldAt spans p (·.underlineColor) base.underlineColor
  anchorHref := base.anchorHref
  anchorNames := base.anchorNames
  isAnchor := base.isAnchor

/-- The place with the format it should be shown in. -/
def Shown.highlighted (spans : List HighlightSpan) (s : Shown) : Shown :=
  { s with format := formatAt spans s.offset s.format }

/-- The highlighter looks only at the text and at the state of the paragraph before. -/
def Highlighter.pure {U : Type} (h : Highlighter U) : Prop :=
  ∀ id id' text prev u u', (h id text prev u).spans = (h id' text prev u').spans ∧
    (h id text prev u).state = (h id' text prev u').state

/-- Both hold the same spans and state for the paragraph. -/
def sameAt {U : Type} (d d' : HlData U) (id : Nat) : Prop :=
  (d id).map (fun r => (r.spans, r.state)) = (d' id).map (fun r => (r.spans, r.state))

end Verif
