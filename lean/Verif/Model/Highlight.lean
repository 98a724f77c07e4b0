import Verif.Model.PublicFormat
import Verif.Model.CharFormat
import Verif.Model.Sort
/-
Syntax highlighting: public_api/src/highlight.rs.
-/
namespace Verif

/-- `HighlightFormat`, highlight.rs L29-L46. -/
structure HighlightFormat where
  foregroundColor : Option PColor := none
  backgroundColor : Option PColor := none
  underlineColor : Option PColor := none
  fontFamily : Option String := none
  fontPointSize : Option UInt32 := none
  fontWeight : Option UInt32 := none
  fontBold : Option Bool := none
  fontItalic : Option Bool := none
  fontUnderline : Option Bool := none
  fontOverline : Option Bool := none
  fontStrikeout : Option Bool := none
  letterSpacing : Option Int32 := none
  wordSpacing : Option Int32 := none
  underlineStyle : Option UnderlineStyle := none
  verticalAlignment : Option VAlign := none
  tooltip : Option String := none
deriving DecidableEq, Repr

/-- `HighlightSpan`, highlight.rs L51-L56. -/
structure HighlightSpan where
  start : Nat
  length : Nat
  format : HighlightFormat
deriving DecidableEq, Repr

/-- `FragmentContent`, flow.rs L58-L95. -/
inductive Fragment where
  | text (text : List Char) (format : TextFormat) (offset length elementId : Nat) (wordStarts : List Nat)
  | image (name : String) (width height quality : Nat) (format : TextFormat) (offset elementId : Nat)
deriving DecidableEq, Repr

/-- `apply_highlight`, highlight.rs L181-L210. -/
def applyHighlight (base : TextFormat) (hl : HighlightFormat) : TextFormat where
  fontFamily := hl.fontFamily.or base.fontFamily
  fontPointSize := hl.fontPointSize.or base.fontPointSize
  fontWeight := hl.fontWeight.or base.fontWeight
  fontBold := hl.fontBold.or base.fontBold
  fontItalic := hl.fontItalic.or base.fontItalic
  fontUnderline := hl.fontUnderline.or base.fontUnderline
  fontOverline := hl.fontOverline.or base.fontOverline
  fontStrikeout := hl.fontStrikeout.or base.fontStrikeout
  letterSpacing := hl.letterSpacing.or base.letterSpacing
  wordSpacing := hl.wordSpacing.or base.wordSpacing
  underlineStyle := hl.underlineStyle.or base.underlineStyle
  verticalAlignment := hl.verticalAlignment.or base.verticalAlignment
  tooltip := hl.tooltip.or base.tooltip
  foregroundColor := hl.foregroundColor.or base.foregroundColor
  backgroundColor := hl.backgroundColor.or base.backgroundColor
  underlineColor := hl.underlineColor.or base.underlineColor
  anchorHref := base.anchorHref
  anchorNames := base.anchorNames
  isAnchor := base.isAnchor

/-- The loop body of `merge_overlapping_highlights`, highlight.rs L217-L265: each field that is set
replaces the field so far. -/
def overrideHighlight (m f : HighlightFormat) : HighlightFormat where
  foregroundColor := if f.foregroundColor.isSome then f.foregroundColor else m.foregroundColor
  backgroundColor := if f.backgroundColor.isSome then f.backgroundColor else m.backgroundColor
  underlineColor := if f.underlineColor.isSome then f.underlineColor else m.underlineColor
  fontFamily := if f.fontFamily.isSome then f.fontFamily else m.fontFamily
  fontPointSize := if f.fontPointSize.isSome then f.fontPointSize else m.fontPointSize
  fontWeight := if f.fontWeight.isSome then f.fontWeight else m.fontWeight
  fontBold := if f.fontBold.isSome then f.fontBold else m.fontBold
  fontItalic := if f.fontItalic.isSome then f.fontItalic else m.fontItalic
  fontUnderline := if f.fontUnderline.isSome then f.fontUnderline else m.fontUnderline
  fontOverline := if f.fontOverline.isSome then f.fontOverline else m.fontOverline
  fontStrikeout := if f.fontStrikeout.isSome then f.fontStrikeout else m.fontStrikeout
  letterSpacing := if f.letterSpacing.isSome then f.letterSpacing else m.letterSpacing
  wordSpacing := if f.wordSpacing.isSome then f.wordSpacing else m.wordSpacing
  underlineStyle := if f.underlineStyle.isSome then f.underlineStyle else m.underlineStyle
  verticalAlignment := if f.verticalAlignment.isSome then f.verticalAlignment else m.verticalAlignment
  tooltip := if f.tooltip.isSome then f.tooltip else m.tooltip

/-- `merge_overlapping_highlights`, highlight.rs L214-L268. -/
def mergeOverlapping (spans : List HighlightSpan) : HighlightFormat :=
  spans.foldl (fun m s => overrideHighlight m s.format) {}

/-- The spans meeting `[a, b)`, highlight.rs L354-L360. -/
def activeSpans (spans : List HighlightSpan) (a b : Nat) : List HighlightSpan :=
  spans.filter fun s => decide (s.start < b ∧ s.start + s.length > a)

/-- The format of a stretch, highlight.rs L366-L371 (and L408-L413 for images). -/
def overlayFormat (spans : List HighlightSpan) (a b : Nat) (base : TextFormat) : TextFormat :=
  if (activeSpans spans a b).isEmpty then base
  else applyHighlight base (mergeOverlapping (activeSpans spans a b))

/-- The boundaries one span contributes, highlight.rs L329-L340. -/
def spanBoundaries (offset fragEnd : Nat) (s : HighlightSpan) : List Nat :=
  if s.start < fragEnd ∧ s.start + s.length > offset then
    (if s.start > offset ∧ s.start < fragEnd then [s.start] else []) ++
    (if s.start + s.length > offset ∧ s.start + s.length < fragEnd then [s.start + s.length] else [])
  else []

/-- `Vec::dedup`: drops an element equal to the one before it. -/
def dedupAdj : List Nat → List Nat
  | [] => []
  | [a] => [a]
  | a :: b :: l => if a = b then dedupAdj (b :: l) else a :: dedupAdj (b :: l)

/-- All boundaries, sorted, each once, highlight.rs L325-L344. -/
def boundaries (offset fragEnd : Nat) (spans : List HighlightSpan) : List Nat :=
  dedupAdj (sortByKey (fun n => (n : Int))
    (offset :: fragEnd :: spans.flatMap (spanBoundaries offset fragEnd)))

/-- The loop over `boundaries.windows(2)`, highlight.rs L348-L394.  `words` is the word segmentation;
`none` is the panic of the slice `chars[char_start..char_end]`. -/
def splitText (words : List Char → List Nat) (spans : List HighlightSpan) (chars : List Char)
    (format : TextFormat) (offset elementId : Nat) : List Nat → Option (List Fragment)
  | a :: b :: l =>
    if b - a = 0 then splitText words spans chars format offset elementId (b :: l)
    else if a - offset + (b - a) ≤ chars.length then
      let sub := (chars.drop (a - offset)).take (b - a)
      (splitText words spans chars format offset elementId (b :: l)).map fun rest =>
        .text sub (overlayFormat spans a b format) a (b - a) elementId (words sub) :: rest
    else none
  | _ => some []

/-- The body of the loop over the fragments, highlight.rs L312-L430. -/
def splitFragment (words : List Char → List Nat) (spans : List HighlightSpan) :
    Fragment → Option (List Fragment)
  | .text text format offset length elementId _ =>
    splitText words spans text format offset elementId (boundaries offset (offset + length) spans)
  | .image name w h q format offset elementId =>
    some [.image name w h q (overlayFormat spans offset (offset + 1) format) offset elementId]

/-- The loop over the fragments. -/
def splitFragments (words : List Char → List Nat) (spans : List HighlightSpan) :
    List Fragment → Option (List Fragment)
  | [] => some []
  | f :: l => (splitFragment words spans f).bind fun a =>
    (splitFragments words spans l).map fun b => a ++ b

/-- `merge_highlight_spans`, highlight.rs L302-L437. -/
def mergeHighlightSpans (words : List Char → List Nat) (fragments : List Fragment)
    (spans : List HighlightSpan) : Option (List Fragment) :=
  if spans.isEmpty then some fragments else splitFragments words spans fragments

/-! ### Re-highlighting -/

/-- What `highlight_block` leaves in its context, highlight.rs L140-L142. -/
structure HlResult (U : Type) where
  spans : List HighlightSpan
  state : Int
  user : Option U

/-- `BlockHighlightData`, highlight.rs L163-L167. -/
abbrev HlData (U : Type) := Nat → Option (HlResult U)

/-- A highlighter: block id, text, previous state and the block's user data give spans, state and user
data. -/
abbrev Highlighter (U : Type) := Nat → List Char → Int → Option U → HlResult U

/-- `HashMap::insert`. -/
def HlData.put {U : Type} (d : HlData U) (id : Nat) (r : HlResult U) : HlData U :=
  fun j => if j = id then some r else d j

/-- The loop of `rehighlight_all`, highlight.rs L474-L491. -/
def highlightFrom {U : Type} (h : Highlighter U) : Int → HlData U → List (Nat × List Char) → HlData U
  | _, d, [] => d
  | prev, d, (id, text) :: l =>
    let r := h id text prev none
    highlightFrom h r.state (d.put id r) l

/-- `rehighlight_all`, highlight.rs L461-L492. -/
def rehighlightAll {U : Type} (h : Highlighter U) (blocks : List (Nat × List Char)) : HlData U :=
  highlightFrom h (-1) (fun _ => none) blocks

/-- `hl.blocks.get(&id).map_or(-1, |d| d.state)`. -/
def HlData.state {U : Type} (d : HlData U) (id : Nat) : Int :=
  match d id with
  | some r => r.state
  | none => -1

/-- The state before a block, highlight.rs L521-L526. -/
def prevState {U : Type} (d : HlData U) : Option Nat → Int
  | none => -1
  | some p => d.state p

/-- The loop of `rehighlight_from_block`, highlight.rs L514-L564, from one block on: `prev` is the block
before it, `first` says that it is the block the loop starts with. -/
def cascade {U : Type} (h : Highlighter U) : Bool → Option Nat → HlData U → List (Nat × List Char) → HlData U
  | _, _, d, [] => d
  | first, prev, d, (id, text) :: l =>
    let r := h id text (prevState d prev) ((d id).bind fun r => r.user)
    if first = false ∧ r.state = d.state id then d.put id r
    else cascade h false (some id) (d.put id r) l

/-- Goes to the starting block, highlight.rs L504-L512; nothing happens if it is not there. -/
def cascadeAt {U : Type} (h : Highlighter U) (start : Nat) : Option Nat → HlData U →
    List (Nat × List Char) → HlData U
  | _, d, [] => d
  | prev, d, (id, text) :: l =>
    if id = start then cascade h true prev d ((id, text) :: l)
    else cascadeAt h start (some id) d l

/-- `rehighlight_from_block`, highlight.rs L496-L565. -/
def rehighlightFromBlock {U : Type} (h : Highlighter U) (start : Nat) (d : HlData U)
    (blocks : List (Nat × List Char)) : HlData U :=
  cascadeAt h start none d blocks

/-- The block `rehighlight_affected` starts from, highlight.rs L577-L594, for blocks (id, position) in
document order. -/
def affectedBlock (blocks : List (Nat × Nat)) (position : Nat) : Nat :=
  match blocks.reverse.find? fun b => decide (position ≥ b.2) with
  | some b => b.1
  | none => match blocks with
    | [] => 0
    | b :: _ => b.1

end Verif
