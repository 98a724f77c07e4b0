import Verif.Model.FormatRuns
/-
Model of the character-format value and of the formatting of one paragraph by
`set_text_format` / `merge_text_format`
(crates/document_formatting/src/use_cases/{set_text_format_uc,merge_text_format_uc}.rs).
-/
namespace Verif

/-- entities.rs `UnderlineStyle` (same constructors as the DTO enum, dtos.rs L25-L36). -/
inductive UnderlineStyle where
  | noUnderline | single | dash | dotLine | dashDot | dashDotDot | wave | spellCheck
deriving DecidableEq, Repr

/-- entities.rs `CharVerticalAlignment` (same constructors as the DTO enum, dtos.rs L38-L48). -/
inductive VAlign where
  | normal | superScript | subScript | middle | bottom | top | baseline
deriving DecidableEq, Repr

/-- `CharacterFormat`, format_runs.rs L67-L85. -/
structure CharFormat where
  fontFamily : Option String := none
  fontPointSize : Option Int := none
  fontWeight : Option Int := none
  fontBold : Option Bool := none
  fontItalic : Option Bool := none
  fontUnderline : Option Bool := none
  fontOverline : Option Bool := none
  fontStrikeout : Option Bool := none
  letterSpacing : Option Int := none
  wordSpacing : Option Int := none
  anchorHref : Option String := none
  anchorNames : List String := []
  isAnchor : Option Bool := none
  tooltip : Option String := none
  underlineStyle : Option UnderlineStyle := none
  verticalAlignment : Option VAlign := none
deriving DecidableEq, Repr

/-- Format fields of `SetTextFormatDto`, document_formatting/src/dtos.rs L6-L22 (the
range fields `position`, `anchor` are separate arguments in the model). -/
structure SetFormatDto where
  fontFamily : Option String := none
  fontPointSize : Option Int := none
  fontWeight : Option Int := none
  fontBold : Option Bool := none
  fontItalic : Option Bool := none
  fontUnderline : Option Bool := none
  fontOverline : Option Bool := none
  fontStrikeout : Option Bool := none
  letterSpacing : Option Int := none
  wordSpacing : Option Int := none
  underlineStyle : Option UnderlineStyle := none
  verticalAlignment : Option VAlign := none
deriving DecidableEq, Repr

/-- Format fields of `MergeTextFormatDto`, document_formatting/src/dtos.rs. -/
structure MergeFormatDto where
  fontFamily : Option String := none
  fontBold : Option Bool := none
  fontItalic : Option Bool := none
  fontUnderline : Option Bool := none
  fontStrikeout : Option Bool := none
deriving DecidableEq, Repr

/-- `if dto.f.is_some() { out.f = dto.f }`, the statement `merge_dto` repeats for each
field (set_text_format_uc.rs L96-L131, merge_text_format_uc.rs L47-L63). -/
def assignIfSome {α : Type} (new old : Option α) : Option α :=
  match new with
  | some v => some v
  | none => old

/-- `merge_dto`, set_text_format_uc.rs L94-L133: `out` starts as a clone of `base` and each
of the twelve fields is assigned if present (the assignments touch distinct fields, so the
order does not matter). -/
def mergeSet (dto : SetFormatDto) (base : CharFormat) : CharFormat :=
  { base with
    fontFamily := assignIfSome dto.fontFamily base.fontFamily
    fontPointSize := assignIfSome dto.fontPointSize base.fontPointSize
    fontWeight := assignIfSome dto.fontWeight base.fontWeight
    fontBold := assignIfSome dto.fontBold base.fontBold
    fontItalic := assignIfSome dto.fontItalic base.fontItalic
    fontUnderline := assignIfSome dto.fontUnderline base.fontUnderline
    fontOverline := assignIfSome dto.fontOverline base.fontOverline
    fontStrikeout := assignIfSome dto.fontStrikeout base.fontStrikeout
    letterSpacing := assignIfSome dto.letterSpacing base.letterSpacing
    wordSpacing := assignIfSome dto.wordSpacing base.wordSpacing
    underlineStyle := assignIfSome dto.underlineStyle base.underlineStyle
    verticalAlignment := assignIfSome dto.verticalAlignment base.verticalAlignment }

/-- `merge_dto`, merge_text_format_uc.rs L45-L65: an empty font family means "no change". -/
def mergeMerge (dto : MergeFormatDto) (base : CharFormat) : CharFormat :=
  { base with
    fontFamily := match dto.fontFamily with
      | some v => if v ≠ "" then some v else base.fontFamily
      | none => base.fontFamily
    fontBold := assignIfSome dto.fontBold base.fontBold
    fontItalic := assignIfSome dto.fontItalic base.fontItalic
    fontUnderline := assignIfSome dto.fontUnderline base.fontUnderline
    fontStrikeout := assignIfSome dto.fontStrikeout base.fontStrikeout }

variable {F : Type}

/-- Loop of `build_replacement_runs`, set_text_format_uc.rs L138-L174 and (identical)
merge_text_format_uc.rs L67-L102.  `m` is `merge_dto(_, dto)`, `d` is
`CharacterFormat::default()`. -/
def buildReplacementGo (m : F → F) (d : F) (s e : Nat) : Nat → List (Run F) → List (Run F)
  | cursor, [] => if cursor < e then [⟨cursor, e, m d⟩] else []
  | cursor, r :: rs =>
    if r.be ≤ s ∨ r.bs ≥ e then buildReplacementGo m d s e cursor rs
    else
      let os := max r.bs s
      let oe := min r.be e
      (if os > cursor then [⟨cursor, os, m d⟩] else []) ++
        ⟨os, oe, m r.fmt⟩ :: buildReplacementGo m d s e oe rs

/-- `build_replacement_runs`, set_text_format_uc.rs L138-L174. -/
def buildReplacement (m : F → F) (d : F) (runs : List (Run F)) (s e : Nat) : List (Run F) :=
  buildReplacementGo m d s e s runs

/-- Character-format state of one paragraph: its rows in `format_runs` and
`block_images` (a missing row is the empty list, set_text_format_uc.rs L235-L248). -/
structure BlockFmt (F : Type) where
  runs : List (Run F)
  imgs : List (Img F)
deriving DecidableEq, Repr

/-- `BlockFormatInverse`, set_text_format_uc.rs L32-L41 (block id omitted: the model
acts on one paragraph). -/
structure FmtInverse (F : Type) where
  s : Nat
  e : Nat
  priorRuns : List (Run F)
  priorImageFormats : List (Nat × F)
deriving DecidableEq, Repr

/-- Body of the per-paragraph loop of `execute_set_text_format`, set_text_format_uc.rs
L227-L282 (`execute_merge_text_format`, merge_text_format_uc.rs, is identical), for a
byte range `[s, e)` of the paragraph. -/
def formatBlock [DecidableEq F] (m : F → F) (d : F) (b : BlockFmt F) (s e : Nat) :
    BlockFmt F × Option (FmtInverse F) :=
  if s ≥ e then (b, none)
  else
    ({ runs := spliceRange b.runs s e (buildReplacement m d b.runs s e),
       imgs := b.imgs.map fun i => if i.off ≥ s ∧ i.off < e then { i with fmt := m i.fmt } else i },
     some { s := s, e := e, priorRuns := captureRuns b.runs s e,
            priorImageFormats := captureImageFormats b.imgs s e })

/-- `images.iter_mut().find(|i| i.byte_offset == off)` followed by the assignment of
its format, set_text_format_uc.rs L309-L313. -/
def setFirstImageFormat (off : Nat) (f : F) : List (Img F) → List (Img F)
  | [] => []
  | i :: is => if i.off = off then { i with fmt := f } :: is else i :: setFirstImageFormat off f is

/-- `apply_inverse`, set_text_format_uc.rs L291-L318, for one entry. -/
def applyInverse [DecidableEq F] (b : BlockFmt F) (inv : FmtInverse F) : BlockFmt F :=
  { runs := spliceRange b.runs inv.s inv.e inv.priorRuns,
    imgs := inv.priorImageFormats.foldl (fun is p => setFirstImageFormat p.1 p.2 is) b.imgs }

end Verif
