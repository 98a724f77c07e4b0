import Verif.Model.Replace
/-
The formatting commands over a document: document_formatting/src/use_cases/set_text_format_uc.rs,
merge_text_format_uc.rs, set_block_format_uc.rs.  `none` is an error or a panic.
-/
namespace Verif
namespace Store

/-- `BlockFormatInverse`, set_text_format_uc.rs L32-L41. -/
structure BlockInverse where
  block : Nat
  inv : FmtInverse CharFormat
deriving DecidableEq

/-- The assignments to the span and image tables of one block, set_text_format_uc.rs L255-L275: the span row is created
when absent (`entry().or_default()`), the image row is not (`get_mut`). -/
def putFormats (s : Store) (id : Nat) (b : BlockFmt CharFormat) : Store :=
  let s := s.editRuns id fun _ => b.runs
  if (s.blockImages id).isSome then s.editImages id fun _ => b.imgs else s

/-- Body of the loop over the blocks, set_text_format_uc.rs L215-L283 and merge_text_format_uc.rs
L143-L206; `m` is `merge_dto(_, dto)`. -/
def formatOne (m : CharFormat → CharFormat) (lo hi : Int) (s : Store) (b : Block) :
    Option (Store × List BlockInverse) :=
  (blockCharLength s.text b.id).bind fun (len : Nat) =>
  if b.documentPosition + len ≤ lo ∨ b.documentPosition ≥ hi then some (s, [])
  else
    let so := (max 0 (lo - b.documentPosition)).toNat
    let eo := (min (len : Int) (hi - b.documentPosition)).toNat
    (blockCharToByteInBlock s.text b.id so).bind fun (bs, _) =>
    (blockCharToByteInBlock s.text b.id eo).map fun (be, _) =>
    match formatBlock m {} ⟨s.runsOf b.id, s.imagesOf b.id⟩ bs be with
    | (_, none) => (s, [])
    | (f, some inv) => (s.putFormats b.id f, [⟨b.id, inv⟩])

/-- The loop over the blocks. -/
def formatLoop (m : CharFormat → CharFormat) (lo hi : Int) :
    List Block → Store → Option (Store × List BlockInverse)
  | [], s => some (s, [])
  | b :: bs, s =>
    (formatOne m lo hi s b).bind fun (s, i) =>
    (formatLoop m lo hi bs s).map fun (s, is) => (s, i ++ is)

/-- `execute_set_text_format`, set_text_format_uc.rs L179-L288, and `execute_merge_text_format`,
merge_text_format_uc.rs L105-L209; `redo` is the same. -/
def formatText (s : Store) (m : CharFormat → CharFormat) (position anchor : Int) :
    Option (Store × List BlockInverse) :=
  s.docId.bind fun did =>
  (s.documents did).bind fun _ =>
  if min position anchor = max position anchor then some (s, [])
  else formatLoop m (min position anchor) (max position anchor) (s.sortedBlocks did) s

/-- `apply_inverse`, set_text_format_uc.rs L291-L318. -/
def undoFormat (s : Store) (invs : List BlockInverse) : Store :=
  invs.foldl (fun s i => s.putFormats i.block (applyInverse ⟨s.runsOf i.block, s.imagesOf i.block⟩ i.inv)) s

/-- `SetTextFormatUseCase::execute`. -/
def setTextFormat (s : Store) (dto : SetFormatDto) (position anchor : Int) :
    Option (Store × List BlockInverse) := s.formatText (mergeSet dto) position anchor

/-- `MergeTextFormatUseCase::execute`. -/
def mergeTextFormat (s : Store) (dto : MergeFormatDto) (position anchor : Int) :
    Option (Store × List BlockInverse) := s.formatText (mergeMerge dto) position anchor

/-! ### Paragraph formats -/

/-- The format fields of `SetBlockFormatDto`, document_formatting/src/dtos.rs L58-L82. -/
structure BlockFormatDto where
  alignment : Option Alignment := none
  headingLevel : Option Int := none
  indent : Option Int := none
  marker : Option MarkerType := none
  lineHeight : Option Int := none
  nonBreakableLines : Option Bool := none
  direction : Option TextDirection := none
  backgroundColor : Option String := none
  isCodeBlock : Option Bool := none
  codeLanguage : Option String := none
  topMargin : Option Int := none
  bottomMargin : Option Int := none
  leftMargin : Option Int := none
  rightMargin : Option Int := none
  textIndent : Option Int := none
deriving DecidableEq, Repr

/-- The assignments of set_block_format_uc.rs L104-L149 (the time stamp L150 is left out). -/
def applyBlockFormat (dto : BlockFormatDto) (b : Block) : Block :=
  { b with
    fmtAlignment := assignIfSome dto.alignment b.fmtAlignment
    fmtHeadingLevel := assignIfSome (dto.headingLevel.map fun v => min (max v 0) 6) b.fmtHeadingLevel
    fmtIndent := assignIfSome dto.indent b.fmtIndent
    fmtMarker := assignIfSome dto.marker b.fmtMarker
    fmtLineHeight := assignIfSome dto.lineHeight b.fmtLineHeight
    fmtNonBreakableLines := assignIfSome dto.nonBreakableLines b.fmtNonBreakableLines
    fmtDirection := assignIfSome dto.direction b.fmtDirection
    fmtBackgroundColor := assignIfSome dto.backgroundColor b.fmtBackgroundColor
    fmtIsCodeBlock := assignIfSome dto.isCodeBlock b.fmtIsCodeBlock
    fmtCodeLanguage := assignIfSome dto.codeLanguage b.fmtCodeLanguage
    fmtTopMargin := assignIfSome dto.topMargin b.fmtTopMargin
    fmtBottomMargin := assignIfSome dto.bottomMargin b.fmtBottomMargin
    fmtLeftMargin := assignIfSome dto.leftMargin b.fmtLeftMargin
    fmtRightMargin := assignIfSome dto.rightMargin b.fmtRightMargin
    fmtTextIndent := assignIfSome dto.textIndent b.fmtTextIndent }

/-- The overlap test, set_block_format_uc.rs L92-L102. -/
def blockOverlaps (lo hi : Int) (b : Block) (len : Nat) : Bool :=
  if len > 0 then decide (b.documentPosition ≤ hi) && decide (b.documentPosition + len > lo)
  else decide (b.documentPosition ≥ lo) && decide (b.documentPosition ≤ hi)

/-- The loop set_block_format_uc.rs L91-L153. -/
def blocksToFormat (st : RopeSt) (dto : BlockFormatDto) (lo hi : Int) : List Block → Option (List Block)
  | [] => some []
  | b :: bs =>
    (blockCharLength st b.id).bind fun (len : Nat) =>
    (blocksToFormat st dto lo hi bs).map fun rest =>
    if blockOverlaps lo hi b len then applyBlockFormat dto b :: rest else rest

/-- `execute_set_block_format`, set_block_format_uc.rs L49-L160; `redo` is the same. -/
def setBlockFormat (s : Store) (dto : BlockFormatDto) (position anchor : Int) : Option (Store × Snapshot) :=
  s.docId.bind fun did =>
  (s.documents did).bind fun _ =>
  let snap := s.snapshot
  (blocksToFormat s.text dto (min position anchor) (max position anchor) (s.sortedBlocks did)).map
    fun bs => (s.updateBlocks bs, snap)

/-- `SetBlockFormatUseCase::undo`. -/
def undoBlockFormat (s : Store) (snap : Snapshot) : Store := s.restoreUndo snap

end Store
end Verif
