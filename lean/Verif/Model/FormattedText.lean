import Verif.Model.Editing
import Verif.Model.PublicFormat
/-
`insert_formatted_text`: document_editing/src/use_cases/insert_formatted_text_uc.rs, and the format the
public cursor hands to it (public_api/src/cursor.rs L457-L520).
`none` is an error or a panic, after which the enclosing transaction puts the old store back (C27).
-/
namespace Verif

/-- The format fields of `InsertFormattedTextDto`, document_editing/src/dtos.rs. -/
structure PlainFormat where
  fontFamily : String
  fontPointSize : Int
  fontBold : Bool
  fontItalic : Bool
  fontUnderline : Bool
  fontStrikeout : Bool
deriving DecidableEq, Repr

/-- `InsertFormattedTextDto`. -/
structure FormattedDto where
  position : Int
  anchor : Int
  text : List Char
  format : PlainFormat

/-- `dto_to_character_format`, insert_formatted_text_uc.rs L71-L90. -/
def PlainFormat.toChar (f : PlainFormat) : CharFormat where
  fontFamily := some f.fontFamily
  fontPointSize := some f.fontPointSize
  fontBold := some f.fontBold
  fontItalic := some f.fontItalic
  fontUnderline := some f.fontUnderline
  fontStrikeout := some f.fontStrikeout

/-- `make_dto` of `TextCursor::insert_formatted_text`, cursor.rs L460-L470. -/
def TextFormat.toPlain (t : TextFormat) : PlainFormat where
  fontFamily := t.fontFamily.getD ""
  fontPointSize := (t.fontPointSize.map u32ToInt).getD 0
  fontBold := t.fontBold.getD false
  fontItalic := t.fontItalic.getD false
  fontUnderline := t.fontUnderline.getD false
  fontStrikeout := t.fontStrikeout.getD false

namespace Store

/-- The loop of `find_block_at_position_sequential`, insert_formatted_text_uc.rs L378-L389; `i` is the
index of the first block of the list. -/
def walkSequential (s : Store) (position : Int) :
    Nat → Int → List Nat → Option (Option (Block × Nat × Int))
  | _, _, [] => some none
  | i, running, id :: ids =>
    (s.blocks id).bind fun b =>
    (blockCharLength s.text b.id).bind fun (len : Nat) =>
    if position ≥ running ∧ position ≤ running + len then some (some (b, i, running))
    else s.walkSequential position (i + 1) (running + len + 1) ids

/-- `find_block_at_position_sequential`, insert_formatted_text_uc.rs L367-L402: the block, its index and
its start. -/
def findSequential (s : Store) (ids : List Nat) (position : Int) : Option (Block × Nat × Int) :=
  if ids = [] then none
  else
    (s.walkSequential position 0 0 ids).bind fun
    | some r => some r
    | none =>
      (ids.getLast?.bind fun i => s.blocks i).bind fun b =>
      (s.flowStart ids.dropLast).map fun pos => (b, ids.length - 1, pos)

/-- `insert_formatted_at`, insert_formatted_text_uc.rs L146-L203: the byte offset and the store. -/
def insertFormattedAt (s : Store) (block : Block) (offset : Int) (text : List Char)
    (format : CharFormat) : Option (Nat × Store) :=
  (blockContent s.text block.id).bind fun content =>
  let off := logicalOffsetToByte content (s.imagesOf block.id) offset
  let s := s.updateBlock block
  let s := s.editRuns block.id fun runs =>
    spliceRange (shiftRunsForInsert runs off (utf8Len text)) off (off + utf8Len text)
      [⟨off, off + utf8Len text, format⟩]
  let s := if (s.blockImages block.id).isSome
    then s.editImages block.id fun im => shiftImagesForInsert im off (utf8Len text) else s
  (ropeInsertInBlock s.text block.id off text).map fun r => (off, s.withText r)

/-- `execute_with_selection`, insert_formatted_text_uc.rs L205-L287; its `delete_range_in_block`
(L95-L142) is that of insert_text. -/
def formattedSelection (s : Store) (dto : FormattedDto) : Option (Store × Int × InsertUndo) :=
  s.docId.bind fun did =>
  (s.documents did).bind fun document =>
  let snap := s.snapshot
  (s.flowBlocks did).bind fun ids =>
  if ids = [] then none
  else
    let selStart := min dto.position dto.anchor
    let selEnd := max dto.position dto.anchor
    (s.findSequential ids selStart).bind fun (b, i1, pos) =>
    (s.findSequential ids selEnd).bind fun (_, i2, _) =>
    if i1 ≠ i2 then none
    else
      (s.deleteRange b (selStart - pos) (selEnd - pos)).bind fun (removed, s) =>
      let s := s.updateDocument { document with characterCount := document.characterCount - removed }
      (s.blocks b.id).bind fun block =>
      (s.insertFormattedAt block (selStart - pos) dto.text dto.format.toChar).bind fun (_, s) =>
      (s.documents did).bind fun document =>
      let s := s.updateDocument
        { document with characterCount := document.characterCount + dto.text.length }
      some (s, selStart + dto.text.length, .selection snap)

/-- `execute_insert_simple`, insert_formatted_text_uc.rs L289-L365. -/
def formattedSimple (s : Store) (dto : FormattedDto) : Option (Store × Int × InsertUndo) :=
  s.docId.bind fun did =>
  (s.documents did).bind fun document =>
  (s.flowBlocks did).bind fun ids =>
  if ids = [] then none
  else
    (s.findSequential ids dto.position).bind fun (block, _, pos) =>
    (blockCharLength s.text block.id).bind fun (len : Nat) =>
    let offset := max 0 (min (dto.position - pos) len)
    let runs := s.runsOf block.id
    let images := s.imagesOf block.id
    (s.insertFormattedAt block offset dto.text dto.format.toChar).bind fun (off, s) =>
    let s := s.updateDocument
      { document with characterCount := document.characterCount + dto.text.length }
    some (s, dto.position + dto.text.length,
      .simple ⟨block.id, block, runs, images, did, document.characterCount, off, utf8Len dto.text⟩)

/-- `InsertFormattedTextUseCase::execute` without its transaction, L413-L433: the new store, the new
position and the undo data. -/
def insertFormatted (s : Store) (dto : FormattedDto) : Option (Store × Int × InsertUndo) :=
  if dto.position ≠ dto.anchor then s.formattedSelection dto else s.formattedSimple dto

/-- `InsertFormattedTextUseCase::undo`, L437-L495: that of insert_text with the steps on the text and
the formats swapped. -/
def undoFormatted (s : Store) : InsertUndo → Option Store
  | .selection snap => some (s.restoreUndo snap)
  | .simple d =>
    let s := s.updateBlock d.originalBlock
    (if d.byteLen > 0 then ropeDeleteInBlock s.text d.blockId d.byteOffset (d.byteOffset + d.byteLen)
      else some s.text).bind fun r =>
    let s := s.withText r
    let s := { s with
      formatRuns := s.formatRuns.insert d.blockId d.originalRuns
      blockImages := s.blockImages.insert d.blockId d.originalImages }
    (s.documents d.docId).map fun doc =>
      s.updateDocument { doc with characterCount := d.originalCharacterCount }

/-- `TextCursor::insert_formatted_text`, cursor.rs L457-L520, on the store: the insertion, or for a
selection it refuses a deletion and an insertion (one group on the undo stack, see C23).  The result is
the store and the new caret position. -/
def cursorFormatted (s : Store) (x y : Nat) (t : List Char) (format : TextFormat) :
    Option (Store × Int) :=
  match s.insertFormatted ⟨x, y, t, format.toPlain⟩ with
  | some r => some (r.1, r.2.1)
  | none =>
    if x = y then none
    else
      (s.deleteText x y).bind fun (s, r, _) =>
      if r.newPosition < 0 then none  -- the assertion of `to_usize`
      else (s.insertFormatted ⟨r.newPosition, r.newPosition, t, format.toPlain⟩).map fun r => (r.1, r.2.1)

end Store
end Verif
