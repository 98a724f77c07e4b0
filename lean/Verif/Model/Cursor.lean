import Verif.Model.Inspect
import Verif.Model.Session
import Verif.Model.Changes
import Verif.Model.PublicFormat
/-
Cursors: movement, selection and what they read.  public_api/src/cursor.rs L140-L385, L1435-L1502,
L1836-L1906, L2066-L2454; text_block.rs L49-L62, L97-L108, L170-L236, L347-L356; text_frame.rs L79-L140.
Simplifications: an error of a query and a panic inside it are the same `none`, replaced by the default the
code gives for errors; `to_usize` of a negative number, an assertion, is 0 (the numbers are positions, lengths
and counts); the empty `child_order` fallback of the flow is not modelled.
-/
namespace Verif

/-- Text segmentation (crate unicode-segmentation) and `char::is_alphanumeric`: `graphemes` are the extended
grapheme clusters, `words` the first character and the number of characters of every Unicode word. -/
structure Segmenter where
  graphemes : List Char → List (List Char)
  words : List Char → List (Nat × Nat)
  alphanumeric : Char → Bool

/-- `MoveOperation`, lib.rs. -/
inductive MoveOp where
  | noMove | start | end | nextCharacter | previousCharacter | left | right
  | startOfBlock | endOfBlock | startOfLine | endOfLine | nextBlock | previousBlock
  | nextWord | previousWord | endOfWord | startOfWord | wordLeft | wordRight | up | down
deriving DecidableEq, Repr

/-- `SelectionType`, lib.rs. -/
inductive SelectOp where
  | document | blockUnderCursor | lineUnderCursor | wordUnderCursor
deriving DecidableEq, Repr

namespace Store

/-! ### Tables around a position -/

/-- `find_parent_frame`, text_block.rs L347-L356. -/
def parentFrame (s : Store) (block : Nat) : Option Nat :=
  (s.frames.keys.find? fun k => ((s.frames k).map fun fr => fr.blocks.contains block).getD false)

/-- The cell of one table whose frame is `frame`, text_block.rs L188-L206 and L214-L230. -/
def cellIn (s : Store) (t : Table) (frame : Nat) : Option (Nat × Int × Int) :=
  t.cells.findSome? fun c => (s.tableCells c).bind fun cell =>
    if cell.cellFrame = some frame then some (t.id, cell.row, cell.column) else none

/-- `TextBlock::table_cell`, text_block.rs L170-L236: table, row and column. -/
def tableCellOf (s : Store) (block : Nat) : Option (Nat × Int × Int) :=
  (s.parentFrame block).bind fun f =>
  (s.frames f).bind fun fr =>
  match fr.table with
  | some t =>
    (s.tables t).bind fun tb =>
    match s.cellIn tb f with
    | some r => some (t, r.2)
    | none => s.tables.keys.findSome? fun k => (s.tables k).bind fun tb => s.cellIn tb f
  | none => s.tables.keys.findSome? fun k => (s.tables k).bind fun tb => s.cellIn tb f

/-- `table_cell_at`, cursor.rs L1435-L1459. -/
def tableCellAt (s : Store) (position : Nat) : Option (Nat × Int × Int) :=
  (s.blockAt position).bind fun i =>
  if (position : Int) < i.start ∧ position > 0 then
    (s.blockAt ((position - 1 : Nat) : Int)).bind fun j => s.tableCellOf j.blockId
  else s.tableCellOf i.blockId

/-- `TextBlock::position`, text_block.rs L97-L108 with `refresh_block_position`, inner.rs L450-L464. -/
def blockPosition (s : Store) (id : Nat) : Nat :=
  match s.blocks id with
  | none => 0
  | some b =>
    if ropePositionsMatchFlow s.text s.blocks.len then
      match s.text.idx.rangeOf (.block id) with
      | some (some (bs, _)) => (byteToChar s.rope bs).getD b.documentPosition.toNat
      | _ => b.documentPosition.toNat
    else b.documentPosition.toNat

/-- `TextBlock::length`, text_block.rs L49-L62. -/
def blockLength (s : Store) (id : Nat) : Nat :=
  ((s.blocks id).bind fun b => blockCharLength s.text b.id).getD 0

/-- An entry of the flow: a block, a table or another frame. -/
inductive FlowItem where
  | block (id : Nat) | table (id : Nat) | frame (id : Nat)
deriving DecidableEq, Repr

/-- `flow_from_child_order`, text_frame.rs L100-L140. -/
def flowItems (s : Store) (order : List Int) : List FlowItem :=
  order.filterMap fun e =>
    if e > 0 then some (.block e.toNat)
    else if e < 0 then
      (s.frames (-e).toNat).map fun fr =>
        match fr.table with
        | some t => .table t
        | none => .frame (-e).toNat
    else none

/-- `table_boundary_position`, cursor.rs L1472-L1500. -/
def tableBoundary (s : Store) (table : Nat) (before : Bool) : Option Nat :=
  s.docId.bind fun did => (s.documents did).bind fun d => (d.frames.head?).bind fun mf =>
  (s.frames mf).bind fun fr =>
  let flow := s.flowItems fr.childOrder
  (flow.findIdx? (· == FlowItem.table table)).bind fun idx =>
  if before then
    (flow.take idx).reverse.findSome? fun
      | .block b => some (s.blockPosition b + s.blockLength b)
      | _ => none
  else
    (flow.drop (idx + 1)).findSome? fun
      | .block b => some (s.blockPosition b)
      | _ => none

/-! ### Grapheme clusters -/

/-- The loop of `forward_grapheme_boundary_at_or_after`, cursor.rs L2285-L2293. -/
def snapScan (off : Nat) : Nat → List (List Char) → Nat
  | acc, [] => acc
  | acc, g :: gs => if acc ≥ off then acc else snapScan off (acc + g.length) gs

/-- `forward_grapheme_boundary_at_or_after`, cursor.rs L2255-L2294. -/
def snapForward (seg : Segmenter) (s : Store) (pos : Nat) : Nat :=
  if pos ≥ (maxCursor s).getD pos then pos
  else match s.blockAt pos with
    | none => pos
    | some i =>
      let start := i.start.toNat
      let len := i.length.toNat
      let off := pos - start
      if off = 0 ∨ off ≥ len then pos
      else match s.textAt start len with
        | none => pos
        | some r => start + snapScan off 0 (seg.graphemes r.text)

/-- `next_grapheme_boundary`, cursor.rs L2312-L2349. -/
def nextGrapheme (seg : Segmenter) (s : Store) (pos : Nat) : Nat :=
  let e := (maxCursor s).getD pos
  if pos ≥ e then pos
  else match s.blockAt pos with
    | none => pos + 1
    | some i =>
      let off := pos - i.start.toNat
      let len := i.length.toNat
      if off ≥ len then min (pos + 1) e
      else match s.textAt pos ((len - off : Nat) : Int) with
        | none => pos + 1
        | some r => match (seg.graphemes r.text).head? with
          | some g => if g ≠ [] then min (pos + g.length) e else min (pos + 1) e
          | none => min (pos + 1) e

/-- `prev_grapheme_boundary`, cursor.rs L2354-L2393. -/
def prevGrapheme (seg : Segmenter) (s : Store) (pos : Nat) : Nat :=
  if pos = 0 then 0
  else match s.blockAt ((pos - 1 : Nat) : Int) with
    | none => pos - 1
    | some i =>
      let start := i.start.toNat
      let len := i.length.toNat
      if pos > start + len then pos - 1
      else if len = 0 ∨ pos ≤ start then pos - 1
      else match s.textAt start ((pos - start : Nat) : Int) with
        | none => pos - 1
        | some r => match (seg.graphemes r.text).getLast? with
          | some g => if g ≠ [] then pos - g.length else pos - 1
          | none => pos - 1

/-! ### Words -/

/-- The loop of `find_word_boundaries`, cursor.rs L2432-L2445: the word at the offset, or the last word. -/
def wordScan (off : Nat) : Nat × Nat → List (Nat × Nat) → (Nat × Nat) ⊕ (Nat × Nat)
  | last, [] => .inr last
  | _, (a, n) :: ws => if off ≥ a ∧ off < a + n then .inl (a, a + n) else wordScan off (a, a + n) ws

/-- `find_word_boundaries`, cursor.rs L2400-L2454. -/
def wordBounds (seg : Segmenter) (s : Store) (pos : Nat) : Nat × Nat :=
  match s.blockAt pos with
  | none => (pos, pos)
  | some i =>
    let start := i.start.toNat
    let len := i.length.toNat
    if len = 0 then (pos, pos)
    else match s.textAt start len with
      | none => (pos, pos)
      | some r =>
        let off := pos - start
        match wordScan off (0, 0) (seg.words r.text) with
        | .inl w => (start + w.1, start + w.2)
        | .inr l => if off = l.2 ∧ l.1 < l.2 then (start + l.1, start + l.2) else (pos, pos)

/-- The forward scan of `NextWord`, cursor.rs L2152-L2186. -/
def nextWord (seg : Segmenter) (s : Store) (pos : Nat) : Nat :=
  let e := (s.wordBounds seg pos).2
  if e = pos then
    let scan := min ((maxCursor s).getD 0 - pos) 64
    if scan = 0 then pos
    else
      match (s.textAt pos scan).bind fun r =>
          r.text.findIdx? fun c => seg.alphanumeric c || c == '_' with
      | some i => (s.wordBounds seg (pos + i)).2
      | none => pos + scan
  else e

/-- The backward scan of `PreviousWord`, cursor.rs L2195-L2207. -/
def prevWordScan (seg : Segmenter) (s : Store) : Nat → Nat
  | 0 => let w := s.wordBounds seg 0; if w.1 < w.2 then w.1 else 0
  | n + 1 => let w := s.wordBounds seg (n + 1); if w.1 < w.2 then w.1 else s.prevWordScan seg n

/-- `PreviousWord`, cursor.rs L2187-L2211. -/
def prevWord (seg : Segmenter) (s : Store) (pos : Nat) : Nat :=
  let a := (s.wordBounds seg pos).1
  if a < pos then a
  else if pos > 0 then s.prevWordScan seg (pos - 1)
  else 0

/-! ### Movement -/

/-- The repeat loop of the character movements, cursor.rs L2079-L2099. -/
def repeatMove (step : Nat → Nat) : Nat → Nat → Nat
  | 0, cur => cur
  | n + 1, cur => if step cur = cur then cur else repeatMove step n (step cur)

/-- `PreviousBlock`, cursor.rs L2131-L2151. -/
def previousBlock (s : Store) (pos : Nat) : Nat :=
  let start := match s.blockAt pos with
    | some i => i.start.toNat
    | none => pos
  if start ≥ 2 then
    match s.blockAt ((start - 2 : Nat) : Int) with
    | some i => i.start.toNat
    | none => 0
  else 0

/-- `NextBlock`, cursor.rs L2119-L2130. -/
def nextBlockPos (s : Store) (pos : Nat) : Nat :=
  match s.blockAt pos with
  | some i => i.start.toNat + i.length.toNat + 1
  | none => pos

/-- `resolve_move`, cursor.rs L2066-L2222. -/
def resolveMove (seg : Segmenter) (s : Store) (pos : Nat) (n : Nat) : MoveOp → Nat
  | .noMove => pos
  | .start => 0
  | .end => (maxCursor s).getD pos
  | .nextCharacter | .right => repeatMove (s.nextGrapheme seg) n pos
  | .previousCharacter | .left => repeatMove (s.prevGrapheme seg) n pos
  | .startOfBlock | .startOfLine => match s.blockAt pos with
    | some i => i.start.toNat
    | none => pos
  | .endOfBlock | .endOfLine => match s.blockAt pos with
    | some i => i.start.toNat + i.length.toNat
    | none => pos
  | .nextBlock | .down => s.nextBlockPos pos
  | .previousBlock | .up => s.previousBlock pos
  | .nextWord | .endOfWord | .wordRight => s.nextWord seg pos
  | .previousWord | .startOfWord | .wordLeft => s.prevWord seg pos

/-- `snap_position_to_grapheme_boundary`, cursor.rs L2234-L2247. -/
def snapCursor (seg : Segmenter) (s : Store) (c : Cursor) : Cursor :=
  let t := s.snapForward seg c.position
  if t ≠ c.position then
    { c with position := t, anchor := if c.anchor = c.position then t else c.anchor }
  else c

/-- Where a selection from `anchor` may end instead of at `pos`, cursor.rs L289-L316: at the edge of the table when only
one of the two is inside a table. -/
def keepOutside (s : Store) (anchor pos : Nat) : Nat :=
  match s.tableCellAt pos, s.tableCellAt anchor with
  | some t, none => (s.tableBoundary t.1 (!decide (anchor < pos))).getD pos
  | none, some t => (s.tableBoundary t.1 (!decide (pos < anchor))).getD pos
  | _, _ => pos

/-- `set_position`, cursor.rs L280-L330; `keep` is `MoveMode::KeepAnchor`. -/
def placeCursor (seg : Segmenter) (s : Store) (c : Cursor) (position : Nat) (keep : Bool) : Cursor :=
  let pos := min position ((maxCursor s).getD 0)
  let pos := if keep then s.keepOutside c.anchor pos else pos
  s.snapCursor seg { position := pos, anchor := if keep then c.anchor else pos, cellOverride := false }

/-- `cursor_at`, document.rs L332-L343. -/
def cursorAt (seg : Segmenter) (s : Store) (position : Nat) : Cursor :=
  s.snapCursor seg { position := position, anchor := position, cellOverride := false }

/-- `move_position`, cursor.rs L337-L342. -/
def movePosition (seg : Segmenter) (s : Store) (c : Cursor) (op : MoveOp) (keep : Bool) (n : Nat) : Cursor × Bool :=
  let c' := s.placeCursor seg c (s.resolveMove seg c.position n op) keep
  (c', decide (c'.position ≠ c.position))

/-- `select`, cursor.rs L345-L385. -/
def select (seg : Segmenter) (s : Store) (c : Cursor) : SelectOp → Cursor
  | .document => ⟨(maxCursor s).getD 0, 0, false⟩
  | .blockUnderCursor | .lineUnderCursor => match s.blockAt c.position with
    | some i => ⟨i.start.toNat + i.length.toNat, i.start.toNat, false⟩
    | none => c
  | .wordUnderCursor =>
    let w := s.wordBounds seg c.position
    ⟨w.2, w.1, false⟩

/-- `clear_selection`, cursor.rs L185-L188. -/
def clearSelection (c : Cursor) : Cursor := { c with anchor := c.position }

/-! ### Reading -/

/-- `selected_text`, cursor.rs L168-L182. -/
def selectedText (s : Store) (c : Cursor) : Option (List Char) :=
  if c.position = c.anchor then some []
  else
    let start := min c.position c.anchor
    (s.textAt start ((max c.position c.anchor - start : Nat) : Int)).map TextAt.text

/-- `at_block_start`, cursor.rs L193-L204. -/
def atBlockStart (s : Store) (c : Cursor) : Bool :=
  match s.blockAt c.position with
  | some i => decide (c.position = i.start.toNat)
  | none => false

/-- `at_block_end`, cursor.rs L207-L218. -/
def atBlockEnd (s : Store) (c : Cursor) : Bool :=
  match s.blockAt c.position with
  | some i => decide (c.position = i.start.toNat + i.length.toNat)
  | none => false

/-- `at_start`, cursor.rs L221-L223. -/
def atStart (c : Cursor) : Bool := decide (c.position = 0)

/-- `at_end`, cursor.rs L226-L241. -/
def atEnd (s : Store) (c : Cursor) : Bool := decide (c.position ≥ (maxCursor s).getD 0)

/-- `block_number`, cursor.rs L244-L253. -/
def blockNumber (s : Store) (c : Cursor) : Nat := ((s.blockAt c.position).map fun i => i.number.toNat).getD 0

/-- `position_in_block`, cursor.rs L256-L265. -/
def positionInBlock (s : Store) (c : Cursor) : Nat :=
  ((s.blockAt c.position).map fun i => c.position - i.start.toNat).getD 0

/-- `char_format`, cursor.rs L1836-L1890. -/
def charFormatAt (s : Store) (c : Cursor) : Option TextFormat :=
  (s.blockAt c.position).bind fun i =>
  (s.blocks i.blockId).bind fun b =>
  (blockContent s.text b.id).map fun plain =>
  let off := utf8Len (plain.take (c.position - s.blockPosition i.blockId))
  match (s.imagesOf i.blockId).find? fun g => g.off == off with
  | some g => .ofCharFormat g.fmt
  | none => match (s.runsOf i.blockId).find? fun r => decide (r.bs ≤ off ∧ off < r.be) with
    | some r => .ofCharFormat r.fmt
    | none => {}

/-- `block_format`, cursor.rs L1893-L1904. -/
def blockFormatAt (s : Store) (c : Cursor) : Option BlockFormat :=
  (s.blockAt c.position).bind fun i => (s.blocks i.blockId).map BlockFormat.ofBlock

end Store
end Verif
