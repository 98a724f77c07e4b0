import Verif.Model.Inspect
import Verif.Model.ListCommands
import Verif.Model.PlainText
/-
Copying and pasting: document_inspection/src/use_cases/extract_fragment_uc.rs,
document_editing/src/use_cases/insert_fragment_uc.rs and common/src/parser_tools/fragment_schema.rs.

A fragment travels as JSON text (`serde_json`); here it is the value itself, and the limit of 64 MiB
on the text (insert_fragment_uc.rs L1509-L1517) is left out.  Fragments here have no tables, and
`extractFragment` fails on selections that run across table cells: those are in CopyMixed.lean, and pasting
fragments with tables in PasteTable.lean and PasteMixed.lean.  Clock stamps and events are left out; `none` is an error or a panic.
-/
namespace Verif
namespace Store

/-- `FragmentList`, fragment_schema.rs L103-L109. -/
structure FragList where
  style : ListStyle := .disc
  indent : Int := 0
  pre : String := ""
  suffix : String := ""
deriving DecidableEq, Repr

/-- `FragmentBlock`, fragment_schema.rs L60-L80.  `format` holds its paragraph-level fields; its `id`,
`list` and `documentPosition` are not used.  An element is a segment (`FragmentElement`, L82-L101, has
the fields of `InlineSegment`). -/
structure FragBlock where
  text : List Char
  elements : List (Segment CharFormat)
  format : Block := {}
  list : Option FragList := none
deriving DecidableEq, Repr

/-- `is_inline_only`, fragment_schema.rs L137-L156. -/
def FragBlock.inlineOnly (b : FragBlock) : Bool :=
  b.format.fmtHeadingLevel.isNone && b.list.isNone && b.format.fmtAlignment.isNone &&
  decide (b.format.fmtIndent.getD 0 = 0) && decide (b.format.fmtTextIndent.getD 0 = 0) &&
  b.format.fmtMarker.isNone && b.format.fmtTopMargin.isNone && b.format.fmtBottomMargin.isNone &&
  b.format.fmtLeftMargin.isNone && b.format.fmtRightMargin.isNone && b.format.fmtLineHeight.isNone &&
  b.format.fmtNonBreakableLines.isNone && b.format.fmtDirection.isNone &&
  b.format.fmtBackgroundColor.isNone && b.format.fmtIsCodeBlock.isNone && b.format.fmtCodeLanguage.isNone

/-- `FragmentList::from_entity`, fragment_schema.rs L160-L167. -/
def FragList.ofEntity (l : TList) : FragList := ⟨l.style, l.indent, l.pre, l.suffix⟩

/-- `FragmentList::to_entity`, fragment_schema.rs L169-L179. -/
def FragList.toEntity (l : FragList) : TList := ⟨0, l.style, l.indent, l.pre, l.suffix⟩

/-! ### extract_fragment -/

/-- The blocks below a frame, each with the frame that lists it, in document order:
`collect_block_ids_recursive_ro`, extract_fragment_uc.rs L537-L587, and
`collect_all_blocks_with_frame`, insert_fragment_uc.rs L172-L213 (which visits the cells of a table in
another order).  `fuel` bounds the nesting of frames. -/
def blocksBelow (s : Store) : Nat → Nat → Option (List (Nat × Nat))
  | 0, _ => none
  | fuel + 1, fid =>
    match s.frames fid with
    | none => some []
    | some f =>
      if f.childOrder = [] then some ((s.frameBlocks fid).map fun b => (b, fid))
      else
        (mapOpt (fun e : Int =>
          if e > 0 then some [(e.toNat, fid)]
          else if e < 0 then
            match s.frames (-e).toNat with
            | none => some []
            | some sub =>
              match sub.table with
              | some t => (mapOpt (s.blocksBelow fuel) (s.tableCellFrames t)).map List.flatten
              | none => s.blocksBelow fuel (-e).toNat
          else some []) f.childOrder).map List.flatten

/-- `extract_elements_in_range`, extract_fragment_uc.rs L464-L533: the elements between the characters
`lo` and `hi` and their text; `cur` is where the first segment starts.  (The slice `take_start..take_end`
is never reversed, because `lo ≤ hi`.) -/
def extractRange (lo hi : Nat) : Nat → List (Segment CharFormat) → List (Segment CharFormat) × List Char
  | _, [] => ([], [])
  | cur, seg :: segs =>
    let n := (segChars seg).length
    if cur + n ≤ lo then extractRange lo hi (cur + n) segs
    else if cur ≥ hi then ([], [])
    else
      let a := lo - cur
      let b := if hi < cur + n then hi - cur else n
      let r := extractRange lo hi (cur + n) segs
      match seg with
      | .text cs fmt =>
        let slice := (cs.take b).drop a
        if slice = [] then r else (.text slice fmt :: r.1, slice ++ r.2)
      | .image i => if a = 0 ∧ b = 1 then (.image i :: r.1, objChar :: r.2) else r

/-- The paragraph-level fields of a block. -/
def formatOf (b : Block) : Block := { b with id := 0, list := none, documentPosition := 0 }

/-- The body of the loop extract_fragment_uc.rs L291-L343, with `block_to_fragment_block`, L381-L460;
`last` is the id of the last block.  Inner `none`: the block is not touched. -/
def extractBlock (s : Store) (start stop : Int) (last : Nat) (b : Block) : Option (Option FragBlock) :=
  (blockCharLength s.text b.id).bind fun (len : Nat) =>
  if b.documentPosition + len < start ∨ b.documentPosition ≥ stop then some none
  else
    let lo := if start > b.documentPosition then (start - b.documentPosition).toNat else 0
    let hi := if stop < b.documentPosition + len then (stop - b.documentPosition).toNat else len
    (blockContent s.text b.id).bind fun plain =>
    (s.segmentsOf b.id plain).map fun segs =>
    let full := decide (lo = 0 ∧ hi = len ∧ (stop > b.documentPosition + len ∨ b.id = last))
    some
      { text := (extractRange lo hi 0 segs).2
        elements := (extractRange lo hi 0 segs).1
        format := if full then formatOf b else {}
        list := if full then (b.list.bind fun l => s.lists l).map FragList.ofEntity else none }

/-- `is_cross_cell`, extract_fragment_uc.rs L113-L137. -/
def copyCrosses (s : Store) (did : Nat) (blocks : List Block) (start stop : Int) : Option Bool :=
  (mapOpt (fun b : Block => (blockCharLength s.text b.id).map fun (len : Nat) =>
    if b.documentPosition + len < start ∨ b.documentPosition ≥ stop then []
    else [s.cellFrameOf did b.id]) blocks).map fun l =>
    match l.flatten with
    | [] => false
    | c :: cs => cs.any fun c' => decide (c' ≠ c)

/-- `ExtractFragmentUseCase::execute`, extract_fragment_uc.rs L45-L360: the paragraphs of the fragment
and its plain text.  For selections across table cells see `copyFragment`, CopyMixed.lean. -/
def extractFragment (s : Store) (position anchor : Int) : Option (List FragBlock × List Char) :=
  let start := min position anchor
  let stop := max position anchor
  if start = stop then some ([], [])
  else
    s.docId.bind fun did =>
    (mapOpt (s.blocksBelow (s.frames.len + 1)) (s.docFrames did)).bind fun pairs =>
    let blocks := sortByKey Block.documentPosition (s.getBlocks (pairs.flatten.map Prod.fst))
    (s.copyCrosses did blocks start stop).bind fun cross =>
    if cross then none
    else
      (mapOpt (s.extractBlock start stop ((blocks.getLast?.map Block.id).getD 0)) blocks).map fun l =>
        let fbs := l.filterMap id
        (fbs, joinLines (fbs.map FragBlock.text))

/-! ### insert_fragment -/

/-- The loop of `frag_block_state`, insert_fragment_uc.rs L80-L130; `off` is the byte offset. -/
def fragSpans : Nat → List (Segment CharFormat) → List (Run CharFormat) × List (Img CharFormat)
  | _, [] => ([], [])
  | off, .text cs fmt :: segs =>
    if utf8Len cs > 0 then
      let r := fragSpans (off + utf8Len cs) segs
      (⟨off, off + utf8Len cs, fmt⟩ :: r.1, r.2)
    else fragSpans off segs
  | off, .image i :: segs =>
    let r := fragSpans off segs
    (r.1, { i with off := off } :: r.2)

/-- `frag_block_state`, insert_fragment_uc.rs L73-L134. -/
def fragState (fb : FragBlock) : List (Run CharFormat) × List (Img CharFormat) :=
  (coalesce (fragSpans 0 fb.elements).1, (fragSpans 0 fb.elements).2)

/-- `write_block_state`, insert_fragment_uc.rs L138-L160. -/
def writeState (s : Store) (id : Nat) (runs : List (Run CharFormat)) (imgs : List (Img CharFormat)) : Store :=
  { s with
    formatRuns := if runs = [] then s.formatRuns.erase id else s.formatRuns.insert id runs
    blockImages := if imgs = [] then s.blockImages.erase id else s.blockImages.insert id imgs }

/-- The spans of a fragment moved by `n` bytes, e.g. insert_fragment_uc.rs L701-L707. -/
def moveRuns (n : Nat) (runs : List (Run CharFormat)) : List (Run CharFormat) :=
  runs.map fun r => { r with bs := r.bs + n, be := r.be + n }

/-- The images of a fragment moved by `n` bytes, e.g. insert_fragment_uc.rs L710-L715. -/
def moveImages (n : Nat) (imgs : List (Img CharFormat)) : List (Img CharFormat) :=
  imgs.map fun i => { i with off := i.off + n }

/-- The text, spans and images of a paragraph. -/
structure ParaState where
  text : List Char
  runs : List (Run CharFormat)
  imgs : List (Img CharFormat)

/-- The number of positions a paragraph takes. -/
def ParaState.len (x : ParaState) : Nat := x.text.length + x.imgs.length

/-- A fragment block as a paragraph. -/
def FragBlock.state (fb : FragBlock) : ParaState := ⟨fb.text, (fragState fb).1, (fragState fb).2⟩

/-- The second paragraph state appended to the first: the common part of `build_head_state`,
insert_fragment_uc.rs L693-L716, and `build_tail_state`, L734-L755. -/
def ParaState.append (x y : ParaState) : ParaState :=
  ⟨x.text ++ y.text, coalesce (x.runs ++ moveRuns (utf8Len x.text) y.runs),
    x.imgs ++ moveImages (utf8Len x.text) y.imgs⟩

/-- `build_head_state`, insert_fragment_uc.rs L679-L723. -/
def headState (left : ParaState) (mergeFirst overwrite : Bool) (first : FragBlock) : ParaState :=
  if overwrite then first.state
  else if mergeFirst then left.append first.state
  else left

/-- `build_tail_state`, insert_fragment_uc.rs L727-L767. -/
def tailState (right : ParaState) (mergeLast : Bool) (last : FragBlock) : ParaState :=
  if mergeLast then last.state.append right else right

/-- `indent as u32`. -/
def toU32 (x : Int) : Nat := (x % 4294967296).toNat

/-- The choice of the list of a pasted paragraph, insert_fragment_uc.rs L1752-L1772 and L1834-L1852: the
store, the state of the grouper, and the list. -/
def chooseList (s : Store) (did : Nat) (g : ListGrouper) :
    Option FragList → Option (Store × ListGrouper × Option Nat)
  | none => some (s, g.reset, none)
  | some fl =>
    match (g.tryReuse fl.style (toU32 fl.indent)).2 with
    | some id => some (s, (g.tryReuse fl.style (toU32 fl.indent)).1, some id)
    | none =>
      (s.createListEntity fl.toEntity did (-1)).map fun (id, s) =>
        (s, (g.tryReuse fl.style (toU32 fl.indent)).1.register id fl.style (toU32 fl.indent), some id)

/-- The list of the only paragraph of a fragment, insert_fragment_uc.rs L2134-L2140 and L2302-L2308. -/
def newList (s : Store) (did : Nat) : Option FragList → Option (Store × Option Nat)
  | none => some (s, none)
  | some fl => (s.createListEntity fl.toEntity did (-1)).map fun (id, s) => (s, some id)

/-- The loop over the paragraphs that become blocks of their own, insert_fragment_uc.rs L1829-L1890:
the store, the new blocks with their text, and the running position. -/
def addFragBlocks (did fid : Nat) : List FragBlock → Nat → Int → ListGrouper → Store →
    Option (Store × List (Nat × List Char) × Int)
  | [], _, running, _, s => some (s, [], running)
  | fb :: fbs, index, running, g, s =>
    (s.chooseList did g fb.list).bind fun (s, g, list) =>
    (s.createBlock { fb.format with id := 0, list := list, documentPosition := running } fid
      (index : Int)).bind fun (new, s) =>
    let s := s.writeState new (fragState fb).1 (fragState fb).2
    (addFragBlocks did fid fbs (index + 1) (running + (fb.state.len + 1 : Nat)) g s).map
      fun (s, pay, running) => (s, (new, fb.text) :: pay, running)

/-- Steps 2 and 3 of the rope mirror, insert_fragment_uc.rs L2049-L2071 (and L2213-L2225, L2417-L2437):
each new block is split off after the one before and filled. -/
def ropeAddBlocks : List (Nat × List Char) → Nat → Nat → RopeSt → Option RopeSt
  | [], _, _, st => some st
  | (new, text) :: l, prev, n, st =>
    (ropeSplitBlock st prev n new).bind fun st =>
    (if text = [] then some st else ropeInsertInBlock st new 0 text).bind fun st =>
    ropeAddBlocks l new (utf8Len text) st

/-- The rope mirror, insert_fragment_uc.rs L2020-L2074 (and L2196-L2226, L2405-L2438): `extra` is what
the head gets after its first `off` bytes. -/
def ropePaste (st : RopeSt) (cur off : Nat) (after extra : List Char) (pay : List (Nat × List Char)) :
    Option RopeSt :=
  (if after = [] then some st else ropeDeleteInBlock st cur off (off + utf8Len after)).bind fun st =>
  (if extra = [] then some st else ropeInsertInBlock st cur off extra).bind fun st =>
  ropeAddBlocks pay cur (off + utf8Len extra) st

/-- Where a fragment is pasted: what `execute_insert_fragment` has at hand, L1534-L1605 and L1693-L1701. -/
structure PasteAt where
  did : Nat
  document : Document
  fid : Nat
  frame : Frame
  blocks : List Block
  cur : Block
  index : Nat
  off : Nat
  runs : List (Run CharFormat)
  imgs : List (Img CharFormat)
  before : List Char
  after : List Char

/-- `InsertFragmentResultDto`. -/
structure PasteResult where
  newPosition : Int
  blocksAdded : Int
deriving DecidableEq, Repr

/-- `original_current_char_length`, L1603-L1604. -/
def PasteAt.len (c : PasteAt) : Nat := (c.before ++ c.after).length + c.imgs.length

/-- The first half of the paragraph, L1699-L1700. -/
def PasteAt.left (c : PasteAt) : ParaState := ⟨c.before, (splitRunsAt c.runs c.off).1, (splitImagesAt c.imgs c.off).1⟩

/-- The second half of the paragraph, L1699-L1700. -/
def PasteAt.right (c : PasteAt) : ParaState := ⟨c.after, (splitRunsAt c.runs c.off).2, (splitImagesAt c.imgs c.off).2⟩

/-- The new blocks enter the order of the frame, e.g. L2004-L2018: the successive `insert`s put the ids
one after the other. -/
def placeChildren (s : Store) (c : PasteAt) (ids : List Nat) : Store :=
  let at_ := min (c.index + 1) c.frame.childOrder.length
  s.updateFrame { c.frame with
    childOrder := c.frame.childOrder.take at_ ++ ids.map (fun i : Nat => (i : Int)) ++ c.frame.childOrder.drop at_ }

/-- The inline merge, insert_fragment_uc.rs L1609-L1689. -/
def pasteInline (s : Store) (c : PasteAt) (position : Int) (fb : FragBlock) : Option (Store × PasteResult) :=
  let n := utf8Len fb.text
  if fb.state.len = 0 then some (s, ⟨position, 0⟩)
  else
    let runs := coalesce (spliceRange (shiftRunsForInsert c.runs c.off n) c.off (c.off + n)
      (moveRuns c.off (fragState fb).1))
    let imgs := sortByKey (fun i : Img CharFormat => (i.off : Int))
      (shiftImagesForInsert c.imgs c.off n ++ moveImages c.off (fragState fb).2)
    let s := (s.updateBlock c.cur).writeState c.cur.id runs imgs
    (ropeInsertInBlock s.text c.cur.id c.off fb.text).map fun r =>
    let s := (s.withText r).shiftStored (c.blocks.drop (c.index + 1)) fb.state.len
    (s.updateDocument { c.document with characterCount := c.document.characterCount + fb.state.len },
      ⟨position + fb.state.len, 0⟩)

/-- `update_block_with_relationships`, block_table.rs L112-L128. -/
def putBlock (s : Store) (b : Block) : Store := { s with blocks := s.blocks.insert b.id b }

/-- The current block overwritten with the first one of the fragment, L1750-L1792; or left, with the
grouper set to its list, L1738-L1748 and L1793-L1799. -/
def pasteHead (s : Store) (c : PasteAt) (overwrite : Bool) (first : FragBlock) :
    Option (Store × ListGrouper) :=
  if overwrite then
    (s.chooseList c.did [] first.list).map fun (s, g, list) =>
      (s.putBlock { first.format with id := c.cur.id, list := list, documentPosition := c.cur.documentPosition }, g)
  else
    some (s.updateBlock c.cur,
      match c.cur.list with
      | none => []
      | some l => match s.lists l with
        | none => []
        | some e => ListGrouper.register [] l e.style (toU32 e.indent))

/-- The block made of the rest of the paragraph, e.g. L1904-L1994. -/
def tailBlock (c : PasteAt) (plain : Bool) (running : Int) : Block :=
  if plain then { documentPosition := running } else { c.cur with id := 0, documentPosition := running }

/-- A tail block is created, L1995-L2001. -/
def addTail (s : Store) (c : PasteAt) (plain : Bool) (index : Nat) (running : Int) (tail : ParaState) :
    Option (Store × Nat) :=
  (s.createBlock (tailBlock c plain running) c.fid (index : Int)).map fun (new, s) =>
    (s.writeState new tail.runs tail.imgs, new)

/-- A fragment of several paragraphs, insert_fragment_uc.rs L1703-L2122. -/
def pasteMany (s : Store) (c : PasteAt) (first last : FragBlock) (fbs : List FragBlock) :
    Option (Store × PasteResult) :=
  let mergeFirst := first.inlineOnly
  let mergeLast := last.inlineOnly
  let overwrite := decide (c.before = []) && !mergeFirst
  let head := headState c.left mergeFirst overwrite first
  (s.pasteHead c overwrite first).bind fun (s, g) =>
  let s := s.writeState c.cur.id head.runs head.imgs
  let mids := if mergeFirst || overwrite then fbs.tail else fbs
  let mids := if mergeLast then mids.dropLast else mids
  (addFragBlocks c.did c.fid mids (c.index + 1) (c.cur.documentPosition + head.len + 1) g s).bind
    fun (s, pay, running) =>
  let tail := tailState c.right mergeLast last
  let skip := decide (tail.text = []) && !mergeLast && decide (c.right.imgs = [])
  (if skip then some (s, []) else
    (s.addTail c overwrite (c.index + 1 + pay.length) running tail).map fun (s, id) =>
      (s, [(id, tail.text)])).bind fun (s, extra) =>
  let s := s.placeChildren c ((pay ++ extra).map Prod.fst)
  (ropePaste s.text c.cur.id c.off c.after (head.text.drop c.before.length) (pay ++ extra)).map fun r =>
  let s := s.withText r
  let newNext := if skip then running else running + tail.len + 1
  let s := s.shiftStored (c.blocks.drop (c.index + 1)) (newNext - (c.cur.documentPosition + c.len + 1))
  let added := (mids.length : Int) + (if skip then 0 else 1)
  let chars := (if mergeFirst || overwrite then (head.len : Int) - c.len else 0) +
    ((mids.map fun fb => fb.state.len).sum : Nat) + (if mergeLast then (last.text.length : Int) else 0)
  (s.updateDocument { c.document with
      blockCount := c.document.blockCount + added
      characterCount := c.document.characterCount + chars },
    ⟨if skip then running - 1 else if mergeLast then running + last.text.length else running, added⟩)

/-- A fragment of one formatted paragraph, pasted at the start of a paragraph,
insert_fragment_uc.rs L2131-L2280.  The length of the tail is read before its text reaches the rope
(L2196). -/
def pasteOver (s : Store) (c : PasteAt) (fb : FragBlock) : Option (Store × PasteResult) :=
  (s.newList c.did fb.list).bind fun (s, list) =>
  let s := s.putBlock
    { fb.format with id := c.cur.id, list := list, documentPosition := c.cur.documentPosition }
  let s := s.writeState c.cur.id (fragState fb).1 (fragState fb).2
  let running := c.cur.documentPosition + fb.state.len + 1
  let skip := decide (c.after = []) && decide (c.right.imgs = [])
  (if skip then some (s, [], running, 0) else
    (s.createBlock (tailBlock c true running) c.fid ((c.index + 1 : Nat) : Int)).bind fun (new, s) =>
    (blockCharLength s.text new).map fun (len : Nat) =>
      ((s.writeState new c.right.runs c.right.imgs).placeChildren c [new], [(new, c.after)],
        running + len + 1, (1 : Int))).bind fun (s, pay, running, added) =>
  (ropePaste s.text c.cur.id 0 c.after fb.text pay).map fun r =>
  let s := s.withText r
  let s := s.shiftStored (c.blocks.drop (c.index + 1)) (running - (c.cur.documentPosition + c.len + 1))
  (s.updateDocument { c.document with
      blockCount := c.document.blockCount + added
      characterCount := c.document.characterCount + (fb.state.len - c.len) },
    ⟨c.cur.documentPosition + fb.state.len, added⟩)

/-- A fragment of one formatted paragraph, pasted inside a paragraph, insert_fragment_uc.rs
L2281-L2446.  The position after the head is computed from the rope before it is changed (L2293). -/
def pasteBetween (s : Store) (c : PasteAt) (fb : FragBlock) : Option (Store × PasteResult) :=
  let s := (s.updateBlock c.cur).writeState c.cur.id c.left.runs c.left.imgs
  (blockCharLength s.text c.cur.id).bind fun (len : Nat) =>
  let running := c.cur.documentPosition + len + 1
  (s.newList c.did fb.list).bind fun (s, list) =>
  (s.createBlock { fb.format with id := 0, list := list, documentPosition := running } c.fid
    ((c.index + 1 : Nat) : Int)).bind fun (new, s) =>
  let s := s.writeState new (fragState fb).1 (fragState fb).2
  let running := running + fb.state.len + 1
  (s.addTail c false (c.index + 2) running c.right).bind fun (s, tail) =>
  let s := s.placeChildren c [new, tail]
  let s := s.shiftStored (c.blocks.drop (c.index + 1))
    (running + c.right.len + 1 - (c.cur.documentPosition + c.len + 1))
  let s := s.updateDocument { c.document with
    blockCount := c.document.blockCount + 2
    characterCount := c.document.characterCount + fb.state.len }
  (ropePaste s.text c.cur.id c.off c.after [] [(new, fb.text), (tail, c.after)]).map fun r =>
  (s.withText r, ⟨running, 1⟩)

/-- The paste proper. -/
def pasteFragment (s : Store) (c : PasteAt) (position : Int) : List FragBlock → Option (Store × PasteResult)
  | [] => none
  | [fb] =>
    if fb.inlineOnly then s.pasteInline c position fb
    else if c.before = [] then s.pasteOver c fb
    else s.pasteBetween c fb
  | first :: second :: rest =>
    s.pasteMany c first ((second :: rest).getLast (by simp)) (first :: second :: rest)

/-- `execute_insert_fragment` for a fragment without tables, insert_fragment_uc.rs L1506-L2446: the
store, the result, and the snapshot for undo.  `redo` runs it again. -/
def insertFragment (s : Store) (position anchor : Int) (fbs : List FragBlock) :
    Option (Store × PasteResult × Snapshot) :=
  if fbs = [] then none
  else
    s.docId.bind fun did =>
    (s.documents did).bind fun document =>
    let snap := s.snapshot
    if position ≠ anchor then none
    else
      (s.docFrames did).head?.bind fun root =>
      (s.blocksBelow (s.frames.len + 1) root).bind fun pairs =>
      (s.flowIds root).bind fun ids =>
      let blocks := sortByKey Block.documentPosition (s.getBlocks ids)
      (s.findBlockAtPosition blocks position).bind fun (cur, i, offset) =>
      let fid := (((pairs.reverse.find? fun e => e.1 == cur.id).map Prod.snd)).getD root
      (s.frames fid).bind fun frame =>
      (blockContent s.text cur.id).bind fun content =>
      let off := logicalOffsetToByte content (s.imagesOf cur.id) offset
      (splitAtByte content off).bind fun (before, after) =>
      (s.pasteFragment ⟨did, document, fid, frame, blocks, cur, i, off, s.runsOf cur.id, s.imagesOf cur.id,
        before, after⟩ position fbs).map fun (s, r) => (s, r, snap)

/-- `undo`, insert_fragment_uc.rs L2482-L2496. -/
def undoPaste (s : Store) (snap : Snapshot) : Store := s.restoreUndo snap

end Store
end Verif
