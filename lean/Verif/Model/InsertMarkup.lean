import Verif.Model.Clipboard
import Verif.Model.ImportMarkup
/-
Inserting Markdown or HTML at a position, once it is parsed:
document_editing/src/use_cases/{insert_markdown_at_position,insert_html_at_position}_uc.rs (cited as `md` and
`html`).  The two use cases are near copies of each other, and their branches for one formatted block repeat the one for
several blocks; here they share `insertBlocks`, and what differs is given by its arguments.  Clock stamps and events are
left out; `none` is an error or a panic; `i64` and `u32` arithmetic does not overflow.
-/
namespace Verif

/-- `is_inline_only`, content_parser.rs L107-L117. -/
def ParsedBlock.inlineOnly (b : ParsedBlock) : Bool :=
  b.headingLevel.isNone && b.listStyle.isNone && !b.isCodeBlock && decide (b.quoteDepth = 0) &&
  b.lineHeight.isNone && b.nonBreakableLines.isNone && b.direction.isNone && b.backgroundColor.isNone

/-- `flatten_to_blocks`, content_parser.rs L40-L85: a cell becomes a block, and nothing at all an empty block. -/
def flattenToBlocks (es : List ParsedElement) : List ParsedBlock :=
  match es.flatMap fun
    | .block b => [b]
    | .table rows => rows.flatten.map fun spans => { spans := spans } with
  | [] => [{ spans := [{ text := [] }] }]
  | b :: bs => b :: bs

namespace Store

/-- `parsed_block_payload`, md L79-L83, html L80-L82, as the state of a paragraph. -/
def parsedState (b : ParsedBlock) : ParaState :=
  ⟨(formatRunsFromSpans b.isCodeBlock b.spans).1, (formatRunsFromSpans b.isCodeBlock b.spans).2, []⟩

/-- The list a block asks for, e.g. md L307-L327. -/
def parsedList (b : ParsedBlock) : Option FragList :=
  b.listStyle.map fun style => { style := style, indent := (b.listIndent : Int) }

/-- The new block, md L329-L351 and L532-L554, html L385-L407 and L810-L832: the Markdown command leaves four fields out,
and neither keeps what makes a code block. -/
def insertedBlock (html : Bool) (b : ParsedBlock) (list : Option Nat) (pos : Int) : Block :=
  { documentPosition := pos
    list := list
    fmtHeadingLevel := b.headingLevel
    fmtLineHeight := if html then b.lineHeight else none
    fmtNonBreakableLines := if html then b.nonBreakableLines else none
    fmtDirection := if html then b.direction else none
    fmtBackgroundColor := if html then b.backgroundColor else none }

/-- The current block with the format of a parsed one, html L288-L295 and L646-L654. -/
def overBlock (cur : Block) (b : ParsedBlock) (list : Option Nat) : Block :=
  { cur with
    list := list
    fmtHeadingLevel := b.headingLevel
    fmtLineHeight := b.lineHeight
    fmtNonBreakableLines := b.nonBreakableLines
    fmtDirection := b.direction
    fmtBackgroundColor := b.backgroundColor }

/-- The loop over the blocks that become blocks of their own, md L302-L367, html L359-L424, without the text: the store, the
new blocks with their text, and the running position. -/
def addParsedBlocks (html : Bool) (did fid : Nat) : List ParsedBlock → Nat → Int → ListGrouper → Store →
    Option (Store × List (Nat × List Char) × Int)
  | [], _, running, _, s => some (s, [], running)
  | b :: bs, index, running, g, s =>
    (s.chooseList did g (parsedList b)).bind fun (s, g, list) =>
    (s.createBlock (insertedBlock html b list running) fid (index : Int)).bind fun (new, s) =>
    let s := s.writeState new (parsedState b).runs []
    (addParsedBlocks html did fid bs (index + 1) (running + ((parsedState b).text.length + 1 : Nat)) g s).map
      fun (s, pay, running) => (s, (new, (parsedState b).text) :: pay, running)

/-- The text of the current block is replaced, md L279-L288 and L502-L511, html L331-L340, L663-L672 and L780-L789: the text, and where it ends, if the
block is in the text at all. -/
def ropeHeadText (st : RopeSt) (cur : Nat) (text : List Char) : Option (RopeSt × Option Nat) :=
  (st.idx.rangeOf (.block cur)).bind fun
    | none => some (st, none)
    | some (start, _) => (ropeReplaceBlockContent st cur text).map fun st => (st, some (start + utf8Len text))

/-- The new blocks enter the text one after the other, md L357-L362 and L437-L440, html L413-L419 and L568-L571. -/
def ropeAddAt : List (Nat × List Char) → Option Nat → RopeSt → Option RopeSt
  | [], _, st => some st
  | _, none, st => some st
  | (new, text) :: l, some pos, st =>
    (ropeInsertBlockAt st pos new text).bind fun st => ropeAddAt l (some (pos + 1 + utf8Len text)) st

/-- The list grouper at the start, html L247-L257: it knows the list of the current block. -/
def primedGrouper (s : Store) (cur : Block) : ListGrouper :=
  match cur.list with
  | none => []
  | some l => match s.lists l with
    | none => []
    | some e => ListGrouper.register [] l e.style (toU32 e.indent)

/-- The current block takes the format of `over`, html L260-L298 and L629-L655; or it is left, md L249-L272 and L491-L495, html
L299-L321 and L764-L772. -/
def insertHead (s : Store) (c : PasteAt) (over : Option ParsedBlock) (g : ListGrouper) : Option (Store × ListGrouper) :=
  match over with
  | some b => (s.chooseList c.did [] (parsedList b)).map fun (s, g, list) => (s.putBlock (overBlock c.cur b list), g)
  | none => some (s, g)

/-- The rest of the current block becomes a block, md L405-L440 and L567-L597, html L469-L575, L678-L717 and L846-L881, without
the text; or not (`none`). -/
def insertTail (s : Store) (c : PasteAt) (plain : Bool) (index : Nat) (running : Int) :
    Option ParaState → Option (Store × List (Nat × List Char))
  | none => some (s, [])
  | some t => (s.addTail c plain index running t).map fun (s, id) => (s, [(id, t.text)])

/-- The position behind the rest of the current block, md L459 and L614, html L574, L716 and L899. -/
def afterTail (st : RopeSt) (running : Int) : List (Nat × List Char) → Option Int
  | [] => some running
  | (id, _) :: _ => (blockCharLength st id).map fun (n : Nat) => running + n + 1

/-- The branches that make blocks, md L238-L484 and L485-L635, html L232-L619 and L620-L921, without the counts: the current
block gets the text and formats of `head` (and the format of `over`), then come the blocks `mids` and, unless `tail` is
`none`, the rest of the current block.  The result: the store, the length of the head and the position behind the
blocks `mids`.  (In the branches for one block the list is made without a list grouper; an empty one makes it too.
Without new blocks html L719-L731 does not write the frame; here it is written as it was.) -/
def insertBlocks (html : Bool) (s : Store) (c : PasteAt) (over : Option ParsedBlock) (g : ListGrouper) (head : ParaState)
    (mids : List ParsedBlock) (tail : Option ParaState) : Option (Store × Nat × Int) :=
  (s.insertHead c over g).bind fun (s, g) =>
  let s := s.writeState c.cur.id head.runs head.imgs
  (ropeHeadText s.text c.cur.id head.text).bind fun (st, next) =>
  (blockCharLength st c.cur.id).bind fun (len : Nat) =>
  (addParsedBlocks html c.did c.fid mids (c.index + 1) (c.cur.documentPosition + len + 1) g s).bind
    fun (s, pay, running) =>
  (s.insertTail c over.isSome (c.index + 1 + pay.length) running tail).bind fun (s, extra) =>
  (ropeAddAt (pay ++ extra) next st).bind fun st =>
  (afterTail st running extra).map fun after =>
  let s := (s.placeChildren c ((pay ++ extra).map Prod.fst)).withText st
  (s.shiftStored (c.blocks.drop (c.index + 1)) (after - (c.cur.documentPosition + c.len + 1)), len, running)

/-- The inline merge, md L157-L227, html L158-L219. -/
def insertInline (s : Store) (c : PasteAt) (position : Int) (b : ParsedBlock) : Option (Store × PasteResult) :=
  let x := parsedState b
  let n := utf8Len x.text
  if x.text.length = 0 then some (s, ⟨position, 0⟩)
  else
    let runs := coalesce (spliceRange (shiftRunsForInsert c.runs c.off n) c.off (c.off + n) (moveRuns c.off x.runs))
    let s := (s.updateBlock c.cur).writeState c.cur.id runs (shiftImagesForInsert c.imgs c.off n)
    (ropeInsertInBlock s.text c.cur.id c.off x.text).map fun r =>
    let s := (s.withText r).shiftStored (c.blocks.drop (c.index + 1)) x.text.length
    (s.updateDocument { c.document with characterCount := c.document.characterCount + x.text.length },
      ⟨position + x.text.length, 0⟩)

/-- The blocks between a merged first and a merged last block, md L295-L300, html L352-L357. -/
def midsOf (dropFirst dropLast : Bool) (bs : List ParsedBlock) : List ParsedBlock :=
  let bs := if dropFirst then bs.tail else bs
  if dropLast then bs.dropLast else bs

/-- Several blocks of Markdown, md L238-L484. -/
def insertManyMd (s : Store) (c : PasteAt) (first last : ParsedBlock) (bs : List ParsedBlock) :
    Option (Store × PasteResult) :=
  let mergeFirst := first.inlineOnly
  let mergeLast := last.inlineOnly
  let head := if mergeFirst then c.left.append (parsedState first) else c.left
  let tail := if mergeLast then (parsedState last).append c.right else c.right
  let mids := midsOf mergeFirst mergeLast bs
  (s.insertBlocks false c none [] head mids (some tail)).map fun (s, _, running) =>
  let chars := (if mergeFirst then (parsedState first).text.length else 0) +
    (mids.map fun b => (parsedState b).text.length).sum + (if mergeLast then (parsedState last).text.length else 0)
  (s.updateDocument { c.document with
      blockCount := c.document.blockCount + (mids.length + 1 : Nat)
      characterCount := c.document.characterCount + (chars : Nat) },
    ⟨if mergeLast then running + (parsedState last).text.length else running, (mids.length + 1 : Nat)⟩)

/-- One formatted block behind the text before the caret, md L485-L635, html L762-L920. -/
def insertBetween (html : Bool) (s : Store) (c : PasteAt) (b : ParsedBlock) : Option (Store × PasteResult) :=
  (s.insertBlocks html c none [] c.left [b] (some c.right)).map fun (s, _, running) =>
  (s.updateDocument { c.document with
      blockCount := c.document.blockCount + 2
      characterCount := c.document.characterCount + (parsedState b).text.length },
    ⟨running, 1⟩)

/-- Several blocks of HTML, html L232-L619. -/
def insertManyHtml (s : Store) (c : PasteAt) (first last : ParsedBlock) (bs : List ParsedBlock) :
    Option (Store × PasteResult) :=
  let mergeFirst := first.inlineOnly
  let mergeLast := last.inlineOnly
  let over := decide (c.before = []) && !mergeFirst
  let head := if over then parsedState first
    else if mergeFirst then c.left.append (parsedState first) else c.left
  let tail := if mergeLast then (parsedState last).append c.right else c.right
  let skip := decide (tail.text = []) && !mergeLast && decide (c.right.imgs = [])
  let mids := midsOf (mergeFirst || over) mergeLast bs
  (s.insertBlocks true c (if over then some first else none) (s.primedGrouper c.cur) head mids
    (if skip then none else some tail)).map fun (s, len, running) =>
  let added := (mids.length : Int) + (if skip then 0 else 1)
  let chars := (if mergeFirst || over then (len : Int) - c.len else 0) +
    ((mids.map fun b => (parsedState b).text.length).sum : Nat) +
    (if mergeLast then ((parsedState last).text.length : Int) else 0)
  (s.updateDocument { c.document with
      blockCount := c.document.blockCount + added
      characterCount := c.document.characterCount + chars },
    ⟨if skip then running - 1 else if mergeLast then running + (parsedState last).text.length else running, added⟩)

/-- One formatted block of HTML at the start of a block, html L629-L761. -/
def insertOver (s : Store) (c : PasteAt) (b : ParsedBlock) : Option (Store × PasteResult) :=
  let skip := decide (c.after = []) && decide (c.right.imgs = [])
  (s.insertBlocks true c (some b) [] (parsedState b) [] (if skip then none else some c.right)).map
    fun (s, len, _) =>
  (s.updateDocument { c.document with
      blockCount := c.document.blockCount + (if skip then 0 else 1)
      characterCount := c.document.characterCount + ((len : Int) - c.len) },
    ⟨c.cur.documentPosition + len, if skip then 0 else 1⟩)

/-- The branches of `execute_content_insert`, md L157-L635, html L158-L921; without blocks it panics. -/
def insertParsed (html : Bool) (s : Store) (c : PasteAt) (position : Int) :
    List ParsedBlock → Option (Store × PasteResult)
  | [] => none
  | [b] =>
    if b.inlineOnly then s.insertInline c position b
    else if html ∧ c.before = [] then s.insertOver c b
    else s.insertBetween html c b
  | first :: second :: rest =>
    let last := (second :: rest).getLast (by simp)
    if html then s.insertManyHtml c first last (first :: second :: rest)
    else s.insertManyMd c first last (first :: second :: rest)

/-- `execute_insert_markdown` and `execute_insert_html` from the parsed elements on, md L85-L156 and L638-L653, html
L84-L157 and L924-L938: the store, the result, and the snapshot for undo.  `redo` runs it again. -/
def insertMarkup (html : Bool) (s : Store) (position anchor : Int) (es : List ParsedElement) :
    Option (Store × PasteResult × Snapshot) :=
  s.docId.bind fun did =>
  (s.documents did).bind fun document =>
  let snap := s.snapshot
  if position ≠ anchor then none
  else
    (s.docFrames did).head?.bind fun fid =>
    (s.frames fid).bind fun frame =>
    let blocks := sortByKey Block.documentPosition (s.getBlocks (s.frameBlocks fid))
    (s.findBlockAtPosition blocks position).bind fun (cur, i, offset) =>
    (blockContent s.text cur.id).bind fun content =>
    let off := logicalOffsetToByte content (s.imagesOf cur.id) offset
    (splitAtByte content off).bind fun (before, after) =>
    (s.insertParsed html ⟨did, document, fid, frame, blocks, cur, i, off, s.runsOf cur.id, s.imagesOf cur.id,
      before, after⟩ position (flattenToBlocks es)).map fun (s, r) => (s, r, snap)

end Store
end Verif
