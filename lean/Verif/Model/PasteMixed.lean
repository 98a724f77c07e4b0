import Verif.Model.PasteTable
import Verif.Model.InsertMarkup
/-
Pasting a fragment with paragraphs and tables: `insert_mixed_fragment`, document_editing/src/use_cases/insert_fragment_uc.rs
L776-L1476.  Clock stamps and events are left out; `none` is an error or a panic.  Line numbers are those of this file.
-/
namespace Verif
namespace Store

/-- `FragItem`, L875-L878. -/
inductive MixItem where
  | para (fb : FragBlock)
  | table (t : FragTable)
deriving DecidableEq, Repr

/-- The loop that puts paragraphs and tables in order, L883-L901; `n` is `blk_cursor`, `fbs` the paragraphs from there. -/
def mixOrder : List FragTable → Nat → List FragBlock → List MixItem
  | [], _, fbs => fbs.map .para
  | t :: ts, n, fbs => (fbs.take (t.index - n)).map .para ++
    .table t :: mixOrder ts (n + (fbs.take (t.index - n)).length) (fbs.drop (t.index - n))

/-- The items of a fragment, L880-L901: the tables by their index, which is the number of paragraphs in front. -/
def mixItems (fbs : List FragBlock) (ts : List FragTable) : List MixItem :=
  mixOrder (sortByKey (fun t : FragTable => (t.index : Int)) ts) 0 fbs

/-- A paragraph without paragraph formats, L903-L905. -/
def MixItem.inline : MixItem → Bool
  | .para fb => fb.inlineOnly
  | .table _ => false

/-- The paragraph of an item, L909-L916. -/
def MixItem.block? : MixItem → Option FragBlock
  | .para fb => some fb
  | .table _ => none

/-- What the loop over the items carries along, L986-L1021: the list grouper, the next position, the place in the text behind
what is there already, the last paragraph and whether it has text. -/
structure MixAt where
  grouper : ListGrouper
  running : Int
  next : Option Nat
  last : Nat
  filled : Bool

/-- A paragraph of the fragment, L1031-L1117: it becomes a paragraph of its own. -/
def mixBlock (did fid : Nat) (fb : FragBlock) (m : MixAt) (s : Store) : Option (Store × MixAt × List Int) :=
  (s.chooseList did m.grouper fb.list).bind fun (s, g, list) =>
  (s.createBlock { fb.format with id := 0, list := list, documentPosition := m.running } fid (-1)).bind fun (new, s) =>
  let s := s.writeState new (fragState fb).1 (fragState fb).2
  let running := m.running + fb.state.len + 1
  match m.next with
  | none => some (s, ⟨g, running, none, m.last, m.filled⟩, [(new : Int)])
  | some pos => (ropeInsertBlockAt s.text pos new fb.text).map fun st =>
    (s.withText st, ⟨g, running, some (pos + 1 + utf8Len fb.text), new, !decide (fb.text = [])⟩, [(new : Int)])

/-- The anchor goes to the end of the order of the frame, L1235-L1254, so that the frame reaches over the table. -/
def pushAnchor (fid a : Nat) (s : Store) : Option Store :=
  (s.frames fid).map fun parent =>
    if (-(a : Int)) ∈ parent.childOrder then s
    else s.updateFrame { parent with childOrder := parent.childOrder ++ [-(a : Int)] }

/-- A table of the fragment, L1118-L1301; `cur` is the paragraph with the caret. -/
def mixTable (did fid cur : Nat) (t : FragTable) (m : MixAt) (s : Store) : Option (Store × MixAt × List Int) :=
  if t.void then some (s, m, [])
  else
    (pasteTable did fid t m.running s).bind fun (tid, a, cells, next, s) =>
    (pushAnchor fid a s).bind fun s =>
    match m.next with
    | none => some (s, { m with running := next }, [-(a : Int)])
    | some _ =>
      (ropeTable fid s (tid, m.last, decide (m.last ≠ cur) || m.filled, cells)).bind fun s =>
      (s.topLevelFrameEnd fid).map fun stop => (s, { m with running := next, next := some stop }, [-(a : Int)])

/-- The loop over the items, L1023-L1303; the entries are for the order of the frame. -/
def mixLoop (did fid cur : Nat) : List MixItem → MixAt → Store → Option (Store × MixAt × List Int)
  | [], m, s => some (s, m, [])
  | .para fb :: l, m, s =>
    (mixBlock did fid fb m s).bind fun (s, m, e) => (mixLoop did fid cur l m s).map fun (s, m, es) => (s, m, e ++ es)
  | .table t :: l, m, s =>
    (mixTable did fid cur t m s).bind fun (s, m, e) => (mixLoop did fid cur l m s).map fun (s, m, es) => (s, m, e ++ es)

/-- The paragraph with the caret takes the format of the first one, or keeps its own, L935-L972: a list is always a new
one. -/
def mixHead (s : Store) (c : PasteAt) : Option FragBlock → Option Store
  | none => some (s.updateBlock c.cur)
  | some fb => (s.newList c.did fb.list).map fun (s, list) =>
    s.putBlock { fb.format with id := c.cur.id, list := list, documentPosition := c.cur.documentPosition }

/-- What is in the paragraph with the caret then, L909-L932. -/
def mixHeadState (left : ParaState) (mergeFirst overwrite : Bool) : Option FragBlock → ParaState
  | none => left
  | some fb => headState left mergeFirst overwrite fb

/-- The rest of the paragraph, L1317-L1413: a block at the end of the frame's list. -/
def mixTail (s : Store) (c : PasteAt) (plain : Bool) (m : MixAt) : Option ParaState → Option (Store × List Int)
  | none => some (s, [])
  | some tail =>
    (s.createBlock (tailBlock c plain m.running) c.fid (-1)).bind fun (new, s) =>
    let s := s.writeState new tail.runs tail.imgs
    match m.next with
    | none => some (s, [(new : Int)])
    | some pos => (ropeInsertBlockAt s.text pos new tail.text).map fun st => (s.withText st, [(new : Int)])

/-- The new entries enter the order of the frame, L1419-L1429, as it was before the paste. -/
def placeEntries (s : Store) (c : PasteAt) (es : List Int) : Store :=
  let at_ := min (c.index + 1) c.frame.childOrder.length
  s.updateFrame { c.frame with childOrder := c.frame.childOrder.take at_ ++ es ++ c.frame.childOrder.drop at_ }

/-- The paragraphs of the items. -/
def mixBlocks (l : List MixItem) : List FragBlock := l.filterMap MixItem.block?

/-- The tables of the items. -/
def mixTables : List MixItem → List FragTable
  | [] => []
  | .para _ :: l => mixTables l
  | .table t :: l => t :: mixTables l

/-- `insert_mixed_fragment`, L903-L1476.  (`last` is the last paragraph of the fragment.) -/
def pasteMixed (s : Store) (c : PasteAt) (items : List MixItem) (blocks : Nat) (last : FragBlock) : Option (Store × PasteResult) :=
  let mergeFirst := (items.head?.map MixItem.inline).getD false
  let mergeLast := decide (2 ≤ blocks) && (items.getLast?.map MixItem.inline).getD false
  let first := items.head?.bind MixItem.block?
  let overwrite := decide (c.before = []) && !mergeFirst && first.isSome
  let head := mixHeadState c.left mergeFirst overwrite first
  (s.mixHead c (if overwrite then first else none)).bind fun s =>
  let s := s.writeState c.cur.id head.runs head.imgs
  (ropeHeadText s.text c.cur.id head.text).bind fun (st, next) =>
  let s := s.withText st
  (blockCharLength s.text c.cur.id).bind fun (len : Nat) =>
  let mids := if mergeFirst || overwrite then items.tail else items
  let mids := if mergeLast then mids.dropLast else mids
  (mixLoop c.did c.fid c.cur.id mids ⟨if overwrite then [] else s.primedGrouper c.cur, c.cur.documentPosition + len + 1, next,
     c.cur.id, !decide (head.text = [])⟩ s).bind fun (s, m, entries) =>
  let tail := tailState c.right mergeLast last
  let skip := decide (tail.text = []) && !mergeLast && decide (c.right.imgs = [])
  (s.mixTail c overwrite m (if skip then none else some tail)).map fun (s, e) =>
  let s := s.placeEntries c (entries ++ e)
  let newNext := if skip then m.running else m.running + tail.len + 1
  let s := s.shiftStored (c.blocks.drop (c.index + 1)) (newNext - (c.cur.documentPosition + c.len + 1))
  let added := (((mixBlocks mids).length + (tablesSize (mixTables mids)).1 : Nat) : Int) + (if skip then 0 else 1)
  let chars := (if mergeFirst || overwrite then (len : Int) - c.len else 0) +
    ((((mixBlocks mids).map fun fb => fb.state.len).sum + (tablesSize (mixTables mids)).2 : Nat) : Int) +
    (if mergeLast then (last.text.length : Int) else 0)
  (s.updateDocument { c.document with
      blockCount := c.document.blockCount + added
      characterCount := c.document.characterCount + chars },
    ⟨if skip then m.running - 1 else if mergeLast then m.running + last.text.length else m.running, added⟩)

/-- `insert_mixed_fragment`, L776-L1476, for a fragment with paragraphs and tables (L1526-L1528): the store, the result, and the
snapshot for undo.  `redo` runs it again. -/
def insertMixed (s : Store) (position anchor : Int) (fbs : List FragBlock) (ts : List FragTable) :
    Option (Store × PasteResult × Snapshot) :=
  match ts, fbs.getLast? with
  | [], _ => none
  | _, none => none
  | _ :: _, some last =>
    s.docId.bind fun did =>
    (s.documents did).bind fun document =>
    let snap := s.snapshot
    if position ≠ anchor then none
    else
      (s.docFrames did).head?.bind fun root =>
      (s.blocksBelow (s.frames.len + 1) root).bind fun pairs =>
      (s.flowIds root).bind fun ids =>
      let blocks := sortByKey Block.documentPosition (s.getBlocks ids)
      (s.findBlockAtPosition blocks position).bind fun (cur, i, offset) =>
      let fid := (((pairs.reverse.find? fun e => e.1 == cur.id).map Prod.snd)).getD root
      (s.frames fid).bind fun frame =>
      (blockContent s.text cur.id).bind fun content =>
      let off := logicalOffsetToByte content (s.imagesOf cur.id) offset
      (splitAtByte content off).bind fun (before, after) =>
      (s.pasteMixed ⟨did, document, fid, frame, blocks, cur, i, off, s.runsOf cur.id, s.imagesOf cur.id,
        before, after⟩ (mixItems fbs ts) fbs.length last).map fun (s, r) => (s, r, snap)

end Store
end Verif
