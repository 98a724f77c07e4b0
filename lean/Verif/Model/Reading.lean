import Verif.Model.Cursor
import Verif.Model.Lists
/-
What a program reads of a document: block handles, the flow and snapshots.  public_api/src/text_block.rs,
text_frame.rs, document.rs L401-L668, inner.rs L435-L464.
Simplifications: no syntax highlighter is attached (C42 is about merging its spans); formats of blocks are
`BlockFormat::from` of the entity, those of frames, tables and cells are the entities themselves; `none` is a panic,
`to_usize` of a negative number, an assertion, is 0; the `child_order` fallback of the flow is not modelled: a frame
with an empty `child_order` gives an empty flow here.
-/
namespace Verif
namespace Store

/-- `refresh_block_position(s)`, inner.rs L435-L464: the position of a block as the text store has it. -/
def refreshBlock (s : Store) (b : Block) : Block :=
  if ropePositionsMatchFlow s.text s.blocks.len then
    match s.text.idx.rangeOf (.block b.id) with
    | some (some (bs, _)) => { b with documentPosition := ((byteToChar s.rope bs).map Int.ofNat).getD b.documentPosition }
    | _ => b
  else b

/-- `get_all_block`, refreshed and sorted, e.g. document.rs L600-L604. -/
def allSorted (s : Store) : List Block :=
  sortByKey Block.documentPosition ((s.getBlocks s.blocks.keys).map s.refreshBlock)

/-- `TextDocument::blocks`, document.rs L598-L612: the ids of the handles. -/
def blockIds (s : Store) : List Nat := s.allSorted.map Block.id

/-- `block_by_number`, document.rs L577-L591. -/
def blockByNumber (s : Store) (n : Nat) : Option Nat := s.allSorted[n]?.map Block.id

/-- `block_by_id`, document.rs L495-L510, and `TextBlock::is_valid`, text_block.rs L79-L85. -/
def blockValid (s : Store) (id : Nat) : Bool := (s.blocks id).isSome

/-- `TextBlock::block_number`, text_block.rs L113-L116, L434-L441. -/
def numberOf (s : Store) (id : Nat) : Nat := (s.allSorted.findIdx? fun b => b.id == id).getD 0

/-- `TextBlock::next`, text_block.rs L120-L132. -/
def blockAfter (s : Store) (id : Nat) : Option Nat :=
  (s.allSorted.findIdx? fun b => b.id == id).bind fun i => s.allSorted[i + 1]?.map Block.id

/-- `TextBlock::previous`, text_block.rs L136-L151. -/
def blockBefore (s : Store) (id : Nat) : Option Nat :=
  (s.allSorted.findIdx? fun b => b.id == id).bind fun i =>
    if i = 0 then none else s.allSorted[i - 1]?.map Block.id

/-- `blocks_in_range`, document.rs L621-L657. -/
def blocksInRange (s : Store) (position length : Nat) : Option (List Nat) :=
  (mapOpt (fun b : Block => (blockCharLength s.text b.id).map fun (len : Nat) =>
    let lo := b.documentPosition.toNat
    let hi := lo + len
    (b.id, if length = 0 then decide (lo ≤ position ∧ position < hi)
      else decide (lo < position + length ∧ position < hi))) s.allSorted).map fun l =>
    (l.filter Prod.snd).map Prod.fst

/-- `TextBlock::text`, text_block.rs L35-L46. -/
def blockText (s : Store) (id : Nat) : Option (List Char) :=
  match s.blocks id with
  | none => some []
  | some b => blockContent s.text b.id

/-- `TextBlock::is_empty`, text_block.rs L65-L76. -/
def blockIsEmpty (s : Store) (id : Nat) : Option Bool :=
  match s.blocks id with
  | none => some true
  | some b => (blockCharLength s.text b.id).map fun n => decide (n = 0)

/-- `TextBlock::block_format`, text_block.rs L241-L248. -/
def blockFormatOf (s : Store) (id : Nat) : BlockFormat := ((s.blocks id).map BlockFormat.ofBlock).getD {}

/-- `build_raw_fragments`, text_block.rs L485-L731, of a block of the store. -/
def fragmentsOf (s : Store) (id : Nat) : Option (List (Frag CharFormat)) :=
  match s.blocks id with
  | none => some []
  | some b => (blockContent s.text b.id).bind fun plain =>
      buildRawFragments {} plain ((s.formatRuns id).getD []) ((s.blockImages id).getD [])

/-- The loop of `char_format_at`, text_block.rs L259-L281. -/
def fragFormatAt (offset : Nat) : List (Frag CharFormat) → Option CharFormat
  | [] => none
  | .text _ fmt o n _ :: fs => if offset ≥ o ∧ offset < o + n then some fmt else fragFormatAt offset fs
  | .image i o :: fs => if offset = o then some i.fmt else fragFormatAt offset fs

/-- `TextBlock::char_format_at`, text_block.rs L256-L283. -/
def blockCharFormat (s : Store) (id offset : Nat) : Option (Option CharFormat) :=
  (s.fragmentsOf id).map (fragFormatAt offset)

/-- The loop of `find_element_at_position`, document.rs L417-L447: byte of the fragment, its start and the offset in
it; `last` is the fragment that ends at the position. -/
def fragElement (start offset : Nat) : Option (Nat × Nat × Nat) → List (Frag CharFormat) → Option (Nat × Nat × Nat)
  | last, [] => last
  | last, .text _ _ o n byte :: fs =>
    if offset ≥ o ∧ offset < o + n then some (byte, start + o, offset - o)
    else fragElement start offset (if offset = o + n then some (byte, start + o, n) else last) fs
  | last, .image i o :: fs => if offset = o then some (i.off, start + o, 0) else fragElement start offset last fs

/-- `find_element_at_position`, document.rs L401-L449; the element id is `synth_element_id` of block and byte. -/
def elementAt (s : Store) (position : Nat) : Option (Nat × Nat × Nat) :=
  (s.blockAt position).bind fun i =>
  if position < i.start.toNat then none
  else (s.fragmentsOf i.blockId).bind fun fs =>
    (fragElement i.start.toNat (position - i.start.toNat) none fs).map fun r => (synthElementId i.blockId r.1, r.2)

/-- `ListInfo`, flow.rs. -/
structure ListInfo where
  listId : Nat
  style : ListStyle
  indent : UInt8
  marker : List Char
  itemIndex : Nat
deriving DecidableEq

/-- `compute_list_item_index`, text_block.rs L766-L779. -/
def listIndexOf (s : Store) (list id : Nat) : Nat :=
  listItemIndex ((s.getBlocks s.blocks.keys).map s.refreshBlock) list id

/-- `build_list_info`, text_block.rs L843-L862. -/
def listInfoOf (s : Store) (b : Block) : Option ListInfo :=
  b.list.bind fun l => (s.lists l).map fun (tl : TList) =>
    ⟨l, tl.style, intToU8 tl.indent, formatListMarker tl (s.listIndexOf l b.id), s.listIndexOf l b.id⟩

/-- `BlockSnapshot`, flow.rs L104-L121. -/
structure BlockSnap where
  blockId : Nat
  position : Nat
  length : Nat
  text : List Char
  fragments : List (Frag CharFormat)
  format : BlockFormat
  listInfo : Option ListInfo
  parentFrame : Option Nat
  tableCell : Option (Nat × Int × Int)
deriving DecidableEq

/-- `build_block_snapshot_with_position_and_parent`, text_block.rs L889-L933, for a block of the store.
`find_table_cell_context`, L375-L431, is `table_cell` with a shortcut for documents without tables. -/
def blockSnapOf (s : Store) (b : Block) (computed hint : Option Nat) : Option BlockSnap :=
  (blockContent s.text b.id).bind fun text =>
  (blockCharLength s.text b.id).bind fun len =>
  (buildRawFragments {} text ((s.formatRuns b.id).getD []) ((s.blockImages b.id).getD [])).map fun frags =>
    { blockId := b.id
      position := computed.getD (s.refreshBlock b).documentPosition.toNat
      length := len
      text := text
      fragments := frags
      format := .ofBlock b
      listInfo := s.listInfoOf b
      parentFrame := hint.or (s.parentFrame b.id)
      tableCell := if s.tables.keys = [] then none else s.tableCellOf b.id }

/-- The same for an id; the inner `none` says there is no such block. -/
def blockSnap (s : Store) (id : Nat) (computed hint : Option Nat) : Option (Option BlockSnap) :=
  match s.blocks id with
  | none => some none
  | some b => (s.blockSnapOf b computed hint).map some

/-- `TextBlock::snapshot`, text_block.rs L326-L339. -/
def blockSnapshot (s : Store) (id : Nat) : Option BlockSnap :=
  (s.blockSnap id none none).map fun o => o.getD ⟨id, 0, 0, [], [], {}, none, none, none⟩

/-- `CellSnapshot`, flow.rs, with the cell entity for its place, spans and format. -/
structure CellSnap where
  cell : TableCell
  blocks : List BlockSnap
deriving DecidableEq

/-- `FlowElementSnapshot`, flow.rs, with the entities of tables and frames for their sizes and formats. -/
inductive FlowSnap where
  | block (b : BlockSnap)
  | table (table : Table) (cells : List CellSnap)
  | frame (id : Nat) (frame : Frame) (elements : List FlowSnap)

/-- The loop of `build_blocks_snapshot_for_frame_with_positions`, text_block.rs L999-L1006. -/
def snapBlocks (s : Store) : List Block → Nat → Option (List BlockSnap × Nat)
  | [], pos => some ([], pos)
  | b :: bs, pos =>
    (s.blockSnapOf b (some pos) none).bind fun snap =>
    (s.snapBlocks bs (pos + snap.length + 1)).map fun r => (snap :: r.1, r.2)

/-- The cells of `build_table_snapshot_with_positions`, text_frame.rs L427-L453, with
`build_blocks_snapshot_for_frame_with_positions`, text_block.rs L972-L1007. -/
def snapCells (s : Store) : List TableCell → Nat → Option (List CellSnap × Nat)
  | [], pos => some ([], pos)
  | c :: cs, pos =>
    (match c.cellFrame.bind s.frames with
      | none => some ([], pos)
      | some f => s.snapBlocks (sortByKey Block.documentPosition ((s.getBlocks f.blocks).map s.refreshBlock)) pos).bind fun (r : List BlockSnap × Nat) =>
    (s.snapCells cs r.2).map fun (q : List CellSnap × Nat) => (⟨c, r.1⟩ :: q.1, q.2)

/-- One entry after the other, each one with the position where it starts. -/
def walkOrder (step : Int → Nat → Option (Option FlowSnap × Nat)) : List Int → Nat → Option (List FlowSnap × Nat)
  | [], pos => some ([], pos)
  | e :: es, pos => (step e pos).bind fun r => (walkOrder step es r.2).map fun q => (r.1.toList ++ q.1, q.2)

/-- `snapshot_from_child_order`, text_frame.rs L252-L305; `fuel` bounds the nesting. -/
def snapOrder (s : Store) : Nat → List Int → Nat → Nat → Option (List FlowSnap × Nat)
  | 0, _, _, _ => none
  | fuel + 1, order, start, parent =>
    walkOrder (fun e pos =>
      if e > 0 then
        (s.blockSnap e.toNat (some pos) (some parent)).map fun
          | none => (none, pos)
          | some snap => (some (.block snap), pos + snap.length + 1)
      else if e < 0 then
        match s.frames (-e).toNat with
        | none => some (none, pos)
        | some sub =>
          match sub.table with
          | some t =>
            match s.tables t with
            | none => some (none, pos)
            | some tb =>
              (s.snapCells (sortByKey TableCell.row (sortByKey TableCell.column (tb.cells.filterMap fun c => s.tableCells c))) pos).map
                fun r => (some (.table tb r.1), r.2)
          | none => (s.snapOrder fuel sub.childOrder pos (-e).toNat).map fun r => (some (.frame (-e).toNat sub r.1), r.2)
      else some (none, pos)) order start

/-- `build_flow_snapshot`, text_frame.rs L227-L246. -/
def flowSnapshot (s : Store) (frame : Nat) : Option (List FlowSnap) :=
  match s.frames frame with
  | none => some []
  | some fr => (s.snapOrder (s.frames.len + 1) fr.childOrder 0 frame).map Prod.fst

/-- `get_main_frame_id`, document.rs L1256-L1266. -/
def mainFrame (s : Store) : Nat := ((s.docId.bind fun d => (s.docFrames d).head?)).getD 0

/-- `TextDocument::snapshot_flow`, document.rs L663-L668. -/
def snapshotFlow (s : Store) : Option (List FlowSnap) := s.flowSnapshot s.mainFrame

/-- `TextDocument::flow`, document.rs L485-L489. -/
def flow (s : Store) : List FlowItem := ((s.frames s.mainFrame).map fun fr => s.flowItems fr.childOrder).getD []

/-- `collect_frame_block_ids`, document.rs L1199-L1254: missing frames, tables and cells are passed over.  `fuel`
bounds the nesting. -/
def collectFrameIds (s : Store) : Nat → Nat → Option (List Nat)
  | 0, _ => none
  | fuel + 1, fid =>
    (s.frames fid).map fun f =>
    if f.childOrder = [] then f.blocks
    else f.childOrder.flatMap fun (e : Int) =>
      if e > 0 then [e.toNat]
      else if e < 0 then
        match s.frames (-e).toNat with
        | none => []
        | some sub => match sub.table with
          | some t => (s.tableCellFrames t).flatMap fun cf => (s.collectFrameIds fuel cf).getD []
          | none => (s.collectFrameIds fuel (-e).toNat).getD []
      else []

/-- The walk of `snapshot_block_at_position`, document.rs L528-L546; the inner `none` says that the position is
beyond the last block.  For a missing block the code returns `None`; that is the outer `none` here. -/
def snapWalk (s : Store) (position : Nat) : List Nat → Nat → Option (Option BlockSnap)
  | [], _ => some none
  | id :: ids, pos =>
    (s.blocks id).bind fun b =>
    (blockCharLength s.text b.id).bind fun len =>
    if pos ≤ position ∧ position ≤ pos + len then s.blockSnap id (some pos) none
    else s.snapWalk position ids (pos + len + 1)

/-- `snapshot_block_at_position`, document.rs L517-L553. -/
def snapshotBlockAt (s : Store) (position : Nat) : Option (Option BlockSnap) :=
  (s.collectFrameIds (s.frames.len + 1) s.mainFrame).bind fun ids =>
  (s.snapWalk position ids 0).bind fun
    | some b => some (some b)
    | none => match ids.getLast? with
      | some id => s.blockSnap id none none
      | none => some none

end Store
end Verif
