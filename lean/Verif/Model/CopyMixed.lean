import Verif.Model.FragmentText
/-
Copying across table cells: document_inspection/src/use_cases/extract_fragment_uc.rs L139-L284.
-/
namespace Verif
namespace Store

/-- The table of a block in `block_to_cell`, extract_fragment_uc.rs L80-L98: of two entries for a block the later one stays. -/
def tableOfBlock (s : Store) (did bid : Nat) : Option Nat :=
  (s.docTables did).reverse.find? fun t => (s.getCells (s.tableCellIds t)).any fun c =>
    match c.cellFrame with
    | some g => (s.frameBlocks g).contains bid
    | none => false

/-- `extract_full_block` with `block_to_fragment_block(.., true, None)`, L176-L188 and L364-L379: what the loop over the blocks gives for a
selection of the whole block, without its list. -/
def wholeBlock (s : Store) (b : Block) : Option FragBlock :=
  (blockCharLength s.text b.id).bind fun (len : Nat) =>
  (s.extractBlock b.documentPosition (b.documentPosition + len + 1) 0 b).bind fun o => o.map fun fb => { fb with list := none }

/-- A cell of a copied table, L164-L208.  (`as usize` of a negative number is 0 here.) -/
def copyCell (s : Store) (c : TableCell) : Option FragCell :=
  (match c.cellFrame with
    | some g => mapOpt s.wholeBlock (sortByKey Block.documentPosition (s.getBlocks (s.frameBlocks g)))
    | none => some []).map fun bs =>
  { row := c.row.toNat, column := c.column.toNat, rowSpan := (max c.rowSpan 1).toNat, columnSpan := (max c.columnSpan 1).toNat
    blocks := bs, format := c }

/-- A copied table, L151-L223, to stand before the paragraph `index` of the fragment. -/
def copyTable (s : Store) (tid index : Nat) : Option FragTable :=
  (s.tables tid).bind fun t =>
  (mapOpt s.copyCell (sortByKey TableCell.row (sortByKey TableCell.column (s.getCells (s.tableCellIds tid))))).map fun cs =>
  { rows := t.rows.toNat, columns := t.columns.toNat, cells := cs, index := index, format := t }

/-- What the loop has gathered, L142-L145. -/
structure MixedCopy where
  blocks : List FragBlock := []
  tables : List FragTable := []
  plain : List (List Char) := []
  done : List Nat := []

/-- The body of the loop, L147-L268. -/
def mixedStep (s : Store) (did : Nat) (start stop : Int) (last : Nat) (st : MixedCopy) (b : Block) : Option MixedCopy :=
  (blockCharLength s.text b.id).bind fun (len : Nat) =>
  if b.documentPosition + len < start ∨ b.documentPosition ≥ stop then some st
  else
    match s.tableOfBlock did b.id with
    | some tid =>
      if st.done.contains tid then some st
      else (s.copyTable tid st.blocks.length).map fun t =>
        { st with
          tables := st.tables ++ [t]
          plain := st.plain ++ t.cells.flatMap fun c => c.blocks.map FragBlock.text
          done := st.done ++ [tid] }
    | none =>
      (s.extractBlock start stop last b).map fun
        | some fb => { st with blocks := st.blocks ++ [fb], plain := st.plain ++ [fb.text] }
        | none => st

/-- The loop, L147-L268. -/
def mixedLoop (s : Store) (did : Nat) (start stop : Int) (last : Nat) : List Block → MixedCopy → Option MixedCopy
  | [], st => some st
  | b :: bs, st => (s.mixedStep did start stop last st b).bind (s.mixedLoop did start stop last bs)

/-- `ExtractFragmentUseCase::execute`, L45-L360, with selections across table cells: the paragraphs, the tables and the plain text of the
fragment. -/
def copyFragment (s : Store) (position anchor : Int) : Option (List FragBlock × List FragTable × List Char) :=
  let start := min position anchor
  let stop := max position anchor
  if start = stop then some ([], [], [])
  else
    s.docId.bind fun did =>
    (mapOpt (s.blocksBelow (s.frames.len + 1)) (s.docFrames did)).bind fun pairs =>
    let blocks := sortByKey Block.documentPosition (s.getBlocks (pairs.flatten.map Prod.fst))
    (s.copyCrosses did blocks start stop).bind fun cross =>
    if cross then
      (s.mixedLoop did start stop ((blocks.getLast?.map Block.id).getD 0) blocks {}).map fun st =>
        (st.blocks, st.tables, joinLines st.plain)
    else (s.extractFragment position anchor).map fun r => (r.1, [], r.2)

end Store
end Verif
