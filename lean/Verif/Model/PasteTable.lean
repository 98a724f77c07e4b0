import Verif.Model.FragmentText
import Verif.Model.TableCommands
/-
Pasting a fragment with tables: document_editing/src/use_cases/insert_fragment_uc.rs L216-L675, the fragments that consist of tables only.
(`Verif/Model/Clipboard.lean` has the fragments without tables.)  Clock stamps and events are left out; `none` is
an error or a panic.  Row and column numbers of stored tables are taken as not negative (the code casts them
to `usize`).
-/
namespace Verif
namespace Store

/-! ### Shared steps -/

/-- More paragraphs of a cell, L515-L533: the blocks with their text, the next position, the store. -/
def addCellBlocks (g : Nat) : List FragBlock → Int → Store → Option (List (Nat × List Char) × Int × Store)
  | [], pos, s => some ([], pos, s)
  | fb :: fbs, pos, s =>
    (s.createBlock { documentPosition := pos } g (-1)).bind fun (b, s) =>
    (addCellBlocks g fbs (pos + fb.state.len + 1) (s.writeState b (fragState fb).1 (fragState fb).2)).map
      fun (l, pos, s) => ((b, fb.text) :: l, pos, s)

/-- The paragraphs of a cell, L498-L542; `b` is the block the cell was created with. -/
def fillCell (g b : Nat) (pos : Int) (s : Store) : List FragBlock → Option (List (Nat × List Char) × Int × Store)
  | [] => some ([(b, [])], pos + 1, s)
  | fb :: fbs =>
    (addCellBlocks g fbs (pos + fb.state.len + 1) (s.writeState b (fragState fb).1 (fragState fb).2)).map
      fun (l, pos, s) => ((b, fb.text) :: l, pos, s)

/-- The cell of a fragment as an entity, L545-L558. -/
def FragCell.entity (c : FragCell) (g : Nat) : TableCell :=
  { c.format with id := 0, row := c.row, column := c.column, rowSpan := c.rowSpan, columnSpan := c.columnSpan, cellFrame := some g }

/-- The cells of a table, L494-L560: per cell its blocks with their text; the first blocks of the cells with their
positions; the next position; the store. -/
def pasteCells (did tid : Nat) : List FragCell → Int → Store →
    Option (List (List (Nat × List Char)) × List Block × Int × Store)
  | [], pos, s => some ([], [], pos, s)
  | c :: cs, pos, s =>
    (s.createCellFrame did).bind fun ((g, b), s) =>
    (fillCell g b pos s c.blocks).bind fun (l, next, s) =>
    (s.createCell (c.entity g) tid (-1)).bind fun (_, s) =>
    (pasteCells did tid cs next s).map fun (ls, bs, last, s) => (l :: ls, { id := b, documentPosition := pos } :: bs, last, s)

/-- The table of a fragment as an entity, L475-L489. -/
def FragTable.entity (t : FragTable) : Table :=
  { t.format with id := 0, cells := [], rows := t.rows, columns := t.columns
                  columnWidths := if t.format.columnWidths = [] then List.replicate t.columns 0 else t.format.columnWidths }

/-- A table without rows, columns or cells is passed over, L442-L444. -/
def FragTable.void (t : FragTable) : Bool := decide (t.rows = 0) || decide (t.columns = 0) || decide (t.cells = [])

/-- A table with its cells and its anchor frame, L475-L586: the table, the anchor, the blocks of the cells, the next
position, the store. -/
def pasteTable (did fid : Nat) (t : FragTable) (pos : Int) (s : Store) :
    Option (Nat × Nat × List (List (Nat × List Char)) × Int × Store) :=
  (s.createTable t.entity did (-1)).bind fun (tid, s) =>
  (pasteCells did tid t.cells pos s).bind fun (cells, firsts, next, s) =>
  ((s.updateBlocks firsts).createFrame { parentFrame := some fid, table := some tid } did (-1)).map fun (a, s) =>
    (tid, a, cells, next, s)

/-- A cell enters the text, L623-L641. -/
def ropeCell (fid : Nat) (s : Store) : List (Nat × List Char) → Option Store
  | [] => some s
  | (b, t) :: l =>
    (s.topLevelFrameEnd fid).bind fun pos =>
    (ropeInsertBlockAt s.text pos b t).bind fun st =>
    (ropeAddBlocks l b (utf8Len t) st).map fun st => s.withText st

/-- The cells of a table enter the text, L623-L642. -/
def ropeCells (fid : Nat) : List (List (Nat × List Char)) → Store → Option Store
  | [], s => some s
  | l :: ls, s => (ropeCell fid s l).bind fun s => ropeCells fid ls s

/-- A table enters the text, L621-L643: `target` is the block beside it and the side. -/
def ropeTable (fid : Nat) (s : Store) (x : Nat × Nat × Bool × List (List (Nat × List Char))) : Option Store :=
  (ropeInsertTableAnchor s.text x.1 x.2.1 x.2.2.1).bind fun st => ropeCells fid x.2.2.2 (s.withText st)

/-! ### A table pasted on the cells of another: `try_replace_table_cells` -/

/-- `build_block_to_cell_map`, L217-L237: of each block in a cell the frame of the cell and the table; of a block listed
twice the last entry counts. -/
def blockToCell (s : Store) (did : Nat) : List (Nat × Nat × Nat) :=
  (s.docTables did).flatMap fun t => (s.getCells (s.tableCellIds t)).flatMap fun c =>
    c.cellFrame.toList.flatMap fun cf => (s.frameBlocks cf).map fun b => (b, cf, t)

/-- All blocks, L254-L275. -/
def pasteBlocks (s : Store) (did fid : Nat) : List Block :=
  sortByKey Block.documentPosition (s.getBlocks (s.frameBlocks fid) ++
    (s.docTables did).flatMap fun t => (s.getCells (s.tableCellIds t)).flatMap fun c =>
      c.cellFrame.toList.flatMap fun cf => s.getBlocks (s.frameBlocks cf))

/-- `clear_block_state` and `remove_block`, L332-L335. -/
def dropExtra : List Block → Store → Option Store
  | [], s => some s
  | b :: bs, s => ((s.writeState b.id [] []).removeBlocks [b.id]).bind fun s => dropExtra bs s

/-- L347-L359: further paragraphs are created, but not put into the order of the frame. -/
def addExtra (cf : Nat) : List FragBlock → Store → Option Store
  | [], s => some s
  | fb :: fbs, s =>
    (s.createBlock {} cf (-1)).bind fun (b, s) => addExtra cf fbs (s.writeState b (fragState fb).1 (fragState fb).2)

/-- The content of one cell replaced, L326-L366. -/
def replaceCell (cf : Nat) (fbs : List FragBlock) (s : Store) : Option Store :=
  let old := s.getBlocks (s.frameBlocks cf)
  (dropExtra old.tail s).bind fun s =>
  match old, fbs with
  | [], _ => some s
  | b :: _, [] => some ((s.updateBlock b).writeState b.id [] [])
  | b :: _, fb :: fbs => addExtra cf fbs ((s.updateBlock b).writeState b.id (fragState fb).1 (fragState fb).2)

/-- The loop over the cells of the fragment, L309-L367; `cells` are those of the table, `r` and `k` the place of the
caret's cell. -/
def replaceCells (cells : List TableCell) (r k : Int) : List FragCell → Store → Option Store
  | [], s => some s
  | c :: cs, s =>
    (match (cells.find? fun (x : TableCell) => decide (x.row = r + c.row ∧ x.column = k + c.column)).bind TableCell.cellFrame with
    | none => some s
    | some cf => replaceCell cf c.blocks s).bind fun s => replaceCells cells r k cs s

/-- `try_replace_table_cells`, L241-L376; inner `none`: it does not apply. -/
def tryReplaceCells (s : Store) (did : Nat) (position : Int) : List FragTable → Option (Option Store)
  | [t] =>
    (s.docFrames did).head?.bind fun fid =>
    (s.findBlockAtPosition (s.pasteBlocks did fid) position).bind fun (cur, _, _) =>
    match (s.blockToCell did).reverse.find? fun x => x.1 == cur.id with
    | none => some none
    | some (_, cf, tid) =>
      (s.tables tid).bind fun target =>
      let cells := s.getCells (s.tableCellIds tid)
      let place := ((cells.find? fun c => decide (c.cellFrame = some cf)).map fun c => (c.row, c.column)).getD (0, 0)
      let high := (t.cells.map FragCell.row).foldl max 0
      let wide := (t.cells.map FragCell.column).foldl max 0
      if place.1 + high ≥ target.rows ∨ place.2 + wide ≥ target.columns then some none
      else (replaceCells cells place.1 place.2 t.cells s).map some
  | _ => some none

/-! ### A fragment of tables: `insert_table_fragment` -/

/-- The paragraph beside which a table enters the text, and whether it enters behind it, L451-L470 (with blocks at
hand `find_block_at_position` does not fail). -/
def pasteTarget (s : Store) (blocks : List Block) (position : Int) : Option (Option (Nat × Bool)) :=
  match blocks with
  | [] => some none
  | _ :: _ => (s.findBlockAtPosition blocks position).map fun (x : Block × Nat × Int) => some (x.1.id, decide (x.2.2 > 0))

/-- The loop over the tables, L441-L610: what enters the text afterwards, the next position, the store. -/
def pasteTables (did fid : Nat) (blocks : List Block) (position : Int) : List FragTable → Nat → Int → Store →
    Option (List (Nat × Nat × Bool × List (List (Nat × List Char))) × Int × Store)
  | [], _, pos, s => some ([], pos, s)
  | t :: ts, idx, pos, s =>
    if t.void then pasteTables did fid blocks position ts idx pos s
    else
      (s.pasteTarget blocks position).bind fun (target : Option (Nat × Bool)) =>
      (pasteTable did fid t pos s).bind fun (tid, a, cells, next, s) =>
      (s.frames fid).bind fun (parent : Frame) =>
      let s := s.updateFrame { parent with
        childOrder := parent.childOrder.insertIdx (min idx parent.childOrder.length) (-(a : Int)) }
      (pasteTables did fid blocks position ts (idx + 1) next s).map fun (l, last, s) =>
        (target.toList.map (fun (x : Nat × Bool) => (tid, x.1, x.2, cells)) ++ l, last, s)

/-- The tables enter the text one after the other, L613-L644. -/
def ropeTables (fid : Nat) : List (Nat × Nat × Bool × List (List (Nat × List Char))) → Store → Option Store
  | [], s => some s
  | x :: l, s => (ropeTable fid s x).bind fun s => ropeTables fid l s

/-- The number of blocks a cell gets, and the number of characters (images included) in it, L497-L542. -/
def FragCell.size (c : FragCell) : Nat × Nat := (max 1 c.blocks.length, (c.blocks.map fun fb => fb.state.len).sum)

/-- The same of tables. -/
def tablesSize (ts : List FragTable) : Nat × Nat :=
  let cells := (ts.filter fun t => !t.void).flatMap FragTable.cells
  ((cells.map fun c => c.size.1).sum, (cells.map fun c => c.size.2).sum)

/-- Where the first table goes in the order of the frame, L416-L426: one after the place of the caret's paragraph in the list of the
frame's paragraphs, whatever else is in the frame. -/
def pasteIndex (s : Store) (fid : Nat) (blocks : List Block) (position : Int) : Option Nat :=
  match blocks with
  | [] => some 0
  | _ :: _ => (s.findBlockAtPosition blocks position).map fun (b, _, _) =>
    (((s.frameBlocks fid).findIdx? fun i => i == b.id).map (· + 1)).getD 0

/-- `insert_table_fragment`, L379-L675. -/
def insertTables (s : Store) (position : Int) (ts : List FragTable) : Option (Store × PasteResult × Snapshot) :=
  s.docId.bind fun did =>
  (s.tryReplaceCells did position ts).bind fun
  | some s' => some (s', ⟨position, 0⟩, s.snapshot)
  | none =>
    (s.documents did).bind fun document =>
    let snap := s.snapshot
    (s.docFrames did).head?.bind fun fid =>
    let blocks := sortByKey Block.documentPosition (s.getBlocks (s.frameBlocks fid))
    (s.pasteIndex fid blocks position).bind fun idx =>
    (pasteTables did fid blocks position ts idx position s).bind fun (l, last, s) =>
    (ropeTables fid l s).map fun s =>
    let s := if last - position > 0 then s.shiftFrom blocks position (last - position) else s
    (s.updateDocument { document with
        blockCount := document.blockCount + (tablesSize ts).1
        characterCount := document.characterCount + (tablesSize ts).2 },
      ⟨position, (tablesSize ts).1⟩, snap)

end Store
end Verif
