import Verif.Model.TableCommands
import Verif.Model.ListCommands
/-
Deleting a selection that runs across table cells: the branch delete_text_uc.rs L253-L592 of
`execute_delete`, and with it the whole command.  The text of the removed paragraphs is not taken out
of the global text (the code does not call `rope_remove_block` in this branch).  Clock stamps are
left out.
-/
namespace Verif
namespace Store

/-- `clear_block`, delete_text_uc.rs L90-L111. -/
def clearBlock (s : Store) (b : Block) : Option Store :=
  let s := s.updateBlock b
  (ropeReplaceBlockContent s.text b.id []).map fun r =>
    let s := s.withText r
    { s with formatRuns := s.formatRuns.insert b.id [], blockImages := s.blockImages.insert b.id [] }

/-- A block is removed with its formatting but its text stays, delete_text_uc.rs L290-L293 and
L432-L434. -/
def forgetBlock (s : Store) (id : Nat) : Option Store :=
  let s := { s with formatRuns := s.formatRuns.erase id, blockImages := s.blockImages.erase id }
  s.removeBlocks [id]

/-- The loop delete_text_uc.rs L290-L293. -/
def forgetBlocks : List Nat → Store → Option Store
  | [], s => some s
  | id :: ids, s => (s.forgetBlock id).bind fun s => forgetBlocks ids s

/-- The blocks of the selection, delete_text_uc.rs L235-L239 and L261-L263: the paragraph does not end
before the selection or start after it. -/
def touchedBlocks (s : Store) (blocks : List Block) (start stop : Int) : Option (List Block) :=
  (mapOpt (fun b : Block => (blockCharLength s.text b.id).map fun (len : Nat) =>
    if b.documentPosition + len ≥ start ∧ b.documentPosition ≤ stop then [b] else []) blocks).map List.flatten

/-- Each value once, at its first place. -/
def firstOnly : List Nat → List Nat
  | [] => []
  | x :: xs => x :: (firstOnly xs).filter fun y => y ≠ x

/-- One cell is emptied, delete_text_uc.rs L271-L300: the number of characters it held. -/
def clearCell (s : Store) (cf : Nat) : Option (Int × Store) :=
  (s.frames cf).bind fun frame =>
  match sortByKey Block.documentPosition (s.getBlocks (s.frameBlocks cf)) with
  | [] => some (0, s)
  | b :: bs =>
    (mapOpt (fun b : Block => blockCharLength s.text b.id) (b :: bs)).bind fun lens =>
    (s.clearBlock b).bind fun s =>
    (forgetBlocks (bs.map Block.id) s).map fun s =>
      ((lens.sum : Nat), s.updateFrame { frame with childOrder := [(b.id : Int)] })

/-- The loop delete_text_uc.rs L270-L301. -/
def clearCells : List Nat → Store → Option (Int × Store)
  | [], s => some (0, s)
  | cf :: cfs, s =>
    (s.clearCell cf).bind fun (n, s) => (clearCells cfs s).map fun r => (n + r.1, r.2)

/-- The first position and the last end of the paragraphs of the cells, delete_text_uc.rs
L316-L329; `none` when there is no paragraph (then no selection reaches outside). -/
def tableSpan (s : Store) (cells : List TableCell) : Option (Option (Int × Int)) :=
  let bs := (cells.filterMap TableCell.cellFrame).flatMap fun cf => s.getBlocks (s.frameBlocks cf)
  (mapOpt (fun b : Block => (blockCharLength s.text b.id).map fun (len : Nat) =>
    (b.documentPosition, b.documentPosition + len)) bs).map fun l =>
    match l with
    | [] => none
    | p :: ps => some (ps.foldl (fun a q => (min a.1 q.1, max a.2 q.2)) p)

/-- The loop delete_text_uc.rs L332-L337. -/
def removeCellsOf : List TableCell → Store → Option Store
  | [], s => some s
  | c :: cs, s =>
    (match c.cellFrame with
      | some cf => s.removeFrame cf
      | none => some s).bind fun s =>
    (s.removeCells [c.id]).bind fun s => removeCellsOf cs s

/-- The frame that stands for the table in the root frame, delete_text_uc.rs L342-L352. -/
def coveredAnchor (s : Store) (tid : Nat) (order : List Int) : Option Nat :=
  ((order.filter fun e => decide (e < 0)).find? fun e =>
    (s.frames (-e).toNat).any fun f => f.table == some tid).map fun e => (-e).toNat

/-- The test delete_text_uc.rs L331: the selection reaches outside the table.  With no paragraph left in
the cells `table_min_pos` is `i64::MAX`, so that the selection is taken to start before it. -/
def reachesOut (start stop : Int) : Option (Int × Int) → Bool
  | none => true
  | some (lo, hi) => decide (start < lo) || decide (stop > hi)

/-- One table, delete_text_uc.rs L304-L356: it is removed when every cell was emptied and the selection
reaches outside. -/
def removeCoveredTable (s : Store) (fid : Nat) (cleared : List Nat) (start stop : Int) (tid : Nat) :
    Option (Bool × Store) :=
  let cells := (s.tableCellIds tid).filterMap fun c => s.tableCells c
  if !(cells.all fun c => c.cellFrame.any fun cf => cleared.contains cf) || cells.isEmpty then
    some (false, s)
  else
    (s.tableSpan cells).bind fun span =>
    if reachesOut start stop span then
      (removeCellsOf cells s).bind fun s =>
      (s.frames fid).bind fun root =>
      (match s.coveredAnchor tid root.childOrder with
        | some a => s.removeFrame a
        | none => some s).bind fun s =>
      (s.removeTableEntity tid).map fun s => (true, s)
    else some (false, s)

/-- The loop delete_text_uc.rs L303-L357: whether a table was removed. -/
def removeCoveredTables (fid : Nat) (cleared : List Nat) (start stop : Int) :
    List Nat → Store → Option (Bool × Store)
  | [], s => some (false, s)
  | t :: ts, s =>
    (s.removeCoveredTable fid cleared start stop t).bind fun (x, s) =>
    (removeCoveredTables fid cleared start stop ts s).map fun r => (x || r.1, r.2)

/-- The root frame forgets the frames that are gone, delete_text_uc.rs L359-L376. -/
def forgetGoneFrames (s : Store) (fid : Nat) : Option Store :=
  (s.frames fid).map fun root =>
    s.updateFrame { root with childOrder := root.childOrder.filter fun e =>
      !(decide (e < 0) && (s.frames (-e).toNat).isNone) }

/-- The paragraphs outside the cells that the second pass treats, delete_text_uc.rs L383-L396 and
L405-L413: unlike the cells', one that starts where the selection ends is left alone. -/
def outsideBlocks (s : Store) (inCell : Nat → Bool) (blocks : List Block) (start stop : Int) :
    Option (List Block) :=
  (mapOpt (fun b : Block => (blockCharLength s.text b.id).map fun (len : Nat) =>
    if b.documentPosition + len < start ∨ b.documentPosition ≥ stop ∨ inCell b.id = true then []
    else [b]) blocks).map List.flatten

/-- The loop delete_text_uc.rs L405-L437 over all paragraphs: the characters removed and the
paragraphs removed.  `first` and `last` are the ids of the ones that are only cut. -/
def cutOutside (inCell : Nat → Bool) (start stop : Int) (first last : Option Nat) :
    List Block → Store → Option (Int × List Nat × Store)
  | [], s => some (0, [], s)
  | b :: bs, s =>
    (blockCharLength s.text b.id).bind fun (len : Nat) =>
    if b.documentPosition + len < start ∨ b.documentPosition ≥ stop ∨ inCell b.id = true then
      cutOutside inCell start stop first last bs s
    else if some b.id = first ∨ some b.id = last then
      (s.deleteRange b (if some b.id = first then start - b.documentPosition else 0)
        (if some b.id = last then stop - b.documentPosition else len)).bind fun (n, s) =>
      (cutOutside inCell start stop first last bs s).map fun r => (n + r.1, r.2.1, r.2.2)
    else
      (s.forgetBlock b.id).bind fun s =>
      (cutOutside inCell start stop first last bs s).map fun r => ((len : Int) + r.1, b.id :: r.2.1, r.2.2)

/-- The removed paragraphs leave the order of every frame, delete_text_uc.rs L439-L456. -/
def unlistBlocks (gone : List Nat) : List Nat → Store → Store
  | [], s => s
  | f :: fs, s =>
    unlistBlocks gone fs (match s.frames f with
      | none => s
      | some fr =>
        let order := fr.childOrder.filter fun e => !(decide (0 ≤ e) && gone.contains e.toNat)
        if order.length = fr.childOrder.length then s else s.updateFrame { fr with childOrder := order })

/-- The frames of the root frame without a table and without paragraphs go, delete_text_uc.rs
L458-L495. -/
def removeEmptyFrames (s : Store) (fid : Nat) : Option Store :=
  (s.frames fid).bind fun root =>
  let empty := root.childOrder.filterMap fun e : Int =>
    if e < 0 then
      match s.frames (-e).toNat with
      | none => none
      | some f => if f.table.isSome || !f.blocks.isEmpty then none else some (-e).toNat
    else none
  if empty = [] then some s
  else
    (removeFrames empty s).bind fun s =>
    (s.frames fid).map fun root =>
      s.updateFrame { root with childOrder := root.childOrder.filter fun e =>
        !(decide (e < 0) && empty.contains (-e).toNat) }

/-- The loop delete_text_uc.rs L519-L521. -/
def removeLists : List Nat → Store → Option Store
  | [], s => some s
  | l :: ls, s => (s.removeListEntity l).bind fun s => removeLists ls s

/-- The lists without items go, delete_text_uc.rs L497-L522. -/
def removeUnusedLists (s : Store) (did : Nat) : Option Store :=
  let used := (s.getBlocks ((s.docFrames did).flatMap fun f => s.frameBlocks f)).filterMap Block.list
  removeLists ((s.docLists did).filter fun l => !used.contains l) s

/-- A document without paragraphs gets an empty one, delete_text_uc.rs L524-L564. -/
def refillEmpty (s : Store) (fid : Nat) : Option Store :=
  (s.flowIds fid).bind fun ids =>
  if (s.getBlocks ids).length = 0 then
    (s.createBlock {} fid (-1)).bind fun (bid, s) =>
    (s.frames fid).map fun f =>
      let s := s.updateFrame { f with childOrder := f.childOrder ++ [(bid : Int)] }
      s.withText (ropeAppendEmptyBlock ropeReset bid)
  else some s

/-- The branch of `execute_delete` for a selection across cells, delete_text_uc.rs L253-L592. -/
def deleteCells (s : Store) (did fid : Nat) (document : Document) (blocks : List Block)
    (start stop : Int) : Option (Store × DeleteTextResult) :=
  let inCell := s.cellFrameOf did
  let tables := s.docTables did
  (s.touchedBlocks blocks start stop).bind fun touched =>
  let cleared := firstOnly (touched.filterMap fun b => inCell b.id)
  (clearCells cleared s).bind fun (n1, s) =>
  (removeCoveredTables fid cleared start stop tables s).bind fun (some?, s) =>
  (if some? then s.forgetGoneFrames fid else some s).bind fun s =>
  (s.outsideBlocks (fun b => (inCell b).isSome) blocks start stop).bind fun (outside : List Block) =>
  (match outside.getLast? with
    | none => some false
    | some (b : Block) => (blockCharLength s.text b.id).map fun (len : Nat) =>
        decide (stop < b.documentPosition + len)).bind fun lastCut =>
  let first := (outside.head?.filter fun b : Block => decide (start > b.documentPosition)).map Block.id
  let last := (outside.getLast?.filter fun _ => lastCut).map Block.id
  (cutOutside (fun b => (inCell b).isSome) start stop first last blocks s).bind fun (n2, gone, (s : Store)) =>
  let s : Store := if gone = [] then s else unlistBlocks gone (s.docFrames did) s
  (s.removeEmptyFrames fid).bind fun s =>
  (s.removeUnusedLists did).bind fun (s : Store) =>
  (s.refillEmpty fid).map fun (s : Store) =>
    let count := ((s.docFrames did).map fun f => (s.frameBlocks f).length).sum
    (s.updateDocument
      { document with
        characterCount := max 0 (document.characterCount - (n1 + n2))
        blockCount := count }, ⟨start, []⟩)

/-- `execute_delete`, delete_text_uc.rs L121-L857. -/
def deleteSelection (s : Store) (position anchor : Int) : Option (Store × DeleteTextResult × Snapshot) :=
  s.docId.bind fun did =>
  if position = anchor then some (s, ⟨position, []⟩, s.snapshot)
  else
    let start := min position anchor
    let stop := max position anchor
    (s.documents did).bind fun document =>
    let snap := s.snapshot
    (s.docFrames did).head?.bind fun fid =>
    (s.flowIds fid).bind fun ids =>
    (s.frames fid).bind fun rootFrame =>
    (refreshPositions s.text rootFrame.childOrder 0 (s.getBlocks ids)).bind fun (blocks, changed) =>
    let s := s.updateBlocks changed
    let blocks := sortByKey Block.documentPosition blocks
    (s.findBlockAtPosition blocks start).bind fun (b1, i1, so) =>
    (s.isCrossCell did blocks start stop).bind fun cross =>
    (if cross then s.deleteCells did fid document blocks start stop
      else
        (s.findBlockAtPosition blocks stop).bind fun (b2, i2, eo) =>
        if i1 = i2 then s.deleteSame document blocks b1 i1 so eo start stop
        else s.deleteAcross did fid document blocks b1 i1 so b2 i2 eo start stop).map fun r =>
      (r.1, r.2, snap)

end Store
end Verif
