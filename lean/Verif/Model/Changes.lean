/-
Model of how a document follows edits:

* `crates/public_api/src/inner.rs` L109-126 and L412-428: cursor adjustment;
* `crates/public_api/src/inner.rs` L222-280: block count and flow change detection;
* `crates/public_api/src/document.rs` L1019-1186: change detection after undo and redo.
-/
namespace Verif

/-- `adjust_offset`, `inner.rs` L420-428. The subtraction is on `usize`; in its branch
`offset > edit_pos + removed`, so it never underflows. -/
def adjustOffset (offset editPos removed added : Nat) : Nat :=
  if offset ≤ editPos then offset
  else if offset ≤ editPos + removed then editPos + added
  else offset - removed + added

/-- `CursorData`, `inner.rs` L36-42; the cell-selection override is only recorded as present or
not. -/
structure Cursor where
  position : Nat
  anchor : Nat
  cellOverride : Bool := false
deriving DecidableEq, Repr

/-- `adjust_cursors`, `inner.rs` L111-126. The list holds the live cursors (dead ones are pruned
first, L112, and locking is not modelled). -/
def adjustCursors (cs : List Cursor) (editPos removed added : Nat) : List Cursor :=
  cs.map (fun c => { position := adjustOffset c.position editPos removed added
                     anchor := adjustOffset c.anchor editPos removed added
                     cellOverride := false })

/-- Rust's `a.iter().zip(b.iter()).take_while(|(a, b)| a == b).count()`. -/
def matchCount {α : Type} [BEq α] (a b : List α) : Nat :=
  ((a.zip b).takeWhile (fun p => p.1 == p.2)).length

/-- `compute_text_edit`, `document.rs` L1070-1096. -/
def computeTextEdit (before after : List Char) : Nat × Nat × Nat :=
  let prefixLen := matchCount before after
  let beforeRemaining := before.length - prefixLen
  let afterRemaining := after.length - prefixLen
  let suffixLen := (((before.reverse.zip after.reverse).take (min beforeRemaining afterRemaining)
    ).takeWhile (fun p => p.1 == p.2)).length
  (prefixLen, beforeRemaining - suffixLen, afterRemaining - suffixLen)

/-- The flow events `check_flow_changed` can queue (`events.rs` L46-53). -/
inductive FlowEvent where
  | removed (flowIndex count : Nat)
  | inserted (flowIndex count : Nat)
deriving DecidableEq, Repr

/-- `check_flow_changed`, `inner.rs` L237-280: the events queued, and the list remembered for the
next call. `old` is the remembered `child_order`, `new` the current one. -/
def checkFlowChanged (old new : List Int) : List FlowEvent × List Int :=
  if new = old then ([], old)
  else
    let prefixLen := matchCount old new
    let oldRemaining := old.length - prefixLen
    let newRemaining := new.length - prefixLen
    let suffixLen := matchCount (old.drop prefixLen).reverse (new.drop prefixLen).reverse
    let removedCount := oldRemaining - suffixLen
    let insertedCount := newRemaining - suffixLen
    ((if 0 < removedCount then [.removed prefixLen removedCount] else []) ++
      (if 0 < insertedCount then [.inserted prefixLen insertedCount] else []), new)

/-- `check_block_count_changed`, `inner.rs` L222-231: the event queued and the remembered count. -/
def checkBlockCount (last now : Nat) : Option Nat × Nat :=
  if now ≠ last then (some now, now) else (none, last)

/-- `UndoBlockState`, `document.rs` L1019-1025. `F` is the paragraph format. -/
structure UndoBlockState (F : Type) where
  id : Nat
  position : Int
  textLength : Int
  plainText : List Char
  format : F

/-- `build_doc_text`, `document.rs` L1060-1066. -/
def buildDocText {F : Type} : List (UndoBlockState F) → List Char
  | [] => []
  | [s] => s.plainText
  | s :: t :: r => s.plainText ++ '\n' :: buildDocText (t :: r)

/-- The running totals of `emit_undo_redo_change_events`, `document.rs` L1110-1117. -/
structure EmitAcc where
  contentChanged : Bool := false
  earliest : Option Nat := none
  oldEnd : Nat := 0
  newEnd : Nat := 0
  blocks : Nat := 0
  formatOnly : List (Nat × Nat) := []

/-- `earliest_pos.map_or(pos, |p| p.min(pos))`. -/
def minPos (e : Option Nat) (pos : Nat) : Option Nat :=
  some (match e with | none => pos | some p => min p pos)

/-- One pass of the first loop, `document.rs` L1120-1152: `found` is the block's state before. -/
def emitAfterStep {F : Type} [DecidableEq F] (acc : EmitAcc) (found : Option (UndoBlockState F))
    (a : UndoBlockState F) : EmitAcc :=
  let pos := a.position.toNat
  match found with
  | some b =>
    if b.plainText ≠ a.plainText ∨ b.textLength ≠ a.textLength then
      { acc with contentChanged := true, blocks := acc.blocks + 1
                 earliest := minPos acc.earliest pos
                 oldEnd := max acc.oldEnd (b.position.toNat + b.textLength.toNat)
                 newEnd := max acc.newEnd (pos + a.textLength.toNat) }
    else if b.format ≠ a.format then
      { acc with formatOnly := acc.formatOnly ++ [(pos, a.textLength.toNat)] }
    else acc
  | none =>
    { acc with contentChanged := true, blocks := acc.blocks + 1
               earliest := minPos acc.earliest pos
               newEnd := max acc.newEnd (pos + a.textLength.toNat) }

/-- One pass of the second loop, `document.rs` L1155-1163, for a block that is gone. -/
def emitRemovedStep {F : Type} (after : List (UndoBlockState F)) (acc : EmitAcc)
    (b : UndoBlockState F) : EmitAcc :=
  if after.any (fun a => a.id == b.id) then acc
  else
    let pos := b.position.toNat
    { acc with contentChanged := true, blocks := acc.blocks + 1
               earliest := minPos acc.earliest pos
               oldEnd := max acc.oldEnd (pos + b.textLength.toNat) }

/-- What undo or redo announces: the contents-changed event `(position, chars_removed, chars_added,
blocks_affected)`, the edit the cursors are adjusted by, and the format-changed regions. -/
structure UndoChange where
  contents : Option (Nat × Nat × Nat × Nat)
  cursorEdit : Option (Nat × Nat × Nat)
  formats : List (Nat × Nat)
deriving DecidableEq, Repr

/-- `emit_undo_redo_change_events`, `document.rs` L1100-1192. The two hash maps from id to state are
first-match lookups (ids are unique). -/
def emitUndoRedo {F : Type} [DecidableEq F] (before after : List (UndoBlockState F)) : UndoChange :=
  let acc1 := after.foldl
    (fun acc a => emitAfterStep acc (before.find? (fun b => b.id == a.id)) a) {}
  let acc := before.foldl (emitRemovedStep after) acc1
  if acc.contentChanged then
    let position := acc.earliest.getD 0
    let edit := computeTextEdit (buildDocText before) (buildDocText after)
    { contents := some (position, acc.oldEnd - position, acc.newEnd - position, acc.blocks)
      cursorEdit := if 0 < edit.2.1 ∨ 0 < edit.2.2 then some edit else none
      formats := acc.formatOnly }
  else { contents := none, cursorEdit := none, formats := acc.formatOnly }

end Verif
