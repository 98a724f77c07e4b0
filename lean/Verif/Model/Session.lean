import Verif.Model.Editing
import Verif.Model.UndoRedo
/-
The editing commands as undoable objects (document_editing/src/use_cases/{insert_text,delete_text,
insert_block}_uc.rs) and an editing session: the public cursor and document calls on a store and its
undo manager (public_api/src/cursor.rs, document.rs).
Left out: the events queued for callbacks (C30–C32 model them) and grapheme clusters (the caller gives
the positions the cursor ends up at).
-/
namespace Verif

/-- `char::is_whitespace` of the Rust library (Unicode White_Space). -/
def isWhite (c : Char) : Bool :=
  let n := c.val
  (0x9 ≤ n && n ≤ 0xD) || n == 0x20 || n == 0x85 || n == 0xA0 || n == 0x1680 ||
    (0x2000 ≤ n && n ≤ 0x200A) || n == 0x2028 || n == 0x2029 || n == 0x202F || n == 0x205F ||
    n == 0x3000

/-- `is_word_boundary_punct`, editing_helpers.rs L155-L160. -/
def isBoundaryPunct (c : Char) : Bool :=
  ['.', ',', ';', ':', '!', '?', '(', ')', '[', ']', '{', '}', '"', '\'', '-'].contains c

/-- An executed `InsertTextUseCase`, insert_text_uc.rs L480-L496.  `time` counts nanoseconds. -/
structure InsertCmd where
  dto : Store.InsertTextDto
  result : Store.InsertTextResult
  undo : Store.InsertUndo
  time : Nat
  wasSelection : Bool

/-- An executed `DeleteTextUseCase`, delete_text_uc.rs L54-L61. -/
structure DeleteCmd where
  position : Int
  anchor : Int
  result : Store.DeleteTextResult
  snap : Snapshot
  time : Nat
  single : Bool

/-- An executed `InsertBlockUseCase`, insert_block_uc.rs. -/
structure BlockCmd where
  position : Int
  snap : Snapshot

/-- The commands of this model. -/
inductive EditCmd where
  | insert (c : InsertCmd)
  | delete (c : DeleteCmd)
  | block (c : BlockCmd)

/-- `InsertTextUseCase::execute`, insert_text_uc.rs L498-L518, in a transaction: an error leaves the
store as it was (C27). -/
def runInsert (s : Store) (dto : Store.InsertTextDto) (now : Nat) : Option (Store × InsertCmd) :=
  (s.insertText dto).map fun r => (r.1, ⟨dto, r.2.1, r.2.2, now, decide (dto.position ≠ dto.anchor)⟩)

/-- `DeleteTextUseCase::execute`, delete_text_uc.rs L923-L937. -/
def runDelete (s : Store) (position anchor : Int) (now : Nat) : Option (Store × DeleteCmd) :=
  (s.deleteText position anchor).map fun r =>
    (r.1, ⟨position, anchor, r.2.1, r.2.2, now, decide ((position - anchor).natAbs = 1)⟩)

/-- `InsertBlockUseCase::execute`, insert_block_uc.rs. -/
def runBlock (s : Store) (position : Int) : Option (Store × BlockCmd × Store.InsertBlockResult) :=
  (s.insertBlock position).map fun r => (r.1, ⟨position, r.2.2⟩, r.2.1)

/-- The `undo` methods: insert_text_uc.rs L521-L570, delete_text_uc.rs L941-L953, insert_block_uc.rs
L288-L300. -/
def EditCmd.undo : EditCmd → Store → Bool × EditCmd × Store
  | .insert c, s => match s.undoInsert c.undo with
    | some s' => (true, .insert c, s')
    | none => (false, .insert c, s)
  | .delete c, s => (true, .delete c, s.restoreUndo c.snap)
  | .block c, s => (true, .block c, s.restoreUndo c.snap)

/-- The `redo` methods run the command again and keep its new undo data: insert_text_uc.rs L572-L591,
delete_text_uc.rs L955-L968, insert_block_uc.rs L302-L315. -/
def EditCmd.redo : EditCmd → Store → Bool × EditCmd × Store
  | .insert c, s => match s.insertText c.dto with
    | some (s', _, u) => (true, .insert { c with undo := u }, s')
    | none => (false, .insert c, s)
  | .delete c, s => match s.deleteText c.position c.anchor with
    | some (s', _, snap) => (true, .delete { c with snap := snap }, s')
    | none => (false, .delete c, s)
  | .block c, s => match s.insertBlock c.position with
    | some (s', _, snap) => (true, .block { c with snap := snap }, s')
    | none => (false, .block c, s)

/-- Two seconds, in nanoseconds. -/
def mergeWindow : Nat := 2000000000

/-- `can_merge` of insert_text_uc.rs L593-L639; `duration_since` is zero for an earlier instant. -/
def InsertCmd.canMerge (a c : InsertCmd) : Bool :=
  if c.time - a.time > mergeWindow then false
  else if c.wasSelection then false
  else if c.dto.position ≠ a.result.newPosition then false
  else if a.dto.text.length + c.dto.text.length > 200 then false
  else match a.dto.text.getLast?, c.dto.text.head? with
    | some x, some y => !((isWhite x || isBoundaryPunct x) && (!isWhite y && !isBoundaryPunct y))
    | _, _ => true

/-- The merged undo data, insert_text_uc.rs L660-L664. -/
def mergeUndo : Store.InsertUndo → Store.InsertUndo → Store.InsertUndo
  | .simple x, .simple y => .simple { x with byteLen := x.byteLen + y.byteLen }
  | x, _ => x

/-- `merge` of insert_text_uc.rs L641-L667. -/
def InsertCmd.merge (a c : InsertCmd) : InsertCmd :=
  { a with
    dto := ⟨a.dto.position, a.dto.position, a.dto.text ++ c.dto.text⟩
    result := c.result
    time := c.time
    undo := mergeUndo a.undo c.undo }

/-- `can_merge` of delete_text_uc.rs L970-L1027. -/
def DeleteCmd.canMerge (a c : DeleteCmd) : Bool :=
  if c.time - a.time > mergeWindow then false
  else if !a.single then false
  else if (c.position - c.anchor).natAbs ≠ 1 then false
  else if decide (a.position > a.anchor) != decide (c.position > c.anchor) then false
  else if a.position > a.anchor ∧ max c.position c.anchor ≠ a.result.newPosition then false
  else if ¬ a.position > a.anchor ∧ min c.position c.anchor ≠ a.result.newPosition then false
  else if (a.position - a.anchor).natAbs + 1 > 200 then false
  else match a.result.deletedText.head? with
    | some x => !(isWhite x || isBoundaryPunct x)
    | none => true

/-- `merge` of delete_text_uc.rs L1029-L1065. -/
def DeleteCmd.merge (a c : DeleteCmd) : DeleteCmd :=
  { a with
    anchor := if a.position > a.anchor then a.anchor - 1 else a.anchor + 1
    result := c.result
    time := c.time }

/-- The undo interface of the commands; commands of different kinds never merge, nor do paragraph
splits (the trait's default, undo_redo.rs L50-L66). -/
def editApi : CmdApi EditCmd Store where
  undo := EditCmd.undo
  redo := EditCmd.redo
  canMerge
    | .insert a, .insert c => a.canMerge c
    | .delete a, .delete c => a.canMerge c
    | _, _ => false
  merge
    | .insert a, .insert c => (true, .insert (a.merge c))
    | .delete a, .delete c => (true, .delete (a.merge c))
    | a, _ => (false, a)

/-! ### The session -/

/-- A document with its undo manager (`TextDocumentInner`: `ctx` and `stack_id`). -/
structure Session where
  mgr : Mgr EditCmd
  store : Store
  sid : Option Nat

/-- `max_cursor_position` of the stored counts, cursor.rs L32-L40 with get_document_stats_uc.rs
L47-L58; `none` is the assertion of `to_usize` (convert.rs L18-L21). -/
def maxCursor (s : Store) : Option Nat :=
  s.docId.bind fun did => (s.documents did).bind fun d =>
  if d.characterCount < 0 ∨ d.blockCount < 0 then none
  else if d.blockCount > 1 then some (d.characterCount.toNat + d.blockCount.toNat - 1)
  else some d.characterCount.toNat

/-- The clamping of `set_position`, cursor.rs L280-L288. -/
def cursorPos (s : Store) (x : Nat) : Option Nat := (maxCursor s).map fun e => min x e

/-- Execute an insertion and record it: document_editing_controller.rs L113-L131.  `none` is any
error; the theorems show there is none. -/
def Session.insert (e : Session) (x y : Nat) (t : List Char) (now : Nat) : Option (Session × Int) :=
  (runInsert e.store ⟨x, y, t⟩ now).bind fun (s, c) =>
  match e.mgr.add editApi (.insert c) e.sid with
  | (true, m) => some ({ e with mgr := m, store := s }, c.result.newPosition)
  | (false, _) => none

/-- Execute a deletion and record it: document_editing_controller.rs L133-L151. -/
def Session.delete (e : Session) (x y : Nat) (now : Nat) : Option (Session × Int) :=
  (runDelete e.store x y now).bind fun (s, c) =>
  match e.mgr.add editApi (.delete c) e.sid with
  | (true, m) => some ({ e with mgr := m, store := s }, c.result.newPosition)
  | (false, _) => none

/-- Execute a paragraph split and record it: document_editing_controller.rs L153-L171. -/
def Session.split (e : Session) (x : Nat) : Option (Session × Int) :=
  (runBlock e.store x).bind fun (s, c, r) =>
  match e.mgr.add editApi (.block c) e.sid with
  | (true, m) => some ({ e with mgr := m, store := s }, r.newPosition)
  | (false, _) => none

/-- `begin_composite` as the cursor calls it (an error is ignored, undo_redo_commands.rs L38-L42). -/
def Session.begin (e : Session) : Session := { e with mgr := (e.mgr.begin e.sid).2 }

/-- `end_composite`. -/
def Session.end (e : Session) : Option Session := e.mgr.end.map fun m => { e with mgr := m }

/-- `TextCursor::insert_text`, cursor.rs L391-L454: the insertion, or for a selection it refuses a
deletion and an insertion in one group.  The result is the new caret position. -/
def Session.cursorInsert (e : Session) (x y : Nat) (t : List Char) (now : Nat) :
    Option (Session × Int) :=
  match e.insert x y t now with
  | some r => some r
  | none =>
    if x = y then none
    else
      (e.begin.delete x y now).bind fun (e, p) =>
      if p < 0 then none
      else (e.insert p.toNat p.toNat t now).bind fun (e, q) => e.end.map fun e => (e, q)

/-- `TextCursor::insert_block`, cursor.rs L523-L570. -/
def Session.cursorSplit (e : Session) (x y : Nat) (now : Nat) : Option (Session × Int) :=
  if x = y then e.split x
  else
    (e.begin.delete x y now).bind fun (e, p) =>
    if p < 0 then none
    else (e.split p.toNat).bind fun (e, q) => e.end.map fun e => (e, q)

/-- What the user does with a cursor at position `x` and anchor `y`. -/
inductive SessionOp where
  | type (x y : Nat) (t : List Char)
  | erase (x y : Nat)
  | enter (x y : Nat)
  | undo
  | redo

/-- One step at time `now`: the cursor is placed (`set_position`), then the call is made (`do_delete`
is cursor.rs L2030-L2063; `undo`, `redo` are document.rs L795-L834).  The result is the caret. -/
def Session.step (e : Session) (now : Nat) : SessionOp → Option (Session × Option Int)
  | .type x y t =>
    (cursorPos e.store x).bind fun x => (cursorPos e.store y).bind fun y =>
    (e.cursorInsert x y t now).map fun r => (r.1, some r.2)
  | .erase x y =>
    (cursorPos e.store x).bind fun x => (cursorPos e.store y).bind fun y =>
    (e.delete x y now).map fun r => (r.1, some r.2)
  | .enter x y =>
    (cursorPos e.store x).bind fun x => (cursorPos e.store y).bind fun y =>
    (e.cursorSplit x y now).map fun r => (r.1, some r.2)
  | .undo => match e.mgr.undo editApi e.sid e.store with
    | (true, m, s) => some ({ e with mgr := m, store := s }, none)
    | (false, _, _) => none
  | .redo => match e.mgr.redo editApi e.sid e.store with
    | (true, m, s) => some ({ e with mgr := m, store := s }, none)
    | (false, _, _) => none

/-- Several steps, each at its time. -/
def Session.run (e : Session) : List (Nat × SessionOp) → Option Session
  | [] => some e
  | (now, op) :: ops => (e.step now op).bind fun r => r.1.run ops

end Verif
