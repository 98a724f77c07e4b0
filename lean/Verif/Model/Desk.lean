import Verif.Model.Cursor
import Verif.Model.Session
/-
A document with its live cursors (public_api/src/cursor.rs, document.rs): the calls that move and
select, and the editing calls with what they do to every cursor.
Left out: the events queued for callbacks (C30–C32 model them), syntax highlighting (C34–C35) and the
dropping of cursors (a dropped cursor is never read again).
-/
namespace Verif

/-- `TextDocumentInner` with its `cursors`, inner.rs L60-L100. -/
structure Desk where
  session : Session
  cursors : List Cursor

/-- The calls on the cursor number `i` (in order of creation) and on the document. -/
inductive DeskOp where
  | cursorAt (x : Nat)
  | clone (i : Nat)
  | setPosition (i x : Nat) (keep : Bool)
  | move (i : Nat) (op : MoveOp) (keep : Bool) (n : Nat)
  | select (i : Nat) (op : SelectOp)
  | clearSelection (i : Nat)
  | insertText (i : Nat) (t : List Char)
  | insertBlock (i : Nat)
  | deleteChar (i : Nat)
  | deletePrevious (i : Nat)
  | removeSelected (i : Nat)
  | undo
  | redo

namespace Desk

/-- `finish_edit_ext`, cursor.rs L99-L136: all cursors follow the edit, then this one is put at `q`;
`none` is the assertion of `to_usize`. -/
def finish (k : Desk) (i : Nat) (e : Session) (editPos removed : Nat) (q : Int) : Option Desk :=
  if q < 0 then none
  else some ⟨e, (adjustCursors k.cursors editPos removed (q.toNat - editPos)).set i ⟨q.toNat, q.toNat, false⟩⟩

/-- `do_delete`, cursor.rs L2030-L2063: like `finish_edit`, with nothing added. -/
def doDelete (k : Desk) (i x y : Nat) (now : Nat) : Option Desk :=
  (k.session.delete x y now).bind fun (e, q) =>
  if q < 0 then none
  else some ⟨e, (adjustCursors k.cursors (min x y) (max x y - min x y) 0).set i ⟨q.toNat, q.toNat, false⟩⟩

/-- `delete_char`, cursor.rs L1557-L1582. -/
def deleteChar (seg : Segmenter) (k : Desk) (i : Nat) (c : Cursor) (now : Nat) : Option Desk :=
  if c.position ≠ c.anchor then k.doDelete i c.position c.anchor now
  else if c.position ≥ (maxCursor k.session.store).getD 0 then some k
  else
    let to := k.session.store.nextGrapheme seg c.position
    if to = c.position then some k else k.doDelete i c.position to now

/-- `delete_previous_char`, cursor.rs L1585-L1599. -/
def deletePrevious (seg : Segmenter) (k : Desk) (i : Nat) (c : Cursor) (now : Nat) : Option Desk :=
  if c.position ≠ c.anchor then k.doDelete i c.position c.anchor now
  else if c.position > 0 then
    let a := k.session.store.prevGrapheme seg c.position
    if a = c.position then some k else k.doDelete i a c.position now
  else some k

/-- A call on cursor `i`; there is no call on a cursor that does not exist. -/
def withCursor (k : Desk) (i : Nat) (f : Cursor → Option Desk) : Option Desk :=
  match k.cursors[i]? with
  | none => some k
  | some c => f c

/-- One call at time `now`; `none` is an error or a panic. -/
def step (seg : Segmenter) (k : Desk) (now : Nat) : DeskOp → Option Desk
  -- document.rs L332-L343
  | .cursorAt x => some { k with cursors := k.cursors ++ [k.session.store.cursorAt seg x] }
  -- cursor.rs L54-L74
  | .clone i => k.withCursor i fun c =>
      some { k with cursors := k.cursors ++ [{ c with cellOverride := false }] }
  -- cursor.rs L280-L330
  | .setPosition i x keep => k.withCursor i fun c =>
      some { k with cursors := k.cursors.set i (k.session.store.placeCursor seg c x keep) }
  -- cursor.rs L337-L342
  | .move i op keep n => k.withCursor i fun c =>
      some { k with cursors := k.cursors.set i (k.session.store.movePosition seg c op keep n).1 }
  -- cursor.rs L345-L385
  | .select i op => k.withCursor i fun c =>
      some { k with cursors := k.cursors.set i (k.session.store.select seg c op) }
  -- cursor.rs L185-L188
  | .clearSelection i => k.withCursor i fun c =>
      some { k with cursors := k.cursors.set i (Store.clearSelection c) }
  -- cursor.rs L391-L454
  | .insertText i t => k.withCursor i fun c =>
      (k.session.cursorInsert c.position c.anchor t now).bind fun (e, q) =>
      k.finish i e (min c.position c.anchor) (max c.position c.anchor - min c.position c.anchor) q
  -- cursor.rs L523-L570
  | .insertBlock i => k.withCursor i fun c =>
      (k.session.cursorSplit c.position c.anchor now).bind fun (e, q) =>
      k.finish i e (min c.position c.anchor) (max c.position c.anchor - min c.position c.anchor) q
  | .deleteChar i => k.withCursor i fun c => k.deleteChar seg i c now
  | .deletePrevious i => k.withCursor i fun c => k.deletePrevious seg i c now
  -- cursor.rs L1602-L1641
  | .removeSelected i => k.withCursor i fun c =>
      if c.position = c.anchor then some k else k.doDelete i c.position c.anchor now
  -- document.rs L795-L834
  | .undo => (k.session.step now .undo).map fun r => { k with session := r.1 }
  | .redo => (k.session.step now .redo).map fun r => { k with session := r.1 }

/-- Several calls, each at its time. -/
def run (seg : Segmenter) (k : Desk) : List (Nat × DeskOp) → Option Desk
  | [] => some k
  | (now, op) :: ops => (k.step seg now op).bind fun k => k.run seg ops

end Desk
end Verif
