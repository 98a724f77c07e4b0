import Verif.Model.Desk
import Verif.Spec.Cursor
import Verif.Spec.Editing
import Verif.Lemmas.Sole
/- What a user expects of a document with several cursors. -/
namespace Verif

/-- The undo manager is between two calls: no group is open and the document's stack exists. -/
structure Idle (e : Session) : Prop where
  stack : (e.mgr.stacks (e.sid.getD 0)).isSome
  comp : e.mgr.comp = none
  level : e.mgr.level = 0
  owner : e.mgr.compStack = none ∨ e.mgr.compStack = e.sid

/-- The document holds the paragraphs `ps` with right counts, and every cursor lies in it. -/
structure DeskOk (d : Document) (f : Nat) (k : Desk) (ps : List SPara) : Prop where
  flat : Flat k.session.store (countsOf d ps) f ps
  sole : Sole d.id f k.session.store
  idle : Idle k.session
  inside : ∀ c ∈ k.cursors, c.position ≤ docLen ps ∧ c.anchor ≤ docLen ps

/-- Where a position goes when `removed` characters after `at` are replaced by `added` ones: it stays
in front of the edit, goes behind the new text from inside the removed one, and moves along after it. -/
def carried (at_ removed added x : Nat) : Nat :=
  if x ≤ at_ then x else if x < at_ + removed then at_ + added else x + added - removed

/-- The cursors after an edit by cursor `i`, which ends up behind the new text. -/
def cursorsAfter (cs : List Cursor) (i at_ removed added : Nat) : List Cursor :=
  (cs.map fun c => ⟨carried at_ removed added c.position, carried at_ removed added c.anchor, false⟩).set i
    ⟨at_ + added, at_ + added, false⟩

/-- The calls after which all cursors are known to be in the document: all but undo, redo, and
`cursor_at` other than `cursor()`, which is `cursor_at(0)`. -/
def DeskOp.Tame : DeskOp → Prop
  | .undo | .redo => False
  | .cursorAt x => x = 0
  | _ => True

end Verif
