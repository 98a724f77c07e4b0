import Verif.Model.DirectAccess
import Verif.Spec.Store
import Verif.Spec.Timeline
/-
What the entity commands are expected to do: what is owned by what, what is left of an entity that
loses references, and which stores have only valid references.
-/
namespace Verif

/-- What an entity owns. -/
def owns : (k : EKind) → Ent k → List (EKind × Nat)
  | .root, (e : Root) => if e.document = 0 then [] else [(.document, e.document)]
  | .document, (e : Document) =>
    e.frames.map (fun i => (.frame, i)) ++ e.resources.map (fun i => (.resource, i)) ++
      e.lists.map (fun i => (.list, i)) ++ e.tables.map (fun i => (.table, i))
  | .frame, (e : Frame) => e.blocks.map fun i => (.block, i)
  | .block, _ => []
  | .list, _ => []
  | .resource, _ => []
  | .table, (e : Table) => e.cells.map fun i => (.tableCell, i)
  | .tableCell, _ => []

/-- The entities that go when the entities `ids` of kind `k` are removed: these, and everything owned
by one that goes. -/
inductive Goes (s : Store) (k : EKind) (ids : List Nat) : EKind → Nat → Prop where
  | self {i : Nat} : i ∈ ids → Goes s k ids k i
  | owned {k' k'' : EKind} {o i : Nat} {e : Ent k'} : Goes s k ids k' o → s.tab k' o = some e →
      (k'', i) ∈ owns k' e → Goes s k ids k'' i

/-- An entity without its references to the entities in `gone`. -/
def forget (gone : EKind → Nat → Bool) : (k : EKind) → Ent k → Ent k
  | .root, (e : Root) => { e with document := if gone .document e.document then 0 else e.document }
  | .document, (e : Document) =>
    { e with
      frames := e.frames.filter fun i => !gone .frame i
      resources := e.resources.filter fun i => !gone .resource i
      lists := e.lists.filter fun i => !gone .list i
      tables := e.tables.filter fun i => !gone .table i }
  | .frame, (e : Frame) =>
    { e with
      blocks := e.blocks.filter fun i => !gone .block i
      childOrder := e.childOrder.filter fun j => !(decide (0 < j) && gone .block j.toNat)
      parentFrame := e.parentFrame.filter fun i => !gone .frame i
      table := e.table.filter fun i => !gone .table i }
  | .block, (e : Block) => { e with list := e.list.filter fun i => !gone .list i }
  | .list, e => e
  | .resource, e => e
  | .table, (e : Table) => { e with cells := e.cells.filter fun i => !gone .tableCell i }
  | .tableCell, (e : TableCell) => { e with cellFrame := e.cellFrame.filter fun i => !gone .frame i }

/-- `s'` is `s` without the entities in `gone`, and without any reference to them; text, offsets and
counters are as before. -/
structure Forgot (gone : EKind → Nat → Bool) (s s' : Store) : Prop where
  tab : ∀ k i, s'.tab k i = if gone k i then none else (s.tab k i).map (forget gone k)
  keys : ∀ k, (s'.tab k).keys = (s.tab k).keys.filter fun i => !gone k i
  runs : ∀ i, s'.formatRuns i = if gone .block i then none else s.formatRuns i
  runKeys : s'.formatRuns.keys = s.formatRuns.keys.filter fun i => !gone .block i
  images : ∀ i, s'.blockImages i = if gone .block i then none else s.blockImages i
  imageKeys : s'.blockImages.keys = s.blockImages.keys.filter fun i => !gone .block i
  rope : s'.rope = s.rope
  offsets : s'.blockOffsets = s.blockOffsets
  counters : s'.counters = s.counters

/-- What it refers to without owning it. -/
def mentions : (k : EKind) → Ent k → List (EKind × Nat)
  | .root, _ => []
  | .document, _ => []
  | .frame, (e : Frame) =>
    e.parentFrame.toList.map (fun i => (.frame, i)) ++ e.table.toList.map fun i => (.table, i)
  | .block, (e : Block) => e.list.toList.map fun i => (.list, i)
  | .list, _ => []
  | .resource, _ => []
  | .table, _ => []
  | .tableCell, (e : TableCell) => e.cellFrame.toList.map fun i => (.frame, i)

/-- A frame has each of its blocks once and orders only blocks it has (a positive entry of `child_order` is a
block). -/
def OrdersOwn : (k : EKind) → Ent k → Prop
  | .frame, (e : Frame) => e.blocks.Nodup ∧ ∀ j ∈ e.childOrder, 0 < j → j.toNat ∈ e.blocks
  | _, _ => True

/-- Every reference of the entity names an entity that exists, and a frame has its blocks once and orders
only its blocks. -/
structure RefsOk (s : Store) (k : EKind) (e : Ent k) : Prop where
  owns : ∀ p ∈ owns k e, (s.tab p.1 p.2).isSome = true
  mentions : ∀ p ∈ mentions k e, (s.tab p.1 p.2).isSome = true
  orders : OrdersOwn k e

/-- A store in good order: entities are filed under their own id, which is not 0; every reference
names an entity that exists; formats belong to blocks, and no two roots share a document. -/
structure Tidy (s : Store) : Prop where
  keyed : ∀ k i e, s.tab k i = some e → entId k e = i
  positive : ∀ k, s.tab k 0 = none
  refs : ∀ k i e, s.tab k i = some e → RefsOk s k e
  runs : ∀ i, (s.formatRuns i).isSome = true → (s.blocks i).isSome = true
  images : ∀ i, (s.blockImages i).isSome = true → (s.blocks i).isSome = true
  sole : ∀ i j r r', s.roots i = some r → s.roots j = some r' → r.document = r'.document →
    r.document ≠ 0 → i = j

/-- The next id of every kind is above the ids in use. -/
def Ahead (s : Store) : Prop :=
  ∀ k : EKind, 1 ≤ (s.counters k.counter).getD 1 ∧
    ∀ i, (s.tab k i).isSome = true → i < (s.counters k.counter).getD 1

/-- Everything a store holds, without the id counters. -/
def Snapshot.content (p : Snapshot) : Snapshot := { p with counters := fun _ => none }

def Store.content (s : Store) : Snapshot := s.snapshot.content

/-- What a caller has to respect: new entities are given no id, own nothing yet and refer to existing
entities only (and a document is not replaced by none at all); updates and removals are of entities
that exist; an update brings no dangling reference.  The commands on relationships are dealt with
apart. -/
def EntCall.Valid (s : Store) : EntCall → Prop
  | .create k es _ _ => k ≠ .root ∧ (k = .document → es ≠ []) ∧
      ∀ e ∈ es, entId k e = 0 ∧ owns k e = [] ∧ RefsOk s k e
  | .orphan k es => k ≠ .root ∧ ∀ e ∈ es, entId k e = 0 ∧ owns k e = [] ∧ RefsOk s k e
  | .update false k es => k ≠ .root ∧ ∀ e ∈ es, ∃ o, s.tab k (entId k e) = some o ∧
      RefsOk s k (keepEnt k e o)
  | .update true k es => k ≠ .root ∧ ∀ e ∈ es, (s.tab k (entId k e)).isSome = true ∧ RefsOk s k e
  | .remove k ids => k ≠ .root ∧ ∀ i ∈ ids, (s.tab k i).isSome = true
  | .setRel _ _ _ => False
  | .moveRel _ _ _ _ => False

/-- An entity without its relationships: what it says about itself. -/
def itself : (k : EKind) → Ent k → Ent k
  | .root, (e : Root) => { e with document := 0 }
  | .document, (e : Document) => { e with frames := [], lists := [], resources := [], tables := [] }
  | .frame, (e : Frame) => { e with parentFrame := none, blocks := [], table := none }
  | .block, (e : Block) => { e with list := none }
  | .list, e => e
  | .resource, e => e
  | .table, (e : Table) => { e with cells := [] }
  | .tableCell, (e : TableCell) => { e with cellFrame := none }

/-- `l` with `ids` put in as a whole, before the place `index`, or at the end if there is no such
place. -/
def PutIn (l : List Nat) (index : Int) (ids l' : List Nat) : Prop :=
  ∃ a b, l = a ++ b ∧ l' = a ++ ids ++ b ∧
    (0 ≤ index → index ≤ l.length → (a.length : Int) = index) ∧
    (index < 0 ∨ (l.length : Int) < index → b = [])

/-- What creating entities in an owner does (not for a document). -/
structure Created (s : Store) (k : EKind) (es : List (Ent k)) (r : RelField) (owner : Nat) (index : Int)
    (made : List (Ent k)) (s' : Store) : Prop where
  shape : made.map (fun f => entWithId k f 0) = es
  nodup : (made.map (entId k)).Nodup
  fresh : ∀ e ∈ made, entId k e ≠ 0 ∧ s.tab k (entId k e) = none
  here : ∀ e ∈ made, s'.tab k (entId k e) = some e
  kept : ∀ i, i ∉ made.map (entId k) → s'.tab k i = s.tab k i
  placed : (s.tab r.left owner).isSome = true →
    PutIn (s.readRel r owner) index (made.map (entId k)) (s'.readRel r owner)
  links : ∀ r' o, r'.left ≠ k → (r', o) ≠ (r, owner) → s'.readRel r' o = s.readRel r' o
  owners : ∀ o, (s'.tab r.left o).map (itself r.left) = (s.tab r.left o).map (itself r.left)
  others : ∀ k', k' ≠ k → k' ≠ r.left → s'.tab k' = s.tab k'
  rope : s'.rope = s.rope
  runs : s'.formatRuns = s.formatRuns
  images : s'.blockImages = s.blockImages

/-- Relationships with one entity only. -/
def RelField.single : RelField → Bool
  | .rootDocument | .frameParent | .frameTable | .blockList | .cellFrame => true
  | _ => false

/-- What the user does: a call, an undo or a redo. -/
inductive EntOp where
  | call (a : EntCall)
  | undo
  | redo

/-- One step on the history `sid`, and the time line of contents that should go with it: a call that
succeeds is a new step, one that fails is none.  The Boolean says that no undo or redo failed. -/
def entStep (sid : Option Nat) : EntOp → Mgr EntCmd → Store → Timeline Snapshot →
    Bool × Mgr EntCmd × Store × Timeline Snapshot
  | .call a, m, s, t =>
    match a.run sid m s with | (b, m', s') => (true, m', s', if b then t.edit s'.content else t)
  | .undo, m, s, t => match m.undo entApi sid s with | (b, m', s') => (b, m', s', t.undo)
  | .redo, m, s, t => match m.redo entApi sid s with | (b, m', s') => (b, m', s', t.redo)

/-- The calls of a run are all valid when they are made, or refused. -/
def ValidRun (sid : Option Nat) : List EntOp → Mgr EntCmd → Store → Timeline Snapshot → Prop
  | [], _, _, _ => True
  | op :: ops, m, s, t =>
    (∀ a, op = .call a → a.Valid s ∨ (a.exec s).1 = none) ∧
    ValidRun sid ops (entStep sid op m s t).2.1 (entStep sid op m s t).2.2.1 (entStep sid op m s t).2.2.2

/-- A history nothing has been done in. -/
structure NoHistory (m : Mgr EntCmd) (sid : Option Nat) : Prop where
  stack : m.stacks (sid.getD 0) = some {}
  idle : m.comp = none
  level : m.level = 0
  comp : m.compStack = none ∨ m.compStack = sid

/-- A whole run; the Boolean says that no undo or redo reported an error. -/
def entRun (sid : Option Nat) : List EntOp → Mgr EntCmd → Store → Timeline Snapshot →
    Bool × Mgr EntCmd × Store × Timeline Snapshot
  | [], m, s, t => (true, m, s, t)
  | op :: ops, m, s, t =>
    match entStep sid op m s t with
    | (b, m', s', t') => match entRun sid ops m' s' t' with | (b', r) => (b && b', r)

end Verif
