import Verif.Model.Text
/-
`BlockOffsetIndex`, common/src/database/block_offset_index.rs: the ordered list of
paragraphs and table anchors with their start byte, and the caches kept beside it.
`none` stands for a panic of the code.
-/
namespace Verif

/-- `OffsetMarker`, block_offset_index.rs L25-L48. -/
inductive Marker where
  | block (id : Nat)
  | table (id : Nat)
deriving DecidableEq, Repr

/-- `matches!(m, OffsetMarker::TableAnchor(_))`. -/
def Marker.isTable : Marker → Bool
  | .table _ => true
  | .block _ => false

/-- `BlockOffsetIndex`, block_offset_index.rs L51-L86.  The hash map `marker_index` is a
function. -/
structure Index where
  entries : List (Marker × Nat)
  total : Nat
  pos : Marker → Option Nat
  anchors : Nat

/-- `BlockOffsetIndex::new`, L89-L91. -/
def Index.empty : Index := ⟨[], 0, fun _ => none, 0⟩

/-- `set_total_bytes`, L105-L107. -/
def Index.setTotal (x : Index) (n : Nat) : Index := { x with total := n }

/-- `insert_at`, L120-L133 (`Vec::insert` panics past the end). -/
def Index.insertAt (x : Index) (position : Nat) (m : Marker) (bs : Nat) : Option Index :=
  if position ≤ x.entries.length then
    some
      { x with
        entries := x.entries.insertIdx position (m, bs)
        pos := fun m' =>
          if m' = m then some position
          else (x.pos m').map fun p => if p ≥ position then p + 1 else p
        anchors := if m.isTable then x.anchors + 1 else x.anchors }
  else none

/-- `push`, L136-L150 (`push_block`, L154, is `push (.block id)`).  The `debug_assert!` on the
ordering is not modelled. -/
def Index.push (x : Index) (m : Marker) (bs : Nat) : Index :=
  { x with
    entries := x.entries ++ [(m, bs)]
    pos := fun m' => if m' = m then some x.entries.length else x.pos m'
    anchors := if m.isTable then x.anchors + 1 else x.anchors }

/-- `remove_at`, L159-L172. -/
def Index.removeAt (x : Index) (position : Nat) : Option Index :=
  match x.entries[position]? with
  | none => none
  | some (m, _) =>
    some
      { x with
        entries := x.entries.eraseIdx position
        pos := fun m' =>
          if m' = m then none else (x.pos m').map fun p => if p > position then p - 1 else p
        anchors := if m.isTable then x.anchors - 1 else x.anchors }

/-- `drain_inclusive`, L177-L203 (`Vec::drain` panics if the range is not inside). -/
def Index.drainInclusive (x : Index) (start stop : Nat) : Option Index :=
  if stop < x.entries.length ∧ start ≤ stop + 1 then
    let removed := (x.entries.drop start).take (stop + 1 - start)
    some
      { x with
        entries := x.entries.take start ++ x.entries.drop (stop + 1)
        anchors := x.anchors - (removed.filter fun p => p.1.isTable).length
        pos := fun m' =>
          if m' ∈ removed.map Prod.fst then none
          else (x.pos m').map fun p => if p > stop then p - removed.length else p }
  else none

/-- `clear`, L206-L211. -/
def Index.clear (_ : Index) : Index := .empty

/-- Loop of `rebuild_marker_index`, L219-L224 (the later of two equal markers wins). -/
def rebuildPos (entries : List (Marker × Nat)) : Marker → Option Nat :=
  (entries.zipIdx).foldl (fun acc p m => if m = p.1.1 then some p.2 else acc m) (fun _ => none)

/-- `rebuild_marker_index`, L216-L228. -/
def Index.rebuild (x : Index) : Index :=
  { x with
    pos := rebuildPos x.entries
    anchors := (x.entries.filter fun p => p.1.isTable).length }

/-- `range_with_successor`, L259-L269 (indexing panics if the cached position is out of
range). The outer `Option` is a panic, the inner one "not indexed". -/
def Index.rangeWithSuccessor (x : Index) (m : Marker) : Option (Option (Nat × Nat × Bool)) :=
  match x.pos m with
  | none => some none
  | some i =>
    (x.entries[i]?).map fun e =>
      match x.entries[i + 1]? with
      | some e' => some (e.2, e'.2, true)
      | none => some (e.2, x.total, false)

/-- `range_of`, L234-L243. -/
def Index.rangeOf (x : Index) (m : Marker) : Option (Option (Nat × Nat)) :=
  match x.pos m with
  | none => some none
  | some i =>
    (x.entries[i]?).map fun e =>
      some (e.2, match x.entries[i + 1]? with | some e' => e'.2 | none => x.total)

/-- `position_of`, L274-L276. -/
def Index.positionOf (x : Index) (m : Marker) : Option Nat := x.pos m

/-- Number of leading entries with `byte_start < b`: `partition_point` on a sorted vector. -/
def Index.lowerBound (x : Index) (b : Nat) : Nat :=
  (x.entries.takeWhile fun e => decide (e.2 < b)).length

/-- `marker_at_byte`, L283-L296.  `binary_search_by_key` on a sorted vector with distinct
keys: `Ok(i)` if entry `i` has the key, else `Err(i)` with `i` the insertion point. -/
def Index.markerAtByte (x : Index) (b : Nat) : Option Marker :=
  if x.entries.isEmpty then none
  else if b > x.total then none
  else
    let i := x.lowerBound b
    match x.entries[i]? with
    | some e => if e.2 = b then some e.1
      else if i = 0 then none else (x.entries[i - 1]?).map (·.1)
    | none => if i = 0 then none else (x.entries[i - 1]?).map (·.1)

/-- `as_block`, L31-L36. -/
def Marker.asBlock : Marker → Option Nat
  | .block id => some id
  | .table _ => none

/-- `block_at_byte`, L300-L302. -/
def Index.blockAtByte (x : Index) (b : Nat) : Option Nat := (x.markerAtByte b).bind Marker.asBlock

/-- `byte_to_marker_byte`, L307-L311 (`byte - start` panics below zero). -/
def Index.byteToMarkerByte (x : Index) (b : Nat) : Option (Option (Marker × Nat)) :=
  match x.markerAtByte b with
  | none => some none
  | some m =>
    (x.rangeOf m).bind fun
      | none => some none
      | some (s, _) => if b < s then none else some (some (m, b - s))

/-- `apply_delta`, L339-L350. -/
def applyDelta (v : Nat) (d : Int) : Option Nat :=
  if 0 ≤ (v : Int) + d then some ((v : Int) + d).toNat else none

/-- `shift_after`, L328-L336. -/
def Index.shiftAfter (x : Index) (threshold : Nat) (d : Int) : Option Index :=
  let start := x.lowerBound threshold
  ((x.entries.drop start).mapM fun e => (applyDelta e.2 d).map fun v => (e.1, v)).bind fun tl =>
  (applyDelta x.total d).map fun t =>
    { x with entries := x.entries.take start ++ tl, total := t }

end Verif
