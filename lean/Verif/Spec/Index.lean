import Verif.Model.OffsetIndex
/-
What it means for the look-up caches of the paragraph index to be right, and for the index to
be ordered.
-/
namespace Verif

/-- The cached position of a marker is its position in the entry list (so no marker occurs
twice), and the cached table count is the number of table entries. -/
structure CacheOk (x : Index) : Prop where
  pos : ∀ m i, x.pos m = some i ↔ (x.entries[i]?).map Prod.fst = some m
  anchors : x.anchors = (x.entries.filter fun e => e.1.isTable).length

/-- Start bytes increase strictly and stay inside the text; the first entry starts at 0. -/
structure IndexOrdered (x : Index) : Prop where
  sorted : x.entries.Pairwise fun a b => a.2 < b.2
  inside : ∀ e ∈ x.entries, e.2 ≤ x.total
  first : ∀ e, x.entries.head? = some e → e.2 = 0

end Verif
