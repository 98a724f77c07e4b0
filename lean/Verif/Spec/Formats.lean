import Verif.Model.FormatRuns
/-
Specification vocabulary for character formats.  Only the data types of the model
are used, none of its functions.
-/
namespace Verif

variable {F : Type}

/-- The format stored for byte `i`: that of the first span covering it, `none` if
no span covers it (the byte then has the default format). -/
def fmtAt (runs : List (Run F)) (i : Nat) : Option F :=
  (runs.find? fun r => decide (r.bs ≤ i ∧ i < r.be)).map (·.fmt)

/-- Every span is non-empty and each span ends before every later span starts. -/
structure Ordered (runs : List (Run F)) : Prop where
  nonempty : ∀ r ∈ runs, r.bs < r.be
  sorted : runs.Pairwise fun a b => a.be ≤ b.bs

/-- No two neighbouring spans touch and have equal formats. -/
def Coalesced : List (Run F) → Prop
  | [] => True
  | [_] => True
  | a :: b :: rest => ¬ (a.be = b.bs ∧ a.fmt = b.fmt) ∧ Coalesced (b :: rest)

/-- Well-formed span table of a paragraph of `len` bytes: the five invariants of
`debug_assert_well_formed` (format_runs.rs L117-L124). -/
structure WellFormed (len : Nat) (runs : List (Run F)) : Prop where
  ordered : Ordered runs
  coalesced : Coalesced runs
  inside : ∀ r ∈ runs, r.be ≤ len

/-- Anchors are sorted by offset and lie inside a paragraph of `len` bytes. -/
structure ImagesOk (len : Nat) (imgs : List (Img F)) : Prop where
  sorted : imgs.Pairwise fun a b => a.off ≤ b.off
  inside : ∀ i ∈ imgs, i.off ≤ len

end Verif
