import Verif.Spec.Document
/-
What formatting a stretch of a document means to its user.  Only the data types of the model are used.
-/
namespace Verif

/-- A character under a change of format: the default format counts as the empty one. -/
def reformat (m : CharFormat → CharFormat) (c : SChar) : SChar := (c.1, some (m (c.2.getD {})))

/-- Change the format of the characters whose index is selected. -/
def reformatAt (m : CharFormat → CharFormat) (sel : Nat → Bool) (cs : List SChar) : List SChar :=
  cs.mapIdx fun i c => if sel i then reformat m c else c

/-- Change the format of the characters at the document positions in `[lo, hi)`, the first paragraph
of the list starting at position `start`; a paragraph end takes one position. -/
def reformatDoc (m : CharFormat → CharFormat) (lo hi : Nat) : Nat → List SPara → List SPara
  | _, [] => []
  | start, p :: ps =>
    { p with chars := reformatAt m (fun i => decide (lo ≤ start + i ∧ start + i < hi)) p.chars } ::
      reformatDoc m lo hi (start + p.chars.length + 1) ps

/-- Change the paragraph format of the paragraphs with a selected start position and length. -/
def reshapeDoc (g : Block → Block) (sel : Nat → Nat → Bool) : Nat → List SPara → List SPara
  | _, [] => []
  | start, p :: ps =>
    (if sel start p.chars.length then { p with shape := g p.shape } else p) ::
      reshapeDoc g sel (start + p.chars.length + 1) ps

/-- The selection `[lo, hi]` touches the paragraph that takes the positions `start` to `start + len`
(its end included): the caret is in it, or part of it is selected. -/
def touches (lo hi start len : Nat) : Bool := decide (start ≤ hi ∧ lo ≤ start + len)

/-- Two stores hold the same, a missing row of a format or image table counting as an empty one. -/
structure SameReading (a b : Store) : Prop where
  rope : a.rope = b.rope
  roots : a.roots = b.roots
  documents : a.documents = b.documents
  frames : a.frames = b.frames
  blocks : a.blocks = b.blocks
  lists : a.lists = b.lists
  resources : a.resources = b.resources
  tables : a.tables = b.tables
  tableCells : a.tableCells = b.tableCells
  blockOffsets : a.blockOffsets = b.blockOffsets
  counters : a.counters = b.counters
  formatRuns : ∀ i, (a.formatRuns i).getD [] = (b.formatRuns i).getD []
  blockImages : ∀ i, (a.blockImages i).getD [] = (b.blockImages i).getD []

end Verif
