/-
Model of `crates/common/src/format_runs.rs`: the per-paragraph table of
character-format spans ("runs") and inline-image anchors.

Simplifications: byte offsets are `Nat` (no overflow at 2^32); the format type
`F` is a parameter with decidable equality (`CharacterFormat`, L67-L85, derives
`PartialEq, Eq`); `clone`s disappear.
-/
namespace Verif

/-- `FormatRun`, format_runs.rs L91-L95: bytes `[bs, be)` carry format `fmt`. -/
structure Run (F : Type) where
  bs : Nat
  be : Nat
  fmt : F
deriving DecidableEq, Repr

/-- `ImageAnchor`, format_runs.rs L104-L111. -/
structure Img (F : Type) where
  off : Nat
  name : String
  width : Int
  height : Int
  quality : Int
  fmt : F
deriving DecidableEq, Repr

variable {F : Type}

/-- Loop of `coalesce_in_place`, format_runs.rs L156-L173: `a` is the run being extended
(the code's write cursor). -/
def coalesceGo [DecidableEq F] (a : Run F) : List (Run F) → List (Run F)
  | [] => [a]
  | b :: rest =>
    if a.be = b.bs ∧ a.fmt = b.fmt then coalesceGo { a with be := b.be } rest
    else a :: coalesceGo b rest

/-- `coalesce_in_place`, format_runs.rs L156-L173.  The code compacts the vector
in place with a read and a write index; the run under the write index is the
head of the list here, and the runs still to be read are its tail. -/
def coalesce [DecidableEq F] : List (Run F) → List (Run F)
  | [] => []
  | a :: rest => coalesceGo a rest

/-- First loop of `splice_range`, format_runs.rs L197-L208: keep or clip what lies
before `s`. -/
def keepLeft (s : Nat) (runs : List (Run F)) : List (Run F) :=
  runs.filterMap fun r =>
    if r.be ≤ s then some r
    else if r.bs < s then some { r with be := s }
    else none

/-- Second loop of `splice_range`, format_runs.rs L214-L225: keep or clip what lies
from `e` on. -/
def keepRight (e : Nat) (runs : List (Run F)) : List (Run F) :=
  runs.filterMap fun r =>
    if r.bs ≥ e then some r
    else if r.be > e then some { r with bs := e }
    else none

/-- `splice_range`, format_runs.rs L184-L229. -/
def spliceRange [DecidableEq F] (runs : List (Run F)) (s e : Nat)
    (replacement : List (Run F)) : List (Run F) :=
  coalesce (keepLeft s runs ++ replacement ++ keepRight e runs)

/-- `capture_runs_in_range`, format_runs.rs L241-L258. -/
def captureRuns (runs : List (Run F)) (s e : Nat) : List (Run F) :=
  runs.filterMap fun r =>
    if r.be ≤ s ∨ r.bs ≥ e then none
    else
      let cs := max r.bs s
      let ce := min r.be e
      if cs < ce then some { r with bs := cs, be := ce } else none

/-- `capture_image_formats_in_range`, format_runs.rs L263-L275. -/
def captureImageFormats (imgs : List (Img F)) (s e : Nat) : List (Nat × F) :=
  imgs.filterMap fun i =>
    if i.off ≥ s ∧ i.off < e then some (i.off, i.fmt) else none

/-- `shift_after`, format_runs.rs L284-L294.  The code casts the `i64` sum back to
`u32`; a negative sum (excluded there by a `debug_assert!`) becomes 0 here. -/
def shiftAfter (runs : List (Run F)) (threshold : Nat) (delta : Int) : List (Run F) :=
  runs.map fun r =>
    if r.bs ≥ threshold then
      { r with bs := (r.bs + delta).toNat, be := (r.be + delta).toNat }
    else r

/-- `shift_images_after`, format_runs.rs L318-L326 (same remark as `shiftAfter`). -/
def shiftImagesAfter (imgs : List (Img F)) (threshold : Nat) (delta : Int) : List (Img F) :=
  imgs.map fun i =>
    if i.off ≥ threshold then { i with off := (i.off + delta).toNat } else i

/-- `shift_runs_for_insert`, format_runs.rs L338-L353. -/
def shiftRunsForInsert (runs : List (Run F)) (o n : Nat) : List (Run F) :=
  if n = 0 then runs
  else runs.map fun r =>
    if r.bs ≥ o then { r with bs := r.bs + n, be := r.be + n }
    else if r.be ≥ o then { r with be := r.be + n }
    else r

/-- `shift_runs_for_delete`, format_runs.rs L359-L369. -/
def shiftRunsForDelete [DecidableEq F] (runs : List (Run F)) (s e : Nat) : List (Run F) :=
  if e ≤ s then runs
  else
    let spliced := spliceRange runs s e []
    let shifted := shiftAfter spliced e (-((e - s : Nat) : Int))
    coalesce shifted

/-- `shift_images_for_insert`, format_runs.rs L373-L382. -/
def shiftImagesForInsert (imgs : List (Img F)) (o n : Nat) : List (Img F) :=
  if n = 0 then imgs
  else imgs.map fun i => if i.off ≥ o then { i with off := i.off + n } else i

/-- `shift_images_for_delete`, format_runs.rs L388-L402: new anchors and the number
of anchors removed. -/
def shiftImagesForDelete (imgs : List (Img F)) (s e : Nat) : List (Img F) × Nat :=
  if e ≤ s then (imgs, 0)
  else
    let kept := imgs.filter fun i => !(decide (i.off ≥ s) && decide (i.off < e))
    let removed := imgs.length - kept.length
    (shiftImagesAfter kept e (-((e - s : Nat) : Int)), removed)

/-- `split_runs_at`, format_runs.rs L446-L472, left output. -/
def splitRunsLeft (runs : List (Run F)) (o : Nat) : List (Run F) :=
  runs.flatMap fun r =>
    if r.be ≤ o then [r]
    else if r.bs ≥ o then []
    else [{ r with be := o }]

/-- `split_runs_at`, format_runs.rs L446-L472, right output (re-based at `o`). -/
def splitRunsRight (runs : List (Run F)) (o : Nat) : List (Run F) :=
  runs.flatMap fun r =>
    if r.be ≤ o then []
    else if r.bs ≥ o then [{ r with bs := r.bs - o, be := r.be - o }]
    else [{ r with bs := 0, be := r.be - o }]

/-- `split_runs_at`, format_runs.rs L446-L472. -/
def splitRunsAt (runs : List (Run F)) (o : Nat) : List (Run F) × List (Run F) :=
  (splitRunsLeft runs o, splitRunsRight runs o)

/-- `split_images_at`, format_runs.rs L476-L492. -/
def splitImagesAt (imgs : List (Img F)) (o : Nat) : List (Img F) × List (Img F) :=
  (imgs.filter fun i => decide (i.off < o),
   (imgs.filter fun i => !decide (i.off < o)).map fun i => { i with off := i.off - o })

/-- Merge of the span tables of two joined paragraphs, delete_text_uc.rs
L707-L736 (cross-paragraph branch of `execute_delete`): runs of the first paragraph
clipped to `[0, so)`, followed by the runs of the second from `eo` on, re-based to
start at `so`, then coalesced. -/
def mergeRunsForJoin [DecidableEq F] (runsA : List (Run F)) (so : Nat)
    (runsB : List (Run F)) (eo : Nat) : List (Run F) :=
  coalesce (keepLeft so runsA ++
    (keepRight eo runsB).map fun r => { r with bs := so + (r.bs - eo), be := so + (r.be - eo) })

/-- Merge of the image anchors of two joined paragraphs, delete_text_uc.rs
L739-L752. -/
def mergeImagesForJoin (imgsA : List (Img F)) (so : Nat)
    (imgsB : List (Img F)) (eo : Nat) : List (Img F) :=
  (imgsA.filter fun i => decide (i.off < so)) ++
  (imgsB.filter fun i => decide (i.off ≥ eo)).map fun i => { i with off := so + (i.off - eo) }

end Verif
