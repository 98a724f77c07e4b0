import Verif.Spec.Inspect
import Verif.Model.Cursor
/- What a user expects of a cursor. -/
namespace Verif

/-- What the theorems need of Unicode segmentation. -/
structure Segmenter.Lawful (seg : Segmenter) : Prop where
  /-- the clusters of a text are the text -/
  cover : ∀ t, (seg.graphemes t).flatten = t
  nonempty : ∀ t, ∀ g ∈ seg.graphemes t, g ≠ []
  /-- cutting a text between two clusters does not change the clusters -/
  cut : ∀ t a b, seg.graphemes t = a ++ b → seg.graphemes a.flatten = a ∧ seg.graphemes b.flatten = b
  /-- a newline is a cluster of its own -/
  newline : ∀ t, seg.graphemes ('\n' :: t) = ['\n'] :: seg.graphemes t
  /-- words lie in the text and are not empty -/
  inside : ∀ t, ∀ w ∈ seg.words t, 0 < w.2 ∧ w.1 + w.2 ≤ t.length
  /-- words come in order and do not overlap -/
  ordered : ∀ t, (seg.words t).Pairwise fun v w => v.1 + v.2 ≤ w.1

/-- A place for the cursor: the start or the end of a paragraph, or between two grapheme clusters of it. -/
def IsStop (seg : Segmenter) (ps : List SPara) (pos : Nat) : Prop :=
  ∃ n p a b, ps[n]? = some p ∧ seg.graphemes p.text = a ++ b ∧ pos = paraStart ps n + a.flatten.length

/-- `b` is the first place after `a`. -/
structure NextStop (seg : Segmenter) (ps : List SPara) (a b : Nat) : Prop where
  stop : IsStop seg ps b
  after : a < b
  first : ∀ c, IsStop seg ps c → a < c → b ≤ c

/-- `b` is the last place before `a`. -/
structure PrevStop (seg : Segmenter) (ps : List SPara) (a b : Nat) : Prop where
  stop : IsStop seg ps b
  before : b < a
  last : ∀ c, IsStop seg ps c → c < a → c ≤ b

/-- The first place at or after a position. -/
structure FirstStop (seg : Segmenter) (ps : List SPara) (a b : Nat) : Prop where
  stop : IsStop seg ps b
  after : a ≤ b
  first : ∀ c, IsStop seg ps c → a ≤ c → b ≤ c

/-- `n` steps of `R`, or fewer if there is no further one. -/
inductive StepsTo (R : Nat → Nat → Prop) : Nat → Nat → Nat → Prop where
  | zero {a} : StepsTo R 0 a a
  | stuck {n a} : (∀ c, ¬ R a c) → StepsTo R n a a
  | step {n a b c} : R a b → StepsTo R n b c → StepsTo R (n + 1) a c

/-- No table cell is a frame of the text. -/
def NoCells (s : Store) (f : Nat) : Prop := ∀ k c, s.tableCells k = some c → c.cellFrame ≠ some f

/-- The position is in a paragraph, and not at the end of one that has text and a paragraph after it. -/
def InParagraph (ps : List SPara) (pos n k : Nat) (p : SPara) : Prop :=
  ps[n]? = some p ∧ pos = paraStart ps n + k ∧ k ≤ p.chars.length ∧
    (k < p.chars.length ∨ p.chars = [] ∨ ps[n + 1]? = none)

/-- The word from `a` to `b` holds the character after `pos`. -/
def WordAt (seg : Segmenter) (ps : List SPara) (pos a b : Nat) : Prop :=
  ∃ n p w, ps[n]? = some p ∧ w ∈ seg.words p.text ∧ a = paraStart ps n + w.1 ∧ b = paraStart ps n + w.1 + w.2 ∧
    a ≤ pos ∧ pos < b

/-- The position `k` of the paragraph is not inside a word, and `w` is the last word before it. -/
def LastWordBefore (seg : Segmenter) (p : SPara) (k : Nat) (w : Nat × Nat) : Prop :=
  w ∈ seg.words p.text ∧ w.1 + w.2 ≤ k ∧ ∀ v ∈ seg.words p.text, v.1 < k → v.1 ≤ w.1

end Verif
