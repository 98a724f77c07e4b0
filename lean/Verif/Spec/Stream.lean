import Verif.Spec.Formats
import Verif.Model.Fragments
/-
What a reader sees of a paragraph: a stream of items, each a character with its format or an
inline image.
-/
namespace Verif
variable {F : Type}

inductive Item (F : Type) where
  | char (c : Char) (fmt : F)
  | image (img : Img F)
deriving DecidableEq, Repr

/-- The reading of a paragraph whose remaining text `cs` starts at byte `pos`: an image anchored
at byte `b` stands just before the character at byte `b`; characters carry the format
`f byte`. -/
def reading (f : Nat → F) : Nat → List Char → List (Img F) → List (Item F)
  | _, [], imgs => imgs.map .image
  | pos, c :: cs, imgs =>
    (imgs.takeWhile fun i => decide (i.off ≤ pos)).map .image ++
      .char c (f pos) :: reading f (pos + c.utf8Size) cs (imgs.dropWhile fun i => decide (i.off ≤ pos))

/-- Format shown for a byte: the stored one, or the default `d` where none is stored. -/
def shownFmt (d : F) (runs : List (Run F)) (i : Nat) : F := (fmtAt runs i).getD d

/-- Items of a list of segments. -/
def segItems (segs : List (Segment F)) : List (Item F) :=
  segs.flatMap fun
    | .text cs fmt => cs.map (.char · fmt)
    | .image i => [.image i]

/-- Items of a list of fragments. -/
def fragItems (frags : List (Frag F)) : List (Item F) :=
  frags.flatMap fun
    | .text cs fmt _ _ _ => cs.map (.char · fmt)
    | .image i _ => [.image i]

/-- Bytes of the characters among some items (images have no bytes). -/
def itemBytes (items : List (Item F)) : Nat :=
  (items.map fun | .char c _ => c.utf8Size | .image _ => 0).sum

/-- The text of a list of fragments. -/
def fragText (frags : List (Frag F)) : List Char :=
  frags.flatMap fun
    | .text cs _ _ _ _ => cs
    | .image _ _ => []

/-- The images of a list of fragments. -/
def fragImgs (frags : List (Frag F)) : List (Img F) :=
  frags.filterMap fun
    | .text _ _ _ _ _ => none
    | .image i _ => some i

/-- `n` is a character boundary of the text. -/
def IsBoundary (cs : List Char) (n : Nat) : Prop := ∃ a b, cs = a ++ b ∧ utf8Len a = n

/-- All span ends and image anchors are character boundaries. -/
structure Aligned (plain : List Char) (runs : List (Run F)) (imgs : List (Img F)) : Prop where
  runs : ∀ r ∈ runs, IsBoundary plain r.bs ∧ IsBoundary plain r.be
  imgs : ∀ i ∈ imgs, IsBoundary plain i.off

end Verif
