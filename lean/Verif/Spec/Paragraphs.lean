import Verif.Model.RopeStore
import Verif.Spec.Index
/-
A document as a plain list of paragraphs and table placeholders, and what it means for the
stored text and index to represent it.
-/
namespace Verif

/-- A paragraph or table placeholder with its text. -/
abbrev Para := Marker × List Char

/-- Texts joined with a newline between neighbours. -/
def joinNl : List (List Char) → List Char
  | [] => []
  | [c] => c
  | c :: cs => c ++ '\n' :: joinNl cs

/-- Where each paragraph starts when the first one starts at byte `o`: each paragraph is followed
by a one-byte newline. -/
def layout : Nat → List Para → List (Marker × Nat)
  | _, [] => []
  | o, (m, c) :: ps => (m, o) :: layout (o + utf8Len c + 1) ps

/-- The stored text and index represent the list of paragraphs `ps`. -/
structure Repr (st : RopeSt) (ps : List Para) : Prop where
  text : st.rope = joinNl (ps.map Prod.snd)
  starts : st.idx.entries = layout 0 ps
  total : st.idx.total = utf8Len st.rope
  cache : CacheOk st.idx
  tables : ∀ p ∈ ps, p.1.isTable = true → p.2 = [objChar]

end Verif
