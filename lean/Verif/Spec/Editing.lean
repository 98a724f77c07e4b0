import Verif.Spec.Document
/-
The editing commands on a document as its user sees it: a list of paragraphs, whose positions count
every character and one for the end of each paragraph.
-/
namespace Verif

/-- Number of positions of a document after 0: its characters and its paragraph ends but the last. -/
def docLen : List SPara → Nat
  | [] => 0
  | [p] => p.chars.length
  | p :: ps => p.chars.length + 1 + docLen ps

/-- Number of characters of a document, paragraph ends not counted. -/
def charTotal (ps : List SPara) : Nat := (ps.map fun p => p.chars.length).sum

/-- Type `t` at position `pos`; it takes the format of the character before it in its paragraph. -/
def typeAt (pos : Nat) (t : List Char) : List SPara → List SPara
  | [] => []
  | p :: ps =>
    if pos ≤ p.chars.length then
      { p with chars := p.chars.take pos ++ styled t (inheritFmt (p.chars.take pos)) ++ p.chars.drop pos } :: ps
    else p :: typeAt (pos - p.chars.length - 1) t ps

/-- Split the paragraph at position `pos`; the second half gets the identity `new` and the format of
the paragraph. -/
def splitPara (pos new : Nat) : List SPara → List SPara
  | [] => []
  | p :: ps =>
    if pos ≤ p.chars.length then
      { p with chars := p.chars.take pos } :: ⟨new, p.chars.drop pos, p.shape⟩ :: ps
    else p :: splitPara (pos - p.chars.length - 1) new ps

/-- What follows position `pos`: the rest of its paragraph, and the later paragraphs. -/
def restFrom (pos : Nat) : List SPara → List SChar × List SPara
  | [] => ([], [])
  | p :: ps =>
    if pos ≤ p.chars.length then (p.chars.drop pos, ps)
    else restFrom (pos - p.chars.length - 1) ps

/-- Delete what lies between positions `lo` and `hi`; the paragraph of `lo` keeps its format and is
continued by what followed `hi`. -/
def deleteBetween (lo hi : Nat) : List SPara → List SPara
  | [] => []
  | p :: ps =>
    if lo ≤ p.chars.length then
      { p with chars := p.chars.take lo ++ (restFrom hi (p :: ps)).1 } :: (restFrom hi (p :: ps)).2
    else p :: deleteBetween (lo - p.chars.length - 1) (hi - p.chars.length - 1) ps

/-- The characters of the whole document, each paragraph end a newline without a format. -/
def docChars : List SPara → List SChar
  | [] => []
  | [p] => p.chars
  | p :: ps => p.chars ++ ('\n', none) :: docChars ps

/-- A document without the identities of its paragraphs: what is on the screen. -/
def look (ps : List SPara) : List SPara := ps.map fun p => { p with id := 0 }

/-- The document record of a document, its counts being those of `d` plus those of `ps`. -/
def countsOf (d : Document) (ps : List SPara) : Document :=
  { d with
    characterCount := d.characterCount + charTotal ps
    blockCount := d.blockCount + ps.length }

end Verif
