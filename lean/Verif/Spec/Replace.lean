import Verif.Spec.Editing
/- Search and replace on a document as its user sees it. -/
namespace Verif

/-- Replace what stands at the characters `off`, …, `off + len - 1` of a paragraph by `rep`, which
takes the format of the character before it. -/
def rewriteAt (rep : List Char) (off len : Nat) (cs : List SChar) : List SChar :=
  cs.take off ++ styled rep (inheritFmt (cs.take off)) ++ cs.drop (off + len)

/-- Replace several stretches of a paragraph, given by offset and length in the old paragraph from left
to right: the last one first, so that the offsets of the others stay valid. -/
def rewriteAll (rep : List Char) (ms : List (Nat × Nat)) (cs : List SChar) : List SChar :=
  ms.foldr (fun m cs => rewriteAt rep m.1 m.2 cs) cs

/-- Stretches that follow each other without overlapping. -/
def Apart (ms : List (Nat × Nat)) : Prop := ms.Pairwise fun a b => a.1 + a.2 ≤ b.1

/-- The stretches that lie wholly in the paragraph of `len` characters starting at `start`, as offsets
in that paragraph. -/
def within (start len : Nat) (ms : List (Nat × Nat)) : List (Nat × Nat) :=
  (ms.filter fun m => decide (start ≤ m.1 ∧ m.1 + m.2 ≤ start + len)).map fun m => (m.1 - start, m.2)

/-- Replace stretches of a document, given by position and length; those that reach over the end of a
paragraph are left alone.  `start` is the position of the first paragraph of the list. -/
def rewriteDoc (rep : List Char) (ms : List (Nat × Nat)) : Nat → List SPara → List SPara
  | _, [] => []
  | start, p :: ps =>
    { p with chars := rewriteAll rep (within start p.chars.length ms) p.chars } ::
      rewriteDoc rep ms (start + p.chars.length + 1) ps

/-- Replace the occurrences of `q` by `rep`, reading from left to right and going on after each
occurrence.  `f` is the format of the character just before, `skip` the number of characters of an
occurrence still to be dropped. -/
def replaceScan (q rep : List Char) : Option CharFormat → Nat → List SChar → List SChar
  | _, _, [] => []
  | _, skip + 1, c :: cs => replaceScan q rep c.2 skip cs
  | f, 0, c :: cs =>
    if q.isPrefixOf ((c :: cs).map Prod.fst) then
      styled rep f ++ replaceScan q rep c.2 (q.length - 1) cs
    else c :: replaceScan q rep c.2 0 cs

/-- The paragraph with every occurrence of `q` replaced by `rep`. -/
def replacePara (q rep : List Char) (p : SPara) : SPara :=
  { p with chars := replaceScan q rep none 0 p.chars }

/-- The positions where `q` occurs in `t`. -/
def occurrences (q : List Char) : List Char → List Nat
  | [] => []
  | c :: cs => (if q.isPrefixOf (c :: cs) then [0] else []) ++ (occurrences q cs).map (· + 1)

end Verif
