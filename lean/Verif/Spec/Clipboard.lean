import Verif.Spec.ListSharing
import Verif.Model.Clipboard
import Verif.Spec.Editing
import Verif.Spec.Stream
/-
Copying and pasting on a document as its user sees it.
-/
namespace Verif

/-- What a selection takes of a paragraph: some of its characters, and the paragraph itself when the
selection takes it whole, end of paragraph included. -/
structure Piece where
  chars : List SChar
  whole : Option SPara

/-- What lies between positions `lo` and `hi` of the paragraphs `ps`, the first of which starts at
position `n`.  A paragraph whose end alone is selected gives an empty piece.  The last paragraph is
taken whole when all its characters are. -/
def pieces (lo hi : Nat) : Nat → List SPara → List Piece
  | _, [] => []
  | n, p :: ps =>
    if n + p.chars.length < lo ∨ hi ≤ n then pieces lo hi (n + p.chars.length + 1) ps
    else
      ⟨(p.chars.take (hi - n)).drop (lo - n),
        if lo ≤ n ∧ (n + p.chars.length < hi ∨ (ps = [] ∧ n + p.chars.length = hi)) then some p else none⟩ ::
        pieces lo hi (n + p.chars.length + 1) ps

/-- The paragraphs a selection touches, the first of which starts at position `n`. -/
def touched (lo hi : Nat) : Nat → List SPara → List SPara
  | _, [] => []
  | n, p :: ps =>
    if n + p.chars.length < lo ∨ hi ≤ n then touched lo hi (n + p.chars.length + 1) ps
    else p :: touched lo hi (n + p.chars.length + 1) ps

/-- Position `n` is where a paragraph starts, not the first one. -/
def IsStart (ps : List SPara) (n : Nat) : Prop :=
  ∃ L p R, ps = L ++ p :: R ∧ L ≠ [] ∧ n = (L.map fun q => q.chars.length + 1).sum

/-- The characters of pieces, an end of paragraph between each two. -/
def pieceChars (xs : List Piece) : List SChar := docChars (xs.map fun x => ⟨0, x.chars, {}⟩)

/-- A paragraph of a fragment is the copy of a piece: its text, its characters with the formats they
show, and, of a paragraph taken whole, the paragraph format and the kind of list. -/
structure CopyOf (s : Store) (fb : Store.FragBlock) (x : Piece) : Prop where
  text : fb.text = x.chars.map Prod.fst
  chars : segItems fb.elements = x.chars.map fun c => .char c.1 (c.2.getD {})
  format : fb.format = match x.whole with
    | some p => { p.shape with id := 0, list := none, documentPosition := 0 }
    | none => {}
  list : fb.list = match x.whole with
    | some p => (p.shape.list.bind fun l => s.lists l).map fun e => ⟨e.style, e.indent, e.pre, e.suffix⟩
    | none => none

/-- A fragment is the copy of pieces, one by one. -/
def CopiesOf (s : Store) : List Store.FragBlock → List Piece → Prop
  | [], [] => True
  | fb :: fbs, x :: xs => CopyOf s fb x ∧ CopiesOf s fbs xs
  | _, _ => False

/-- The characters of a paragraph of a fragment, each with the format of its element. -/
def Store.FragBlock.chars (fb : Store.FragBlock) : List SChar :=
  fb.elements.flatMap fun
    | .text t fm => styled t (some fm)
    | .image _ => []

/-- A paragraph of text: its elements are text and make up its plain text. -/
structure Store.FragBlock.IsText (fb : Store.FragBlock) : Prop where
  elements : ∀ g ∈ fb.elements, ∃ t fm, g = .text t fm
  text : fb.text = fb.chars.map Prod.fst

/-- The list a pasted paragraph is in is of the kind the fragment asks for: same style, same indent (as an
unsigned 32-bit number). -/
def ListLike (s : Store) : Option Store.FragList → Option Nat → Prop
  | none, l => l = none
  | some fl, l => ∃ i e, l = some i ∧ s.lists i = some e ∧ e.style = fl.style ∧ Store.toU32 e.indent = Store.toU32 fl.indent

/-- A paragraph of a document is a paragraph of a fragment, pasted. -/
structure PastedOne (s : Store) (fb : Store.FragBlock) (q : SPara) : Prop where
  chars : q.chars = fb.chars
  format : q.shape = { fb.format with id := 0, documentPosition := 0, list := q.shape.list }
  list : ListLike s fb.list q.shape.list

/-- Paragraphs of a document are paragraphs of a fragment, pasted one by one. -/
def PastedAs (s : Store) : List Store.FragBlock → List SPara → Prop
  | [], [] => True
  | fb :: fbs, q :: qs => PastedOne s fb q ∧ PastedAs s fbs qs
  | _, _ => False

/-- The characters of a fragment, paragraph ends included. -/
def fragChars : List Store.FragBlock → List SChar
  | [] => []
  | [fb] => fb.chars
  | fb :: fbs => fb.chars ++ ('\n', none) :: fragChars fbs

/-- Several paragraphs, `first`, `mid` and `last`, pasted into a paragraph `p` between its characters `a` and
`b` give the paragraphs `head`, `new` and `tail`.  A paragraph of the fragment without paragraph formatting at its
begin joins the text before the caret, one at its end joins the text behind it; any other becomes a paragraph of
its own, the first one in place of `p` if there is no text before the caret.  The rest of `p` keeps the format
of `p`, unless `p` was replaced. -/
structure PastedMany (s : Store) (first : Store.FragBlock) (mid : List Store.FragBlock) (last : Store.FragBlock)
    (p : SPara) (a b : List SChar) (head : SPara) (new tail : List SPara) : Prop where
  id : head.id = p.id
  joined : first.inlineOnly = true → head = { p with chars := a ++ first.chars }
  replaced : first.inlineOnly = false → a = [] → PastedOne s first head
  kept : first.inlineOnly = false → a ≠ [] → head = { p with chars := a }
  new : PastedAs s ((if first.inlineOnly = false ∧ a ≠ [] then [first] else []) ++ mid ++
    (if last.inlineOnly = true then [] else [last])) new
  tail : ∃ shape, shape = (if first.inlineOnly = false ∧ a = [] then {} else p.shape) ∧
    (last.inlineOnly = true → ∃ n, tail = [⟨n, last.chars ++ b, shape⟩]) ∧
    (last.inlineOnly = false → b = [] → tail = []) ∧
    (last.inlineOnly = false → b ≠ [] → ∃ n, tail = [⟨n, b, shape⟩])

/-- The lists of the pasted paragraphs: by C44's rule, starting with the list of `p`, or (if the first paragraph replaces
`p`) with that paragraph. -/
structure SharedMany (s : Store) (old : List Nat) (first : Store.FragBlock) (mid : List Store.FragBlock)
    (last : Store.FragBlock) (p : SPara) (a : List SChar) (head : SPara) (new : List SPara) : Prop where
  joined : ¬ (first.inlineOnly = false ∧ a = []) → ListsJoined old (caretSeen s p.shape.list)
    (((if first.inlineOnly = false ∧ a ≠ [] then [first] else []) ++ mid ++
      (if last.inlineOnly = true then [] else [last])).map fun fb => fb.list) (new.map fun q => q.shape.list)
  replaced : first.inlineOnly = false → a = [] → ListsJoined old []
    (first.list :: ((if first.inlineOnly = false ∧ a ≠ [] then [first] else []) ++ mid ++
      (if last.inlineOnly = true then [] else [last])).map fun fb => fb.list) (head.shape.list :: new.map fun q => q.shape.list)

end Verif
