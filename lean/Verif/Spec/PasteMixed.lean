import Verif.Spec.PasteTable
import Verif.Spec.Docx
import Verif.Spec.Editing
import Verif.Spec.ListCommands
import Verif.Model.PasteMixed
/-
What pasting a fragment of paragraphs and tables should give.
-/
namespace Verif
open Store

/-- A paragraph of the document is a pasted paragraph of the fragment, a table a pasted table. -/
def ItemLike (s : Store) : MixItem → SItem → Prop
  | .para fb, .para q => PastedOne s fb q
  | .table t, .table x => TableLike t x
  | _, _ => False

/-- The paragraphs of a fragment. -/
def fragParas : List MixItem → List FragBlock
  | [] => []
  | .para fb :: l => fb :: fragParas l
  | .table _ :: l => fragParas l

/-- The tables of a fragment. -/
def fragTables : List MixItem → List FragTable
  | [] => []
  | .para _ :: l => fragTables l
  | .table t :: l => t :: fragTables l

/-- Each table says how many paragraphs are in front of it. -/
def Numbered (items : List MixItem) : Prop := ∀ A t B, items = A ++ .table t :: B → t.index = (fragParas A).length

/-- What becomes of the paragraph `p` with the caret behind its characters `a`: a first paragraph of the fragment without
paragraph format joins these characters; one with a paragraph format takes the place of the paragraph if the caret is at its
beginning; else the paragraph just ends at the caret.  `rest` is what is left of the fragment, `shape` the format for a
paragraph made of the characters behind the caret. -/
inductive MixHead (s : Store) (p : SPara) (a : List SChar) : List MixItem → SPara → List MixItem → Block → Prop where
  | joined (fb : FragBlock) (rest : List MixItem) (hd : SPara) : fb.inlineOnly = true → hd = ⟨p.id, a ++ fb.chars, p.shape⟩ →
      MixHead s p a (.para fb :: rest) hd rest p.shape
  | taken (fb : FragBlock) (rest : List MixItem) (hd : SPara) : fb.inlineOnly = false → a = [] → hd.id = p.id → PastedOne s fb hd →
      MixHead s p a (.para fb :: rest) hd rest {}
  | ended (items : List MixItem) (hd : SPara) : (∀ fb rest, items = .para fb :: rest → fb.inlineOnly = false ∧ a ≠ []) →
      hd = ⟨p.id, a, p.shape⟩ → MixHead s p a items hd items p.shape

/-- The first paragraph of the fragment goes into the paragraph with the caret. -/
def mixEnters (a : List SChar) : List MixItem → Bool
  | .para fb :: _ => fb.inlineOnly || a.isEmpty
  | _ => false

/-- The last paragraph of the fragment goes before the characters behind the caret: it has no paragraph format and is not the
only one. -/
def mixJoins (items : List MixItem) : Bool :=
  decide (2 ≤ (fragParas items).length) && (items.getLast?.map fun
    | .para fb => fb.inlineOnly
    | .table _ => false).getD false

/-- What becomes of the characters `b` behind the caret: the last paragraph goes before them (`joins`), else they make a
paragraph unless there are none.  `mids` is what is left of the fragment. -/
inductive MixTail (shape : Block) (b : List SChar) : Bool → List MixItem → List MixItem → List SPara → Prop where
  | joined (fb : FragBlock) (mids : List MixItem) (q : SPara) : q.chars = fb.chars ++ b → q.shape = shape →
      MixTail shape b true (mids ++ [.para fb]) mids [q]
  | alone (mids : List MixItem) (q : SPara) : b ≠ [] → q.chars = b → q.shape = shape → MixTail shape b false mids mids [q]
  | none (mids : List MixItem) : b = [] → MixTail shape b false mids mids []

/-- The paragraph `hd` with the caret, the items `new` and the rest `tl` are what pasting the fragment `items` between the
characters `a` and `b` of the paragraph `p` should give. -/
def MixPasted (s : Store) (p : SPara) (a b : List SChar) (items : List MixItem) (hd : SPara) (new : List SItem) (tl : List SPara) : Prop :=
  ∃ rest shape mids, MixHead s p a items hd rest shape ∧ MixTail shape b (mixJoins items) rest mids tl ∧ InTurn (ItemLike s) mids new

end Verif
