import Verif.Model.Commands
import Verif.Spec.Histories
import Verif.Spec.Index
import Verif.Spec.Formats
/-
What undo is expected to do, in any document.
-/
namespace Verif

/-- A paragraph without the position stored with it. -/
def Block.unplaced (b : Block) : Block := { b with documentPosition := 0 }

/-- The same document: the same text with the same index, the same entities with the same content and
relationships, the same formats and images (a missing row counting as an empty one).  Only the positions stored with
paragraphs and the id counters may differ. -/
structure AsBefore (s t : Store) : Prop where
  rope : t.rope = s.rope
  offsets : t.blockOffsets = s.blockOffsets
  roots : t.roots = s.roots
  documents : t.documents = s.documents
  frames : t.frames = s.frames
  blocks : ∀ i, (t.blocks i).map Block.unplaced = (s.blocks i).map Block.unplaced
  blockKeys : t.blocks.keys = s.blocks.keys
  lists : t.lists = s.lists
  resources : t.resources = s.resources
  tables : t.tables = s.tables
  tableCells : t.tableCells = s.tableCells
  runs : ∀ i, (t.formatRuns i).getD [] = (s.formatRuns i).getD []
  images : ∀ i, (t.blockImages i).getD [] = (s.blockImages i).getD []

/-- Commands that keep the whole store for undo; the others are typing without a selection and character formats. -/
def EditCall.keepsAll : EditCall → Bool
  | .typeText d => decide (d.position ≠ d.anchor)
  | .typeFormatted d => decide (d.position ≠ d.anchor)
  | .format _ _ _ => false
  | _ => true

/-- What undo needs of the document: for typing the index of the text in order, for character formats span tables
in order, no two images of a paragraph at one place and no paragraph twice in the document. -/
def EditCall.Careful (s : Store) : EditCall → Prop
  | .typeText d => d.position = d.anchor → IndexOrdered s.blockOffsets
  | .typeFormatted d => d.position = d.anchor → IndexOrdered s.blockOffsets
  | .format _ _ _ => (∀ did, s.docId = some did → ((s.sortedBlocks did).map Block.id).Nodup) ∧
      (∀ i, ∃ len, WellFormed len ((s.formatRuns i).getD [])) ∧
      (∀ i, ((s.blockImages i).getD []).Pairwise fun a b => a.off ≠ b.off)
  | _ => True

/-- Merged typing goes on in the paragraph of the earlier typing, where that ended. -/
def Follows : UndoData → UndoData → Prop
  | .typed (.simple d), .typed (.simple d') => d'.blockId = d.blockId ∧ d'.byteOffset = d.byteOffset + d.byteLen
  | _, _ => True

/-- What undo needs of one step of a history. -/
def CarefulOp (w : Work) : WorkOp → Prop
  | .call c merge => c.Careful w.store ∧
      (merge = true → ∀ t u, c.run w.store = some (t, u) → ∀ d ∈ w.done.head?, Follows d.2 u)
  | .redo => ∀ c ∈ w.undone.head?, c.Careful w.store
  | .load _ _ => w.done = []
  | _ => True

/-- What undo needs of a whole history. -/
def CarefulRun : Work → List WorkOp → Prop
  | _, [] => True
  | w, o :: os => CarefulOp w o ∧ ∀ w', w.step o = some w' → CarefulRun w' os

/-- The documents undo has to bring back, the latest first, after the step `o` from `w` to `w'`: a command and a redo
add the document they start from, unless they are merged with the step before. -/
def nextPast (w w' : Work) (past : List Store) : WorkOp → List Store
  | .call _ _ => if w'.done.length = w.done.length then past else w.store :: past
  | .undo => past.tail
  | .redo => match w.undone with | [] => past | _ :: _ => w.store :: past
  | .setPlainText _ => []
  | .load _ _ => past

/-- In this history every undo succeeds and brings back the document before the step it takes back; if there is none
it changes nothing. -/
def UndoWorks : Work → List Store → List WorkOp → Prop
  | _, _, [] => True
  | w, past, o :: os =>
    (o = .undo → ∃ w', w.step .undo = some w' ∧ (∀ p ∈ past.head?, AsBefore p w'.store) ∧ (past = [] → w' = w)) ∧
    ∀ w', w.step o = some w' → UndoWorks w' (nextPast w w' past o) os

end Verif
