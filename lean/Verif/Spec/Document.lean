import Verif.Model.Store
import Verif.Spec.Paragraphs
import Verif.Spec.Formats
/-
A document as its user sees it: a list of paragraphs, each a list of characters with their formats
and a paragraph format; and what it means for a store to show such a document.
-/
namespace Verif

/-- A character with its own format, `none` being the default one. -/
abbrev SChar := Char × Option CharFormat

/-- A paragraph: its identity, its characters, and its paragraph-level format (the block with the
id and the stored position left at 0). -/
structure SPara where
  id : Nat
  chars : List SChar
  shape : Block
deriving DecidableEq

/-- The plain text of a paragraph. -/
def SPara.text (p : SPara) : List Char := p.chars.map Prod.fst

/-- The plain text of a document: its paragraphs joined with newlines. -/
def docText (ps : List SPara) : List Char := joinNl (ps.map SPara.text)

/-- The formats of the bytes of a paragraph: each character's, once per byte of its encoding. -/
def byteFmts (cs : List SChar) : List (Option CharFormat) :=
  cs.flatMap fun c => List.replicate c.1.utf8Size c.2

/-- A span table gives each character of a paragraph its format. -/
structure StyledOk (runs : List (Run CharFormat)) (cs : List SChar) : Prop where
  wf : WellFormed (utf8Len (cs.map Prod.fst)) runs
  fmt : ∀ i, fmtAt runs i = ((byteFmts cs)[i]?).join

/-- The paragraphs without their formats. -/
def paras (ps : List SPara) : List Para := ps.map fun p => (.block p.id, p.text)

/-- The id the next created entity of a kind will get. -/
def Store.next (s : Store) (kind : String) : Nat := (s.counters kind).getD 1

/-- `b` is the stored entity of paragraph `p`, at some stored position (possibly out of date). -/
def IsBlock (p : SPara) (b : Block) : Prop :=
  b = { p.shape with id := p.id, documentPosition := b.documentPosition }

/-- The store shows the document `d` made of the paragraphs `ps`, without tables and images. -/
structure Shows (s : Store) (d : Document) (ps : List SPara) : Prop where
  root : ∃ r r', s.roots 1 = some r ∧ s.roots r.id = some r' ∧ r'.document = d.id ∧ d.id ≠ 0
  document : s.documents d.id = some d
  text : Repr s.text (paras ps)
  keys : s.blocks.keys.Perm (ps.map SPara.id)
  block : ∀ p ∈ ps, ∃ b, s.blocks p.id = some b ∧ IsBlock p b
  absent : ∀ i, i ∉ ps.map SPara.id → s.blocks i = none
  formats : ∀ p ∈ ps, StyledOk ((s.formatRuns p.id).getD []) p.chars
  images : ∀ p ∈ ps, (s.blockImages p.id).getD [] = []
  fresh : ∀ p ∈ ps, p.id < s.next "block"

/-- Moreover the document is a single frame `f` listing its paragraphs in order, neither the anchor of a
table nor a block quote. -/
structure Flat (s : Store) (d : Document) (f : Nat) (ps : List SPara) : Prop extends
    Shows s d ps where
  frames : d.frames = [f]
  tables : d.tables = []
  frame : ∃ fr, s.frames f = some fr ∧ fr.id = f ∧
    fr.childOrder = ps.map (fun p => (p.id : Int)) ∧ fr.blocks.Perm (ps.map SPara.id)
  others : ∀ g fr, s.frames g = some fr → g ≠ f → ∀ b ∈ fr.blocks,
    b ∉ ps.map SPara.id ∧ b < s.next "block"
  positive : ∀ p ∈ ps, 0 < p.id
  nonempty : ps ≠ []
  plain : ∀ fr, s.frames f = some fr → fr.table = none ∧ fr.fmtIsBlockquote = none

/-- The frames, lists, resources, tables and cells are the same. -/
structure SameShell (a b : Store) : Prop where
  roots : b.roots = a.roots
  frames : b.frames = a.frames
  lists : b.lists = a.lists
  resources : b.resources = a.resources
  tables : b.tables = a.tables
  tableCells : b.tableCells = a.tableCells

/-- The format typed text takes: that of the character before it in its paragraph. -/
def inheritFmt (before : List SChar) : Option CharFormat := (before.getLast?.map Prod.snd).join

/-- Text with one format throughout. -/
def styled (t : List Char) (f : Option CharFormat) : List SChar := t.map fun c => (c, f)

end Verif
