import Verif.Model.Properties
import Verif.Spec.Timeline
/-
What a user knows of a document besides its text: its title, direction, wrap mode and resources.
-/
namespace Verif

/-- A resource as it was added. -/
structure FileEntry where
  type : ResourceType
  name : String
  mime : String
  data : List UInt8
deriving DecidableEq

/-- The title, direction and wrap mode of a document and its resources in the order they were added. -/
structure DocProps where
  title : String
  direction : TextDirection
  wrap : WrapMode
  files : List FileEntry
deriving DecidableEq

/-- What a call that changes something makes of them. -/
def DocProps.after (p : DocProps) : PropOp → Option DocProps
  | .setTitle t => some { p with title := t }
  | .setTextDirection x => some { p with direction := x }
  | .setDefaultWrapMode x => some { p with wrap := x }
  | .addResource ty name mime data => some { p with files := p.files ++ [⟨ty, name, mime, data⟩] }
  | _ => none

/-- The time line of these through one call: every change is a step of its own, reading is none. -/
def Timeline.afterProp (t : Timeline DocProps) (op : PropOp) : Timeline DocProps :=
  match op with
  | .undo => t.undo
  | .redo => t.redo
  | op => match t.cur.after op with
    | some p => t.edit p
    | none => t

/-- The two stores differ in the properties and resources of document `did` only. -/
structure SameButProps (did : Nat) (a b : Store) : Prop where
  rope : b.rope = a.rope
  roots : b.roots = a.roots
  frames : b.frames = a.frames
  blocks : b.blocks = a.blocks
  lists : b.lists = a.lists
  tables : b.tables = a.tables
  tableCells : b.tableCells = a.tableCells
  formatRuns : b.formatRuns = a.formatRuns
  blockImages : b.blockImages = a.blockImages
  blockOffsets : b.blockOffsets = a.blockOffsets
  documents : ∀ i, i ≠ did → b.documents i = a.documents i
  document : ∀ d, a.documents did = some d → ∃ p : Document, b.documents did =
    some { d with title := p.title, textDirection := p.textDirection, defaultWrapMode := p.defaultWrapMode, resources := p.resources }

/-- The answer of `resource(name)` fits the resources of a document. -/
def FitsFile (files : List FileEntry) (name : String) : Option (List UInt8) → Prop
  | none => ∀ e ∈ files, e.name ≠ name
  | some data => ∃ e ∈ files, e.name = name ∧ e.data = data

end Verif
