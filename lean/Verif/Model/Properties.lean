import Verif.Model.PlainText
import Verif.Model.ImportMarkup
/-
The title, text direction, wrap mode and resources of a document (public_api/src/document.rs L733-L940
with the generated use cases common/src/direct_access/use_cases/{create,update}.rs), and the cache of
the plain text (public_api/src/inner.rs L216-L317).
Left out: events, the two time stamps, and the `base64` crate, of which only `Codec` is known.
-/
namespace Verif

namespace Store

/-- `get_relationship(id, Resources)`, document_table.rs L15-L26, L179-L193. -/
def docResources (s : Store) (id : Nat) : List Nat :=
  ((s.documents id).map Document.resources).getD []

/-- `DocumentRepository::set_relationship` for `Resources`, document_repository.rs L584-L680 and
document_table.rs L28-L36: every id must exist; an absent document is left absent. -/
def setDocResources (s : Store) (did : Nat) (ids : List Nat) : Option Store :=
  if ids.all fun i => (s.resources i).isSome then
    match s.documents did with
    | some d => some { s with documents := s.documents.insert did { d with resources := ids } }
    | none => some s
  else none

/-- `ResourceTable::create` of a resource without id, resource_table.rs L30-L55. -/
def insertNewResource (s : Store) (r : Resource) : Resource × Store :=
  let n := s.nextId "resource"
  ({ r with id := n.1 }, { n.2 with resources := n.2.resources.insert n.1 { r with id := n.1 } })

/-- `ResourceRepository::create_multi` of one resource, resource_repository.rs L115-L141. -/
def createResource (s : Store) (r : Resource) (owner : Nat) (index : Int) : Option (Resource × Store) :=
  let n := s.insertNewResource r
  (n.2.setDocResources owner (insertAtIndex (n.2.docResources owner) index n.1.id)).map fun s => (n.1, s)

/-- `ResourceTable::remove_multi` on one id, resource_table.rs L108-L138. -/
def tableRemoveResource (s : Store) (id : Nat) : Store :=
  { s with
    resources := s.resources.erase id
    documents := s.documents.mapValues fun d =>
      { d with resources := d.resources.filter fun i => i ≠ id } }

/-- The documents saved before the removal are rewritten without it, resource_repository.rs
L283-L297. -/
def rewriteDocResources (id : Nat) : List (Nat × List Nat) → Store → Option Store
  | [], s => some s
  | (o, l) :: os, s =>
    (s.setDocResources o (l.filter fun b => b ≠ id)).bind fun s => rewriteDocResources id os s

/-- `ResourceRepository::remove_multi` on one id, resource_repository.rs L252-L300. -/
def removeResource (s : Store) (id : Nat) : Option Store :=
  match s.resources id with
  | none => some s
  | some _ =>
    let owners := (s.documents.keys.filter fun d => (s.docResources d).contains id).map fun d =>
      (d, s.docResources d)
    rewriteDocResources id owners (s.tableRemoveResource id)

end Store

/-- An executed `UndoableUpdateUseCase` on one document, update.rs L55-L59; the heads are the ends of
the deques. -/
structure DocCmd where
  undo : List Document
  redo : List Document

/-- An executed `UndoableCreateUseCase` on one resource with `OwnerStrategy::Appending`, create.rs
L62-L74. -/
structure ResCmd where
  created : Resource
  owner : Nat
  index : Int
  previous : List Nat
  snap : Option Snapshot

/-- The commands of this model. -/
inductive PropCmd where
  | doc (c : DocCmd)
  | res (c : ResCmd)

/-- `UndoableUpdateUseCase::undo`, update.rs L103-L117. -/
def DocCmd.undoIt (c : DocCmd) (s : Store) : Bool × DocCmd × Store :=
  match c.undo with
  | [] => (true, c, s)
  | old :: rest =>
    match s.documents old.id with
    | some d => (true, ⟨rest, d :: c.redo⟩, s.updateDocument old)
    | none => (true, ⟨rest, c.redo⟩, s.updateDocument old)

/-- `UndoableUpdateUseCase::redo`, update.rs L119-L132. -/
def DocCmd.redoIt (c : DocCmd) (s : Store) : Bool × DocCmd × Store :=
  match c.redo with
  | [] => (true, c, s)
  | new :: rest =>
    match s.documents new.id with
    | some d => (true, ⟨d :: c.undo, rest⟩, s.updateDocument new)
    | none => (true, ⟨c.undo, rest⟩, s.updateDocument new)

/-- `UndoableCreateUseCase::undo`, create.rs L139-L173; an error leaves the store as it was (C27). -/
def ResCmd.undoIt (c : ResCmd) (s : Store) : Bool × ResCmd × Store :=
  match (s.removeResource c.created.id).bind fun s => s.setDocResources c.owner c.previous with
  | some s' => (true, { c with snap := some s.snapshot }, s')
  | none => (false, { c with snap := some s.snapshot }, s)

/-- `UndoableCreateUseCase::redo`, create.rs L175-L215. -/
def ResCmd.redoIt (c : ResCmd) (s : Store) : Bool × ResCmd × Store :=
  match c.snap with
  | none => (true, c, s)
  | some snap =>
    match (s.restoreUndo snap).setDocResources c.owner
        (Store.insertAtIndex c.previous c.index c.created.id) with
    | some s' => (true, c, s')
    | none => (false, c, s)

/-- The undo interface; neither command merges (the trait's default, undo_redo.rs L50-L66). -/
def propApi : CmdApi PropCmd Store where
  undo
    | .doc c, s => ((c.undoIt s).1, .doc (c.undoIt s).2.1, (c.undoIt s).2.2)
    | .res c, s => ((c.undoIt s).1, .res (c.undoIt s).2.1, (c.undoIt s).2.2)
  redo
    | .doc c, s => ((c.redoIt s).1, .doc (c.redoIt s).2.1, (c.redoIt s).2.2)
    | .res c, s => ((c.redoIt s).1, .res (c.redoIt s).2.1, (c.redoIt s).2.2)
  canMerge _ _ := false
  merge a _ := (false, a)

/-- What the library uses of the `base64` crate: `encode`, and `decode` with its errors. -/
structure Codec where
  enc : List UInt8 → String
  dec : String → Option (List UInt8)

/-- The parts of `TextDocumentInner` used here, inner.rs L50-L103. -/
structure Holder where
  store : Store
  mgr : Mgr PropCmd
  sid : Nat
  documentId : Nat
  cache : String → Option Nat

namespace Holder

/-- `document_commands::update_document`: `UndoableUpdateUseCase::execute`, update.rs L70-L98, and
document_controller.rs L105-L118. -/
def update (h : Holder) (d : Document) : Option Holder :=
  (h.store.documents d.id).bind fun old =>
  match h.mgr.add propApi (.doc ⟨[old], []⟩) (some h.sid) with
  | (true, m) => some { h with store := h.store.updateDocument d, mgr := m }
  | (false, _) => none

/-- `TextDocument::title`, document.rs L878-L886. -/
def title (h : Holder) : String := ((h.store.documents h.documentId).map Document.title).getD ""

/-- `TextDocument::set_title`, document.rs L888-L897. -/
def setTitle (h : Holder) (t : String) : Option Holder :=
  (h.store.documents h.documentId).bind fun d => h.update { d with title := t }

/-- `TextDocument::text_direction`, document.rs L899-L907. -/
def textDirection (h : Holder) : TextDirection :=
  ((h.store.documents h.documentId).map Document.textDirection).getD .leftToRight

/-- `TextDocument::set_text_direction`, document.rs L909-L918. -/
def setTextDirection (h : Holder) (x : TextDirection) : Option Holder :=
  (h.store.documents h.documentId).bind fun d => h.update { d with textDirection := x }

/-- `TextDocument::default_wrap_mode`, document.rs L920-L928. -/
def defaultWrapMode (h : Holder) : WrapMode :=
  ((h.store.documents h.documentId).map Document.defaultWrapMode).getD .wordWrap

/-- `TextDocument::set_default_wrap_mode`, document.rs L930-L939. -/
def setDefaultWrapMode (h : Holder) (x : WrapMode) : Option Holder :=
  (h.store.documents h.documentId).bind fun d => h.update { d with defaultWrapMode := x }

/-- `TextDocument::add_resource`, document.rs L736-L762, with resource_controller.rs L44-L60 and
create.rs L96-L133. -/
def addResource (k : Codec) (h : Holder) (ty : ResourceType) (name mime : String) (data : List UInt8) :
    Option Holder :=
  let previous := h.store.docResources h.documentId
  (h.store.createResource { resourceType := ty, name := name, mimeType := mime, dataBase64 := k.enc data }
    h.documentId (-1)).bind fun (r, s) =>
  match h.mgr.add propApi (.res ⟨r, h.documentId, -1, previous, none⟩) (some h.sid) with
  | (true, m) =>
    some { h with store := s, mgr := m, cache := fun n => if n = name then some r.id else h.cache n }
  | (false, _) => none

/-- The scan of all resources, document.rs L780-L789; the order of `keys` stands for the order in
which the map is traversed (`get_all`, resource_table.rs L67-L76). -/
def scan (k : Codec) (h : Holder) (name : String) : Option (Option (List UInt8) × Holder) :=
  match (h.store.resources.keys.filterMap fun i => h.store.resources i).find? fun r => r.name == name with
  | some r =>
    (k.dec r.dataBase64).map fun b =>
      (some b, { h with cache := fun n => if n = name then some r.id else h.cache n })
  | none => some (none, h)

/-- `TextDocument::resource`, document.rs L767-L791. -/
def resource (k : Codec) (h : Holder) (name : String) : Option (Option (List UInt8) × Holder) :=
  match h.cache name with
  | some id =>
    match h.store.resources id with
    | some r => (k.dec r.dataBase64).map fun b => (some b, h)
    | none => { h with cache := fun n => if n = name then none else h.cache n }.scan k name
  | none => h.scan k name

/-- `undo` and `redo`, document.rs L796-L836. -/
def undo (h : Holder) : Option Holder :=
  match h.mgr.undo propApi (some h.sid) h.store with
  | (true, m, s) => some { h with mgr := m, store := s }
  | (false, _, _) => none

def redo (h : Holder) : Option Holder :=
  match h.mgr.redo propApi (some h.sid) h.store with
  | (true, m, s) => some { h with mgr := m, store := s }
  | (false, _, _) => none

end Holder

/-- The calls of this model. -/
inductive PropOp where
  | setTitle (t : String)
  | setTextDirection (x : TextDirection)
  | setDefaultWrapMode (x : WrapMode)
  | addResource (ty : ResourceType) (name mime : String) (data : List UInt8)
  | resource (name : String)
  | undo
  | redo

/-- One call; `none` is an error. -/
def Holder.step (k : Codec) (h : Holder) : PropOp → Option Holder
  | .setTitle t => h.setTitle t
  | .setTextDirection x => h.setTextDirection x
  | .setDefaultWrapMode x => h.setDefaultWrapMode x
  | .addResource ty name mime data => h.addResource k ty name mime data
  | .resource name => (h.resource k name).map Prod.snd
  | .undo => h.undo
  | .redo => h.redo

/-- Several calls. -/
def Holder.run (k : Codec) (h : Holder) : List PropOp → Option Holder
  | [] => some h
  | op :: ops => (h.step k op).bind fun h => h.run k ops

/-- `TextDocument::new`, document.rs L60-L77 with inner.rs L320-L397. -/
def Holder.new : Option Holder :=
  Store.newStore.bind fun s => s.docId.map fun did =>
    let r := (Mgr.new : Mgr PropCmd).create
    ⟨s, r.2, r.1, did, fun _ => none⟩

/-! ### The cached text and loading -/

/-- A document with its plain-text cache; `loading` holds what an unfinished `set_markdown` or
`set_html` will load (the worker thread of the long operation, import_markdown_uc.rs and
import_html_uc.rs, writes in one transaction when it is done). -/
structure Reader where
  session : Session
  text : Option (List Char)
  modified : Bool
  loading : List (Bool × List ParsedElement)

/-- The calls: an edit by a cursor or undo and redo (cursor.rs L101-L136, document.rs L796-L836),
`set_plain_text`, `clear`, `to_plain_text`, the beginning of `set_markdown` and `set_html` and the
end of the work they start, and the modification flag. -/
inductive ReadOp where
  | act (now : Nat) (op : SessionOp)
  | load (text : List Char)
  | clear
  | read
  | start (html : Bool) (es : List ParsedElement)
  | finish
  | setModified (b : Bool)

/-- Whether the call is made through a cursor (and not `undo` or `redo`). -/
def SessionOp.byCursor : SessionOp → Bool
  | .undo => false
  | .redo => false
  | _ => true

/-- `inner.plain_text`, inner.rs L311-L317. -/
def Reader.plainText (r : Reader) : Option (List Char × Reader) :=
  match r.text with
  | some t => some (t, r)
  | none => r.session.store.exportPlainText.map fun t => (t, { r with text := some t })

/-- One call. `act`: `finish_edit_ext` marks the document as modified and drops the cache (cursor.rs
L121-L122), undo and redo drop the cache only (document.rs L800, L821).  `load` and `clear`: document.rs
L164-L185, L297-L318.  `start`: document.rs L196-L215, L229-L248; the cache is dropped there and not
when the work is done. -/
def Reader.step (r : Reader) : ReadOp → Option Reader
  | .act now op => (r.session.step now op).map fun (e, _) =>
      { r with session := e, text := none, modified := r.modified || op.byCursor }
  | .load t => (r.session.setPlainText t).map fun e => { r with session := e, text := none }
  | .clear => (r.session.setPlainText []).map fun e => { r with session := e, text := none }
  | .read => r.plainText.map Prod.snd
  | .start html es => some { r with text := none, loading := r.loading ++ [(html, es)] }
  | .finish =>
    match r.loading with
    | [] => some r
    | (html, es) :: rest => (r.session.store.importElements html es).map fun (_, s) =>
        { r with session := { r.session with store := s }, loading := rest }
  | .setModified b => some { r with modified := b }

/-- Several calls. -/
def Reader.run (r : Reader) : List ReadOp → Option Reader
  | [] => some r
  | op :: ops => (r.step op).bind fun r => r.run ops

/-- `is_modified`, document.rs L857-L859. -/
def Reader.isModified (r : Reader) : Bool := r.modified

end Verif
