import Verif.Model.Session
/-
A new document, plain-text import and export: public_api/src/inner.rs (`initialize`),
document_io/src/use_cases/{import,export}_plain_text_uc.rs, public_api/src/document.rs
(`set_plain_text`, `to_plain_text`; the cached copy of the text is left out).
-/
namespace Verif
namespace Store

/-- `RootTable::create` of a root without id, root_table.rs L77-L110 (`create_orphan_root`). -/
def createRoot (s : Store) : Nat × Store :=
  let n := s.nextId "root"
  (n.1, { n.2 with roots := n.2.roots.insert n.1 ⟨n.1, 0⟩ })

/-- `DocumentRepository::create` of a document without id for a root that has none,
document_repository.rs L165-L191, document_table.rs L52-L78; `none` is the error for a missing root or
a root that has a document (the code would remove that document first). -/
def createDocument (s : Store) (owner : Nat) : Option (Nat × Store) :=
  (s.roots owner).bind fun r =>
  if r.document ≠ 0 then none
  else
    let n := s.nextId "document"
    some (n.1, { n.2 with
      documents := n.2.documents.insert n.1 { id := n.1 }
      roots := n.2.roots.insert owner { r with document := n.1 } })

/-- `TextDocumentInner::initialize`, inner.rs L320-L375: root, document, frame and one empty block. -/
def newStore : Option Store :=
  let (rid, s) := Store.empty.createRoot
  (s.createDocument rid).bind fun (did, s) =>
  (s.createFrame {} did (-1)).bind fun (fid, s) =>
  (s.frames fid).bind fun frame =>
  (s.createBlock {} fid (-1)).bind fun (bid, s) =>
  let s := s.withText (ropeAppendEmptyBlock s.text bid)
  some (s.updateFrame { frame with childOrder := [(bid : Int)] })

/-- `str::replace("\r\n", "\n")`. -/
def replaceCrLf : List Char → List Char
  | '\r' :: '\n' :: cs => '\n' :: replaceCrLf cs
  | c :: cs => c :: replaceCrLf cs
  | [] => []

/-- `str::replace('\r', "\n")`. -/
def replaceCr (cs : List Char) : List Char := cs.map fun c => if c = '\r' then '\n' else c

/-- `str::split('\n')`. -/
def splitLines : List Char → List (List Char)
  | [] => [[]]
  | c :: cs =>
    if c = '\n' then [] :: splitLines cs
    else match splitLines cs with
      | l :: ls => (c :: l) :: ls
      | [] => [[c]]

/-- Removing every frame of the document, import_plain_text_uc.rs L56-L58. -/
def removeFrames : List Nat → Store → Option Store
  | [], s => some s
  | f :: fs, s => (s.removeFrame f).bind fun s => removeFrames fs s

/-- The loop of `execute`, import_plain_text_uc.rs L73-L101: the ids of the new blocks and the number
of characters.  `first` tells whether no block was added yet; `pos` is `document_position`. -/
def importLines (fid : Nat) : Bool → Int → List (List Char) → Store → Option (List Nat × Nat × Store)
  | _, _, [], s => some ([], 0, s)
  | first, pos, l :: ls, s =>
    (s.createBlock { documentPosition := pos } fid (-1)).bind fun (id, s) =>
    let r := if first then s.text else ropeInsertBlockBoundary s.text
    let s := s.withText (ropeAppendBlock r id l)
    (importLines fid false (pos + l.length + (if ls.isEmpty then 0 else 1)) ls s).map
      fun (ids, n, s) => (id :: ids, l.length + n, s)

/-- `ImportPlainTextUseCase::execute`, import_plain_text_uc.rs L36-L118, without its transaction. -/
def importPlainText (s : Store) (text : List Char) : Option Store :=
  s.docId.bind fun did =>
  (removeFrames (s.docFrames did) s).bind fun s =>
  (s.createFrame {} did (-1)).bind fun (fid, s) =>
  let s := s.withText ropeReset
  let lines := splitLines (replaceCr (replaceCrLf text))
  (importLines fid true 0 lines s).bind fun (ids, total, s) =>
  (s.frames fid).bind fun frame =>
  let s := s.updateFrame { frame with childOrder := ids.map fun i : Nat => (i : Int) }
  (s.documents did).map fun doc =>
    s.updateDocument { doc with characterCount := total, blockCount := lines.length }

/-- The texts of the blocks of the frames, each frame's sorted by stored position,
export_plain_text_uc.rs L68-L90. -/
def frameTexts (s : Store) (fids : List Nat) : Option (List (List Char)) :=
  (mapOpt (fun fid => mapOpt (fun b : Block => blockContent s.text b.id)
    (sortByKey Block.documentPosition (s.getBlocks (s.frameBlocks fid)))) fids).map List.flatten

/-- `[String]::join("\n")`. -/
def joinLines : List (List Char) → List Char
  | [] => []
  | l :: ls => l ++ ls.flatMap fun l => '\n' :: l

/-- `ExportPlainTextUseCase::execute`, export_plain_text_uc.rs L31-L97. -/
def exportPlainText (s : Store) : Option (List Char) :=
  s.docId.bind fun did =>
  match ropeFlatTextIfSimple s.text (s.docFrames did).length with
  | some t => some t
  | none => (s.frameTexts (s.docFrames did)).map joinLines

end Store

/-- `TextDocument::set_plain_text`, document.rs L164-L185: import, then the history is cleared. -/
def Session.setPlainText (e : Session) (text : List Char) : Option Session :=
  (e.store.importPlainText text).map fun s =>
    { e with store := s, mgr := e.mgr.clearStack (e.sid.getD 0) }

/-- `TextDocument::new`, document.rs L60-L77 with inner.rs L320-L375: the manager gets a new stack. -/
def Session.new : Option Session :=
  Store.newStore.map fun s =>
    let r := (Mgr.new : Mgr EditCmd).create
    ⟨r.2, s, some r.1⟩

/-- What happens to a document: an action of the user at a time, or loading a text. -/
inductive LifeOp where
  | act (now : Nat) (op : SessionOp)
  | load (text : List Char)

/-- One of them. -/
def Session.lifeStep (e : Session) : LifeOp → Option Session
  | .act now op => (e.step now op).map Prod.fst
  | .load t => e.setPlainText t

/-- Several. -/
def Session.live (e : Session) : List LifeOp → Option Session
  | [] => some e
  | op :: ops => (e.lifeStep op).bind fun e => e.live ops

end Verif
