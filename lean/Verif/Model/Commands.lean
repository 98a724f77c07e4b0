import Verif.Model.DeleteCells
import Verif.Model.Clipboard
import Verif.Model.Replace
import Verif.Model.PasteTable
import Verif.Model.InsertMarkup
import Verif.Model.PasteMixed
import Verif.Model.Formatting
import Verif.Model.FormattedText
import Verif.Model.Frames
import Verif.Model.Images
import Verif.Model.BoxFormats
import Verif.Model.ImportMarkup
import Verif.Model.TableCommands
import Verif.Model.ListCommands
import Verif.Model.Session
/-
All editing commands of this model in one type, and a document with its history: document_editing_controller.rs,
document_formatting_controller.rs and document_search_controller.rs (each call executes a use case and records it on the
undo stack), with the use cases' `undo` and `redo`.

A group of commands (`begin_composite` … `end_composite`) is undone and redone command by command, last one first,
undo_redo.rs L127-L142: here these are several steps.  Whether the undo manager merges a command with the one before
(`can_merge`) depends on the clock; here it is part of the step.  A command, undo or redo that fails ends the history.
-/
namespace Verif
open Store

/-- A call of an editing command.  `format` is `set_text_format` and `merge_text_format` (with `m` the way the given
format changes one that is there). -/
inductive EditCall where
  | typeText (dto : InsertTextDto)
  | typeFormatted (dto : FormattedDto)
  | split (p : Int)
  | erase (p a : Int)
  | format (m : CharFormat → CharFormat) (p a : Int)
  | formatBlocks (dto : BlockFormatDto) (p a : Int)
  | formatTable (table : Nat) (fmt : TableFormat)
  | formatCell (cell : Nat) (fmt : CellFormat)
  | formatFrame (frame : Nat) (fmt : FrameFormat)
  | makeList (style : ListStyle) (p a : Int)
  | insertList (style : ListStyle) (p : Int)
  | joinList (block list : Nat)
  | leaveList (block : Nat)
  | formatList (list : Nat) (dto : ListFormatDto)
  | insertFrame (p : Int)
  | insertImage (dto : ImageDto)
  | insertTable (p a rows columns : Int)
  | removeTable (table : Nat)
  | insertRow (table : Nat) (i : Int)
  | insertColumn (table : Nat) (i : Int)
  | removeRow (table : Nat) (i : Int)
  | removeColumn (table : Nat) (i : Int)
  | mergeCells (table : Nat) (r0 c0 r1 c1 : Int)
  | splitCell (cell : Nat) (rows columns : Int)
  | replace (env : SearchEnv) (dto : ReplaceDto)
  | paste (p a : Int) (blocks : List FragBlock)
  | pasteTables (p : Int) (tables : List FragTable)
  | insertMarkup (html : Bool) (p a : Int) (es : List ParsedElement)
  | pasteMixed (p a : Int) (blocks : List FragBlock) (tables : List FragTable)

/-- What a use case keeps for its `undo`. -/
inductive UndoData where
  | snapshot (x : Snapshot)
  | typed (u : InsertUndo)
  | typedFormatted (u : InsertUndo)
  | formats (is : List BlockInverse)

/-- `execute` of the use case: the store and the data for `undo`. -/
def EditCall.run (s : Store) : EditCall → Option (Store × UndoData)
  | .typeText dto => (s.insertText dto).map fun r => (r.1, .typed r.2.2)
  | .typeFormatted dto => (s.insertFormatted dto).map fun r => (r.1, .typedFormatted r.2.2)
  | .split p => (s.insertBlock p).map fun r => (r.1, .snapshot r.2.2)
  | .erase p a => (s.deleteSelection p a).map fun r => (r.1, .snapshot r.2.2)
  | .format m p a => (s.formatText m p a).map fun r => (r.1, .formats r.2)
  | .formatBlocks dto p a => (s.setBlockFormat dto p a).map fun r => (r.1, .snapshot r.2)
  | .formatTable t fmt => (s.setTableFormat t fmt).map fun r => (r.1, .snapshot r.2)
  | .formatCell c fmt => (s.setCellFormat c fmt).map fun r => (r.1, .snapshot r.2)
  | .formatFrame f fmt => (s.setFrameFormat f fmt).map fun r => (r.1, .snapshot r.2)
  | .makeList st p a => (s.createList st p a).map fun r => (r.1, .snapshot r.2.2)
  | .insertList st p => (s.insertList st p).map fun r => (r.1, .snapshot r.2.2.2)
  | .joinList b l => (s.addBlockToList b l).map fun r => (r.1, .snapshot r.2)
  | .leaveList b => (s.removeBlockFromList b).map fun r => (r.1, .snapshot r.2)
  | .formatList l dto => (s.setListFormat l dto).map fun r => (r.1, .snapshot r.2)
  | .insertFrame p => (s.insertFrame p).map fun r => (r.1, .snapshot r.2.2)
  | .insertImage dto => (s.insertImage dto).map fun r => (r.1, .snapshot r.2.2.2)
  | .insertTable p a r c => (s.insertTable p a r c).map fun r => (r.1, .snapshot r.2.2.2)
  | .removeTable t => (s.removeTable t).map fun r => (r.1, .snapshot r.2)
  | .insertRow t i => (s.insertTableRow t i).map fun r => (r.1, .snapshot r.2)
  | .insertColumn t i => (s.insertTableColumn t i).map fun r => (r.1, .snapshot r.2)
  | .removeRow t i => (s.removeTableRow t i).map fun r => (r.1, .snapshot r.2)
  | .removeColumn t i => (s.removeTableColumn t i).map fun r => (r.1, .snapshot r.2)
  | .mergeCells t r0 c0 r1 c1 => (s.mergeTableCells t r0 c0 r1 c1).map fun r => (r.1, .snapshot r.2.2)
  | .splitCell c r k => (s.splitTableCell c r k).map fun r => (r.1, .snapshot r.2.2)
  | .replace env dto => (s.replaceText env dto).map fun r => (r.1, .snapshot r.2.2)
  | .paste p a fbs => (s.insertFragment p a fbs).map fun r => (r.1, .snapshot r.2.2)
  | .pasteTables p ts => (s.insertTables p ts).map fun r => (r.1, .snapshot r.2.2)
  | .insertMarkup html p a es => (Store.insertMarkup html s p a es).map fun r => (r.1, .snapshot r.2.2)
  | .pasteMixed p a fbs ts => (s.insertMixed p a fbs ts).map fun r => (r.1, .snapshot r.2.2)

/-- `undo` of the use case. -/
def UndoData.undo (s : Store) : UndoData → Option Store
  | .snapshot x => some (s.restoreUndo x)
  | .typed u => s.undoInsert u
  | .typedFormatted u => s.undoFormatted u
  | .formats is => some (s.undoFormat is)

/-- A command that is merged with the one before, insert_text_uc.rs L641-L667 (never for a selection, L602) and
delete_text_uc.rs L1029-L1065: the call `redo` will make, and the data for `undo`.  No other commands merge. -/
def mergeDone : EditCall × UndoData → EditCall × UndoData → Option (EditCall × UndoData)
  | (.typeText d, .typed u), (.typeText d', .typed (.simple u')) =>
    some (.typeText ⟨d.position, d.position, d.text ++ d'.text⟩, .typed (mergeUndo u (.simple u')))
  | (.erase p a, .snapshot x), (.erase _ _, .snapshot _) =>
    some (.erase p (if p > a then a - 1 else a + 1), .snapshot x)
  | _, _ => none

/-- A document with what can be undone and redone, the latest first. -/
structure Work where
  store : Store
  done : List (EditCall × UndoData) := []
  undone : List EditCall := []

/-- What can happen to a document. -/
inductive WorkOp where
  | call (c : EditCall) (merge : Bool)
  | undo
  | redo
  | setPlainText (text : List Char)
  | load (html : Bool) (es : List ParsedElement)

/-- One step: `add_command` and `undo`, `redo` of undo_redo.rs L241-L296 and L399-L460; `set_plain_text` clears the history,
document.rs L164-L185, `set_markdown` and `set_html` do not, L196-L254. -/
def Work.step (w : Work) : WorkOp → Option Work
  | .call c merge =>
    (c.run w.store).map fun (s, u) =>
      match merge, w.done with
      | true, d :: ds => match mergeDone d (c, u) with
        | some m => ⟨s, m :: ds, []⟩
        | none => ⟨s, (c, u) :: d :: ds, []⟩
      | _, ds => ⟨s, (c, u) :: ds, []⟩
  | .undo => match w.done with
    | [] => some w
    | (c, u) :: ds => (u.undo w.store).map fun s => ⟨s, ds, c :: w.undone⟩
  | .redo => match w.undone with
    | [] => some w
    | c :: cs => (c.run w.store).map fun (s, u) => ⟨s, (c, u) :: w.done, cs⟩
  | .setPlainText t => (w.store.importPlainText t).map fun s => ⟨s, [], []⟩
  | .load html es => (w.store.importElements html es).map fun r => ⟨r.2, w.done, w.undone⟩

/-- Several steps. -/
def Work.run (w : Work) : List WorkOp → Option Work
  | [] => some w
  | o :: os => (w.step o).bind fun w => w.run os

end Verif
