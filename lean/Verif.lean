import Verif.Props.Backspace
import Verif.Props.BoxFormats
import Verif.Props.CellSelection
import Verif.Props.Changes
import Verif.Props.Commands
import Verif.Props.Copy
import Verif.Props.CopyMixed
import Verif.Props.CopyPaste
import Verif.Props.CopyPasteTable
import Verif.Props.Cursor
import Verif.Props.CursorMoves
import Verif.Props.DeleteCells
import Verif.Props.DeleteTabled
import Verif.Props.DirectAccess
import Verif.Props.DocHtml
import Verif.Props.DocText
import Verif.Props.Editing
import Verif.Props.Escape
import Verif.Props.Events
import Verif.Props.ExportDocx
import Verif.Props.ExportHtml
import Verif.Props.ExportLatex
import Verif.Props.ExportMarkdown
import Verif.Props.FormatRuns
import Verif.Props.FormattedText
import Verif.Props.Formatting
import Verif.Props.FragmentMarkdown
import Verif.Props.FragmentTables
import Verif.Props.FragmentText
import Verif.Props.Fragments
import Verif.Props.Frames
import Verif.Props.Grid
import Verif.Props.Highlight
import Verif.Props.HtmlDom
import Verif.Props.Images
import Verif.Props.ImportMarkup
import Verif.Props.InsertMarkup
import Verif.Props.Inspect
import Verif.Props.ListCommands
import Verif.Props.Lists
import Verif.Props.LoadOver
import Verif.Props.LongOps
import Verif.Props.Markdown
import Verif.Props.OffsetIndex
import Verif.Props.Order
import Verif.Props.Paste
import Verif.Props.PasteMixed
import Verif.Props.PasteTable
import Verif.Props.PlainText
import Verif.Props.Properties
import Verif.Props.Reading
import Verif.Props.Replace
import Verif.Props.ReplaceTabled
import Verif.Props.RopeStore
import Verif.Props.SaveLoad
import Verif.Props.Search
import Verif.Props.Session
import Verif.Props.Stats
import Verif.Props.Store
import Verif.Props.TableCopy
import Verif.Props.TableCursor
import Verif.Props.TableEdits
import Verif.Props.TableFormats
import Verif.Props.TableHistory
import Verif.Props.TableLists
import Verif.Props.TableReading
import Verif.Props.TableTypeOver
import Verif.Props.Tables
import Verif.Props.UndoRedo
import Verif.Props.Undoing
import Verif.Audit
