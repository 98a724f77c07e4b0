import Verif.Spec.ImportMarkup
import Verif.Spec.Clipboard
import Verif.Spec.Docx
/- What inserting parsed Markdown or HTML at a position should do. -/
namespace Verif

/-- The characters of a parsed block with their formats. -/
def ParsedBlock.chars (b : ParsedBlock) : List SChar := spansChars b.isCodeBlock b.spans

/-- A block of text without paragraph formatting. -/
def textual (b : ParsedBlock) : Bool :=
  b = { spans := b.spans, codeLanguage := b.codeLanguage, listIndent := b.listIndent }

/-- The blocks of parsed elements: a cell of a table is a block of text, and nothing is an empty block. -/
def blocksOf (es : List ParsedElement) : List ParsedBlock :=
  let bs := es.flatMap fun
    | .block b => [b]
    | .table rows => rows.flatten.map fun spans => { spans := spans }
  if bs = [] then [{ spans := [{ text := [] }] }] else bs

/-- The list a block asks for. -/
def listAsked (b : ParsedBlock) : Option Store.FragList :=
  b.listStyle.map fun style => { style := style, indent := (b.listIndent : Int) }

/-- The paragraph format of an inserted block in a given list: as if it were loaded, but never a code block. -/
def insertedShape (html : Bool) (b : ParsedBlock) (list : Option Nat) : Block :=
  { parsedShape html b list with fmtIsCodeBlock := none, fmtCodeLanguage := none }

/-- A paragraph of a document is a parsed block, inserted: its characters, its format, and a list like the one it asks for. -/
structure InsertedOne (s : Store) (html : Bool) (b : ParsedBlock) (q : SPara) : Prop where
  chars : q.chars = b.chars
  format : q.shape = insertedShape html b q.shape.list
  list : ListLike s (listAsked b) q.shape.list

/-- A first block of text joins the text before the caret. -/
def joinsHead (bs : List ParsedBlock) : List SChar :=
  match bs.head? with
  | some b => if textual b then b.chars else []
  | none => []

/-- A last block of text joins the text behind the caret. -/
def joinsTail (bs : List ParsedBlock) : List SChar :=
  match bs.getLast? with
  | some b => if textual b then b.chars else []
  | none => []

/-- The other blocks become paragraphs of their own. -/
def standalone (bs : List ParsedBlock) : List ParsedBlock :=
  let bs := if (bs.head?.map textual).getD false then bs.tail else bs
  if (bs.getLast?.map textual).getD false then bs.dropLast else bs

/-- The paragraph format `shape` with what a block of HTML brings, in a given list. -/
def overShape (shape : Block) (b : ParsedBlock) (list : Option Nat) : Block :=
  { shape with
    list := list
    fmtHeadingLevel := b.headingLevel
    fmtLineHeight := b.lineHeight
    fmtNonBreakableLines := b.nonBreakableLines
    fmtDirection := b.direction
    fmtBackgroundColor := b.backgroundColor }

/-- The paragraphs that follow are not just one empty paragraph. -/
def NotOneEmpty (R : List SPara) : Prop := ∀ q, R = [q] → q.chars ≠ []

end Verif
