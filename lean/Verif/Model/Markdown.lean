import Verif.Model.ImportMarkup
/-
From the events of the Markdown parser to the parsed elements: `parse_markdown`,
common/src/parser_tools/content_parser.rs L121-L477.  pulldown_cmark itself is not modelled: its output, a sequence
of events, is the input here.
-/
namespace Verif

/-- The inline marks, `Tag::Emphasis`, `Strong`, `Strikethrough` and `Link` (its target; the title is not used). -/
inductive MdMark where
  | emph
  | strong
  | strike
  | link (url : String)
deriving DecidableEq, Repr

/-- The events of pulldown_cmark that content_parser.rs L155-L437 distinguishes; `other` is any other one (rules,
HTML, images, task list markers). -/
inductive MdEvent where
  | startPara
  | endPara
  | startHeading (level : Nat)
  | endHeading
  | startList (ordered : Bool)
  | endList
  | startItem
  | endItem
  | startCode (fence : Option String)
  | endCode
  | startTable
  | endTable
  | startHead
  | endHead
  | startRow
  | endRow
  | startCell
  | endCell
  | startMark (m : MdMark)
  | endMark (m : MdMark)
  | text (t : List Char)
  | code (t : List Char)
  | soft
  | hard
  | startQuote
  | endQuote
  | other
deriving DecidableEq, Repr

/-- The variables of the loop, L128-L153 (`list_stack` innermost first); `table_header_rows` is left out, it is only stored in the parsed table, where
nobody reads it. -/
structure MdSt where
  elements : List ParsedElement := []
  spans : List ParsedSpan := []
  heading : Option Int := none
  listStyle : Option ListStyle := none
  isCode : Bool := false
  codeLanguage : Option String := none
  quoteDepth : Nat := 0
  inBlock : Bool := false
  bold : Bool := false
  italic : Bool := false
  strikeout : Bool := false
  link : Option String := none
  listStack : List ListStyle := []
  listIndent : Nat := 0
  inTable : Bool := false
  inHead : Bool := false
  rows : List (List (List ParsedSpan)) := []
  cells : List (List ParsedSpan) := []
  cellSpans : List ParsedSpan := []
deriving DecidableEq, Repr

/-- One more element. -/
def MdSt.emit (x : MdSt) (e : ParsedElement) : MdSt := { x with elements := x.elements ++ [e] }

/-- The block pushed by the paragraph and item events, e.g. L164-L176, L217-L229. -/
def MdSt.textBlock (x : MdSt) (heading : Option Int) : ParsedElement :=
  .block { spans := x.spans, headingLevel := heading, listStyle := x.listStyle, listIndent := x.listIndent,
           quoteDepth := x.quoteDepth }

/-- A span goes to the cell or to the block, e.g. L369-L376, L388-L395. -/
def MdSt.span (x : MdSt) (sp : ParsedSpan) : MdSt :=
  if x.inTable then { x with cellSpans := x.cellSpans ++ [sp] }
  else { x with inBlock := true, spans := x.spans ++ [sp] }

/-- A span with the current marks. -/
def MdSt.look (x : MdSt) (t : List Char) (code : Bool) : ParsedSpan :=
  { text := t, bold := x.bold, italic := x.italic, strikeout := x.strikeout, code := code, linkHref := x.link }

/-- `truncate(len - 1)` if the text ends with a newline, L273-L275. -/
def dropNewline (t : List Char) : List Char := if t.getLast? = some '\n' then t.dropLast else t

/-- The last span loses its final newline, L272-L276. -/
def trimLast : List ParsedSpan → List ParsedSpan
  | [] => []
  | [x] => [{ x with text := dropNewline x.text }]
  | x :: y :: xs => x :: trimLast (y :: xs)

/-- The spans of the parent item are flushed, L216-L230 and L242-L256. -/
def MdSt.flush (x : MdSt) : MdSt := if x.spans = [] then x else { x.emit (x.textBlock none) with spans := [] }

/-- The styles of lists, L203-L207. -/
def mdListStyle (ordered : Bool) : ListStyle := if ordered then .decimal else .disc

/-- One event, L156-L436. -/
def MdSt.step (x : MdSt) : MdEvent → MdSt
  | .startPara => { x with inBlock := true, heading := none, isCode := false }
  | .endPara =>
    let x := if x.spans ≠ [] ∨ x.inBlock then { x.emit (x.textBlock x.heading) with spans := [], heading := none } else x
    { x with inBlock := false, listStyle := none }
  | .startHeading n => { x with inBlock := true, heading := some (n : Int), isCode := false }
  | .endHeading =>
    { x.emit (.block { spans := x.spans, headingLevel := x.heading, quoteDepth := x.quoteDepth }) with
      spans := [], heading := none, inBlock := false }
  | .startList ordered => { x with listStack := mdListStyle ordered :: x.listStack }
  | .endList => { x with listStack := x.listStack.tail }
  | .startItem =>
    let x := x.flush
    { x with inBlock := true, listStyle := x.listStack.head?, listIndent := x.listStack.length - 1 }
  | .endItem =>
    let x := x.flush
    { x with inBlock := false, listStyle := none }
  | .startCode fence =>
    { x with inBlock := true, isCode := true, codeLanguage := fence.bind fun l => if l = "" then none else some l }
  | .endCode =>
    { x.emit (.block { spans := trimLast x.spans, isCodeBlock := true, codeLanguage := x.codeLanguage,
                       quoteDepth := x.quoteDepth }) with
      spans := [], codeLanguage := none, inBlock := false, isCode := false }
  | .startTable => { x with inTable := true, inHead := false, rows := [], cells := [], cellSpans := [] }
  | .endTable => { x.emit (.table x.rows) with rows := [], inTable := false }
  | .startHead => { x with inHead := true, cells := [] }
  | .endHead => { x with rows := x.rows ++ [x.cells], cells := [], inHead := false }
  | .startRow => { x with cells := [] }
  | .endRow => if x.inHead then x else { x with rows := x.rows ++ [x.cells], cells := [] }
  | .startCell => { x with cellSpans := [] }
  | .endCell => { x with cells := x.cells ++ [x.cellSpans], cellSpans := [] }
  | .startMark .emph => { x with italic := true }
  | .endMark .emph => { x with italic := false }
  | .startMark .strong => { x with bold := true }
  | .endMark .strong => { x with bold := false }
  | .startMark .strike => { x with strikeout := true }
  | .endMark .strike => { x with strikeout := false }
  | .startMark (.link url) => { x with link := some url }
  | .endMark (.link _) => { x with link := none }
  | .text t => x.span (x.look t x.isCode)
  | .code t => x.span (x.look t true)
  | .soft =>
    if x.inTable then { x with cellSpans := x.cellSpans ++ [x.look [' '] false] }
    else { x with spans := x.spans ++ [x.look [' '] false] }
  | .hard =>
    if x.spans ≠ [] ∨ x.inBlock then
      { x.emit (.block { spans := x.spans, headingLevel := x.heading, listStyle := x.listStyle, listIndent := x.listIndent,
                         isCodeBlock := x.isCode, codeLanguage := x.codeLanguage, quoteDepth := x.quoteDepth }) with
        spans := [], heading := none }
    else x
  | .startQuote => { x with quoteDepth := x.quoteDepth + 1 }
  | .endQuote => { x with quoteDepth := x.quoteDepth - 1 }
  | .other => x

/-- What remains at the end, and a document without elements, L439-L476. -/
def MdSt.finish (x : MdSt) : List ParsedElement :=
  let es := if x.spans = [] then x.elements else x.elements ++
    [.block { spans := x.spans, headingLevel := x.heading, listStyle := x.listStyle, listIndent := x.listIndent,
              isCodeBlock := x.isCode, codeLanguage := x.codeLanguage, quoteDepth := x.quoteDepth }]
  if es = [] then [.block { spans := [{ text := [] }] }] else es

/-- `parse_markdown` on the events. -/
def parseMarkdown (es : List MdEvent) : List ParsedElement := (es.foldl MdSt.step {}).finish

end Verif
