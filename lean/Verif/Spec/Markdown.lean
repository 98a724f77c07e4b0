import Verif.Model.Markdown
import Verif.Spec.ImportMarkup
/- A Markdown document as a tree, the events a parser gives for it, and what should be loaded from it. -/
namespace Verif

/-- A piece of a line. -/
inductive MdInline where
  | text (t : List Char)
  | code (t : List Char)
  | soft
  | hard
  | other
  | mark (m : MdMark) (xs : List MdInline)

mutual
/-- A block of a document. -/
inductive MdBlock where
  | para (xs : List MdInline)
  | heading (level : Nat) (xs : List MdInline)
  | code (fence : Option String) (texts : List (List Char))
  | table (head : List (List MdInline)) (rows : List (List (List MdInline)))
  | quote (bs : List MdBlock)
  | list (ordered : Bool) (items : List MdItem)
  | other
/-- An item of a list.  In a tight item the text is not a paragraph of its own; a loose one begins with a paragraph. -/
inductive MdItem where
  | tight (xs : List MdInline) (bs : List MdBlock)
  | loose (xs : List MdInline) (bs : List MdBlock)
end

mutual
/-- The events of a piece. -/
def MdInline.events : MdInline → List MdEvent
  | .text t => [.text t]
  | .code t => [.code t]
  | .soft => [.soft]
  | .hard => [.hard]
  | .other => [.other]
  | .mark m xs => .startMark m :: (inlineEvents xs ++ [.endMark m])
/-- The events of pieces. -/
def inlineEvents : List MdInline → List MdEvent
  | [] => []
  | x :: xs => x.events ++ inlineEvents xs
end

/-- The events of a table row. -/
def cellEvents (cells : List (List MdInline)) : List MdEvent :=
  cells.flatMap fun xs => .startCell :: (inlineEvents xs ++ [.endCell])

mutual
/-- The events of a block. -/
def MdBlock.events : MdBlock → List MdEvent
  | .para xs => .startPara :: (inlineEvents xs ++ [.endPara])
  | .heading n xs => .startHeading n :: (inlineEvents xs ++ [.endHeading])
  | .code fence ts => .startCode fence :: (ts.map MdEvent.text ++ [.endCode])
  | .table head rows => .startTable :: .startHead :: (cellEvents head ++ .endHead ::
      ((rows.flatMap fun r => .startRow :: (cellEvents r ++ [.endRow])) ++ [.endTable]))
  | .quote bs => .startQuote :: (blockEvents bs ++ [.endQuote])
  | .list ordered items => .startList ordered :: (itemEvents items ++ [.endList])
  | .other => [.other]
/-- The events of blocks. -/
def blockEvents : List MdBlock → List MdEvent
  | [] => []
  | b :: bs => b.events ++ blockEvents bs
/-- The events of an item. -/
def MdItem.events : MdItem → List MdEvent
  | .tight xs bs => .startItem :: (inlineEvents xs ++ blockEvents bs ++ [.endItem])
  | .loose xs bs => .startItem :: .startPara :: (inlineEvents xs ++ .endPara :: (blockEvents bs ++ [.endItem]))
/-- The events of items. -/
def itemEvents : List MdItem → List MdEvent
  | [] => []
  | i :: is => i.events ++ itemEvents is
end

/-- The marks around a piece. -/
structure Look where
  bold : Bool := false
  italic : Bool := false
  strike : Bool := false
  link : Option String := none
deriving DecidableEq

/-- With one more mark. -/
def Look.with (k : Look) : MdMark → Look
  | .emph => { k with italic := true }
  | .strong => { k with bold := true }
  | .strike => { k with strike := true }
  | .link u => { k with link := some u }

/-- A text with these marks. -/
def Look.span (k : Look) (code : Bool) (t : List Char) : ParsedSpan :=
  { text := t, bold := k.bold, italic := k.italic, strikeout := k.strike, code := code, linkHref := k.link }

mutual
/-- What is written by a piece: spans, and `none` for a forced line break.  A line break of the source is a space. -/
def MdInline.spans (k : Look) : MdInline → List (Option ParsedSpan)
  | .text t => [some (k.span false t)]
  | .code t => [some (k.span true t)]
  | .soft => [some (k.span false [' '])]
  | .hard => [none]
  | .other => []
  | .mark m xs => inlineSpans (k.with m) xs
/-- The same for several. -/
def inlineSpans (k : Look) : List MdInline → List (Option ParsedSpan)
  | [] => []
  | x :: xs => x.spans k ++ inlineSpans k xs
end

/-- The lines between forced breaks; always at least one. -/
def breakLines {α : Type} : List (Option α) → List (List α)
  | [] => [[]]
  | none :: xs => [] :: breakLines xs
  | some a :: xs =>
    match breakLines xs with
    | [] => [[a]]
    | p :: ps => (a :: p) :: ps

/-- The lines of a piece of text. -/
def linesOf (xs : List MdInline) : List (List ParsedSpan) := breakLines (inlineSpans {} xs)

/-- The same without an empty last line. -/
def fullLines (xs : List MdInline) : List (List ParsedSpan) :=
  if (linesOf xs).getLast? = some [] then (linesOf xs).dropLast else linesOf xs

/-- The spans of a text without forced breaks. -/
def spansOf (xs : List MdInline) : List ParsedSpan := (inlineSpans {} xs).filterMap id

/-- The text of a code block: the newline at its end is not part of it. -/
def codeSpans (ts : List (List Char)) : List ParsedSpan := trimLast (ts.map fun t => { text := t, code := true })

mutual
/-- What a block should become, inside `depth` quotes and inside lists of the given styles (innermost first). -/
def MdBlock.elements (depth : Nat) (lists : List ListStyle) : MdBlock → List ParsedElement
  | .para xs => (linesOf xs).map fun l => .block { spans := l, quoteDepth := depth }
  | .heading n xs => [.block { spans := spansOf xs, headingLevel := some (n : Int), quoteDepth := depth }]
  | .code fence ts => [.block { spans := codeSpans ts, isCodeBlock := true, quoteDepth := depth
                                codeLanguage := fence.bind fun l => if l = "" then none else some l }]
  | .table head rows => [.table ((head :: rows).map fun r => r.map spansOf)]
  | .quote bs => blockElements (depth + 1) lists bs
  | .list ordered items => itemElements depth (mdListStyle ordered :: lists) items
  | .other => []
/-- The same for blocks. -/
def blockElements (depth : Nat) (lists : List ListStyle) : List MdBlock → List ParsedElement
  | [] => []
  | b :: bs => b.elements depth lists ++ blockElements depth lists bs
/-- The first text of an item is a list item of the innermost list, indented by the number of lists around it; the rest is
not. -/
def MdItem.elements (depth : Nat) (lists : List ListStyle) : MdItem → List ParsedElement
  | .tight xs bs => ((fullLines xs).map fun l =>
      .block { spans := l, listStyle := lists.head?, listIndent := lists.length - 1, quoteDepth := depth }) ++
      blockElements depth lists bs
  | .loose xs bs => ((linesOf xs).map fun l =>
      .block { spans := l, listStyle := lists.head?, listIndent := lists.length - 1, quoteDepth := depth }) ++
      blockElements depth lists bs
/-- The same for items. -/
def itemElements (depth : Nat) (lists : List ListStyle) : List MdItem → List ParsedElement
  | [] => []
  | i :: is => i.elements depth lists ++ itemElements depth lists is
end

/-- What a document should become; an empty one is one empty paragraph. -/
def documentElements (bs : List MdBlock) : List ParsedElement :=
  if blockElements 0 [] bs = [] then [.block { spans := [{ text := [] }] }] else blockElements 0 [] bs

/-- The indent of a list is only said of list items. -/
def ParsedElement.core : ParsedElement → ParsedElement
  | .block b => .block { b with listIndent := if b.listStyle.isSome then b.listIndent else 0 }
  | .table rows => .table rows

/-- The mark is not there yet. -/
def Look.lacks (k : Look) : MdMark → Prop
  | .emph => k.italic = false
  | .strong => k.bold = false
  | .strike => k.strike = false
  | .link _ => k.link = none

mutual
/-- No mark inside the same mark. -/
def MdInline.NoRepeat (k : Look) : MdInline → Prop
  | .mark m xs => k.lacks m ∧ NoRepeats (k.with m) xs
  | _ => True
/-- The same for several. -/
def NoRepeats (k : Look) : List MdInline → Prop
  | [] => True
  | x :: xs => x.NoRepeat k ∧ NoRepeats k xs
end

/-- No forced line break. -/
def NoBreak (xs : List MdInline) : Prop := none ∉ inlineSpans {} xs

/-- The block is a list. -/
def MdBlock.isList : MdBlock → Bool
  | .list _ _ => true
  | _ => false

mutual
/-- The documents read faithfully: no mark inside the same mark, no forced line break in headings, and the text of a tight
item is followed by lists only.  (A forced break in a table cell cannot be written.) -/
def MdBlock.Good : MdBlock → Prop
  | .para xs => NoRepeats {} xs
  | .heading _ xs => NoRepeats {} xs ∧ NoBreak xs
  | .table head rows => ∀ r ∈ head :: rows, ∀ xs ∈ r, NoRepeats {} xs ∧ NoBreak xs
  | .quote bs => GoodBlocks bs
  | .list _ items => GoodItems items
  | .code _ _ => True
  | .other => True
/-- The same for blocks. -/
def GoodBlocks : List MdBlock → Prop
  | [] => True
  | b :: bs => b.Good ∧ GoodBlocks bs
/-- The same for an item. -/
def MdItem.Good : MdItem → Prop
  | .tight xs bs => NoRepeats {} xs ∧ GoodBlocks bs ∧ ∀ b ∈ bs, b.isList = true
  | .loose xs bs => NoRepeats {} xs ∧ GoodBlocks bs
/-- The same for items. -/
def GoodItems : List MdItem → Prop
  | [] => True
  | i :: is => i.Good ∧ GoodItems is
end

end Verif
