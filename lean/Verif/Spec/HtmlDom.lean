import Verif.Model.HtmlDom
import Verif.Spec.ImportMarkup
/- What an HTML tree says. -/
namespace Verif

/-- A text node as it is seen: trimmed, and not at all if it is blank. -/
def seenSpan (x : ParsedSpan) : Option ParsedSpan := if trimText x.text = [] then none else some { x with text := trimText x.text }

mutual
/-- The texts in a node in the order of the source, each with the formats of the elements around it. -/
def HNode.inner (k : FmtState) : HNode → List ParsedSpan
  | .text t => (seenSpan (k.span t)).toList
  | .elem tag at' kids => nodesInner (k.enter tag at') kids
  | .other => []
/-- The same for several. -/
def nodesInner (k : FmtState) : List HNode → List ParsedSpan
  | [] => []
  | n :: ns => n.inner k ++ nodesInner k ns
end

/-- The texts of the cells of a row. -/
def rowInner : List HNode → List ParsedSpan
  | [] => []
  | .elem .cell _ kids :: ns => nodesInner {} kids ++ rowInner ns
  | _ :: ns => rowInner ns

mutual
/-- The texts of a table: those in its cells, with the formats inside the cell. -/
def HNode.tableInner : HNode → List ParsedSpan
  | .elem .thead _ kids => tableInners kids
  | .elem .tbody _ kids => tableInners kids
  | .elem .tr _ kids => rowInner kids
  | _ => []
/-- The same for several. -/
def tableInners : List HNode → List ParsedSpan
  | [] => []
  | n :: ns => n.tableInner ++ tableInners ns
end

mutual
/-- The texts in a node of a document. -/
def HNode.texts (k : FmtState) : HNode → List ParsedSpan
  | .text t => (seenSpan (k.span t)).toList
  | .elem .table _ kids => tableInners kids
  | .elem .br _ _ => []
  | .elem tag at' kids => nodesTexts (k.enter tag at') kids
  | .other => []
/-- The same for several. -/
def nodesTexts (k : FmtState) : List HNode → List ParsedSpan
  | [] => []
  | n :: ns => n.texts k ++ nodesTexts k ns
end

mutual
/-- How deep a tree is. -/
def HNode.height : HNode → Nat
  | .elem _ _ kids => heights kids + 1
  | _ => 0
/-- The same for several. -/
def heights : List HNode → Nat
  | [] => 0
  | n :: ns => max n.height (heights ns)
end

/-- The spans of an element. -/
def ParsedElement.spans : ParsedElement → List ParsedSpan
  | .block b => b.spans
  | .table rows => rows.flatten.flatten

/-- What is seen of parsed elements. -/
def seenTexts (es : List ParsedElement) : List ParsedSpan := (es.flatMap ParsedElement.spans).filterMap seenSpan

/-- A piece of text in well-formed HTML: text, or text inside an inline element. -/
inductive HIn where
  | text (t : List Char)
  | mark (tag : HTag) (href : Option String) (xs : List HIn)

mutual
/-- A block of well-formed HTML. -/
inductive HBl where
  | para (div : Bool) (style : BlockStyles) (xs : List HIn)
  | heading (level : Nat) (style : BlockStyles) (xs : List HIn)
  | pre (style : BlockStyles) (language : Option String) (xs : List HIn)
  | box (bs : List HBl)
  | quote (bs : List HBl)
  | list (ordered : Bool) (items : List HIt)
  | table (head : List (List HIn)) (rows : List (List (List HIn)))
/-- An item of a list: its text, and blocks below it. -/
inductive HIt where
  | item (style : BlockStyles) (xs : List HIn) (bs : List HBl)
end

mutual
/-- The node. -/
def HIn.node : HIn → HNode
  | .text t => .text t
  | .mark tag href xs => .elem tag { href := href } (hinNodes xs)
/-- The nodes. -/
def hinNodes : List HIn → List HNode
  | [] => []
  | x :: xs => x.node :: hinNodes xs
end

/-- A row of cells. -/
def rowNode (cells : List (List HIn)) : HNode := .elem .tr {} (cells.map fun xs => .elem .cell {} (hinNodes xs))

mutual
/-- The node of a block: `<p>` or `<div>`, `<h1>`…, `<pre><code>`, `<div>` around blocks, `<blockquote>`, `<ul>` or `<ol>`,
`<table>` with `<thead>` and `<tbody>`. -/
def HBl.node : HBl → HNode
  | .para div st xs => .elem (if div then .div else .p) { style := st } (hinNodes xs)
  | .heading n st xs => .elem (.heading n) { style := st } (hinNodes xs)
  | .pre st l xs => .elem .pre { style := st } [.elem .code { language := l } (hinNodes xs)]
  | .box bs => .elem .div {} (hblNodes bs)
  | .quote bs => .elem .blockquote {} (hblNodes bs)
  | .list ordered items => .elem (if ordered then .ol else .ul) {} (hitNodes items)
  | .table head rows => .elem .table {} [.elem .thead {} [rowNode head], .elem .tbody {} (rows.map rowNode)]
/-- The nodes. -/
def hblNodes : List HBl → List HNode
  | [] => []
  | b :: bs => b.node :: hblNodes bs
/-- The node of an item: `<li>`. -/
def HIt.node : HIt → HNode
  | .item st xs bs => .elem .li { style := st } (hinNodes xs ++ hblNodes bs)
/-- The nodes. -/
def hitNodes : List HIt → List HNode
  | [] => []
  | i :: is => i.node :: hitNodes is
end

mutual
/-- The spans of a piece of text. -/
def HIn.spans (k : FmtState) : HIn → List ParsedSpan
  | .text t => if t = [] then [] else [k.span t]
  | .mark tag href xs => hinSpans (k.enter tag { href := href }) xs
/-- The same for several. -/
def hinSpans (k : FmtState) : List HIn → List ParsedSpan
  | [] => []
  | x :: xs => x.spans k ++ hinSpans k xs
end

/-- A paragraph format with these styles. -/
def ParsedBlock.styled (b : ParsedBlock) (st : BlockStyles) : ParsedBlock :=
  { b with lineHeight := st.lineHeight, nonBreakableLines := st.nonBreakableLines, direction := st.direction,
           backgroundColor := st.backgroundColor }

/-- The style of a list. -/
def htmlListStyle (ordered : Bool) : ListStyle := if ordered then .decimal else .disc

/-- A cell; one without text has an empty span. -/
def cellText (xs : List HIn) : List ParsedSpan := if hinSpans {} xs = [] then [{ text := [] }] else hinSpans {} xs

mutual
/-- What a block should become, inside `depth` quotes and the lists of the given styles (innermost first). -/
def HBl.elements (depth : Nat) (lists : List ListStyle) : HBl → List ParsedElement
  | .para _ st xs => [.block (ParsedBlock.styled { spans := hinSpans {} xs, quoteDepth := depth } st)]
  | .heading n st xs => [.block (ParsedBlock.styled { spans := hinSpans {} xs, headingLevel := some (n : Int), quoteDepth := depth } st)]
  | .pre st l xs => [.block (ParsedBlock.styled { spans := hinSpans { code := true } xs, isCodeBlock := true, codeLanguage := l,
                                                  quoteDepth := depth } st)]
  | .box bs => hblElements depth lists bs
  | .quote bs => hblElements (depth + 1) lists bs
  | .list ordered items => hitElements depth (htmlListStyle ordered :: lists) items
  | .table head rows => [.table ((head :: rows).map fun r => r.map cellText)]
/-- The same for several. -/
def hblElements (depth : Nat) (lists : List ListStyle) : List HBl → List ParsedElement
  | [] => []
  | b :: bs => b.elements depth lists ++ hblElements depth lists bs
/-- The text of an item is a list item of the innermost list, indented by the number of lists around it. -/
def HIt.elements (depth : Nat) (lists : List ListStyle) : HIt → List ParsedElement
  | .item st xs bs => .block (ParsedBlock.styled { spans := hinSpans {} xs, listStyle := lists.head?, listIndent := lists.length - 1,
                                                   quoteDepth := depth } st) :: hblElements depth lists bs
/-- The same for several. -/
def hitElements (depth : Nat) (lists : List ListStyle) : List HIt → List ParsedElement
  | [] => []
  | i :: is => i.elements depth lists ++ hitElements depth lists is
end

/-- What a document should become; an empty one is one empty paragraph. -/
def htmlElements (bs : List HBl) : List ParsedElement :=
  if hblElements 0 [] bs = [] then [.block { spans := [{ text := [] }] }] else hblElements 0 [] bs

/-- The element is one for inline text. -/
def HTag.isInline : HTag → Bool
  | .bold | .italic | .underline | .strike | .code | .a | .other => true
  | _ => false

mutual
/-- Only inline elements. -/
def HIn.Good : HIn → Prop
  | .text _ => True
  | .mark tag _ xs => tag.isInline = true ∧ GoodIns xs
/-- The same for several. -/
def GoodIns : List HIn → Prop
  | [] => True
  | x :: xs => x.Good ∧ GoodIns xs
end

mutual
/-- Paragraphs, code blocks and list items have text; rows have cells. -/
def HBl.Good : HBl → Prop
  | .para _ _ xs => GoodIns xs ∧ hinSpans {} xs ≠ []
  | .heading _ _ xs => GoodIns xs
  | .pre _ _ xs => GoodIns xs ∧ hinSpans { code := true } xs ≠ []
  | .box bs => GoodBls bs
  | .quote bs => GoodBls bs
  | .list _ items => GoodIts items
  | .table head rows => ∀ r ∈ head :: rows, r ≠ [] ∧ ∀ xs ∈ r, GoodIns xs
/-- The same for several. -/
def GoodBls : List HBl → Prop
  | [] => True
  | b :: bs => b.Good ∧ GoodBls bs
/-- The same for an item. -/
def HIt.Good : HIt → Prop
  | .item _ xs bs => GoodIns xs ∧ hinSpans {} xs ≠ [] ∧ GoodBls bs
/-- The same for several. -/
def GoodIts : List HIt → Prop
  | [] => True
  | i :: is => i.Good ∧ GoodIts is
end

end Verif
