import Verif.Model.ImportMarkup
import Verif.Model.Session
/-
From the tree of an HTML document to the parsed elements: `parse_html_elements`,
crates/common/src/parser_tools/content_parser.rs L544-L1090.  The HTML parser (scraper) is not modelled: its output, a tree
of nodes, is the input here.
-/
namespace Verif

/-- The element names that content_parser.rs distinguishes, L596-L608, L689-L733; names treated alike are one
constructor: `bold` is b and strong, `italic` i and em, `underline` u and ins, `strike` s, del and strike, `page` body and
html, `tbody` also tfoot, `cell` td and th. -/
inductive HTag where
  | bold
  | italic
  | underline
  | strike
  | code
  | a
  | ul
  | ol
  | blockquote
  | p
  | div
  | heading (level : Nat)
  | li
  | pre
  | br
  | page
  | table
  | thead
  | tbody
  | tr
  | cell
  | other
deriving DecidableEq, Repr

/-- `BlockStyles`, L495-L502: what `parse_block_styles` finds in the `style` attribute (the parsing of the attribute is not
modelled). -/
structure BlockStyles where
  lineHeight : Option Int := none
  nonBreakableLines : Option Bool := none
  direction : Option TextDirection := none
  backgroundColor : Option String := none
deriving DecidableEq, Repr

/-- The attributes used: `href`, the language in `class` (`language-xxx`, L752-L756), and `style`. -/
structure HAttrs where
  href : Option String := none
  language : Option String := none
  style : BlockStyles := {}
deriving DecidableEq, Repr

/-- A node of the tree; `other` is a comment or the like, which has no children. -/
inductive HNode where
  | text (t : List Char)
  | elem (tag : HTag) (attrs : HAttrs) (kids : List HNode)
  | other

/-- `FmtState`, L553-L561. -/
structure FmtState where
  bold : Bool := false
  italic : Bool := false
  underline : Bool := false
  strikeout : Bool := false
  code : Bool := false
  link : Option String := none
deriving DecidableEq, Repr

/-- A text with the formats around it, e.g. L580-L588. -/
def FmtState.span (k : FmtState) (t : List Char) : ParsedSpan :=
  { text := t, bold := k.bold, italic := k.italic, underline := k.underline, strikeout := k.strikeout, code := k.code, linkHref := k.link }

/-- The format inside an element, L595-L608, L707-L717, L968-L981. -/
def FmtState.enter (k : FmtState) (tag : HTag) (at' : HAttrs) : FmtState :=
  match tag with
  | .bold => { k with bold := true }
  | .italic => { k with italic := true }
  | .underline => { k with underline := true }
  | .strike => { k with strikeout := true }
  | .code => { k with code := true }
  | .a => match at'.href with | some u => { k with link := some u } | none => k
  | _ => k

/-- `str::trim`. -/
def trimText (t : List Char) : List Char := ((t.dropWhile isWhite).reverse.dropWhile isWhite).reverse

/-- A text node in a block, L577-L591, L952-L966: nothing if it is empty. -/
def FmtState.spans (k : FmtState) (t : List Char) : List ParsedSpan := if t = [] then [] else [k.span t]

/-- `MAX_RECURSION_DEPTH`, L563. -/
def maxDepth : Nat := 256

mutual
/-- One child in `collect_cell_spans`, L575-L613. -/
def cellNode (d : Nat) (k : FmtState) : HNode → List ParsedSpan
  | .text t => k.spans t
  | .elem tag at' kids => if d + 1 > maxDepth then [] else cellNodes (d + 1) (k.enter tag at') kids
  | .other => []
/-- The children of a cell, L566-L613 after the check of the depth. -/
def cellNodes (d : Nat) (k : FmtState) : List HNode → List ParsedSpan
  | [] => []
  | n :: ns => cellNode d k n ++ cellNodes d k ns
end

/-- The spans of a cell, L637-L642: an empty one gets an empty span. -/
def cellOf (kids : List HNode) : List ParsedSpan :=
  let xs := cellNodes 0 {} kids
  if xs = [] then [{ text := [] }] else xs

/-- The cells of a row, L631-L645. -/
def rowCells (kids : List HNode) : List (List ParsedSpan) :=
  kids.filterMap fun
    | .elem .cell _ kids => some (cellOf kids)
    | _ => none

mutual
/-- One child in `collect_rows`, L625-L655. -/
def rowsNode : HNode → List (List (List ParsedSpan))
  | .elem .thead _ kids => rowsNodes kids
  | .elem .tbody _ kids => rowsNodes kids
  | .elem .tr _ kids => if rowCells kids = [] then [] else [rowCells kids]
  | _ => []
/-- `collect_rows`, L619-L657. -/
def rowsNodes : List HNode → List (List (List ParsedSpan))
  | [] => []
  | n :: ns => rowsNode n ++ rowsNodes ns
end

/-- Where a node is: the depth of the recursion, the format, the innermost list, the quotes and the lists around it (the
arguments of `walk_node`, L668-L676). -/
structure Place where
  depth : Nat
  fmt : FmtState
  list : Option ListStyle
  quotes : Nat
  lists : Nat

/-- The block elements of `walk_node` except br and blockquote, L689-L704. -/
def HTag.isBlock : HTag → Bool
  | .p | .div | .heading _ | .li | .pre | .page => true
  | _ => false

/-- The elements that `collect_inline_spans` hands to `walk_node`, L985-L999, L1008. -/
def HTag.isNested : HTag → Bool
  | .p | .div | .heading _ | .li | .pre | .blockquote | .ul | .ol | .table => true
  | _ => false

/-- The heading level, L733-L741. -/
def HTag.level : HTag → Option Int
  | .heading n => some (n : Int)
  | _ => none

/-- The language of a code block: the first code child that names one, L746-L761. -/
def codeLanguageOf : List HNode → Option String
  | [] => none
  | .elem .code at' _ :: ns => match at'.language with | some l => some l | none => codeLanguageOf ns
  | _ :: ns => codeLanguageOf ns

/-- The block of `br`, L779-L798. -/
def brBlock (q : Nat) : ParsedElement := .block { spans := [{ text := [] }], quoteDepth := q }

/-- The block of a block element, L832-L857; `xs` are its spans, `nested` the elements inside. -/
def blockOf (c : Place) (tag : HTag) (at' : HAttrs) (kids : List HNode) (xs : List ParsedSpan) (nested : List ParsedElement) :
    List ParsedElement :=
  (if xs ≠ [] ∨ tag.level.isSome then
    [.block { spans := xs
              headingLevel := tag.level
              listStyle := if tag = .li then c.list else none
              listIndent := if tag = .li then c.lists - 1 else 0
              isCodeBlock := tag = .pre
              codeLanguage := if tag = .pre then codeLanguageOf kids else none
              quoteDepth := c.quotes
              lineHeight := at'.style.lineHeight
              nonBreakableLines := at'.style.nonBreakableLines
              direction := at'.style.direction
              backgroundColor := at'.style.backgroundColor }]
  else []) ++ nested

/-- `walk_node` on an element, L681-L887; `walk` and `collect` are `walk_node` and `collect_inline_spans` over its
children. -/
def elemWalk (c : Place) (tag : HTag) (at' : HAttrs) (kids : List HNode)
    (walk : Place → List ParsedElement) (collect : Place → List ParsedSpan × List ParsedElement) : List ParsedElement :=
  if c.depth > maxDepth then []
  else
    let k := c.fmt.enter tag at'
    match tag with
    | .table => if rowsNodes kids = [] then [] else [.table (rowsNodes kids)]
    | .br => [brBlock c.quotes]
    | .blockquote => walk { c with depth := c.depth + 1, fmt := k, quotes := c.quotes + 1 }
    | .ul => walk { c with depth := c.depth + 1, fmt := k, list := some .disc, lists := c.lists + 1 }
    | .ol => walk { c with depth := c.depth + 1, fmt := k, list := some .decimal, lists := c.lists + 1 }
    | _ =>
      if tag.isBlock then
        let r := collect { c with depth := c.depth + 1, fmt := k }
        blockOf c tag at' kids r.1 r.2
      else walk { c with depth := c.depth + 1, fmt := k }

/-- The paragraph of a text outside of blocks, L888-L914. -/
def bareText (c : Place) (t : List Char) : List ParsedElement :=
  if trimText t = [] then [] else [.block { spans := [c.fmt.span (trimText t)], quoteDepth := c.quotes }]

mutual
/-- `walk_node`, L668-L930. -/
def walkNode (c : Place) : HNode → List ParsedElement
  | .text t => if c.depth > maxDepth then [] else bareText c t
  | .elem tag at' kids => elemWalk c tag at' kids (fun c => walkNodes c kids) (fun c => collectNodes c kids)
  | .other => []
/-- `walk_node` on each child. -/
def walkNodes (c : Place) : List HNode → List ParsedElement
  | [] => []
  | n :: ns => walkNode c n ++ walkNodes c ns
/-- One child in `collect_inline_spans`, L950-L1034: the spans, and the elements inside. -/
def collectNode (c : Place) : HNode → List ParsedSpan × List ParsedElement
  | .text t => (c.fmt.spans t, [])
  | .elem tag at' kids =>
    if tag = .br then ([{ text := [] }], [])
    else if tag.isNested then
      ([], elemWalk { c with depth := c.depth + 1, fmt := c.fmt.enter tag at' } tag at' kids (fun c => walkNodes c kids)
        (fun c => collectNodes c kids))
    else collectNodes { c with depth := c.depth + 1, fmt := c.fmt.enter tag at' } kids
  | .other => ([], [])
/-- `collect_inline_spans`, L937-L1036. -/
def collectNodes (c : Place) : List HNode → List ParsedSpan × List ParsedElement
  | [] => ([], [])
  | n :: ns =>
    if c.depth > maxDepth then ([], [])
    else ((collectNode c n).1 ++ (collectNodes c ns).1, (collectNode c n).2 ++ (collectNodes c ns).2)
end

/-- `parse_html_elements`, L544-L1090, on the children of the root. -/
def parseHtml (kids : List HNode) : List ParsedElement :=
  let r := collectNodes { depth := 0, fmt := {}, list := none, quotes := 0, lists := 0 } kids
  let es := r.2 ++ (if r.1 = [] then [] else [.block { spans := r.1 }])
  if es = [] then [.block { spans := [{ text := [] }] }] else es

end Verif
