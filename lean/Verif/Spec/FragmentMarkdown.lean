import Verif.Model.FragmentText
import Verif.Spec.MarkdownText
import Verif.Spec.FragmentText
/-
A reader for the Markdown of a fragment: groups of lines between blank lines, each group a table, the items of a list or a single
line.  Lines are read by the reader of Spec/MarkdownText.lean.  Tables follow the GitHub extension: cells end at a `|` that is not
escaped (even one in code), white space around them does not count.  Whether a list is tight or loose is not told apart: the items are
given as loose.  Nothing of the exporter is used.
-/
namespace Verif

/-- Groups of lines between blank lines; some may be empty. -/
def mdGroups : List (List Char) → List (List (List Char))
  | [] => [[]]
  | l :: ls =>
    if l = [] then [] :: mdGroups ls
    else match mdGroups ls with
      | g :: gs => (l :: g) :: gs
      | [] => [[l]]

/-- The line begins an item of a list. -/
def mdIsItem (l : List Char) : Bool :=
  let digits := l.takeWhile Char.isDigit
  "- ".toList.isPrefixOf l || (digits ≠ [] && ". ".toList.isPrefixOf (l.drop digits.length))

/-- The texts between pipes; `true` behind a backslash. -/
def mdPipes : Bool → List Char → List (List Char)
  | _, [] => [[]]
  | escaped, c :: cs =>
    if escaped = false ∧ c = '|' then [] :: mdPipes false cs
    else match mdPipes (!escaped && c = '\\') cs with
      | p :: ps => (c :: p) :: ps
      | [] => [[c]]

/-- Without the white space around it. -/
def mdTrim (t : List Char) : List Char := ((t.dropWhile isWhite).reverse.dropWhile isWhite).reverse

/-- The cells of a line with a pipe before and behind every cell. -/
def mdRowCells (l : List Char) : Option (List (List Char)) :=
  match mdPipes false l with
  | [] :: ps => if ps.getLast? = some [] then some (ps.dropLast.map mdTrim) else none
  | _ => none

/-- The text of a cell. -/
def mdCellText (t : List Char) : Option (List MdInline) := if t = [] then some [] else mdText t

/-- The cells of a row of `n` columns. -/
def mdRow (n : Nat) (l : List Char) : Option (List (List MdInline)) :=
  (mdRowCells l).bind fun cells => if cells.length = n then mapOpt mdCellText cells else none

/-- A table: a row, the line of hyphens, more rows. -/
def mdTableBlock : List (List Char) → Option MdBlock
  | head :: rule :: rows =>
    (mdRowCells rule).bind fun rs =>
    if rs ≠ [] ∧ (∀ r ∈ rs, r ≠ [] ∧ ∀ c ∈ r, c = '-') then
      (mdRow rs.length head).bind fun h => (mapOpt (mdRow rs.length) rows).map fun rows => .table h rows
    else none
  | _ => none

/-- A group of lines. -/
def mdChunk (g : List (List Char)) : Option (List MdBlock) :=
  match g with
  | [] => some []
  | l :: ls =>
    if l.head? = some '|' then (mdTableBlock (l :: ls)).map fun b => [b]
    else if (ls = [] ∧ "```".toList.isPrefixOf l = false) ∨ (∀ x ∈ l :: ls, mdIsItem x = true) then mapOpt mdLineBlock (l :: ls)
    else none

/-- The blocks of a source. -/
def readGroups (t : List Char) : Option (List MdBlock) :=
  (mapOpt mdChunk (mdGroups (splitOnChar '\n' t))).map fun bs => bs.flatten.foldr mdCons []

/-! ### What a fragment should be read as -/

/-- The same element with a span for every character. -/
def ParsedElement.fineAll : ParsedElement → ParsedElement
  | .block b => .block { b with spans := b.spans.flatMap fun x => x.text.map fun c => { x with text := [c] } }
  | .table rows => .table (rows.map fun r => r.map fun xs => xs.flatMap fun x => x.text.map fun c => { x with text := [c] })

/-- The characters of a paragraph of text. -/
def elementChars (es : List (Segment CharFormat)) : List SChar :=
  es.flatMap fun
    | .text t f => t.map fun c => (c, some f)
    | .image _ => []

/-- What a paragraph should become: a heading of a level from 1 to 6, an item of a list, or a paragraph. -/
def mdFragBlock (b : Store.FragBlock) : ParsedBlock :=
  { spans := (elementChars b.elements).map mdSpan
    headingLevel := b.format.fmtHeadingLevel.map fun n => max 1 (min 6 n)
    listStyle := if b.format.fmtHeadingLevel.isSome then none else b.list.map fun l => mdListStyle (numbered l.style) }

/-- The elements of a cell: a space between two paragraphs. -/
def cellElements : List Store.FragBlock → List (Segment CharFormat)
  | [] => []
  | [b] => b.elements
  | b :: bs => b.elements ++ .text [' '] {} :: cellElements bs

/-- The paragraphs at a place of a table: those of the last cell given for it. -/
def blocksAt (t : Store.FragTable) (r c : Nat) : List Store.FragBlock :=
  (((t.cells.filter fun x => x.row = r ∧ x.column = c).getLast?).map Store.FragCell.blocks).getD []

/-- What a table should become. -/
def mdFragTable (t : Store.FragTable) : ParsedElement :=
  .table ((List.range t.rows).map fun r => (List.range t.columns).map fun c => (elementChars (cellElements (blocksAt t r c))).map mdSpan)

/-- What a fragment should become: before block `i` the tables put there; empty paragraphs are not seen.  `n` is large enough. -/
def mdFragElements (bs : List Store.FragBlock) (ts : List Store.FragTable) (n : Nat) : List ParsedElement :=
  (List.range (n + 1)).flatMap fun i =>
    (ts.filter fun t => t.index = i).map mdFragTable ++
    ((bs[i]?.toList.filter fun b => elementChars b.elements ≠ []).map fun b => .block (mdFragBlock b))

/-! ### The fragments this is said of -/

/-- A format whose marks are not nested: code has no other mark, struck-out text is not bold or italic, and a link is said to be one. -/
structure MdSingle (f : CharFormat) : Prop where
  code : mdIsCode f = true → (mdLook f).bold = false ∧ (mdLook f).italic = false ∧ (mdLook f).strike = false ∧ (mdLook f).link = none
  strike : (mdLook f).strike = true → (mdLook f).bold = false ∧ (mdLook f).italic = false
  link : f.isAnchor = some true ↔ f.anchorHref ≠ none

/-- The elements that hold text. -/
def fullElements (es : List (Segment CharFormat)) : List (Segment CharFormat) :=
  es.filter fun
    | .text t _ => t ≠ []
    | .image _ => true

/-- A text that can be shown in a line: neighbours have different formats. -/
structure FragLine (es : List (Segment CharFormat)) : Prop where
  text : ∀ g ∈ es, ∃ t f, g = .text t f ∧ MdSingle f ∧ (t = [] → ¬ mdDecorated f) ∧ (mdIsCode f = false → '<' ∉ t)
  apart : ∀ L t (f : CharFormat) t' f' R, fullElements es = L ++ .text t f :: .text t' f' :: R → f ≠ f' ∨ f = {}
  line : MdLine (elementChars es)

/-- A paragraph of a fragment that Markdown can show. -/
structure FragFit (b : Store.FragBlock) : Prop where
  line : FragLine b.elements
  indent : ¬ 0 < b.format.fmtIndent.getD 0
  full : b.format.fmtHeadingLevel ≠ none ∨ b.list ≠ none → elementChars b.elements ≠ []

/-- A table of a fragment that Markdown can show: no pipe in code or in the address of a link. -/
structure FragTableFit (t : Store.FragTable) : Prop where
  rows : 0 < t.rows
  columns : 0 < t.columns
  cells : ∀ x ∈ t.cells, FragLine (cellElements x.blocks) ∧
    ∀ s f, Segment.text s f ∈ cellElements x.blocks → (mdIsCode f = true → '|' ∉ s) ∧ (∀ u, f.anchorHref = some u → '|' ∉ u.toList)

end Verif
