import Verif.Spec.Document
/-
Reading HTML: a small reader (tags, attributes in double quotes, character references, an element
stack) that gives the paragraphs of a page with their marks, and the page a document should give.
It knows nothing about how the page was written.
-/
namespace Verif

/-! ### Tokens -/

/-- What the reader is inside of: text, a tag (quoted or not), or a character reference. -/
inductive HtmlState where
  | text
  | tag (seen : List Char) (quoted : Bool)
  | ref (seen : List Char)

inductive HtmlToken where
  | tag (body : List Char)
  | char (c : Char)
deriving DecidableEq

/-- The character references used. -/
def htmlRefs : List (List Char × Char) :=
  [("amp".toList, '&'), ("lt".toList, '<'), ("gt".toList, '>'), ("quot".toList, '"'),
    ("#x27".toList, '\''), ("#13".toList, '\r')]

/-- The tags and characters of a page.  A raw carriage return is refused: HTML readers turn it into a
line feed. -/
def htmlTokens : HtmlState → List Char → Option (List HtmlToken)
  | .text, [] => some []
  | .tag _ _, [] => none
  | .ref _, [] => none
  | .text, c :: s =>
    if c = '<' then htmlTokens (.tag [] false) s
    else if c = '&' then htmlTokens (.ref []) s
    else if c = '\r' then none
    else (htmlTokens .text s).map fun ts => .char c :: ts
  | .tag seen quoted, c :: s =>
    if c = '"' then htmlTokens (.tag (seen ++ [c]) !quoted) s
    else if c = '>' ∧ quoted = false then (htmlTokens .text s).map fun ts => .tag seen :: ts
    else htmlTokens (.tag (seen ++ [c]) quoted) s
  | .ref seen, c :: s =>
    if c = ';' then
      match htmlRefs.lookup seen with
      | some x => (htmlTokens .text s).map fun ts => .char x :: ts
      | none => none
    else htmlTokens (.ref (seen ++ [c])) s

/-- The text an attribute value stands for; the first argument is the reference being read. -/
def attrText : Option (List Char) → List Char → Option (List Char)
  | none, [] => some []
  | some _, [] => none
  | none, c :: s =>
    if c = '&' then attrText (some []) s
    else if c = '\r' then none
    else (attrText none s).map fun t => c :: t
  | some seen, c :: s =>
    if c = ';' then
      match htmlRefs.lookup seen with
      | some x => (attrText none s).map fun t => x :: t
      | none => none
    else attrText (some (seen ++ [c])) s

/-! ### Elements -/

/-- An open element: its name and the rest of its tag. -/
structure HtmlElem where
  name : List Char
  rest : List Char
deriving DecidableEq

/-- The element a tag opens. -/
def elemOf (body : List Char) : HtmlElem := ⟨body.takeWhile (· ≠ ' '), body.dropWhile (· ≠ ' ')⟩

/-- The value of the only attribute of an element. -/
def HtmlElem.attr (e : HtmlElem) (key : List Char) : Option (List Char) :=
  let pre := ' ' :: key ++ "=\"".toList
  if pre.isPrefixOf e.rest then attrText none (e.rest.drop pre.length).dropLast else none

/-- What is marked on a character. -/
structure HtmlMarks where
  code : Bool := false
  bold : Bool := false
  italic : Bool := false
  underline : Bool := false
  strike : Bool := false
  link : Option (List Char) := none
deriving DecidableEq

inductive HtmlKind where
  | para
  | heading (level : Nat)
  | item (numbered : Bool)
  | code (language : List Char)
deriving DecidableEq

/-- A paragraph of a page: its kind, its style declarations, and its characters. -/
structure HtmlPara where
  kind : HtmlKind
  style : List (List Char × List Char)
  chars : List (Char × HtmlMarks)
deriving DecidableEq

/-- Whether an element of this name is open. -/
def isOpen (name : String) (es : List HtmlElem) : Bool := es.any fun e => e.name = name.toList

/-- The marks given by the open elements. -/
def marksOf (es : List HtmlElem) : HtmlMarks where
  code := isOpen "code" es && !isOpen "pre" es
  bold := isOpen "strong" es
  italic := isOpen "em" es
  underline := isOpen "u" es
  strike := isOpen "s" es
  link := (es.find? fun e => e.name = "a".toList).bind fun e => e.attr "href".toList

/-- `key: value; key: value`. -/
def splitOnChar (x : Char) : List Char → List (List Char)
  | [] => [[]]
  | c :: s =>
    if c = x then [] :: splitOnChar x s
    else match splitOnChar x s with
      | l :: ls => (c :: l) :: ls
      | [] => [[c]]

/-- The declarations of a style attribute. -/
def declarations (t : List Char) : List (List Char × List Char) :=
  (splitOnChar ';' t).map fun d =>
    let d := d.dropWhile (· = ' ')
    (d.takeWhile (· ≠ ':'), (d.dropWhile (· ≠ ':')).drop 2)

/-- The style declarations of an element. -/
def HtmlElem.styles (e : HtmlElem) : List (List Char × List Char) :=
  ((e.attr "style".toList).map declarations).getD []

/-- The kind of paragraph an element starts inside others. -/
def paraKind (e : HtmlElem) (outer : List HtmlElem) : Option HtmlKind :=
  if e.name = "p".toList then some .para
  else if e.name = "h1".toList then some (.heading 1)
  else if e.name = "h2".toList then some (.heading 2)
  else if e.name = "h3".toList then some (.heading 3)
  else if e.name = "h4".toList then some (.heading 4)
  else if e.name = "h5".toList then some (.heading 5)
  else if e.name = "h6".toList then some (.heading 6)
  else if e.name = "pre".toList then some (.code [])
  else if e.name = "li".toList then
    match outer with
    | o :: _ =>
      if o.name = "ol".toList then some (.item true)
      else if o.name = "ul".toList then some (.item false) else none
    | [] => none
  else none

/-- Elements around paragraphs, and marks inside them. -/
def htmlOuter : List (List Char) := ["html", "head", "body", "ol", "ul"].map String.toList
def htmlInner : List (List Char) := ["code", "strong", "em", "u", "s", "a"].map String.toList

/-- The reader: the open elements, innermost first, and the paragraphs, last first. -/
structure HtmlReader where
  open_ : List HtmlElem
  inPara : Bool
  paras : List HtmlPara

/-- The language named by `class="language-…"`. -/
def languageOf (e : HtmlElem) : List Char := ((e.attr "class".toList).getD []).drop 9

/-- An element is opened; `none` is a page this reader refuses: a paragraph in a paragraph, a mark or
an unknown element outside of one. -/
def HtmlReader.openElem (r : HtmlReader) (e : HtmlElem) : Option HtmlReader :=
  if e.name = "meta".toList then some r
  else match r.inPara, paraKind e r.open_ with
    | false, some k => some ⟨e :: r.open_, true,
        ⟨k, e.styles, []⟩ :: r.paras⟩
    | true, some _ => none
    | false, none => if e.name ∈ htmlOuter then some { r with open_ := e :: r.open_ } else none
    | true, none =>
      match r.paras with
      | p :: ps =>
        if e.name = "code".toList ∧ (r.open_.head?.map HtmlElem.name) = some "pre".toList then
          some ⟨e :: r.open_, true, { p with kind := .code (languageOf e) } :: ps⟩
        else if e.name ∈ htmlInner then some { r with open_ := e :: r.open_ } else none
      | [] => none

/-- An element is closed: the last one opened. -/
def HtmlReader.closeElem (r : HtmlReader) (name : List Char) : Option HtmlReader :=
  match r.open_ with
  | e :: es =>
    if e.name = name then some { r with open_ := es, inPara := r.inPara && (paraKind e es).isNone }
    else none
  | [] => none

/-- One token.  Text outside a paragraph is refused. -/
def HtmlReader.step (r : HtmlReader) : HtmlToken → Option HtmlReader
  | .char c =>
    match r.inPara, r.paras with
    | true, p :: ps => some { r with paras := { p with chars := p.chars ++ [(c, marksOf r.open_)] } :: ps }
    | _, _ => none
  | .tag body => if body.head? = some '/' then r.closeElem body.tail else r.openElem (elemOf body)

/-- The paragraphs of a page. -/
def readHtml (t : List Char) : Option (List HtmlPara) :=
  (htmlTokens .text t).bind fun ts =>
  (ts.foldlM HtmlReader.step ⟨[], false, []⟩).bind fun r =>
  if r.open_ = [] then some r.paras.reverse else none

/-! ### The page a document should give -/

/-- The marks of a character format. -/
def htmlMarksOf (f : Option CharFormat) : HtmlMarks :=
  let f := f.getD {}
  { code := f.fontFamily = some "monospace"
    bold := f.fontBold = some true
    italic := f.fontItalic = some true
    underline := f.fontUnderline = some true
    strike := f.fontStrikeout = some true
    link := f.anchorHref.map String.toList }

/-- Whether the list a paragraph is an item of is numbered. -/
def numbered : ListStyle → Bool
  | .disc | .circle | .square => false
  | .decimal | .lowerAlpha | .upperAlpha | .lowerRoman | .upperRoman => true

def itemOf (lists : Nat → Option TList) (p : SPara) : Option Bool :=
  (p.shape.list.bind lists).map fun l => numbered l.style

/-- The style declarations of a paragraph; `num` is the notation of a line height. -/
def styleOf (num : Int → List Char) (b : Block) : List (List Char × List Char) :=
  (match b.fmtAlignment with
    | some .left => [("text-align".toList, "left".toList)]
    | some .right => [("text-align".toList, "right".toList)]
    | some .center => [("text-align".toList, "center".toList)]
    | some .justify => [("text-align".toList, "justify".toList)]
    | none => []) ++
  (match b.fmtLineHeight with | some n => [("line-height".toList, num n)] | none => []) ++
  (if b.fmtNonBreakableLines = some true then [("white-space".toList, "pre".toList)] else []) ++
  (if b.fmtDirection = some .rightToLeft then [("direction".toList, "rtl".toList)] else []) ++
  (match b.fmtBackgroundColor with | some c => [("background-color".toList, c.toList)] | none => [])

def marked (cs : List SChar) : List (Char × HtmlMarks) := cs.map fun c => (c.1, htmlMarksOf c.2)

/-- A code block: its language and its characters, unmarked. -/
def codeOf (p : SPara) : HtmlPara :=
  ⟨.code (p.shape.fmtCodeLanguage.getD "").toList, [], p.chars.map fun c => (c.1, {})⟩

/-- An item of a list. -/
def listItem (n : Bool) (p : SPara) : HtmlPara := ⟨.item n, [], marked p.chars⟩

/-- A heading or a plain paragraph.  Heading levels outside 1–6 count as the nearest one. -/
def bodyOf (num : Int → List Char) (p : SPara) : HtmlPara :=
  ⟨match p.shape.fmtHeadingLevel with
    | some l => .heading (max 1 (min 6 l)).toNat
    | none => .para, styleOf num p.shape, marked p.chars⟩

/-- What a paragraph should look like on a page. -/
def pageOf (num : Int → List Char) (lists : Nat → Option TList) (p : SPara) : HtmlPara :=
  if p.shape.fmtIsCodeBlock = some true then codeOf p
  else match itemOf lists p with
    | some n => listItem n p
    | none => bodyOf num p

/-- The page as it is exported: while `inList` is set the paragraphs are written as items of one list,
numbered or not like its first item. -/
def exportedPage (num : Int → List Char) (lists : Nat → Option TList) : Option Bool → List SPara → List HtmlPara
  | _, [] => []
  | inList, p :: ps =>
    match inList, itemOf lists p with
    | some n, some _ => listItem n p :: exportedPage num lists (some n) ps
    | _, _ => pageOf num lists p ::
        exportedPage num lists (if p.shape.fmtIsCodeBlock = some true then none else itemOf lists p) ps

/-- A value that may stand in a style attribute as it is. -/
def StyleSafe (v : List Char) : Prop := ∀ c ∈ v, c ∉ ['"', ';', '&', '\r']

/-- No block background breaks out of the style attribute. -/
def SafeColors (ps : List SPara) : Prop :=
  ∀ p ∈ ps, ∀ c, p.shape.fmtBackgroundColor = some c → StyleSafe c.toList

end Verif
