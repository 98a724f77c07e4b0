import Verif.Spec.Html
import Verif.Spec.Markdown
import Verif.Model.Session
/-
A small Markdown reader, from the source text to the tree of Spec/Markdown.lean, and what the source of a document should be read as.
It follows the CommonMark rules, with the extension for struck-out text, for sources whose meaning does not depend on the finer ones,
and refuses all others: paragraphs of several lines, nested lists, quotations, tables, raw HTML, character references, marks that
overlap or might not be marks.  Nothing of the exporter is used.
-/
namespace Verif

/-- ASCII punctuation: what a backslash may stand before. -/
def mdPunct : List Char := "!\"#$%&'()*+,-./:;<=>?@[\\]^_`{|}~".toList

/-- Characters that end a line or cannot be written. -/
def mdControl : List Char := ['\n', '\r', Char.ofNat 0]

/-- Characters that are marks unless escaped. -/
def mdSpecial : List Char := ['\\', '`', '*', '_', '{', '}', '[', ']', '(', ')', '#', '+', '-', '.', '!', '|', '~', '>']

/-- After `<` or `&`: the beginning of a tag or of a character reference. -/
def mdTagStart (c : Char) : Bool := c.isAlphanum || c ∈ ['/', '?', '!', '#']

/-- A mark may open between these characters (`none` is the end of the line): a left-flanking delimiter run. -/
def mdOpens (before after : Option Char) : Bool :=
  match after with
  | none => false
  | some c => !isWhite c && (c.isAlphanum ||
      match before with
      | none => true
      | some b => isWhite b || b ∈ mdPunct)

/-- A mark may close between these characters: a right-flanking delimiter run. -/
def mdCloses (before after : Option Char) : Bool := mdOpens after before

/-- The text before the first `d` and the text after it; escaped characters and code do not count. -/
def mdScan (d : List Char) : Bool → List Char → Option (List Char × List Char)
  | _, [] => none
  | true, c :: cs => (mdScan d (c ≠ '`') cs).map fun r => (c :: r.1, r.2)
  | false, c :: cs =>
    if d.isPrefixOf (c :: cs) then some ([], (c :: cs).drop d.length)
    else if c = '\\' then
      match cs with
      | [] => none
      | e :: es => (mdScan d false es).map fun r => (c :: e :: r.1, r.2)
    else (mdScan d (c = '`') cs).map fun r => (c :: r.1, r.2)

/-- A character that may stand in a link destination. -/
def mdUrlChar (c : Char) : Bool := ' '.toNat < c.toNat && c.toNat ≠ 127 && c ∉ ['(', ')', '<', '>', '\\', '&', '`']

/-- A mark of stars or tildes around pieces. -/
def mdStarred (k : Nat) (xs : List MdInline) : MdInline :=
  if k = 1 then .mark .emph xs else if k = 2 then .mark .strong xs else .mark .emph [.mark .strong xs]

/-- The pieces of a line; `before` is the character before it. -/
def mdInline : Nat → Option Char → List Char → Option (List MdInline)
  | 0, _, _ => none
  | _ + 1, _, [] => some []
  | n + 1, before, c :: cs =>
    if c = '\\' then
      match cs with
      | [] => none
      | e :: es => if e ∈ mdPunct then (mdInline n (some e) es).map fun r => .text [e] :: r else none
    else if c = '`' then
      let t := cs.takeWhile (· ≠ '`')
      match cs.dropWhile (· ≠ '`') with
      | [] => none
      | _ :: rest =>
        if t = [] ∨ t.head? = some ' ' ∨ t.getLast? = some ' ' ∨ (∃ c ∈ t, c ∈ mdControl) ∨ rest.head? = some '`' then none
        else (mdInline n (some '`') rest).map fun r => .code t :: r
    else if c = '[' then
      (mdScan "](".toList false cs).bind fun x =>
      let url := x.2.takeWhile (· ≠ ')')
      match x.2.dropWhile (· ≠ ')') with
      | [] => none
      | _ :: rest =>
        if url.all mdUrlChar then
          (mdInline n (some '[') x.1).bind fun inner =>
          (mdInline n (some ')') rest).map fun r => .mark (.link (String.ofList url)) inner :: r
        else none
    else if c = '*' then
      let k := ((c :: cs).takeWhile (· = '*')).length
      let body := (c :: cs).dropWhile (· = '*')
      if k > 3 then none
      else (mdScan (List.replicate k '*') false body).bind fun x =>
        if x.2.head? = some '*' ∨ ¬ mdOpens before body.head? ∨ ¬ mdCloses x.1.getLast? x.2.head? then none
        else (mdInline n (some '*') x.1).bind fun inner =>
          (mdInline n (some '*') x.2).map fun r => mdStarred k inner :: r
    else if c = '~' then
      let k := ((c :: cs).takeWhile (· = '~')).length
      let body := (c :: cs).dropWhile (· = '~')
      if k ≠ 2 then none
      else (mdScan (List.replicate k '~') false body).bind fun x =>
        if x.2.head? = some '~' ∨ ¬ mdOpens before body.head? ∨ ¬ mdCloses x.1.getLast? x.2.head? then none
        else (mdInline n (some '~') x.1).bind fun inner =>
          (mdInline n (some '~') x.2).map fun r => .mark .strike inner :: r
    else if c ∈ mdSpecial ∨ c ∈ mdControl then none
    else if (c = '<' ∨ c = '&') ∧ (cs.head?.any mdTagStart) then none
    else (mdInline n (some c) cs).map fun r => .text [c] :: r

/-- The text of a line: not empty, without white space around it. -/
def mdText (t : List Char) : Option (List MdInline) :=
  if t.head?.all isWhite ∨ t.getLast?.all isWhite then none else mdInline (t.length + 1) none t

/-- A line that is a block of its own: a heading, an item of a list (the number does not matter) or a paragraph. -/
def mdLineBlock (l : List Char) : Option MdBlock :=
  let hashes := l.takeWhile (· = '#')
  let digits := l.takeWhile Char.isDigit
  if hashes ≠ [] then
    if hashes.length ≤ 6 ∧ (l.drop hashes.length).head? = some ' ' then
      (mdText (l.drop (hashes.length + 1))).map fun xs => .heading hashes.length xs
    else none
  else if "- ".toList.isPrefixOf l then (mdText (l.drop 2)).map fun xs => .list false [.loose xs []]
  else if digits ≠ [] ∧ ". ".toList.isPrefixOf (l.drop digits.length) then
    if digits.length ≤ 9 then (mdText (l.drop (digits.length + 2))).map fun xs => .list true [.loose xs []] else none
  else (mdText l).map .para

/-- A block before others: items of the same kind are items of one list. -/
def mdCons : MdBlock → List MdBlock → List MdBlock
  | .list o [i], .list o' is :: bs => if o = o' then .list o (i :: is) :: bs else .list o [i] :: .list o' is :: bs
  | b, bs => b :: bs

/-- The line ends a fenced code block: at most three spaces, three or more backticks, white space. -/
def mdFenceEnd (l : List Char) : Bool :=
  let t := l.dropWhile (· = ' ')
  decide (l.length - t.length ≤ 3) && "```".toList.isPrefixOf t && (t.dropWhile (· = '`')).all fun c => c = ' ' || c = '\t'

/-- The blocks of lines; `fence` is the info string and the text so far of a code block. -/
def mdBlocks : Option (List Char × List Char) → List (List Char) → Option (List MdBlock)
  | none, [] => some []
  | some _, [] => none
  | some (info, t), l :: ls =>
    if mdFenceEnd l then (mdBlocks none ls).map fun bs => .code (some (String.ofList info)) [t] :: bs
    else if l.any (· ∈ mdControl) then none
    else mdBlocks (some (info, t ++ l ++ ['\n'])) ls
  | none, l :: ls =>
    if l = [] then mdBlocks none ls
    else if "```".toList.isPrefixOf l then
      let info := l.drop 3
      if info.any (fun c => isWhite c || c ∈ ['`', '\\', '&']) then none else mdBlocks (some (info, [])) ls
    else if ls.head?.any (· ≠ []) then none
    else (mdLineBlock l).bind fun b => (mdBlocks none ls).map fun bs => mdCons b bs

/-- The blocks of a source. -/
def readMarkdown (t : List Char) : Option (List MdBlock) := mdBlocks none (splitOnChar '\n' t)

/-! ### What a document should be read as -/

/-- The marks Markdown has for a character format. -/
def mdLook (f : CharFormat) : Look :=
  { bold := f.fontBold = some true, italic := f.fontItalic = some true, strike := f.fontStrikeout = some true, link := f.anchorHref }

/-- Monospaced text is code. -/
def mdIsCode (f : CharFormat) : Bool := f.fontFamily = some "monospace"

/-- The span of a single character. -/
def mdSpan (c : SChar) : ParsedSpan := (mdLook (c.2.getD {})).span (mdIsCode (c.2.getD {})) [c.1]

/-- What a paragraph should become. -/
def mdBlockOf (lists : Nat → Option TList) (p : SPara) : ParsedBlock :=
  if p.shape.fmtIsCodeBlock = some true then
    { spans := p.text.map fun c => { text := [c], code := true }, isCodeBlock := true
      codeLanguage := p.shape.fmtCodeLanguage.bind fun l => if l = "" then none else some l }
  else { spans := p.chars.map mdSpan, headingLevel := p.shape.fmtHeadingLevel, listStyle := (itemOf lists p).map mdListStyle }

/-- The same block with a span for every character. -/
def ParsedElement.fine : ParsedElement → ParsedElement
  | .block b => .block { b with spans := b.spans.flatMap fun x => x.text.map fun c => { x with text := [c] } }
  | .table rows => .table rows

/-- An empty plain paragraph is not seen in Markdown. -/
def mdShown (p : SPara) : Bool := p.chars ≠ [] ∨ p.shape.fmtIsCodeBlock = some true

/-! ### The documents Markdown can show -/

/-- Some mark stands around such text. -/
def mdDecorated (f : CharFormat) : Prop :=
  mdIsCode f = true ∨ (mdLook f).bold = true ∨ (mdLook f).italic = true ∨ (mdLook f).strike = true ∨ (mdLook f).link ≠ none

/-- Stars and tildes may stand beside the character `c` of this format, at the border to the character `o`: they need white space,
punctuation or the end of the line on the other side, unless they stand alone at a letter or digit. -/
def mdBorder (f : CharFormat) (c : Char) (o : Option Char) : Prop :=
  isWhite c = false ∧
  ((mdLook f).link ≠ none ∨ ((mdLook f).bold = false ∧ (mdLook f).italic = false ∧ (mdLook f).strike = false) ∨
    (∀ b, o = some b → isWhite b = true ∨ b ∈ mdPunct) ∨
    (c.isAlphanum = true ∧ mdIsCode f = false ∧
      ((mdLook f).strike = false ∨ ((mdLook f).bold = false ∧ (mdLook f).italic = false))))

/-- Where the format changes, one side has no mark and the marks of the other may stand there. -/
def mdPair (a b : SChar) : Prop :=
  (a.2.getD {} ≠ b.2.getD {} →
    (¬ mdDecorated (a.2.getD {}) ∨ ¬ mdDecorated (b.2.getD {})) ∧
    (mdDecorated (a.2.getD {}) → mdBorder (a.2.getD {}) a.1 (some b.1)) ∧
    (mdDecorated (b.2.getD {}) → mdBorder (b.2.getD {}) b.1 (some a.1))) ∧
  (mdIsCode (a.2.getD {}) = false → (a.1 = '<' ∨ a.1 = '&') → mdTagStart b.1 = false)

/-- A character of a line, and the link on it. -/
def mdChar (c : SChar) : Prop :=
  c.1 ≠ '`' ∧ c.1 ∉ mdControl ∧
  ∀ u, (c.2.getD {}).anchorHref = some u → u.toList.all mdUrlChar = true

/-- A text Markdown can show in a line. -/
structure MdLine (cs : List SChar) : Prop where
  chars : ∀ c ∈ cs, mdChar c
  pairs : ∀ L a b R, cs = L ++ a :: b :: R → mdPair a b
  head : ∀ c, cs.head? = some c → isWhite c.1 = false
  last : ∀ c, cs.getLast? = some c → isWhite c.1 = false

/-- A paragraph Markdown can show: a code block has a plain language and no line that ends it; a heading has a level from 1 to 6 and is no
list item; list items are not indented; only a plain paragraph may be empty. -/
structure MdFit (lists : Nat → Option TList) (p : SPara) : Prop where
  code : p.shape.fmtIsCodeBlock = some true → (∀ l ∈ splitOnChar '\n' p.text, mdFenceEnd l = false ∧ ∀ c ∈ l, c ∉ mdControl) ∧
    ∀ l, p.shape.fmtCodeLanguage = some l → l.toList.any (fun c => isWhite c || c ∈ ['`', '\\', '&']) = false
  line : p.shape.fmtIsCodeBlock ≠ some true → MdLine p.chars
  heading : p.shape.fmtIsCodeBlock ≠ some true → ∀ n, p.shape.fmtHeadingLevel = some n → 1 ≤ n ∧ n ≤ 6 ∧ itemOf lists p = none ∧ p.chars ≠ []
  item : p.shape.fmtIsCodeBlock ≠ some true → ∀ l, p.shape.list.bind lists = some l → l.indent = 0 ∧ p.chars ≠ []

end Verif
