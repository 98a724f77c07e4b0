import Verif.Spec.Html
/-
Reading LaTeX: a small reader (commands, braces, environments, verbatim) that gives the paragraphs of a text with what is
marked on each character, and the text a document should give.  It takes white space literally, except that an empty line
ends a paragraph and a single line end is a space.  It knows nothing about how the text was written.
-/
namespace Verif

/-! ### Tokens -/

/-- What the reader is inside of: text, a command, a verbatim environment, or characters already read. -/
inductive TexState where
  | text
  | slash
  | word (seen : List Char)
  | verb (seen : List Char)
  | skip (more : Nat) (verb : Bool)

inductive TexToken where
  | word (w : List Char)
  | sym (c : Char)
  | open_
  | close
  | char (c : Char)
  | verb (t : List Char)
deriving DecidableEq

def verbBegin : List Char := "\\begin{verbatim}\n".toList
def verbEnd : List Char := "\\end{verbatim}".toList

/-- A letter of a command. -/
def isTexLetter (c : Char) : Bool := ('a' ≤ c && c ≤ 'z') || ('A' ≤ c && c ≤ 'Z')

/-- A character of text: what comes after it is read in the given state. -/
def texStart (c : Char) (s : List Char) : TexState × List TexToken :=
  if verbBegin.isPrefixOf (c :: s) then (.skip 15 true, [])
  else if c = '\\' then (.slash, [])
  else if c = '{' then (.text, [.open_])
  else if c = '}' then (.text, [.close])
  else (.text, [.char c])

/-- The line end before `\end{verbatim}` is not part of the text. -/
def texDropNewline (t : List Char) : List Char := if t.getLast? = some '\n' then t.dropLast else t

/-- The commands, braces and characters of a text. -/
def texTokens : TexState → List Char → Option (List TexToken)
  | .text, [] => some []
  | .word w, [] => some [.word w]
  | .slash, [] => none
  | .verb _, [] => none
  | .skip _ _, [] => none
  | .text, c :: s => (texTokens (texStart c s).1 s).map fun ts => (texStart c s).2 ++ ts
  | .slash, c :: s =>
    if isTexLetter c then texTokens (.word [c]) s else (texTokens .text s).map fun ts => .sym c :: ts
  | .word w, c :: s =>
    if isTexLetter c then texTokens (.word (w ++ [c])) s
    else (texTokens (texStart c s).1 s).map fun ts => .word w :: (texStart c s).2 ++ ts
  | .verb seen, c :: s =>
    if verbEnd.isPrefixOf (c :: s) then (texTokens (.skip 12 false) s).map fun ts => .verb (texDropNewline seen) :: ts
    else texTokens (.verb (seen ++ [c])) s
  | .skip 0 v, _ :: s => texTokens (if v then .verb [] else .text) s
  | .skip (n + 1) v, _ :: s => texTokens (.skip n v) s

/-! ### Groups -/

/-- How a character looks. -/
structure TexLook where
  marks : HtmlMarks := {}
  heading : Option Nat := none
  item : Option Bool := none
  quotes : Nat := 0
  verbatim : Bool := false
  stretch : Option (List Char) := none
  rtl : Bool := false
  color : Option (List Char) := none
  nobreak : Bool := false
deriving DecidableEq

/-- What a group does to its text. -/
inductive TexFmt where
  | code
  | bold
  | italic
  | underline
  | strike
  | link (u : List Char)
  | heading (level : Nat)
  | stretch (v : List Char)
  | rtl
  | color (c : List Char)
  | box
  | nobreak
deriving DecidableEq

/-- What an argument is for. -/
inductive TexArg where
  | ignored
  | begin_
  | end_
  | href
  | stretch
  | color
  | width
deriving DecidableEq

/-- An open group: braces, the braces of a command, an environment, or an argument that is no text. -/
inductive TexGroup where
  | plain
  | fmt (f : TexFmt)
  | env (name : List Char)
  | arg (k : TexArg) (seen : List Char)
deriving DecidableEq

def TexFmt.look (l : TexLook) : TexFmt → TexLook
  | .code => { l with marks := { l.marks with code := true } }
  | .bold => { l with marks := { l.marks with bold := true } }
  | .italic => { l with marks := { l.marks with italic := true } }
  | .underline => { l with marks := { l.marks with underline := true } }
  | .strike => { l with marks := { l.marks with strike := true } }
  | .link u => { l with marks := { l.marks with link := some u } }
  | .heading n => { l with heading := some n }
  | .stretch v => { l with stretch := some v }
  | .rtl => { l with rtl := true }
  | .color c => { l with color := some c }
  | .box => l
  | .nobreak => { l with nobreak := true }

def TexGroup.look (g : TexGroup) (l : TexLook) : TexLook :=
  match g with
  | .fmt f => f.look l
  | .env n =>
    if n = "itemize".toList then { l with item := some false }
    else if n = "enumerate".toList then { l with item := some true }
    else if n = "quote".toList then { l with quotes := l.quotes + 1 }
    else l
  | _ => l

/-- The look inside the open groups, innermost first. -/
def texLook (gs : List TexGroup) : TexLook := gs.foldr TexGroup.look {}

/-- A paragraph. -/
abbrev TexPara := List (Char × TexLook)

/-- The reader: the open groups, what the next brace opens, whether a line end or `\item` was just read, the paragraph being
read and those before it, last first. -/
structure TexReader where
  groups : List TexGroup
  next : Option TexGroup
  newline : Bool
  item : Bool
  cur : TexPara
  paras : List TexPara
deriving DecidableEq

/-- The end of a paragraph. -/
def TexReader.flush (r : TexReader) : TexReader :=
  { r with newline := false, item := false, cur := [], paras := if r.cur = [] then r.paras else r.cur :: r.paras }

/-- The commands for characters, formats and arguments. -/
def texChars : List (List Char × Char) :=
  [("textbackslash".toList, '\\'), ("textasciitilde".toList, '~'), ("textasciicircum".toList, '^')]
def texGroups : List (List Char × TexGroup) :=
  [("texttt".toList, .fmt .code), ("textbf".toList, .fmt .bold), ("textit".toList, .fmt .italic),
    ("underline".toList, .fmt .underline), ("sout".toList, .fmt .strike), ("section".toList, .fmt (.heading 1)),
    ("subsection".toList, .fmt (.heading 2)), ("subsubsection".toList, .fmt (.heading 3)),
    ("paragraph".toList, .fmt (.heading 4)), ("RL".toList, .fmt .rtl), ("mbox".toList, .fmt .nobreak),
    ("begin".toList, .arg .begin_ []), ("end".toList, .arg .end_ []), ("href".toList, .arg .href []),
    ("setstretch".toList, .arg .stretch []), ("colorbox".toList, .arg .color []), ("parbox".toList, .arg .width []),
    ("documentclass".toList, .arg .ignored []), ("usepackage".toList, .arg .ignored [])]

/-- The characters with a meaning of their own. -/
def texActive : List Char := ['&', '%', '$', '#', '_', '~', '^']

/-- An argument that is no text is being read. -/
def TexReader.inArg (r : TexReader) : Bool :=
  match r.groups with
  | .arg _ _ :: _ => true
  | _ => false

/-- A character of text or of an argument.  After `\item` spaces are skipped and a bracket is refused (it would start the
label of the item). -/
def TexReader.emit (r : TexReader) (c : Char) : Option TexReader :=
  if r.next ≠ none then none
  else match r.groups with
    | .arg k seen :: gs => some { r with groups := .arg k (seen ++ [c]) :: gs }
    | gs =>
      if r.item ∧ c = '[' then none
      else
        let space := if r.newline ∧ r.cur ≠ [] then [(' ', texLook gs)] else []
        some { r with newline := false, item := false, cur := r.cur ++ space ++ [(c, texLook gs)] }

/-- The end of an argument. -/
def TexReader.endArg (r : TexReader) (k : TexArg) (seen : List Char) : Option TexReader :=
  match k with
  | .ignored => some r
  | .begin_ => some { r.flush with groups := .env seen :: r.groups }
  | .end_ =>
    match r.groups with
    | .env n :: gs => if n = seen then some { r.flush with groups := gs } else none
    | _ => none
  | .href => some { r with next := some (.fmt (.link seen)) }
  | .stretch =>
    match r.groups with
    | .plain :: gs => some { r with groups := .fmt (.stretch seen) :: gs }
    | _ => none
  | .color => some { r with next := some (.fmt (.color seen)) }
  | .width => some { r with next := some (.fmt .box) }

/-- One token; `none` is a text this reader refuses. -/
def TexReader.step (r : TexReader) : TexToken → Option TexReader
  | .char c =>
    if c ∈ texActive then none
    else if r.inArg then r.emit c
    else if c = '\n' then
      if r.newline then some r.flush else some { r with newline := true }
    else if r.item ∧ c = ' ' then some r
    else r.emit c
  | .sym c => if c ∈ ['&', '%', '$', '#', '_', '{', '}'] then r.emit c else none
  | .word w =>
    if r.next ≠ none then none
    else match texChars.lookup w with
      | some c => r.emit c
      | none =>
        match texGroups.lookup w with
        | some g => some { r with next := some g }
        | none =>
          if w = "item".toList then some { r.flush with item := true }
          else if w = "linewidth".toList then some r else none
  | .open_ => some { r with groups := r.next.getD .plain :: r.groups, next := none }
  | .close =>
    match r.groups with
    | .plain :: gs => some { r with groups := gs }
    | .fmt (.heading _) :: gs => some { r.flush with groups := gs }
    | .fmt _ :: gs => some { r with groups := gs }
    | .arg k seen :: gs => TexReader.endArg { r with groups := gs } k seen
    | _ => none
  | .verb t =>
    let r := r.flush
    some { r with paras := if t = [] then r.paras else (t.map fun c => (c, { texLook r.groups with verbatim := true })) :: r.paras }

/-- The paragraphs of a text. -/
def readTex (t : List Char) : Option (List TexPara) :=
  (texTokens .text t).bind fun ts =>
  (ts.foldlM TexReader.step ⟨[], none, false, false, [], []⟩).bind fun r =>
  if r.groups = [] ∧ r.next = none then some r.flush.paras.reverse else none

/-! ### The text a document should give -/

/-- The section command of a heading: there are four. -/
def texLevel (l : Int) : Nat := if l = 1 then 1 else if l = 2 then 2 else if l = 3 then 3 else 4

/-- A paragraph whose characters have this look and their own marks. -/
def texChs (l : TexLook) (cs : List SChar) : TexPara := cs.map fun c => (c.1, { l with marks := htmlMarksOf c.2 })

/-- What a paragraph that is no item should look like. -/
def texBody (num : Int → List Char) (p : SPara) : TexPara :=
  if p.shape.fmtIsCodeBlock = some true then p.chars.map fun c => (c.1, { verbatim := true })
  else texChs { heading := p.shape.fmtHeadingLevel.map texLevel
                stretch := p.shape.fmtLineHeight.map num
                rtl := p.shape.fmtDirection = some .rightToLeft
                color := p.shape.fmtBackgroundColor.map String.toList
                nobreak := p.shape.fmtNonBreakableLines = some true } p.chars

/-- What a paragraph should look like; an item shows nothing but its marks. -/
def texOf (num : Int → List Char) (lists : Nat → Option TList) (p : SPara) : TexPara :=
  match itemOf lists p with
  | some n => texChs { item := some n } p.chars
  | none => texBody num p

/-- The text as it is exported: items that follow each other are items of one list, numbered or not like its first. -/
def exportedTex (num : Int → List Char) (lists : Nat → Option TList) : Option Bool → List SPara → List TexPara
  | _, [] => []
  | inList, p :: ps =>
    match inList, itemOf lists p with
    | some n, some _ => texChs { item := some n } p.chars :: exportedTex num lists (some n) ps
    | _, _ => texOf num lists p :: exportedTex num lists (itemOf lists p) ps

/-- The paragraphs that have characters: LaTeX has no empty ones. -/
def shownTex (ps : List TexPara) : List TexPara := ps.filter fun p => p ≠ []

/-- A value that may stand in an argument as it is. -/
def TexSafe (v : List Char) : Prop := ∀ c ∈ v, c ∉ '\n' :: '\\' :: '{' :: '}' :: texActive

/-- A paragraph that LaTeX can show: its text has no line end, an item does not begin with a bracket or a space, its background colour
is plain, and the text of a code block does not end the environment. -/
structure TexFit (lists : Nat → Option TList) (p : SPara) : Prop where
  code : itemOf lists p = none → p.shape.fmtIsCodeBlock = some true → ¬ verbEnd <:+: p.text
  text : ¬ (itemOf lists p = none ∧ p.shape.fmtIsCodeBlock = some true) → '\n' ∉ p.text
  item : (itemOf lists p).isSome → ∀ c, p.text.head? = some c → c ≠ '[' ∧ c ≠ ' '
  color : ∀ c, p.shape.fmtBackgroundColor = some c → TexSafe c.toList

end Verif
