/- How a reader of the target syntax reads escaped text. -/
namespace Verif

/-- A target syntax: its escape codes with their meaning, and the characters that do not stand for
themselves. -/
structure Syntax where
  codes : List (List Char × Char)
  active : List Char

/-- Reads at most `n` items: a code gives its character, an active character outside a code is an error,
any other character stands for itself. -/
def Syntax.readItems (x : Syntax) : Nat → List Char → Option (List Char)
  | _, [] => some []
  | 0, _ :: _ => none
  | n + 1, c :: s =>
    match x.codes.find? fun p => p.1.isPrefixOf (c :: s) with
    | some p => (x.readItems n ((c :: s).drop p.1.length)).map fun t => p.2 :: t
    | none => if c ∈ x.active then none else (x.readItems n s).map fun t => c :: t

/-- The plain text that escaped text stands for; `none` if an active character is not escaped. -/
def Syntax.read (x : Syntax) (s : List Char) : Option (List Char) := x.readItems s.length s

/-- Text in HTML content or in a quoted attribute.  A raw carriage return counts as active: HTML readers
turn it into a line feed. -/
def htmlSyntax : Syntax where
  codes := [("&amp;".toList, '&'), ("&lt;".toList, '<'), ("&gt;".toList, '>'), ("&quot;".toList, '"'),
    ("&#x27;".toList, '\''), ("&#13;".toList, '\r')]
  active := ['&', '<', '>', '"', '\'', '\r']

/-- Text in a LaTeX paragraph: the ten special characters. -/
def latexSyntax : Syntax where
  codes := [("\\textbackslash{}".toList, '\\'), ("\\&".toList, '&'), ("\\%".toList, '%'),
    ("\\$".toList, '$'), ("\\#".toList, '#'), ("\\_".toList, '_'), ("\\{".toList, '{'),
    ("\\}".toList, '}'), ("\\textasciitilde{}".toList, '~'), ("\\textasciicircum{}".toList, '^')]
  active := ['\\', '&', '%', '$', '#', '_', '{', '}', '~', '^']

/-- The characters with a meaning in CommonMark text (with the table and strike-through extensions). -/
def mdActive : List Char :=
  ['\\', '`', '*', '_', '{', '}', '[', ']', '(', ')', '#', '+', '-', '.', '!', '|', '~', '<', '>', '&']

/-- Markdown text: a backslash takes the meaning from the character after it. -/
def markdownSyntax : Syntax where
  codes := mdActive.map fun c => (['\\', c], c)
  active := mdActive

end Verif
