/-
Escaping of text for export: export_html_uc.rs, export_latex_uc.rs, export_markdown_uc.rs and
public_api/src/fragment.rs.
-/
namespace Verif

/-- `str::replace` of one character. -/
def replaceChar (c : Char) (by_ : List Char) (s : List Char) : List Char :=
  s.flatMap fun x => if x = c then by_ else [x]

/-- `escape_html`, export_html_uc.rs L522-L533: six replacements, one after the other. -/
def escapeHtmlExport (s : List Char) : List Char :=
  replaceChar '\r' "&#13;".toList
    (replaceChar '\'' "&#x27;".toList
      (replaceChar '"' "&quot;".toList
        (replaceChar '>' "&gt;".toList
          (replaceChar '<' "&lt;".toList
            (replaceChar '&' "&amp;".toList s)))))

/-- The match of `escape_html`, fragment.rs L361-L374. -/
def htmlCode (c : Char) : List Char :=
  if c = '&' then "&amp;".toList
  else if c = '<' then "&lt;".toList
  else if c = '>' then "&gt;".toList
  else if c = '"' then "&quot;".toList
  else if c = '\'' then "&#x27;".toList
  else if c = '\r' then "&#13;".toList
  else [c]

/-- `escape_html`, fragment.rs L359-L377. -/
def escapeHtmlFragment (s : List Char) : List Char := s.flatMap htmlCode

/-- The match of `escape_latex`, export_latex_uc.rs L525-L537. -/
def latexCode (c : Char) : List Char :=
  if c = '\\' then "\\textbackslash{}".toList
  else if c = '&' then "\\&".toList
  else if c = '%' then "\\%".toList
  else if c = '$' then "\\$".toList
  else if c = '#' then "\\#".toList
  else if c = '_' then "\\_".toList
  else if c = '{' then "\\{".toList
  else if c = '}' then "\\}".toList
  else if c = '~' then "\\textasciitilde{}".toList
  else if c = '^' then "\\textasciicircum{}".toList
  else [c]

/-- `escape_latex`, export_latex_uc.rs L522-L540. -/
def escapeLatex (s : List Char) : List Char := s.flatMap latexCode

/-- The characters escaped by `escape_markdown`, export_markdown_uc.rs L517-L518. -/
def mdExportSet : List Char :=
  ['\\', '*', '_', '{', '}', '[', ']', '(', ')', '#', '+', '-', '.', '!', '|', '~', '>']

/-- The characters escaped by `escape_markdown`, fragment.rs L510-L527. -/
def mdFragmentSet : List Char :=
  ['\\', '`', '*', '_', '{', '}', '[', ']', '(', ')', '#', '+', '-', '.', '!', '|', '~', '<', '>']

/-- The loop body of both `escape_markdown` functions. -/
def mdCode (set : List Char) (c : Char) : List Char := if c ∈ set then ['\\', c] else [c]

/-- `escape_markdown`, export_markdown_uc.rs L513-L526. -/
def escapeMarkdownExport (s : List Char) : List Char := s.flatMap (mdCode mdExportSet)

/-- `escape_markdown`, fragment.rs L505-L533. -/
def escapeMarkdownFragment (s : List Char) : List Char := s.flatMap (mdCode mdFragmentSet)

end Verif
