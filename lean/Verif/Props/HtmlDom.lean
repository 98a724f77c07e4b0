import Verif.Lemmas.HtmlDom
import Verif.Props.ImportMarkup
/-
C77: from the tree of an HTML document to the parsed elements and the document.
-/
namespace Verif

/-- Whatever the HTML, as long as it is not nested too deeply: every text that is not blank, with the formats of the elements
around it, is in the result just once, up to white space around it, and nothing else is. (Not always in order.) -/
theorem C77_texts (kids : List HNode) (h : heights kids ≤ 128) : (seenTexts (parseHtml kids)).Perm (nodesTexts {} kids) := by
  have h1 := collectNodes_seen kids { depth := 0, fmt := {}, list := none, quotes := 0, lists := 0 } (by dsimp only; omega)
  unfold parseHtml
  dsimp only
  generalize collectNodes { depth := 0, fmt := {}, list := none, quotes := 0, lists := 0 } kids = r at h1 ⊢
  have h2 : seenTexts (r.2 ++ if r.1 = [] then [] else [ParsedElement.block { spans := r.1 }]) =
      seenTexts r.2 ++ r.1.filterMap seenSpan := by
    rw [seenTexts_append]
    congr 1
    split
    · rename_i h0
      rw [h0]
      rfl
    · rw [seenTexts_block]
  have h3 : (seenTexts (r.2 ++ if r.1 = [] then [] else [ParsedElement.block { spans := r.1 }])).Perm (nodesTexts {} kids) := by
    rw [h2]
    exact List.perm_append_comm.trans h1
  generalize (r.2 ++ if r.1 = [] then [] else [ParsedElement.block { spans := r.1 }]) = es at h3 ⊢
  split
  · rename_i h0
    rw [h0] at h3
    refine List.Perm.trans ?_ h3
    simp [seenTexts, ParsedElement.spans, seenSpan, trimText]
  · exact h3

/-- Formats nest, and text between blocks, in lists, in quotes and in tables is there. -/
example : heights [HNode.text ['x'], .elem .div {} [.elem .bold {} [.elem .p {} [.text ['a'], .elem .italic {} [.text ['b']]], .text [' ']],
      .elem .ul {} [.text ['y'], .elem .li {} [.text ['c']]]], .elem .table {} [.elem .tr {} [.elem .cell {} [.text ['d']]]]] ≤ 128 ∧
    nodesTexts {} [HNode.text ['x'], .elem .div {} [.elem .bold {} [.elem .p {} [.text ['a'], .elem .italic {} [.text ['b']]], .text [' ']],
      .elem .ul {} [.text ['y'], .elem .li {} [.text ['c']]]], .elem .table {} [.elem .tr {} [.elem .cell {} [.text ['d']]]]] =
    [{ text := ['x'] }, { text := ['a'], bold := true }, { text := ['b'], bold := true, italic := true }, { text := ['y'] },
      { text := ['c'] }, { text := ['d'] }] := by decide +kernel

/-- For every document of the grammar that is not nested too deeply, the result is just its elements, in order: paragraphs,
headings with their level, code blocks with their language, tables with the text of their cells, each with its styles and inside
as many quotes as in the tree; a list item is an item of the innermost list, indented by the number of lists around it, and every
text carries just the formats around it. -/
theorem C77_parse (bs : List HBl) (hg : GoodBls bs) (h : heights (hblNodes bs) ≤ 128) : parseHtml (hblNodes bs) = htmlElements bs := by
  have h1 := hbls_collect bs { depth := 0, fmt := {}, list := none, quotes := 0, lists := 0 } 0 [] hg ⟨rfl, rfl, rfl, rfl⟩
    (by dsimp only; omega)
  unfold parseHtml htmlElements
  simp only [h1, if_true, List.append_nil]

/-- Inline text alone is one paragraph. -/
theorem C77_inline (xs : List HIn) (hg : GoodIns xs) (h : heights (hinNodes xs) ≤ 256) (h0 : hinSpans {} xs ≠ []) :
    parseHtml (hinNodes xs) = [.block { spans := hinSpans {} xs }] := by
  have h1 := hins_collect xs { depth := 0, fmt := {}, list := none, quotes := 0, lists := 0 } hg (by dsimp only; omega)
  unfold parseHtml
  simp only [h1]
  simp [h0]

/-- The document after `set_html`: what the tree says is what is seen, for every document of the grammar with rectangular tables
that does not open with an empty paragraph before a table. -/
theorem C77_load {s : Store} {d : Document} {f : Nat} {ps : List SPara} (h : Ready s d f ps) (bs : List HBl) (hg : GoodBls bs)
    (hd : heights (hblNodes bs) ≤ 128) (hrect : ∀ rows, ParsedElement.table rows ∈ htmlElements bs → Rectangular rows)
    (hopen : OpensWell (htmlElements bs)) :
    ∃ s' d' items, s.importElements true (parseHtml (hblNodes bs)) = some (((flowParas items).length : Int), s') ∧
      SameDoc d d' ∧
      items.map SItem.face = facesOf true (htmlElements bs) (listsOf [] 0 (s.next "list") (htmlElements bs)) ∧
      Carries s' (flowText items) (flowParas items) ((tablesOf items).map fun t => t.table.id) ∧
      Seated s' (flowParas items) ∧ s'.documents d.id = some d' ∧ Counted d' (flowParas items) ∧
      ListsOk s' d' (flowParas items) := by
  have e := C77_parse bs hg hd
  obtain ⟨s', d', items, a1, a2, a3, _, a5, a6, a7, a8, a9⟩ := C75_import h true (parseHtml (hblNodes bs)) (by rw [e]; exact hrect)
    (by rw [e]; exact hopen)
  refine ⟨s', d', items, a1, a2, ?_, a5, a6, a7, a8, a9⟩
  rw [a3, e]

/-- A document with everything: a styled paragraph with nested formats, a heading, a list in a list, quotes around a code block,
and a table. -/
def htmlSample : List HBl :=
  [.para false { lineHeight := some 1500 } [.text ['a'], .mark .bold none [.text ['b'], .mark .a (some "u") [.text ['c']]]],
   .heading 2 {} [.mark .italic none [.text ['h']]],
   .box [.list false [.item {} [.text ['x']] [.list true [.item {} [.text ['y']] []]], .item {} [.text ['z']] [.para true {} [.text ['w']]]]],
   .quote [.para false {} [.text ['q']], .quote [.pre {} (some "rs") [.text ['l', '\n', 'm']]]],
   .table [[.text ['1']], [.mark .bold none [.text ['2']]]] [[[], [.text ['3']]]]]

/-- It is in the grammar, and this is what it becomes. -/
example : GoodBls htmlSample ∧ heights (hblNodes htmlSample) ≤ 128 ∧ htmlElements htmlSample =
    [.block { spans := [{ text := ['a'] }, { text := ['b'], bold := true }, { text := ['c'], bold := true, linkHref := some "u" }],
              lineHeight := some 1500 },
     .block { spans := [{ text := ['h'], italic := true }], headingLevel := some 2 },
     .block { spans := [{ text := ['x'] }], listStyle := some .disc },
     .block { spans := [{ text := ['y'] }], listStyle := some .decimal, listIndent := 1 },
     .block { spans := [{ text := ['z'] }], listStyle := some .disc },
     .block { spans := [{ text := ['w'] }] },
     .block { spans := [{ text := ['q'] }], quoteDepth := 1 },
     .block { spans := [{ text := ['l', '\n', 'm'], code := true }], isCodeBlock := true, codeLanguage := some "rs", quoteDepth := 2 },
     .table [[[{ text := ['1'] }], [{ text := ['2'], bold := true }]], [[{ text := [] }], [{ text := ['3'] }]]]] := by
  refine ⟨?_, by decide +kernel, by decide +kernel⟩
  simp [htmlSample, GoodBls, HBl.Good, GoodIts, HIt.Good, GoodIns, HIn.Good, HTag.isInline, hinSpans, HIn.spans]

/-- It can be loaded. -/
example : (∀ rows, ParsedElement.table rows ∈ htmlElements htmlSample → Rectangular rows) ∧ OpensWell (htmlElements htmlSample) := by
  constructor
  · intro rows h
    simp [htmlSample, htmlElements, hblElements, HBl.elements, hitElements, HIt.elements] at h
    subst h
    unfold Rectangular
    decide
  · simp [htmlSample, htmlElements, hblElements, HBl.elements, OpensWell, ParsedBlock.styled, hinSpans, HIn.spans, FmtState.span]

/-- White space between blocks becomes a paragraph: `<p>a</p>⏎<p>b</p>` has a third paragraph, a newline. -/
theorem C77_space_fails : parseHtml [.elem .p {} [.text ['a']], .text ['\n'], .elem .p {} [.text ['b']]] =
    [.block { spans := [{ text := ['a'] }] }, .block { spans := [{ text := ['b'] }] }, .block { spans := [{ text := ['\n'] }] }] := by
  decide +kernel

/-- A line break in a paragraph is lost: `<p>a<br>b</p>` is the paragraph `ab`. -/
theorem C77_break_fails : parseHtml [.elem .p {} [.text ['a'], .elem .br {} [], .text ['b']]] =
    [.block { spans := [{ text := ['a'] }, { text := [] }, { text := ['b'] }] }] := by
  decide +kernel

/-- Text is moved: before a block it comes after it, and the texts around a block are run together. `x<p>y</p>`,
`<div>a<p>b</p>c</div>` -/
theorem C77_order_fails :
    parseHtml [.text ['x'], .elem .p {} [.text ['y']]] = [.block { spans := [{ text := ['y'] }] }, .block { spans := [{ text := ['x'] }] }] ∧
    parseHtml [.elem .div {} [.text ['a'], .elem .p {} [.text ['b']], .text ['c']]] =
      [.block { spans := [{ text := ['a'] }, { text := ['c'] }] }, .block { spans := [{ text := ['b'] }] }] := by
  decide +kernel

/-- A list item whose text is in a paragraph is not a list item, and an empty item or paragraph disappears.
`<ul><li><p>a</p></li></ul>`, `<ol><li></li><li>b</li></ol><p></p>` -/
theorem C77_items_fails :
    parseHtml [.elem .ul {} [.elem .li {} [.elem .p {} [.text ['a']]]]] = [.block { spans := [{ text := ['a'] }] }] ∧
    parseHtml [.elem .ol {} [.elem .li {} [], .elem .li {} [.text ['b']]], .elem .p {} []] =
      [.block { spans := [{ text := ['b'] }], listStyle := some .decimal }] := by
  decide +kernel

/-- The text of a table outside of its cells, and the formats around a table, are lost.
`<table><caption>a</caption><tr><td>b</td></tr></table>`, `<b><table><tr><td>b</td></tr></table></b>` -/
theorem C77_table_fails :
    parseHtml [.elem .table {} [.elem .other {} [.text ['a']], .elem .tbody {} [.elem .tr {} [.elem .cell {} [.text ['b']]]]]] =
      [.table [[[{ text := ['b'] }]]]] ∧
    parseHtml [.elem .bold {} [.elem .table {} [.elem .tbody {} [.elem .tr {} [.elem .cell {} [.text ['b']]]]]]] =
      [.table [[[{ text := ['b'] }]]]] := by
  decide +kernel

/-- A text inside `n` elements. -/
def nestedText : Nat → HNode
  | 0 => .text ['a']
  | n + 1 => .elem .other {} [nestedText n]

theorem collect_nested (n : Nat) : ∀ c : Place, c.depth ≤ 257 → 257 - c.depth ≤ n → collectNodes c [nestedText n] = ([], []) := by
  induction n with
  | zero =>
    intro c h1 h2
    rw [collectNodes, if_pos (by simp only [maxDepth]; omega)]
  | succ n ih =>
    intro c h1 h2
    rw [collectNodes]
    split
    · rfl
    · rename_i h3
      simp only [maxDepth] at h3
      rw [nestedText, collectNode, if_neg (by decide), if_neg (by decide),
        ih { c with depth := c.depth + 1, fmt := c.fmt.enter .other {} } (by dsimp only; omega) (by dsimp only; omega)]
      rfl

/-- Text inside more than 256 elements is lost: the document is empty. -/
theorem C77_deep_fails (n : Nat) (h : 257 ≤ n) : parseHtml [nestedText n] = [.block { spans := [{ text := [] }] }] := by
  unfold parseHtml
  simp only [collect_nested n { depth := 0, fmt := {}, list := none, quotes := 0, lists := 0 } (by dsimp only; omega) (by dsimp only; omega)]
  rfl

/-- With one element less it is there. -/
example : parseHtml [nestedText 256] = [.block { spans := [{ text := ['a'] }] }] := by decide +kernel

end Verif
