import Verif.Lemmas.Markdown
import Verif.Props.ImportMarkup
/-
C76: from the tree of a Markdown document to the parsed elements and the document.
-/
namespace Verif
open MdSt

theorem documentElements_core (bs : List MdBlock) (h : GoodBlocks bs) : (documentElements bs).map ParsedElement.core = documentElements bs := by
  unfold documentElements
  split
  · rfl
  · have hi : Idle {} 0 [] := ⟨⟨rfl, rfl, rfl, ⟨rfl, rfl, rfl, rfl⟩, rfl, rfl, rfl⟩, rfl, rfl⟩
    have h2 := ((blocks_spec bs {} 0 [] h).1 hi).2
    simp only [List.map_nil, List.nil_append] at h2
    rw [← h2, List.map_map]
    apply List.map_congr_left
    intro a _
    cases a with
    | block b =>
      simp only [Function.comp, ParsedElement.core]
      congr 2
      cases b.listStyle <;> rfl
    | table r => rfl

/-- For every document of the grammar, reading the events of its tree gives just its elements, in order: paragraphs (a forced
line break starts a new one), headings with their level, code blocks without their last newline, tables with the text of their
cells, each inside as many quotes as in the tree; the first text of a list item is a list item of the innermost list, and every
text carries just the marks around it. -/
theorem C76_parse (bs : List MdBlock) (h : GoodBlocks bs) :
    (parseMarkdown (blockEvents bs)).map ParsedElement.core = documentElements bs := by
  have hi : Idle {} 0 [] := ⟨⟨rfl, rfl, rfl, ⟨rfl, rfl, rfl, rfl⟩, rfl, rfl, rfl⟩, rfl, rfl⟩
  obtain ⟨h1, h2⟩ := (blocks_spec bs {} 0 [] h).1 hi
  unfold parseMarkdown MdSt.finish documentElements
  simp only [h1.spans, if_true]
  simp only [List.map_nil, List.nil_append] at h2
  rw [← h2]
  by_cases e : ((blockEvents bs).foldl step ({} : MdSt)).elements = []
  · rw [if_pos e, if_pos (by rw [e]; rfl)]; rfl
  · rw [if_neg e, if_neg (by simpa using e)]

theorem lists_core (es : List ParsedElement) : ∀ (past : Imported) (n k : Nat),
    listsOf past n k (es.map ParsedElement.core) = listsOf past n k es := by
  induction es with
  | nil => intro _ _ _; rfl
  | cons e es ih =>
    intro past n k
    cases e with
    | table r => simp [listsOf, ParsedElement.core, ih]
    | block b =>
      cases hs : b.listStyle with
      | none => simp [listsOf, ParsedElement.core, ih, hs, listChoice, pastAfter, pastQuote]
      | some st => simp [listsOf, ParsedElement.core, ih, hs, listChoice, pastAfter, pastQuote]

theorem faces_core (html : Bool) (es : List ParsedElement) : ∀ ls, facesOf html (es.map ParsedElement.core) ls = facesOf html es ls := by
  induction es with
  | nil => intro _; rfl
  | cons e es ih =>
    intro ls
    cases ls with
    | nil => rfl
    | cons l ls =>
      have := ih ls
      unfold facesOf at this ⊢
      simp only [List.map_cons, List.zip_cons_cons, List.flatMap_cons, this]
      cases e <;> rfl

theorem starts_core (es : List ParsedElement) : startsTable (es.map ParsedElement.core) = startsTable es := by
  induction es with
  | nil => rfl
  | cons e es ih => cases e <;> simp [startsTable, ParsedElement.core, ih]

theorem opens_core (es : List ParsedElement) : OpensWell (es.map ParsedElement.core) = OpensWell es := by
  induction es with
  | nil => rfl
  | cons e es ih => cases e <;> simp [OpensWell, ParsedElement.core, ih, starts_core]

/-- The document after `set_markdown`: what the tree says is what is seen, for every document of the grammar with rectangular
tables that does not open with an empty paragraph before a table. -/
theorem C76_load {s : Store} {d : Document} {f : Nat} {ps : List SPara} (h : Ready s d f ps) (bs : List MdBlock) (hg : GoodBlocks bs)
    (hrect : ∀ rows, ParsedElement.table rows ∈ documentElements bs → Rectangular rows) (hopen : OpensWell (documentElements bs)) :
    ∃ s' d' items, s.importElements false (parseMarkdown (blockEvents bs)) = some (((flowParas items).length : Int), s') ∧
      SameDoc d d' ∧
      items.map SItem.face = facesOf false (documentElements bs) (listsOf [] 0 (s.next "list") (documentElements bs)) ∧
      Carries s' (flowText items) (flowParas items) ((tablesOf items).map fun t => t.table.id) ∧
      Seated s' (flowParas items) ∧ s'.documents d.id = some d' ∧ Counted d' (flowParas items) ∧
      ListsOk s' d' (flowParas items) := by
  have e := C76_parse bs hg
  have hr : ∀ rows, ParsedElement.table rows ∈ parseMarkdown (blockEvents bs) → Rectangular rows := by
    intro rows hm
    apply hrect
    rw [← e]
    exact List.mem_map.mpr ⟨_, hm, rfl⟩
  obtain ⟨s', d', items, a1, a2, a3, _, a5, a6, a7, a8, a9⟩ := C75_import h false _ hr (by rw [← opens_core, e]; exact hopen)
  refine ⟨s', d', items, a1, a2, ?_, a5, a6, a7, a8, a9⟩
  rw [a3, ← faces_core, ← lists_core, e]

/-- A document with everything: a heading, a paragraph with nested marks and a forced break, nested lists, a quote, a code block
and a table. -/
def markdownSample : List MdBlock :=
  [.heading 2 [.text ['h']],
   .para [.text ['a'], .mark .strong [.text ['b'], .mark .emph [.text ['c']]], .hard, .mark (.link "u") [.code ['d']]],
   .list false [.tight [.text ['x']] [.list true [.tight [.text ['y']] []]], .loose [.text ['z']] [.para [.text ['w']]]],
   .quote [.para [.text ['q'], .soft, .text ['r']], .quote [.code (some "rs") [['l', '\n'], ['m', '\n']]]],
   .table [[.text ['1']], [.text ['2']]] [[[], [.text ['3']]]]]

/-- It is in the grammar, and this is what it becomes. -/
example : GoodBlocks markdownSample ∧ documentElements markdownSample =
    [.block { spans := [{ text := ['h'] }], headingLevel := some 2 },
     .block { spans := [{ text := ['a'] }, { text := ['b'], bold := true }, { text := ['c'], bold := true, italic := true }] },
     .block { spans := [{ text := ['d'], code := true, linkHref := some "u" }] },
     .block { spans := [{ text := ['x'] }], listStyle := some .disc },
     .block { spans := [{ text := ['y'] }], listStyle := some .decimal, listIndent := 1 },
     .block { spans := [{ text := ['z'] }], listStyle := some .disc },
     .block { spans := [{ text := ['w'] }] },
     .block { spans := [{ text := ['q'] }, { text := [' '] }, { text := ['r'] }], quoteDepth := 1 },
     .block { spans := [{ text := ['l', '\n'], code := true }, { text := ['m'], code := true }], isCodeBlock := true,
              codeLanguage := some "rs", quoteDepth := 2 },
     .table [[[{ text := ['1'] }], [{ text := ['2'] }]], [[], [{ text := ['3'] }]]]] := by
  refine ⟨?_, by decide +kernel⟩
  simp [markdownSample, GoodBlocks, MdBlock.Good, GoodItems, MdItem.Good, NoRepeats, MdInline.NoRepeat, NoBreak, inlineSpans,
    MdInline.spans, Look.lacks, Look.with, MdBlock.isList]

/-- A mark inside the same mark: what follows the inner one loses the outer one. `*a *b* c*` -/
theorem C76_nested_fails : parseMarkdown (blockEvents [.para [.mark .emph [.text ['a'], .mark .emph [.text ['b']], .text ['c']]]]) =
      [.block { spans := [{ text := ['a'], italic := true }, { text := ['b'], italic := true }, { text := ['c'] }] }] ∧
    documentElements [.para [.mark .emph [.text ['a'], .mark .emph [.text ['b']], .text ['c']]]] =
      [.block { spans := [{ text := ['a'], italic := true }, { text := ['b'], italic := true }, { text := ['c'], italic := true }] }] := by
  decide +kernel

/-- A forced break in a heading: the second line is not a heading. -/
theorem C76_heading_break_fails : parseMarkdown (blockEvents [.heading 1 [.text ['a'], .hard, .text ['b']]]) =
    [.block { spans := [{ text := ['a'] }], headingLevel := some 1 }, .block { spans := [{ text := ['b'] }] }] := by
  decide +kernel

/-- A tight item whose text is followed by a heading, a code block or a quote: the two are run together into one block, which is
not a list item any more or is one inside the quote; a following table comes before the text. -/
theorem C76_tight_fails :
    parseMarkdown (blockEvents [.list false [.tight [.text ['a']] [.heading 1 [.text ['h']]]]]) =
      [.block { spans := [{ text := ['a'] }, { text := ['h'] }], headingLevel := some 1 }] ∧
    parseMarkdown (blockEvents [.list false [.tight [.text ['a']] [.code none [['c', '\n']]]]]) =
      [.block { spans := [{ text := ['a'] }, { text := ['c'], code := true }], isCodeBlock := true }] ∧
    parseMarkdown (blockEvents [.list false [.tight [.text ['a']] [.quote [.para [.text ['q']]]]]]) =
      [.block { spans := [{ text := ['a'] }, { text := ['q'] }], listStyle := some .disc, quoteDepth := 1 }] ∧
    parseMarkdown (blockEvents [.list false [.tight [.text ['a']] [.table [[.text ['1']]] []]]]) =
      [.table [[[{ text := ['1'] }]]], .block { spans := [{ text := ['a'] }], listStyle := some .disc }] := by
  decide +kernel

/-- Not every item becomes one list item: an empty one disappears, and a forced break makes two of one. -/
theorem C76_items_fails :
    parseMarkdown (blockEvents [.list true [.tight [.text ['a']] [], .tight [] [], .tight [.text ['b']] []]]) =
      [.block { spans := [{ text := ['a'] }], listStyle := some .decimal }, .block { spans := [{ text := ['b'] }], listStyle := some .decimal }] ∧
    parseMarkdown (blockEvents [.list true [.tight [.text ['a'], .hard, .text ['b']] []]]) =
      [.block { spans := [{ text := ['a'] }], listStyle := some .decimal }, .block { spans := [{ text := ['b'] }], listStyle := some .decimal }] := by
  decide +kernel

end Verif
