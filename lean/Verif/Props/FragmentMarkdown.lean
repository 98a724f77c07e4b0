import Verif.Lemmas.FragmentMarkdownTable
import Verif.Props.ExportMarkdown
import Verif.Props.FragmentText
/-
C94: `DocumentFragment::to_markdown`.  The text is read back by the reader of Spec/FragmentMarkdown.lean, and then taken in again by
`DocumentFragment::from_markdown` (C76 and C80).
-/
namespace Verif
open Store

/-- **C94.** `to_markdown` of a fragment gives a text that a Markdown reader reads.  It shows the paragraphs and the tables in order, every
table before the paragraph it was put before: headings, list items, paragraphs and cells, every character with its marks and link, no
matter which special characters the text has.  Full statement: the same of every fragment; it is false (the `_fails` theorems below). -/
theorem C94_markdown_partial {bs : List FragBlock} {ts : List FragTable} (hb : ∀ b ∈ bs, FragFit b) (ht : ∀ t ∈ ts, FragTableFit t) (hl : bs.length < 10 ^ 9)
    (n : Nat) (h1 : bs.length ≤ n) (h2 : ∀ t ∈ ts, t.index ≤ n) (plain : List Char) :
    ∃ ms, readGroups (Fragment.toMarkdown ⟨some (bs, ts), plain⟩) = some ms ∧ GoodBlocks ms ∧
      (blockElements 0 [] ms).map ParsedElement.fineAll = mdFragElements bs ts n :=
  Fragment.readsBack hb ht hl n h1 h2 plain

/-! ### Back again -/

theorem FragOf.fine {b : ParsedBlock} {fb : FragBlock} (h : FragOf b fb) {b' : ParsedBlock} (e : (ParsedElement.block b).core.fineAll = .block b') : FragOf b' fb := by
  simp only [ParsedElement.core, ParsedElement.fineAll, ParsedElement.block.injEq] at e
  obtain ⟨a1, a2, a3, a4⟩ := h
  rw [← e]
  refine ⟨a1, ?_, a3, ?_⟩
  · rw [a2]
    exact congrArg _ (spansChars_fine false b.spans).symm
  · rw [a4]
    cases b.listStyle <;> rfl

theorem TableOf.fine {n : Nat} {rows : List (List (List ParsedSpan))} {t : FragTable} (h : TableOf n rows t) :
    TableOf n (rows.map fun r => r.map fun xs => xs.flatMap fun x => x.text.map fun c => { x with text := [c] }) t := by
  obtain ⟨a1, a2, a3, a4⟩ := h
  refine ⟨a1, by rw [a2]; simp, ⟨?_, ?_⟩, ?_⟩
  · intro row hrow
    obtain ⟨r, hr, rfl⟩ := List.mem_map.mp hrow
    simpa using a3.1 r hr
  · rcases a3.2 with ⟨e1, e2⟩ | ⟨r, hr, e⟩
    · exact .inl ⟨by rw [e1]; rfl, e2⟩
    · exact .inr ⟨_, List.mem_map.mpr ⟨r, hr, rfl⟩, by simpa using e⟩
  · intro r c
    rw [a4 r c]
    simp only [List.getElem?_map]
    cases hr : rows[r]? with
    | none => rfl
    | some row =>
      simp only [Option.map_some, Option.bind_some, List.getElem?_map]
      cases hc : row[c]? with
      | none => rfl
      | some xs =>
        simp only [Option.map_some]
        rw [show spansChars false (xs.flatMap fun x => x.text.map fun c => { x with text := [c] }) = spansChars false xs from spansChars_fine false xs]

theorem FragsOf.fine : ∀ (es : List ParsedElement) (fbs : List FragBlock), FragsOf (parsedBlocks es) fbs →
    FragsOf (parsedBlocks ((es.map ParsedElement.core).map ParsedElement.fineAll)) fbs
  | [], _, h => h
  | .table _ :: es, fbs, h => FragsOf.fine es fbs h
  | .block _ :: _, [], h => h.elim
  | .block _ :: es, fb :: fbs, h => ⟨h.1.fine rfl, FragsOf.fine es fbs h.2⟩

theorem TablesOf.fine : ∀ (es : List ParsedElement) (n : Nat) (ts : List FragTable), TablesOf (parsedTables n es) ts →
    TablesOf (parsedTables n ((es.map ParsedElement.core).map ParsedElement.fineAll)) ts
  | [], _, _, h => h
  | .block _ :: es, n, ts, h => TablesOf.fine es (n + 1) ts h
  | .table _ :: _, _, [], h => h.elim
  | .table _ :: es, n, _ :: ts, h => ⟨h.1.fine, TablesOf.fine es n ts h.2⟩

/-- `from_markdown` of the text of a fragment: the paragraphs that are not empty come back in order with their text, marks, heading levels
and list kinds, and between them the tables with the text of every cell. -/
theorem C94_again_partial {bs : List FragBlock} {ts : List FragTable} (hb : ∀ b ∈ bs, FragFit b) (ht : ∀ t ∈ ts, FragTableFit t) (hl : bs.length < 10 ^ 9)
    (n : Nat) (h1 : bs.length ≤ n) (h2 : ∀ t ∈ ts, t.index ≤ n) (hsome : mdFragElements bs ts n ≠ []) (plain : List Char) :
    ∃ ms, readGroups (Fragment.toMarkdown ⟨some (bs, ts), plain⟩) = some ms ∧
      FragsOf (parsedBlocks (mdFragElements bs ts n)) (Fragment.ofElements (parseMarkdown (blockEvents ms))).blocks ∧
      TablesOf (parsedTables 0 (mdFragElements bs ts n)) (Fragment.ofElements (parseMarkdown (blockEvents ms))).tables := by
  obtain ⟨ms, e1, e2, e3⟩ := C94_markdown_partial hb ht hl n h1 h2 plain
  have hp := C76_parse ms e2
  have hde : documentElements ms = blockElements 0 [] ms := by
    unfold documentElements
    rw [if_neg]
    intro e
    rw [e] at e3
    exact hsome e3.symm
  obtain ⟨k1, k2, _⟩ := C80_elements (parseMarkdown (blockEvents ms))
  refine ⟨ms, e1, ?_, ?_⟩
  · rw [← e3, ← hde, ← hp]
    exact FragsOf.fine _ _ k1
  · rw [← e3, ← hde, ← hp]
    exact TablesOf.fine _ _ _ k2

/-! ### The hypotheses can be met -/

/-- All neighbours are fine. -/
def PairsOk : List SChar → Prop
  | a :: b :: r => mdPair a b ∧ PairsOk (b :: r)
  | _ => True

theorem PairsOk.all {cs : List SChar} (h : PairsOk cs) : ∀ L a b R, cs = L ++ a :: b :: R → mdPair a b := by
  intro L
  induction L generalizing cs with
  | nil => intro a b R e; rw [e] at h; exact h.1
  | cons x L ih =>
    intro a b R e
    cases L with
    | nil => rw [e] at h; exact ih (cs := a :: b :: R) h.2 a b R rfl
    | cons y L => rw [e] at h; exact ih (cs := (y :: L) ++ a :: b :: R) h.2 a b R rfl

theorem not_decorated : ¬ mdDecorated {} := by unfold mdDecorated; decide

theorem single_none : MdSingle {} := ⟨by decide, by decide, by decide⟩

/-- Text without formats fits, if it has no backtick, `<`, `&`, nor spaces at its ends. -/
theorem plain_fits {t : List Char} (h1 : ∀ c ∈ t, c ≠ '`' ∧ c ∉ mdControl ∧ c ≠ '<' ∧ c ≠ '&')
    (h2 : ∀ c, t.head? = some c → isWhite c = false) (h3 : ∀ c, t.getLast? = some c → isWhite c = false) : FragLine [.text t {}] := by
  have hc : elementChars [.text t {}] = t.map fun c => (c, some {}) := by simp [elementChars]
  refine ⟨?_, ?_, ?_⟩
  · intro g hg
    simp only [List.mem_singleton] at hg
    exact ⟨t, {}, hg, single_none, fun _ => not_decorated, fun _ h => (h1 _ h).2.2.1 rfl⟩
  · intro L a f b f' R e
    exfalso
    have := congrArg List.length e
    have hle : (fullElements [Segment.text t ({} : CharFormat)]).length ≤ 1 := List.length_filter_le _ _
    simp at this
    omega
  · rw [hc]
    refine ⟨?_, ?_, ?_, ?_⟩
    · intro c hc
      obtain ⟨e, he, rfl⟩ := List.mem_map.mp hc
      exact ⟨(h1 e he).1, (h1 e he).2.1, by intro u hu; cases hu⟩
    · intro L a b R e
      have ha : a ∈ t.map fun c => ((c, some {}) : SChar) := by rw [e]; simp
      have hb : b ∈ t.map fun c => ((c, some {}) : SChar) := by rw [e]; simp
      obtain ⟨x, hx, rfl⟩ := List.mem_map.mp ha
      obtain ⟨y, hy, rfl⟩ := List.mem_map.mp hb
      refine ⟨fun h => absurd rfl h, fun _ h => ?_⟩
      rcases h with h | h
      · exact absurd h (h1 x hx).2.2.1
      · exact absurd h (h1 x hx).2.2.2
    · intro c hc
      rw [List.head?_map] at hc
      obtain ⟨e, he, rfl⟩ := Option.map_eq_some_iff.mp hc
      exact h2 e he
    · intro c hc
      rw [List.getLast?_map] at hc
      obtain ⟨e, he, rfl⟩ := Option.map_eq_some_iff.mp hc
      exact h3 e he

/-- A text with a bold letter, against another letter. -/
theorem bold_fits : FragLine [.text ['t', '.'] {}, .text ['b'] { fontBold := some true }] := by
  refine ⟨?_, ?_, ?_, ?_, ?_, ?_⟩
  · intro g hg
    simp only [List.mem_cons, List.not_mem_nil, or_false] at hg
    rcases hg with rfl | rfl
    · exact ⟨_, _, rfl, single_none, (by intro e; cases e), by decide⟩
    · exact ⟨_, _, rfl, ⟨by decide, by decide, by decide⟩, (by intro e; cases e), by decide⟩
  · intro L t f t' f' R e
    have hl := congrArg List.length e
    cases L with
    | nil => left; injection e with e1 e2; injection e1 with e3 e4; injection e2 with e5 e6; injection e5 with e7 e8; rw [← e4, ← e8]; decide
    | cons a L => exfalso; simp [fullElements] at hl; omega
  · intro c hc
    simp [elementChars] at hc
    rcases hc with rfl | rfl | rfl
    · exact ⟨by decide, by decide, by intro u hu; cases hu⟩
    · exact ⟨by decide, by decide, by intro u hu; cases hu⟩
    · exact ⟨by decide, by decide, by intro u hu; cases hu⟩
  · apply PairsOk.all
    refine ⟨⟨fun h => absurd rfl h, by decide⟩, ⟨fun _ => ⟨.inl not_decorated, fun h => absurd h not_decorated, fun _ => ?_⟩, by decide⟩, trivial⟩
    exact ⟨by decide, .inr (.inr (.inr ⟨by decide, by decide, .inl (by decide)⟩))⟩
  · intro c hc; cases hc; decide
  · intro c hc; cases hc; decide

/-- A heading, two items of a numbered list, an empty paragraph, and a table before the second. -/
def mdSampleBlocks : List FragBlock :=
  [⟨[], [.text ['t', '.'] {}, .text ['b'] { fontBold := some true }], { fmtHeadingLevel := some 9 }, none⟩,
   ⟨[], [.text ['1', ')', '*'] {}], {}, some { style := .decimal }⟩,
   ⟨[], [.text ['y'] {}], {}, some { style := .decimal }⟩, ⟨[], [.text [] {}], {}, none⟩]

def mdSampleTables : List FragTable :=
  [⟨2, 2, [⟨0, 0, 1, 1, [⟨[], [.text ['x', '|'] {}], {}, none⟩], {}⟩, ⟨1, 1, 1, 1, [⟨[], [.text ['z'] {}], {}, none⟩], {}⟩], 1, {}⟩]

theorem mdSample_blocks : ∀ b ∈ mdSampleBlocks, FragFit b := by
  intro b hb
  simp only [mdSampleBlocks, List.mem_cons, List.not_mem_nil, or_false] at hb
  rcases hb with rfl | rfl | rfl | rfl
  · exact ⟨bold_fits, by decide, fun _ => by decide⟩
  · exact ⟨plain_fits (by decide) (by intro c h; cases h; decide) (by intro c h; cases h; decide), by decide, fun _ => by decide⟩
  · exact ⟨plain_fits (by decide) (by intro c h; cases h; decide) (by intro c h; cases h; decide), by decide, fun _ => by decide⟩
  · exact ⟨plain_fits (by decide) (by intro c h; cases h) (by intro c h; cases h), by decide, by intro h; rcases h with h | h <;> exact absurd rfl h⟩

theorem mdSample_tables : ∀ t ∈ mdSampleTables, FragTableFit t := by
  intro t ht
  simp only [mdSampleTables, List.mem_cons, List.not_mem_nil, or_false] at ht
  subst ht
  refine ⟨by decide, by decide, ?_⟩
  intro x hx
  simp only [List.mem_cons, List.not_mem_nil, or_false] at hx
  rcases hx with rfl | rfl
  · refine ⟨plain_fits (by decide) (by intro c h; cases h; decide) (by intro c h; cases h; decide), ?_⟩
    intro s f hm
    simp only [cellElements, List.mem_cons, List.not_mem_nil, or_false] at hm
    cases hm
    exact ⟨by decide, by intro u hu; cases hu⟩
  · refine ⟨plain_fits (by decide) (by intro c h; cases h; decide) (by intro c h; cases h; decide), ?_⟩
    intro s f hm
    simp only [cellElements, List.mem_cons, List.not_mem_nil, or_false] at hm
    cases hm
    exact ⟨by decide, by intro u hu; cases hu⟩

example : Fragment.toMarkdown ⟨some (mdSampleBlocks, mdSampleTables), []⟩ =
    "###### t\\.**b**\n\n| x\\| |  |\n| --- | --- |\n|  | z |\n\n1. 1\\)\\*\n2. y\n\n".toList := by decide +kernel

example : ∃ ms, readGroups (Fragment.toMarkdown ⟨some (mdSampleBlocks, mdSampleTables), []⟩) = some ms ∧
    FragsOf (parsedBlocks (mdFragElements mdSampleBlocks mdSampleTables 4)) (Fragment.ofElements (parseMarkdown (blockEvents ms))).blocks ∧
    TablesOf (parsedTables 0 (mdFragElements mdSampleBlocks mdSampleTables 4)) (Fragment.ofElements (parseMarkdown (blockEvents ms))).tables :=
  C94_again_partial mdSample_blocks mdSample_tables (by decide) 4 (by decide) (by decide) (by decide +kernel) []

/-! ### Where the claim is false -/

/-- A fragment of one paragraph. -/
def oneBlock (es : List (Segment CharFormat)) (f : Block := {}) : Fragment := ⟨some ([⟨[], es, f, none⟩], []), []⟩

/-- The Markdown of a fragment, as read. -/
def mdRead (fr : Fragment) : Option (List ParsedElement) := (readGroups fr.toMarkdown).map fun ms => (blockElements 0 [] ms).map ParsedElement.fineAll

/-- An image becomes text: its mark-up is escaped. -/
theorem C94_image_fails : Fragment.toMarkdown (oneBlock [.image { name := "a", width := 1, height := 1, quality := 1, off := 0, fmt := {} }]) = "\\!\\[a\\]\\(a\\)".toList ∧
    mdRead (oneBlock [.image { name := "a", width := 1, height := 1, quality := 1, off := 0, fmt := {} }]) =
      some [.block { spans := "![a](a)".toList.map fun c => { text := [c] } }] := by
  decide +kernel

/-- A link without a target, whatever its text, is written with an empty target. -/
theorem C94_link_empty (t : List Char) (f : CharFormat) (h1 : f.isAnchor = some true) (h2 : f.anchorHref = none)
    (h3 : f.fontFamily ≠ some "monospace") : ∃ u, fragMdSegment (.text t f) = '[' :: u ++ [']', '(', ')'] := by
  simp [fragMdSegment, h1, h2, h3]

/-- Monospaced text loses its link and its other marks. -/
theorem C94_code_link_fails :
    mdRead (oneBlock [.text ['a'] { fontFamily := some "monospace", fontBold := some true, isAnchor := some true, anchorHref := some "u" }]) =
      some [.block { spans := [{ text := ['a'], code := true }] }] := by
  decide +kernel

/-- A code block becomes a paragraph. -/
theorem C94_code_block_fails : mdRead (oneBlock [.text ['a'] { fontFamily := some "monospace" }] { fmtIsCodeBlock := some true }) =
      some [.block { spans := [{ text := ['a'], code := true }], isCodeBlock := false }] := by
  decide +kernel

/-- Underlined text is no longer underlined; the same of all other formats Markdown does not have. -/
theorem C94_underline_fails : Fragment.toMarkdown (oneBlock [.text ['a'] { fontUnderline := some true }]) = ['a'] := by
  decide +kernel

/-- An indented paragraph gets four leading spaces, which is code in Markdown. -/
theorem C94_indent_fails : Fragment.toMarkdown (oneBlock [.text ['a'] {}] { fmtIndent := some 2 }) = "    a".toList ∧
    mdRead (oneBlock [.text ['a'] {}] { fmtIndent := some 2 }) = none := by
  decide +kernel

/-- Two pieces of monospaced text of different formats run together: the backticks become text. -/
theorem C94_code_apart_fails :
    Fragment.toMarkdown (oneBlock [.text ['a'] { fontFamily := some "monospace" }, .text ['b'] { fontFamily := some "monospace", fontBold := some true }]) = "`a``b`".toList := by
  decide +kernel

/-- A backtick in monospaced text ends the code. -/
theorem C94_backtick_fails : Fragment.toMarkdown (oneBlock [.text ['a', '`', 'b'] { fontFamily := some "monospace" }]) = "`a`b`".toList := by
  decide +kernel

/-- A pipe in monospaced text in a cell splits the cell. -/
theorem C94_pipe_fails :
    Fragment.toMarkdown ⟨some ([], [⟨1, 1, [⟨0, 0, 1, 1, [⟨[], [.text ['a', '|', 'b'] { fontFamily := some "monospace" }], {}, none⟩], {}⟩], 0, {}⟩]), []⟩ =
      "| `a|b` |\n| --- |".toList ∧
    mdRead ⟨some ([], [⟨1, 1, [⟨0, 0, 1, 1, [⟨[], [.text ['a', '|', 'b'] { fontFamily := some "monospace" }], {}, none⟩], {}⟩], 0, {}⟩]), []⟩ = none := by
  decide +kernel

end Verif
