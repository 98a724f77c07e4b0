import Verif.Lemmas.ExportHtml
import Verif.Lemmas.Import
import Verif.Model.ListCommands
import Verif.Model.Formatting
/-
C59: HTML export.  The page is read back by the small HTML reader of Spec/Html.lean; `pageOf` says what a
paragraph should look like, `num` is the notation of a line height.
-/
namespace Verif

variable {s : Store} {d : Document} {f : Nat} {ps : List SPara}

/-- **C59.** `to_html` gives a page that an HTML reader reads, and it shows the paragraphs of the document
in order: code blocks with their language, list items, headings and paragraphs with their style, every
character with its marks and link.  Full statement: the same of every document; it is false:
a background colour is not escaped (`C59_color_fails`), lists that follow each other become one list
(`C59_lists_merge_fails`) and a code block that is an item stops being one (`C59_code_item_fails`). -/
theorem C59_html_page_partial {num : Int → List Char} (h : Flat s d f ps) (hn : ∀ n, StyleSafe (num n))
    (hc : SafeColors ps)
    (hcode : ∀ p ∈ ps, p.shape.fmtIsCodeBlock = some true → itemOf s.lists p = none)
    (hadj : ∀ L p q R, ps = L ++ p :: q :: R →
      ∀ m n, itemOf s.lists p = some m → itemOf s.lists q = some n → m = n) :
    ∃ t, s.exportHtml num = some t ∧ readHtml t = some (ps.map (pageOf num s.lists)) := by
  obtain ⟨t, h1, h2⟩ := h.exportHtml hn hc
  refine ⟨t, h1, ?_⟩
  rw [h2, exportedPage_regular none ps hcode hadj (by intro _ _ _ _ h; cases h)]

/-- Without the two hypotheses on lists: the items that follow each other become items of one list, numbered
if the first of them is, and everything else is as it should be. -/
theorem C59_html_any_lists {num : Int → List Char} (h : Flat s d f ps) (hn : ∀ n, StyleSafe (num n))
    (hc : SafeColors ps) :
    ∃ t, s.exportHtml num = some t ∧ readHtml t = some (exportedPage num s.lists none ps) :=
  h.exportHtml hn hc

/-- Whatever the lists, code blocks and formats: the texts of the paragraphs of the page are the texts of the
paragraphs of the document, character for character. -/
theorem C59_html_text_partial {num : Int → List Char} (h : Flat s d f ps) (hn : ∀ n, StyleSafe (num n))
    (hc : SafeColors ps) :
    ∃ t page, s.exportHtml num = some t ∧ readHtml t = some page ∧
      page.map (fun p => p.chars.map Prod.fst) = ps.map SPara.text := by
  obtain ⟨t, h1, h2⟩ := h.exportHtml hn hc
  exact ⟨t, _, h1, h2, exportedPage_texts none ps⟩

/-- The hypotheses are met by a loaded text. -/
example : ∃ (s : Store) (d : Document) (ps : List SPara) (t : List Char),
    Flat s d 2 ps ∧ SafeColors ps ∧ (∀ n, StyleSafe ((fun _ : Int => "1.5".toList) n)) ∧
    s.exportHtml (fun _ => "1.5".toList) = some t ∧
    readHtml t = some [⟨.para, [], [('a', {}), ('b', {})]⟩, ⟨.para, [], [('c', {}), ('d', {})]⟩] := by
  obtain ⟨s, h1, _⟩ := sample_flat
  have hc : SafeColors [plainPara 2 ['a', 'b'], plainPara 3 ['c', 'd']] := by
    intro p hp c hc
    simp only [List.mem_cons, List.not_mem_nil, or_false] at hp
    rcases hp with rfl | rfl <;> cases hc
  have hn : ∀ n, StyleSafe ((fun _ : Int => "1.5".toList) n) := by
    intro n
    show ∀ c ∈ "1.5".toList, c ∉ ['"', ';', '&', '\r']
    decide
  have hit : ∀ p ∈ [plainPara 2 ['a', 'b'], plainPara 3 ['c', 'd']], itemOf s.lists p = none := by
    intro p hp
    simp only [List.mem_cons, List.not_mem_nil, or_false] at hp
    rcases hp with rfl | rfl <;> rfl
  obtain ⟨t, t1, t2⟩ := C59_html_page_partial h1 hn hc (fun p hp _ => hit p hp) (by
    intro L p q R e m n hm hn'
    rw [hit p (by rw [e]; simp)] at hm
    cases hm)
  exact ⟨s, _, _, t, h1, hc, hn, t1, t2⟩

/-- Headings, styles, marks and code are all exported and read back. -/
example : ∃ (s s1 s2 s3 : Store) (t : List Char),
    (Store.newStore.bind fun s => s.importPlainText "a<b\nc".toList) = some s ∧
    (s.setBlockFormat { headingLevel := some 2, alignment := some .center } 1 1).map (fun r => r.1) = some s1 ∧
    (s1.setTextFormat { fontBold := some true } 0 1).map (fun r => r.1) = some s2 ∧
    (s2.setBlockFormat { isCodeBlock := some true, codeLanguage := some "r\"" } 4 4).map (fun r => r.1) = some s3 ∧
    s3.exportHtml Store.showInt = some t ∧
    readHtml t = some [⟨.heading 2, [("text-align".toList, "center".toList)],
      [('a', { bold := true }), ('<', {}), ('b', {})]⟩, ⟨.code "r\"".toList, [], [('c', {})]⟩] := by
  refine ⟨_, _, _, _, _, rfl, rfl, rfl, rfl, rfl, ?_⟩; decide +kernel

/-- A background colour is written into the style attribute as it is: a colour with a quote and `>` ends the
tag, and the page shows an item and a text that are not in the document. -/
theorem C59_color_fails : ∃ (s s1 : Store) (t : List Char),
    (Store.newStore.bind fun s => s.importPlainText "abc".toList) = some s ∧
    (s.setBlockFormat { backgroundColor := some "\">XYZ</p><p title=\"" } 1 1).map (fun r => r.1) = some s1 ∧
    s1.exportPlainText = some "abc".toList ∧
    s1.exportHtml Store.showInt = some t ∧
    (readHtml t).map (fun page => page.map fun p => p.chars.map Prod.fst) = some ["XYZ".toList, "abc".toList] := by
  refine ⟨_, _, _, rfl, rfl, ?_, rfl, ?_⟩ <;> decide +kernel

/-- A numbered list after a bulleted one: both paragraphs become items of one bulleted list. -/
theorem C59_lists_merge_fails : ∃ (s s1 s2 : Store) (t : List Char),
    (Store.newStore.bind fun s => s.importPlainText "ab\ncd".toList) = some s ∧
    (s.createList .disc 0 0).map (fun r => r.1) = some s1 ∧
    (s1.createList .decimal 4 4).map (fun r => r.1) = some s2 ∧
    s2.listItems 1 = [2] ∧ s2.listItems 2 = [3] ∧
    s2.exportHtml Store.showInt = some t ∧
    (readHtml t).map (fun page => page.map HtmlPara.kind) = some [.item false, .item false] := by
  refine ⟨_, _, _, _, rfl, rfl, rfl, ?_, ?_, rfl, ?_⟩ <;> decide +kernel

/-- Two code blocks that are items of a list: the first stays a code block, and is no item; after an item that is
no code block, a code block becomes a plain item. -/
theorem C59_code_item_fails : ∃ (s s1 s2 : Store) (t : List Char),
    (Store.newStore.bind fun s => s.importPlainText "ab\ncd".toList) = some s ∧
    (s.createList .disc 0 5).map (fun r => r.1) = some s1 ∧
    (s1.setBlockFormat { isCodeBlock := some true } 4 4).map (fun r => r.1) = some s2 ∧
    (s2.blocks 3).map Block.fmtIsCodeBlock = some (some true) ∧
    s2.exportHtml Store.showInt = some t ∧
    (readHtml t).map (fun page => page.map HtmlPara.kind) = some [.item false, .item false] := by
  refine ⟨_, _, _, _, rfl, rfl, rfl, ?_, rfl, ?_⟩ <;> decide +kernel

end Verif
