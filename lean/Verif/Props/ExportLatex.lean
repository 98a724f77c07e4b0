import Verif.Lemmas.ExportLatex
import Verif.Model.ImportMarkup
import Verif.Lemmas.Import
import Verif.Model.ListCommands
import Verif.Model.Formatting
/-
C78: LaTeX export.  The text is read back by the small LaTeX reader of Spec/Latex.lean; `texOf` says what a paragraph should
look like, `num` is the notation of a line height.
-/
namespace Verif

variable {s : Store} {d : Document} {f : Nat} {ps : List SPara}

/-- **C78.** `to_latex`, with or without preamble, gives a text that a LaTeX reader reads, and it shows the paragraphs of the document
that have characters, in order: code blocks verbatim, list items, headings and paragraphs with their stretch, direction, background and
line breaking, every character with its marks and link, no matter which special characters the text has.  Full statement: the same of
every document; it is false (the `_fails` theorems below). -/
theorem C78_latex_partial {num : Int → List Char} (h : Flat s d f ps) (hn : ∀ n, TexSafe (num n)) (hfit : ∀ p ∈ ps, TexFit s.lists p)
    (cls : Option (List Char)) (hcls : ∀ c, cls = some c → TexSafe c)
    (hadj : ∀ L p q R, ps = L ++ p :: q :: R → ∀ m n, itemOf s.lists p = some m → itemOf s.lists q = some n → m = n) :
    ∃ t, Store.exportLatex num cls s = some t ∧ readTex t = some (shownTex (ps.map (texOf num s.lists))) := by
  obtain ⟨t, h1, h2⟩ := h.exportLatex hn hfit cls hcls
  refine ⟨t, h1, ?_⟩
  rw [h2, exportedTex_regular none ps hadj (by intro _ _ _ _ h; cases h)]

/-- Without the hypothesis on lists: the items that follow each other become items of one list, numbered if the first of them is. -/
theorem C78_latex_any_lists {num : Int → List Char} (h : Flat s d f ps) (hn : ∀ n, TexSafe (num n)) (hfit : ∀ p ∈ ps, TexFit s.lists p)
    (cls : Option (List Char)) (hcls : ∀ c, cls = some c → TexSafe c) :
    ∃ t, Store.exportLatex num cls s = some t ∧ readTex t = some (shownTex (exportedTex num s.lists none ps)) :=
  h.exportLatex hn hfit cls hcls

theorem exportedTex_texts {num : Int → List Char} {lists : Nat → Option TList} (o : Option Bool) (ps : List SPara) :
    (exportedTex num lists o ps).map (fun p => p.map Prod.fst) = ps.map SPara.text := by
  have hb : ∀ p : SPara, (texBody num p).map Prod.fst = p.text := by
    intro p
    unfold texBody SPara.text
    split <;> simp [texChs, Function.comp_def]
  have ht : ∀ p : SPara, (texOf num lists p).map Prod.fst = p.text := by
    intro p
    unfold texOf
    split
    · simp [texChs, SPara.text, Function.comp_def]
    · exact hb p
  induction ps generalizing o with
  | nil => rfl
  | cons p ps ih =>
    unfold exportedTex
    split
    · simp [ih, texChs, SPara.text, Function.comp_def]
    · simp [ih, ht]

/-- Whatever the lists and formats: the texts of the paragraphs read are the texts of the paragraphs of the document that are not
empty, character for character. -/
theorem C78_latex_text_partial {num : Int → List Char} (h : Flat s d f ps) (hn : ∀ n, TexSafe (num n)) (hfit : ∀ p ∈ ps, TexFit s.lists p)
    (cls : Option (List Char)) (hcls : ∀ c, cls = some c → TexSafe c) :
    ∃ t page, Store.exportLatex num cls s = some t ∧ readTex t = some page ∧
      page.map (fun p => p.map Prod.fst) = (ps.map SPara.text).filter fun t => t ≠ [] := by
  obtain ⟨t, h1, h2⟩ := h.exportLatex hn hfit cls hcls
  refine ⟨t, _, h1, h2, ?_⟩
  rw [← exportedTex_texts (num := num) (lists := s.lists) none ps]
  unfold shownTex
  rw [List.filter_map]
  congr 1
  apply List.filter_congr
  intro p _
  cases p <;> simp

/-- The hypotheses are met by a loaded text. -/
example : ∃ (s : Store) (d : Document) (ps : List SPara) (t : List Char),
    Flat s d 2 ps ∧ (∀ p ∈ ps, TexFit s.lists p) ∧ (∀ n, TexSafe ((fun _ : Int => "1.5".toList) n)) ∧
    Store.exportLatex (fun _ => "1.5".toList) (some []) s = some t ∧
    readTex t = some [[('a', {}), ('b', {})], [('c', {}), ('d', {})]] := by
  obtain ⟨s, h1, _⟩ := sample_flat
  have hit : ∀ p ∈ [plainPara 2 ['a', 'b'], plainPara 3 ['c', 'd']], itemOf s.lists p = none := by
    intro p hp
    simp only [List.mem_cons, List.not_mem_nil, or_false] at hp
    rcases hp with rfl | rfl <;> rfl
  have hc : ∀ p ∈ [plainPara 2 ['a', 'b'], plainPara 3 ['c', 'd']], TexFit s.lists p := by
    intro p hp
    have hi := hit p hp
    simp only [List.mem_cons, List.not_mem_nil, or_false] at hp
    rcases hp with rfl | rfl
    · exact ⟨(by intro _ h; cases h), (by intro _; decide), (by intro h; rw [hi] at h; cases h), (by intro c h; cases h)⟩
    · exact ⟨(by intro _ h; cases h), (by intro _; decide), (by intro h; rw [hi] at h; cases h), (by intro c h; cases h)⟩
  have hn : ∀ n, TexSafe ((fun _ : Int => "1.5".toList) n) := by
    intro n
    show ∀ c ∈ "1.5".toList, _
    decide
  obtain ⟨t, t1, t2⟩ := C78_latex_partial h1 hn hc (some []) (by intro c e; cases e; intro c h; cases h) (by
    intro L p q R e m n hm hn'
    rw [hit p (by rw [e]; simp)] at hm
    cases hm)
  exact ⟨s, _, _, t, h1, hc, hn, t1, t2⟩

/-- Headings, styles, marks, code and lists are all exported and read back, with every special character. -/
example : ∃ (s s1 s3 s4 : Store) (t : List Char),
    (Store.newStore.bind fun s => (s.importElements false
      [.block { spans := [{ text := ['a'], bold := true, linkHref := some "x%{y" }, { text := ['\\', '{'] }] },
       .block { spans := [{ text := "%$#_&~^}".toList }] }, .block { spans := [{ text := "\\item".toList }] },
       .block { spans := [{ text := ['z'] }] }]).map fun r => r.2) = some s ∧
    (s.setBlockFormat { headingLevel := some 2, lineHeight := some 3, backgroundColor := some "red", direction := some .rightToLeft } 1 1).map (fun r => r.1) = some s1 ∧
    (s1.setBlockFormat { isCodeBlock := some true } 14 14).map (fun r => r.1) = some s3 ∧
    (s3.createList .decimal 19 19).map (fun r => r.1) = some s4 ∧
    Store.exportLatex Store.showInt (some "book".toList) s4 = some t ∧
    readTex t = some
      [[('a', { heading := some 2, stretch := some "3".toList, color := some "red".toList, rtl := true,
                marks := { bold := true, link := some "x%{y".toList } }),
        ('\\', { heading := some 2, stretch := some "3".toList, color := some "red".toList, rtl := true }),
        ('{', { heading := some 2, stretch := some "3".toList, color := some "red".toList, rtl := true })],
       "%$#_&~^}".toList.map fun c => (c, {}),
       "\\item".toList.map fun c => (c, { verbatim := true }),
       [('z', { item := some true })]] := by
  refine ⟨_, _, _, _, _, rfl, rfl, rfl, rfl, rfl, ?_⟩; decide +kernel

/-- An empty paragraph is gone. -/
theorem C78_empty_fails : ∃ (s : Store) (t : List Char),
    (Store.newStore.bind fun s => s.importPlainText "a\n\n\nb".toList) = some s ∧
    Store.exportLatex Store.showInt none s = some t ∧ t = "a\n\n\n\n\n\nb".toList ∧
    readTex t = some [[('a', {})], [('b', {})]] := by
  refine ⟨_, _, rfl, rfl, ?_, ?_⟩ <;> decide +kernel

/-- An item that begins with a bracket: LaTeX takes the bracket for the label of the item. -/
theorem C78_item_fails : ∃ (s s1 : Store) (t : List Char),
    (Store.newStore.bind fun s => s.importPlainText "[x] y".toList) = some s ∧
    (s.createList .disc 0 0).map (fun r => r.1) = some s1 ∧
    Store.exportLatex Store.showInt none s1 = some t ∧ t = "\\begin{itemize}\n\\item [x] y\n\\end{itemize}".toList ∧
    readTex t = none := by
  refine ⟨_, _, _, rfl, rfl, rfl, ?_, ?_⟩ <;> decide +kernel

/-- Code that has the end of the environment in it: the rest of the code is no code, and LaTeX runs it. -/
theorem C78_code_fails : ∃ (s s1 : Store) (t : List Char),
    (Store.newStore.bind fun s => s.importPlainText "a\\end{verbatim}\\textbf{b}\\begin{verbatim}".toList) = some s ∧
    (s.setBlockFormat { isCodeBlock := some true } 0 0).map (fun r => r.1) = some s1 ∧
    Store.exportLatex Store.showInt none s1 = some t ∧
    (readTex t).map (fun page => page.map fun p => p.map fun c => (c.1, c.2.verbatim, c.2.marks.bold)) =
      some [[('a', true, false)], [('b', false, true)]] := by
  refine ⟨_, _, _, rfl, rfl, rfl, ?_⟩; decide +kernel

/-- A background colour is written as it is: a colour with braces changes the text. -/
theorem C78_color_fails : ∃ (s s1 : Store) (t : List Char),
    (Store.newStore.bind fun s => s.importPlainText "abc".toList) = some s ∧
    (s.setBlockFormat { backgroundColor := some "red}{X}\\colorbox{red" } 1 1).map (fun r => r.1) = some s1 ∧
    Store.exportLatex Store.showInt none s1 = some t ∧
    (readTex t).map (fun page => page.map fun p => p.map Prod.fst) = some ["Xabc".toList] := by
  refine ⟨_, _, _, rfl, rfl, rfl, ?_⟩; decide +kernel

/-- A numbered list after a bulleted one: both paragraphs become items of one bulleted list; a code block that is an item is no code
any more. -/
theorem C78_lists_fails : ∃ (s s1 s2 s3 : Store) (t : List Char),
    (Store.newStore.bind fun s => s.importPlainText "a\nb".toList) = some s ∧
    (s.createList .disc 0 0).map (fun r => r.1) = some s1 ∧
    (s1.createList .decimal 2 2).map (fun r => r.1) = some s2 ∧
    (s2.setBlockFormat { isCodeBlock := some true } 0 0).map (fun r => r.1) = some s3 ∧
    Store.exportLatex Store.showInt none s3 = some t ∧
    readTex t = some [[('a', { item := some false })], [('b', { item := some false })]] := by
  refine ⟨_, _, _, _, _, rfl, rfl, rfl, rfl, rfl, ?_⟩; decide +kernel

/-- Headings of the levels 4, 5 and 6 are the same. -/
theorem C78_levels_fails : ∃ (s s4 s6 : Store) (t : List Char),
    (Store.newStore.bind fun s => s.importPlainText "a".toList) = some s ∧
    (s.setBlockFormat { headingLevel := some 4 } 0 0).map (fun r => r.1) = some s4 ∧
    (s.setBlockFormat { headingLevel := some 6 } 0 0).map (fun r => r.1) = some s6 ∧
    Store.exportLatex Store.showInt none s4 = some t ∧ Store.exportLatex Store.showInt none s6 = some t := by
  refine ⟨_, _, _, _, rfl, rfl, rfl, rfl, ?_⟩; decide +kernel

/-- The preamble has no package for the direction: `\RL` is undefined. -/
theorem C78_package_fails : ∃ (s s1 : Store) (t : List Char),
    (Store.newStore.bind fun s => s.importPlainText "a".toList) = some s ∧
    (s.setBlockFormat { direction := some .rightToLeft } 0 0).map (fun r => r.1) = some s1 ∧
    Store.exportLatex Store.showInt (some []) s1 = some t ∧
    t = ("\\documentclass{article}\n\\usepackage{hyperref}\n\\usepackage{ulem}\n\\usepackage{graphicx}\n\\usepackage{setspace}\n" ++
      "\\usepackage{xcolor}\n\\begin{document}\n\n\\RL{a}\n\n\\end{document}").toList := by
  refine ⟨_, _, _, rfl, rfl, rfl, ?_⟩; decide +kernel

/-- A quotation is exported twice: with the frame it stands in, and as a frame of the document. -/
theorem C78_quote_fails : ∃ (s s1 : Store) (t : List Char),
    Store.newStore = some s ∧
    (s.importElements false [.block { spans := [{ text := ['a'] }] }, .block { spans := [{ text := ['q'] }], quoteDepth := 1 }]).map
      (fun r => r.2) = some s1 ∧
    Store.exportLatex Store.showInt none s1 = some t ∧
    readTex t = some [[('a', {})], [('q', { quotes := 1 })], [('q', { quotes := 1 })]] := by
  refine ⟨_, _, _, rfl, rfl, rfl, ?_⟩; decide +kernel

end Verif
