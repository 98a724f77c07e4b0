import Verif.Lemmas.DocHtml
import Verif.Props.ExportDocx
import Verif.Props.ExportHtml
import Verif.Model.ExportLatex
import Verif.Model.ExportMarkdown
/-
C102: HTML export of documents with tables.  The page is read by the reader of Spec/HtmlTables.lean; `pageOf` says what a paragraph and
`docTableOf` what a table should look like.
-/
namespace Verif
open Store
variable {s : Store} {d : Document} {f : Nat} {items : List SItem}

/-- **C102 (partial).** `to_html` of a document with tables gives a page that a reader reads.  It shows the paragraphs outside the tables in
order, as in a document without tables; every table at its place between them, row by row the cells that begin there, each with its span
and its lines of marked text; and then, after the last paragraph, every table a second time.  Full statement: every table once; it is
false (`C102_twice_fails`).  Missing too: a cell whose paragraphs are not listed in their order, empty paragraphs, headings and lists in
cells (`C102_heading_in_cell_fails`), tables made block quotes, images. -/
theorem C102_html_partial {num : Int → List Char} (h : Arranged s d f items) (ht : ∀ t ∈ tablesOf items, t.Sound)
    (hl : ∀ t ∈ tablesOf items, ∀ c ∈ t.cells, s.frameBlocks c.frame = c.paras.map SPara.id)
    (hq : ∀ t ∈ tablesOf items, ∀ fr, s.frames t.anchor = some fr → fr.fmtIsBlockquote ≠ some true)
    (hn : ∀ n, StyleSafe (num n)) (hc : SafeColors (flowParas items))
    (hcode : ∀ p ∈ topParas items, p.shape.fmtIsCodeBlock = some true → itemOf s.lists p = none)
    (hadj : ∀ A p q B, items = A ++ .para p :: .para q :: B →
      ∀ m n, itemOf s.lists p = some m → itemOf s.lists q = some n → m = n) :
    ∃ (page : List Char) (again : List STable), s.exportHtml num = some page ∧ again.Perm (tablesOf items) ∧
      readPage page = some ((topParas items).map (pageOf num s.lists),
        placedTables 0 items ++ again.map fun t => ((topParas items).length, docTableOf t)) :=
  h.exportHtml ht hl hq hn hc hcode hadj

/-- A cell of one paragraph lists it. -/
theorem C102_one_paragraph (h : Arranged s d f items) {t : STable} (ht : t ∈ tablesOf items) {c : SCell} (hc : c ∈ t.cells) {p : SPara}
    (hp : c.paras = [p]) : s.frameBlocks c.frame = c.paras.map SPara.id := by
  obtain ⟨_, _, _, fr, c4, _, _, _, _, c5⟩ := (h.table t ht).cell c hc
  rw [hp] at c5 ⊢
  simp only [List.map_cons, List.map_nil] at c5 ⊢
  unfold Store.frameBlocks
  rw [c4]
  exact List.perm_singleton.mp c5

/-- The hypotheses are met: "ab", a table of one row and two columns, "cd". -/
example : ∃ (s : Store) (d : Document) (t : STable) (page : List Char),
    Arranged s d 2 [.para (plainPara 2 ['a', 'b']), .table t, .para (plainPara 3 ['c', 'd'])] ∧ t.Sound ∧ t.cells.length = 2 ∧
    s.exportHtml (fun _ => "1.5".toList) = some page ∧
    readPage page = some ([⟨.para, [], [('a', {}), ('b', {})]⟩, ⟨.para, [], [('c', {}), ('d', {})]⟩], [(1, docTableOf t), (2, docTableOf t)]) := by
  obtain ⟨s, d, e0, hd, h, _⟩ := import_tabled "ab\ncd".toList
  have e : (linesFrom 2 (Store.splitLines (unixText "ab\ncd".toList))).map SItem.para =
      [] ++ .para (plainPara 2 ['a', 'b']) :: [.para (plainPara 3 ['c', 'd'])] := by rfl
  rw [e] at h
  obtain ⟨s1, h1, h2, _⟩ := h.insertTable_top (a := [('a', none), ('b', none)]) (b := []) (position := 2) (anchor := 2)
    (rows := 1) (columns := 2) rfl (by decide) (by decide) (by decide)
  have hcheck : ((Store.newStore.bind fun s => s.importPlainText "ab\ncd".toList).bind fun s => s.insertTable 2 2 1 2).map
      (fun r => r.1.frames.keys.all fun g => (r.1.frames g).all fun fr => decide (fr.fmtIsBlockquote ≠ some true)) = some true := by decide +kernel
  rw [e0, Option.bind_some, h1, Option.map_some, Option.some.injEq, List.all_eq_true] at hcheck
  have h2 : Tabled s1 _ 2 [.para (plainPara 2 ['a', 'b']), .table (madeTable s 1 2), .para (plainPara 3 ['c', 'd'])] := h2
  have he := madeTable_empty s 1 2
  have hso := C74_inserted_sound h2 (by simp [tablesOf]) he (by omega) (by omega)
  have hone : ∀ c ∈ (madeTable s 1 2).cells, ∃ i, c.paras = [⟨i, [], {}⟩] := fun c hc => ⟨_, (he.cells c hc).choose_spec.1⟩
  have hshape : ∀ p ∈ flowParas [.para (plainPara 2 ['a', 'b']), .table (madeTable s 1 2), .para (plainPara 3 ['c', 'd'])], p.shape = {} := by
    intro p hp
    rw [flowParas_para, flowParas_table, List.mem_cons, List.mem_append, List.mem_flatMap] at hp
    rcases hp with rfl | ⟨c, hc, hp⟩ | hp
    · rfl
    · obtain ⟨i, hi⟩ := hone c hc
      rw [hi, List.mem_singleton] at hp
      rw [hp]
    · have : p = plainPara 3 ['c', 'd'] := by simpa [flowParas, SItem.paras] using hp
      rw [this]; rfl
  have htop : ∀ p ∈ topParas [.para (plainPara 2 ['a', 'b']), .table (madeTable s 1 2), .para (plainPara 3 ['c', 'd'])], itemOf s1.lists p = none := by
    intro p hp
    have := hshape p ((topParas_sublist _).subset hp)
    simp [itemOf, this]
  obtain ⟨page, again, p1, p2, p3⟩ := C102_html_partial (num := fun _ => "1.5".toList) h2.arranged
    (by intro t ht; obtain rfl : t = madeTable s 1 2 := by simpa [tablesOf] using ht
        exact hso)
    (by intro t ht c hc
        have e : t = madeTable s 1 2 := by simpa [tablesOf] using ht
        obtain ⟨i, hi⟩ := hone c (e ▸ hc)
        exact C102_one_paragraph h2.arranged ht hc hi)
    (by intro t ht fr hfr
        have := hcheck t.anchor ((s1.frames.mem _).mpr (by rw [hfr]; rfl))
        rw [hfr] at this
        simpa using this)
    (by intro n; show ∀ c ∈ "1.5".toList, c ∉ ['"', ';', '&', '\r']; decide)
    (by intro p hp c hc; rw [hshape p hp] at hc; cases hc)
    (fun p hp _ => htop p hp)
    (by intro A p q B e m n hm hn'
        rw [htop p (by rw [e]; simp [topParas])] at hm
        cases hm)
  refine ⟨s1, _, madeTable s 1 2, page, h2.arranged, hso, ?_, p1, ?_⟩
  · have := congrArg List.length he.places
    simpa using this
  · have e : tablesOf [.para (plainPara 2 ['a', 'b']), .table (madeTable s 1 2), .para (plainPara 3 ['c', 'd'])] = [madeTable s 1 2] := rfl
    rw [e] at p2
    rw [p3, List.perm_singleton.mp p2]
    rfl

/-- **C102, negative.** A document with one table gives a page with two: the table between the paragraphs and again after them.  So do LaTeX
and Markdown export. -/
theorem C102_twice_fails : ∃ (s s1 s2 : Store) (t : Nat) (pos : Int) (snap : Snapshot) (page : List Char),
    (Store.newStore.bind fun s => s.importPlainText "ab\ncd".toList) = some s ∧
    s.insertTable 2 2 1 1 = some (s1, t, pos, snap) ∧ (s1.insertText ⟨3, 3, ['x']⟩).map (fun r => r.1) = some s2 ∧
    (s2.documents 1).map (fun d => d.tables) = some [t] ∧
    s2.exportHtml Store.showInt = some page ∧
    readPage page = some ([⟨.para, [], [('a', {}), ('b', {})]⟩, ⟨.para, [], [('c', {}), ('d', {})]⟩],
      [(1, [[⟨['1'], ['1'], [[('x', {})]]⟩]]), (2, [[⟨['1'], ['1'], [[('x', {})]]⟩]])]) ∧
    s2.exportLatex Store.showInt none = some ("ab\n\n\\begin{tabular}{|l|}\n\\hline\nx \\\\\n\\hline\n\\end{tabular}\n\n" ++
      "cd\n\n\\begin{tabular}{|l|}\n\\hline\nx \\\\\n\\hline\n\\end{tabular}").toList ∧
    s2.exportMarkdown = some "ab\n\n\n\n\n\n| x |\n|---|\n\n\n\n\n\ncd\n\n| x |\n|---|".toList := by
  refine ⟨_, _, _, _, _, _, _, rfl, rfl, rfl, ?_, rfl, ?_, ?_, ?_⟩ <;> decide +kernel

/-- A cell over two columns in a table of two rows: the page says so, and the cells are row by row. -/
example : ∃ (s s1 s2 s3 : Store) (t c : Nat) (pos : Int) (snap snap2 : Snapshot) (page : List Char),
    (Store.newStore.bind fun s => s.importPlainText "ab\ncd".toList) = some s ∧
    s.insertTable 2 2 2 2 = some (s1, t, pos, snap) ∧ s1.mergeTableCells t 1 0 1 1 = some (s2, c, snap2) ∧
    (s2.insertText ⟨4, 4, ['x']⟩).map (fun r => r.1) = some s3 ∧
    s3.exportHtml Store.showInt = some page ∧
    (readPage page).map (fun r => r.2.take 1) =
      some [(1, [[⟨['1'], ['1'], [[]]⟩, ⟨['1'], ['1'], [[('x', {})]]⟩], [⟨['1'], ['2'], [[]]⟩]])] := by
  refine ⟨_, _, _, _, _, _, _, _, _, _, rfl, rfl, rfl, rfl, rfl, ?_⟩ <;> decide +kernel

/-- **C102, negative.** A heading in a cell is written as plain text. -/
theorem C102_heading_in_cell_fails : ∃ (s s1 s2 s3 : Store) (t : Nat) (pos : Int) (snap : Snapshot) (page : List Char),
    (Store.newStore.bind fun s => s.importPlainText "ab\ncd".toList) = some s ∧
    s.insertTable 2 2 1 1 = some (s1, t, pos, snap) ∧ (s1.insertText ⟨3, 3, ['x']⟩).map (fun r => r.1) = some s2 ∧
    (s2.setBlockFormat { headingLevel := some 2 } 3 3).map (fun r => r.1) = some s3 ∧
    (s3.blocks 4).map (fun b => b.fmtHeadingLevel) = some (some 2) ∧
    s3.exportHtml Store.showInt = some page ∧
    page = "<html><head><meta charset=\"utf-8\"></head><body><p>ab</p><table><tr><td>x</td></tr></table><p>cd</p><table><tr><td>x</td></tr></table></body></html>".toList := by
  refine ⟨_, _, _, _, _, _, _, _, rfl, rfl, rfl, rfl, ?_, rfl, ?_⟩ <;> decide +kernel

end Verif
