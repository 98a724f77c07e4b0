import Verif.Lemmas.DocxDoc
import Verif.Props.CellSelection
/-
C86: what the DOCX export of a document holds.
-/
namespace Verif
open Store
variable {s : Store} {d : Document} {f : Nat} {items : List SItem}

/-- **C86 (partial).** The DOCX file of a document whose stored positions are right has a paragraph for each paragraph outside the tables,
in order, each with its text, the bold, italic, underlined, struck and monospaced characters, its heading level, line spacing and whether
its lines stay together; then the tables, each once, in the order in which their frames are listed in the document.  A
table has a row for each of its rows with the cells that begin there in order, each with its span and its paragraphs; if no cell spans both
rows and columns every cell is at its place and every row as wide as the table.  The number reported is that of paragraphs and
tables.  Missing: tables at their place in the text (`C86_place_fails`) and in order (`C86_order_fails`), cells that span both rows and
columns (`C86_span_fails`), the heading level in cells (`C86_heading_in_cell_fails`), lists, and images. -/
theorem C86_docx_partial (twips : Int → Int) (h : Arranged s d f items) (hp : Seated s (flowParas items))
    (ht : ∀ t ∈ tablesOf items, t.Sound) :
    ∃ ps ts tabs, s.exportDocx twips = some (ps ++ ts, ((ps ++ ts).length : Int)) ∧
      InTurn (IsDocxPara twips) (topParas items) ps ∧ InTurn IsDocxTable tabs ts ∧ tabs.Perm (tablesOf items) ∧
      (tabs.map STable.anchor).Sublist d.frames :=
  h.exportDocx hp.ascends ht

/-- The hypotheses are met: "ab", a table of one row and two columns, "cd". -/
example : ∃ (s : Store) (d : Document) (t : STable) (items : List SItem), items = [.para (plainPara 2 ['a', 'b']), .table t, .para (plainPara 3 ['c', 'd'])] ∧
    Arranged s d 2 items ∧ Seated s (flowParas items) ∧ (∀ t ∈ tablesOf items, t.Sound) ∧ t.Thin ∧ t.cells.length = 2 := by
  obtain ⟨s, d, t, h1, _, h3, h4⟩ := sample_tabled
  refine ⟨s, d, t, _, rfl, h1.arranged, h1.seated (by simp [tablesOf]), ?_, ?_, ?_⟩
  · intro u hu
    obtain rfl : u = t := by simpa [tablesOf] using hu
    exact C74_inserted_sound h1 (by simp [tablesOf]) h4 (by omega) (by omega)
  · intro c hc
    obtain ⟨_, _, e⟩ := h4.cells c hc
    exact .inl (by rw [e])
  · have := congrArg List.length h4.places
    simpa using this

/-- **C86, negative.** A table between two paragraphs comes after both in the DOCX file. -/
theorem C86_place_fails : ∃ s s1 : Store, ∃ t snap p q rows,
    (Store.newStore.bind fun s => s.importPlainText "ab\ncd".toList) = some s ∧
    s.insertTable 2 2 1 2 = some (s1, t, 2, snap) ∧
    (s1.frames 2).map (fun f => f.childOrder) = some [2, -5, 3] ∧
    (s1.exportDocx id).map (fun r => r.1) = some [.para p, .para q, .table (some [0, 0]) rows] ∧
    p.runs.map (fun r => r.text) = [['a', 'b']] ∧ q.runs.map (fun r => r.text) = [['c', 'd']] := by
  refine ⟨_, _, _, _, _, _, _, rfl, rfl, ?_, rfl, ?_⟩ <;> decide +kernel

/-- **C86, negative.** Tables come in the order of their creation: one put in front of another later comes after it. -/
theorem C86_order_fails : ∃ s s1 s2 : Store, ∃ t u snap snap2 p q rows rows',
    (Store.newStore.bind fun s => s.importPlainText "ab\ncd".toList) = some s ∧
    s.insertTable 2 2 1 1 = some (s1, t, 2, snap) ∧ s1.insertTable 0 0 1 2 = some (s2, u, 0, snap2) ∧
    (s2.frames 2).map (fun f => f.childOrder) = some [-7, 2, -4, 3] ∧
    (s2.exportDocx id).map (fun r => r.1) = some [.para p, .para q, .table (some [0]) rows, .table (some [0, 0]) rows'] := by
  refine ⟨_, _, _, _, _, _, _, _, _, _, _, rfl, rfl, rfl, ?_, rfl⟩
  decide +kernel

/-- **C86, negative.** Of a cell over two rows and two columns the second row is one column short. -/
theorem C86_span_fails : ∃ s s1 s2 : Store, ∃ t snap c snap2 p q g row1 row2,
    (Store.newStore.bind fun s => s.importPlainText "ab\ncd".toList) = some s ∧
    s.insertTable 2 2 2 2 = some (s1, t, 2, snap) ∧ s1.mergeTableCells t 0 0 1 1 = some (s2, c, snap2) ∧
    (s2.exportDocx id).map (fun r => r.1) = some [.para p, .para q, .table g [row1, row2]] ∧
    (row1.map docxWidth).sum = 2 ∧ (row2.map docxWidth).sum = 1 := by
  refine ⟨_, _, _, _, _, _, _, _, _, _, _, _, rfl, rfl, rfl, rfl, ?_⟩
  decide +kernel

/-- **C86, negative.** A heading in a cell is written as plain text. -/
theorem C86_heading_in_cell_fails : ∃ s s1 s2 : Store, ∃ t snap p q x g,
    (Store.newStore.bind fun s => s.importPlainText "ab\ncd".toList) = some s ∧
    s.insertTable 2 2 1 1 = some (s1, t, 2, snap) ∧
    (s1.setBlockFormat { headingLevel := some 2 } 3 3).map (fun r => r.1) = some s2 ∧
    (s2.blocks 4).map (fun b => b.fmtHeadingLevel) = some (some 2) ∧
    (s2.exportDocx id).map (fun r => r.1) = some [.para p, .para q, .table g [[{ paras := [x] }]]] ∧ x.heading = none := by
  refine ⟨_, _, _, _, _, _, _, _, _, rfl, rfl, rfl, ?_, rfl, rfl⟩
  decide +kernel

end Verif
