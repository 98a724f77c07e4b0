import Verif.Lemmas.DocText
import Verif.Props.ReplaceTabled
import Verif.Props.ExportDocx
/- C103: plain-text export of documents with tables. -/
namespace Verif
open Store
variable {s : Store} {d : Document} {f : Nat} {items : List SItem}

/-- **C103 (partial).** `to_plain_text` of a document with tables: the paragraphs outside the tables in order, then those of the cells, the
paragraphs of a cell together and in order, each cell once, the cells in the order in which the document lists their frames; all joined by
newlines.  The full claim, that the text is that of the document in reading order, is false (`C103_order_fails`). -/
theorem C103_plain_text_partial (h : Tabled s d f items) (ht : tablesOf items ≠ []) :
    ∃ cs : List SCell, cs.Perm (cellsOf items) ∧
      cs.map SCell.frame = d.frames.filter (fun g => decide (g ∈ (cellsOf items).map SCell.frame)) ∧
      s.exportPlainText = some (docText (topParas items ++ cs.flatMap SCell.paras)) :=
  h.arranged.exportPlainText (h.seated ht).ascends ht

theorem top_then_cells (items : List SItem) : (topParas items ++ (cellsOf items).flatMap SCell.paras).Perm (flowParas items) := by
  induction items with
  | nil => exact .refl _
  | cons x items ih =>
    cases x with
    | para p => exact ih.cons p
    | table t =>
      show (topParas items ++ (t.cells ++ cellsOf items).flatMap SCell.paras).Perm (t.cells.flatMap SCell.paras ++ flowParas items)
      rw [List.flatMap_append, ← List.append_assoc]
      refine (List.Perm.append_right _ List.perm_append_comm).trans ?_
      rw [List.append_assoc]
      exact ih.append_left _

theorem docLen_perm {ps qs : List SPara} (h : ps.Perm qs) : docLen ps = docLen qs := by
  cases ps with
  | nil => rw [h.symm.eq_nil]
  | cons p ps =>
    have hq : qs ≠ [] := fun e => by rw [e] at h; exact absurd h.eq_nil (by simp)
    have h1 := docLen_succ (ps := p :: ps) (by simp)
    have h2 := docLen_succ hq
    have h3 : charTotal (p :: ps) = charTotal qs := by
      unfold charTotal
      exact (h.map _).sum_nat
    have := h.length_eq
    omega

/-- No character is lost and none comes twice: the text is that of all paragraphs, in some order, joined by newlines. -/
theorem C103_nothing_lost (h : Tabled s d f items) (ht : tablesOf items ≠ []) :
    ∃ ps : List SPara, ps.Perm (flowParas items) ∧ s.exportPlainText = some (docText ps) := by
  obtain ⟨cs, h1, _, h3⟩ := C103_plain_text_partial h ht
  exact ⟨_, (List.Perm.append_left _ (h1.flatMap_right _)).trans (top_then_cells items), h3⟩

/-- The length of the text is the number of characters of the paragraphs and of the newlines between them. -/
theorem C103_length (h : Tabled s d f items) (ht : tablesOf items ≠ []) :
    s.exportPlainText.map List.length = some (docLen (flowParas items)) := by
  obtain ⟨ps, h1, h2⟩ := C103_nothing_lost h ht
  rw [h2, Option.map_some, Option.some.injEq]
  rw [docText_length, docLen_perm h1]

/-- The hypotheses are met: "ab", a table of one row and two columns, "cd". -/
example : ∃ (s : Store) (d : Document) (t : STable),
    Tabled s d 2 [.para (plainPara 2 ['a', 'b']), .table t, .para (plainPara 3 ['c', 'd'])] ∧ t.cells.length = 2 ∧
    s.exportPlainText = some "ab\ncd\n\n".toList := by
  obtain ⟨s, d, e0, hd, h, _⟩ := import_tabled "ab\ncd".toList
  have e : (linesFrom 2 (Store.splitLines (unixText "ab\ncd".toList))).map SItem.para =
      [] ++ .para (plainPara 2 ['a', 'b']) :: [.para (plainPara 3 ['c', 'd'])] := by rfl
  rw [e] at h
  obtain ⟨s1, h1, h2, _⟩ := h.insertTable_top (a := [('a', none), ('b', none)]) (b := []) (position := 2) (anchor := 2)
    (rows := 1) (columns := 2) rfl (by decide) (by decide) (by decide)
  refine ⟨s1, _, madeTable s 1 2, h2, ?_, ?_⟩
  · have := congrArg List.length (madeTable_empty s 1 2).places
    simpa using this
  · have hcheck : (((Store.newStore.bind fun s => s.importPlainText "ab\ncd".toList).bind fun s => s.insertTable 2 2 1 2).bind
        fun r => r.1.exportPlainText) = some "ab\ncd\n\n".toList := by decide +kernel
    rw [e0, Option.bind_some, h1, Option.bind_some] at hcheck
    exact hcheck

/-- **C103 in reading order is false.** A document "ab", a table with "x" in its one cell, "cd": the plain text has "cd" before "x".  The
position that `find_all` gives for "x" is 3, where the plain text has "c". -/
theorem C103_order_fails : ∃ (s s1 s2 : Store) (t : Nat) (pos : Int) (snap : Snapshot) (text : List Char),
    (Store.newStore.bind fun s => s.importPlainText "ab\ncd".toList) = some s ∧
    s.insertTable 2 2 1 1 = some (s1, t, pos, snap) ∧ (s1.insertText ⟨3, 3, ['x']⟩).map (fun r => r.1) = some s2 ∧
    s2.exportPlainText = some text ∧ text = "ab\ncd\nx".toList ∧
    (s2.findAllIn plainSearch ['x'] true false false) = some ([3], [1], 1) ∧ text[3]? = some 'c' := by
  refine ⟨_, _, _, _, _, _, _, rfl, rfl, rfl, rfl, ?_, ?_, ?_⟩ <;> decide +kernel

end Verif
