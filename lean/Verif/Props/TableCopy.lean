import Verif.Lemmas.TableCopy
import Verif.Props.Copy
import Verif.Props.ReplaceTabled
import Verif.Props.ExportDocx
import Verif.Props.DeleteTabled
/- C104: copying in documents with tables. -/
namespace Verif
open Store
variable {s : Store} {d : Document} {f : Nat} {items : List SItem}

/-- **C104 (partial).** Copying what lies between two positions of a document with tables, in either order, when all paragraphs the
selection touches are outside the tables, gives what copying gives in a document without tables (C63): for each paragraph touched its
selected characters with the formats they show, and as plain text the selected text of the document.  Full statement: for every
selection.  Inside a cell the claim is false (`C104_cell_twice`, `C104_cell_fails`); selections that touch cells and text outside, or more
than one cell, are in C105. -/
theorem C104_outside_partial (h : Tabled s d f items) (ht : tablesOf items ≠ []) (lo hi : Nat) (hlt : lo < hi)
    (hto : ∀ p ∈ touched lo hi 0 (flowParas items), p ∈ topParas items) :
    ∃ fbs t, s.extractFragment lo hi = some (fbs, t) ∧ s.extractFragment hi lo = some (fbs, t) ∧
      CopiesOf s fbs (pieces lo hi 0 (flowParas items)) ∧
      (hi ≤ docLen (flowParas items) → ¬ IsStart (flowParas items) hi → t = ((docText (flowParas items)).take hi).drop lo) ∧
      (hi ≤ docLen (flowParas items) → IsStart (flowParas items) hi → t ++ ['\n'] = ((docText (flowParas items)).take hi).drop lo) := by
  obtain ⟨L, hL, _⟩ := h.content
  obtain ⟨fbs, h2, hrun⟩ := h.extractFragment ht hlt (o := none) fun p hp => h.arranged.cellFrameOf_top (hto p hp)
  rw [piecesOf_once _ _ fun p hp => inCell_top hL.ids_nodup (hto p hp)] at h2
  have htext := copies_text h2
  have hpc := pieceChars_pieces hlt (flowParas items) 0 (by omega)
  have hst : IsStart (flowParas items) hi ↔
      ∃ L p R, flowParas items = L ++ p :: R ∧ L ≠ [] ∧ hi = 0 + charsBefore (paras L) := by
    simp only [IsStart, charsBefore_sum, Nat.zero_add]
  refine ⟨_, _, hrun lo hi (by omega) (by omega), hrun hi lo (by omega) (by omega), h2, ?_, ?_⟩
  · intro hle hn
    rw [hst] at hn
    rw [htext, (hpc (by omega)).1 hn, docText_chars, List.map_drop, List.map_take]; rfl
  · intro hle hn
    rw [hst] at hn
    have := (hpc (by omega)).2 hn
    rw [htext, docText_chars, ← List.map_take, ← List.map_drop]
    have e2 : (((docChars (flowParas items)).take hi).drop lo) = pieceChars (pieces lo hi 0 (flowParas items)) ++ [('\n', none)] := this.symm
    rw [e2]; simp

/-- Inside one cell everything is copied twice: each piece of the selection comes two times in a row. -/
theorem C104_cell_twice (h : Tabled s d f items) {c : SCell} (hc : c ∈ cellsOf items) (lo hi : Nat) (hlt : lo < hi)
    (hto : ∀ p ∈ touched lo hi 0 (flowParas items), p ∈ c.paras) :
    ∃ fbs t, s.extractFragment lo hi = some (fbs, t) ∧ s.extractFragment hi lo = some (fbs, t) ∧
      CopiesOf s fbs ((pieces lo hi 0 (flowParas items)).flatMap fun x => [x, x]) ∧
      t = (pieceChars ((pieces lo hi 0 (flowParas items)).flatMap fun x => [x, x])).map Prod.fst := by
  obtain ⟨u, hu, hcu⟩ := mem_cellsOf.mp hc
  obtain ⟨fbs, h2, hrun⟩ := h.extractFragment (List.ne_nil_of_mem hu) hlt (o := some c.frame)
    fun p hp => h.arranged.cellFrameOf_cell hu hcu (hto p hp)
  rw [piecesOf_twice _ _ fun p hp => inCell_cell hc (hto p hp)] at h2
  exact ⟨_, _, hrun lo hi (by omega) (by omega), hrun hi lo (by omega) (by omega), h2, copies_text h2⟩

theorem pieces_after {lo hi : Nat} (ps : List SPara) (n : Nat) (h : hi ≤ n) : pieces lo hi n ps = [] ∧ touched lo hi n ps = [] := by
  induction ps generalizing n with
  | nil => exact ⟨rfl, rfl⟩
  | cons p ps ih =>
    rw [pieces, touched, if_pos (.inr h), if_pos (.inr h)]
    exact ih _ (by omega)

theorem pieces_within {lo hi : Nat} (hlt : lo < hi) (L : List SPara) (p : SPara) (R : List SPara) (n : Nat)
    (h1 : n + (L.map fun q => q.chars.length + 1).sum ≤ lo) (h2 : hi ≤ n + (L.map fun q => q.chars.length + 1).sum + p.chars.length) :
    (∃ x, pieces lo hi n (L ++ p :: R) = [x] ∧ x.chars =
      (p.chars.take (hi - (n + (L.map fun q => q.chars.length + 1).sum))).drop (lo - (n + (L.map fun q => q.chars.length + 1).sum))) ∧
    touched lo hi n (L ++ p :: R) = [p] := by
  induction L generalizing n with
  | nil =>
    simp only [List.map_nil, List.sum_nil, Nat.add_zero] at h1 h2
    have := pieces_after (lo := lo) (hi := hi) R (n + p.chars.length + 1) (by omega)
    have hc : ¬ (n + p.chars.length < lo ∨ hi ≤ n) := by omega
    exact ⟨⟨_, (if_neg hc).trans (by rw [this.1]), rfl⟩, (if_neg hc).trans (by rw [this.2])⟩
  | cons q L ih =>
    simp only [List.map_cons, List.sum_cons] at h1 h2 ⊢
    rw [List.cons_append, pieces, touched, if_pos (by omega), if_pos (by omega)]
    have := ih (n + q.chars.length + 1) (by omega) (by omega)
    rw [show n + (q.chars.length + 1 + (L.map fun q => q.chars.length + 1).sum) =
      n + q.chars.length + 1 + (L.map fun q => q.chars.length + 1).sum by omega]
    exact this

/-- A word selected in a paragraph of a cell, and copied, is pasted as two paragraphs, each of them the word: for every document, every
cell, every paragraph of it (that starts at `n`) and every selection inside that paragraph. -/
theorem C104_word_in_cell (h : Tabled s d f items) {c : SCell} (hc : c ∈ cellsOf items) {p : SPara} (hp : p ∈ c.paras)
    {L R : List SPara} (e : flowParas items = L ++ p :: R) {n lo hi : Nat} (hn : n = (L.map fun q => q.chars.length + 1).sum)
    (h1 : n ≤ lo) (hlt : lo < hi) (h2 : hi ≤ n + p.chars.length) :
    ∃ fbs, s.extractFragment lo hi = some (fbs, (p.text.take (hi - n)).drop (lo - n) ++ '\n' :: (p.text.take (hi - n)).drop (lo - n)) ∧
      fbs.map FragBlock.text = [(p.text.take (hi - n)).drop (lo - n), (p.text.take (hi - n)).drop (lo - n)] := by
  subst hn
  obtain ⟨⟨x, w1, w2⟩, w3⟩ := pieces_within hlt L p R 0 (by omega) (by omega)
  rw [← e] at w1 w3
  simp only [Nat.zero_add] at w2
  obtain ⟨fbs, t, r1, _, r3, r4⟩ := C104_cell_twice h hc lo hi hlt (by rw [w3]; simpa using hp)
  have ex : x.chars.map Prod.fst = (p.text.take (hi - (L.map fun q => q.chars.length + 1).sum)).drop (lo - (L.map fun q => q.chars.length + 1).sum) := by
    rw [w2, List.map_drop, List.map_take]; rfl
  rw [w1] at r3 r4
  refine ⟨fbs, ?_, ?_⟩
  · rw [r1, r4]
    simp only [pieceChars, List.flatMap_cons, List.flatMap_nil, List.map_append, List.map_cons, List.map_nil]
    rw [← ex]
    simp [docChars]
  · rw [← ex]
    rw [show ([x].flatMap fun x => [x, x]) = [x, x] from rfl] at r3
    cases fbs with
    | nil => exact r3.elim
    | cons a l =>
      cases l with
      | nil => exact r3.2.elim
      | cons b l =>
        cases l with
        | nil => rw [List.map_cons, List.map_cons, List.map_nil, r3.1.text, r3.2.1.text]
        | cons _ _ => exact r3.2.2.elim

/-- **C104 in cells is false.** In a table of a document the cell "xy" is selected and copied: the fragment has two paragraphs "xy", and
its plain text is "xy", newline, "xy".  Copying "ab" before the table gives "ab". -/
theorem C104_cell_fails : ∃ (s s1 s2 : Store) (t : Nat) (pos : Int) (snap : Snapshot) (fbs gbs : List FragBlock),
    (Store.newStore.bind fun s => s.importPlainText "ab\ncd".toList) = some s ∧
    s.insertTable 2 2 1 2 = some (s1, t, pos, snap) ∧ (s1.insertText ⟨3, 3, "xy".toList⟩).map (fun r => r.1) = some s2 ∧
    s2.extractFragment 3 5 = some (fbs, "xy\nxy".toList) ∧ fbs.map FragBlock.text = ["xy".toList, "xy".toList] ∧
    s2.extractFragment 0 2 = some (gbs, "ab".toList) ∧ gbs.map FragBlock.text = ["ab".toList] := by
  refine ⟨_, _, _, _, _, _,
    [⟨"xy".toList, [.text "xy".toList {}], {}, none⟩, ⟨"xy".toList, [.text "xy".toList {}], {}, none⟩],
    [⟨"ab".toList, [.text "ab".toList {}], {}, none⟩], rfl, rfl, rfl, ?_, rfl, ?_, rfl⟩ <;> decide +kernel

/-- The hypotheses are met: "ab", a table of one row and two columns, "cd"; the selections of "b" and of "cd" touch no cell. -/
example : ∃ (s : Store) (d : Document) (t : STable),
    Tabled s d 2 [.para (plainPara 2 ['a', 'b']), .table t, .para (plainPara 3 ['c', 'd'])] ∧
    touched 1 2 0 (flowParas [.para (plainPara 2 ['a', 'b']), .table t, .para (plainPara 3 ['c', 'd'])]) = [plainPara 2 ['a', 'b']] ∧
    ∃ fbs, s.extractFragment 1 2 = some (fbs, ['b']) := by
  obtain ⟨s, d, e0, hd, h, _⟩ := import_tabled "ab\ncd".toList
  have e : (linesFrom 2 (Store.splitLines (unixText "ab\ncd".toList))).map SItem.para =
      [] ++ .para (plainPara 2 ['a', 'b']) :: [.para (plainPara 3 ['c', 'd'])] := by rfl
  rw [e] at h
  obtain ⟨s1, h1, h2, _⟩ := h.insertTable_top (a := [('a', none), ('b', none)]) (b := []) (position := 2) (anchor := 2)
    (rows := 1) (columns := 2) rfl (by decide) (by decide) (by decide)
  have hw := pieces_within (lo := 1) (hi := 2) (by omega) [] (plainPara 2 ['a', 'b'])
    (flowParas [.table (madeTable s 1 2), .para (plainPara 3 ['c', 'd'])]) 0 (by decide) (by decide)
  refine ⟨s1, _, madeTable s 1 2, h2, hw.2, ?_⟩
  refine ⟨[⟨['b'], [.text ['b'] {}], {}, none⟩], ?_⟩
  have hcheck : (((Store.newStore.bind fun s => s.importPlainText "ab\ncd".toList).bind fun s => s.insertTable 2 2 1 2).bind
        fun r => r.1.extractFragment 1 2) = some ([⟨['b'], [.text ['b'] {}], {}, none⟩], ['b']) := by decide +kernel
  rw [e0, Option.bind_some, h1, Option.bind_some] at hcheck
  exact hcheck

/-- The hypotheses of `C104_word_in_cell` are met by the cell "y" of a row "x", "y", "z" after "ab": copying it gives "y" twice. -/
example : ∃ s d t fbs, rowSample ['z'] = some s ∧ Tabled s d 2 ([⟨2, [('a', none), ('b', none)], {}⟩].map SItem.para ++ [t].map SItem.table) ∧
    s.extractFragment 5 6 = some (fbs, ['y', '\n', 'y']) := by
  obtain ⟨s, d, t, e, h, ht, _⟩ := rowSample_tabled
  have hf : flowParas ([⟨2, [('a', none), ('b', none)], {}⟩].map SItem.para ++ [t].map SItem.table) =
      ⟨2, [('a', none), ('b', none)], {}⟩ :: (t.cells.map SCell.paras).flatten := by
    simp [flowParas, SItem.paras, List.flatMap_def]
  rw [ht] at hf
  obtain ⟨c1, c2, c3, hc, p1, p2, p3⟩ : ∃ c1 c2 c3, t.cells = [c1, c2, c3] ∧ c1.paras = [⟨3, [('x', none)], {}⟩] ∧
      c2.paras = [⟨4, [('y', none)], {}⟩] ∧ c3.paras = [⟨5, [('z', none)], {}⟩] := by
    rcases hcl : t.cells with _ | ⟨a, _ | ⟨b, _ | ⟨c, _ | ⟨x, l⟩⟩⟩⟩ <;> rw [hcl] at ht <;> simp at ht
    exact ⟨a, b, c, rfl, ht⟩
  have hm : c2 ∈ cellsOf ([⟨2, [('a', none), ('b', none)], {}⟩].map SItem.para ++ [t].map SItem.table) := by
    simp [cellsOf, tablesOf, hc]
  obtain ⟨fbs, w, _⟩ := C104_word_in_cell h hm (p := ⟨4, [('y', none)], {}⟩) (by rw [p2]; simp)
    (L := [⟨2, [('a', none), ('b', none)], {}⟩, ⟨3, [('x', none)], {}⟩]) (R := [⟨5, [('z', none)], {}⟩]) hf
    (n := 5) (lo := 5) (hi := 6) rfl (by omega) (by omega) (by decide)
  exact ⟨s, d, t, fbs, e, h, w⟩

end Verif
