import Verif.Lemmas.TableEditRemove
import Verif.Lemmas.TableEditGone
import Verif.Lemmas.DocKeys
import Verif.Props.CellSelection
import Verif.Props.Store
import Verif.Props.Grid
import Verif.Props.Tables
/-
C82: changing the rows, columns and cells of a table in a document.  Vocabulary: `Verif/Spec/{Tables,Grid,TableEdits}.lean`.
-/
namespace Verif
variable {s : Store} {d : Document} {f : Nat} {A B : List SItem} {t t' : STable} {g g' : Grid}

open Store

theorem Restructured.shows_old (h : Restructured t g t') {c : SCell} (hc : c ∈ t.cells) {e : TableCell} (he : e ∈ g.cells)
    (hid : e.id = c.cell.id) {r k : Int} (hv : e.covers r k = true) : t'.shows r k c.paras := by
  obtain ⟨c', hc', rfl⟩ := List.mem_map.mp (h.cells.mem_iff.mpr he)
  exact ⟨c', hc', hv, (h.old c' hc' c hc hid).1⟩

theorem Restructured.shows_new (h : Restructured t g t') {e : TableCell} (he : e ∈ g.cells)
    (hid : ∀ c ∈ t.cells, e.id ≠ c.cell.id) {r k : Int} (hv : e.covers r k = true) : t'.showsNothing r k := by
  obtain ⟨c', hc', rfl⟩ := List.mem_map.mp (h.cells.mem_iff.mpr he)
  obtain ⟨i, hi⟩ := h.new c' hc' hid
  exact ⟨i, c', hc', hv, hi⟩

theorem Restructured.rows (h : Restructured t g t') : t'.table.rows = g.rows := by rw [h.table]

theorem Restructured.columns (h : Restructured t g t') : t'.table.columns = g.columns := by rw [h.table]

theorem Restructured.widths (h : Restructured t g t') : t'.table.columnWidths = g.widths := by rw [h.table]

theorem Restructured.tiled (h : Restructured t g t') (hg : Tiled g) : Tiled t'.grid := by
  have hp : t'.grid.cells.Perm g.cells := h.cells
  have e1 : t'.grid.rows = g.rows := h.rows
  have e2 : t'.grid.columns = g.columns := h.columns
  have e3 : t'.grid.widths = g.widths := h.widths
  refine ⟨by rw [e1]; exact hg.rows, by rw [e2]; exact hg.columns, ?_, by rw [e3, e2]; exact hg.widths⟩
  rw [e1, e2]
  refine ⟨fun c hc => hg.cells.inside c (hp.mem_iff.mp hc), fun c hc => hg.cells.span c (hp.mem_iff.mp hc), ?_, ?_⟩
  · intro r k a b c e
    rw [(hp.filter _).length_eq]; exact hg.cells.once r k a b c e
  · exact (hp.map _).nodup_iff.mpr hg.cells.ids

theorem Arranged.freshFor (h : Arranged s d f (A ++ .table t :: B)) : FreshFor s.freshCell t.grid.cells := by
  have ht : t ∈ tablesOf (A ++ .table t :: B) := by rw [tables_at]; simp
  refine ⟨?_, ?_⟩
  · intro i j e
    have e : s.next "table_cell" + i = s.next "table_cell" + j := e
    omega
  · intro i c hc e
    obtain ⟨x, hx, rfl⟩ := List.mem_map.mp hc
    have := h.freshCells x.cell.id (by rw [((h.table t ht).cell x hx).1]; rfl)
    have e : x.cell.id = s.next "table_cell" + i := e
    omega

theorem newCells_at {fresh : Nat → Nat × Nat} {p : Int × Int × Int × Int} {ps : List (Int × Int × Int × Int)} (hp : p ∈ ps) :
    ∀ i, ∃ j, newCell (fresh j) p.1 p.2.1 p.2.2.1 p.2.2.2 ∈ newCells fresh i ps := by
  induction ps with
  | nil => cases hp
  | cons q ps ih =>
    intro i
    obtain ⟨a, b, c, e⟩ := q
    rcases List.mem_cons.mp hp with rfl | hp
    · exact ⟨i, by rw [newCells]; exact List.mem_cons_self ..⟩
    · obtain ⟨j, hj⟩ := ih hp (i + 1)
      exact ⟨j, by rw [newCells]; exact List.mem_cons_of_mem _ hj⟩

theorem insertIdx_split {α : Type} (x : α) : ∀ (l : List α) (n : Nat), n ≤ l.length → l.insertIdx n x = l.take n ++ x :: l.drop n
  | l, 0, _ => by simp
  | [], n + 1, h => by simp at h
  | a :: l, n + 1, h => by
    rw [List.insertIdx_succ_cons, insertIdx_split x l n (by simpa using h)]; rfl

theorem OnlyDocument.docsIn (h : OnlyDocument s d) (e : s.documents d.id = some d) : s.DocsIn d.id := by
  intro i x hi
  have := h i (by rw [hi]; rfl)
  subst this
  rw [e] at hi; cases hi
  exact ⟨rfl, rfl⟩

theorem Store.DocsIn.only {s' : Store} {d' : Document} (h : s'.DocsIn d.id) (e : d'.id = d.id) : OnlyDocument s' d' := by
  intro i hi
  obtain ⟨x, hx⟩ := Option.isSome_iff_exists.mp hi
  rw [e]; exact (h i x hx).1

/-! ## C82 -/

/-- **C82 (insert a row).** In every document of paragraphs and tables, a row can be added to any table
at any of its row lines that no merged cell crosses.  What was above the line stays in its place, what was
below it moves down by one row with its paragraphs, each place of the new row holds one empty paragraph,
and the cells again fill the table.  Nothing else of the document changes, the number of blocks grows by the
number of columns, and undo gives the document back.  Missing: lines crossed by a merged cell
(`C38_insert_row_fails`), and the stored positions of the paragraphs, which are right afterwards only if the
cells of the table are empty (`C82_insert_row_positions_fails`). -/
theorem C82_insert_row_partial (h : Arranged s d f (A ++ .table t :: B)) (ht : Tiled t.grid) {idx : Int} (h0 : 0 ≤ idx)
    (h1 : idx ≤ t.table.rows) (hl : t.grid.rowLineFree idx) :
    ∃ s' d' t' snap, s.insertTableRow t.table.id idx = some (s', snap) ∧ Arranged s' d' f (A ++ .table t' :: B) ∧
      t'.table = { t.table with rows := t.table.rows + 1, cells := t'.table.cells } ∧ Tiled t'.grid ∧
      (∀ r k ps, t.shows r k ps → t'.shows (if r < idx then r else r + 1) k ps) ∧
      (∀ k, 0 ≤ k → k < t.table.columns → t'.showsNothing idx k) ∧
      d' = { d with frames := d'.frames, blockCount := d.blockCount + t.table.columns } ∧ s'.lists = s.lists ∧
      SameContent (s'.restoreUndo snap) s ∧ (OnlyDocument s d → OnlyDocument s' d') ∧
      (Tabled s d f (A ++ .table t :: B) → t.blank → Tabled s' d' f (A ++ .table t' :: B)) := by
  obtain ⟨s', d', t', g', e1, e2, e3, e4, e5, e6, e7⟩ := h.insertRow h0 h1
  have hf := h.freshFor
  obtain ⟨g2, q1, q2, q3, q4⟩ := C38_insert_row_partial ht hf h0 h1 hl
  rw [e2] at q1; cases q1
  have hg := e2
  unfold Verif.insertRow at hg
  rw [if_neg (by show ¬ (idx < 0 ∨ idx > t.table.rows); omega)] at hg
  simp only [Option.some.injEq] at hg
  refine ⟨s', d', t', _, e1, e4, by rw [e3.table, ← hg]; rfl, e3.tiled q4, ?_, ?_, e5, e6, (C27_undo_snapshot s s').1,
    fun ho => ((ho.docsIn h.document).insertTableRow e1).only (by rw [e5]), fun a b => e7 a b (by have : 1 ≤ t.table.columns := ht.columns; omega)⟩
  · rintro r k ps ⟨c, hc, hv, rfl⟩
    have hcg : c.cell ∈ t.grid.cells := List.mem_map_of_mem hc
    refine e3.shows_old hc (e := rowShift idx c.cell) (by rw [← hg]; exact List.mem_append.mpr (.inl (List.mem_map_of_mem hcg))) ?_ ?_
    · unfold rowShift; split
      · rfl
      · split <;> rfl
    · have a := hl _ hcg
      have b := ht.cells.span _ hcg
      rw [covers_iff] at hv ⊢
      unfold rowShift
      split <;> split <;> (try split) <;> (try simp only) <;> omega
  · intro k k0 k1
    obtain ⟨j, hj⟩ := newCells_at (fresh := s.freshCell) (p := (idx, k, 1, 1)) (ps := (intRange t.table.columns).map fun c => (idx, c, 1, 1))
      (List.mem_map.mpr ⟨k, intRange_mem.mpr ⟨k0, k1⟩, rfl⟩) 0
    refine e3.shows_new (e := newCell (s.freshCell j) idx k 1 1) (by rw [← hg]; exact List.mem_append.mpr (.inr hj)) ?_ ?_
    · exact fun c hc => (hf.new j c.cell (List.mem_map_of_mem hc)).symm
    · rw [covers_iff]; simp only [newCell]; omega

/-- The same for a column; the new column has width 0. -/
theorem C82_insert_column_partial (h : Arranged s d f (A ++ .table t :: B)) (ht : Tiled t.grid) {idx : Int} (h0 : 0 ≤ idx)
    (h1 : idx ≤ t.table.columns) (hl : t.grid.columnLineFree idx) :
    ∃ s' d' t' snap, s.insertTableColumn t.table.id idx = some (s', snap) ∧ Arranged s' d' f (A ++ .table t' :: B) ∧
      t'.table = { t.table with
        columns := t.table.columns + 1, cells := t'.table.cells
        columnWidths := t.table.columnWidths.take idx.toNat ++ 0 :: t.table.columnWidths.drop idx.toNat } ∧ Tiled t'.grid ∧
      (∀ r k ps, t.shows r k ps → t'.shows r (if k < idx then k else k + 1) ps) ∧
      (∀ r, 0 ≤ r → r < t.table.rows → t'.showsNothing r idx) ∧
      d' = { d with frames := d'.frames, blockCount := d.blockCount + t.table.rows } ∧ s'.lists = s.lists ∧
      SameContent (s'.restoreUndo snap) s ∧ (OnlyDocument s d → OnlyDocument s' d') ∧
      (Tabled s d f (A ++ .table t :: B) → t.blank → Tabled s' d' f (A ++ .table t' :: B)) := by
  obtain ⟨s', d', t', g', e1, e2, e3, e4, e5, e6, e7⟩ := h.insertColumn h0 h1
  have hf := h.freshFor
  obtain ⟨g2, q1, q2, q3, q4⟩ := C38_insert_column_partial ht hf h0 h1 hl
  rw [e2] at q1; cases q1
  have hg := e2
  unfold Verif.insertColumn at hg
  rw [if_neg (by show ¬ (idx < 0 ∨ idx > t.table.columns); omega)] at hg
  simp only [Option.some.injEq] at hg
  have hw : (t.table.columnWidths.length : Int) = t.table.columns := ht.widths
  refine ⟨s', d', t', _, e1, e4, ?_, e3.tiled q4, ?_, ?_, e5, e6, (C27_undo_snapshot s s').1,
    fun ho => ((ho.docsIn h.document).insertTableColumn e1).only (by rw [e5]), fun a b => e7 a b (by have : 1 ≤ t.table.rows := ht.rows; omega)⟩
  · have a1 : g'.rows = t.table.rows := by rw [← hg]; rfl
    have a2 : g'.columns = t.table.columns + 1 := by rw [← hg]; rfl
    have a3 : g'.widths = t.table.columnWidths.take idx.toNat ++ 0 :: t.table.columnWidths.drop idx.toNat := by
      rw [← insertIdx_split _ _ _ (by omega), ← hg]
      show t.table.columnWidths.insertIdx (min idx.toNat t.table.columnWidths.length) 0 = _
      rw [Nat.min_eq_left (by omega)]
    exact e3.table.trans (by rw [a1, a2, a3])
  · rintro r k ps ⟨c, hc, hv, rfl⟩
    have hcg : c.cell ∈ t.grid.cells := List.mem_map_of_mem hc
    refine e3.shows_old hc (e := columnShift idx c.cell) (by rw [← hg]; exact List.mem_append.mpr (.inl (List.mem_map_of_mem hcg))) ?_ ?_
    · unfold columnShift; split
      · rfl
      · split <;> rfl
    · have a := hl _ hcg
      have b := ht.cells.span _ hcg
      rw [covers_iff] at hv ⊢
      unfold columnShift
      split <;> split <;> (try split) <;> (try simp only) <;> omega
  · intro k k0 k1
    obtain ⟨j, hj⟩ := newCells_at (fresh := s.freshCell) (p := (k, idx, 1, 1)) (ps := (intRange t.table.rows).map fun r => (r, idx, 1, 1))
      (List.mem_map.mpr ⟨k, intRange_mem.mpr ⟨k0, k1⟩, rfl⟩) 0
    refine e3.shows_new (e := newCell (s.freshCell j) k idx 1 1) (by rw [← hg]; exact List.mem_append.mpr (.inr hj)) ?_ ?_
    · exact fun c hc => (hf.new j c.cell (List.mem_map_of_mem hc)).symm
    · rw [covers_iff]; simp only [newCell]; omega

/-- **C82 (remove a row).** In every document of paragraphs and tables, any row of a table with more
than one can be removed, whatever cells are merged.  What is above stays in its place, what is below moves
up by one row with its paragraphs, and the cells again fill the table; the paragraphs of the cells that
took in only that row are gone.  Nothing else of the document changes, and undo gives the document back.
Missing: the number of characters and the stored positions, which are right afterwards only if each cell
of the table holds one empty paragraph (`C82_remove_row_counts_fails`). -/
theorem C82_remove_row_partial (h : Arranged s d f (A ++ .table t :: B)) (hdocs : OnlyDocument s d) (ht : Tiled t.grid) {idx : Int}
    (h0 : 0 ≤ idx) (h1 : idx < t.table.rows) (h2 : 2 ≤ t.table.rows) :
    ∃ s' d' t' snap, s.removeTableRow t.table.id idx = some (s', snap) ∧ Arranged s' d' f (A ++ .table t' :: B) ∧
      t'.table = { t.table with rows := t.table.rows - 1, cells := t'.table.cells } ∧ Tiled t'.grid ∧
      (∀ r k ps, r ≠ idx → t.shows r k ps → t'.shows (if r < idx then r else r - 1) k ps) ∧
      d' = { d with frames := d'.frames, blockCount := d.blockCount - (t.cells.length - t'.cells.length) } ∧ s'.lists = s.lists ∧
      SameContent (s'.restoreUndo snap) s ∧ OnlyDocument s' d' ∧
      (Tabled s d f (A ++ .table t :: B) → t.bare → Tabled s' d' f (A ++ .table t' :: B)) := by
  obtain ⟨g', q1, q2, q3, q4⟩ := C38_remove_row ht h0 h1 h2
  obtain ⟨s', d', t', e1, e3, e4, e5, e6, e7⟩ := h.removeRow hdocs q1 q4.apart
  have hg := q1
  unfold Verif.removeRow at hg
  rw [if_neg (by show ¬ (idx < 0 ∨ idx ≥ t.table.rows); omega), if_neg (by show ¬ (t.table.rows ≤ 1); omega)] at hg
  simp only [Option.some.injEq] at hg
  refine ⟨s', d', t', _, e1, e4, by rw [e3.table, ← hg]; rfl, e3.tiled q4, ?_, ?_, e6, (C27_undo_snapshot s s').1,
    ((hdocs.docsIn h.document).removeTableRow e1).only (by rw [e5]), e7⟩
  · rintro r k ps hr ⟨c, hc, hv, rfl⟩
    have hcg : c.cell ∈ t.grid.cells := List.mem_map_of_mem hc
    have b := ht.cells.span _ hcg
    rw [covers_iff] at hv
    cases hu : rowUnshift idx c.cell with
    | none => have := rowUnshift_none.mp hu; omega
    | some e =>
      obtain ⟨u1, u2, u3, u4⟩ := rowUnshift_cases hu
      refine e3.shows_old hc (e := e) (by rw [← hg]; exact List.mem_filterMap.mpr ⟨_, hcg, hu⟩) u1 ?_
      rw [covers_iff]
      rcases u4 with u | u | u | u
      · split <;> omega
      · split <;> omega
      · split <;> omega
      · obtain ⟨_, _, _, rfl⟩ := u; split <;> omega
  · rw [e5, ← e3.cells.length_eq, List.length_map]

theorem columnUnshift_none {idx : Int} {c : TableCell} : columnUnshift idx c = none ↔ c.column = idx ∧ c.columnSpan = 1 := by
  rw [← columnUnshift_flip, Option.map_eq_none_iff, rowUnshift_none]; rfl

/-- The same for a column; its width goes with it. -/
theorem C82_remove_column_partial (h : Arranged s d f (A ++ .table t :: B)) (hdocs : OnlyDocument s d) (ht : Tiled t.grid) {idx : Int}
    (h0 : 0 ≤ idx) (h1 : idx < t.table.columns) (h2 : 2 ≤ t.table.columns) :
    ∃ s' d' t' snap, s.removeTableColumn t.table.id idx = some (s', snap) ∧ Arranged s' d' f (A ++ .table t' :: B) ∧
      t'.table = { t.table with
        columns := t.table.columns - 1, cells := t'.table.cells, columnWidths := t.table.columnWidths.eraseIdx idx.toNat } ∧
      Tiled t'.grid ∧
      (∀ r k ps, k ≠ idx → t.shows r k ps → t'.shows r (if k < idx then k else k - 1) ps) ∧
      d' = { d with frames := d'.frames, blockCount := d.blockCount - (t.cells.length - t'.cells.length) } ∧ s'.lists = s.lists ∧
      SameContent (s'.restoreUndo snap) s ∧ OnlyDocument s' d' ∧
      (Tabled s d f (A ++ .table t :: B) → t.bare → Tabled s' d' f (A ++ .table t' :: B)) := by
  obtain ⟨g', q1, q2, q3, q4⟩ := C38_remove_column ht h0 h1 h2
  obtain ⟨s', d', t', e1, e3, e4, e5, e6, e7⟩ := h.removeColumn hdocs q1 q4.apart
  have hg := q1
  have hw : (t.table.columnWidths.length : Int) = t.table.columns := ht.widths
  unfold Verif.removeColumn at hg
  rw [if_neg (by show ¬ (t.table.columns ≤ 1); omega), if_neg (by show ¬ (idx < 0 ∨ idx ≥ t.table.columns); omega),
    if_pos (by show idx.toNat < t.table.columnWidths.length; omega)] at hg
  simp only [Option.some.injEq] at hg
  refine ⟨s', d', t', _, e1, e4, by rw [e3.table, ← hg]; rfl, e3.tiled q4, ?_, ?_, e6, (C27_undo_snapshot s s').1,
    ((hdocs.docsIn h.document).removeTableColumn e1).only (by rw [e5]), e7⟩
  · rintro r k ps hr ⟨c, hc, hv, rfl⟩
    have hcg : c.cell ∈ t.grid.cells := List.mem_map_of_mem hc
    have b := ht.cells.span _ hcg
    rw [covers_iff] at hv
    cases hu : columnUnshift idx c.cell with
    | none => have := columnUnshift_none.mp hu; omega
    | some e =>
      have hu2 := hu
      rw [← columnUnshift_flip, Option.map_eq_some_iff] at hu2
      obtain ⟨e2, hu2, rfl⟩ := hu2
      obtain ⟨u1, u2, u3, u4⟩ := rowUnshift_cases hu2
      refine e3.shows_old hc (e := e2.flip) (by rw [← hg]; exact List.mem_filterMap.mpr ⟨_, hcg, hu⟩) u1 ?_
      rw [covers_iff]
      simp only [TableCell.flip] at u2 u3 u4 ⊢
      rcases u4 with u | u | u | u
      · split <;> omega
      · split <;> omega
      · split <;> omega
      · obtain ⟨_, _, _, rfl⟩ := u; simp only; split <;> omega
  · rw [e5, ← e3.cells.length_eq, List.length_map]

/-- **C82 (merge).** In every document of paragraphs and tables, any rectangle of single cells of a table
can be merged.  Then every place of the rectangle shows what its first place showed, under the same cell,
which the command names; the other places show what they showed, and the cells again fill the table.
Nothing else of the document changes, and undo gives the document back.  Missing: the paragraphs of
the other cells of the rectangle are lost (`C82_merge_text_fails`), and the stored positions. -/
theorem C82_merge_partial (h : Arranged s d f (A ++ .table t :: B)) (hdocs : OnlyDocument s d) (ht : Tiled t.grid) {r0 c0 r1 c1 : Int}
    (hr0 : 0 ≤ r0) (hr : r0 ≤ r1) (hr1 : r1 < t.table.rows) (hc0 : 0 ≤ c0) (hc : c0 ≤ c1) (hc1 : c1 < t.table.columns)
    (hone : ∀ c ∈ t.cells, ∀ r k, r0 ≤ r → r ≤ r1 → c0 ≤ k → k ≤ c1 → c.cell.covers r k = true →
      c.cell.rowSpan = 1 ∧ c.cell.columnSpan = 1) :
    ∃ s' d' t' c snap, s.mergeTableCells t.table.id r0 c0 r1 c1 = some (s', c.cell.id, snap) ∧ Arranged s' d' f (A ++ .table t' :: B) ∧
      t'.table = { t.table with cells := t'.table.cells } ∧ Tiled t'.grid ∧
      c ∈ t.cells ∧ c.cell.covers r0 c0 = true ∧
      (∃ c' ∈ t'.cells, c'.cell = { c.cell with rowSpan := r1 - r0 + 1, columnSpan := c1 - c0 + 1 } ∧ c'.paras = c.paras) ∧
      (∀ r k, r0 ≤ r → r ≤ r1 → c0 ≤ k → k ≤ c1 → t'.shows r k c.paras) ∧
      (∀ r k ps, ¬ (r0 ≤ r ∧ r ≤ r1 ∧ c0 ≤ k ∧ k ≤ c1) → t.shows r k ps → t'.shows r k ps) ∧
      d' = { d with frames := d'.frames, blockCount := d.blockCount - (t.cells.length - t'.cells.length) } ∧ s'.lists = s.lists ∧
      SameContent (s'.restoreUndo snap) s ∧ OnlyDocument s' d' ∧
      (Tabled s d f (A ++ .table t :: B) → t.bare → Tabled s' d' f (A ++ .table t' :: B)) := by
  have hspan : ∀ c ∈ t.cells, startsInside r0 c0 r1 c1 c.cell = true → c.cell.rowSpan = 1 ∧ c.cell.columnSpan = 1 := by
    intro c hc hi
    rw [startsInside_iff] at hi
    have := ht.cells.span c.cell (List.mem_map_of_mem hc)
    exact hone c hc c.cell.row c.cell.column (by omega) (by omega) (by omega) (by omega) (by rw [covers_iff]; omega)
  have hcl : t.grid.rangeClosed r0 c0 r1 c1 := by
    intro e he r k a b c e' hv
    obtain ⟨x, hx, rfl⟩ := List.mem_map.mp he
    have := hone x hx r k a b c e' hv
    rw [covers_iff] at hv
    rw [startsInside_iff]; omega
  obtain ⟨g', hg⟩ : ∃ g', Verif.mergeCells t.grid r0 c0 r1 c1 = some g' := by
    unfold Verif.mergeCells
    rw [if_neg (by omega), if_neg (by omega), if_neg (by show ¬ (r0 < 0 ∨ r1 ≥ t.table.rows ∨ c0 < 0 ∨ c1 ≥ t.table.columns); omega)]
    dsimp only
    rw [if_neg]
    · have := ht.cells.once r0 c0 hr0 (by show r0 < t.table.rows; omega) hc0 (by show c0 < t.table.columns; omega)
      obtain ⟨e, he⟩ := List.length_eq_one_iff.mp this
      have he : e ∈ t.grid.cells.filter fun c => c.covers r0 c0 := by rw [he]; exact List.mem_singleton_self _
      rw [List.mem_filter] at he
      obtain ⟨x, hx, rfl⟩ := List.mem_map.mp he.1
      have h1 := hone x hx r0 c0 (by omega) hr (by omega) hc he.2
      have h2 := covers_iff.mp he.2
      cases hfi : (t.grid.cells.filter (startsInside r0 c0 r1 c1)).find? fun c => decide (c.row = r0 ∧ c.column = c0) with
      | some z => exact ⟨_, rfl⟩
      | none =>
        rw [List.find?_eq_none] at hfi
        exact absurd (decide_eq_true (by omega)) (hfi x.cell (List.mem_filter.mpr ⟨he.1, startsInside_iff.mpr (by omega)⟩))
    · rw [List.any_eq_true]
      rintro ⟨e, he, hx⟩
      rw [List.mem_filter] at he
      obtain ⟨x, hx2, rfl⟩ := List.mem_map.mp he.1
      have := hspan x hx2 he.2
      have := of_decide_eq_true hx
      omega
  obtain ⟨q2, q3, q4, _⟩ := C38_merge_partial ht hg hcl
  obtain ⟨s', d', t', c, e1, hcm, hcr, hcc, e3, e4, e5, e6, e7⟩ := h.mergeCells hdocs hg
  have hcv : c.cell.covers r0 c0 = true := by
    have := ht.cells.span c.cell (List.mem_map_of_mem hcm)
    rw [covers_iff]; omega
  have hids : (t.grid.cells.map fun c => c.id).Nodup := ht.cells.ids
  have hg2 := hg
  unfold Verif.mergeCells at hg2
  rw [if_neg (by omega), if_neg (by omega), if_neg (by show ¬ (r0 < 0 ∨ r1 ≥ t.table.rows ∨ c0 < 0 ∨ c1 ≥ t.table.columns); omega)] at hg2
  dsimp only at hg2
  split at hg2
  · cases hg2
  rw [Option.map_eq_some_iff] at hg2
  obtain ⟨surv, hsv, hg2⟩ := hg2
  have hsm := List.mem_of_find?_eq_some hsv
  have hsp := List.find?_some hsv
  simp only [decide_eq_true_eq] at hsp
  have hsc := (List.mem_filter.mp hsm).1
  have hce : surv = c.cell := by
    have h1 := ht.cells.once r0 c0 hr0 (by show r0 < t.table.rows; omega) hc0 (by show c0 < t.table.columns; omega)
    obtain ⟨e, he⟩ := List.length_eq_one_iff.mp h1
    have a1 : surv ∈ t.grid.cells.filter fun c => c.covers r0 c0 := by
      have := ht.cells.span _ hsc
      exact List.mem_filter.mpr ⟨hsc, covers_iff.mpr (by omega)⟩
    have a2 : c.cell ∈ t.grid.cells.filter fun c => c.covers r0 c0 := List.mem_filter.mpr ⟨List.mem_map_of_mem hcm, hcv⟩
    rw [he, List.mem_singleton] at a1 a2
    rw [a1, a2]
  subst hce
  have hnew : ({ c.cell with rowSpan := r1 - r0 + 1, columnSpan := c1 - c0 + 1 } : TableCell) ∈ g'.cells := by
    rw [← hg2]
    exact List.mem_map.mpr ⟨c.cell, List.mem_filter.mpr ⟨hsc, by simp⟩, by rw [if_pos rfl]⟩
  refine ⟨s', d', t', c, _, e1, e4, by rw [e3.table, ← hg2]; rfl, e3.tiled q4, hcm, hcv, ?_, ?_, ?_, ?_, e6, (C27_undo_snapshot s s').1,
    ((hdocs.docsIn h.document).mergeTableCells e1).only (by rw [e5]), e7⟩
  · obtain ⟨c', hc', e⟩ := List.mem_map.mp (e3.cells.mem_iff.mpr hnew)
    exact ⟨c', hc', e, (e3.old c' hc' c hcm (by rw [e])).1⟩
  · intro r k a1 a2 a3 a4
    refine e3.shows_old hcm hnew rfl ?_
    rw [covers_iff]; simp only; omega
  · rintro r k ps hout ⟨x, hx, hv, rfl⟩
    have hxg : x.cell ∈ t.grid.cells := List.mem_map_of_mem hx
    have hns : startsInside r0 c0 r1 c1 x.cell = false := by
      cases hi : startsInside r0 c0 r1 c1 x.cell with
      | false => rfl
      | true =>
        have := hspan x hx hi
        rw [startsInside_iff] at hi
        rw [covers_iff] at hv
        omega
    have hne : x.cell.id ≠ c.cell.id := by
      intro e
      rw [eq_of_id hids hxg hsc e, startsInside_iff.mpr (by omega)] at hns
      cases hns
    refine e3.shows_old hx (e := x.cell) ?_ rfl hv
    rw [← hg2]
    exact List.mem_map.mpr ⟨x.cell, List.mem_filter.mpr ⟨hxg, by rw [hns]; rfl⟩, by rw [if_neg hne]⟩
  · rw [e5, ← e3.cells.length_eq, List.length_map]

theorem subCells_head {c : TableCell} {sr sc : Int} (h1 : 1 ≤ sr) (h2 : 1 ≤ sc) :
    ∃ rest, subCells c sr sc = (c.row, c.column, firstPart c.rowSpan sr, firstPart c.columnSpan sc) :: rest := by
  have hq : ∀ n m : Int, 1 ≤ m → n / m + (if (0 : Int) < n % m then 1 else 0) = firstPart n m := by
    intro n m hm
    have := Int.emod_nonneg n (show m ≠ 0 by omega)
    unfold firstPart
    by_cases e : n % m = 0
    · rw [if_pos e, if_neg (by omega)]
    · rw [if_neg e, if_pos (by omega)]
  unfold subCells
  obtain ⟨n, hn⟩ : ∃ n, sr.toNat = n + 1 := ⟨sr.toNat - 1, by omega⟩
  obtain ⟨m, hm⟩ : ∃ m, sc.toNat = m + 1 := ⟨sc.toNat - 1, by omega⟩
  rw [hn, hm]
  simp only [splitParts, List.flatMap_cons, List.map_cons, List.cons_append]
  rw [hq _ _ h1, hq _ _ h2]
  exact ⟨_, rfl⟩

theorem Tiled.same {g : Grid} (h : Tiled g) {a b : TableCell} (ha : a ∈ g.cells) (hb : b ∈ g.cells) {r k : Int}
    (h1 : a.covers r k = true) (h2 : b.covers r k = true) : a = b := by
  have i1 := h.cells.inside a ha
  rw [covers_iff] at h1
  have := h.cells.once r k (by omega) (by omega) (by omega) (by omega)
  obtain ⟨e, he⟩ := List.length_eq_one_iff.mp this
  have a1 : a ∈ g.cells.filter fun c => c.covers r k := List.mem_filter.mpr ⟨ha, covers_iff.mpr h1⟩
  have a2 : b ∈ g.cells.filter fun c => c.covers r k := List.mem_filter.mpr ⟨hb, h2⟩
  rw [he, List.mem_singleton] at a1 a2
  rw [a1, a2]

theorem Tiled.covered {g : Grid} (h : Tiled g) {r k : Int} (h1 : 0 ≤ r) (h2 : r < g.rows) (h3 : 0 ≤ k) (h4 : k < g.columns) :
    ∃ a ∈ g.cells, a.covers r k = true := by
  obtain ⟨e, he⟩ := List.length_eq_one_iff.mp (h.cells.once r k h1 h2 h3 h4)
  have : e ∈ g.cells.filter fun c => c.covers r k := by rw [he]; exact List.mem_singleton_self _
  exact ⟨e, List.mem_filter.mp this⟩

theorem newCells_inside {cell : TableCell} {sr sc : Int} (h1 : 1 ≤ sr) (h2 : sr ≤ cell.rowSpan) (h3 : 1 ≤ sc) (h4 : sc ≤ cell.columnSpan) :
    ∀ p ∈ subCells cell sr sc, cell.row ≤ p.1 ∧ 1 ≤ p.2.2.1 ∧ p.1 + p.2.2.1 ≤ cell.row + cell.rowSpan ∧
      cell.column ≤ p.2.1 ∧ 1 ≤ p.2.2.2 ∧ p.2.1 + p.2.2.2 ≤ cell.column + cell.columnSpan := by
  obtain ⟨hb1, ht1⟩ := partsTotal_span h1 h2
  obtain ⟨hb2, ht2⟩ := partsTotal_span h3 h4
  intro p hp
  simp only [subCells, List.mem_flatMap, List.mem_map] at hp
  obtain ⟨a, ha, b, hb, rfl⟩ := hp
  have := splitParts_mem hb1 _ _ _ ha
  have := splitParts_mem hb2 _ _ _ hb
  simp only; omega

/-- **C82 (split).** In every document of paragraphs and tables, any merged cell can be cut into as many
rows and columns of parts as it has rows and columns or fewer.  The first part, the largest, keeps the paragraphs and the
cell, each other part is a new cell with one empty paragraph, the other places show what they showed, and
the cells again fill the table.  The command names the first part and then the new cells.  Nothing
else of the document changes, and undo gives the document back.  Missing: the stored positions. -/
theorem C82_split_partial (h : Arranged s d f (A ++ .table t :: B)) (ht : Tiled t.grid) {c : SCell} (hc : c ∈ t.cells) {sr sc : Int}
    (hr1 : 1 ≤ sr) (hr2 : sr ≤ c.cell.rowSpan) (hc1 : 1 ≤ sc) (hc2 : sc ≤ c.cell.columnSpan)
    (hm : ¬ (c.cell.rowSpan = 1 ∧ c.cell.columnSpan = 1)) :
    ∃ s' d' t' ids snap, s.splitTableCell c.cell.id sr sc = some (s', c.cell.id :: ids, snap) ∧ Arranged s' d' f (A ++ .table t' :: B) ∧
      t'.table = { t.table with cells := t'.table.cells } ∧ Tiled t'.grid ∧
      (t'.cells.length : Int) = t.cells.length + sr * sc - 1 ∧ (ids.length : Int) = sr * sc - 1 ∧
      (∀ c' ∈ t'.cells, c'.cell.id ∈ c.cell.id :: ids ↔ c.cell.covers c'.cell.row c'.cell.column = true) ∧
      (∀ r k, c.cell.covers r k = true →
        if r < c.cell.row + firstPart c.cell.rowSpan sr ∧ k < c.cell.column + firstPart c.cell.columnSpan sc then t'.shows r k c.paras
        else t'.showsNothing r k) ∧
      (∀ r k ps, c.cell.covers r k = false → t.shows r k ps → t'.shows r k ps) ∧
      d' = { d with frames := d'.frames, blockCount := d.blockCount + (sr * sc - 1) } ∧ s'.lists = s.lists ∧
      SameContent (s'.restoreUndo snap) s ∧ (OnlyDocument s d → OnlyDocument s' d') ∧
      (Tabled s d f (A ++ .table t :: B) → t.blank → Tabled s' d' f (A ++ .table t' :: B)) := by
  obtain ⟨rest, hsub⟩ := subCells_head (c := c.cell) hr1 hc1
  have hf := h.freshFor
  have hcg : c.cell ∈ t.grid.cells := List.mem_map_of_mem hc
  obtain ⟨g', hg, hgc⟩ : ∃ g', Verif.splitCell t.grid c.cell.id sr sc s.freshCell = some g' ∧ g' = { t.grid with
      cells := (t.grid.cells.map fun x => if x.id = c.cell.id then
        { c.cell with rowSpan := firstPart c.cell.rowSpan sr, columnSpan := firstPart c.cell.columnSpan sc } else x) ++
        newCells s.freshCell 0 rest } := by
    unfold Verif.splitCell
    rw [if_neg (by omega), h.findCell hc, Option.bind_some, if_neg (by omega), if_neg (by omega), if_neg (by omega), hsub]
    exact ⟨_, rfl, rfl⟩
  obtain ⟨q2, q3, q4, q5⟩ := C38_split ht hf hg
  obtain ⟨s', d', t', e1, e3, e4, e5, e6, e7⟩ := h.splitCell hc hg q4.apart
  have hin := newCells_inside hr1 hr2 hc1 hc2
  rw [hsub] at hin
  have hfirst := hin _ (List.mem_cons_self ..)
  simp only at hfirst
  have hmine : ({ c.cell with rowSpan := firstPart c.cell.rowSpan sr, columnSpan := firstPart c.cell.columnSpan sc } : TableCell) ∈ g'.cells := by
    rw [hgc]
    exact List.mem_append.mpr (.inl (List.mem_map.mpr ⟨c.cell, hcg, by rw [if_pos rfl]⟩))
  have hids : g'.cells.drop t.cells.length = newCells s.freshCell 0 rest := by
    rw [hgc]
    show List.drop t.cells.length ((t.grid.cells.map _) ++ _) = _
    rw [List.drop_append, List.drop_eq_nil_of_le (by simp [STable.grid])]
    simp [STable.grid]
  -- the cells of the new grid
  have hcases : ∀ e ∈ g'.cells, e = { c.cell with rowSpan := firstPart c.cell.rowSpan sr, columnSpan := firstPart c.cell.columnSpan sc } ∨
      (e ∈ t.grid.cells ∧ e.id ≠ c.cell.id) ∨ e ∈ newCells s.freshCell 0 rest := by
    intro e he
    rw [hgc] at he
    rcases List.mem_append.mp he with he | he
    · obtain ⟨x, hx, rfl⟩ := List.mem_map.mp he
      split
      · exact .inl rfl
      · exact .inr (.inl ⟨hx, by assumption⟩)
    · exact .inr (.inr he)
  have hfresh : ∀ e ∈ newCells s.freshCell 0 rest, ∀ x ∈ t.cells, e.id ≠ x.cell.id := by
    intro e he x hx
    obtain ⟨j, p, _, _, rfl⟩ := newCells_mem he
    exact (hf.new j x.cell (List.mem_map_of_mem hx)).symm
  have hlen : (t'.cells.length : Int) = t.cells.length + sr * sc - 1 := by
    have := e3.cells.length_eq
    rw [List.length_map] at this
    rw [this, q5]; simp [STable.grid]
  have hgl : (g'.cells.length : Int) = t.cells.length + sr * sc - 1 := by rw [q5]; simp [STable.grid]
  refine ⟨s', d', t', _, _, e1, e4, by rw [e3.table, hgc]; rfl, e3.tiled q4, hlen, ?_, ?_, ?_, ?_, ?_, e6, (C27_undo_snapshot s s').1,
    fun ho => ((ho.docsIn h.document).splitTableCell e1).only (by rw [e5]), e7⟩
  · rw [List.length_map, List.length_drop]
    have : 1 ≤ sr * sc := Int.le_trans (by omega) (Int.mul_le_mul hr1 hc1 (by omega) (by omega))
    omega
  · intro c' hc'
    have he : c'.cell ∈ g'.cells := e3.cells.mem_iff.mp (List.mem_map_of_mem hc')
    rw [hids, List.mem_cons]
    rcases hcases _ he with e | ⟨e, hne⟩ | e
    · rw [e]
      refine ⟨fun _ => covers_iff.mpr ?_, fun _ => .inl rfl⟩
      simp only
      omega
    · constructor
      · rintro (a | a)
        · exact absurd a hne
        · obtain ⟨y, hy, hy2⟩ := List.mem_map.mp a
          obtain ⟨x, hx, hx2⟩ := List.mem_map.mp e
          exact absurd (hy2.trans (by rw [hx2])) (hfresh y hy x hx)
      · intro a
        have hs := ht.cells.span _ e
        exact absurd (congrArg TableCell.id (ht.same e hcg (covers_iff.mpr (by omega)) a)) hne
    · constructor
      · intro _
        obtain ⟨j, p, _, hp, e2⟩ := newCells_mem e
        have := hin p (List.mem_cons_of_mem _ hp)
        rw [e2, covers_iff]
        simp only [newCell]; omega
      · intro _
        exact .inr (List.mem_map_of_mem e)
  · intro r k hv
    have hv2 := covers_iff.mp hv
    split
    · rename_i hlt
      refine e3.shows_old hc hmine rfl ?_
      rw [covers_iff]; simp only; omega
    · rename_i hlt
      have hi := ht.cells.inside _ hcg
      obtain ⟨e, he, hev⟩ := q4.covered (r := r) (k := k) (by omega) (by omega) (by omega) (by omega)
      rcases hcases _ he with e' | ⟨e', hne⟩ | e'
      · rw [e', covers_iff] at hev
        simp only at hev
        omega
      · exact absurd (congrArg TableCell.id (ht.same e' hcg hev hv)) hne
      · exact e3.shows_new he (hfresh e e') hev
  · rintro r k ps hv ⟨x, hx, hxv, rfl⟩
    have hxg : x.cell ∈ t.grid.cells := List.mem_map_of_mem hx
    have hne : x.cell.id ≠ c.cell.id := by
      intro e
      rw [eq_of_id ht.cells.ids hxg hcg e, hv] at hxv
      cases hxv
    refine e3.shows_old hx (e := x.cell) ?_ rfl hxv
    rw [hgc]
    exact List.mem_append.mpr (.inl (List.mem_map.mpr ⟨x.cell, hxg, by rw [if_neg hne]⟩))
  · rw [e5]
    have : (g'.cells.length : Int) - t.cells.length = sr * sc - 1 := by omega
    rw [this]

/-- Lines that are not in the table, the last row and the last column, rectangles that are reversed, leave
the table or hold a merged cell, and parts that are not there are refused. -/
theorem C82_refused (h : Arranged s d f (A ++ .table t :: B)) :
    (∀ idx, idx < 0 ∨ t.table.rows < idx → s.insertTableRow t.table.id idx = none) ∧
    (∀ idx, idx < 0 ∨ t.table.columns < idx → s.insertTableColumn t.table.id idx = none) ∧
    (∀ idx, idx < 0 ∨ t.table.rows ≤ idx ∨ t.table.rows ≤ 1 → s.removeTableRow t.table.id idx = none) ∧
    (∀ idx, idx < 0 ∨ t.table.columns ≤ idx ∨ t.table.columns ≤ 1 → s.removeTableColumn t.table.id idx = none) ∧
    (∀ r0 c0 r1 c1, (r1 < r0 ∨ c1 < c0 ∨ r0 < 0 ∨ c0 < 0 ∨ t.table.rows ≤ r1 ∨ t.table.columns ≤ c1 ∨
        ∃ c ∈ t.cells, r0 ≤ c.cell.row ∧ c.cell.row ≤ r1 ∧ c0 ≤ c.cell.column ∧ c.cell.column ≤ c1 ∧ (1 < c.cell.rowSpan ∨ 1 < c.cell.columnSpan)) →
      s.mergeTableCells t.table.id r0 c0 r1 c1 = none) ∧
    (∀ c ∈ t.cells, ∀ sr sc, (sr < 1 ∨ sc < 1 ∨ c.cell.rowSpan < sr ∨ c.cell.columnSpan < sc ∨
        (c.cell.rowSpan = 1 ∧ c.cell.columnSpan = 1)) → s.splitTableCell c.cell.id sr sc = none) := by
  have ht : t ∈ tablesOf (A ++ .table t :: B) := by rw [tables_at]; simp
  have hT := h.table t ht
  refine ⟨?_, ?_, ?_, ?_, ?_, ?_⟩
  · intro idx hi
    unfold Store.insertTableRow
    rw [h.docId, Option.bind_some, h.document, Option.bind_some, hT.table, Option.bind_some, if_pos (by omega)]
  · intro idx hi
    unfold Store.insertTableColumn
    rw [h.docId, Option.bind_some, h.document, Option.bind_some, hT.table, Option.bind_some, if_pos (by omega)]
  · intro idx hi
    unfold Store.removeTableRow
    rw [h.docId, Option.bind_some, h.document, Option.bind_some, hT.table, Option.bind_some]
    split
    · rfl
    · rw [if_pos (by omega)]
  · intro idx hi
    unfold Store.removeTableColumn
    rw [h.docId, Option.bind_some, h.document, Option.bind_some, hT.table, Option.bind_some]
    split
    · rfl
    · rw [if_pos (by omega)]
  · intro r0 c0 r1 c1 hi
    unfold Store.mergeTableCells
    rw [h.docId, Option.bind_some, h.document, Option.bind_some, hT.table, Option.bind_some]
    split
    · rfl
    split
    · rfl
    split
    · rfl
    rename_i a1 a2 a3
    have hi : ∃ c ∈ t.cells, r0 ≤ c.cell.row ∧ c.cell.row ≤ r1 ∧ c0 ≤ c.cell.column ∧ c.cell.column ≤ c1 ∧
        (1 < c.cell.rowSpan ∨ 1 < c.cell.columnSpan) := by
      rcases hi with hi | hi | hi | hi | hi | hi | hi
      · omega
      · omega
      · omega
      · omega
      · omega
      · omega
      · exact hi
    obtain ⟨c, hc, b1, b2, b3, b4, b5⟩ := hi
    dsimp only
    rw [if_pos]
    rw [List.any_eq_true]
    refine ⟨c.cell, List.mem_filter.mpr ⟨(h.cells_read ht).mem_iff.mpr (List.mem_map_of_mem hc), startsInside_iff.mpr (by omega)⟩, ?_⟩
    exact decide_eq_true (by omega)
  · intro c hc sr sc hi
    unfold Store.splitTableCell
    split
    · rfl
    rw [(hT.cell c hc).1, Option.bind_some]
    split
    · rfl
    split
    · rfl
    · rw [if_pos (by omega)]

/-- A table that was just inserted (C67) meets the conditions of the theorems above: its cells are single,
each with one empty paragraph, and fill it. -/
theorem C82_inserted (h : Tabled s d f (A ++ .table t :: B)) {rows columns : Nat} (he : EmptyTable t rows columns)
    (hr : 1 ≤ rows) (hc : 1 ≤ columns) :
    Tiled t.grid ∧ t.bare ∧ t.table.rows = rows ∧ t.table.columns = columns ∧ ∀ c ∈ t.cells, c.cell.rowSpan = 1 ∧ c.cell.columnSpan = 1 := by
  have ht : t ∈ tablesOf (A ++ .table t :: B) := by rw [tables_at]; simp
  have hs := C74_inserted_sound h ht he hr hc
  have e1 : t.table.rows = rows := by rw [he.table]
  have e2 : t.table.columns = columns := by rw [he.table]
  have e3 : t.table.columnWidths = List.replicate columns 0 := by rw [he.table]
  refine ⟨⟨hs.rows, hs.columns, hs.tiling, ?_⟩, ⟨?_, ?_⟩, e1, e2, ?_⟩
  · show (t.table.columnWidths.length : Int) = t.table.columns
    rw [e3, e2, List.length_replicate]
  · intro e
    have := he.places
    rw [e] at this
    have hm : (((0 : Nat) : Int), ((0 : Nat) : Int)) ∈ (List.range rows).flatMap fun r : Nat => (List.range columns).map fun c : Nat => ((r : Int), (c : Int)) :=
      List.mem_flatMap.mpr ⟨0, List.mem_range.mpr (by omega), List.mem_map.mpr ⟨0, List.mem_range.mpr (by omega), rfl⟩⟩
    rw [← this] at hm
    cases hm
  · intro c hcm
    obtain ⟨i, h1, _⟩ := he.cells c hcm
    exact ⟨i, _, h1⟩
  · intro c hcm
    obtain ⟨i, _, h1⟩ := he.cells c hcm
    rw [h1]; exact ⟨rfl, rfl⟩

/-- In every loaded document there is only one document, also after tables were inserted. -/
theorem C82_only_document (text : List Char) {s s' : Store} {d d' : Document} (h : (Store.newStore.bind fun s => s.importPlainText text) = some s)
    {position anchor rows columns : Int} {i : Nat} {c : Int} {snap : Snapshot}
    (hi : s.insertTable position anchor rows columns = some (s', i, c, snap)) (e : d.id = 1) (e' : d'.id = 1) :
    OnlyDocument s d ∧ OnlyDocument s' d' := by
  rw [Option.bind_eq_some_iff] at h
  obtain ⟨s0, h0, h1⟩ := h
  have k := (newStore_docsIn h0).importPlainText h1
  rw [← e] at k
  exact ⟨k.only rfl, (k.insertTable hi).only (by rw [e, e'])⟩

/-- The hypotheses of all theorems above are met: in "ab", a table of two rows and columns, "cd" the four cells
are merged, the cell is split again, a row is added at the top, a column at the left, the first row and the last column are
removed. -/
example : ∃ (s : Store) (d : Document) (t : STable) (A B : List SItem) (s1 s2 s3 s4 s5 s6 : Store) (i : Nat) (ids : List Nat)
    (p1 p2 p3 p4 p5 p6 : Snapshot), Tabled s d 2 (A ++ .table t :: B) ∧ OnlyDocument s d ∧ Tiled t.grid ∧ t.bare ∧
    s.mergeTableCells t.table.id 0 0 1 1 = some (s1, i, p1) ∧ s1.splitTableCell i 2 1 = some (s2, ids, p2) ∧
    s2.insertTableRow t.table.id 0 = some (s3, p3) ∧ s3.insertTableColumn t.table.id 0 = some (s4, p4) ∧
    s4.removeTableRow t.table.id 0 = some (s5, p5) ∧ s5.removeTableColumn t.table.id 2 = some (s6, p6) := by
  obtain ⟨s0, d0, e0, hd, h, _⟩ := import_tabled "ab\ncd".toList
  have e : (linesFrom 2 (Store.splitLines (unixText "ab\ncd".toList))).map SItem.para =
      [] ++ .para ⟨2, [('a', none), ('b', none)], {}⟩ :: [.para ⟨3, [('c', none), ('d', none)], {}⟩] := by rfl
  rw [e] at h
  obtain ⟨s, d, t, _, hi, he, h2, hdd, _⟩ := C67_insert_table h 1 1 2 2 1 (by decide) (by decide) (by decide) (by decide)
  have h2 : Tabled s d 2 ([.para ⟨2, [('a', none), ('b', none)], {}⟩] ++ .table t :: [.para ⟨3, [('c', none), ('d', none)], {}⟩]) := h2
  obtain ⟨ht, hb, hrows, hcols, hone⟩ := C82_inserted h2 he (by decide) (by decide)
  have ho := (C82_only_document _ e0 hi hd (d' := d) (by rw [hdd]; exact hd)).2
  obtain ⟨s1, d1, t1, c, p1, m1, m2, m3, m4, m5, m6, ⟨c', n1, n2, n3⟩, _, _, _, _, _, m7, _⟩ :=
    C82_merge_partial h2.arranged ho ht (r0 := 0) (c0 := 0) (r1 := 1) (c1 := 1) (by decide) (by decide) (by omega) (by decide) (by decide)
      (by omega) (fun x hx _ _ _ _ _ _ _ => hone x hx)
  have k1 : t1.table.id = t.table.id := by rw [m3]
  have hc' : c'.cell.id = c.cell.id := by rw [n2]
  have hs1 : c'.cell.rowSpan = 2 := by rw [n2]; rfl
  have hs2 : c'.cell.columnSpan = 2 := by rw [n2]; rfl
  obtain ⟨s2, d2, t2, ids, p2, q1, q2, q3, q4, _, _, _, _, _, _, _, _, q5, _⟩ :=
    C82_split_partial m2 m4 n1 (sr := 2) (sc := 1) (by decide) (by rw [hs1]; decide) (by decide) (by rw [hs2]; decide)
      (by rw [hs1]; omega)
  have k2 : t2.table.id = t.table.id := by rw [q3]; exact k1
  have hr2 : t2.table.rows = 2 ∧ t2.table.columns = 2 := by rw [q3, m3]; exact ⟨hrows, hcols⟩
  obtain ⟨s3, d3, t3, p3, u1, u2, u3, u4, _, _, _, _, _, u5, _⟩ := C82_insert_row_partial q2 q4 (idx := 0) (by decide) (by omega)
    (fun c hc => by have := q4.cells.inside c hc; omega)
  have k3 : t3.table.id = t.table.id := by rw [u3]; exact k2
  have hr3 : t3.table.rows = 3 ∧ t3.table.columns = 2 := by rw [u3]; exact ⟨by show t2.table.rows + 1 = 3; omega, hr2.2⟩
  obtain ⟨s4, d4, t4, p4, v1, v2, v3, v4, _, _, _, _, _, v5, _⟩ := C82_insert_column_partial u2 u4 (idx := 0) (by decide) (by omega)
    (fun c hc => by have := u4.cells.inside c hc; omega)
  have k4 : t4.table.id = t.table.id := by rw [v3]; exact k3
  have hr4 : t4.table.rows = 3 ∧ t4.table.columns = 3 := by rw [v3]; exact ⟨hr3.1, by show t3.table.columns + 1 = 3; omega⟩
  obtain ⟨s5, d5, t5, p5, w1, w2, w3, w4, _, _, _, _, w5, _⟩ := C82_remove_row_partial v2 (v5 (u5 (q5 m7))) v4 (idx := 0) (by decide) (by omega) (by omega)
  have k5 : t5.table.id = t.table.id := by rw [w3]; exact k4
  have hr5 : t5.table.columns = 3 := by rw [w3]; exact hr4.2
  obtain ⟨s6, d6, t6, p6, x1, _⟩ := C82_remove_column_partial w2 w5 w4 (idx := 2) (by decide) (by omega) (by omega)
  exact ⟨s, d, t, _, _, s1, s2, s3, s4, s5, s6, _, _, p1, p2, p3, p4, p5, p6, h2, ho, ht, hb, m1, hc' ▸ q1, k2 ▸ u1, k3 ▸ v1, k4 ▸ w1, k5 ▸ x1⟩

/-- **C82 (remove a table).** In every document of paragraphs and tables, any table can be removed, whatever its
cells hold.  The document then consists of what was before and behind the table: neither the table nor its cells,
their frames or their paragraphs are left.  The number of paragraphs goes down by those of the cells; nothing
else of the document changes, and undo gives the document back.  It is required that the table is not the end of the stored
text (its own cells not counted), or that no other paragraph is empty: see `C13_remove_fails`.
Missing: the number of characters and the stored positions, which are right afterwards only if the cells
of the table are empty (`C82_remove_table_counts_fails`). -/
theorem C82_remove_table_partial (h : Arranged s d f (A ++ .table t :: B)) (hdocs : OnlyDocument s d)
    (hok : t.Followed s ∨ ∀ q ∈ flowParas (A ++ B), q.chars ≠ []) :
    ∃ s' d' snap, s.removeTable t.table.id = some (s', snap) ∧ Arranged s' d' f (A ++ B) ∧
      d' = { d with frames := d'.frames, tables := d'.tables, blockCount := d.blockCount - ((t.cells.flatMap SCell.paras).length : Int) } ∧
      s'.lists = s.lists ∧ SameContent (s'.restoreUndo snap) s ∧ OnlyDocument s' d' ∧
      (Tabled s d f (A ++ .table t :: B) → t.blank → Tabled s' d' f (A ++ B)) := by
  obtain ⟨s', d', e1, e2, e3, e4, e5, e6⟩ := h.removeTable hdocs hok
  exact ⟨s', d', _, e1, e2, e3, e4, (C27_undo_snapshot s s').1, e5, e6⟩

/-- **C82 (insert a table, remove it).** Removing a table just inserted outside the other tables leaves the document as it was: the same
paragraphs and tables in the same order, the same document record up to the order of the frames listed in it. -/
theorem C82_insert_remove_partial {p : SPara} (h : Tabled s d f (A ++ .para p :: B)) (hdocs : OnlyDocument s d) (position anchor : Int) (rows columns k : Nat)
    (hr : 1 ≤ rows) (hc : 1 ≤ columns) (hk : k ≤ p.chars.length)
    (hpos : min position anchor = (paraStart (flowParas (A ++ .para p :: B)) (flowParas A).length + k : Nat))
    (hfull : ∀ q ∈ flowParas (A ++ .para p :: B), q.chars ≠ []) :
    ∃ s1 i c snap1 s2 snap2 d2, s.insertTable position anchor rows columns = some (s1, i, c, snap1) ∧
      s1.removeTable i = some (s2, snap2) ∧ Tabled s2 d2 f (A ++ .para p :: B) ∧ s2.lists = s.lists ∧
      d2 = { d with frames := d2.frames, tables := d2.tables } := by
  obtain ⟨s1, d1, t, snap1, e1, he, h1, hd1, hl1, _⟩ := C67_insert_table h position anchor rows columns k hr hc hk hpos
  have ho1 : OnlyDocument s1 d1 := ((hdocs.docsIn h.document).insertTable e1).only (by rw [hd1])
  obtain ⟨X, Y, hXY, hXY'⟩ : ∃ X Y, (A ++ if k = 0 then .table t :: .para p :: B else .para p :: .table t :: B) = X ++ .table t :: Y ∧
      X ++ Y = A ++ .para p :: B := by
    split
    · exact ⟨A, _, rfl, rfl⟩
    · exact ⟨A ++ [.para p], B, by simp, by simp⟩
  rw [hXY] at h1
  obtain ⟨_, hb, _⟩ := C82_inserted h1 he hr hc
  obtain ⟨s2, d2, snap2, q1, q2, q3, q4, q5, q6, q7⟩ := C82_remove_table_partial h1.arranged ho1 (.inr (by rw [hXY']; exact hfull))
  rw [hXY'] at q7
  refine ⟨s1, _, _, snap1, s2, snap2, d2, e1, q1, q7 h1 hb.blank, q4.trans hl1, ?_⟩
  have hlen : ((t.cells.flatMap SCell.paras).length : Int) = rows * columns := by
    have h1 : ∀ l : List SCell, (∀ c ∈ l, c ∈ t.cells) → (l.flatMap SCell.paras).length = l.length := by
      intro l
      induction l with
      | nil => intro _; rfl
      | cons c l ih =>
        intro hl
        obtain ⟨i, e, _⟩ := he.cells c (hl c (by simp))
        rw [List.flatMap_cons, List.length_append, ih fun x hx => hl x (by simp [hx]), e]
        simp; omega
    have h2 := congrArg List.length he.places
    rw [List.length_map, List.length_flatMap] at h2
    simp only [List.length_map, List.length_range, List.map_const', List.sum_replicate_nat] at h2
    rw [h1 _ fun _ h => h, h2]
    push_cast
    rfl
  rw [hlen] at q3
  rw [q3, hd1]
  simp only
  rw [Int.add_sub_cancel]

/-- A table is inserted behind "a" of "ab" and removed: the document consists of "ab" and "cd" again. -/
example : ∃ s0 s1 i c snap1 s2 snap2 d2, (Store.newStore.bind fun s => s.importPlainText "ab\ncd".toList) = some s0 ∧
    s0.insertTable 1 1 2 2 = some (s1, i, c, snap1) ∧ s1.removeTable i = some (s2, snap2) ∧
    Tabled s2 d2 2 [.para ⟨2, [('a', none), ('b', none)], {}⟩, .para ⟨3, [('c', none), ('d', none)], {}⟩] := by
  obtain ⟨s0, d0, e0, hd, h, _⟩ := import_tabled "ab\ncd".toList
  have e : (linesFrom 2 (Store.splitLines (unixText "ab\ncd".toList))).map SItem.para =
      [] ++ .para ⟨2, [('a', none), ('b', none)], {}⟩ :: [.para ⟨3, [('c', none), ('d', none)], {}⟩] := by rfl
  rw [e] at h
  have ho : OnlyDocument s0 d0 := by
    have e1 := e0
    rw [Option.bind_eq_some_iff] at e1
    obtain ⟨s, h0, h1⟩ := e1
    have k := (newStore_docsIn h0).importPlainText h1
    rw [← hd] at k
    exact k.only rfl
  obtain ⟨s1, i, c, snap1, s2, snap2, d2, q1, q2, q3, _⟩ := C82_insert_remove_partial h ho 1 1 2 2 1 (by decide) (by decide) (by decide) (by decide) (by
    intro q hq
    have hq : q ∈ [(⟨2, [('a', none), ('b', none)], {}⟩ : SPara), ⟨3, [('c', none), ('d', none)], {}⟩] := hq
    simp only [List.mem_cons, List.not_mem_nil, or_false] at hq
    rcases hq with rfl | rfl <;> simp)
  exact ⟨s0, s1, i, c, snap1, s2, snap2, d2, e0, q1, q2, q3⟩

/-- **C82, negative.** With text in a cell the stored positions are wrong after a row was added: the
paragraph "xy" is at 3, and the next paragraph of the table is stored at 4, in its middle. -/
theorem C82_insert_row_positions_fails : ∃ s s1 s2 s3 : Store, ∃ t snap1 r u snap2,
    (Store.newStore.bind fun s => s.importPlainText "ab\ncd".toList) = some s ∧
    s.insertTable 2 2 2 2 = some (s1, t, 2, snap1) ∧ s1.insertText ⟨3, 3, "xy".toList⟩ = some (s2, r, u) ∧
    s2.insertTableRow t 1 = some (s3, snap2) ∧
    (s2.blocks 4).map (fun b => b.documentPosition) = some 3 ∧ (s2.blocks 5).map (fun b => b.documentPosition) = some 6 ∧
    (s3.blocks 4).map (fun b => b.documentPosition) = some 3 ∧ (blockContent s3.text 4).map List.length = some 2 ∧
    (s3.blocks 5).map (fun b => b.documentPosition) = some 4 := by
  refine ⟨_, _, _, _, _, _, _, _, _, rfl, rfl, rfl, rfl, ?_⟩
  decide +kernel

/-- **C82, negative.** With text in a removed cell the counts are wrong: of "ab", a table with "xy" in its
first row, "cd" four characters are left when that row is removed, but the document counts six. -/
theorem C82_remove_row_counts_fails : ∃ s s1 s2 s3 : Store, ∃ t snap1 r u snap2,
    (Store.newStore.bind fun s => s.importPlainText "ab\ncd".toList) = some s ∧
    s.insertTable 2 2 2 2 = some (s1, t, 2, snap1) ∧ s1.insertText ⟨3, 3, "xy".toList⟩ = some (s2, r, u) ∧
    s2.removeTableRow t 0 = some (s3, snap2) ∧
    s3.blocks.keys.map (fun i => (blockContent s3.text i).map List.length) = [some 2, some 2, some 0, some 0] ∧
    (s3.documents 1).map (fun d => d.characterCount) = some 6 := by
  refine ⟨_, _, _, _, _, _, _, _, _, rfl, rfl, rfl, rfl, ?_⟩
  decide +kernel

/-- **C82, negative.** With text in a cell the counts are wrong after the table was removed: of "ab", a table
with "xy", "cd" the two paragraphs and four characters are left, but the document counts six characters and stores
"cd" at 5 instead of 3. -/
theorem C82_remove_table_counts_fails : ∃ s s1 s2 s3 : Store, ∃ t snap1 r u snap2,
    (Store.newStore.bind fun s => s.importPlainText "ab\ncd".toList) = some s ∧
    s.insertTable 2 2 1 1 = some (s1, t, 2, snap1) ∧ s1.insertText ⟨3, 3, "xy".toList⟩ = some (s2, r, u) ∧
    s2.removeTable t = some (s3, snap2) ∧
    s3.blocks.keys.map (fun i => (blockContent s3.text i).map List.length) = [some 2, some 2] ∧
    (s3.documents 1).map (fun d => (d.blockCount, d.characterCount)) = some (2, 6) ∧
    (s3.blocks 3).map (fun b => b.documentPosition) = some 5 := by
  refine ⟨_, _, _, _, _, _, _, _, _, rfl, rfl, rfl, rfl, ?_⟩
  decide +kernel

/-- **C82, negative.** Merging loses text: the paragraph "xy" of the second cell is gone, although the document
still counts its characters. -/
theorem C82_merge_text_fails : ∃ s s1 s2 s3 : Store, ∃ t snap1 r u i snap2,
    (Store.newStore.bind fun s => s.importPlainText "ab\ncd".toList) = some s ∧
    s.insertTable 2 2 1 2 = some (s1, t, 2, snap1) ∧ s1.insertText ⟨4, 4, "xy".toList⟩ = some (s2, r, u) ∧
    s2.mergeTableCells t 0 0 0 1 = some (s3, i, snap2) ∧
    blockContent s2.text 5 = some ['x', 'y'] ∧ (∀ j ∈ s3.blocks.keys, blockContent s3.text j ≠ some ['x', 'y']) ∧
    (s3.documents 1).map (fun d => d.characterCount) = some 6 := by
  refine ⟨_, _, _, _, _, _, _, _, _, _, rfl, rfl, rfl, rfl, ?_⟩
  decide +kernel

end Verif
