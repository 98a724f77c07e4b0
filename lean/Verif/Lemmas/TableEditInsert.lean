import Verif.Lemmas.TableEditGrow
/- The commands that add a row or a column to a table and that split a cell. -/
namespace Verif
variable {s s' : Store} {d d' : Document} {f : Nat} {items A B : List SItem} {t t' : STable}
open Store

/-- Ids of new cells and their frames. -/
def Store.freshCell (s : Store) (k : Nat) : Nat × Nat := (s.next "table_cell" + k, s.next "frame" + k)

theorem apart_of_order {cs : List SCell} (h : cs.Pairwise SCell.before) : (cs.map fun c => (c.cell.row, c.cell.column)).Nodup := by
  refine List.pairwise_map.mpr (h.imp ?_)
  intro a b hab e
  unfold SCell.before at hab
  simp only [Prod.mk.injEq] at e
  omega

theorem rowShift_keeps (idx : Int) (c : TableCell) : (rowShift idx c).id = c.id ∧ (rowShift idx c).cellFrame = c.cellFrame := by
  unfold rowShift
  split
  · exact ⟨rfl, rfl⟩
  · split <;> exact ⟨rfl, rfl⟩

theorem rowShift_place (idx : Int) (c : TableCell) :
    (rowShift idx c).row = (if c.row ≥ idx then c.row + 1 else c.row) ∧ (rowShift idx c).column = c.column := by
  unfold rowShift
  split
  · exact ⟨rfl, rfl⟩
  · split <;> exact ⟨rfl, rfl⟩

theorem columnShift_keeps (idx : Int) (c : TableCell) : (columnShift idx c).id = c.id ∧ (columnShift idx c).cellFrame = c.cellFrame := by
  unfold columnShift
  split
  · exact ⟨rfl, rfl⟩
  · split <;> exact ⟨rfl, rfl⟩

theorem columnShift_place (idx : Int) (c : TableCell) :
    (columnShift idx c).column = (if c.column ≥ idx then c.column + 1 else c.column) ∧ (columnShift idx c).row = c.row := by
  unfold columnShift
  split
  · exact ⟨rfl, rfl⟩
  · split <;> exact ⟨rfl, rfl⟩

theorem newCells_places (fresh : Nat → Nat × Nat) (l : List (Int × Int × Int × Int)) : ∀ k,
    ((newCells fresh k l).map fun c => (c.row, c.column)) = l.map fun x => (x.1, x.2.1) := by
  induction l with
  | nil => intro k; rfl
  | cons x l ih =>
    intro k
    obtain ⟨r, c, rs, cs⟩ := x
    simp only [newCells, List.map_cons, ih (k + 1)]; rfl

theorem intRange_nodup (n : Int) : (intRange n).Nodup := by
  unfold intRange
  refine List.pairwise_map.mpr (List.nodup_range.imp ?_)
  intro a b hab e
  exact hab (Int.ofNat.inj e)

theorem intRange_length (n : Int) : (intRange n).length = n.toNat := by simp [intRange]

/-- A new row takes no place that is taken. -/
theorem insertRow_apart {g g' : Grid} {idx : Int} {fresh : Nat → Nat × Nat} (h : g.Apart) (hg : insertRow g idx fresh = some g') :
    g'.Apart := by
  unfold insertRow at hg
  split at hg
  · cases hg
  · cases hg
    unfold Grid.Apart at *
    simp only [List.map_append, List.map_map]
    rw [List.nodup_append]
    refine ⟨?_, ?_, ?_⟩
    · rw [List.Nodup, List.pairwise_map] at h ⊢
      refine h.imp ?_
      intro a b hab e
      simp only [Function.comp, Prod.mk.injEq] at e
      have ha := rowShift_place idx a
      have hb := rowShift_place idx b
      rw [ha.1, ha.2, hb.1, hb.2] at e
      apply hab
      rw [e.2]
      simp only [Prod.mk.injEq, and_true]
      have := e.1
      split at this <;> split at this <;> omega
    · rw [newCells_places, List.map_map, List.Nodup, List.pairwise_map]
      refine (intRange_nodup g.columns).imp ?_
      intro a b hab e
      simp only [Function.comp, Prod.mk.injEq] at e
      exact hab e.2
    · rw [newCells_places, List.map_map]
      rintro x hx y hy rfl
      obtain ⟨c, hc, rfl⟩ := List.mem_map.mp hx
      obtain ⟨k, hk, e⟩ := List.mem_map.mp hy
      simp only [Function.comp, Prod.mk.injEq] at e
      have ha := rowShift_place idx c
      rw [ha.1] at e
      have := e.1
      split at this <;> omega

theorem insertColumn_apart {g g' : Grid} {idx : Int} {fresh : Nat → Nat × Nat} (h : g.Apart) (hg : insertColumn g idx fresh = some g') :
    g'.Apart := by
  unfold insertColumn at hg
  split at hg
  · cases hg
  · cases hg
    unfold Grid.Apart at *
    simp only [List.map_append, List.map_map]
    rw [List.nodup_append]
    refine ⟨?_, ?_, ?_⟩
    · rw [List.Nodup, List.pairwise_map] at h ⊢
      refine h.imp ?_
      intro a b hab e
      simp only [Function.comp, Prod.mk.injEq] at e
      have ha := columnShift_place idx a
      have hb := columnShift_place idx b
      rw [ha.1, ha.2, hb.1, hb.2] at e
      apply hab
      rw [e.1]
      simp only [Prod.mk.injEq, true_and]
      have := e.2
      split at this <;> split at this <;> omega
    · rw [newCells_places, List.map_map, List.Nodup, List.pairwise_map]
      refine (intRange_nodup g.rows).imp ?_
      intro a b hab e
      simp only [Function.comp, Prod.mk.injEq] at e
      exact hab e.1
    · rw [newCells_places, List.map_map]
      rintro x hx y hy rfl
      obtain ⟨c, hc, rfl⟩ := List.mem_map.mp hx
      obtain ⟨k, hk, e⟩ := List.mem_map.mp hy
      simp only [Function.comp, Prod.mk.injEq] at e
      have ha := columnShift_place idx c
      rw [ha.1] at e
      have := e.2
      split at this <;> omega

theorem Arranged.apart (h : Arranged s d f (A ++ .table t :: B)) : t.grid.Apart := by
  have := apart_of_order (h.table t (by rw [tables_at]; simp)).order
  unfold Grid.Apart STable.grid
  simp only [List.map_map]
  exact this

theorem updateTable_get {t0 tb : Table} (h : s.tables tb.id = some t0) :
    s.updateTable tb = { s with tables := (s.updateTable tb).tables } ∧ (∀ i, i ≠ tb.id → (s.updateTable tb).tables i = s.tables i) ∧
      (s.updateTable tb).tables tb.id = some { tb with cells := t0.cells } := by
  refine ⟨rfl, ?_, ?_⟩
  · intro i hi
    show (s.tables.insert _ _) i = _
    rw [IdMap.insert_get, if_neg hi]
  · show (s.tables.insert _ _) _ = _
    rw [IdMap.insert_get, if_pos rfl, h]; rfl

/-- A row is added to a table. -/
theorem Arranged.insertRow (h : Arranged s d f (A ++ .table t :: B)) {idx : Int} (h0 : 0 ≤ idx) (h1 : idx ≤ t.table.rows) :
    ∃ s' d' t' g', s.insertTableRow t.table.id idx = some (s', s.snapshot) ∧ Verif.insertRow t.grid idx s.freshCell = some g' ∧
      Restructured t g' t' ∧ Arranged s' d' f (A ++ .table t' :: B) ∧
      d' = { d with frames := d'.frames, blockCount := d.blockCount + t.table.columns } ∧ s'.lists = s.lists ∧
      (Tabled s d f (A ++ .table t :: B) → t.blank → 0 ≤ t.table.columns → Tabled s' d' f (A ++ .table t' :: B)) := by
  obtain ⟨g', hg⟩ : ∃ g', Verif.insertRow t.grid idx s.freshCell = some g' := ⟨_, if_neg (by show ¬ (idx < 0 ∨ idx > t.table.rows); omega)⟩
  have hap := insertRow_apart h.apart hg
  have hg2 := hg
  unfold Verif.insertRow at hg2
  rw [if_neg (by show ¬ (idx < 0 ∨ idx > t.table.rows); omega)] at hg2
  cases hg2
  have ht : t ∈ tablesOf (A ++ .table t :: B) := by rw [tables_at]; simp
  obtain ⟨xs, s1, e1, e2, e3, key⟩ := h.growAll (fun c _ => rowShift_keeps idx c.cell)
    (h.wroteCells (rowShift_keeps idx) ((h.cells_read ht).map _)) rfl hap
    (tb := { t.table with rows := t.table.rows + 1 }) rfl
    (s.tableBase ((s.getCells (s.tableCellIds t.table.id)).filterMap TableCell.cellFrame)) t.table.columns
  obtain ⟨u1, u2, u3⟩ := updateTable_get (tb := { t.table with rows := t.table.rows + 1 }) e2
  obtain ⟨s3, t', e4, e5, key⟩ := key _ u1 u2 u3
  obtain ⟨k1, k2, k3⟩ := key _ (.inl rfl)
  refine ⟨_, _, t', _, ?_, hg, e5, k1, rfl, k2, ?_⟩
  · unfold Store.insertTableRow
    rw [h.docId, Option.bind_some, h.document, Option.bind_some, (h.table t ht).table, Option.bind_some, if_neg (by omega)]
    simp only
    have e1' : (s.updateCells ((s.getCells (s.tableCellIds t.table.id)).map (rowShift idx))).createCells d.id t.table.id
      ((intRange t.table.columns).map fun c => (idx, c, 1, 1)) = some (xs, s1) := e1
    rw [e1', Option.bind_some]
    simp only
    rw [e4, Option.bind_some]
  · intro hT hb hcol
    refine k3 hT hb.1 hb.2 ?_ rfl
    rw [List.length_map]
    show t.table.columns = ((intRange t.table.columns).length : Int)
    rw [intRange_length]; omega

/-- A column is added to a table. -/
theorem Arranged.insertColumn (h : Arranged s d f (A ++ .table t :: B)) {idx : Int} (h0 : 0 ≤ idx) (h1 : idx ≤ t.table.columns) :
    ∃ s' d' t' g', s.insertTableColumn t.table.id idx = some (s', s.snapshot) ∧ Verif.insertColumn t.grid idx s.freshCell = some g' ∧
      Restructured t g' t' ∧ Arranged s' d' f (A ++ .table t' :: B) ∧
      d' = { d with frames := d'.frames, blockCount := d.blockCount + t.table.rows } ∧ s'.lists = s.lists ∧
      (Tabled s d f (A ++ .table t :: B) → t.blank → 0 ≤ t.table.rows → Tabled s' d' f (A ++ .table t' :: B)) := by
  obtain ⟨g', hg⟩ : ∃ g', Verif.insertColumn t.grid idx s.freshCell = some g' :=
    ⟨_, if_neg (by show ¬ (idx < 0 ∨ idx > t.table.columns); omega)⟩
  have hap := insertColumn_apart h.apart hg
  have hg2 := hg
  unfold Verif.insertColumn at hg2
  rw [if_neg (by show ¬ (idx < 0 ∨ idx > t.table.columns); omega)] at hg2
  cases hg2
  have ht : t ∈ tablesOf (A ++ .table t :: B) := by rw [tables_at]; simp
  obtain ⟨xs, s1, e1, e2, e3, key⟩ := h.growAll (fun c _ => columnShift_keeps idx c.cell)
    (h.wroteCells (columnShift_keeps idx) ((h.cells_read ht).map _)) rfl hap
    (tb := { t.table with columns := t.table.columns + 1, columnWidths := t.table.columnWidths.insertIdx (min idx.toNat t.table.columnWidths.length) 0 }) rfl
    (s.tableBase ((s.getCells (s.tableCellIds t.table.id)).filterMap TableCell.cellFrame)) t.table.rows
  obtain ⟨u1, u2, u3⟩ := updateTable_get (tb := { t.table with columns := t.table.columns + 1, columnWidths := t.table.columnWidths.insertIdx (min idx.toNat t.table.columnWidths.length) 0 }) e2
  obtain ⟨s3, t', e4, e5, key⟩ := key _ u1 u2 u3
  obtain ⟨k1, k2, k3⟩ := key _ (.inl rfl)
  refine ⟨_, _, t', _, ?_, hg, e5, k1, rfl, k2, ?_⟩
  · unfold Store.insertTableColumn
    rw [h.docId, Option.bind_some, h.document, Option.bind_some, (h.table t ht).table, Option.bind_some, if_neg (by omega)]
    simp only
    have e1' : (s.updateCells ((s.getCells (s.tableCellIds t.table.id)).map (columnShift idx))).createCells d.id t.table.id
      ((intRange t.table.rows).map fun r => (r, idx, 1, 1)) = some (xs, s1) := e1
    rw [e1', Option.bind_some]
    simp only
    rw [e4, Option.bind_some]
  · intro hT hb hcol
    refine k3 hT hb.1 hb.2 ?_ rfl
    rw [List.length_map]
    show t.table.rows = ((intRange t.table.rows).length : Int)
    rw [intRange_length]; omega

/-- The table of a cell. -/
theorem Arranged.findTable (h : Arranged s d f (A ++ .table t :: B)) {c : SCell} (hc : c ∈ t.cells) :
    ((s.docTables d.id).find? fun i => (s.tableCellIds i).contains c.cell.id) = some t.table.id := by
  have ht : t ∈ tablesOf (A ++ .table t :: B) := by rw [tables_at]; simp
  have hids : ∀ u ∈ tablesOf (A ++ .table t :: B), ∀ i, i ∈ s.tableCellIds u.table.id ↔ i ∈ u.cells.map fun c => c.cell.id := by
    intro u hu i
    unfold Store.tableCellIds
    rw [(h.table u hu).table, Option.map_some, Option.getD_some]
    exact (h.table u hu).cells.mem_iff
  have hdt : s.docTables d.id = d.tables := by
    unfold Store.docTables; rw [h.document]; rfl
  rw [hdt]
  have hd := h.distinct.2
  rw [cells_at, List.map_append, List.map_append, List.nodup_append, List.nodup_append] at hd
  have honly : ∀ i ∈ d.tables, (s.tableCellIds i).contains c.cell.id = true → i = t.table.id := by
    intro i hi hcon
    obtain ⟨u, hu, rfl⟩ := List.mem_map.mp (h.tables.mem_iff.mp hi)
    have hcon := (hids u hu _).mp (by simpa using hcon)
    have hme : c.cell.id ∈ t.cells.map fun c => c.cell.id := List.mem_map_of_mem (f := fun c : SCell => c.cell.id) hc
    rw [tables_at, List.mem_append, List.mem_cons] at hu
    rcases hu with hu | rfl | hu
    · have : c.cell.id ∈ (cellsOf A).map fun c => c.cell.id := by
        obtain ⟨x, hx, e⟩ := List.mem_map.mp hcon
        exact List.mem_map.mpr ⟨x, mem_cellsOf.mpr ⟨u, hu, hx⟩, e⟩
      exact absurd rfl (hd.2.2 _ this _ (List.mem_append_left _ hme))
    · rfl
    · have : c.cell.id ∈ (cellsOf B).map fun c => c.cell.id := by
        obtain ⟨x, hx, e⟩ := List.mem_map.mp hcon
        exact List.mem_map.mpr ⟨x, mem_cellsOf.mpr ⟨u, hu, hx⟩, e⟩
      exact absurd rfl (hd.2.1.2.2 _ hme _ this)
  cases e : d.tables.find? fun i => (s.tableCellIds i).contains c.cell.id with
  | none =>
    have := List.find?_eq_none.mp e t.table.id (h.tables.mem_iff.mpr (List.mem_map_of_mem (f := fun t : STable => t.table.id) ht))
    exact absurd (List.contains_iff_mem.mpr ((hids t ht _).mpr (List.mem_map_of_mem (f := fun c : SCell => c.cell.id) hc))) this
  | some i =>
    have h1 := List.find?_some e
    rw [honly i (List.mem_of_find?_eq_some e) h1]

/-- The cell of the grid with a given id. -/
theorem Arranged.findCell (h : Arranged s d f (A ++ .table t :: B)) {c : SCell} (hc : c ∈ t.cells) :
    (t.grid.cells.find? fun x => decide (x.id = c.cell.id)) = some c.cell := by
  have hn := h.ids_here
  unfold STable.grid
  simp only
  have key : ∀ l : List SCell, (l.map fun c => c.cell.id).Nodup → c ∈ l →
      ((l.map SCell.cell).find? fun x => decide (x.id = c.cell.id)) = some c.cell := by
    intro l
    induction l with
    | nil => intro _ hm; simp at hm
    | cons x l ih =>
      intro hn hm
      rw [List.map_cons, List.nodup_cons] at hn
      rw [List.map_cons, List.find?_cons]
      rcases List.mem_cons.mp hm with rfl | hm
      · simp
      · have : x.cell.id ≠ c.cell.id := fun e => hn.1 (e ▸ List.mem_map_of_mem (f := fun c : SCell => c.cell.id) hm)
        rw [show decide (x.cell.id = c.cell.id) = false by simpa using this]
        exact ih hn.2 hm
  exact key _ hn hc

theorem newCells_ids_range (C F : Nat) (l : List (Int × Int × Int × Int)) : ∀ k,
    ((newCells (fun k => (C + k, F + k)) k l).map TableCell.id) = List.range' (C + k) l.length := by
  induction l with
  | nil => intro k; rfl
  | cons x l ih =>
    intro k
    obtain ⟨r, c, rs, cs⟩ := x
    simp only [newCells, List.map_cons, ih (k + 1), List.length_cons, List.range'_succ]; rfl

/-- A cell is split. -/
theorem Arranged.splitCell (h : Arranged s d f (A ++ .table t :: B)) {c : SCell} (hc : c ∈ t.cells) {sr sc : Int} {g' : Grid}
    (hg : Verif.splitCell t.grid c.cell.id sr sc s.freshCell = some g') (hap : g'.Apart) :
    ∃ s' d' t', s.splitTableCell c.cell.id sr sc = some (s', c.cell.id :: (g'.cells.drop t.cells.length).map TableCell.id, s.snapshot) ∧
      Restructured t g' t' ∧ Arranged s' d' f (A ++ .table t' :: B) ∧
      d' = { d with frames := d'.frames, blockCount := d.blockCount + (g'.cells.length - t.cells.length) } ∧ s'.lists = s.lists ∧
      (Tabled s d f (A ++ .table t :: B) → t.blank → Tabled s' d' f (A ++ .table t' :: B)) := by
  have ht : t ∈ tablesOf (A ++ .table t :: B) := by rw [tables_at]; simp
  have hcell := (h.table t ht).cell c hc
  unfold Verif.splitCell at hg
  split at hg
  · cases hg
  rename_i hs1
  rw [h.findCell hc, Option.bind_some] at hg
  split at hg
  · cases hg
  rename_i hs2
  split at hg
  · cases hg
  rename_i hs3
  split at hg
  · cases hg
  rename_i hs4
  split at hg
  · cases hg
  rename_i r0 k0 rs cs rest hsub
  cases hg
  have hw : CellsWritten s (s.updateCell { c.cell with rowSpan := rs, columnSpan := cs }) t
      (fun x => if x.id = c.cell.id then { c.cell with rowSpan := rs, columnSpan := cs } else x) := by
    refine ⟨rfl, ?_, ?_⟩
    · intro x hx
      show (s.tableCells.insert c.cell.id _) _ = _
      rw [IdMap.insert_get]
      by_cases e : x.cell.id = c.cell.id
      · simp only [e, if_true]
        rw [hcell.1]; rfl
      · rw [if_neg e, if_neg e]
        exact ((h.table t ht).cell x hx).1
    · intro i hi
      show (s.tableCells.insert c.cell.id _) _ = _
      rw [IdMap.insert_get, if_neg]
      rintro rfl
      exact hi (List.mem_map_of_mem (f := fun c : SCell => c.cell.id) hc)
  have hGk : ∀ x ∈ t.cells, ((fun x : TableCell => if x.id = c.cell.id then { c.cell with rowSpan := rs, columnSpan := cs } else x) x.cell).id = x.cell.id ∧
      ((fun x : TableCell => if x.id = c.cell.id then { c.cell with rowSpan := rs, columnSpan := cs } else x) x.cell).cellFrame = x.cell.cellFrame := by
    intro x hx
    simp only
    split
    · rename_i e
      have : x = c := by
        obtain ⟨i, hi, rfl⟩ := List.getElem_of_mem hx
        obtain ⟨j, hj, rfl⟩ := List.getElem_of_mem hc
        have hij : (t.cells.map fun c => c.cell.id)[i]'(by simpa using hi) =
          (t.cells.map fun c => c.cell.id)[j]'(by simpa using hj) := by simpa using e
        have := (List.getElem_inj h.ids_here).mp hij
        subst this; rfl
      rw [this]; exact ⟨rfl, rfl⟩
    · exact ⟨rfl, rfl⟩
  obtain ⟨xs, s1, e1, e2, e3, key⟩ := h.growAll hGk hw (l := rest) rfl hap (tb := t.table) rfl
    (s.tableBase ((s.getCells (s.tableCellIds t.table.id)).filterMap TableCell.cellFrame)) rest.length
  obtain ⟨s3, t', e4, e5, key⟩ := key s1 rfl (fun _ _ => rfl) e2
  have hxs : (xs.map fun x => x.2.2) = List.range' (s.next "table_cell") rest.length := by
    obtain ⟨cs', hcs', s1', e1', e2', _⟩ := h.grow hGk hw (l := rest) rfl hap (tb := t.table) rfl
    rw [e1] at e1'
    simp only [Option.some.injEq, Prod.mk.injEq] at e1'
    rw [e1'.1, List.map_map]
    exact madeCells_cells _ _ _ _
  have hids : ((((t.grid.cells.map fun x => if x.id = c.cell.id then { c.cell with rowSpan := rs, columnSpan := cs } else x) ++
      newCells s.freshCell 0 rest).drop t.cells.length).map TableCell.id) = xs.map fun x => x.2.2 := by
    rw [List.drop_left' (by simp [STable.grid]), hxs]
    exact newCells_ids_range _ _ _ 0
  have hlen : ((((t.grid.cells.map fun x => if x.id = c.cell.id then { c.cell with rowSpan := rs, columnSpan := cs } else x) ++
      newCells s.freshCell 0 rest).length : Int) - t.cells.length) = (rest.length : Int) := by
    have := congrArg List.length hids
    rw [List.length_map, List.length_drop, List.length_map, e3] at this
    have h2 : ((t.grid.cells.map fun x => if x.id = c.cell.id then { c.cell with rowSpan := rs, columnSpan := cs } else x) ++
      newCells s.freshCell 0 rest).length ≥ t.cells.length := by simp [STable.grid]
    omega
  obtain ⟨k1, k2, k3⟩ := key (if rest.length > 0 then (s3.reassignCells t.table.id
      (s.tableBase ((s.getCells (s.tableCellIds t.table.id)).filterMap TableCell.cellFrame))).shiftOutside d.id t.table.id
      (s.tableBase ((s.getCells (s.tableCellIds t.table.id)).filterMap TableCell.cellFrame)) rest.length
      else s3.reassignCells t.table.id (s.tableBase ((s.getCells (s.tableCellIds t.table.id)).filterMap TableCell.cellFrame))) (by
    split
    · exact .inl rfl
    · right; refine ⟨?_, rfl⟩; omega)
  refine ⟨_, _, t', ?_, e5, k1, ?_, k2, ?_⟩
  · unfold Store.splitTableCell
    rw [if_neg hs1, hcell.1, Option.bind_some, if_neg hs2, if_neg hs3, if_neg hs4, h.docId, Option.bind_some, h.document, Option.bind_some,
      h.findTable hc, Option.bind_some, (h.table t ht).table, Option.bind_some]
    simp only [hsub]
    rw [e1, Option.bind_some]
    simp only
    rw [e4, Option.bind_some]
    simp only [hids]
  · simp only
    rw [hlen]
  · intro hT hb
    exact k3 hT hb.1 hb.2 rfl rfl

end Verif
