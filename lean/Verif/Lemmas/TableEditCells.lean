import Verif.Lemmas.TableEditAdd
import Verif.Lemmas.TableType
import Verif.Lemmas.Grid
/- Changed and new cells of a table of a document. -/
namespace Verif
variable {s s' : Store} {d d' : Document} {f : Nat} {items A B : List SItem} {t t' : STable}
open Store

/-- Cells at different places can be put in reading order. -/
theorem exists_ordered (l : List SCell) (hn : (l.map fun c => (c.cell.row, c.cell.column)).Nodup) :
    ∃ cs : List SCell, cs.Perm l ∧ cs.Pairwise SCell.before := by
  refine ⟨sortByKey (fun c : SCell => c.cell.row) (sortByKey (fun c : SCell => c.cell.column) l), ?_, ?_⟩
  · exact (sortByKey_perm _ _).trans (sortByKey_perm _ _)
  · have h1 := sortByKey_lex (k1 := fun c : SCell => c.cell.row) (sortByKey_sorted (fun c : SCell => c.cell.column) l)
    have hp : (sortByKey (fun c : SCell => c.cell.row) (sortByKey (fun c : SCell => c.cell.column) l)).Perm l :=
      (sortByKey_perm _ _).trans (sortByKey_perm _ _)
    have h2 := (hp.map fun c => (c.cell.row, c.cell.column)).nodup_iff.mpr hn
    have h3 := List.pairwise_map.mp h2
    refine (h1.and h3).imp ?_
    rintro a b ⟨k1, k2⟩
    have k3 : ¬ (a.cell.row = b.cell.row ∧ a.cell.column = b.cell.column) := fun e => k2 (by rw [e.1, e.2])
    unfold SCell.before
    omega

theorem updateCells_get (us : List TableCell) : ∀ s : Store, (us.map TableCell.id).Nodup →
    ∃ m, s.updateCells us = { s with tableCells := m } ∧ (∀ c ∈ us, m c.id = some (keepCell c (s.tableCells c.id))) ∧
      ∀ i, i ∉ us.map TableCell.id → m i = s.tableCells i := by
  induction us with
  | nil => intro s _; exact ⟨s.tableCells, rfl, by simp, fun _ _ => rfl⟩
  | cons c us ih =>
    intro s hn
    rw [List.map_cons, List.nodup_cons] at hn
    obtain ⟨m, e, h1, h2⟩ := ih (s.updateCell c) hn.2
    refine ⟨m, e, ?_, ?_⟩
    · intro x hx
      rcases List.mem_cons.mp hx with rfl | hx
      · rw [h2 _ hn.1]
        show (s.tableCells.insert _ _) _ = _
        rw [IdMap.insert_get, if_pos rfl]
      · rw [h1 x hx]
        have : x.id ≠ c.id := fun e => hn.1 (e ▸ List.mem_map_of_mem hx)
        show some (keepCell x ((s.tableCells.insert c.id _) x.id)) = _
        rw [IdMap.insert_get, if_neg this]
    · intro i hi
      rw [List.map_cons, List.mem_cons, not_or] at hi
      rw [h2 i hi.2]
      show (s.tableCells.insert _ _) _ = _
      rw [IdMap.insert_get, if_neg hi.1]

/-- The stored cells of a table. -/
theorem Arranged.cells_read (h : Arranged s d f items) (ht : t ∈ tablesOf items) :
    (s.getCells (s.tableCellIds t.table.id)).Perm (t.cells.map SCell.cell) := by
  have hT := h.table t ht
  unfold Store.tableCellIds
  rw [hT.table, Option.map_some, Option.getD_some]
  unfold Store.getCells
  refine (hT.cells.filterMap _).trans (.of_eq ?_)
  rw [List.filterMap_map]
  have : ∀ l : List SCell, (∀ c ∈ l, c ∈ t.cells) → l.filterMap ((fun i => s.tableCells i) ∘ fun c => c.cell.id) = l.map SCell.cell := by
    intro l
    induction l with
    | nil => intro _; rfl
    | cons c l ih =>
      intro hl
      have e : ((fun i => s.tableCells i) ∘ fun c : SCell => c.cell.id) c = some c.cell := (hT.cell c (hl c (by simp))).1
      rw [List.filterMap_cons_some e, ih fun x hx => hl x (by simp [hx]), List.map_cons]
  exact this _ fun _ h => h

theorem Arranged.ids_here (h : Arranged s d f (A ++ .table t :: B)) : (t.cells.map fun c => c.cell.id).Nodup := by
  have := h.distinct.2
  rw [cells_at, List.map_append, List.map_append, List.nodup_append, List.nodup_append] at this
  exact this.2.1.1

theorem Arranged.docId (h : Arranged s d f items) : s.docId = some d.id := by
  obtain ⟨r, r', h1, h2, h3, h4⟩ := h.root
  unfold Store.docId
  rw [h1, Option.bind_some, h2, Option.bind_some, if_neg (by rw [h3]; exact h4), h3]

theorem madeCells_new (F N C : Nat) (l : List (Int × Int × Int × Int)) : ∀ k, (madeCells (F + k) (N + k) (C + k) l).map SCell.cell =
    newCells (fun k => (C + k, F + k)) k l := by
  induction l with
  | nil => intro k; rfl
  | cons x l ih =>
    intro k
    obtain ⟨r, c, rs, cs⟩ := x
    simp only [madeCells, newCells, List.map_cons]
    exact congrArg _ (ih (k + 1))

/-- Only the cells of the table `t` have changed, as `G` says. -/
structure CellsWritten (s s0 : Store) (t : STable) (G : TableCell → TableCell) : Prop where
  only : s0 = { s with tableCells := s0.tableCells }
  here : ∀ c ∈ t.cells, s0.tableCells c.cell.id = some (G c.cell)
  others : ∀ i, (i ∉ t.cells.map fun c => c.cell.id) → s0.tableCells i = s.tableCells i

theorem Arranged.wroteCells (h : Arranged s d f (A ++ .table t :: B)) {G : TableCell → TableCell}
    (hG : ∀ c, (G c).id = c.id ∧ (G c).cellFrame = c.cellFrame) {us : List TableCell} (hu : us.Perm ((t.cells.map SCell.cell).map G)) :
    CellsWritten s (s.updateCells us) t G := by
  have hids : (us.map TableCell.id).Perm (t.cells.map fun c => c.cell.id) := by
    refine (hu.map _).trans (.of_eq ?_)
    rw [List.map_map, List.map_map]
    exact List.map_congr_left fun c _ => (hG c.cell).1
  obtain ⟨m, e, k1, k2⟩ := updateCells_get us s (hids.nodup_iff.mpr h.ids_here)
  have hT := h.table t (by rw [tables_at]; simp)
  refine ⟨by rw [e], ?_, ?_⟩
  · intro c hc
    rw [e]
    have := k1 (G c.cell) (hu.mem_iff.mpr (List.mem_map_of_mem (List.mem_map_of_mem hc)))
    rw [(hG c.cell).1, (hT.cell c hc).1] at this
    refine this.trans ?_
    show some { G c.cell with cellFrame := c.cell.cellFrame } = _
    rw [← (hG c.cell).2]
  · intro i hi
    rw [e]
    exact k2 i fun hm => hi (hids.mem_iff.mp hm)

/-- The cells of a table, changed by `G`. -/
theorem Arranged.writeCells (h : Arranged s d f (A ++ .table t :: B)) {G : TableCell → TableCell}
    (hG : ∀ c ∈ t.cells, (G c.cell).id = c.cell.id ∧ (G c.cell).cellFrame = c.cell.cellFrame) {s0 : Store} (hw : CellsWritten s s0 t G)
    (ha : ((t.cells.map (recell G)).map fun c => (c.cell.row, c.cell.column)).Nodup) :
    ∃ cs : List SCell, cs.Perm (t.cells.map (recell G)) ∧ cs.Pairwise SCell.before ∧
      Arranged s0 d f (A ++ .table ⟨t.table, t.anchor, cs⟩ :: B) := by
  obtain ⟨cs, h1, h2⟩ := exists_ordered _ ha
  refine ⟨cs, h1, h2, ?_⟩
  have hT := h.table t (by rw [tables_at]; simp)
  have ht : s0.tables = s.tables := by rw [hw.only]
  exact h.recelled (G := G) hG hw.here hw.others (fun i _ => by rw [ht]) (by rw [ht]; exact hT.table) rfl rfl
    (by rw [ht]; exact hw.only) h1 h2

/-- New cells in a table whose record may change and whose other cells are changed by `G`. -/
theorem Arranged.grow (h : Arranged s d f (A ++ .table t :: B)) {G : TableCell → TableCell}
    (hG : ∀ c ∈ t.cells, (G c.cell).id = c.cell.id ∧ (G c.cell).cellFrame = c.cell.cellFrame) {s0 : Store} (hw : CellsWritten s s0 t G)
    {l : List (Int × Int × Int × Int)} {g' : Grid}
    (hg : g'.cells = (t.cells.map SCell.cell).map G ++ newCells (fun k => (s.next "table_cell" + k, s.next "frame" + k)) 0 l)
    (ha : g'.Apart) {tb : Table}
    (htb : tb = { t.table with rows := g'.rows, columns := g'.columns, columnWidths := g'.widths, cells := tb.cells }) :
    ∃ cs : List SCell, cs.Perm (t.cells.map (recell G) ++ madeCells (s.next "frame") (s.next "block") (s.next "table_cell") l) ∧
    ∃ s1, s0.createCells d.id t.table.id l = some
        ((madeCells (s.next "frame") (s.next "block") (s.next "table_cell") l).map fun c =>
          (c.frame, (c.paras.map SPara.id).headD 0, c.cell.id), s1) ∧
      (s1.tables t.table.id = some { t.table with cells := t.table.cells ++ ((madeCells (s.next "frame") (s.next "block") (s.next "table_cell") l).map fun c => c.cell.id) }) ∧
      ∀ s2 : Store, s2 = { s1 with tables := s2.tables } → (∀ i, i ≠ t.table.id → s2.tables i = s1.tables i) →
        s2.tables t.table.id = some { tb with cells := t.table.cells ++ ((madeCells (s.next "frame") (s.next "block") (s.next "table_cell") l).map fun c => c.cell.id) } →
        ∃ s3, s2.addToTable t.table.id (((madeCells (s.next "frame") (s.next "block") (s.next "table_cell") l).map fun c =>
          (c.frame, (c.paras.map SPara.id).headD 0, c.cell.id)).map fun x : Nat × Nat × Nat => x.2.1) = some s3 ∧
          Arranged s3 { d with frames := d.frames ++ (madeCells (s.next "frame") (s.next "block") (s.next "table_cell") l).map SCell.frame } f
            (A ++ .table ⟨{ tb with cells := t.table.cells ++ ((madeCells (s.next "frame") (s.next "block") (s.next "table_cell") l).map fun c => c.cell.id) }, t.anchor, cs⟩ :: B) ∧
          Restructured t g' ⟨{ tb with cells := t.table.cells ++ ((madeCells (s.next "frame") (s.next "block") (s.next "table_cell") l).map fun c => c.cell.id) }, t.anchor, cs⟩ ∧
          s3.lists = s.lists ∧
          (∀ i, i ∉ cellBlocks (madeCells (s.next "frame") (s.next "block") (s.next "table_cell") l) → s3.blocks i = s.blocks i) ∧
          ∀ i ∈ cellBlocks (madeCells (s.next "frame") (s.next "block") (s.next "table_cell") l), s3.blocks i = some { id := i } := by
  have hnew := madeCells_new (s.next "frame") (s.next "block") (s.next "table_cell") l 0
  simp only [Nat.add_zero] at hnew
  rw [← hnew] at hg
  have hgp : ((t.cells.map (recell G) ++ madeCells (s.next "frame") (s.next "block") (s.next "table_cell") l).map SCell.cell) = g'.cells := by
    rw [hg, List.map_append, List.map_map, List.map_map]; rfl
  have hap : ((t.cells.map (recell G) ++ madeCells (s.next "frame") (s.next "block") (s.next "table_cell") l).map
      fun c => (c.cell.row, c.cell.column)).Nodup := by
    have : (g'.cells.map fun c => (c.row, c.column)).Nodup := ha
    rw [← hgp, List.map_map] at this
    exact this
  have em := hw.only
  obtain ⟨c1, p1, p2, h1⟩ := h.writeCells hG hw (by
    rw [List.map_append] at hap
    exact (List.nodup_append.mp hap).1)
  obtain ⟨cs, q1, q2⟩ := exists_ordered _ hap
  have n1 : ∀ k, s0.next k = s.next k := by intro k; rw [em]; rfl
  have key := h1.addCells l (tb := tb) (by rw [htb]) (cs := cs) (by
    rw [n1, n1, n1]; exact q1.trans (p1.symm.append_right _)) q2
  rw [n1, n1, n1] at key
  obtain ⟨s1, e1, e2, key⟩ := key
  refine ⟨cs, q1, s1, e1, e2, ?_⟩
  intro s2 r1 r2 r3
  obtain ⟨s3, e3, k1, k2, k3, k4⟩ := key s2 r1 r2 r3
  have hfresh : ∀ c ∈ t.cells, c.cell.id < s.next "table_cell" := by
    intro c hc
    refine h.freshCells _ (h.cell_some ?_)
    rw [cells_at, List.map_append, List.map_append]
    exact List.mem_append_right _ (List.mem_append_left _ (List.mem_map_of_mem (f := fun c : SCell => c.cell.id) hc))
  have hmade : ∀ c ∈ madeCells (s.next "frame") (s.next "block") (s.next "table_cell") l, s.next "table_cell" ≤ c.cell.id := by
    intro c hc
    have := List.mem_map_of_mem (f := fun c : SCell => c.cell.id) hc
    rw [madeCells_cells, List.mem_range'_1] at this
    exact this.1
  refine ⟨s3, by rw [made_ids]; exact e3, k1, ?_, ?_, ?_, k4⟩
  · refine ⟨?_, rfl, ?_, ?_, ?_⟩
    · show { tb with cells := _ } = _
      rw [htb]
    · exact (q1.map _).trans (.of_eq hgp)
    · intro c' hc' c hc e
      rcases List.mem_append.mp (q1.mem_iff.mp hc') with hc' | hc'
      · obtain ⟨c2, hc2, rfl⟩ := List.mem_map.mp hc'
        have hid : c2.cell.id = c.cell.id := by rw [← e]; exact ((hG c2 hc2).1).symm
        have : c2 = c := by
          obtain ⟨i, hi, rfl⟩ := List.getElem_of_mem hc2
          obtain ⟨j, hj, rfl⟩ := List.getElem_of_mem hc
          have hij : (t.cells.map fun c => c.cell.id)[i]'(by simpa using hi) =
            (t.cells.map fun c => c.cell.id)[j]'(by simpa using hj) := by simpa using hid
          have := (List.getElem_inj h.ids_here).mp hij
          subst this; rfl
        subst this
        exact ⟨rfl, rfl⟩
      · have := hfresh c hc
        have := hmade c' hc'
        omega
    · intro c' hc' hno
      rcases List.mem_append.mp (q1.mem_iff.mp hc') with hc' | hc'
      · obtain ⟨c2, hc2, rfl⟩ := List.mem_map.mp hc'
        exact absurd ((hG c2 hc2).1) (hno c2 hc2)
      · obtain ⟨i, hi, _⟩ := madeCells_mem hc'
        exact ⟨i, hi⟩
  · rw [k2, em]
  · intro i hi
    rw [k3 i hi, em]

end Verif
