import Verif.Lemmas.TableEditDrop
/- The commands that remove a row or a column of a table and that merge cells. -/
namespace Verif
variable {s s' : Store} {d d' : Document} {f : Nat} {items A B : List SItem} {t t' : STable}
open Store

theorem STable.bare.blank (h : t.bare) : t.blank := by
  refine ⟨h.1, ?_⟩
  intro c hc p hp
  obtain ⟨i, x, e⟩ := h.2 c hc
  rw [e, List.mem_singleton] at hp
  rw [hp]

theorem Tiled.apart {g : Grid} (h : Tiled g) : g.Apart := by
  unfold Grid.Apart
  have hc := h.cells
  have key : ∀ X Y : List TableCell, X ++ Y = g.cells → (Y.map fun c => (c.row, c.column)).Nodup := by
    intro X Y
    induction Y generalizing X with
    | nil => intro _; exact .nil
    | cons c Y ih =>
      intro e
      rw [List.map_cons, List.nodup_cons]
      refine ⟨?_, ih (X ++ [c]) (by simpa using e)⟩
      intro hm
      obtain ⟨c', hc', e'⟩ := List.mem_map.mp hm
      simp only [Prod.mk.injEq] at e'
      have hcm : c ∈ g.cells := by rw [← e]; simp
      have hcm' : c' ∈ g.cells := by rw [← e]; simp [hc']
      have h1 := hc.inside c hcm
      have h2 := hc.span c hcm
      have h3 := hc.span c' hcm'
      have honce := hc.once c.row c.column (by omega) (by omega) (by omega) (by omega)
      obtain ⟨U, V, rfl⟩ := List.append_of_mem hc'
      rw [← e] at honce
      have k1 : c.covers c.row c.column = true := by unfold TableCell.covers; simp; omega
      have k2 : c'.covers c.row c.column = true := by unfold TableCell.covers; simp; omega
      rw [List.filter_append, List.filter_cons_of_pos (p := fun x : TableCell => x.covers c.row c.column) k1, List.filter_append,
        List.filter_cons_of_pos (p := fun x : TableCell => x.covers c.row c.column) k2] at honce
      simp only [List.length_append, List.length_cons] at honce
      omega
  exact key [] g.cells rfl

/-- The stored positions after cells left a table of empty cells. -/
theorem Tabled.shrinkSeat {s3 : Store} {d3 : Document} {T : STable} {cs : List SCell} {base cnt : Int}
    (hT : Tabled s d f (A ++ .table t :: B)) (k1 : Arranged s3 d3 f (A ++ .table T :: B)) (hd : d3.id = d.id)
    (hid : T.table.id = t.table.id) (hpp : (T.cells.map SCell.paras).Perm (cs.map SCell.paras)) (hsub : cs.Sublist t.cells)
    (k4 : ∀ q ∈ flowParas (A ++ .table T :: B), s3.blocks q.id = s.blocks q.id)
    (hbare : t.bare) (hcnt : cnt = (t.cells.length : Int) - cs.length) (hbase : base = charsBefore (paras (flowParas A))) :
    Seated ((s3.reassignCells t.table.id base).shiftOutside d.id t.table.id base (-cnt)) (flowParas (A ++ .table T :: B)) := by
  have hmid : ∀ q ∈ flowParas A ++ (T.cells.flatMap SCell.paras ++ flowParas B), s3.storedPos q = s.storedPos q := by
    intro q hq
    unfold Store.storedPos
    rw [k4 q (by rw [flow_at]; exact hq)]
  have hml : ∀ l : List SCell, (∀ c ∈ l, c ∈ t.cells) → (l.flatMap SCell.paras).length = l.length := by
    intro l
    induction l with
    | nil => intro _; rfl
    | cons c l ih =>
      intro hl
      obtain ⟨i, x, hi⟩ := hbare.2 c (hl c (by simp))
      rw [List.flatMap_cons, List.length_append, ih fun x hx => hl x (by simp [hx]), hi]
      simp only [List.length_cons, List.length_nil]; omega
  have hTp : ∀ c ∈ T.cells, ∃ i x, c.paras = [⟨i, [], x⟩] := by
    intro c hc
    obtain ⟨c', hc', e⟩ := List.mem_map.mp (hpp.mem_iff.mp (List.mem_map_of_mem hc))
    rw [← e]
    exact hbare.2 c' (hsub.subset hc')
  have hTl : (T.cells.flatMap SCell.paras).length = cs.length := by
    have h1 : (T.cells.flatMap SCell.paras).Perm (cs.flatMap SCell.paras) := by
      rw [List.flatMap_def, List.flatMap_def]
      exact hpp.flatten
    rw [h1.length_eq]
    exact hml cs fun c hc => hsub.subset hc
  rw [← hd, ← hid]
  refine k1.reseat (old := (t.cells.flatMap SCell.paras).length) hbase (by omega) ?_ ?_ ?_ ?_ ?_
  · intro X q Y e
    rw [hmid q (by rw [e]; simp)]
    exact hT.storedPos_at (by rw [flow_at, e, List.append_assoc, List.cons_append])
  · intro X q Y e
    rw [hmid q (by rw [e]; simp)]
    have := hT.storedPos_at (X := flowParas A ++ (t.cells.flatMap SCell.paras ++ X)) (q := q) (Y := Y) (by rw [flow_at, e]; simp)
    rw [this, paras_append, charsBefore_append, paras_append, charsBefore_append, charsBefore_all_empty (ps := t.cells.flatMap _), hbase]
    · omega
    · intro p hp
      obtain ⟨c, hc, hp⟩ := List.mem_flatMap.mp hp
      exact hbare.blank.2 c hc p hp
  · rw [hTl, hcnt, hml t.cells fun _ h => h]; omega
  · intro c hc p hp
    obtain ⟨i, x, e⟩ := hTp c hc
    rw [e, List.mem_singleton] at hp
    rw [hp]
  · intro c hc
    obtain ⟨i, x, e⟩ := hTp c hc
    rw [e]; exact List.pairwise_singleton _ _

theorem filterMap_getD {α : Type} (U : α → Option α) (l : List α) :
    l.filterMap U = (l.filter fun c => (U c).isSome).map fun c => (U c).getD c := by
  induction l with
  | nil => rfl
  | cons a l ih =>
    cases h : U a with
    | none => rw [List.filterMap_cons_none h, List.filter_cons_of_neg (by simp [h]), ih]
    | some b => rw [List.filterMap_cons_some h, List.filter_cons_of_pos (by simp [h]), ih, List.map_cons, h]; rfl

theorem filter_length_split {α : Type} (p : α → Bool) (l : List α) : l.length = (l.filter p).length + (l.filter fun x => !p x).length := by
  induction l with
  | nil => rfl
  | cons a l ih => cases h : p a <;> simp [List.filter_cons, h, ih] <;> omega

/-- The cells for which `U` has no answer leave the table; the others become what `U` says. -/
theorem Arranged.shrinkAll (h : Arranged s d f (A ++ .table t :: B)) (hdocs : ∀ i, (s.documents i).isSome → i = d.id)
    {U : TableCell → Option TableCell} (hU : ∀ c c', U c = some c' → c'.id = c.id ∧ c'.cellFrame = c.cellFrame)
    {g' : Grid} (hg : g'.cells = (t.cells.map SCell.cell).filterMap U) (ha : g'.Apart) {gone : List TableCell}
    (hgone : gone.Perm ((t.cells.map SCell.cell).filter fun c => (U c).isNone)) {tb : Table}
    (htb : tb = { t.table with rows := g'.rows, columns := g'.columns, columnWidths := g'.widths, cells := tb.cells }) (base : Int) :
    ∃ s1 fs cells1, s.dropCells gone = some s1 ∧ s1.tables t.table.id = some { t.table with cells := cells1 } ∧
      (∀ c ∈ t.cells, (U c.cell).isSome → s1.tableCells c.cell.id = some c.cell) ∧
      ∀ s2 : Store, s2 = { s1 with tableCells := s2.tableCells, tables := s2.tables } →
        (∀ c ∈ t.cells, ∀ c', U c.cell = some c' → s2.tableCells c.cell.id = some c') →
        (∀ i, (i ∉ (t.cells.filter fun c => (U c.cell).isSome).map fun c => c.cell.id) → s2.tableCells i = s1.tableCells i) →
        (∀ i, i ≠ t.table.id → s2.tables i = s1.tables i) → s2.tables t.table.id = some { tb with cells := cells1 } →
        ∃ t', Restructured t g' t' ∧
          ∀ s4 : Store, s4 = (s2.reassignCells t.table.id base).shiftOutside d.id t.table.id base (-(gone.length : Int)) →
            Arranged (s4.updateDocument { d with blockCount := d.blockCount - gone.length })
              { d with frames := fs, blockCount := d.blockCount - gone.length } f (A ++ .table t' :: B) ∧
            (s4.updateDocument { d with blockCount := d.blockCount - gone.length }).lists = s.lists ∧
            (Tabled s d f (A ++ .table t :: B) → t.bare →
              base = s.tableBase ((s.getCells (s.tableCellIds t.table.id)).filterMap TableCell.cellFrame) →
              Tabled (s4.updateDocument { d with blockCount := d.blockCount - gone.length })
                { d with frames := fs, blockCount := d.blockCount - gone.length } f (A ++ .table t' :: B)) := by
  have hgone' : gone.Perm ((t.cells.map SCell.cell).filter fun c => !(fun c => (U c).isSome) c) := by
    refine hgone.trans (.of_eq ?_)
    apply List.filter_congr
    intro c _
    show (U c).isNone = !(U c).isSome
    cases U c <;> rfl
  obtain ⟨s1, fs, e1, k1, k2, k3⟩ := h.dropCells hdocs hgone'
  have htm : t.only (fun c => (U c).isSome) ∈ tablesOf (A ++ .table (t.only fun c => (U c).isSome) :: B) := by rw [tables_at]; simp
  have hkm : ∀ c, c ∈ (t.only fun c => (U c).isSome).cells ↔ c ∈ t.cells ∧ (U c.cell).isSome = true := by
    intro c; exact List.mem_filter
  refine ⟨s1, fs, (t.only fun c => (U c).isSome).table.cells, e1, (k1.table _ htm).table, ?_, ?_⟩
  · intro c hc hs
    exact ((k1.table _ htm).cell c ((hkm c).mpr ⟨hc, hs⟩)).1
  intro s2 o2 c2 c2' t2 t2'
  -- the cells that stay, changed and in reading order
  have hcells : ((t.only fun c => (U c).isSome).cells.map (recell fun c => (U c).getD c)).map SCell.cell = g'.cells := by
    rw [hg, filterMap_getD, List.map_map]
    show (t.cells.filter fun c => (U c.cell).isSome).map _ = _
    rw [List.filter_map, List.map_map]; rfl
  obtain ⟨cs, hcs, ho⟩ := exists_ordered ((t.only fun c => (U c).isSome).cells.map (recell fun c => (U c).getD c)) (by
    have := ha
    unfold Grid.Apart at this
    rw [← hcells, List.map_map] at this
    exact this)
  have hGk : ∀ c ∈ (t.only fun c => (U c).isSome).cells, ((U c.cell).getD c.cell).id = c.cell.id ∧
      ((U c.cell).getD c.cell).cellFrame = c.cell.cellFrame := by
    intro c hc
    obtain ⟨c', e⟩ := Option.isSome_iff_exists.mp ((hkm c).mp hc).2
    rw [e]; exact hU _ _ e
  have htid : tb.id = t.table.id := by rw [htb]
  have k5 := k1.recelled (s' := s2) (G := fun c => (U c).getD c) hGk (by
      intro c hc
      obtain ⟨c', e⟩ := Option.isSome_iff_exists.mp ((hkm c).mp hc).2
      rw [c2 c ((hkm c).mp hc).1 c' e, e]; rfl) c2' t2 t2' htid rfl o2 hcs ho
  obtain ⟨T, hT1, hT2, hT3, hT4⟩ : ∃ T : STable, T = ⟨{ tb with cells := (t.only fun c => (U c).isSome).table.cells },
      (t.only fun c => (U c).isSome).anchor, cs⟩ ∧ T.table.id = t.table.id ∧ T.cells = cs ∧
      T.table = { tb with cells := (t.only fun c => (U c).isSome).table.cells } := ⟨_, rfl, htid, rfl, rfl⟩
  have hTa : T.anchor = t.anchor := by rw [hT1]; rfl
  rw [← hT1] at k5
  clear hT1
  have hmem : ∀ c' ∈ cs, ∃ c0, c0 ∈ t.cells ∧ (U c0.cell).isSome = true ∧ c' = recell (fun c => (U c).getD c) c0 := by
    intro c' hc'
    obtain ⟨c0, q1, q2⟩ := List.mem_map.mp (hcs.mem_iff.mp hc')
    exact ⟨c0, ((hkm c0).mp q1).1, ((hkm c0).mp q1).2, q2.symm⟩
  have hRid : ∀ c0, c0 ∈ t.cells → (U c0.cell).isSome = true → (recell (fun c => (U c).getD c) c0).cell.id = c0.cell.id :=
    fun c0 q1 q2 => (hGk c0 ((hkm c0).mpr ⟨q1, q2⟩)).1
  refine ⟨T, ⟨?_, hTa, ?_, ?_, ?_⟩, ?_⟩
  · rw [hT4, htb]
  · rw [hT3]
    exact (hcs.map _).trans (.of_eq hcells)
  · intro c' hc' c hc e
    rw [hT3] at hc'
    obtain ⟨c0, q1, q2, rfl⟩ := hmem c' hc'
    rw [hRid c0 q1 q2] at e
    have : c0 = c := eq_of_nodup_map h.ids_here q1 hc e
    rw [← this]
    exact ⟨rfl, rfl⟩
  · intro c' hc' hn
    rw [hT3] at hc'
    obtain ⟨c0, q1, q2, rfl⟩ := hmem c' hc'
    exact absurd (hRid c0 q1 q2) (hn c0 q1)
  intro s4 hs4
  have har : Arranged s4 { d with frames := fs } f (A ++ .table T :: B) := by
    rw [hs4]
    exact (k5.reassign _ _).shiftOutside _ _ _ _
  have har' := har.updateDocument (e := { d with blockCount := d.blockCount - gone.length }) rfl
  have hdd : ({ ({ d with blockCount := d.blockCount - gone.length } : Document) with
      frames := ({ d with frames := fs } : Document).frames
      lists := ({ d with frames := fs } : Document).lists
      resources := ({ d with frames := fs } : Document).resources
      tables := ({ d with frames := fs } : Document).tables } : Document) =
      { d with frames := fs, blockCount := d.blockCount - gone.length } := rfl
  rw [hdd] at har'
  refine ⟨har', ?_, ?_⟩
  · show s4.lists = s.lists
    rw [← k2]
    obtain ⟨m, em⟩ := reassign_only s2 t.table.id base
    obtain ⟨m', em'⟩ := shiftOutside_only (s2.reassignCells t.table.id base) d.id t.table.id base (-(gone.length : Int))
    rw [hs4, em', em]
    show s2.lists = s1.lists
    rw [o2]
  · intro hT hb hbase
    refine har'.tabled fun _ => ?_
    rw [hT.tableBase hb.1] at hbase
    have hcp : (cs.map SCell.paras).Perm ((t.only fun c => (U c).isSome).cells.map SCell.paras) := by
      refine (hcs.map _).trans (.of_eq ?_)
      rw [List.map_map]; rfl
    have hseat := hT.shrinkSeat (cs := (t.only fun c => (U c).isSome).cells) (cnt := gone.length) k5 rfl hT2
      (by rw [hT3]; exact hcp) List.filter_sublist (by
        intro q hq
        rw [show s2.blocks = s1.blocks by rw [o2]]
        apply k3
        rw [flow_at] at hq ⊢
        rw [hT3] at hq
        have hperm : (cs.flatMap SCell.paras).Perm ((t.only fun c => (U c).isSome).cells.flatMap SCell.paras) := by
          rw [List.flatMap_def, List.flatMap_def]
          exact hcp.flatten
        simp only [List.mem_append] at hq ⊢
        rw [hperm.mem_iff] at hq
        exact hq) hb (by
        have h1 := filter_length_split (fun c : SCell => (U c.cell).isSome) t.cells
        have h2 := hgone'.length_eq
        rw [List.filter_map, List.length_map] at h2
        have h3 : (List.filter (fun x => !(fun c : SCell => (U c.cell).isSome) x) t.cells).length = gone.length := by
          rw [h2]; rfl
        rw [h3] at h1
        show (gone.length : Int) = t.cells.length - (t.cells.filter fun c => (U c.cell).isSome).length
        omega) hbase
    intro n p hp
    obtain ⟨b, b1, b2⟩ := hseat n p hp
    refine ⟨b, ?_, b2⟩
    show s4.blocks p.id = some b
    rw [hs4]; exact b1

/-- The cells that stay are written. -/
theorem Arranged.wroteSome (h : Arranged s d f (A ++ .table t :: B)) {s1 : Store} {U : TableCell → Option TableCell}
    (hU : ∀ c c', U c = some c' → c'.id = c.id ∧ c'.cellFrame = c.cellFrame)
    (h1 : ∀ c ∈ t.cells, (U c.cell).isSome → s1.tableCells c.cell.id = some c.cell) {us : List TableCell}
    (hu : us.Perm ((t.cells.map SCell.cell).filterMap U)) :
    s1.updateCells us = { s1 with tableCells := (s1.updateCells us).tableCells } ∧
    (∀ c ∈ t.cells, ∀ c', U c.cell = some c' → (s1.updateCells us).tableCells c.cell.id = some c') ∧
    (∀ i, (i ∉ (t.cells.filter fun c => (U c.cell).isSome).map fun c => c.cell.id) → (s1.updateCells us).tableCells i = s1.tableCells i) := by
  have hids : (us.map TableCell.id).Perm ((t.cells.filter fun c => (U c.cell).isSome).map fun c => c.cell.id) := by
    refine (hu.map _).trans (.of_eq ?_)
    rw [filterMap_getD, List.filter_map, List.map_map, List.map_map]
    apply List.map_congr_left
    intro c hc
    obtain ⟨c', e⟩ := Option.isSome_iff_exists.mp (List.mem_filter.mp hc).2
    simp only [Function.comp] at e ⊢
    rw [e]; exact (hU _ _ e).1
  obtain ⟨m, e, k1, k2⟩ := updateCells_get us s1 (hids.nodup_iff.mpr (h.ids_here.sublist (List.filter_sublist.map _)))
  refine ⟨by rw [e], ?_, ?_⟩
  · intro c hc c' hc'
    rw [e]
    have hm : c' ∈ us := hu.mem_iff.mpr (List.mem_filterMap.mpr ⟨c.cell, List.mem_map_of_mem hc, hc'⟩)
    have := k1 c' hm
    rw [(hU _ _ hc').1, h1 c hc (by rw [hc']; rfl)] at this
    refine this.trans ?_
    show some { c' with cellFrame := c.cell.cellFrame } = _
    rw [← (hU _ _ hc').2]
  · intro i hi
    rw [e]
    exact k2 i fun hm => hi (hids.mem_iff.mp hm)

theorem rowUnshift_keeps (idx : Int) (c c' : TableCell) (h : rowUnshift idx c = some c') : c'.id = c.id ∧ c'.cellFrame = c.cellFrame := by
  unfold rowUnshift at h
  split at h
  · cases h
  · split at h
    · cases h; exact ⟨rfl, rfl⟩
    · split at h
      · cases h; exact ⟨rfl, rfl⟩
      · split at h <;> cases h <;> exact ⟨rfl, rfl⟩

theorem columnUnshift_keeps (idx : Int) (c c' : TableCell) (h : columnUnshift idx c = some c') : c'.id = c.id ∧ c'.cellFrame = c.cellFrame := by
  unfold columnUnshift at h
  split at h
  · cases h
  · split at h
    · cases h; exact ⟨rfl, rfl⟩
    · split at h
      · cases h; exact ⟨rfl, rfl⟩
      · split at h <;> cases h <;> exact ⟨rfl, rfl⟩

theorem filterMap_length (U : TableCell → Option TableCell) (l : List TableCell) :
    ((l.filter fun c => (U c).isNone).length : Int) = l.length - (l.filterMap U).length := by
  induction l with
  | nil => rfl
  | cons a l ih =>
    cases h : U a with
    | none => rw [List.filterMap_cons_none h, List.filter_cons_of_pos (by simp [h]), List.length_cons, List.length_cons]; omega
    | some b => rw [List.filterMap_cons_some h, List.filter_cons_of_neg (by simp [h]), List.length_cons, List.length_cons]; omega

theorem at_id {m : IdMap Table} {i j : Nat} {v : Option Table} (h : i = j) (e : m i = v) : m j = v := h ▸ e

/-- A row of a table is removed. -/
theorem Arranged.removeRow (h : Arranged s d f (A ++ .table t :: B)) (hdocs : ∀ i, (s.documents i).isSome → i = d.id) {idx : Int} {g' : Grid}
    (hg : Verif.removeRow t.grid idx = some g') (hap : g'.Apart) :
    ∃ s' d' t', s.removeTableRow t.table.id idx = some (s', s.snapshot) ∧
      Restructured t g' t' ∧ Arranged s' d' f (A ++ .table t' :: B) ∧
      d' = { d with frames := d'.frames, blockCount := d.blockCount - (t.cells.length - g'.cells.length) } ∧ s'.lists = s.lists ∧
      (Tabled s d f (A ++ .table t :: B) → t.bare → Tabled s' d' f (A ++ .table t' :: B)) := by
  have ht : t ∈ tablesOf (A ++ .table t :: B) := by rw [tables_at]; simp
  have hperm := h.cells_read ht
  have hlen := filterMap_length (rowUnshift idx) (t.cells.map SCell.cell)
  unfold Verif.removeRow at hg
  split at hg
  · cases hg
  rename_i hb1
  split at hg
  · cases hg
  rename_i hb2
  cases hg
  obtain ⟨s1, fs, cells1, e1, e2, e3, key⟩ := h.shrinkAll hdocs (rowUnshift_keeps idx)
    (gone := (s.getCells (s.tableCellIds t.table.id)).filter fun c => (rowUnshift idx c).isNone) rfl hap (hperm.filter _)
    (tb := { t.table with rows := t.table.rows - 1 }) rfl
    (s.tableBase ((s.getCells (s.tableCellIds t.table.id)).filterMap TableCell.cellFrame))
  obtain ⟨w1, w2, w3⟩ := h.wroteSome (rowUnshift_keeps idx) e3 (hperm.filterMap (rowUnshift idx))
  have w4 : (s1.updateCells ((s.getCells (s.tableCellIds t.table.id)).filterMap (rowUnshift idx))).tables = s1.tables := by rw [w1]
  obtain ⟨u1, u2, u3⟩ := updateTable_get (s := s1.updateCells ((s.getCells (s.tableCellIds t.table.id)).filterMap (rowUnshift idx)))
    (tb := { t.table with rows := t.table.rows - 1 }) (by rw [w4]; exact e2)
  obtain ⟨t', r1, key⟩ := key ((s1.updateCells ((s.getCells (s.tableCellIds t.table.id)).filterMap (rowUnshift idx))).updateTable
    { t.table with rows := t.table.rows - 1 }) (by rw [u1, w1]) w2 w3 (by rw [← w4]; exact u2) u3
  obtain ⟨k1, k2, k3⟩ := key _ rfl
  refine ⟨_, _, t', ?_, r1, k1, ?_, k2, ?_⟩
  · unfold Store.removeTableRow
    rw [h.docId, Option.bind_some, h.document, Option.bind_some, (h.table t ht).table, Option.bind_some,
      if_neg (by have : ¬ (idx < 0 ∨ idx ≥ t.table.rows) := hb1; exact this), if_neg (by have : ¬ t.table.rows ≤ 1 := hb2; exact this)]
    simp only
    rw [e1, Option.bind_some]
  · rw [List.Perm.length_eq (hperm.filter fun c => (rowUnshift idx c).isNone), hlen, List.length_map]; rfl
  · intro hT hb
    exact k3 hT hb rfl

/-- A column of a table is removed. -/
theorem Arranged.removeColumn (h : Arranged s d f (A ++ .table t :: B)) (hdocs : ∀ i, (s.documents i).isSome → i = d.id) {idx : Int} {g' : Grid}
    (hg : Verif.removeColumn t.grid idx = some g') (hap : g'.Apart) :
    ∃ s' d' t', s.removeTableColumn t.table.id idx = some (s', s.snapshot) ∧
      Restructured t g' t' ∧ Arranged s' d' f (A ++ .table t' :: B) ∧
      d' = { d with frames := d'.frames, blockCount := d.blockCount - (t.cells.length - g'.cells.length) } ∧ s'.lists = s.lists ∧
      (Tabled s d f (A ++ .table t :: B) → t.bare → Tabled s' d' f (A ++ .table t' :: B)) := by
  have ht : t ∈ tablesOf (A ++ .table t :: B) := by rw [tables_at]; simp
  have hperm := h.cells_read ht
  have hlen := filterMap_length (columnUnshift idx) (t.cells.map SCell.cell)
  unfold Verif.removeColumn at hg
  split at hg
  · cases hg
  rename_i hb1
  split at hg
  · cases hg
  rename_i hb2
  cases hg
  generalize htb : ({ t.table with columns := t.table.columns - 1
                                   columnWidths := if idx.toNat < t.table.columnWidths.length then t.table.columnWidths.eraseIdx idx.toNat else t.table.columnWidths } : Table) = tb
  obtain ⟨s1, fs, cells1, e1, e2, e3, key⟩ := h.shrinkAll hdocs (columnUnshift_keeps idx)
    (gone := (s.getCells (s.tableCellIds t.table.id)).filter fun c => (columnUnshift idx c).isNone) rfl hap (hperm.filter _)
    (tb := tb) (by rw [← htb]; rfl)
    (s.tableBase ((s.getCells (s.tableCellIds t.table.id)).filterMap TableCell.cellFrame))
  have htid : tb.id = t.table.id := by rw [← htb]
  obtain ⟨w1, w2, w3⟩ := h.wroteSome (columnUnshift_keeps idx) e3 (hperm.filterMap (columnUnshift idx))
  have w4 : (s1.updateCells ((s.getCells (s.tableCellIds t.table.id)).filterMap (columnUnshift idx))).tables = s1.tables := by rw [w1]
  obtain ⟨u1, u2, u3⟩ := updateTable_get (s := s1.updateCells ((s.getCells (s.tableCellIds t.table.id)).filterMap (columnUnshift idx)))
    (tb := tb) (by rw [w4, htid]; exact e2)
  rw [htid] at u2
  obtain ⟨t', r1, key⟩ := key ((s1.updateCells ((s.getCells (s.tableCellIds t.table.id)).filterMap (columnUnshift idx))).updateTable
    tb) (by rw [u1, w1]) w2 w3 (by rw [← w4]; exact u2) (at_id htid u3)
  obtain ⟨k1, k2, k3⟩ := key _ rfl
  refine ⟨_, _, t', ?_, r1, k1, ?_, k2, ?_⟩
  · unfold Store.removeTableColumn
    rw [h.docId, Option.bind_some, h.document, Option.bind_some, (h.table t ht).table, Option.bind_some,
      if_neg (by have : ¬ t.table.columns ≤ 1 := hb1; exact this), if_neg (by have : ¬ (idx < 0 ∨ idx ≥ t.table.columns) := hb2; exact this)]
    simp only
    rw [e1, Option.bind_some, htb]
  · rw [List.Perm.length_eq (hperm.filter fun c => (columnUnshift idx c).isNone), hlen, List.length_map]; rfl
  · intro hT hb
    exact k3 hT hb rfl

/-- What merging does to a cell. -/
def mergeStep (r0 c0 r1 c1 : Int) (surv : Nat) (c : TableCell) : Option TableCell :=
  if startsInside r0 c0 r1 c1 c && decide (c.id ≠ surv) then none
  else some (if c.id = surv then { c with rowSpan := r1 - r0 + 1, columnSpan := c1 - c0 + 1 } else c)

theorem mergeStep_keeps {r0 c0 r1 c1 : Int} {surv : Nat} (c c' : TableCell) (h : mergeStep r0 c0 r1 c1 surv c = some c') :
    c'.id = c.id ∧ c'.cellFrame = c.cellFrame ∧ c'.row = c.row ∧ c'.column = c.column := by
  unfold mergeStep at h
  split at h
  · cases h
  · cases h
    split <;> exact ⟨rfl, rfl, rfl, rfl⟩

theorem mergeStep_cells (r0 c0 r1 c1 : Int) (surv : Nat) (l : List TableCell) :
    l.filterMap (mergeStep r0 c0 r1 c1 surv) = (l.filter fun c => !(startsInside r0 c0 r1 c1 c && decide (c.id ≠ surv))).map fun c =>
      if c.id = surv then { c with rowSpan := r1 - r0 + 1, columnSpan := c1 - c0 + 1 } else c := by
  induction l with
  | nil => rfl
  | cons a l ih =>
    by_cases h : (startsInside r0 c0 r1 c1 a && decide (a.id ≠ surv)) = true
    · rw [List.filterMap_cons_none (by unfold mergeStep; rw [if_pos h]), List.filter_cons_of_neg (by rw [h]; simp), ih]
    · rw [List.filterMap_cons_some (by unfold mergeStep; rw [if_neg h]), List.filter_cons_of_pos (by rw [Bool.eq_false_iff.mpr h]; rfl), ih, List.map_cons]

theorem mergeStep_gone (r0 c0 r1 c1 : Int) (surv : Nat) (l : List TableCell) :
    (l.filter fun c => (mergeStep r0 c0 r1 c1 surv c).isNone) = (l.filter (startsInside r0 c0 r1 c1)).filter fun c => decide (c.id ≠ surv) := by
  rw [List.filter_filter]
  apply List.filter_congr
  intro c _
  unfold mergeStep
  by_cases h : (startsInside r0 c0 r1 c1 c && decide (c.id ≠ surv)) = true
  · rw [if_pos h, Bool.and_comm]; exact h.symm
  · rw [if_neg h, Bool.and_comm]
    have : (startsInside r0 c0 r1 c1 c && decide (c.id ≠ surv)) = false := by simpa using h
    exact this.symm

/-- Cells of a table are merged. -/
theorem Arranged.mergeCells (h : Arranged s d f (A ++ .table t :: B)) (hdocs : ∀ i, (s.documents i).isSome → i = d.id)
    {r0 c0 r1 c1 : Int} {g' : Grid} (hg : Verif.mergeCells t.grid r0 c0 r1 c1 = some g') :
    ∃ s' d' t' c, s.mergeTableCells t.table.id r0 c0 r1 c1 = some (s', c.cell.id, s.snapshot) ∧
      c ∈ t.cells ∧ c.cell.row = r0 ∧ c.cell.column = c0 ∧
      Restructured t g' t' ∧ Arranged s' d' f (A ++ .table t' :: B) ∧
      d' = { d with frames := d'.frames, blockCount := d.blockCount - (t.cells.length - g'.cells.length) } ∧ s'.lists = s.lists ∧
      (Tabled s d f (A ++ .table t :: B) → t.bare → Tabled s' d' f (A ++ .table t' :: B)) := by
  have ht : t ∈ tablesOf (A ++ .table t :: B) := by rw [tables_at]; simp
  have hperm := h.cells_read ht
  have hapart := h.apart
  unfold Verif.mergeCells at hg
  split at hg
  · cases hg
  rename_i hb1
  split at hg
  · cases hg
  rename_i hb2
  split at hg
  · cases hg
  rename_i hb3
  simp only at hg
  split at hg
  · cases hg
  rename_i hb4
  obtain ⟨surv, hs, hg⟩ := Option.map_eq_some_iff.mp hg
  have hsm := List.mem_of_find?_eq_some hs
  have hsp := List.find?_some hs
  simp only [decide_eq_true_eq] at hsp
  obtain ⟨hsm, hsi⟩ := List.mem_filter.mp hsm
  obtain ⟨c, hc, hce⟩ := List.mem_map.mp (show surv ∈ t.cells.map SCell.cell from hsm)
  subst hg
  have hcells : ∀ x, x ∈ s.getCells (s.tableCellIds t.table.id) ↔ x ∈ t.cells.map SCell.cell := fun x => hperm.mem_iff
  have hfind : ((s.getCells (s.tableCellIds t.table.id)).filter (startsInside r0 c0 r1 c1)).find?
      (fun c => decide (c.row = r0 ∧ c.column = c0)) = some surv := by
    cases hf : ((s.getCells (s.tableCellIds t.table.id)).filter (startsInside r0 c0 r1 c1)).find?
        (fun c => decide (c.row = r0 ∧ c.column = c0)) with
    | none =>
      rw [List.find?_eq_none] at hf
      exact absurd (by simpa using hsp) (hf surv (List.mem_filter.mpr ⟨(hcells surv).mpr hsm, hsi⟩))
    | some y =>
      have q1 := List.mem_of_find?_eq_some hf
      have q2 := List.find?_some hf
      simp only [decide_eq_true_eq] at q2
      have q3 := (hcells y).mp (List.mem_filter.mp q1).1
      congr 1
      obtain ⟨U, V, e⟩ := List.append_of_mem q3
      unfold Grid.Apart at hapart
      have hap' : ((t.cells.map SCell.cell).map fun c => (c.row, c.column)).Nodup := hapart
      rw [e] at hap'
      rw [show t.grid.cells = U ++ y :: V from e] at hsm
      rw [List.map_append, List.map_cons, List.nodup_append, List.nodup_cons] at hap'
      rcases List.mem_append.mp hsm with hm | hm
      · exact absurd (by rw [hsp.1, hsp.2, q2.1, q2.2]) (hap'.2.2 (surv.row, surv.column) (List.mem_map_of_mem (f := fun c : TableCell => (c.row, c.column)) hm) (y.row, y.column) (by simp))
      · rcases List.mem_cons.mp hm with hm | hm
        · exact hm.symm
        · exact absurd (by rw [← q2.1, ← q2.2] at hsp; rw [← hsp.1, ← hsp.2]; exact List.mem_map_of_mem (f := fun c : TableCell => (c.row, c.column)) hm) hap'.2.1.1
  have hany : ¬ (((s.getCells (s.tableCellIds t.table.id)).filter (startsInside r0 c0 r1 c1)).any fun c => decide (c.rowSpan > 1 ∨ c.columnSpan > 1)) = true := by
    intro ha
    apply hb4
    obtain ⟨x, hx, hx2⟩ := List.any_eq_true.mp ha
    obtain ⟨q1, q2⟩ := List.mem_filter.mp hx
    exact List.any_eq_true.mpr ⟨x, List.mem_filter.mpr ⟨(hcells x).mp q1, q2⟩, hx2⟩
  have hU : ∀ c c', mergeStep r0 c0 r1 c1 surv.id c = some c' → c'.id = c.id ∧ c'.cellFrame = c.cellFrame := fun c c' e =>
    ⟨(mergeStep_keeps c c' e).1, (mergeStep_keeps c c' e).2.1⟩
  have hgc := mergeStep_cells r0 c0 r1 c1 surv.id (t.cells.map SCell.cell)
  have hap : Grid.Apart ⟨t.grid.rows, t.grid.columns, t.grid.widths, (t.cells.map SCell.cell).filterMap (mergeStep r0 c0 r1 c1 surv.id)⟩ := by
    unfold Grid.Apart at hapart ⊢
    show (((t.cells.map SCell.cell).filterMap (mergeStep r0 c0 r1 c1 surv.id)).map fun c => (c.row, c.column)).Nodup
    have e : ((t.cells.map SCell.cell).filterMap (mergeStep r0 c0 r1 c1 surv.id)).map (fun c => (c.row, c.column)) =
        ((t.cells.map SCell.cell).filter fun c => (mergeStep r0 c0 r1 c1 surv.id c).isSome).map fun c => (c.row, c.column) := by
      rw [filterMap_getD, List.map_map]
      apply List.map_congr_left
      intro x hx
      obtain ⟨y, hy⟩ := Option.isSome_iff_exists.mp (List.mem_filter.mp hx).2
      have := mergeStep_keeps x y hy
      simp only [Function.comp]
      rw [hy, Option.getD_some, this.2.2.1, this.2.2.2]
    rw [e]
    exact List.Nodup.sublist (List.filter_sublist.map _) hapart
  have hgone : (((s.getCells (s.tableCellIds t.table.id)).filter (startsInside r0 c0 r1 c1)).filter fun c => decide (c.id ≠ surv.id)).Perm
      ((t.cells.map SCell.cell).filter fun c => (mergeStep r0 c0 r1 c1 surv.id c).isNone) := by
    rw [mergeStep_gone]
    exact (hperm.filter _).filter _
  obtain ⟨s1, fs, cells1, e1, e2, e3, key⟩ := h.shrinkAll hdocs hU rfl hap hgone (tb := t.table) rfl
    (s.tableBase ((s.getCells (s.tableCellIds t.table.id)).filterMap TableCell.cellFrame))
  generalize hgn : ((s.getCells (s.tableCellIds t.table.id)).filter (startsInside r0 c0 r1 c1)).filter (fun c => decide (c.id ≠ surv.id)) = gone at *
  have hsu : mergeStep r0 c0 r1 c1 surv.id surv = some { surv with rowSpan := r1 - r0 + 1, columnSpan := c1 - c0 + 1 } := by
    unfold mergeStep
    rw [if_neg (by simp), if_pos rfl]
  have hs1 := e3 c hc (by rw [hce, hsu]; rfl)
  have hother : ∀ i, i ≠ surv.id → (s1.updateCell { surv with rowSpan := r1 - r0 + 1, columnSpan := c1 - c0 + 1 }).tableCells i = s1.tableCells i := by
    intro i hi
    show (s1.tableCells.insert _ _) i = _
    rw [IdMap.insert_get, if_neg hi]
  have hthis : (s1.updateCell { surv with rowSpan := r1 - r0 + 1, columnSpan := c1 - c0 + 1 }).tableCells surv.id =
      some { surv with rowSpan := r1 - r0 + 1, columnSpan := c1 - c0 + 1 } := by
    show (s1.tableCells.insert surv.id (keepCell _ (s1.tableCells surv.id))) surv.id = _
    rw [IdMap.insert_get, if_pos rfl]
    rw [hce] at hs1
    rw [hs1]; rfl
  obtain ⟨t', r1', key⟩ := key (s1.updateCell { surv with rowSpan := r1 - r0 + 1, columnSpan := c1 - c0 + 1 }) rfl (by
      intro x hx x' hx'
      by_cases e : x.cell.id = surv.id
      · have : x = c := eq_of_nodup_map h.ids_here hx hc (by rw [hce]; exact e)
        rw [this, hce] at hx' ⊢
        rw [hthis, ← hsu, hx']
      · rw [hother _ e, e3 x hx (by rw [hx']; rfl)]
        unfold mergeStep at hx'
        split at hx'
        · cases hx'
        · simpa [e] using hx') (by
      intro i hi
      apply hother
      intro e
      apply hi
      rw [e, ← hce]
      exact List.mem_map_of_mem (f := fun c : SCell => c.cell.id) (List.mem_filter.mpr ⟨hc, by rw [hce, hsu]; rfl⟩))
      (fun i _ => rfl) e2
  obtain ⟨k1, k2, k3⟩ := key _ rfl
  refine ⟨_, _, t', c, ?_, hc, ?_, ?_, ?_, k1, ?_, k2, ?_⟩
  · unfold Store.mergeTableCells
    rw [h.docId, Option.bind_some, h.document, Option.bind_some, (h.table t ht).table, Option.bind_some,
      if_neg hb1, if_neg hb2, if_neg (by have : ¬ (r0 < 0 ∨ r1 ≥ t.table.rows ∨ c0 < 0 ∨ c1 ≥ t.table.columns) := hb3; exact this)]
    simp only
    rw [if_neg hany, hfind, Option.bind_some, hgn, e1, Option.bind_some, hce]
  · rw [hce]; exact hsp.1
  · rw [hce]; exact hsp.2
  · rw [hgc] at r1'; exact r1'
  · have hlen := filterMap_length (mergeStep r0 c0 r1 c1 surv.id) (t.cells.map SCell.cell)
    rw [hgone.length_eq, hlen, List.length_map, hgc]; rfl
  · intro hT hb
    exact k3 hT hb rfl

end Verif
