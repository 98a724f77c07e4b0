import Verif.Spec.TableEdits
import Verif.Lemmas.TableInsert
/- Changing the structure of one table of a document: the shared steps. -/
namespace Verif
variable {s s' : Store} {d d' : Document} {f : Nat} {items A B : List SItem} {t t' : STable}
open Store

theorem mem_tableFrames_iff {g : Nat} : g ∈ tableFrames items ↔ ∃ t ∈ tablesOf items, g = t.anchor ∨ g ∈ t.cells.map SCell.frame := by
  simp only [tableFrames, List.mem_flatMap, List.mem_cons]

theorem mem_cellsOf {c : SCell} : c ∈ cellsOf items ↔ ∃ t ∈ tablesOf items, c ∈ t.cells := by
  simp [cellsOf, List.mem_flatMap]

/-- The frame of a table or of a cell is there. -/
theorem Arranged.frame_some (h : Arranged s d f items) {g : Nat} (hg : g ∈ tableFrames items) : (s.frames g).isSome := by
  obtain ⟨t, ht, rfl | hg⟩ := mem_tableFrames_iff.mp hg
  · obtain ⟨fr, e, _⟩ := (h.table t ht).anchor; rw [e]; rfl
  · obtain ⟨c, hc, rfl⟩ := List.mem_map.mp hg
    obtain ⟨_, _, _, fr, e, _⟩ := (h.table t ht).cell c hc; rw [e]; rfl

theorem Arranged.cell_some (h : Arranged s d f items) {i : Nat} (hi : i ∈ (cellsOf items).map fun c => c.cell.id) : (s.tableCells i).isSome := by
  obtain ⟨c, hc, rfl⟩ := List.mem_map.mp hi
  obtain ⟨t, ht, hc⟩ := mem_cellsOf.mp hc
  rw [((h.table t ht).cell c hc).1]; rfl

theorem Arranged.allFrames (h : Arranged s d f items) : ∀ g ∈ d.frames, (s.frames g).isSome := by
  intro g hg
  obtain ⟨rest, h1, h2⟩ := h.frames
  rw [h1] at hg
  rcases List.mem_cons.mp hg with rfl | hg
  · obtain ⟨fr, e, _⟩ := h.frame; rw [e]; rfl
  · exact h.frame_some (h2.mem_iff.mp hg)

theorem flow_at (A : List SItem) (t : STable) (B : List SItem) :
    flowParas (A ++ .table t :: B) = flowParas A ++ (t.cells.flatMap SCell.paras ++ flowParas B) := by
  rw [flowParas_append, flowParas_table]

theorem top_at (A : List SItem) (t : STable) (B : List SItem) :
    topParas (A ++ .table t :: B) = topParas A ++ topParas B := by
  rw [topParas_append, topParas_table]

theorem tables_at (A : List SItem) (t : STable) (B : List SItem) :
    tablesOf (A ++ .table t :: B) = tablesOf A ++ t :: tablesOf B := by
  rw [tablesOf_append, tablesOf_table]

theorem cells_at (A : List SItem) (t : STable) (B : List SItem) :
    cellsOf (A ++ .table t :: B) = cellsOf A ++ (t.cells ++ cellsOf B) := by
  rw [cellsOf_append, cellsOf_table]

theorem frames_at (A : List SItem) (t : STable) (B : List SItem) :
    tableFrames (A ++ .table t :: B) = tableFrames A ++ (t.anchor :: (t.cells.map SCell.frame ++ tableFrames B)) := by
  rw [tableFrames_append, tableFrames_table]; simp

/-- One table of an arranged document is replaced by another with the same mark and id. -/
theorem Arranged.replace (h : Arranged s d f (A ++ .table t :: B)) (ha : t'.anchor = t.anchor)
    (hid : t'.table.id = t.table.id) (hroots : s'.roots = s.roots) (hdoc : s'.documents d.id = some d') (hdid : d'.id = d.id)
    (hdt : d'.tables = d.tables) (hdf : ∃ rest, d'.frames = f :: rest ∧ rest.Perm (tableFrames (A ++ .table t' :: B)))
    (hcontent : ∃ L, Carries s' L (flowParas (A ++ .table t' :: B)) ((tablesOf (A ++ .table t' :: B)).map fun t => t.table.id) ∧
      (paras (topParas (A ++ .table t' :: B))).Sublist L)
    (hf1 : ∀ i, i ∉ t.cells.map SCell.frame → i ∉ t'.cells.map SCell.frame → s'.frames i = s.frames i)
    (hf2 : ∀ i, i ∈ t.cells.map SCell.frame → i ∉ t'.cells.map SCell.frame → s'.frames i = none)
    (hf3 : ∀ i, i ∈ t'.cells.map SCell.frame → i ∉ t.cells.map SCell.frame → s.frames i = none)
    (hc1 : ∀ i, (i ∉ t.cells.map fun c => c.cell.id) → (i ∉ t'.cells.map fun c => c.cell.id) → s'.tableCells i = s.tableCells i)
    (hc2 : ∀ i, (i ∈ t.cells.map fun c => c.cell.id) → (i ∉ t'.cells.map fun c => c.cell.id) → s'.tableCells i = none)
    (hc3 : ∀ i, (i ∈ t'.cells.map fun c => c.cell.id) → (i ∉ t.cells.map fun c => c.cell.id) → s.tableCells i = none)
    (ht1 : ∀ i, i ≠ t.table.id → s'.tables i = s.tables i) (ht2 : s'.tables t.table.id = some t'.table)
    (hperm : t'.table.cells.Perm (t'.cells.map fun c => c.cell.id)) (horder : t'.cells.Pairwise SCell.before)
    (hnf : (t'.cells.map SCell.frame).Nodup) (hnc : (t'.cells.map fun c => c.cell.id).Nodup)
    (hcell : ∀ c ∈ t'.cells, s'.tableCells c.cell.id = some c.cell ∧ c.cell.cellFrame = some c.frame ∧ c.paras ≠ [] ∧
      ∃ fr, s'.frames c.frame = some fr ∧ fr.id = c.frame ∧ fr.table = none ∧
        (fr.parentFrame = some t.anchor ∨ fr.parentFrame = none) ∧
        fr.childOrder = c.paras.map (fun p => (p.id : Int)) ∧ fr.blocks.Perm (c.paras.map SPara.id))
    (hn1 : s.next "frame" ≤ s'.next "frame") (hn2 : s.next "table" ≤ s'.next "table") (hn3 : s.next "table_cell" ≤ s'.next "table_cell")
    (hb : ∀ c ∈ t'.cells, 0 < c.frame ∧ c.frame < s'.next "frame" ∧ c.cell.id < s'.next "table_cell")
    (hpos : ∀ c ∈ t'.cells, ∀ p ∈ c.paras, 0 < p.id) : Arranged s' d' f (A ++ .table t' :: B) := by
  have hdist := h.distinct
  rw [frames_at, cells_at] at hdist
  obtain ⟨L0, hL0, _⟩ := h.content
  have htn := hL0.tables_nodup
  rw [tables_at, List.map_append, List.map_cons] at htn
  -- frames and cells of the rest of the document
  have hfrest : ∀ g, (g = f ∨ g = t.anchor ∨ g ∈ tableFrames A ∨ g ∈ tableFrames B) →
      (s.frames g).isSome ∧ g ∉ t.cells.map SCell.frame := by
    intro g hg
    have hd := hdist.1
    rw [List.nodup_cons, List.nodup_append, List.nodup_cons, List.nodup_append] at hd
    simp only [List.mem_append, List.mem_cons, not_or] at hd
    rcases hg with rfl | rfl | hg | hg
    · obtain ⟨fr, e, _⟩ := h.frame
      exact ⟨by rw [e]; rfl, hd.1.2.2.1⟩
    · exact ⟨h.frame_some (by rw [frames_at]; simp), hd.2.2.1.1.1⟩
    · exact ⟨h.frame_some (by rw [frames_at]; simp [hg]), fun hm => hd.2.2.2 g hg g (.inr (.inl hm)) rfl⟩
    · exact ⟨h.frame_some (by rw [frames_at]; simp [hg]), fun hm => hd.2.2.1.2.2.2 g hm g hg rfl⟩
  have hfout : ∀ g, (g = f ∨ g = t.anchor ∨ g ∈ tableFrames A ∨ g ∈ tableFrames B) → g ∉ t'.cells.map SCell.frame := by
    intro g hg hm
    have h1 := hfrest g hg
    have := hf3 g hm h1.2
    rw [this] at h1; simp at h1
  have hfsame : ∀ g, (g = f ∨ g = t.anchor ∨ g ∈ tableFrames A ∨ g ∈ tableFrames B) → s'.frames g = s.frames g :=
    fun g hg => hf1 g (hfrest g hg).2 (hfout g hg)
  have hcrest : ∀ i, (i ∈ (cellsOf A).map (fun c => c.cell.id) ∨ i ∈ (cellsOf B).map fun c => c.cell.id) →
      (s.tableCells i).isSome ∧ i ∉ t.cells.map fun c => c.cell.id := by
    intro i hi
    have hd := hdist.2
    rw [List.map_append, List.map_append, List.nodup_append, List.nodup_append] at hd
    simp only [List.mem_append] at hd
    rcases hi with hi | hi
    · exact ⟨h.cell_some (by rw [cells_at, List.map_append]; exact List.mem_append_left _ hi),
        fun hm => hd.2.2 i hi i (.inl hm) rfl⟩
    · exact ⟨h.cell_some (by rw [cells_at, List.map_append, List.map_append]; exact List.mem_append_right _ (List.mem_append_right _ hi)),
        fun hm => hd.2.1.2.2 i hm i hi rfl⟩
  have hcout : ∀ i, (i ∈ (cellsOf A).map (fun c => c.cell.id) ∨ i ∈ (cellsOf B).map fun c => c.cell.id) →
      i ∉ t'.cells.map fun c => c.cell.id := by
    intro i hi hm
    have h1 := hcrest i hi
    have := hc3 i hm h1.2
    rw [this] at h1; simp at h1
  have hcsame : ∀ i, (i ∈ (cellsOf A).map (fun c => c.cell.id) ∨ i ∈ (cellsOf B).map fun c => c.cell.id) →
      s'.tableCells i = s.tableCells i := fun i hi => hc1 i (hcrest i hi).2 (hcout i hi)
  have hother : ∀ u, u ∈ tablesOf A ∨ u ∈ tablesOf B → ShowsTable s' f u := by
    intro u hu
    have hum : u ∈ tablesOf (A ++ .table t :: B) := by
      rw [tables_at, List.mem_append, List.mem_cons]
      rcases hu with hu | hu
      · exact .inl hu
      · exact .inr (.inr hu)
    have hU := h.table u hum
    have hne : u.table.id ≠ t.table.id := by
      rw [List.nodup_append, List.nodup_cons] at htn
      rcases hu with hu | hu
      · exact htn.2.2 _ (List.mem_map_of_mem hu) _ (by simp)
      · intro e; exact htn.2.1.1 (e ▸ List.mem_map_of_mem (f := fun t : STable => t.table.id) hu)
    have hg : ∀ g, g = u.anchor ∨ g ∈ u.cells.map SCell.frame → s'.frames g = s.frames g := by
      intro g hg
      apply hfsame
      rcases hu with hu | hu
      · exact .inr (.inr (.inl (mem_tableFrames_iff.mpr ⟨u, hu, hg⟩)))
      · exact .inr (.inr (.inr (mem_tableFrames_iff.mpr ⟨u, hu, hg⟩)))
    refine ⟨by rw [ht1 _ hne]; exact hU.table, hU.cells, hU.order, by rw [hg _ (.inl rfl)]; exact hU.anchor, ?_⟩
    intro c hc
    rw [hg _ (.inr (List.mem_map_of_mem hc)), hcsame]
    · exact hU.cell c hc
    · rcases hu with hu | hu
      · exact .inl (List.mem_map_of_mem (f := fun c : SCell => c.cell.id) (mem_cellsOf.mpr ⟨u, hu, hc⟩))
      · exact .inr (List.mem_map_of_mem (f := fun c : SCell => c.cell.id) (mem_cellsOf.mpr ⟨u, hu, hc⟩))
  constructor
  · rw [hroots, hdid]; exact h.root
  · rw [hdid]; exact hdoc
  · exact hcontent
  · obtain ⟨fr, k1, k2, k3, k4, k5, k6, k7⟩ := h.frame
    refine ⟨fr, by rw [hfsame f (.inl rfl)]; exact k1, k2, k3, k4, k5, ?_, ?_⟩
    · rw [k6]; simp [SItem.entry, ha]
    · rw [top_at] at k7 ⊢; exact k7
  · intro u hu
    rw [tables_at, List.mem_append, List.mem_cons] at hu
    rcases hu with hu | rfl | hu
    · exact hother u (.inl hu)
    · refine ⟨by rw [hid]; exact ht2, hperm, horder, ?_, ?_⟩
      · rw [ha, hid, hfsame _ (.inr (.inl rfl))]
        exact (h.table t (by rw [tables_at]; simp)).anchor
      · rw [ha]; exact hcell
    · exact hother u (.inr hu)
  · exact hdf
  · constructor
    · rw [frames_at, ha]
      have hd := hdist.1
      rw [List.nodup_cons, List.nodup_append, List.nodup_cons, List.nodup_append] at hd ⊢
      simp only [List.mem_append, List.mem_cons, not_or] at hd ⊢
      refine ⟨⟨hd.1.1, hd.1.2.1, hfout f (.inl rfl), hd.1.2.2.2⟩, hd.2.1, ⟨⟨hfout _ (.inr (.inl rfl)), hd.2.2.1.1.2⟩, hnf, hd.2.2.1.2.2.1, ?_⟩, ?_⟩
      · rintro a ha b hb rfl
        exact hfout a (.inr (.inr (.inr hb))) ha
      · rintro a ha b hb rfl
        rcases hb with rfl | hb | hb
        · exact hd.2.2.2 _ ha _ (.inl rfl) rfl
        · exact hfout a (.inr (.inr (.inl ha))) hb
        · exact hd.2.2.2 _ ha _ (.inr (.inr hb)) rfl
    · rw [cells_at]
      have hd := hdist.2
      rw [List.map_append, List.map_append, List.nodup_append, List.nodup_append] at hd ⊢
      simp only [List.mem_append] at hd ⊢
      refine ⟨hd.1, ⟨hnc, hd.2.1.2.1, ?_⟩, ?_⟩
      · rintro a ha b hb rfl
        exact hcout a (.inr hb) ha
      · rintro a ha b hb rfl
        rcases hb with hb | hb
        · exact hcout a (.inl ha) hb
        · exact hd.2.2 _ ha _ (.inr hb) rfl
  · intro g hg
    rw [frames_at, ha]
    by_cases h1 : g ∈ t'.cells.map SCell.frame
    · simp only [List.mem_cons, List.mem_append]; exact .inr (.inr (.inr (.inl h1)))
    · by_cases h2 : g ∈ t.cells.map SCell.frame
      · rw [hf2 g h2 h1] at hg; simp at hg
      · rw [hf1 g h2 h1] at hg
        have := h.onlyFrames g hg
        rw [frames_at] at this
        simp only [List.mem_cons, List.mem_append] at this ⊢
        rcases this with h3 | h3 | h3 | h3 | h3
        · exact .inl h3
        · exact .inr (.inl h3)
        · exact .inr (.inr (.inl h3))
        · exact absurd h3 h2
        · exact .inr (.inr (.inr (.inr h3)))
  · rw [hdt]
    have := h.tables
    rw [tables_at] at this ⊢
    simpa [hid] using this
  · intro g hg
    by_cases h1 : g ∈ t'.cells.map SCell.frame
    · obtain ⟨c, hc, rfl⟩ := List.mem_map.mp h1
      exact ⟨(hb c hc).1, (hb c hc).2.1⟩
    · by_cases h2 : g ∈ t.cells.map SCell.frame
      · rw [hf2 g h2 h1] at hg; simp at hg
      · rw [hf1 g h2 h1] at hg
        have := h.freshFrames g hg
        exact ⟨this.1, by omega⟩
  · intro i hi
    by_cases e : i = t.table.id
    · have := h.freshTables i (by rw [e, (h.table t (by rw [tables_at]; simp)).table]; rfl)
      omega
    · rw [ht1 i e] at hi
      have := h.freshTables i hi
      omega
  · intro i hi
    by_cases h1 : i ∈ t'.cells.map fun c => c.cell.id
    · obtain ⟨c, hc, rfl⟩ := List.mem_map.mp h1
      exact (hb c hc).2.2
    · by_cases h2 : i ∈ t.cells.map fun c => c.cell.id
      · rw [hc2 i h2 h1] at hi; simp at hi
      · rw [hc1 i h2 h1] at hi
        have := h.freshCells i hi
        omega
  · intro i hi
    rw [tables_at]
    by_cases e : i = t.table.id
    · simp [hid, e]
    · rw [ht1 i e] at hi
      have := h.onlyTables i hi
      rw [tables_at] at this
      simp only [List.map_append, List.map_cons, List.mem_append, List.mem_cons] at this ⊢
      rw [hid]; exact this
  · intro i hi
    rw [cells_at, List.map_append, List.map_append, List.mem_append, List.mem_append]
    by_cases h1 : i ∈ t'.cells.map fun c => c.cell.id
    · exact .inr (.inl h1)
    · by_cases h2 : i ∈ t.cells.map fun c => c.cell.id
      · rw [hc2 i h2 h1] at hi; simp at hi
      · rw [hc1 i h2 h1] at hi
        have := h.onlyCells i hi
        rw [cells_at, List.map_append, List.map_append, List.mem_append, List.mem_append] at this
        rcases this with h3 | h3 | h3
        · exact .inl h3
        · exact absurd h3 h2
        · exact .inr (.inr h3)
  · intro p hp
    rw [flow_at] at hp
    simp only [List.mem_append, List.mem_flatMap] at hp
    rcases hp with hp | ⟨c, hc, hp⟩ | hp
    · exact h.positive p (by rw [flow_at]; simp [hp])
    · exact hpos c hc p hp
    · exact h.positive p (by rw [flow_at]; simp [hp])
  · rw [top_at]
    have := h.nonempty
    rwa [top_at] at this

theorem Carries.reorder {L : List Para} {ps ps' : List SPara} {ts ts' : List Nat} (h : Carries s L ps ts) (hp : ps'.Perm ps)
    (ht : ts'.Perm ts) : Carries s L ps' ts' where
  text := h.text
  perm := h.perm.trans (List.Perm.append (hp.map _) (ht.map _)).symm
  keys := h.keys.trans (hp.map _).symm
  block := fun p m => h.block p (hp.mem_iff.mp m)
  formats := fun p m => h.formats p (hp.mem_iff.mp m)
  images := fun p m => h.images p (hp.mem_iff.mp m)
  fresh := fun p m => h.fresh p (hp.mem_iff.mp m)
  clean := h.clean

/-- Cells with other records. -/
def recell (G : TableCell → TableCell) (c : SCell) : SCell := { c with cell := G c.cell }

/-- The records of the cells of one table and the record of the table are changed; ids and frames stay. -/
theorem Arranged.recelled (h : Arranged s d f (A ++ .table t :: B)) {G : TableCell → TableCell} {tb : Table} {cs : List SCell}
    (hG : ∀ c ∈ t.cells, (G c.cell).id = c.cell.id ∧ (G c.cell).cellFrame = c.cell.cellFrame)
    (hm1 : ∀ c ∈ t.cells, s'.tableCells c.cell.id = some (G c.cell))
    (hm2 : ∀ i, (i ∉ t.cells.map fun c => c.cell.id) → s'.tableCells i = s.tableCells i)
    (ht1 : ∀ i, i ≠ t.table.id → s'.tables i = s.tables i) (ht2 : s'.tables t.table.id = some tb) (ht3 : tb.id = t.table.id)
    (ht4 : tb.cells = t.table.cells) (hs : s' = { s with tableCells := s'.tableCells, tables := s'.tables })
    (hcs : cs.Perm (t.cells.map (recell G))) (ho : cs.Pairwise SCell.before) :
    Arranged s' d f (A ++ .table ⟨tb, t.anchor, cs⟩ :: B) := by
  have hT := h.table t (by rw [tables_at]; simp)
  have hfp : (cs.map SCell.frame).Perm (t.cells.map SCell.frame) := (hcs.map _).trans (.of_eq (by rw [List.map_map]; rfl))
  have hip : (cs.map fun c => c.cell.id).Perm (t.cells.map fun c => c.cell.id) := by
    refine (hcs.map _).trans (.of_eq ?_)
    rw [List.map_map]
    exact List.map_congr_left fun c hc => (hG c hc).1
  have hpp : (cs.flatMap SCell.paras).Perm (t.cells.flatMap SCell.paras) := by
    refine (hcs.flatMap_right _).trans (.of_eq ?_)
    rw [List.flatMap_map]; rfl
  have hd := h.distinct
  rw [frames_at, cells_at, List.map_append, List.map_append, List.nodup_cons, List.nodup_append, List.nodup_cons, List.nodup_append,
    List.nodup_append, List.nodup_append] at hd
  have hmem : ∀ c ∈ cs, ∃ c0 ∈ t.cells, c = Verif.recell G c0 := by
    intro c hc
    obtain ⟨c0, h1, h2⟩ := List.mem_map.mp (hcs.mem_iff.mp hc)
    exact ⟨c0, h1, h2.symm⟩
  have hfr : s'.frames = s.frames := by rw [hs]
  apply h.replace (t' := ⟨tb, t.anchor, cs⟩) rfl ht3 (by rw [hs]) (by rw [hs]; exact h.document) rfl rfl
  · obtain ⟨rest, h1, h2⟩ := h.frames
    refine ⟨rest, h1, h2.trans ?_⟩
    rw [frames_at, frames_at]
    exact (List.Perm.refl _).append (((hfp.symm).append_right _).cons _)
  · obtain ⟨L, h1, h2⟩ := h.content
    refine ⟨L, ?_, by rw [top_at] at h2 ⊢; exact h2⟩
    have h3 := h1.of_same (s' := s') (by rw [hs]; rfl) (by rw [hs]) (by rw [hs]) (by rw [hs]) (by rw [hs]; rfl)
    refine h3.reorder ?_ (.of_eq ?_)
    · rw [flow_at, flow_at]
      exact (List.Perm.refl _).append (hpp.append_right _)
    · rw [tables_at, tables_at, List.map_append, List.map_append, List.map_cons, List.map_cons, ht3]
  · intro i _ _; rw [hfr]
  · intro i h1 h2; exact absurd (hfp.mem_iff.mpr h1) h2
  · intro i h1 h2; exact absurd (hfp.mem_iff.mp h1) h2
  · intro i h1 _; exact hm2 i h1
  · intro i h1 h2; exact absurd (hip.mem_iff.mpr h1) h2
  · intro i h1 h2; exact absurd (hip.mem_iff.mp h1) h2
  · exact ht1
  · exact ht2
  · show tb.cells.Perm _
    rw [ht4]; exact hT.cells.trans hip.symm
  · exact ho
  · exact hfp.nodup_iff.mpr hd.1.2.2.1.2.1
  · exact hip.nodup_iff.mpr hd.2.2.1.1
  · intro c hc
    obtain ⟨c0, h0, rfl⟩ := hmem c hc
    obtain ⟨k1, k2, k3, k4⟩ := hT.cell c0 h0
    refine ⟨?_, ?_, k3, by rw [hfr]; exact k4⟩
    · show s'.tableCells (G c0.cell).id = some (G c0.cell)
      rw [(hG c0 h0).1]; exact hm1 c0 h0
    · show (G c0.cell).cellFrame = some c0.frame
      rw [(hG c0 h0).2]; exact k2
  · rw [hs]; exact Nat.le_refl _
  · rw [hs]; exact Nat.le_refl _
  · rw [hs]; exact Nat.le_refl _
  · intro c hc
    obtain ⟨c0, h0, rfl⟩ := hmem c hc
    obtain ⟨k1, k2, k3, fr, k4, _⟩ := hT.cell c0 h0
    have h1 := h.freshFrames c0.frame (by rw [k4]; rfl)
    have h2 := h.freshCells c0.cell.id (by rw [k1]; rfl)
    have e : ∀ k, s'.next k = s.next k := by intro k; rw [hs]; rfl
    refine ⟨h1.1, by rw [e]; exact h1.2, ?_⟩
    show (G c0.cell).id < _
    rw [e, (hG c0 h0).1]; exact h2
  · intro c hc p hp
    obtain ⟨c0, h0, rfl⟩ := hmem c hc
    exact h.positive p (by
      rw [flow_at]; simp only [List.mem_append, List.mem_flatMap]; exact .inr (.inl ⟨c0, h0, hp⟩))

/-- Nothing but the stored blocks changed. -/
theorem Arranged.of_blocks {m : IdMap Block} (h : Arranged s d f items)
    (hc : ∃ L, Carries { s with blocks := m } L (flowParas items) ((tablesOf items).map fun t => t.table.id) ∧
      (paras (topParas items)).Sublist L) : Arranged { s with blocks := m } d f items :=
  ⟨h.root, h.document, hc, h.frame, fun t ht => ⟨(h.table t ht).table, (h.table t ht).cells, (h.table t ht).order,
    (h.table t ht).anchor, (h.table t ht).cell⟩, h.frames, h.distinct, h.onlyFrames, h.tables,
    h.freshFrames, h.freshTables, h.freshCells, h.onlyTables, h.onlyCells, h.positive, h.nonempty⟩

theorem updateBlocks_only (bs : List Block) : ∀ s : Store, ∃ m, s.updateBlocks bs = { s with blocks := m } := by
  induction bs with
  | nil => intro s; exact ⟨s.blocks, rfl⟩
  | cons b bs ih =>
    intro s
    obtain ⟨m, e⟩ := ih (s.updateBlock b)
    exact ⟨m, by show (s.updateBlock b).updateBlocks bs = _; rw [e]; rfl⟩

/-- Storing other positions keeps the arrangement. -/
theorem Arranged.updateBlocks (h : Arranged s d f items) {bs : List Block} (hb : ∀ b ∈ bs, ∃ p ∈ flowParas items, IsBlock p b) :
    Arranged (s.updateBlocks bs) d f items := by
  obtain ⟨L, h1, h2⟩ := h.content
  have h3 := h1.updateBlocks hb
  obtain ⟨m, e⟩ := updateBlocks_only bs s
  rw [e] at h3 ⊢
  exact h.of_blocks ⟨L, h3, h2⟩

theorem Arranged.getBlocks (h : Arranged s d f items) {b : Block} {ids : List Nat} (hb : b ∈ s.getBlocks ids) :
    ∃ p ∈ flowParas items, IsBlock p b ∧ s.blocks p.id = some b := by
  obtain ⟨L, h1, h2⟩ := h.content
  unfold Store.getBlocks at hb
  obtain ⟨i, _, hi⟩ := List.mem_filterMap.mp hb
  by_cases hm : i ∈ (flowParas items).map SPara.id
  · obtain ⟨p, hp, rfl⟩ := List.mem_map.mp hm
    obtain ⟨b', k1, k2⟩ := h1.block p hp
    rw [hi] at k1; cases k1
    exact ⟨p, hp, k2, hi⟩
  · rw [h1.absent hm] at hi; cases hi

theorem Arranged.reassign (h : Arranged s d f items) (tid : Nat) (base : Int) : Arranged (s.reassignCells tid base) d f items := by
  unfold Store.reassignCells
  apply h.updateBlocks
  intro b hb
  obtain ⟨⟨b0, n⟩, hx, rfl⟩ := List.mem_map.mp hb
  have hm := List.mem_of_getElem? (List.mem_zipIdx_iff_getElem?.mp hx)
  obtain ⟨c, _, hm⟩ := List.mem_flatMap.mp hm
  obtain ⟨g, _, hm⟩ := List.mem_flatMap.mp hm
  obtain ⟨p, h1, h2, _⟩ := h.getBlocks (mem_sortByKey.mp hm)
  exact ⟨p, h1, by rw [h2.with_pos]; exact isBlock_entity p _⟩

theorem Arranged.shiftFrom (h : Arranged s d f items) {bs : List Block} (hb : ∀ b ∈ bs, ∃ ids, b ∈ s.getBlocks ids) (x y : Int) :
    Arranged (s.shiftFrom bs x y) d f items := by
  unfold Store.shiftFrom
  apply h.updateBlocks
  intro b hb'
  obtain ⟨b0, hx, rfl⟩ := List.mem_map.mp hb'
  obtain ⟨ids, hi⟩ := hb b0 (List.mem_filter.mp hx).1
  obtain ⟨p, h1, h2, _⟩ := h.getBlocks hi
  exact ⟨p, h1, by rw [h2.with_pos]; exact isBlock_entity p _⟩

theorem Arranged.shiftOutside (h : Arranged s d f items) (did tid : Nat) (x y : Int) :
    Arranged (s.shiftOutside did tid x y) d f items := by
  unfold Store.shiftOutside
  apply h.shiftFrom
  intro b hb
  obtain ⟨g, _, hb⟩ := List.mem_flatMap.mp hb
  exact ⟨_, hb⟩

/-- The document's own record is changed, not what it refers to. -/
theorem Arranged.updateDocument (h : Arranged s d f items) {e : Document} (he : e.id = d.id) :
    Arranged (s.updateDocument e) { e with frames := d.frames, lists := d.lists, resources := d.resources, tables := d.tables }
      f items := by
  obtain ⟨L, h1, h2⟩ := h.content
  refine ⟨?_, ?_, ⟨L, h1.of_same rfl rfl rfl rfl rfl, h2⟩, h.frame, fun t ht => ⟨(h.table t ht).table, (h.table t ht).cells, (h.table t ht).order,
    (h.table t ht).anchor, (h.table t ht).cell⟩, h.frames, h.distinct, h.onlyFrames, h.tables,
    h.freshFrames, h.freshTables, h.freshCells, h.onlyTables, h.onlyCells, h.positive, h.nonempty⟩
  · obtain ⟨r, r', k1, k2, k3, k4⟩ := h.root
    exact ⟨r, r', k1, k2, by show r'.document = e.id; rw [he]; exact k3, by show e.id ≠ 0; rw [he]; exact k4⟩
  · show (s.updateDocument e).documents e.id = _
    simp [Store.updateDocument, he, h.document, Store.keepDoc]

end Verif
