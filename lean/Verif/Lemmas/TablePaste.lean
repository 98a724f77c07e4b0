import Verif.Lemmas.TableEditGone
import Verif.Lemmas.Paste
import Verif.Model.PasteTable
/-
What pasting a table changes.
-/
namespace Verif
variable {s s' : Store} {d d' : Document} {f : Nat} {A B : List SItem} {T : STable}

open Store

/-- An arranged document with one more table. -/
theorem Arranged.withTable (h : Arranged s d f (A ++ B)) (hroots : s'.roots = s.roots)
    (hdoc : s'.documents d.id = some d') (hdid : d'.id = d.id)
    (hdf : d'.frames = d.frames ++ T.cells.map SCell.frame ++ [T.anchor]) (hdt : d'.tables = d.tables ++ [T.table.id])
    (hcontent : ∃ L, Carries s' L (flowParas (A ++ .table T :: B)) ((tablesOf (A ++ .table T :: B)).map fun t => t.table.id) ∧
      (paras (topParas (A ++ .table T :: B))).Sublist L)
    (hf0 : s'.frames f = (s.frames f).map fun fr => { fr with childOrder := (A ++ .table T :: B).map SItem.entry })
    (hf1 : ∀ i, i ≠ f → i ∉ T.anchor :: T.cells.map SCell.frame → s'.frames i = s.frames i)
    (hshow : ShowsTable s' f T)
    (hfn : ∀ g ∈ T.anchor :: T.cells.map SCell.frame, s.next "frame" ≤ g ∧ g < s'.next "frame")
    (hfd : (T.anchor :: T.cells.map SCell.frame).Nodup)
    (htabs : ∀ i, i ≠ T.table.id → s'.tables i = s.tables i)
    (htn : s.next "table" ≤ T.table.id ∧ T.table.id < s'.next "table")
    (hcells : ∀ i, i ∉ T.cells.map (fun c => c.cell.id) → s'.tableCells i = s.tableCells i)
    (hcn : ∀ i ∈ T.cells.map (fun c => c.cell.id), s.next "table_cell" ≤ i ∧ i < s'.next "table_cell")
    (hcd : (T.cells.map fun c => c.cell.id).Nodup) (hcnx : s.next "table_cell" ≤ s'.next "table_cell")
    (hpos : ∀ p ∈ T.cells.flatMap SCell.paras, 0 < p.id) : Arranged s' d' f (A ++ .table T :: B) := by
  obtain ⟨fr, q1, q2, q3, q4, q5, q6, q7⟩ := h.frame
  have hfs : (s.frames f).isSome := by rw [q1]; rfl
  have hf00 := h.freshFrames f hfs
  have hold : ∀ g, (s.frames g).isSome → g ∉ T.anchor :: T.cells.map SCell.frame := by
    intro g hg hm
    have := (h.freshFrames g hg).2
    have := (hfn g hm).1
    omega
  have htop : topParas (A ++ .table T :: B) = topParas (A ++ B) := by
    rw [topParas_append, topParas_append, topParas_table]
  have htf : (tableFrames (A ++ .table T :: B)).Perm (tableFrames (A ++ B) ++ (T.anchor :: T.cells.map SCell.frame)) := by
    rw [tableFrames_append, tableFrames_table, tableFrames_append, List.perm_iff_count]
    intro x
    simp only [List.count_append]; omega
  have hids : ((tablesOf (A ++ .table T :: B)).map fun t => t.table.id).Perm
      (((tablesOf (A ++ B)).map fun t => t.table.id) ++ [T.table.id]) := by
    rw [tablesOf_append, tablesOf_table, tablesOf_append, List.perm_iff_count]
    intro x
    simp only [List.map_append, List.map_cons, List.count_append, List.count_cons, List.count_nil]; omega
  have hcs : ((cellsOf (A ++ .table T :: B)).map fun c => c.cell.id).Perm
      (((cellsOf (A ++ B)).map fun c => c.cell.id) ++ T.cells.map fun c => c.cell.id) := by
    rw [cellsOf_append, cellsOf_table, cellsOf_append, List.perm_iff_count]
    intro x
    simp only [List.map_append, List.count_append]; omega
  have hoff : ∀ g ∈ f :: tableFrames (A ++ B), (s.frames g).isSome := by
    intro g hg
    rcases List.mem_cons.mp hg with rfl | hg
    · exact hfs
    · obtain ⟨t, ht, hg⟩ := List.mem_flatMap.mp hg
      rcases List.mem_cons.mp hg with rfl | hg
      · obtain ⟨y, y1, _⟩ := (h.table t ht).anchor; rw [y1]; rfl
      · obtain ⟨c, hc, rfl⟩ := List.mem_map.mp hg
        obtain ⟨_, _, _, y, y1, _⟩ := (h.table t ht).cell c hc; rw [y1]; rfl
  have hne : ∀ g ∈ tableFrames (A ++ B), g ≠ f := by
    intro g hg e
    have := h.distinct.1
    rw [List.nodup_cons] at this
    exact this.1 (e ▸ hg)
  constructor
  · obtain ⟨r, r', x1, x2, x3, x4⟩ := h.root
    exact ⟨r, r', by rw [hroots]; exact x1, by rw [hroots]; exact x2, by rw [hdid]; exact x3, by rw [hdid]; exact x4⟩
  · rw [hdid]; exact hdoc
  · exact hcontent
  · have e : s'.frames f = some { fr with childOrder := (A ++ .table T :: B).map SItem.entry } := by rw [hf0, q1]; rfl
    refine ⟨_, e, q2, q3, q4, q5, rfl, ?_⟩
    rw [htop]; exact q7
  · intro t ht
    have hcase : t = T ∨ t ∈ tablesOf (A ++ B) := by
      rw [tablesOf_append, tablesOf_table, List.mem_append, List.mem_cons] at ht
      rw [tablesOf_append, List.mem_append]
      rcases ht with ht | ht | ht
      · exact .inr (.inl ht)
      · exact .inl ht
      · exact .inr (.inr ht)
    rcases hcase with rfl | ht
    · exact hshow
    · have hs := h.table t ht
      have htl := h.freshTables t.table.id (by rw [hs.table]; rfl)
      constructor
      · rw [htabs _ (by omega)]; exact hs.table
      · exact hs.cells
      · exact hs.order
      · obtain ⟨x, x1, x2⟩ := hs.anchor
        refine ⟨x, ?_, x2⟩
        rw [hf1 _ (hne _ (List.mem_flatMap.mpr ⟨t, ht, by simp⟩)) (hold _ (by rw [x1]; rfl))]
        exact x1
      · intro c hc
        obtain ⟨x1, x2, x3, x, x4, x5⟩ := hs.cell c hc
        refine ⟨?_, x2, x3, x, ?_, x5⟩
        · rw [hcells _ (fun hm => by
            have := (hcn _ hm).1
            have := h.freshCells c.cell.id (by rw [x1]; rfl)
            omega)]
          exact x1
        · rw [hf1 _ (hne _ (List.mem_flatMap.mpr ⟨t, ht, List.mem_cons_of_mem _ (List.mem_map_of_mem hc)⟩)) (hold _ (by rw [x4]; rfl))]
          exact x4
  · obtain ⟨rest, r1, r2⟩ := h.frames
    refine ⟨rest ++ T.cells.map SCell.frame ++ [T.anchor], by rw [hdf, r1]; simp, ?_⟩
    refine .trans ?_ htf.symm
    rw [List.perm_iff_count] at r2 ⊢
    intro x
    have := r2 x
    simp only [List.count_append, List.count_cons, List.count_nil] at this ⊢
    omega
  · constructor
    · have : (f :: tableFrames (A ++ .table T :: B)).Perm ((f :: tableFrames (A ++ B)) ++ (T.anchor :: T.cells.map SCell.frame)) := by
        rw [List.cons_append]; exact htf.cons f
      rw [this.nodup_iff, List.nodup_append]
      refine ⟨h.distinct.1, hfd, ?_⟩
      intro x hx y hy e
      subst e
      exact hold x (hoff x hx) hy
    · rw [hcs.nodup_iff, List.nodup_append]
      refine ⟨h.distinct.2, hcd, ?_⟩
      intro x hx y hy e
      subst e
      obtain ⟨c, hc', rfl⟩ := List.mem_map.mp hx
      obtain ⟨t, ht, hct⟩ := List.mem_flatMap.mp hc'
      have h1 := ((h.table t ht).cell c hct).1
      have := h.freshCells c.cell.id (by rw [h1]; rfl)
      have := (hcn _ hy).1
      omega
  · intro g hg
    rw [List.mem_cons, htf.mem_iff, List.mem_append]
    by_cases e1 : g = f
    · exact .inl e1
    · by_cases e2 : g ∈ T.anchor :: T.cells.map SCell.frame
      · exact .inr (.inr e2)
      · rw [hf1 g e1 e2] at hg
        rcases List.mem_cons.mp (h.onlyFrames g hg) with e | e
        · exact .inl e
        · exact .inr (.inl e)
  · rw [hdt]
    exact (h.tables.append_right _).trans hids.symm
  · intro g hg
    by_cases e2 : g ∈ T.anchor :: T.cells.map SCell.frame
    · have := hfn g e2; omega
    · have hnf : s.next "frame" ≤ s'.next "frame" := by have := hfn T.anchor (by simp); omega
      have : 0 < g ∧ g < s.next "frame" := by
        by_cases e1 : g = f
        · subst e1; exact hf00
        · rw [hf1 g e1 e2] at hg; exact h.freshFrames g hg
      omega
  · intro t ht
    by_cases e : t = T.table.id
    · rw [e]; exact htn.2
    · rw [htabs t e] at ht
      have := h.freshTables t ht
      omega
  · intro c hc
    by_cases e : c ∈ T.cells.map fun c => c.cell.id
    · exact (hcn c e).2
    · rw [hcells c e] at hc
      have := h.freshCells c hc
      omega
  · intro t ht
    rw [hids.mem_iff, List.mem_append]
    by_cases e : t = T.table.id
    · exact .inr (by simp [e])
    · rw [htabs t e] at ht
      exact .inl (h.onlyTables t ht)
  · intro c hc
    rw [hcs.mem_iff, List.mem_append]
    by_cases e : c ∈ T.cells.map fun c => c.cell.id
    · exact .inr e
    · rw [hcells c e] at hc
      exact .inl (h.onlyCells c hc)
  · intro p hp
    rw [flowParas_append, flowParas_table, List.mem_append, List.mem_append] at hp
    rcases hp with hp | hp | hp
    · exact h.positive p (by rw [flowParas_append]; simp [hp])
    · exact hpos p hp
    · exact h.positive p (by rw [flowParas_append]; simp [hp])
  · rw [htop]; exact h.nonempty

end Verif
