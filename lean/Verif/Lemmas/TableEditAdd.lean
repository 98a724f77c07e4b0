import Verif.Lemmas.TableEdit
import Verif.Lemmas.TableCells
/- New cells in a table of a document. -/
namespace Verif
variable {s s' : Store} {d d' : Document} {f : Nat} {items A B : List SItem} {t t' : STable}
open Store

/-- New empty paragraphs behind everything else in the text. -/
theorem Carries.grown {L : List Para} {ps : List SPara} {ts ids : List Nat} (h : Carries s L ps ts)
    (hr : Repr s'.text (L ++ ids.map fun b => (.block b, []))) (hb1 : ∀ i ∈ ids, s'.blocks i = some { id := i })
    (hb2 : ∀ i, i ∉ ids → s'.blocks i = s.blocks i) (hruns : s'.formatRuns = s.formatRuns)
    (himgs : s'.blockImages = s.blockImages) (hn : ids.Nodup) (hids : ∀ i ∈ ids, s.next "block" ≤ i ∧ i < s'.next "block")
    (hnext : s.next "block" ≤ s'.next "block") :
    Carries s' (L ++ ids.map fun b => (.block b, [])) (ps ++ ids.map fun i => (⟨i, [], {}⟩ : SPara)) ts := by
  have hmem : ∀ q, q ∈ ps ++ ids.map (fun i => (⟨i, [], {}⟩ : SPara)) → q ∈ ps ∨ q = ⟨q.id, [], {}⟩ ∧ q.id ∈ ids := by
    intro q hq
    rcases List.mem_append.mp hq with hq | hq
    · exact .inl hq
    · obtain ⟨i, hi, rfl⟩ := List.mem_map.mp hq
      exact .inr ⟨rfl, hi⟩
  have hold : ∀ q ∈ ps, q.id ∉ ids := by
    intro q hq hm
    have := h.fresh q hq
    have := (hids q.id hm).1
    omega
  constructor
  · exact hr
  · have h1 := h.perm
    rw [List.perm_iff_count] at h1 ⊢
    intro x
    have h1 := h1 x
    have e : paras (ps ++ ids.map fun i => (⟨i, [], {}⟩ : SPara)) = paras ps ++ ids.map fun b => (.block b, []) := by
      simp [paras, SPara.text]
    rw [e]
    simp only [List.count_append] at h1 ⊢
    omega
  · apply IdMap.keys_perm
    · rw [List.map_append, List.nodup_append]
      refine ⟨h.ids_nodup, ?_, ?_⟩
      · rw [List.map_map]; exact (List.map_id ids).symm ▸ hn
      · rintro a ha b hb rfl
        obtain ⟨q, hq, rfl⟩ := List.mem_map.mp ha
        rw [List.map_map] at hb
        obtain ⟨i, hi, e⟩ := List.mem_map.mp hb
        exact hold q hq (e ▸ hi)
    · intro i
      rw [List.map_append, List.mem_append, List.map_map]
      have e2 : i ∈ ids.map (SPara.id ∘ fun i => (⟨i, [], {}⟩ : SPara)) ↔ i ∈ ids := by
        rw [show (SPara.id ∘ fun i => (⟨i, [], {}⟩ : SPara)) = id from rfl, List.map_id]
      rw [e2]
      by_cases hi : i ∈ ids
      · simp [hb1 i hi, hi]
      · rw [hb2 i hi, ← s.blocks.mem, h.keys.mem_iff]
        simp [hi]
  · intro q hq
    rcases hmem q hq with hq | ⟨e, hq⟩
    · rw [hb2 _ (hold q hq)]; exact h.block q hq
    · refine ⟨_, hb1 _ hq, ?_⟩
      rw [e]; rfl
  · intro q hq
    rw [hruns]
    rcases hmem q hq with hq | ⟨e, hq⟩
    · exact h.formats q hq
    · rw [(h.clean q.id (hids _ hq).1).1, e]; exact styledOk_plain []
  · intro q hq
    rw [himgs]
    rcases hmem q hq with hq | ⟨e, hq⟩
    · exact h.images q hq
    · rw [(h.clean q.id (hids _ hq).1).2]; rfl
  · intro q hq
    rcases hmem q hq with hq | ⟨e, hq⟩
    · have := h.fresh q hq; omega
    · exact (hids _ hq).2
  · intro i hi
    rw [hruns, himgs]
    exact h.clean i (by omega)

/-- The frames whose table is `t`. -/
theorem Arranged.anchor_unique (h : Arranged s d f items) (ht : t ∈ tablesOf items) {g : Nat} {fr : Frame}
    (hg : s.frames g = some fr) (hf : fr.table = some t.table.id) : g = t.anchor ∧ fr.parentFrame = some f := by
  have hm := h.onlyFrames g (by rw [hg]; rfl)
  rcases List.mem_cons.mp hm with rfl | hm
  · obtain ⟨x, k1, k2, k3, k4, _⟩ := h.frame
    rw [k1] at hg; cases hg; rw [k4] at hf; cases hf
  · obtain ⟨u, hu, rfl | hm⟩ := mem_tableFrames_iff.mp hm
    · obtain ⟨x, k1, k2, k3, k4, k5, k6⟩ := (h.table u hu).anchor
      rw [k1] at hg; cases hg
      rw [k6] at hf
      simp only [Option.some.injEq] at hf
      obtain ⟨L, hL, _⟩ := h.content
      have hn := hL.tables_nodup
      have : u = t := by
        obtain ⟨i, hi, rfl⟩ := List.getElem_of_mem hu
        obtain ⟨j, hj, rfl⟩ := List.getElem_of_mem ht
        have hij : ((tablesOf items).map fun t => t.table.id)[i]'(by simpa using hi) =
            ((tablesOf items).map fun t => t.table.id)[j]'(by simpa using hj) := by simpa using hf
        have := (List.getElem_inj hn).mp hij
        subst this; rfl
      exact ⟨by rw [this], k3⟩
    · obtain ⟨c, hc, rfl⟩ := List.mem_map.mp hm
      obtain ⟨_, _, _, x, k1, k2, k3, _⟩ := (h.table u hu).cell c hc
      rw [k1] at hg; cases hg
      rw [k3] at hf; cases hf

theorem Arranged.tableParent (h : Arranged s d f items) (ht : t ∈ tablesOf items) :
    (s.frames.keys.findSome? fun g => (s.frames g).bind fun fr =>
      if fr.table = some t.table.id then some fr.parentFrame else none).join = some f := by
  obtain ⟨x, k1, k2, k3, k4, k5, k6⟩ := (h.table t ht).anchor
  rw [findSome?_unique (v := some f)]
  · rfl
  · exact ⟨t.anchor, (s.frames.mem _).mpr (by rw [k1]; rfl), by rw [k1, Option.bind_some, if_pos k6, k3]⟩
  · intro y _ w hw
    rw [Option.bind_eq_some_iff] at hw
    obtain ⟨fr, hfr, hw⟩ := hw
    split at hw
    · rename_i e
      cases hw
      exact (h.anchor_unique ht hfr e).2
    · cases hw

/-- The end of the main frame is the end of the text. -/
theorem Arranged.frameEnd {s2 : Store} {L : List Para} (h : Arranged s d f items) (ht : tablesOf items ≠ [])
    (hf : s2.frames = s.frames) (htb : s2.tables = s.tables) (hc : s2.tableCells = s.tableCells) (hr : Repr s2.text L) (hL : L ≠ [])
    (hm : ∀ x ∈ L, (∃ p ∈ flowParas items, x.1 = .block p.id) ∨ ∃ t ∈ tablesOf items, x.1 = .table t.table.id) :
    s2.topLevelFrameEnd f = some s2.text.idx.total := by
  obtain ⟨fr, k1, k2, k3, k4, k5, k6, k7⟩ := h.frame
  refine topLevelFrameEnd_main hr hL hm (by rw [hf]; exact k1) k3 k4 k6 rfl k7 ?_ ?_
  · intro t ht
    have hT := h.table t ht
    refine ⟨⟨by rw [htb]; exact hT.table, hT.cells, hT.order, by rw [hf]; exact hT.anchor, by rw [hf, hc]; exact hT.cell⟩, ?_⟩
    obtain ⟨x, k1, _⟩ := hT.anchor
    exact (h.freshFrames _ (by rw [k1]; rfl)).1
  · left
    obtain ⟨t, ht⟩ := List.exists_mem_of_ne_nil _ ht
    obtain ⟨x, j1, _⟩ := (h.table t ht).anchor
    have hfa : f ≠ t.anchor := by
      intro e
      have := h.distinct.1
      rw [List.nodup_cons] at this
      exact this.1 (mem_tableFrames_iff.mpr ⟨t, ht, .inl e⟩)
    have h1 : f ∈ s2.frames.keys := (s2.frames.mem f).mpr (by rw [hf, k1]; rfl)
    have h2 : t.anchor ∈ s2.frames.keys := (s2.frames.mem _).mpr (by rw [hf, j1]; rfl)
    unfold IdMap.len
    match s2.frames.keys, h1, h2 with
    | [x], h1, h2 => simp at h1 h2; omega
    | _ :: _ :: _, _, _ => simp

theorem made_ids {F N C : Nat} {l : List (Int × Int × Int × Int)} :
    (((madeCells F N C l).map fun c => (c.frame, (c.paras.map SPara.id).headD 0, c.cell.id)).map fun x : Nat × Nat × Nat => x.2.1) =
      cellBlocks (madeCells F N C l) := by
  unfold cellBlocks
  rw [List.map_map, List.map_flatMap]
  have : ∀ k : List SCell, (∀ x ∈ k, x ∈ madeCells F N C l) →
      k.map ((fun x : Nat × Nat × Nat => x.2.1) ∘ fun c => (c.frame, (c.paras.map SPara.id).headD 0, c.cell.id)) =
      k.flatMap fun c => c.paras.map SPara.id := by
    intro k
    induction k with
    | nil => intro _; rfl
    | cons x k ih =>
      intro hl
      obtain ⟨i, hi, _⟩ := madeCells_mem (hl x (by simp))
      rw [List.map_cons, List.flatMap_cons, ih fun y hy => hl y (by simp [hy])]
      simp [hi]
  exact this _ fun x hx => hx

theorem Arranged.addCells (h : Arranged s d f (A ++ .table t :: B)) (l : List (Int × Int × Int × Int)) {tb : Table}
    (htb : tb.id = t.table.id) {cs : List SCell}
    (hcs : cs.Perm (t.cells ++ madeCells (s.next "frame") (s.next "block") (s.next "table_cell") l))
    (ho : cs.Pairwise SCell.before) :
    ∃ s1, s.createCells d.id t.table.id l = some
        ((madeCells (s.next "frame") (s.next "block") (s.next "table_cell") l).map fun c =>
          (c.frame, (c.paras.map SPara.id).headD 0, c.cell.id), s1) ∧
      (s1.tables t.table.id = some { t.table with cells := t.table.cells ++ ((madeCells (s.next "frame") (s.next "block") (s.next "table_cell") l).map fun c => c.cell.id) }) ∧
      ∀ s2 : Store, s2 = { s1 with tables := s2.tables } → (∀ i, i ≠ t.table.id → s2.tables i = s1.tables i) →
        s2.tables t.table.id = some { tb with cells := t.table.cells ++ ((madeCells (s.next "frame") (s.next "block") (s.next "table_cell") l).map fun c => c.cell.id) } →
        ∃ s3, s2.addToTable t.table.id (cellBlocks (madeCells (s.next "frame") (s.next "block") (s.next "table_cell") l)) = some s3 ∧
          Arranged s3 { d with frames := d.frames ++ (madeCells (s.next "frame") (s.next "block") (s.next "table_cell") l).map SCell.frame } f
            (A ++ .table ⟨{ tb with cells := t.table.cells ++ ((madeCells (s.next "frame") (s.next "block") (s.next "table_cell") l).map fun c => c.cell.id) }, t.anchor, cs⟩ :: B) ∧
          s3.lists = s.lists ∧
          (∀ i, i ∉ cellBlocks (madeCells (s.next "frame") (s.next "block") (s.next "table_cell") l) → s3.blocks i = s.blocks i) ∧
          ∀ i ∈ cellBlocks (madeCells (s.next "frame") (s.next "block") (s.next "table_cell") l), s3.blocks i = some { id := i } := by
  have htm : t ∈ tablesOf (A ++ .table t :: B) := by rw [tables_at]; simp
  have hT := h.table t htm
  have hcell : ∀ i ∈ t.table.cells, (s.tableCells i).isSome := by
    intro i hi
    obtain ⟨c, hc, rfl⟩ := List.mem_map.mp (hT.cells.mem_iff.mp hi)
    rw [(hT.cell c hc).1]; rfl
  obtain ⟨s1, e1, G⟩ := createCells_new (tid := t.table.id) l h.document h.allFrames hT.table hcell
  refine ⟨s1, e1, G.table _ hT.table, ?_⟩
  intro s2 hs2 ht1 ht2
  have hcf := madeCells_frames (s.next "frame") (s.next "block") (s.next "table_cell") l
  have hcb := madeCells_blocks (s.next "frame") (s.next "block") (s.next "table_cell") l
  have hcc := madeCells_cells (s.next "frame") (s.next "block") (s.next "table_cell") l
  have hcp := madeCells_paras (s.next "frame") (s.next "block") (s.next "table_cell") l
  have hcl := madeCells_length (s.next "frame") (s.next "block") (s.next "table_cell") l
  have hcm : ∀ x ∈ madeCells (s.next "frame") (s.next "block") (s.next "table_cell") l, _ := fun x hx => madeCells_mem hx
  generalize hms : madeCells (s.next "frame") (s.next "block") (s.next "table_cell") l = ms at *
  generalize hN : l.length = N at *
  have hfm : ∀ g, g ∈ ms.map SCell.frame ↔ s.next "frame" ≤ g ∧ g < s.next "frame" + N := by
    intro g; rw [hcf]; simp [List.mem_range'_1]
  have hbm : ∀ g, g ∈ cellBlocks ms ↔ s.next "block" ≤ g ∧ g < s.next "block" + N := by
    intro g; rw [hcb]; simp [List.mem_range'_1]
  have hcim : ∀ g, (g ∈ ms.map fun c => c.cell.id) ↔ s.next "table_cell" ≤ g ∧ g < s.next "table_cell" + N := by
    intro g; rw [hcc]; simp [List.mem_range'_1]
  have hbn : (cellBlocks ms).Nodup := by rw [hcb]; exact List.nodup_range'
  obtain ⟨L, hL, hsub⟩ := h.content
  have hLne : L ≠ [] := by
    intro e
    obtain ⟨p, hp⟩ := List.exists_mem_of_ne_nil _ h.nonempty
    have := hL.mem (mem_flowParas.mpr (.inl hp))
    rw [e] at this; simp at this
  have hLfst : ∀ x ∈ cellBlocks ms, Marker.block x ∉ L.map Prod.fst := by
    intro x hx hm
    have := (hL.perm.map Prod.fst).mem_iff.mp hm
    rw [List.map_append, List.mem_append] at this
    rcases this with hm | hm
    · rw [paras_fst] at hm
      obtain ⟨p, hpm, e⟩ := List.mem_map.mp hm
      simp only [Marker.block.injEq] at e
      have := hL.fresh p hpm
      have := (hbm x).mp hx
      omega
    · simp at hm
  obtain ⟨st, est, hst⟩ := ropeInsertEmpty_repr (cellBlocks ms) hL.text hLne hbn hLfst
  have htext2 : s2.text = s.text := by rw [hs2]; exact G.text
  have hpp : (cs.flatMap SCell.paras).Perm (t.cells.flatMap SCell.paras ++ (cellBlocks ms).map fun i => (⟨i, [], {}⟩ : SPara)) := by
    refine (hcs.flatMap_right _).trans (.of_eq ?_)
    rw [List.flatMap_append, hcp, hcb]
  have hfp : (cs.map SCell.frame).Perm (t.cells.map SCell.frame ++ ms.map SCell.frame) :=
    (hcs.map _).trans (.of_eq (by rw [List.map_append]))
  have hip : (cs.map fun c => c.cell.id).Perm ((t.cells.map fun c => c.cell.id) ++ ms.map fun c => c.cell.id) :=
    (hcs.map _).trans (.of_eq (by rw [List.map_append]))
  have hd := h.distinct
  rw [frames_at, cells_at, List.map_append, List.map_append, List.nodup_cons, List.nodup_append, List.nodup_cons, List.nodup_append,
    List.nodup_append, List.nodup_append] at hd
  have hfrnone : ∀ g, g ∈ ms.map SCell.frame → s.frames g = none := by
    intro g hg
    cases e : s.frames g with
    | none => rfl
    | some x =>
      have := (h.freshFrames g (by rw [e]; rfl)).2
      have := (hfm g).mp hg
      omega
  have hclnone : ∀ g, (g ∈ ms.map fun c => c.cell.id) → s.tableCells g = none := by
    intro g hg
    cases e : s.tableCells g with
    | none => rfl
    | some x =>
      have := h.freshCells g (by rw [e]; rfl)
      have := (hcim g).mp hg
      omega
  have hAr : Arranged (s2.withText st) { d with frames := d.frames ++ ms.map SCell.frame } f
      (A ++ .table ⟨{ tb with cells := t.table.cells ++ ms.map fun c => c.cell.id }, t.anchor, cs⟩ :: B) := by
    have g1 : (s2.withText st).frames = s1.frames := by rw [hs2]; rfl
    have g2 : (s2.withText st).tableCells = s1.tableCells := by rw [hs2]; rfl
    have g3 : (s2.withText st).roots = s.roots := by rw [hs2]; exact G.roots
    have g4 : (s2.withText st).documents = s1.documents := by rw [hs2]; rfl
    have g5 : ∀ k, (s2.withText st).next k = s1.next k := by intro k; rw [hs2]; rfl
    have g6 : (s2.withText st).blocks = s1.blocks := by rw [hs2]; rfl
    apply h.replace (d' := { d with frames := d.frames ++ ms.map SCell.frame }) (t' := ⟨{ tb with cells := t.table.cells ++ ms.map fun c => c.cell.id }, t.anchor, cs⟩) rfl htb g3
      (by rw [g4]; exact G.document _ h.document) rfl rfl
    · obtain ⟨rest, h1, h2⟩ := h.frames
      refine ⟨rest ++ ms.map SCell.frame, by rw [h1]; rfl, ?_⟩
      refine (h2.append_right _).trans ?_
      rw [frames_at, frames_at, List.perm_iff_count]
      intro x
      have := List.perm_iff_count.mp hfp x
      simp only [List.count_append, List.count_cons] at this ⊢
      omega
    · refine ⟨L ++ (cellBlocks ms).map fun b => (.block b, []), ?_, ?_⟩
      · have h1 := hL.grown (s' := s2.withText st) (ids := cellBlocks ms) hst (by
            intro i hi
            obtain ⟨p, hp, rfl⟩ := List.mem_map.mp hi
            obtain ⟨c, hc, hp⟩ := List.mem_flatMap.mp hp
            rw [g6]; exact G.blocks c hc p hp) (by intro i hi; rw [g6]; exact G.oldBlocks i hi)
          (by rw [hs2]; exact G.runs) (by rw [hs2]; exact G.images) hbn (by
            intro i hi
            rw [g5, G.nextBlock, hcl]
            exact (hbm i).mp hi) (by rw [g5, G.nextBlock]; omega)
        refine h1.reorder ?_ (.of_eq ?_)
        · rw [flow_at, flow_at, List.perm_iff_count]
          intro x
          have := List.perm_iff_count.mp hpp x
          simp only [List.count_append] at this ⊢
          omega
        · rw [tables_at, tables_at, List.map_append, List.map_append, List.map_cons, List.map_cons, htb]
      · rw [top_at] at hsub ⊢
        exact hsub.trans (List.sublist_append_left _ _)
    · intro i h1 h2
      rw [g1]
      refine G.oldFrames i fun hm => h2 (hfp.mem_iff.mpr ?_)
      exact List.mem_append_right _ hm
    · intro i h1 h2
      exact absurd (hfp.mem_iff.mpr (List.mem_append_left _ h1)) h2
    · intro i h1 h2
      rcases List.mem_append.mp (hfp.mem_iff.mp h1) with h1 | h1
      · exact absurd h1 h2
      · exact hfrnone i h1
    · intro i h1 h2
      rw [g2]
      refine G.oldCells i fun hm => h2 (hip.mem_iff.mpr ?_)
      exact List.mem_append_right _ hm
    · intro i h1 h2
      exact absurd (hip.mem_iff.mpr (List.mem_append_left _ h1)) h2
    · intro i h1 h2
      rcases List.mem_append.mp (hip.mem_iff.mp h1) with h1 | h1
      · exact absurd h1 h2
      · exact hclnone i h1
    · intro i hi
      show s2.tables i = _
      rw [ht1 i hi]; exact G.oldTables i hi
    · exact ht2
    · exact (hT.cells.append_right _).trans hip.symm
    · exact ho
    · refine hfp.nodup_iff.mpr (List.nodup_append.mpr ⟨hd.1.2.2.1.2.1, by rw [hcf]; exact List.nodup_range', ?_⟩)
      rintro a ha b hb rfl
      have h1 := hfrnone a hb
      have h2 := h.frame_some (g := a) (by rw [frames_at]; simp only [List.mem_append, List.mem_cons]; exact .inr (.inr (.inl ha)))
      rw [h1] at h2; simp at h2
    · refine hip.nodup_iff.mpr (List.nodup_append.mpr ⟨hd.2.2.1.1, by rw [hcc]; exact List.nodup_range', ?_⟩)
      rintro a ha b hb rfl
      have h1 := hclnone a hb
      have h2 := h.cell_some (i := a) (by
        rw [cells_at, List.map_append, List.map_append]; exact List.mem_append_right _ (List.mem_append_left _ ha))
      rw [h1] at h2; simp at h2
    · intro c hc
      rcases List.mem_append.mp (hcs.mem_iff.mp hc) with hc | hc
      · obtain ⟨k1, k2, k3, fr, k4, k5⟩ := hT.cell c hc
        refine ⟨?_, k2, k3, fr, ?_, k5⟩
        · rw [g2, G.oldCells]
          · exact k1
          · intro hm; have := hclnone _ hm; rw [k1] at this; cases this
        · rw [g1, G.oldFrames]
          · exact k4
          · intro hm; have := hfrnone _ hm; rw [k4] at this; cases this
      · obtain ⟨i, k1, k2, k3, k4, k5⟩ := hcm c hc
        refine ⟨by rw [g2]; exact G.cells c hc, k4, by rw [k1]; simp, freshFrame c, by rw [g1]; exact G.frames c hc, rfl, rfl,
          .inr rfl, rfl, .refl _⟩
    · rw [g5, G.nextFrame]; omega
    · rw [g5, G.nextTable]; exact Nat.le_refl _
    · rw [g5, G.nextCell]; omega
    · intro c hc
      rw [g5, g5, G.nextFrame, G.nextCell, hcl]
      rcases List.mem_append.mp (hcs.mem_iff.mp hc) with hc | hc
      · obtain ⟨k1, k2, k3, fr, k4, k5⟩ := hT.cell c hc
        have h1 := h.freshFrames c.frame (by rw [k4]; rfl)
        have h2 := h.freshCells c.cell.id (by rw [k1]; rfl)
        omega
      · have h1 := (hfm c.frame).mp (List.mem_map_of_mem hc)
        have h2 := (hcim c.cell.id).mp (List.mem_map_of_mem (f := fun c : SCell => c.cell.id) hc)
        have h3 : 0 < s.next "frame" := by
          obtain ⟨fr, e, _⟩ := h.frame
          have := h.freshFrames f (by rw [e]; rfl)
          omega
        omega
    · intro c hc p hp
      rcases List.mem_append.mp (hcs.mem_iff.mp hc) with hc | hc
      · exact h.positive p (by
          rw [flow_at]; simp only [List.mem_append, List.mem_flatMap]; exact .inr (.inl ⟨c, hc, hp⟩))
      · obtain ⟨i, k1, k2, k3, k4, k5⟩ := hcm c hc
        rw [k1, List.mem_singleton] at hp
        subst hp
        show 0 < i
        have h3 : 0 < s.next "block" := by
          obtain ⟨q, hq⟩ := List.exists_mem_of_ne_nil _ h.nonempty
          have := hL.fresh q (mem_flowParas.mpr (.inl hq))
          omega
        omega
  refine ⟨s2.withText st, ?_, hAr, ?_, ?_, ?_⟩
  · unfold Store.addToTable
    have hp := hAr.tableParent (t := ⟨{ tb with cells := t.table.cells ++ ms.map fun c => c.cell.id }, t.anchor, cs⟩) (by rw [tables_at]; simp)
    have hp' : (s2.frames.keys.findSome? fun g => (s2.frames g).bind fun fr =>
      if fr.table = some t.table.id then some fr.parentFrame else none).join = some f := by rw [← htb]; exact hp
    rw [hp']
    show s2.addCellText f (cellBlocks ms) = _
    unfold Store.addCellText
    rw [hAr.frameEnd (s2 := s2) (L := L) (by rw [tables_at]; simp) rfl rfl rfl (by rw [htext2]; exact hL.text) hLne, Option.bind_some,
      htext2, est]
    · rfl
    · intro x hx
      have := hL.perm.mem_iff.mp hx
      rw [List.mem_append] at this
      rcases this with hm | hm
      · obtain ⟨p, hp, rfl⟩ := List.mem_map.mp hm
        refine .inl ⟨p, ?_, rfl⟩
        rw [flow_at] at hp ⊢
        simp only [List.mem_append] at hp ⊢
        rcases hp with hp | hp | hp
        · exact .inl hp
        · exact .inr (.inl (hpp.mem_iff.mpr (List.mem_append_left _ hp)))
        · exact .inr (.inr hp)
      · obtain ⟨i, hi, rfl⟩ := List.mem_map.mp hm
        obtain ⟨u, hu, rfl⟩ := List.mem_map.mp hi
        right
        rw [tables_at, List.mem_append, List.mem_cons] at hu
        rw [tables_at]
        rcases hu with hu | rfl | hu
        · exact ⟨u, by simp [hu], rfl⟩
        · exact ⟨_, List.mem_append_right _ List.mem_cons_self, congrArg Marker.table htb.symm⟩
        · exact ⟨u, by simp [hu], rfl⟩
  · rw [hs2]; exact G.lists
  · intro i hi
    rw [hs2]; exact G.oldBlocks i hi
  · intro i hi
    obtain ⟨p, hp, rfl⟩ := List.mem_map.mp hi
    obtain ⟨c, hc, hp⟩ := List.mem_flatMap.mp hp
    rw [hs2]; exact G.blocks c hc p hp

end Verif
