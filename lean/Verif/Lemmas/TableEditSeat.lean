import Verif.Lemmas.TableEditCells
/- The stored positions after a table was changed. -/
namespace Verif
variable {s s' : Store} {d d' : Document} {f : Nat} {items A B : List SItem} {t t' : STable}
open Store

theorem keepBlock_keepBlock (b : Block) (x : Option Block) : keepBlock b (some (keepBlock b x)) = keepBlock b x := by
  cases x <;> rfl

/-- As `updateBlocks_get`, a block may be written more than once. -/
theorem updateBlocks_det (bs : List Block) : ∀ {s : Store}, (∀ b ∈ bs, ∀ b' ∈ bs, b.id = b'.id → b = b') →
    (∀ b ∈ bs, (s.updateBlocks bs).blocks b.id = some (keepBlock b (s.blocks b.id))) ∧
    (∀ i, i ∉ bs.map Block.id → (s.updateBlocks bs).blocks i = s.blocks i) ∧
    ∃ m, s.updateBlocks bs = { s with blocks := m } := by
  induction bs with
  | nil => intro s _; exact ⟨by simp, by intros; rfl, s.blocks, rfl⟩
  | cons b bs ih =>
    intro s hn
    obtain ⟨k1, k2, m, k3⟩ := ih (s := s.updateBlock b) fun x hx y hy => hn x (by simp [hx]) y (by simp [hy])
    have e : s.updateBlocks (b :: bs) = (s.updateBlock b).updateBlocks bs := rfl
    rw [e]
    have hb : (s.updateBlock b).blocks b.id = some (keepBlock b (s.blocks b.id)) := by simp [Store.updateBlock]
    have hsame : ((s.updateBlock b).updateBlocks bs).blocks b.id = some (keepBlock b (s.blocks b.id)) := by
      by_cases hm : b.id ∈ bs.map Block.id
      · obtain ⟨x, hx, ex⟩ := List.mem_map.mp hm
        have := hn x (by simp [hx]) b (by simp) ex
        subst this
        rw [k1 _ hx, hb, keepBlock_keepBlock]
      · rw [k2 _ hm, hb]
    refine ⟨?_, ?_, m, by rw [k3]; rfl⟩
    · intro x hx
      rcases List.mem_cons.mp hx with rfl | hx
      · exact hsame
      · by_cases ex : x.id = b.id
        · have := hn x (by simp [hx]) b (by simp) ex
          subst this
          exact hsame
        · rw [k1 x hx]
          simp [Store.updateBlock, ex]
    · intro i hi
      simp only [List.map_cons, List.mem_cons, not_or] at hi
      rw [k2 i hi.2]
      simp [Store.updateBlock, hi.1]

theorem shiftFrom_det {bs : List Block} {start n : Int} (hb : ∀ b ∈ bs, s.blocks b.id = some b) :
    (∀ b ∈ bs, (s.shiftFrom bs start n).blocks b.id =
      some { b with documentPosition := if b.documentPosition ≥ start then b.documentPosition + n else b.documentPosition }) ∧
    (∀ i, i ∉ bs.map Block.id → (s.shiftFrom bs start n).blocks i = s.blocks i) ∧
    ∃ m, s.shiftFrom bs start n = { s with blocks := m } := by
  unfold Store.shiftFrom
  have hdet := updateBlocks_det (s := s) ((bs.filter fun b => decide (b.documentPosition ≥ start)).map fun b =>
      ({ b with documentPosition := b.documentPosition + n } : Block)) (by
    intro x0 hx0 y0 hy0 e
    obtain ⟨x, hx, rfl⟩ := List.mem_map.mp hx0
    obtain ⟨y, hy, rfl⟩ := List.mem_map.mp hy0
    have h1 := hb x ((List.mem_filter.mp hx).1)
    have h2 := hb y ((List.mem_filter.mp hy).1)
    have e : x.id = y.id := e
    rw [e, h2] at h1
    cases h1; rfl)
  obtain ⟨k1, k2, k3⟩ := hdet
  refine ⟨?_, ?_, k3⟩
  · intro b hm
    by_cases hs : b.documentPosition ≥ start
    · have hmem : ({ b with documentPosition := b.documentPosition + n } : Block) ∈
          (bs.filter fun b => decide (b.documentPosition ≥ start)).map fun b => ({ b with documentPosition := b.documentPosition + n } : Block) :=
        List.mem_map_of_mem (List.mem_filter.mpr ⟨hm, by simpa using hs⟩)
      have := k1 _ hmem
      rw [show ({ b with documentPosition := b.documentPosition + n } : Block).id = b.id from rfl, hb b hm] at this
      rw [this, if_pos hs]; rfl
    · rw [k2, hb b hm, if_neg hs]
      intro hc
      rw [List.map_map] at hc
      obtain ⟨x, hx, e⟩ := List.mem_map.mp hc
      have hx := List.mem_filter.mp hx
      have h1 := hb x hx.1
      have e : x.id = b.id := e
      rw [e, hb b hm] at h1
      cases h1
      exact hs (by simpa using hx.2)
  · intro i hi
    apply k2
    intro hc
    rw [List.map_map] at hc
    obtain ⟨x, hx, e⟩ := List.mem_map.mp hc
    exact hi (List.mem_map.mpr ⟨x, (List.mem_filter.mp hx).1, e⟩)

/-- What the frames of the document contain. -/
theorem Arranged.mem_frameBlocks (h : Arranged s d f items) {g i : Nat} (hg : i ∈ s.frameBlocks g) :
    (∃ p ∈ topParas items, p.id = i ∧ g = f) ∨ ∃ t ∈ tablesOf items, ∃ c ∈ t.cells, ∃ p ∈ c.paras, p.id = i ∧ g = c.frame := by
  unfold Store.frameBlocks at hg
  cases e : s.frames g with
  | none => rw [e] at hg; simp at hg
  | some fr =>
    rw [e] at hg
    simp only [Option.map_some, Option.getD_some] at hg
    rcases List.mem_cons.mp (h.onlyFrames g (by rw [e]; rfl)) with rfl | hm
    · obtain ⟨x, k1, k2, k3, k4, k5, k6, k7⟩ := h.frame
      rw [k1] at e; cases e
      obtain ⟨p, hp, rfl⟩ := List.mem_map.mp (k7.mem_iff.mp hg)
      exact .inl ⟨p, hp, rfl, rfl⟩
    · obtain ⟨t, ht, rfl | hm⟩ := mem_tableFrames_iff.mp hm
      · obtain ⟨x, k1, k2, k3, k4, k5, k6⟩ := (h.table t ht).anchor
        rw [k1] at e; cases e
        rw [k4] at hg; simp at hg
      · obtain ⟨c, hc, rfl⟩ := List.mem_map.mp hm
        obtain ⟨_, _, _, x, k1, k2, k3, _, k5, k6⟩ := (h.table t ht).cell c hc
        rw [k1] at e; cases e
        obtain ⟨p, hp, rfl⟩ := List.mem_map.mp (k6.mem_iff.mp hg)
        exact .inr ⟨t, ht, c, hc, p, hp, rfl, rfl⟩

theorem Arranged.cellFrameBlocks (h : Arranged s d f items) (ht : t ∈ tablesOf items) {c : SCell} (hc : c ∈ t.cells) :
    (s.frameBlocks c.frame).Perm (c.paras.map SPara.id) := by
  obtain ⟨_, _, _, x, k1, k2, k3, _, k5, k6⟩ := (h.table t ht).cell c hc
  unfold Store.frameBlocks
  rw [k1]; exact k6

theorem Arranged.mainFrameBlocks (h : Arranged s d f items) : (s.frameBlocks f).Perm ((topParas items).map SPara.id) := by
  obtain ⟨x, k1, k2, k3, k4, k5, k6, k7⟩ := h.frame
  unfold Store.frameBlocks
  rw [k1]; exact k7

theorem Arranged.mem_docFrames (h : Arranged s d f items) {g : Nat} : g ∈ s.docFrames d.id ↔ g ∈ f :: tableFrames items := by
  obtain ⟨rest, h1, h2⟩ := h.frames
  unfold Store.docFrames
  rw [h.document, Option.map_some, Option.getD_some, h1, List.mem_cons, List.mem_cons, h2.mem_iff]

/-- The blocks of a cell by stored position. -/
theorem Arranged.sortedBlocks (h : Arranged s d f items) (ht : t ∈ tablesOf items) {c : SCell} (hc : c ∈ t.cells)
    (ho : c.paras.Pairwise fun p q => s.storedPos p < s.storedPos q) :
    sortByKey Block.documentPosition (s.getBlocks (s.frameBlocks c.frame)) = c.paras.map fun p => p.entity (s.storedPos p) := by
  obtain ⟨L, hL, _⟩ := h.content
  have hsub : ∀ q ∈ c.paras, q ∈ flowParas items := fun q hq =>
    mem_flowParas.mpr (.inr ⟨t, ht, List.mem_flatMap.mpr ⟨c, hc, hq⟩⟩)
  apply eq_of_ordered (le := fun a b : Block => a.documentPosition ≤ b.documentPosition)
    (lt := fun a b : Block => a.documentPosition < b.documentPosition)
  · intro x y h1 h2; omega
  · refine (sortByKey_perm _ _).trans ?_
    rw [← hL.getBlocks c.paras hsub]
    exact (h.cellFrameBlocks ht hc).filterMap _
  · exact sortByKey_sorted _ _
  · rw [List.pairwise_map]; exact ho

/-- The blocks to be numbered again. -/
theorem Arranged.cellBlockList (h : Arranged s d f items) (ht : t ∈ tablesOf items)
    (ho : ∀ c ∈ t.cells, c.paras.Pairwise fun p q => s.storedPos p < s.storedPos q) :
    ((s.sortedCells t.table.id).flatMap fun c =>
      c.cellFrame.toList.flatMap fun f => sortByKey Block.documentPosition (s.getBlocks (s.frameBlocks f))) =
    (t.cells.flatMap SCell.paras).map fun p => p.entity (s.storedPos p) := by
  unfold Store.sortedCells
  rw [(h.table t ht).sorted, List.flatMap_map, List.map_flatMap]
  have : ∀ l : List SCell, (∀ c ∈ l, c ∈ t.cells) → (l.flatMap fun c => c.cell.cellFrame.toList.flatMap fun f =>
      sortByKey Block.documentPosition (s.getBlocks (s.frameBlocks f))) = l.flatMap fun c => c.paras.map fun p => p.entity (s.storedPos p) := by
    intro l
    induction l with
    | nil => intro _; rfl
    | cons c l ih =>
      intro hl
      rw [List.flatMap_cons, List.flatMap_cons, ih fun x hx => hl x (by simp [hx])]
      have hc := hl c (by simp)
      rw [((h.table t ht).cell c hc).2.1]
      simp only [Option.toList_some, List.flatMap_cons, List.flatMap_nil, List.append_nil]
      rw [h.sortedBlocks ht hc (ho c hc)]
  exact this _ fun _ h => h

theorem charsBefore_all_empty : ∀ {ps : List SPara}, (∀ p ∈ ps, p.chars = []) → charsBefore (paras ps) = ps.length := by
  intro ps
  induction ps with
  | nil => intro _; rfl
  | cons p ps ih =>
    intro h
    rw [charsBefore_paras_cons, ih fun q hq => h q (by simp [hq])]
    have : p.chars.length = 0 := by simp [h p (by simp)]
    simp only [List.length_cons]; omega

/-- Numbering the paragraphs of a table's cells again and moving those behind the table brings the
stored positions in order, if the cells are empty. -/
theorem Arranged.reseat (h : Arranged s d f (A ++ .table t :: B)) {base n old : Int}
    (hbase : base = charsBefore (paras (flowParas A))) (hold : 0 ≤ old)
    (hA : ∀ X q Y, flowParas A = X ++ q :: Y → s.storedPos q = charsBefore (paras X))
    (hB : ∀ X q Y, flowParas B = X ++ q :: Y → s.storedPos q = base + old + charsBefore (paras X))
    (hn : n = ((t.cells.flatMap SCell.paras).length : Int) - old) (he : ∀ c ∈ t.cells, ∀ p ∈ c.paras, p.chars = [])
    (ho : ∀ c ∈ t.cells, c.paras.Pairwise fun p q => s.storedPos p < s.storedPos q) :
    Seated ((s.reassignCells t.table.id base).shiftOutside d.id t.table.id base n) (flowParas (A ++ .table t :: B)) := by
  have ht : t ∈ tablesOf (A ++ .table t :: B) := by rw [tables_at]; simp
  obtain ⟨L, hL, _⟩ := h.content
  have hids := hL.ids_nodup
  rw [flow_at, List.map_append, List.map_append, List.nodup_append, List.nodup_append] at hids
  obtain ⟨n1, ⟨n2, n3, n4⟩, n5⟩ := hids
  -- the cells
  have e1 : s.reassignCells t.table.id base = s.updateBlocks
      (((t.cells.flatMap SCell.paras).map fun p => p.entity (s.storedPos p)).zipIdx.map fun x =>
        { x.1 with documentPosition := base + (x.2 : Int) }) := by
    unfold Store.reassignCells
    simp only
    rw [h.cellBlockList ht ho]
  have hzid : ((((t.cells.flatMap SCell.paras).map fun p => p.entity (s.storedPos p)).zipIdx.map fun x =>
        ({ x.1 with documentPosition := base + (x.2 : Int) } : Block)).map Block.id) = (t.cells.flatMap SCell.paras).map SPara.id := by
    rw [List.map_map]
    have : (Block.id ∘ fun x : Block × Nat => ({ x.1 with documentPosition := base + (x.2 : Int) } : Block)) = Block.id ∘ Prod.fst := rfl
    rw [this, ← List.map_map, List.zipIdx_map_fst, List.map_map]; rfl
  obtain ⟨r1, r2, m, r3⟩ := updateBlocks_get (s := s) _ (by rw [hzid]; exact n2)
  rw [hzid] at r2
  rw [← e1] at r1 r2 r3
  have hk : ∀ (k : Nat) (p : SPara), (t.cells.flatMap SCell.paras)[k]? = some p → (s.reassignCells t.table.id base).blocks p.id =
      some (p.entity (base + (k : Int))) := by
    intro k p hkp
    have hp : p ∈ flowParas (A ++ .table t :: B) := by
      rw [flow_at]; exact List.mem_append_right _ (List.mem_append_left _ (List.mem_of_getElem? hkp))
    have := r1 ({ p.entity (s.storedPos p) with documentPosition := base + (k : Int) }) (by
      refine List.mem_map.mpr ⟨(p.entity (s.storedPos p), k), ?_, rfl⟩
      rw [List.mem_zipIdx_iff_getElem?]
      simp [hkp])
    rw [show ({ p.entity (s.storedPos p) with documentPosition := base + (k : Int) } : Block).id = p.id from rfl, hL.stored hp] at this
    exact this
  have h1 : Arranged (s.reassignCells t.table.id base) d f (A ++ .table t :: B) := h.reassign _ _
  generalize hs1 : s.reassignCells t.table.id base = s1 at *
  obtain ⟨L1, hL1, _⟩ := h1.content
  -- the others
  have hin : (s1.sortedCells t.table.id).filterMap TableCell.cellFrame = t.cells.map SCell.frame := by
    unfold Store.sortedCells
    rw [(h1.table t ht).sorted]
    exact cells_frames fun c hc => ((h1.table t ht).cell c hc).2.1
  unfold Store.shiftOutside
  simp only [hin]
  generalize hbs : (((s1.docFrames d.id).filter fun f => !(t.cells.map SCell.frame).contains f).flatMap fun f =>
    s1.getBlocks (s1.frameBlocks f)) = bs
  have hstored : ∀ b ∈ bs, s1.blocks b.id = some b := by
    intro b hb
    rw [← hbs] at hb
    obtain ⟨g, _, hb⟩ := List.mem_flatMap.mp hb
    obtain ⟨p, hp, k1, k2⟩ := h1.getBlocks hb
    have : b.id = p.id := by rw [k1.eq]; rfl
    rw [this]; exact k2
  obtain ⟨w1, w2, w3⟩ := shiftFrom_det (start := base) (n := n) hstored
  have hd := h.distinct.1
  rw [frames_at, List.nodup_cons, List.nodup_append, List.nodup_cons, List.nodup_append] at hd
  have hout : ∀ q ∈ flowParas A ++ flowParas B, q.entity (s1.storedPos q) ∈ bs := by
    intro q hq
    have hq' : q ∈ flowParas (A ++ .table t :: B) := by
      rw [flow_at]
      simp only [List.mem_append] at hq ⊢
      rcases hq with hq | hq
      · exact .inl hq
      · exact .inr (.inr hq)
    have hst := hL1.stored hq'
    rw [← hbs]
    rw [← show flowParas (A ++ B) = flowParas A ++ flowParas B by unfold flowParas; rw [List.flatMap_append]] at hq
    rcases mem_flowParas.mp hq with hq | ⟨u, hu, hq⟩
    · refine List.mem_flatMap.mpr ⟨f, List.mem_filter.mpr ⟨h1.mem_docFrames.mpr (by simp), ?_⟩, ?_⟩
      · have : f ∉ t.cells.map SCell.frame := fun hm => hd.1 (by simp only [List.mem_append, List.mem_cons]; exact .inr (.inr (.inl hm)))
        simpa using this
      · refine List.mem_filterMap.mpr ⟨q.id, h1.mainFrameBlocks.mem_iff.mpr ?_, hst⟩
        refine List.mem_map_of_mem ?_
        rw [top_at]
        unfold topParas at hq ⊢
        rw [List.flatMap_append] at hq
        exact hq
    · obtain ⟨c, hc, hq⟩ := List.mem_flatMap.mp hq
      have hu' : u ∈ tablesOf (A ++ .table t :: B) := by
        rw [tables_at]
        unfold tablesOf at hu ⊢
        rw [List.flatMap_append] at hu
        simp only [List.mem_append, List.mem_cons] at hu ⊢
        rcases hu with hu | hu
        · exact .inl hu
        · exact .inr (.inr hu)
      have huf : c.frame ∈ tableFrames A ∨ c.frame ∈ tableFrames B := by
        unfold tablesOf at hu
        rw [List.flatMap_append, List.mem_append] at hu
        rcases hu with hu | hu
        · exact .inl (mem_tableFrames_iff.mpr ⟨u, hu, .inr (List.mem_map_of_mem hc)⟩)
        · exact .inr (mem_tableFrames_iff.mpr ⟨u, hu, .inr (List.mem_map_of_mem hc)⟩)
      refine List.mem_flatMap.mpr ⟨c.frame, List.mem_filter.mpr ⟨h1.mem_docFrames.mpr ?_, ?_⟩, ?_⟩
      · exact List.mem_cons_of_mem _ (mem_tableFrames_iff.mpr ⟨u, hu', .inr (List.mem_map_of_mem hc)⟩)
      · have : c.frame ∉ t.cells.map SCell.frame := by
          intro hm
          rcases huf with hx | hx
          · exact hd.2.2.2 _ hx _ (List.mem_cons_of_mem _ (List.mem_append_left _ hm)) rfl
          · exact hd.2.2.1.2.2.2 _ hm _ hx rfl
        simpa using this
      · exact List.mem_filterMap.mpr ⟨q.id, (h1.cellFrameBlocks hu' hc).mem_iff.mpr (List.mem_map_of_mem hq), hst⟩
  have hins : ∀ q ∈ t.cells.flatMap SCell.paras, q.id ∉ bs.map Block.id := by
    intro q hq hm
    obtain ⟨c, hc, hq⟩ := List.mem_flatMap.mp hq
    obtain ⟨b, hb, e⟩ := List.mem_map.mp hm
    rw [← hbs] at hb
    obtain ⟨g, hg, hb⟩ := List.mem_flatMap.mp hb
    obtain ⟨i, hi, hb⟩ := List.mem_filterMap.mp hb
    have hgf : g ∉ t.cells.map SCell.frame := by simpa using (List.mem_filter.mp hg).2
    have hib : i = b.id := by
      have h2 : i ∈ (flowParas (A ++ .table t :: B)).map SPara.id := by
        rcases h1.mem_frameBlocks hi with ⟨p, hp, rfl, _⟩ | ⟨u, hu, c', hc', p, hp, rfl, _⟩
        · exact List.mem_map_of_mem (mem_flowParas.mpr (.inl hp))
        · exact List.mem_map_of_mem (mem_flowParas.mpr (.inr ⟨u, hu, List.mem_flatMap.mpr ⟨c', hc', hp⟩⟩))
      obtain ⟨p, hp, rfl⟩ := List.mem_map.mp h2
      rw [hL1.stored hp] at hb
      cases hb; rfl
    rw [← hib] at e
    have hown : i = q.id ∧ q.id ∈ (t.cells.flatMap SCell.paras).map SPara.id :=
      ⟨e, List.mem_map_of_mem (List.mem_flatMap.mpr ⟨c, hc, hq⟩)⟩
    rcases h1.mem_frameBlocks hi with ⟨p, hp, e', _⟩ | ⟨u, hu, c', hc', p, hp, e', rfl⟩
    · have hpin : p.id ∈ (flowParas A).map SPara.id ∨ p.id ∈ (flowParas B).map SPara.id := by
        rw [top_at, List.mem_append] at hp
        rcases hp with hp | hp
        · exact .inl (List.mem_map_of_mem (mem_flowParas.mpr (.inl hp)))
        · exact .inr (List.mem_map_of_mem (mem_flowParas.mpr (.inl hp)))
      rw [e', hown.1] at hpin
      rcases hpin with hx | hx
      · exact n5 _ hx _ (List.mem_append_left _ hown.2) rfl
      · exact n4 _ hown.2 _ hx rfl
    · rw [tables_at, List.mem_append, List.mem_cons] at hu
      rcases hu with hu | rfl | hu
      · have : p.id ∈ (flowParas A).map SPara.id :=
          List.mem_map_of_mem (mem_flowParas.mpr (.inr ⟨u, hu, List.mem_flatMap.mpr ⟨c', hc', hp⟩⟩))
        rw [e', hown.1] at this
        exact n5 _ this _ (List.mem_append_left _ hown.2) rfl
      · exact hgf (List.mem_map_of_mem hc')
      · have : p.id ∈ (flowParas B).map SPara.id :=
          List.mem_map_of_mem (mem_flowParas.mpr (.inr ⟨u, hu, List.mem_flatMap.mpr ⟨c', hc', hp⟩⟩))
        rw [e', hown.1] at this
        exact n4 _ hown.2 _ this rfl
  have hpos1 : ∀ q ∈ flowParas A ++ flowParas B, s1.storedPos q = s.storedPos q := by
    intro q hq
    unfold Store.storedPos
    rw [r2]
    intro hm
    rcases List.mem_append.mp hq with hq | hq
    · exact n5 _ (List.mem_map_of_mem hq) _ (List.mem_append_left _ hm) rfl
    · exact n4 _ hm _ (List.mem_map_of_mem hq) rfl
  apply seated_of_placed
  intro X q Y e
  rw [flow_at] at e
  rcases charsBefore_le e with ⟨V, hv1, hv2⟩ | ⟨V, hv1, hv2⟩
  · -- before the table
    have hq : q ∈ flowParas A := by rw [hv1]; simp
    refine ⟨_, w1 _ (hout q (List.mem_append_left _ hq)), ?_⟩
    show (if s1.storedPos q ≥ base then s1.storedPos q + n else s1.storedPos q) = _
    rw [hpos1 q (List.mem_append_left _ hq), hA X q V hv1, if_neg]
    rw [hbase, hv1, paras_append, charsBefore_append, charsBefore_paras_cons]
    omega
  · rcases charsBefore_le hv2 with ⟨W, hw1, hw2⟩ | ⟨W, hw1, hw2⟩
    · -- in the table
      have hq : q ∈ t.cells.flatMap SCell.paras := by rw [hw1]; simp
      have hk' := hk V.length q (by rw [hw1]; simp)
      refine ⟨_, (w2 _ (hins q hq)).trans hk', ?_⟩
      show base + (V.length : Int) = _
      rw [hv1, paras_append, charsBefore_append, charsBefore_all_empty (ps := V), hbase]
      · omega
      · intro p hp
        have : p ∈ t.cells.flatMap SCell.paras := by rw [hw1]; simp [hp]
        obtain ⟨c, hc, hp⟩ := List.mem_flatMap.mp this
        exact he c hc p hp
    · -- behind the table
      have hq : q ∈ flowParas B := by rw [hw2]; simp
      refine ⟨_, w1 _ (hout q (List.mem_append_right _ hq)), ?_⟩
      show (if s1.storedPos q ≥ base then s1.storedPos q + n else s1.storedPos q) = _
      rw [hpos1 q (List.mem_append_right _ hq), hB W q Y hw2, if_pos (by omega), hv1, paras_append, charsBefore_append, hw1,
        paras_append, charsBefore_append, charsBefore_all_empty (ps := t.cells.flatMap SCell.paras), hn, hbase]
      · omega
      · intro p hp
        obtain ⟨c, hc, hp⟩ := List.mem_flatMap.mp hp
        exact he c hc p hp

end Verif
