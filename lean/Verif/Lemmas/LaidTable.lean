import Verif.Lemmas.LaidSteps
import Verif.Lemmas.ListCounter
import Verif.Model.PasteMixed
/-
A table added at the end of a document.
-/
namespace Verif
open Store
variable {s s' : Store} {d d' : Document} {f : Nat} {items items' order order' : List SItem}

theorem Laid.addTable (h : Laid s d f items order) {m : MixAt} {t : FragTable} {z cur : Nat} (hv : t.void = false) (hsim : ∀ c ∈ t.cells, c.Simple)
    (hord : t.InOrder) (hnext : m.next = some z) {p : SPara} (hp : p ∈ topParas items) (hlast : m.last = p.id)
    (hfill : m.filled = !decide (p.text = [])) (hok : p.id = cur ∨ p.text ≠ []) :
    ∃ s' d', mixTable d.id f cur t m s = some (s', { m with
          running := m.running + charsBefore (paras ((pastedTable s t).cells.flatMap SCell.paras))
          next := some s'.text.idx.total }, [-((pastedTable s t).anchor : Int)]) ∧
      d' = { d with frames := d'.frames, tables := d'.tables } ∧
      Laid s' d' f (items ++ [.table (pastedTable s t)]) (order ++ [.table (pastedTable s t)]) ∧ s'.lists = s.lists ∧
      s'.next "list" = s.next "list" ∧
      (∀ q ∈ flowParas items, s'.blocks q.id = s.blocks q.id) ∧
      ∀ X q Y, (pastedTable s t).cells.flatMap SCell.paras = X ++ q :: Y → ∃ b, s'.blocks q.id = some b ∧
        b.documentPosition = m.running + charsBefore (paras X) := by
  obtain ⟨L, hH, hsub⟩ := h.content
  obtain ⟨fr, f1, f2, f3, f4, f5, f6, f7⟩ := h.main
  obtain ⟨last, s4, e4, M, hlp, hbp⟩ := pasteTable_put (f := f) (pos := m.running) h.document h.allTables h.allFrames
    (fun g hg => (h.freshFrames g hg).2) hsim hH.clean
  have hlist4 := pasteTable_list e4
  have hcf := pastedCells_frames (s.next "frame") (s.next "block") (s.next "table_cell") t.cells
  have hcb := pastedCells_blocks (s.next "frame") (s.next "block") (s.next "table_cell") t.cells
  have hcc := pastedCells_cells (s.next "frame") (s.next "block") (s.next "table_cell") t.cells
  have hcl := pastedCells_length (s.next "frame") (s.next "block") (s.next "table_cell") t.cells
  have hco := pastedCells_before (F := s.next "frame") (B := s.next "block") (C := s.next "table_cell") hord
  have hcm : ∀ x ∈ pastedCells (s.next "frame") (s.next "block") (s.next "table_cell") t.cells, _ := fun x hx => pastedCells_mem hx
  unfold pastedTable
  generalize hcs : pastedCells (s.next "frame") (s.next "block") (s.next "table_cell") t.cells = cs at *
  generalize htid : s.next "table" = tid at *
  generalize hN : t.cells.length = N at *
  generalize ha : s.next "frame" + N = a at *
  have hcfm : ∀ g, g ∈ cs.map SCell.frame ↔ s.next "frame" ≤ g ∧ g < s.next "frame" + N := by
    intro g; rw [hcf]; simp [List.mem_range'_1]
  have hcbm : ∀ g, g ∈ cellBlocks cs ↔ s.next "block" ≤ g ∧ g < s.next "block" + N := by
    intro g; rw [hcb]; simp [List.mem_range'_1]
  have hccm : ∀ g, (g ∈ cs.map fun c => c.cell.id) ↔ s.next "table_cell" ≤ g ∧ g < s.next "table_cell" + N := by
    intro g; rw [hcc]; simp [List.mem_range'_1]
  have hcbn : (cellBlocks cs).Nodup := by rw [hcb]; exact List.nodup_range'
  have hfs : (s.frames f).isSome := by rw [f1]; rfl
  have hf0 := h.freshFrames f hfs
  generalize hTdef : (⟨{ t.entity with id := tid, cells := cs.map fun c => c.cell.id }, a, cs⟩ : STable) = T
  have hTt : T.table.id = tid := by rw [← hTdef]
  have hTa : T.anchor = a := by rw [← hTdef]
  have hTc : T.cells = cs := by rw [← hTdef]
  have hTb : T.table = { t.entity with id := tid, cells := cs.map fun c => c.cell.id } := by rw [← hTdef]
  -- the order of the frame
  have hfr4 : s4.frames f = some fr := by
    rw [M.oldFrames f (by omega) (fun hm => by have := (hcfm f).mp hm; omega)]; exact f1
  have hanew : (-(a : Int)) ∉ fr.childOrder := by
    rw [f6]
    intro hm
    obtain ⟨x, hx, e⟩ := List.mem_map.mp hm
    cases x with
    | para q => simp only [SItem.entry] at e; omega
    | table u =>
      have hu : u ∈ tablesOf items := by rw [← h.same]; exact mem_tablesOf.mpr hx
      obtain ⟨y, y1, _⟩ := (h.table hu).anchor
      have := h.freshFrames u.anchor (by rw [y1]; rfl)
      simp only [SItem.entry] at e
      omega
  have hchild : fr.childOrder ++ [-(a : Int)] = (order ++ [SItem.table T]).map SItem.entry := by
    rw [f6, List.map_append]; simp [SItem.entry, hTa]
  generalize hs5 : s4.updateFrame { fr with childOrder := fr.childOrder ++ [-(a : Int)] } = s5
  have hpush : pushAnchor f a s4 = some s5 := by
    unfold Store.pushAnchor
    rw [hfr4, Option.map_some, if_neg hanew, hs5]
  have hf5 : s5.frames f = some { fr with childOrder := (order ++ [SItem.table T]).map SItem.entry } := by
    rw [← hs5, hchild]
    simp only [Store.updateFrame, f2, IdMap.insert_get, if_true, hfr4, Store.keepFrame]
  have hf5' : ∀ g, g ≠ f → s5.frames g = s4.frames g := by
    intro g hg; rw [← hs5]; simp [Store.updateFrame, f2, hg]
  have z1 : s5.tables = s4.tables ∧ s5.tableCells = s4.tableCells ∧ s5.documents = s4.documents ∧ s5.blocks = s4.blocks ∧
      s5.formatRuns = s4.formatRuns ∧ s5.blockImages = s4.blockImages ∧ s5.text = s4.text ∧ s5.roots = s4.roots ∧ s5.lists = s4.lists := by
    rw [← hs5]; exact ⟨rfl, rfl, rfl, rfl, rfl, rfl, rfl, rfl, rfl⟩
  have z2 : ∀ k, s5.next k = s4.next k := by intro k; rw [← hs5]; rfl
  have hgs : ∀ g, g ∈ T.anchor :: T.cells.map SCell.frame ↔ s.next "frame" ≤ g ∧ g < s.next "frame" + N + 1 := by
    intro g; rw [hTa, hTc, List.mem_cons, hcfm]; omega
  have hshow : ∀ s6 : Store, (∀ g, g ≠ f → s6.frames g = s5.frames g) → s6.tables = s5.tables → s6.tableCells = s5.tableCells → ShowsTable s6 f T := by
    intro s6 q1 q2 q3
    constructor
    · rw [q2, z1.1, hTt, M.table, hTb]
    · rw [hTb, hTc]
    · rw [hTc]; exact hco
    · exact ⟨_, by rw [q1 _ (by rw [hTa]; omega), hTa, hf5' _ (by omega)]; exact M.anchor, by rw [hTa], rfl, rfl, rfl, by rw [hTt]⟩
    · intro c hc'
      rw [hTc] at hc'
      obtain ⟨_, _, k, k1, _, _, k2, _⟩ := hcm c hc'
      refine ⟨by rw [q3, z1.2.1]; exact M.cells c hc', k2, by rw [k1]; simp, freshFrame c, ?_, rfl, rfl, .inr rfl, rfl, .refl _⟩
      have := (hcfm c.frame).mp (List.mem_map_of_mem hc')
      rw [q1 _ (by omega), hf5' _ (by omega)]; exact M.frames c hc'
  have hold : ∀ s6 : Store, (∀ g, g ≠ f → s6.frames g = s5.frames g) → s6.tables = s5.tables → s6.tableCells = s5.tableCells →
      ∀ u ∈ tablesOf items, ShowsTable s6 f u := by
    intro s6 q1 q2 q3 u hu
    have hs := h.table hu
    have hsome : ∀ g ∈ u.anchor :: u.cells.map SCell.frame, (s.frames g).isSome := by
      intro g hg
      rcases List.mem_cons.mp hg with rfl | hg
      · obtain ⟨y, y1, _⟩ := hs.anchor; rw [y1]; rfl
      · obtain ⟨c, hc, rfl⟩ := List.mem_map.mp hg
        obtain ⟨_, _, _, y, y1, _⟩ := hs.cell c hc; rw [y1]; rfl
    have hfg : ∀ g ∈ u.anchor :: u.cells.map SCell.frame, s6.frames g = s.frames g := by
      intro g hg
      have := h.freshFrames g (hsome g hg)
      rw [q1 g (h.apart hu hg), hf5' g (h.apart hu hg), M.oldFrames g (by omega) (fun hm => by have := (hcfm g).mp hm; omega)]
    have htl := h.freshTables u.table.id (by rw [hs.table]; rfl)
    constructor
    · rw [q2, z1.1, M.oldTables _ (by omega)]; exact hs.table
    · exact hs.cells
    · exact hs.order
    · obtain ⟨x, x1, x2⟩ := hs.anchor
      exact ⟨x, by rw [hfg _ (by simp)]; exact x1, x2⟩
    · intro c hc
      obtain ⟨x1, x2, x3, x, x4, x5⟩ := hs.cell c hc
      refine ⟨?_, x2, x3, x, by rw [hfg _ (List.mem_cons_of_mem _ (List.mem_map_of_mem hc))]; exact x4, x5⟩
      have hfc := h.arranged.freshCells c.cell.id (by rw [(ordered_rest s f _).2.2.2.1, x1]; rfl)
      rw [ordered_next] at hfc
      rw [q3, z1.2.1, M.oldCells _ (fun hm => by have := (hccm _).mp hm; omega)]; exact x1
  have htab : tablesOf (items ++ [SItem.table T]) = tablesOf items ++ [T] := by
    rw [tablesOf_append]; rfl
  have htab0 : tablesOf (order ++ [SItem.table T]) = tablesOf (items ++ [SItem.table T]) := by
    rw [htab, tablesOf_append, h.same]; rfl
  have hfl' : flowParas (items ++ [SItem.table T]) = flowParas items ++ cs.flatMap SCell.paras := by
    rw [flowParas_append, flowParas_table, hTc]; simp [flowParas]
  have htop : topParas (items ++ [SItem.table T]) = topParas items := by
    rw [topParas_append, topParas_table]; simp [topParas]
  -- the anchor in the text
  have hpm : p ∈ flowParas items := mem_flowParas.mpr (.inl hp)
  obtain ⟨U, V, hL⟩ := hH.split hpm
  have hnewT : Marker.table tid ∉ L.map Prod.fst := by
    intro hm
    have := (hH.perm.map Prod.fst).mem_iff.mp hm
    rw [List.map_append, List.mem_append, paras_fst] at this
    rcases this with hm | hm
    · simp at hm
    · simp only [List.map_map, List.mem_map, Function.comp_apply, Marker.table.injEq] at hm
      obtain ⟨u, hu, e⟩ := hm
      have := h.freshTables u.table.id (by rw [(h.table hu).table]; rfl)
      omega
  have htx5 : s5.text = s.text := by rw [z1.2.2.2.2.2.2.1, M.text]
  obtain ⟨st6, L', e6, r6, hperm, hsub6⟩ : ∃ st6 L', ropeInsertTableAnchor s5.text tid p.id (decide (p.id ≠ cur) || !decide (p.text = [])) = some st6 ∧
      Repr st6 L' ∧ L'.Perm ((.table tid, [objChar]) :: L) ∧ (paras (topParas items)).Sublist L' := by
    rw [htx5]
    rw [hL] at hnewT hsub
    by_cases hne : p.text = []
    · have hcur : p.id = cur := hok.resolve_right (by simp [hne])
      obtain ⟨st', t1, t2⟩ := insertTableBefore_repr (hL ▸ hH.text) hnewT
      exact ⟨st', _, by simpa [hcur, hne] using t1, t2, by rw [hL]; exact List.perm_middle,
        hsub.trans (List.Sublist.append_left ((List.sublist_cons_self _ _)) _)⟩
    · obtain ⟨st', t1, t2⟩ := insertTableAfter_repr (hL ▸ hH.text) hnewT (.inr hne)
      refine ⟨st', _, by simpa [hne] using t1, t2, ?_, hsub.trans (List.Sublist.append_left ((List.sublist_cons_self _ _).cons_cons _) _)⟩
      rw [hL, List.perm_iff_count]
      intro x
      simp only [List.count_append, List.count_cons]; omega
  -- the cells in the text
  have hct : cellTexts cs = ((cs.flatMap SCell.paras).map fun q => (q.id, q.text)).map fun x => [x] := by
    unfold cellTexts
    have : ∀ l : List SCell, (∀ c ∈ l, c ∈ cs) → (l.map fun c => c.paras.map fun p => (p.id, p.text)) =
        ((l.flatMap SCell.paras).map fun q => (q.id, q.text)).map fun x => [x] := by
      intro l
      induction l with
      | nil => intro _; rfl
      | cons c l ih =>
        intro hl
        obtain ⟨_, _, k, k1, _⟩ := hcm c (hl c (by simp))
        rw [List.map_cons, ih fun z hz => hl z (by simp [hz]), List.flatMap_cons, k1]
        simp
    exact this cs fun c hc => hc
  have hLfst : ∀ b ∈ cellBlocks cs, Marker.block b ∉ L'.map Prod.fst := by
    intro b hb hm
    have := (hperm.map Prod.fst).mem_iff.mp hm
    simp only [List.map_cons, List.mem_cons, reduceCtorEq, false_or] at this
    have := (hH.perm.map Prod.fst).mem_iff.mp this
    rw [List.map_append, List.mem_append, paras_fst] at this
    rcases this with hm | hm
    · obtain ⟨q, hq, e⟩ := List.mem_map.mp hm
      simp only [Marker.block.injEq] at e
      have := hH.fresh q hq
      have := (hcbm b).mp hb
      omega
    · simp at hm
  have hids : ((cs.flatMap SCell.paras).map fun q => (q.id, q.text)).map Prod.fst = cellBlocks cs := by
    unfold cellBlocks; rw [List.map_map]; rfl
  have hmark : ∀ x ∈ L', (∃ p ∈ flowParas (items ++ [SItem.table T]), x.1 = .block p.id) ∨
      ∃ t ∈ tablesOf (items ++ [SItem.table T]), x.1 = .table t.table.id := by
    intro z hz
    rcases List.mem_cons.mp (hperm.mem_iff.mp hz) with rfl | hz
    · exact .inr ⟨T, by rw [htab]; simp, by rw [hTt]⟩
    · rcases List.mem_append.mp (hH.perm.mem_iff.mp hz) with hz | hz
      · obtain ⟨q, hq, rfl⟩ := List.mem_map.mp hz
        exact .inl ⟨q, by rw [hfl']; simp [hq], rfl⟩
      · simp only [List.map_map, List.mem_map, Function.comp_apply] at hz
        obtain ⟨u, hu, rfl⟩ := hz
        exact .inr ⟨u, by rw [htab]; simp [hu], rfl⟩
  have hlen2 : 2 ≤ s5.frames.len := by
    have h1 : f ∈ s5.frames.keys := (s5.frames.mem f).mpr (by rw [hf5]; rfl)
    have h2 : a ∈ s5.frames.keys := (s5.frames.mem a).mpr (by rw [hf5' _ (by omega), M.anchor]; rfl)
    unfold IdMap.len
    match s5.frames.keys, h1, h2 with
    | [z], h1, h2 => simp at h1 h2; omega
    | _ :: _ :: _, _, _ => simp
  have hall : ∀ s6 : Store, s6.frames = s5.frames → s6.tables = s5.tables → s6.tableCells = s5.tableCells →
      ∀ u ∈ tablesOf (items ++ [SItem.table T]), ShowsTable s6 f u ∧ 0 < u.anchor := by
    intro s6 q1 q2 q3 u hu
    rw [htab] at hu
    rcases List.mem_append.mp hu with hu | hu
    · refine ⟨hold s6 (fun g _ => by rw [q1]) q2 q3 u hu, ?_⟩
      obtain ⟨y, y1, _⟩ := (h.table hu).anchor
      exact (h.freshFrames u.anchor (by rw [y1]; rfl)).1
    · rw [List.mem_singleton.mp hu]
      exact ⟨hshow s6 (fun g _ => by rw [q1]) q2 q3, by rw [hTa]; omega⟩
  have hL'ne : L' ≠ [] := by intro e0; rw [e0] at hperm; have := hperm.length_eq; simp at this
  obtain ⟨st7, e7, r7⟩ := ropeCells_end (s := s5.withText st6) (f := f) (items := items ++ [SItem.table T]) (items0 := order ++ [SItem.table T])
    ((cs.flatMap SCell.paras).map fun q => (q.id, q.text)) (L := L') r6 hL'ne hmark (by
      intro b hb
      obtain ⟨q, hq, rfl⟩ := List.mem_map.mp hb
      exact ⟨q, by rw [hfl']; simp [hq], rfl⟩) (by rw [hids]; exact hcbn) (by
      intro b hb
      exact hLfst b.1 (by rw [← hids]; exact List.mem_map_of_mem hb)) hf5 f3 f4 rfl htab0 (by rw [htop]; exact f7)
      (hall _ rfl rfl rfl) (.inl hlen2)
  rw [← hct] at e7
  generalize hs7 : (s5.withText st6).withText st7 = s7 at e7
  have v1 : s7.frames = s5.frames := by rw [← hs7]; rfl
  have v2 : s7.tables = s5.tables := by rw [← hs7]; rfl
  have v3 : s7.tableCells = s5.tableCells := by rw [← hs7]; rfl
  have v4 : s7.documents = s5.documents := by rw [← hs7]; rfl
  have v5 : ∀ k, s7.next k = s4.next k := by intro k; rw [← z2, ← hs7]; rfl
  have v6 : s7.formatRuns = s4.formatRuns := by rw [← hs7]; exact z1.2.2.2.2.1
  have v7 : s7.blockImages = s4.blockImages := by rw [← hs7]; exact z1.2.2.2.2.2.1
  have v8 : s7.text = st7 := by rw [← hs7]; rfl
  have v9 : s7.roots = s.roots := by rw [← hs7, ← M.roots]; exact z1.2.2.2.2.2.2.2.1
  have v10 : s7.lists = s.lists := by rw [← hs7, ← M.lists]; exact z1.2.2.2.2.2.2.2.2
  have hb7 : s7.blocks = s4.blocks := by rw [← hs7]; exact z1.2.2.2.1
  have hdoc7 : s7.documents d.id = some { d with frames := d.frames ++ cs.map SCell.frame ++ [a], tables := d.tables ++ [tid] } := by
    rw [v4, z1.2.2.1]; exact M.document
  have hfresh0 : ∀ q ∈ flowParas items, q.id ∉ cellBlocks cs := by
    intro q hq hm
    have := hH.fresh q hq
    have := (hcbm q.id).mp hm
    omega
  have hnb : s7.next "block" = s.next "block" + N := by rw [v5, M.nextBlock, hcl]
  have hnewp : ∀ q ∈ cs.flatMap SCell.paras, q.shape = {} ∧ q.id ∈ cellBlocks cs ∧ ∃ c ∈ cs, q ∈ c.paras := by
    intro q hq
    obtain ⟨c, hc', hqc⟩ := List.mem_flatMap.mp hq
    obtain ⟨_, _, k, k1, _⟩ := hcm c hc'
    refine ⟨?_, List.mem_map_of_mem hq, c, hc', hqc⟩
    rw [k1] at hqc
    simp only [List.mem_singleton] at hqc
    rw [hqc]
  have hcar : Carries s7 (L' ++ ((cs.flatMap SCell.paras).map fun q => (q.id, q.text)).map fun z => (.block z.1, z.2))
      (flowParas (items ++ [SItem.table T])) ((tablesOf (items ++ [SItem.table T])).map fun t => t.table.id) := by
    rw [htab, hfl']
    constructor
    · rw [v8]; exact r7
    · have h1 := hperm
      have h2 := hH.perm
      have h3 : ((cs.flatMap SCell.paras).map fun q => (q.id, q.text)).map (fun z => ((.block z.1, z.2) : Para)) = paras (cs.flatMap SCell.paras) := by
        simp [paras]
      rw [h3]
      rw [List.perm_iff_count] at h1 h2 ⊢
      intro z
      have h1 := h1 z
      have h2 := h2 z
      have hpa : ∀ X Y : List SPara, paras (X ++ Y) = paras X ++ paras Y := fun X Y => by simp [paras]
      simp only [List.count_append, List.count_cons, hpa, List.map_cons, List.map_nil, List.count_nil, hTt, List.map_append] at h1 h2 ⊢
      omega
    · refine IdMap.keys_perm ?_ ?_
      · rw [List.map_append, List.nodup_append]
        refine ⟨hH.ids_nodup, hcbn, ?_⟩
        intro x hx y hy e
        subst e
        obtain ⟨q, hq, rfl⟩ := List.mem_map.mp hx
        exact hfresh0 q hq hy
      · intro i
        rw [List.map_append, List.mem_append, hb7]
        constructor
        · intro hi
          by_cases h1 : i ∈ cellBlocks cs
          · exact .inr h1
          · rw [M.oldBlocks i h1] at hi
            by_cases h2 : i ∈ (flowParas items).map SPara.id
            · exact .inl h2
            · rw [hH.absent h2] at hi; cases hi
        · rintro (hi | hi)
          · obtain ⟨q, hq, rfl⟩ := List.mem_map.mp hi
            obtain ⟨b, hb, _⟩ := hH.block q hq
            rw [M.oldBlocks _ (hfresh0 q hq), hb]; rfl
          · obtain ⟨k, hk⟩ := M.blocks i hi
            rw [hk]; rfl
    · intro q hq
      rw [hb7]
      rcases List.mem_append.mp hq with hq | hq
      · rw [M.oldBlocks _ (hfresh0 q hq)]; exact hH.block q hq
      · obtain ⟨g1, g2, _⟩ := hnewp q hq
        obtain ⟨k, hk⟩ := M.blocks q.id g2
        refine ⟨_, hk, ?_⟩
        unfold IsBlock
        rw [g1]
    · intro q hq
      rw [v6]
      rcases List.mem_append.mp hq with hq | hq
      · rw [M.oldRuns _ (hfresh0 q hq)]; exact hH.formats q hq
      · obtain ⟨_, _, c, hc', hqc⟩ := hnewp q hq
        exact M.runs c hc' q hqc
    · intro q hq
      rw [v7]
      rcases List.mem_append.mp hq with hq | hq
      · rw [M.oldImages _ (hfresh0 q hq)]; exact hH.images q hq
      · obtain ⟨_, _, c, hc', hqc⟩ := hnewp q hq
        exact M.images c hc' q hqc
    · intro q hq
      rw [hnb]
      rcases List.mem_append.mp hq with hq | hq
      · have := hH.fresh q hq; omega
      · exact ((hcbm q.id).mp (hnewp q hq).2.1).2
    · intro i hi
      have : i ∉ cellBlocks cs := fun hm => by have := (hcbm i).mp hm; omega
      rw [v6, v7, M.oldRuns i this, M.oldImages i this]
      exact hH.clean i (by omega)
  have hf7 : s7.frames f = some { fr with childOrder := (order ++ [SItem.table T]).map SItem.entry } := by rw [v1]; exact hf5
  have hend := topLevelFrameEnd_main (s := s7) (f := f) (items := items ++ [SItem.table T]) (items0 := order ++ [SItem.table T])
    (by rw [v8]; exact r7) (by simp [hL'ne]) (by
      intro x hx
      rcases List.mem_append.mp hx with hx | hx
      · exact hmark x hx
      · obtain ⟨y, hy, rfl⟩ := List.mem_map.mp hx
        obtain ⟨q, hq, rfl⟩ := List.mem_map.mp hy
        exact .inl ⟨q, by rw [hfl']; simp [hq], rfl⟩) hf7 f3 f4 rfl htab0 (by rw [htop]; exact f7)
      (hall _ v1 v2 v3) (.inl (by rw [v1]; exact hlen2))
  have hcmd : mixTable d.id f cur t m s = some (s7, { m with running := last, next := some s7.text.idx.total }, [-(a : Int)]) := by
    unfold Store.mixTable
    rw [hv]
    simp only [Bool.false_eq_true, if_false]
    rw [e4, Option.bind_some]
    dsimp only
    rw [hpush, Option.bind_some, hnext]
    simp only [Store.ropeTable, hlast, hfill, e6, Option.bind_some, e7, hend, Option.map_some]
  refine ⟨s7, { d with frames := d.frames ++ cs.map SCell.frame ++ [a], tables := d.tables ++ [tid] },
    by rw [hTa, hTc, ← hlp]; exact hcmd, rfl, ?_, v10, by rw [v5, hlist4], ?_, ?_⟩
  rotate_left
  · intro q hq
    rw [hb7]; exact M.oldBlocks _ (hfresh0 q hq)
  · intro X q Y e
    rw [hTc] at e
    exact ⟨_, by rw [hb7]; exact hbp X q Y e, rfl⟩
  refine ⟨⟨_, by rw [v1]; exact hf5, rfl⟩, htab0, ?_⟩
  have r := ordered_rest s f (items.map SItem.entry)
  have r' := ordered_rest s7 f ((items ++ [SItem.table T]).map SItem.entry)
  have hg7 : (s7.ordered f ((items ++ [SItem.table T]).map SItem.entry)).frames f = some { fr with childOrder := (items ++ [SItem.table T]).map SItem.entry } := by
    rw [ordered_eq (show s7.frames f = _ by rw [v1]; exact hf5)]; simp
  have hg7' : ∀ g, g ≠ f → (s7.ordered f ((items ++ [SItem.table T]).map SItem.entry)).frames g = s5.frames g := by
    intro g hg
    rw [ordered_eq (show s7.frames f = _ by rw [v1]; exact hf5)]; simp [hg, v1]
  have har : Arranged (s.ordered f (items.map SItem.entry)) d f (items ++ []) := by simpa using h.arranged
  refine har.withTable (by rw [r'.1, r.1, v9]) (by rw [r'.2.1]; exact hdoc7) rfl (by rw [hTc, hTa]) (by rw [hTt])
    ⟨_, hcar.ordered, ?_⟩ ?_ ?_ (hshow _ hg7' (by rw [r'.2.2.1, v2]) (by rw [r'.2.2.2.1, v3])) ?_ ?_ ?_ ?_ ?_ ?_ ?_ ?_ ?_
  · rw [htop]
    exact hsub6.trans (List.sublist_append_left _ _)
  · rw [hg7, ordered_eq f1]; simp
  · intro i h1 h2
    rw [hg7' i h1, hf5' i h1, h.other h1]
    rw [hTa, hTc, List.mem_cons, not_or] at h2
    exact M.oldFrames i h2.1 h2.2
  · intro g hg
    have := (hgs g).mp hg
    rw [ordered_next, ordered_next, v5, M.nextFrame, hcl]
    omega
  · rw [hTa, hTc, List.nodup_cons]
    refine ⟨fun hm => by have := (hcfm a).mp hm; omega, by rw [hcf]; exact List.nodup_range'⟩
  · intro i hi'
    rw [r'.2.2.1, r.2.2.1, v2, z1.1]; exact M.oldTables i (by rw [← hTt]; exact hi')
  · rw [hTt, ordered_next, ordered_next, v5, M.nextTable]; omega
  · intro i hi'
    rw [r'.2.2.2.1, r.2.2.2.1, v3, z1.2.1]; exact M.oldCells i (by rw [← hTc]; exact hi')
  · intro i hi'
    rw [hTc] at hi'
    have := (hccm i).mp hi'
    rw [ordered_next, ordered_next, v5, M.nextCell, hcl]; omega
  · rw [hTc, hcc]; exact List.nodup_range'
  · rw [ordered_next, ordered_next, v5, M.nextCell]; omega
  · intro q hq
    rw [hTc] at hq
    have := (hcbm q.id).mp (List.mem_map_of_mem hq)
    have := h.arranged.positive p hpm
    have := hH.fresh p hpm
    omega

end Verif
