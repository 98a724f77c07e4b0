import Verif.Lemmas.TablePasteDoc
/-
The document after pasting a table.
-/
namespace Verif
open Store
variable {s s' : Store} {d : Document} {f : Nat} {A B : List SItem}

/-- The table made of a table of a fragment. -/
def pastedTable (s : Store) (t : FragTable) : STable :=
  ⟨{ t.entity with id := s.next "table", cells := (pastedCells (s.next "frame") (s.next "block") (s.next "table_cell") t.cells).map fun c => c.cell.id },
    s.next "frame" + t.cells.length, pastedCells (s.next "frame") (s.next "block") (s.next "table_cell") t.cells⟩

theorem pastedTable_like (s : Store) (t : FragTable) : TableLike t (pastedTable s t) := by
  constructor
  · exact ⟨rfl, rfl⟩
  · rfl
  · rfl
  · exact pastedCells_length _ _ _ _
  · exact pastedCells_like _ _ _ _

theorem tablesSize_one {t : FragTable} (h : t.void = false) (hs : ∀ c ∈ t.cells, c.Simple) :
    tablesSize [t] = (t.cells.length, (t.cells.map fun c => c.chars.length).sum) := by
  have e1 : ∀ c ∈ t.cells, c.size.1 = 1 := by
    intro c hc
    have := (hs c hc).1
    simp only [FragCell.size]; omega
  have e2 : ∀ c ∈ t.cells, c.size.2 = c.chars.length := by
    intro c hc
    obtain ⟨h1, h2⟩ := hs c hc
    unfold FragCell.size FragCell.chars
    match hb : c.blocks with
    | [] => rfl
    | [fb] => simp [state_len (h2 fb (by rw [hb]; simp))]
    | _ :: _ :: _ => rw [hb] at h1; simp at h1
  unfold tablesSize
  simp only [h, Bool.not_false, List.filter_cons_of_pos, List.filter_nil, List.flatMap_cons, List.flatMap_nil, List.append_nil]
  have : ∀ (l : List FragCell) (g g' : FragCell → Nat), (∀ c ∈ l, g c = g' c) → (l.map g).sum = (l.map g').sum := by
    intro l g g' hh; rw [List.map_congr_left hh]
  rw [this _ _ _ e1, this _ _ _ e2]
  have : ∀ l : List FragCell, (l.map fun _ => 1).sum = l.length := by
    intro l
    induction l with
    | nil => rfl
    | cons c l ih => simp [ih]; omega
  rw [this]

theorem Tabled.pasteTable {p : SPara} {X Y : List SPara} {x y : List SChar} {t : FragTable} {i : Nat} {fr : Frame}
    (h : Tabled s d f (A ++ B)) (hno : tablesOf (A ++ B) = []) (e : flowParas (A ++ B) = X ++ p :: Y)
    (hc : p.chars = x ++ y) (hfr : s.frames f = some fr) (hi : fr.blocks.findIdx? (fun j => j == p.id) = some i)
    (hA : A.length = i + 1) (hv : t.void = false) (hsim : ∀ c ∈ t.cells, c.Simple) (hord : t.InOrder) :
    ∃ s' d', s.insertTables ((charsBefore (paras X) + x.length : Nat) : Int) [t] =
        some (s', ⟨((charsBefore (paras X) + x.length : Nat) : Int), t.cells.length⟩, s.snapshot) ∧
      d' = { d with
        frames := d'.frames, tables := d'.tables
        blockCount := d.blockCount + t.cells.length
        characterCount := d.characterCount + (t.cells.map fun c => c.chars.length).sum } ∧
      Arranged s' d' f (A ++ .table (pastedTable s t) :: B) ∧ s'.lists = s.lists := by
  obtain ⟨L, hH, hsub⟩ := h.content
  obtain ⟨fr', f1, f2, f3, f4, f5, f6, f7⟩ := h.frame
  rw [hfr] at f1; cases f1
  obtain ⟨rest, h1, h2⟩ := h.frames
  have hdf : s.docFrames d.id = f :: rest := by unfold Store.docFrames; rw [h.document, ← h1]; rfl
  have hfb : s.frameBlocks f = fr.blocks := by unfold Store.frameBlocks; rw [hfr]; rfl
  obtain ⟨j, hj⟩ := h.findFrame hno hfr e hc
  obtain ⟨hE, hEn, hEs⟩ := h.entities hno hfr
  obtain ⟨last, s4, e4, M⟩ := h.pasteTable_new (pos := ((charsBefore (paras X) + x.length : Nat) : Int)) hsim hH.clean
  have hcf := pastedCells_frames (s.next "frame") (s.next "block") (s.next "table_cell") t.cells
  have hcb := pastedCells_blocks (s.next "frame") (s.next "block") (s.next "table_cell") t.cells
  have hcc := pastedCells_cells (s.next "frame") (s.next "block") (s.next "table_cell") t.cells
  have hcl := pastedCells_length (s.next "frame") (s.next "block") (s.next "table_cell") t.cells
  have hco := pastedCells_before (F := s.next "frame") (B := s.next "block") (C := s.next "table_cell") hord
  have hcm : ∀ x ∈ pastedCells (s.next "frame") (s.next "block") (s.next "table_cell") t.cells, _ := fun x hx => pastedCells_mem hx
  unfold pastedTable
  generalize hcs : pastedCells (s.next "frame") (s.next "block") (s.next "table_cell") t.cells = cs at *
  generalize htid : s.next "table" = tid at *
  generalize hN : t.cells.length = N at *
  generalize ha : s.next "frame" + N = a at *
  have hNpos : 0 < N := by
    rw [← hN]
    simp only [FragTable.void, Bool.or_eq_false_iff, decide_eq_false_iff_not] at hv
    exact List.length_pos_iff.mpr hv.2
  have hcfm : ∀ g, g ∈ cs.map SCell.frame ↔ s.next "frame" ≤ g ∧ g < s.next "frame" + N := by
    intro g; rw [hcf]; simp [List.mem_range'_1]
  have hcbm : ∀ g, g ∈ cellBlocks cs ↔ s.next "block" ≤ g ∧ g < s.next "block" + N := by
    intro g; rw [hcb]; simp [List.mem_range'_1]
  have hccm : ∀ g, (g ∈ cs.map fun c => c.cell.id) ↔ s.next "table_cell" ≤ g ∧ g < s.next "table_cell" + N := by
    intro g; rw [hcc]; simp [List.mem_range'_1]
  have hcbn : (cellBlocks cs).Nodup := by rw [hcb]; exact List.nodup_range'
  have hfs : (s.frames f).isSome := by rw [hfr]; rfl
  have hf0 := h.freshFrames f hfs
  generalize hTdef : (⟨{ t.entity with id := tid, cells := cs.map fun c => c.cell.id }, a, cs⟩ : STable) = T
  have hTt : T.table.id = tid := by rw [← hTdef]
  have hTa : T.anchor = a := by rw [← hTdef]
  have hTc : T.cells = cs := by rw [← hTdef]
  have hTb : T.table = { t.entity with id := tid, cells := cs.map fun c => c.cell.id } := by rw [← hTdef]
  -- the order of the frame
  have hfr4 : s4.frames f = some fr := by
    rw [M.oldFrames f (by omega) (fun hm => by have := (hcfm f).mp hm; omega)]; exact hfr
  have hmin : min A.length fr.childOrder.length = A.length := by rw [f6]; simp
  have hchild : fr.childOrder.insertIdx (min A.length fr.childOrder.length) (-(a : Int)) = (A ++ .table T :: B).map SItem.entry := by
    rw [hmin, f6, List.map_append, List.map_append, List.map_cons]
    have : A.length = (A.map SItem.entry).length := by simp
    rw [this, insertIdx_length_append]
    simp [SItem.entry, hTa]
  generalize hs5 : s4.updateFrame { fr with childOrder := fr.childOrder.insertIdx (min A.length fr.childOrder.length) (-(a : Int)) } = s5
  have hf5 : s5.frames f = some { fr with childOrder := (A ++ .table T :: B).map SItem.entry } := by
    rw [← hs5, hchild]
    simp only [Store.updateFrame, f2, IdMap.insert_get, if_true, hfr4, Store.keepFrame]
  have hf5' : ∀ g, g ≠ f → s5.frames g = s4.frames g := by
    intro g hg; rw [← hs5]; simp [Store.updateFrame, f2, hg]
  have z1 : s5.tables = s4.tables ∧ s5.tableCells = s4.tableCells ∧ s5.documents = s4.documents ∧ s5.blocks = s4.blocks ∧
      s5.formatRuns = s4.formatRuns ∧ s5.blockImages = s4.blockImages ∧ s5.text = s4.text ∧ s5.roots = s4.roots ∧ s5.lists = s4.lists := by
    rw [← hs5]; exact ⟨rfl, rfl, rfl, rfl, rfl, rfl, rfl, rfl, rfl⟩
  have z2 : ∀ k, s5.next k = s4.next k := by intro k; rw [← hs5]; rfl
  have hshow : ∀ s6 : Store, s6.frames = s5.frames → s6.tables = s5.tables → s6.tableCells = s5.tableCells → ShowsTable s6 f T := by
    intro s6 q1 q2 q3
    constructor
    · rw [q2, z1.1, hTt, M.table, hTb]
    · rw [hTb, hTc]
    · rw [hTc]; exact hco
    · exact ⟨_, by rw [q1, hTa, hf5' _ (by omega)]; exact M.anchor, by rw [hTa], rfl, rfl, rfl, by rw [hTt]⟩
    · intro c hc'
      rw [hTc] at hc'
      obtain ⟨_, _, k, k1, _, _, k2, _⟩ := hcm c hc'
      refine ⟨by rw [q3, z1.2.1]; exact M.cells c hc', k2, by rw [k1]; simp, freshFrame c, ?_, rfl, rfl, .inr rfl, rfl, .refl _⟩
      have := (hcfm c.frame).mp (List.mem_map_of_mem hc')
      rw [q1, hf5' _ (by omega)]; exact M.frames c hc'
  have htab : tablesOf (A ++ .table T :: B) = [T] := by
    rw [tablesOf_append] at hno ⊢
    rw [tablesOf_table]
    have := List.append_eq_nil_iff.mp hno
    rw [this.1, this.2]; rfl
  have hfl' : flowParas (A ++ .table T :: B) = flowParas A ++ (cs.flatMap SCell.paras ++ flowParas B) := by
    rw [flowParas_append, flowParas_table, hTc]
  have hfl : flowParas (A ++ B) = flowParas A ++ flowParas B := flowParas_append A B
  have htop : topParas (A ++ .table T :: B) = topParas (A ++ B) := by
    rw [topParas_append, topParas_append, topParas_table]
  -- the anchor in the text
  have hpm : p ∈ flowParas (A ++ B) := by rw [e]; simp
  obtain ⟨U, V, hL⟩ := hH.split hpm
  have hnewT : Marker.table tid ∉ L.map Prod.fst := by
    intro hm
    have := (hH.perm.map Prod.fst).mem_iff.mp hm
    rw [hno, List.map_append, List.mem_append, paras_fst] at this
    simp at this
  have htx5 : s5.text = s.text := by rw [z1.2.2.2.2.2.2.1, M.text]
  obtain ⟨st6, L', e6, r6, hperm, hsub6⟩ : ∃ st6 L', ropeInsertTableAnchor s5.text tid p.id (decide ((x.length : Int) > 0)) = some st6 ∧
      Repr st6 L' ∧ L'.Perm ((.table tid, [objChar]) :: L) ∧ (paras (topParas (A ++ B))).Sublist L' := by
    rw [htx5]
    rw [hL] at hnewT hsub
    by_cases hx : x = []
    · subst hx
      obtain ⟨st', t1, t2⟩ := insertTableBefore_repr (hL ▸ hH.text) hnewT
      exact ⟨st', _, by simpa using t1, t2, by rw [hL]; exact List.perm_middle,
        hsub.trans (List.Sublist.append_left ((List.sublist_cons_self _ _)) _)⟩
    · have hpos := List.length_pos_iff.mpr hx
      have hne : p.text ≠ [] := by
        intro h0
        have : p.text.length = 0 := by rw [h0]; rfl
        rw [SPara.text_len, hc, List.length_append] at this
        omega
      obtain ⟨st', t1, t2⟩ := insertTableAfter_repr (hL ▸ hH.text) hnewT (.inr hne)
      refine ⟨st', _, ?_, t2, ?_, hsub.trans (List.Sublist.append_left ((List.sublist_cons_self _ _).cons_cons _) _)⟩
      · rw [decide_eq_true (by omega)]; exact t1
      · rw [hL, List.perm_iff_count]
        intro x
        simp only [List.count_append, List.count_cons]; omega
  -- the cells in the text
  have hct : cellTexts cs = ((cs.flatMap SCell.paras).map fun q => (q.id, q.text)).map fun x => [x] := by
    unfold cellTexts
    have : ∀ l : List SCell, (∀ c ∈ l, c ∈ cs) → (l.map fun c => c.paras.map fun p => (p.id, p.text)) =
        ((l.flatMap SCell.paras).map fun q => (q.id, q.text)).map fun x => [x] := by
      intro l
      induction l with
      | nil => intro _; rfl
      | cons c l ih =>
        intro hl
        obtain ⟨_, _, k, k1, _⟩ := hcm c (hl c (by simp))
        rw [List.map_cons, ih fun z hz => hl z (by simp [hz]), List.flatMap_cons, k1]
        simp
    exact this cs fun c hc => hc
  have hLfst : ∀ b ∈ cellBlocks cs, Marker.block b ∉ L'.map Prod.fst := by
    intro b hb hm
    have := (hperm.map Prod.fst).mem_iff.mp hm
    simp only [List.map_cons, List.mem_cons, reduceCtorEq, false_or] at this
    have := (hH.perm.map Prod.fst).mem_iff.mp this
    rw [List.map_append, List.mem_append, paras_fst] at this
    rcases this with hm | hm
    · obtain ⟨q, hq, e⟩ := List.mem_map.mp hm
      simp only [Marker.block.injEq] at e
      have := hH.fresh q hq
      have := (hcbm b).mp hb
      omega
    · simp at hm
  have hids : ((cs.flatMap SCell.paras).map fun q => (q.id, q.text)).map Prod.fst = cellBlocks cs := by
    unfold cellBlocks; rw [List.map_map]; rfl
  obtain ⟨st7, e7, r7⟩ := ropeCells_end (s := s5.withText st6) (f := f) (items := A ++ .table T :: B)
    ((cs.flatMap SCell.paras).map fun q => (q.id, q.text)) (L := L') r6
    (by intro e0; rw [e0] at hperm; have := hperm.length_eq; simp at this) (by
      intro z hz
      rcases List.mem_cons.mp (hperm.mem_iff.mp hz) with rfl | hz
      · exact .inr ⟨T, by rw [htab]; simp, by rw [hTt]⟩
      · rcases List.mem_append.mp (hH.perm.mem_iff.mp hz) with hz | hz
        · obtain ⟨q, hq, rfl⟩ := List.mem_map.mp hz
          refine .inl ⟨q, ?_, rfl⟩
          rw [hfl] at hq; rw [hfl']
          simp only [List.mem_append] at hq ⊢
          rcases hq with hq | hq
          · exact .inl hq
          · exact .inr (.inr hq)
        · rw [hno] at hz; simp at hz) (by
      intro b hb
      obtain ⟨q, hq, rfl⟩ := List.mem_map.mp hb
      exact ⟨q, by rw [hfl']; simp [hq], rfl⟩) (by rw [hids]; exact hcbn) (by
      intro b hb
      exact hLfst b.1 (by rw [← hids]; exact List.mem_map_of_mem hb)) hf5 f3 f4 rfl rfl (by rw [htop]; exact f7) (by
      intro u hu
      rw [htab] at hu
      simp only [List.mem_singleton] at hu
      subst hu
      exact ⟨hshow _ rfl rfl rfl, by rw [hTa]; omega⟩) (.inl (by
      have h1 : f ∈ s5.frames.keys := (s5.frames.mem f).mpr (by rw [hf5]; rfl)
      have h2 : a ∈ s5.frames.keys := (s5.frames.mem a).mpr (by rw [hf5' _ (by omega), M.anchor]; rfl)
      show 2 ≤ s5.frames.len
      unfold IdMap.len
      match s5.frames.keys, h1, h2 with
      | [z], h1, h2 => simp at h1 h2; omega
      | _ :: _ :: _, _, _ => simp))
  rw [← hct] at e7
  have hfresh0 : ∀ q ∈ flowParas (A ++ B), q.id ∉ cellBlocks cs := by
    intro q hq hm
    have := hH.fresh q hq
    have := (hcbm q.id).mp hm
    omega
  -- the positions
  generalize hbl : sortByKey Block.documentPosition (s.getBlocks fr.blocks) = blocks at *
  generalize hpos : ((charsBefore (paras X) + x.length : Nat) : Int) = pos at *
  generalize hs7 : (s5.withText st6).withText st7 = s7 at e7
  have hb7 : s7.blocks = s4.blocks := by rw [← hs7]; exact z1.2.2.2.1
  obtain ⟨s8, hs8, m8, e8, b8⟩ : ∃ s8, s8 = (if last - pos > 0 then s7.shiftFrom blocks pos (last - pos) else s7) ∧
      ∃ m, s8 = { s7 with blocks := m } ∧
      (∀ i, i ∈ cellBlocks cs → s8.blocks i = s4.blocks i) ∧
      (∀ q ∈ flowParas (A ++ B), ∃ b, s8.blocks q.id = some b ∧ IsBlock q b) ∧
      (∀ i, i ∉ cellBlocks cs → i ∉ (flowParas (A ++ B)).map SPara.id → s8.blocks i = none) := by
    refine ⟨_, rfl, ?_⟩
    have hold : ∀ q ∈ flowParas (A ++ B), s7.blocks q.id = s.blocks q.id := by
      intro q hq; rw [hb7]; exact M.oldBlocks _ (hfresh0 q hq)
    have hnone : ∀ i, i ∉ cellBlocks cs → i ∉ (flowParas (A ++ B)).map SPara.id → s7.blocks i = none := by
      intro i h1 h2
      rw [hb7, M.oldBlocks i h1]; exact hH.absent h2
    split
    · have hbm : ∀ b ∈ blocks, b ∈ s.getBlocks fr.blocks := by intro b hb; rw [← hbl] at hb; exact mem_sortByKey.mp hb
      have hbid : ∀ b ∈ blocks, b.id ∈ (flowParas (A ++ B)).map SPara.id := by
        intro b hb
        obtain ⟨q, hq, hqb⟩ := hE.all b (hbm b hb)
        exact List.mem_map.mpr ⟨q, hq, by rw [hqb]⟩
      obtain ⟨p1, p2, m, p3⟩ := shiftFrom_get (s := s7) (bs := blocks) (start := pos) (n := last - pos) (by
        rw [← hbl]
        exact ((sortByKey_perm _ _).map _).nodup_iff.mpr hEn) (by
        intro b hb
        obtain ⟨q, hq, e0⟩ := List.mem_map.mp (hbid b hb)
        rw [← e0, hold q hq, e0]
        exact hEs b (hbm b hb))
      refine ⟨m, p3, ?_, ?_, ?_⟩
      · intro i hi
        rw [p2 i, hb7]
        intro hm
        obtain ⟨b, hb, rfl⟩ := List.mem_map.mp hm
        obtain ⟨q, hq, e0⟩ := List.mem_map.mp (hbid b hb)
        exact hfresh0 q hq (by rw [e0]; exact hi)
      · intro q hq
        obtain ⟨b, hb, e0⟩ := hE.has q hq
        have hbb : b ∈ blocks := by rw [← hbl]; exact mem_sortByKey.mpr hb
        refine ⟨_, by rw [← e0]; exact p1 b hbb, ?_⟩
        obtain ⟨q', hq', hqb⟩ := hE.all b hb
        have : q' = q := hH.unique hq hq' (by rw [← e0, hqb])
        subst this
        rw [hqb.with_pos]; exact isBlock_entity _ _
      · intro i h1 h2
        rw [p2 i]
        · exact hnone i h1 h2
        · intro hm
          obtain ⟨b, hb, rfl⟩ := List.mem_map.mp hm
          exact h2 (hbid b hb)
    · refine ⟨s7.blocks, rfl, fun i _ => by rw [hb7], ?_, hnone⟩
      intro q hq
      obtain ⟨b, hb, hqb⟩ := hH.block q hq
      exact ⟨b, by rw [hold q hq]; exact hb, hqb⟩
  obtain ⟨b8, b9, b10⟩ := b8
  have v1 : s8.frames = s5.frames := by rw [e8, ← hs7]; rfl
  have v2 : s8.tables = s5.tables := by rw [e8, ← hs7]; rfl
  have v3 : s8.tableCells = s5.tableCells := by rw [e8, ← hs7]; rfl
  have v4 : s8.documents = s5.documents := by rw [e8, ← hs7]; rfl
  have v5 : ∀ k, s8.next k = s4.next k := by intro k; rw [← z2, e8, ← hs7]; rfl
  have v6 : s8.formatRuns = s4.formatRuns := by rw [e8, ← hs7]; exact z1.2.2.2.2.1
  have v7 : s8.blockImages = s4.blockImages := by rw [e8, ← hs7]; exact z1.2.2.2.2.2.1
  have v8 : s8.text = st7 := by rw [e8, ← hs7]; rfl
  have v9 : s8.roots = s.roots := by rw [e8, ← hs7, ← M.roots]; exact z1.2.2.2.2.2.2.2.1
  have v10 : s8.lists = s.lists := by rw [e8, ← hs7, ← M.lists]; exact z1.2.2.2.2.2.2.2.2
  have hdoc8 : s8.documents d.id = some { d with frames := d.frames ++ cs.map SCell.frame ++ [a], tables := d.tables ++ [tid] } := by
    rw [v4, z1.2.2.1]; exact M.document
  -- the command
  have hcmd : s.insertTables pos [t] = some (s8.updateDocument { d with
      blockCount := d.blockCount + (tablesSize [t]).1, characterCount := d.characterCount + (tablesSize [t]).2 },
      ⟨pos, (tablesSize [t]).1⟩, s.snapshot) := by
    have hnr := h.noTryReplace (ts := [t]) hno e hc
    rw [hpos] at hnr
    have hbne : blocks ≠ [] := by
      intro h0
      obtain ⟨b, hb, _⟩ := hE.has p hpm
      have : b ∈ blocks := by rw [← hbl]; exact mem_sortByKey.mpr hb
      rw [h0] at this; simp at this
    have hpi : s.pasteIndex f blocks pos = some A.length := by
      unfold Store.pasteIndex
      match blocks, hbne with
      | _ :: _, _ => simp [hj, hfb, SPara.entity, hi, hA]
    have hpt : pasteTables d.id f blocks pos [t] A.length pos s =
        some ([(tid, p.id, decide ((x.length : Int) > 0), cellTexts cs)], last, s5) := by
      simp only [Store.pasteTables, hv, Bool.false_eq_true, if_false]
      have : s.pasteTarget blocks pos = some (some (p.id, decide ((x.length : Int) > 0))) := by
        unfold Store.pasteTarget
        match blocks, hbne with
        | _ :: _, _ => simp [hj, SPara.entity]
      rw [this]
      simp only [Option.bind_some, e4, hfr4, Option.map_some, hs5, Option.toList_some, List.map_cons, List.map_nil,
        List.append_nil]
    have hrt : ropeTables f [(tid, p.id, decide ((x.length : Int) > 0), cellTexts cs)] s5 = some s7 := by
      simp only [Store.ropeTables, Store.ropeTable, e6, Option.bind_some, e7]
    unfold Store.insertTables
    rw [h.docIdOf, Option.bind_some, hnr, Option.bind_some]
    simp only [h.document, Option.bind_some, hdf, List.head?_cons, hfb, hbl, hpi, hpt, hrt, Option.map_some, ← hs8]
  have hsize := tablesSize_one hv hsim
  rw [hN] at hsize
  rw [hsize] at hcmd
  refine ⟨_, { d with
      frames := d.frames ++ cs.map SCell.frame ++ [a], tables := d.tables ++ [tid]
      blockCount := d.blockCount + (N : Nat), characterCount := d.characterCount + ((t.cells.map fun c => c.chars.length).sum : Nat) },
    hcmd, rfl, ?_, v10⟩
  have hnb : s8.next "block" = s.next "block" + N := by rw [v5, M.nextBlock, hcl]
  have hmemNew : ∀ q, q ∈ flowParas (A ++ .table T :: B) → q ∈ flowParas (A ++ B) ∨ q ∈ cs.flatMap SCell.paras := by
    intro q hq
    rw [hfl'] at hq; rw [hfl]
    simp only [List.mem_append] at hq ⊢
    rcases hq with hq | hq | hq
    · exact .inl (.inl hq)
    · exact .inr hq
    · exact .inl (.inr hq)
  have hidsNew : ((flowParas (A ++ .table T :: B)).map SPara.id).Perm ((flowParas (A ++ B)).map SPara.id ++ cellBlocks cs) := by
    rw [hfl', hfl]
    unfold cellBlocks
    simp only [List.map_append]
    rw [List.perm_iff_count]
    intro x
    simp only [List.count_append]; omega
  have hidsNd : ((flowParas (A ++ B)).map SPara.id ++ cellBlocks cs).Nodup := by
    rw [List.nodup_append]
    refine ⟨hH.ids_nodup, hcbn, ?_⟩
    intro x hx y hy e
    subst e
    obtain ⟨q, hq, rfl⟩ := List.mem_map.mp hx
    exact hfresh0 q hq hy
  have hnewp : ∀ q ∈ cs.flatMap SCell.paras, q.shape = {} ∧ q.id ∈ cellBlocks cs ∧ ∃ c ∈ cs, q ∈ c.paras := by
    intro q hq
    obtain ⟨c, hc', hqc⟩ := List.mem_flatMap.mp hq
    obtain ⟨_, _, k, k1, _⟩ := hcm c hc'
    refine ⟨?_, List.mem_map_of_mem hq, c, hc', hqc⟩
    rw [k1] at hqc
    simp only [List.mem_singleton] at hqc
    rw [hqc]
  have hcar : Carries s8 (L' ++ ((cs.flatMap SCell.paras).map fun q => (q.id, q.text)).map fun z => (.block z.1, z.2))
      (flowParas (A ++ .table T :: B)) ((tablesOf (A ++ .table T :: B)).map fun t => t.table.id) := by
    constructor
    · rw [v8]; exact r7
    · rw [htab, hfl']
      have h1 := hperm
      have h2 := hH.perm
      rw [hno, hfl] at h2
      have h3 : ((cs.flatMap SCell.paras).map fun q => (q.id, q.text)).map (fun z => ((.block z.1, z.2) : Para)) = paras (cs.flatMap SCell.paras) := by
        simp [paras]
      rw [h3]
      rw [List.perm_iff_count] at h1 h2 ⊢
      intro z
      have h1 := h1 z
      have h2 := h2 z
      have hpa : ∀ X Y : List SPara, paras (X ++ Y) = paras X ++ paras Y := fun X Y => by simp [paras]
      simp only [List.count_append, List.count_cons, hpa, List.map_cons, List.map_nil, List.count_nil, hTt] at h1 h2 ⊢
      omega
    · refine IdMap.keys_perm (hidsNew.nodup_iff.mpr hidsNd) ?_
      intro i
      rw [hidsNew.mem_iff, List.mem_append]
      constructor
      · intro hi
        by_cases h1 : i ∈ cellBlocks cs
        · exact .inr h1
        · by_cases h2 : i ∈ (flowParas (A ++ B)).map SPara.id
          · exact .inl h2
          · rw [b10 i h1 h2] at hi; cases hi
      · rintro (hi | hi)
        · obtain ⟨q, hq, rfl⟩ := List.mem_map.mp hi
          obtain ⟨b, hb, _⟩ := b9 q hq
          rw [hb]; rfl
        · obtain ⟨k, hk⟩ := M.blocks i hi
          rw [b8 i hi, hk]; rfl
    · intro q hq
      rcases hmemNew q hq with hq | hq
      · exact b9 q hq
      · obtain ⟨g1, g2, _⟩ := hnewp q hq
        obtain ⟨k, hk⟩ := M.blocks q.id g2
        refine ⟨_, by rw [b8 _ g2]; exact hk, ?_⟩
        unfold IsBlock
        rw [g1]
    · intro q hq
      rw [v6]
      rcases hmemNew q hq with hq | hq
      · rw [M.oldRuns _ (hfresh0 q hq)]; exact hH.formats q hq
      · obtain ⟨_, _, c, hc', hqc⟩ := hnewp q hq
        exact M.runs c hc' q hqc
    · intro q hq
      rw [v7]
      rcases hmemNew q hq with hq | hq
      · rw [M.oldImages _ (hfresh0 q hq)]; exact hH.images q hq
      · obtain ⟨_, _, c, hc', hqc⟩ := hnewp q hq
        exact M.images c hc' q hqc
    · intro q hq
      rw [hnb]
      rcases hmemNew q hq with hq | hq
      · have := hH.fresh q hq; omega
      · exact ((hcbm q.id).mp (hnewp q hq).2.1).2
    · intro i hi
      have : i ∉ cellBlocks cs := fun hm => by have := (hcbm i).mp hm; omega
      rw [v6, v7, M.oldRuns i this, M.oldImages i this]
      exact hH.clean i (by omega)
  generalize hs9 : s8.updateDocument _ = s9
  have y1 : s9.frames = s8.frames ∧ s9.tables = s8.tables ∧ s9.tableCells = s8.tableCells ∧ s9.roots = s8.roots ∧
      s9.text = s8.text ∧ s9.blocks = s8.blocks ∧ s9.formatRuns = s8.formatRuns ∧ s9.blockImages = s8.blockImages := by
    rw [← hs9]; exact ⟨rfl, rfl, rfl, rfl, rfl, rfl, rfl, rfl⟩
  have y2 : ∀ k, s9.next k = s4.next k := by intro k; rw [← v5, ← hs9]; rfl
  have hf9 : s9.frames = s5.frames := by rw [y1.1, v1]
  have hgs : ∀ g, g ∈ T.anchor :: T.cells.map SCell.frame ↔ s.next "frame" ≤ g ∧ g < s.next "frame" + N + 1 := by
    intro g; rw [hTa, hTc, List.mem_cons, hcfm]; omega
  have hnf9 : s9.next "frame" = s.next "frame" + N + 1 := by rw [y2, M.nextFrame, hcl]
  refine h.arranged.withTable (by rw [y1.2.2.2.1, v9]) ?_ rfl (by rw [hTc, hTa]) (by rw [hTt]) ?_ ?_ ?_ (hshow _ hf9 (by rw [y1.2.1, v2]) (by rw [y1.2.2.1, v3])) ?_ ?_ ?_ ?_ ?_ ?_ ?_ ?_ ?_
  · rw [← hs9]
    simp only [Store.updateDocument, IdMap.insert_get, if_true, hdoc8, Store.keepDoc]
  · refine ⟨_, hcar.of_same y1.2.2.2.2.1 y1.2.2.2.2.2.1 y1.2.2.2.2.2.2.1 y1.2.2.2.2.2.2.2 (by rw [y2, v5]), ?_⟩
    rw [htop]
    exact hsub6.trans (List.sublist_append_left _ _)
  · rw [hf9, hf5, hfr]; rfl
  · intro i h1 h2
    rw [hf9, hf5' i h1]
    rw [hTa, hTc, List.mem_cons, not_or] at h2
    exact M.oldFrames i h2.1 h2.2
  · intro g hg
    have := (hgs g).mp hg
    omega
  · rw [hTa, hTc, List.nodup_cons]
    refine ⟨fun hm => by have := (hcfm a).mp hm; omega, by rw [hcf]; exact List.nodup_range'⟩
  · intro i hi'
    rw [y1.2.1, v2, z1.1]; exact M.oldTables i (by rw [← hTt]; exact hi')
  · rw [hTt, y2, M.nextTable]; omega
  · intro i hi'
    rw [y1.2.2.1, v3, z1.2.1]; exact M.oldCells i (by rw [← hTc]; exact hi')
  · intro i hi'
    rw [hTc] at hi'
    have := (hccm i).mp hi'
    rw [y2, M.nextCell, hcl]; omega
  · rw [hTc, hcc]; exact List.nodup_range'
  · rw [y2, M.nextCell]; omega
  · intro q hq
    rw [hTc] at hq
    have := (hcbm q.id).mp (List.mem_map_of_mem hq)
    have := h.positive p hpm
    have := hH.fresh p hpm
    omega

end Verif
