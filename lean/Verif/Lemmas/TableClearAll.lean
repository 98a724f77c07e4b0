import Verif.Lemmas.TableClear
/- The whole of the branch of `delete_text` for selections inside tables. -/
namespace Verif

variable {s s' : Store} {d : Document} {f : Nat} {items : List SItem} {P : List SPara} {T : List STable}

theorem collectBlockIds_congr (hf : s'.frames = s.frames) (ht : s'.tables = s.tables) (hc : s'.tableCells = s.tableCells) :
    ∀ (n g : Nat), s'.collectBlockIds n g = s.collectBlockIds n g
  | 0, _ => rfl
  | n + 1, g => by
    have ih : s'.collectBlockIds n = s.collectBlockIds n := funext fun g => collectBlockIds_congr hf ht hc n g
    have h1 : s'.tableCellFrames = s.tableCellFrames := by funext t; unfold Store.tableCellFrames; rw [ht, hc]
    have h2 : s'.frameBlocks = s.frameBlocks := by funext t; unfold Store.frameBlocks; rw [hf]
    unfold Store.collectBlockIds
    rw [ih, h1, h2, hf]

theorem flowIds_congr (hf : s'.frames = s.frames) (ht : s'.tables = s.tables) (hc : s'.tableCells = s.tableCells) (g : Nat) :
    s'.flowIds g = s.flowIds g := by
  unfold Store.flowIds
  rw [collectBlockIds_congr hf ht hc, hf]

theorem firstOnly_nodup : ∀ {l : List Nat}, l.Nodup → Store.firstOnly l = l
  | [], _ => rfl
  | x :: l, h => by
    rw [List.nodup_cons] at h
    unfold Store.firstOnly
    rw [firstOnly_nodup h.2, List.filter_eq_self.mpr]
    intro y hy
    simp only [decide_eq_true_eq]
    rintro rfl
    exact h.1 hy

/-- No table is removed when each has a cell left. -/
theorem Arranged.keepTables {cleared : List Nat} {start stop : Int} (h : Arranged s d f items)
    (hk : ∀ t ∈ tablesOf items, ∃ c ∈ t.cells, c.frame ∉ cleared) : ∀ (l : List Nat), (∀ i ∈ l, i ∈ d.tables) →
    Store.removeCoveredTables f cleared start stop l s = some (false, s)
  | [], _ => rfl
  | i :: l, hl => by
    obtain ⟨t, ht, rfl⟩ := List.mem_map.mp (h.tables.mem_iff.mp (hl i (by simp)))
    obtain ⟨c, hc, hcf⟩ := hk t ht
    obtain ⟨c1, c2, _⟩ := (h.table t ht).cell c hc
    have hone : s.removeCoveredTable f cleared start stop t.table.id = some (false, s) := by
      unfold Store.removeCoveredTable
      dsimp only
      rw [if_pos]
      rw [Bool.or_eq_true, Bool.not_eq_true']
      left
      rw [← Bool.not_eq_true, List.all_eq_true]
      intro hall
      have hm : c.cell ∈ (s.tableCellIds t.table.id).filterMap fun c => s.tableCells c := by
        rw [List.mem_filterMap]
        refine ⟨c.cell.id, ?_, c1⟩
        unfold Store.tableCellIds
        rw [(h.table t ht).table]
        exact (h.table t ht).cells.mem_iff.mpr (List.mem_map.mpr ⟨c, hc, rfl⟩)
      have := hall _ hm
      rw [c2] at this
      simp [hcf] at this
    unfold Store.removeCoveredTables
    rw [hone, Option.bind_some]
    dsimp only
    rw [h.keepTables hk l fun j hj => hl j (by simp [hj])]
    rfl

theorem outsideBlocks_none {inCell : Nat → Bool} {start stop : Int} : ∀ {bs : List Block},
    (∀ b ∈ bs, ∃ len : Nat, blockCharLength s.text b.id = some len ∧ (b.documentPosition + len < start ∨ inCell b.id = true)) →
    s.outsideBlocks inCell bs start stop = some [] ∧ ∀ first last, Store.cutOutside inCell start stop first last bs s = some (0, [], s)
  | [], _ => ⟨rfl, fun _ _ => rfl⟩
  | b :: bs, h => by
    obtain ⟨len, e, hb⟩ := h b (by simp)
    obtain ⟨i1, i2⟩ := outsideBlocks_none (start := start) (stop := stop) fun b' hb' => h b' (List.mem_cons_of_mem _ hb')
    have hcond : b.documentPosition + len < start ∨ b.documentPosition ≥ stop ∨ inCell b.id = true := by
      rcases hb with hb | hb
      · exact .inl hb
      · exact .inr (.inr hb)
    constructor
    · unfold Store.outsideBlocks at i1 ⊢
      simp only [mapOpt]
      rw [e]
      obtain ⟨x, hx, hx'⟩ := Option.map_eq_some_iff.mp i1
      rw [Option.map_some, Option.bind_some, hx, if_pos hcond]
      simpa using hx'
    · intro first last
      unfold Store.cutOutside
      rw [e, Option.bind_some, if_pos hcond, i2]

theorem Arranged.keepFrames (h : Arranged s d f items) : s.removeEmptyFrames f = some s := by
  obtain ⟨fr, f1, f2, f3, f4, f5, f6, f7⟩ := h.frame
  unfold Store.removeEmptyFrames
  rw [f1, Option.bind_some]
  dsimp only
  rw [if_pos]
  rw [f6, List.filterMap_eq_nil_iff]
  intro e he
  obtain ⟨it, hit, rfl⟩ := List.mem_map.mp he
  cases it with
  | para p => rw [if_neg]; simp only [SItem.entry]; omega
  | table t =>
    have ht : t ∈ tablesOf items := List.mem_flatMap.mpr ⟨_, hit, by simp⟩
    obtain ⟨ar, a1, a2, a3, a4, a5, a6⟩ := (h.table t ht).anchor
    by_cases hn : (SItem.table t).entry < 0
    · rw [if_pos hn, show (-(SItem.table t).entry).toNat = t.anchor by simp [SItem.entry], a1]
      simp [a6]
    · rw [if_neg hn]

/-- Deleting a selection that starts in one cell and ends in a later one, the cells holding one paragraph each. -/
theorem Tabled.deleteCells {X' Y : List SPara} {xs : List (Nat × SPara)} {x y : Nat × SPara} {zs : List (Nat × SPara)}
    (h : Tabled s d f (P.map .para ++ T.map .table)) (hT : T ≠ [])
    (e : flowParas (P.map .para ++ T.map .table) = P ++ X' ++ xs.map Prod.snd ++ Y) (hxs : xs = x :: zs ++ [y])
    (hX' : ∀ q ∈ X' ++ xs.map Prod.snd ++ Y, ∃ t ∈ T, ∃ c ∈ t.cells, q ∈ c.paras)
    (hone : ∀ x ∈ xs, HoldsOne (P.map .para ++ T.map .table) x) (hnd : (xs.map Prod.fst).Nodup)
    (hkeep : ∀ t ∈ T, ∃ c ∈ t.cells, c.frame ∉ xs.map Prod.fst)
    (hlists : ∀ l ∈ d.lists, ∃ p ∈ flowParas (P.map .para ++ T.map .table), p.shape.list = some l)
    (hend : EndsOutside s (flowParas (P.map .para ++ T.map .table)) (xs.map fun x => x.2.id)) {position anchor : Int} {k k' : Nat}
    (hk : k ≤ x.2.chars.length) (hk' : k' ≤ y.2.chars.length)
    (hmin : min position anchor = ((charsBefore (paras (P ++ X')) + k : Nat) : Int))
    (hmax : max position anchor = ((charsBefore (paras (P ++ X' ++ (x :: zs).map Prod.snd)) + k' : Nat) : Int)) :
    ∃ s', s.deleteSelection position anchor = some (s', ⟨min position anchor, []⟩, s.snapshot) ∧
      Arranged s' { d with characterCount := max 0 (d.characterCount - ((xs.map fun x => x.2.chars.length).sum : Nat))
                           blockCount := (flowParas (P.map .para ++ T.map .table)).length } f
        ((P.map SItem.para ++ T.map SItem.table).map (SItem.on (emptied (xs.map fun x => x.2.id)))) ∧
      s'.blocks = s.blocks ∧ SameShell s s' ∧ s'.counters = s.counters := by
  obtain ⟨g1, g2, g3, g4, ⟨fr, g5, g6⟩, g7, hpl⟩ := h.deleteStart hT
  have hfb := h.frameBlocks_perm
  have htop : topParas (P.map SItem.para ++ T.map SItem.table) = P := topParas_trailing
  have htab : tablesOf (P.map SItem.para ++ T.map SItem.table) = T := tablesOf_trailing
  obtain ⟨L, hH, hsub⟩ := h.content
  have hF := h.find (p := x.2) (X := P ++ X') (Y := (zs ++ [y]).map Prod.snd ++ Y) (a := x.2.chars.take k) (b := x.2.chars.drop k)
    (by rw [e, hxs]; simp) (by simp)
  rw [List.length_take, Nat.min_eq_left hk] at hF
  generalize hit : P.map SItem.para ++ T.map SItem.table = items at *
  have hn := hH.ids_nodup
  have hinc : ∀ q ∈ X' ++ xs.map Prod.snd ++ Y, (s.cellFrameOf d.id q.id).isSome = true := by
    intro q hq
    obtain ⟨t, ht, c, hc, hqc⟩ := hX' q hq
    rw [h.arranged.cellFrameOf_cell (by rw [htab]; exact ht) hc hqc]; rfl
  have hcf : ∀ x ∈ xs, s.cellFrameOf d.id x.2.id = some x.1 := by
    intro z hz
    obtain ⟨t, ht, c, hc, hc1, hc2⟩ := hone z hz
    rw [h.arranged.cellFrameOf_cell ht hc (p := z.2) (by rw [hc2]; simp), hc1]
  have hidn : (xs.map fun x => x.2.id).Nodup := by
    rw [e, List.map_append, List.map_append, List.append_assoc, List.nodup_append] at hn
    have := (List.nodup_append.mp hn.2.1).1
    rw [List.map_map] at this
    exact this
  have hlt : min position anchor < max position anchor := by
    rw [hmin, hmax, List.map_cons, charsBefore_paras_two, charsBefore_paras_two, charsBefore_paras_cons, charsBefore_paras_two]
    push_cast; omega
  -- what the selection touches
  have hHe := hH
  rw [e] at hHe
  have htouch : ∀ {α : Type} (F : Block → α), (mapOpt (fun b : Block => (blockCharLength s.text b.id).map fun (len : Nat) =>
      if b.documentPosition + len < min position anchor ∨ b.documentPosition > max position anchor then [] else [F b])
        (placed 0 (flowParas items))).map List.flatten = some ((placed (charsBefore (paras (P ++ X'))) (xs.map Prod.snd)).map F) := by
    intro α F
    rw [e]
    apply hHe.touches F
    · rw [hmin]; push_cast; omega
    · intro m M' em
      rw [hxs] at em
      simp only [List.cons_append, List.map_cons, List.cons.injEq] at em
      rw [hmin, ← em.1]; push_cast; omega
    · intro M' z em
      rw [hxs, List.map_append] at em
      have := List.append_inj' em rfl
      rw [hmax, ← this.1]; push_cast; omega
    · rw [hmax, hxs, List.map_append, ← List.append_assoc, charsBefore_paras_two _ (List.map Prod.snd [y])]
      simp only [List.map_cons, List.map_nil, charsBefore_paras_cons, charsBefore_paras_nil]; push_cast; omega
  have hpm : (placed (charsBefore (paras (P ++ X'))) (xs.map Prod.snd)).map (fun b => s.cellFrameOf d.id b.id) = xs.map fun x => some x.1 := by
    have := congrArg (List.map (s.cellFrameOf d.id)) (placed_ids (charsBefore (paras (P ++ X'))) (xs.map Prod.snd))
    rw [List.map_map, List.map_map, List.map_map] at this
    refine Eq.trans this ?_
    apply List.map_congr_left
    intro z hz
    exact hcf z hz
  have hcross : s.isCrossCell d.id (placed 0 (flowParas items)) (min position anchor) (max position anchor) = some true := by
    rw [isCrossCell_eq, htouch, hpm, hxs, Option.map_some]
    simp only [List.cons_append, List.map_cons, List.map_append, List.any_append, List.any_cons, List.any_nil, List.map_nil]
    have : y.1 ≠ x.1 := by
      rw [hxs] at hnd
      simp only [List.cons_append, List.map_cons, List.map_append, List.nodup_cons] at hnd
      intro ey
      exact hnd.1 (by rw [← ey]; simp)
    simp [this]
  have hcleared : Store.firstOnly ((placed (charsBefore (paras (P ++ X'))) (xs.map Prod.snd)).filterMap fun b => s.cellFrameOf d.id b.id) = xs.map Prod.fst := by
    have : (placed (charsBefore (paras (P ++ X'))) (xs.map Prod.snd)).filterMap (fun b => s.cellFrameOf d.id b.id) = xs.map Prod.fst := by
      have := congrArg (List.filterMap id) hpm
      rw [List.filterMap_map, List.filterMap_map] at this
      refine Eq.trans this ?_
      rw [← List.filterMap_eq_map]
      rfl
    rw [this, firstOnly_nodup hnd]
  have htb : s.touchedBlocks (placed 0 (flowParas items)) (min position anchor) (max position anchor) =
      some (placed (charsBefore (paras (P ++ X'))) (xs.map Prod.snd)) := by
    have := htouch id
    rw [List.map_id] at this
    rw [← this]
    unfold Store.touchedBlocks
    congr 2
    funext b
    congr 1
    funext len
    split <;> split <;> first | rfl | omega
  -- the cells
  have hcl : EndsSafely L (xs.map fun x => x.2.id) := by
    intro z hz
    have hmark : s.blockOffsets.entries.getLast?.map Prod.fst = some z.1 := by
      have : s.blockOffsets.entries.map Prod.fst = L.map Prod.fst := by
        rw [show s.blockOffsets.entries = s.text.idx.entries from rfl, hH.text.starts, layout_keys]
      rw [← List.getLast?_map, this, List.getLast?_map, hz]; rfl
    have hzm := hH.perm.mem_iff.mp (List.mem_of_getLast? hz)
    rcases List.mem_append.mp hzm with hz' | hz'
    · obtain ⟨q, hq, rfl⟩ := List.mem_map.mp hz'
      obtain ⟨n1, n2⟩ := hend q hq hmark
      refine ⟨by simpa [SPara.text] using n1, ?_⟩
      rintro i hi ei
      simp only [Marker.block.injEq] at ei
      exact n2 (ei ▸ hi)
    · obtain ⟨t, _, rfl⟩ := List.mem_map.mp hz'
      exact ⟨by simp, fun i _ => by simp⟩
  obtain ⟨s1, L1, k1, k2, k3, k4, k5, k6, k7⟩ := clearCells_spec xs h.arranged rfl hH hsub hone hidn hcl
  have hkt := k2.keepTables (cleared := xs.map Prod.fst) (start := min position anchor) (stop := max position anchor) (by
    intro t ht
    rw [tablesOf_on, htab] at ht
    obtain ⟨t0, ht0, rfl⟩ := List.mem_map.mp ht
    obtain ⟨c, hc, hc'⟩ := hkeep t0 ht0
    exact ⟨_, List.mem_map.mpr ⟨c, hc, rfl⟩, hc'⟩) d.tables fun _ hi => hi
  obtain ⟨o1, o2⟩ := outsideBlocks_none (s := s1) (inCell := fun b => (s.cellFrameOf d.id b).isSome) (start := min position anchor)
    (stop := max position anchor) (bs := placed 0 (flowParas items)) (by
    intro b hb
    obtain ⟨A, q, B, eq, rfl⟩ := mem_placed hb
    have hq : q ∈ flowParas items := by rw [eq]; simp
    have hq1 : emptied (xs.map fun x => x.2.id) q ∈ flowParas (items.map (SItem.on (emptied (xs.map fun x => x.2.id)))) := by
      rw [flowParas_on]; exact List.mem_map_of_mem hq
    have hl := k3.charLength hq1
    rw [emptied_id] at hl
    refine ⟨_, hl, ?_⟩
    by_cases hc : (s.cellFrameOf d.id q.id).isSome = true
    · exact .inr hc
    · left
      have hqP : q ∉ X' ++ xs.map Prod.snd ++ Y := fun hm => hc (hinc q hm)
      rw [e, List.append_assoc, List.append_assoc, ← List.append_assoc X'] at eq
      have hlen : A.length < P.length := by
        apply Classical.byContradiction
        intro hge
        have : (P ++ (X' ++ xs.map Prod.snd ++ Y))[A.length]? = some q := by rw [eq]; simp
        rw [List.getElem?_append_right (by omega)] at this
        exact hqP (List.mem_of_getElem? this)
      have hPA : ∃ R, P = A ++ q :: R := by
        rcases List.append_eq_append_iff.mp eq with ⟨a', ha, _⟩ | ⟨c', hc1, hc2⟩
        · rw [ha] at hlen; simp at hlen; omega
        · cases c' with
          | nil => rw [hc1] at hlen; simp at hlen
          | cons z zs' =>
            simp only [List.cons_append, List.cons.injEq] at hc2
            exact ⟨zs', by rw [hc1, hc2.1]⟩
      obtain ⟨R, hR⟩ := hPA
      have hle : (emptied (xs.map fun x => x.2.id) q).chars.length ≤ q.chars.length := by
        unfold emptied; split <;> simp
      have hcb : charsBefore (paras (P ++ X')) = charsBefore (paras A) + (q.chars.length + 1 + charsBefore (paras R)) + charsBefore (paras X') := by
        rw [hR, charsBefore_paras_two, charsBefore_paras_two, charsBefore_paras_cons]
      rw [hcb] at hmin
      simp only [SPara.entity, SPara.text_len]
      push_cast at hmin ⊢
      omega)
  have hdt : s.docTables d.id = d.tables := by simp [Store.docTables, h.document]
  have hdf : s1.docFrames d.id = s.docFrames d.id := by unfold Store.docFrames; rw [k5]
  have hfbe : s1.frameBlocks = s.frameBlocks := by funext g; unfold Store.frameBlocks; rw [k6.frames]
  have hgbe : s1.getBlocks = s.getBlocks := by funext g; unfold Store.getBlocks; rw [k4]
  have hul : s1.removeUnusedLists d.id = some s1 := by
    unfold Store.removeUnusedLists
    dsimp only
    rw [hdf, hfbe, hgbe]
    have hnil : (s1.docLists d.id).filter (fun l => !(((s.getBlocks ((s.docFrames d.id).flatMap fun f => s.frameBlocks f)).filterMap
        Block.list).contains l)) = [] := by
      rw [List.filter_eq_nil_iff]
      intro l hl
      have hl' : l ∈ d.lists := by unfold Store.docLists at hl; rw [k5, h.document] at hl; exact hl
      obtain ⟨p, hp, hpl⟩ := hlists l hl'
      simp only [Bool.not_eq_true', Bool.not_eq_false, List.contains_iff_mem]
      rw [List.mem_filterMap]
      refine ⟨p.entity (s.storedPos p), ?_, hpl⟩
      unfold Store.getBlocks
      rw [List.mem_filterMap]
      exact ⟨p.id, hfb.mem_iff.mpr (List.mem_map_of_mem hp), hH.stored hp⟩
    rw [hnil]; rfl
  have hre : s1.refillEmpty f = some s1 := by
    unfold Store.refillEmpty
    rw [flowIds_congr k6.frames k6.tables k6.tableCells, g4, Option.bind_some, hgbe, h.placedEntities hpl, if_neg]
    rw [placed_length, e, hxs]
    simp
  have hcount : ((s1.docFrames d.id).map fun f => (s1.frameBlocks f).length).sum = (flowParas items).length := by
    rw [hdf, hfbe, ← List.length_flatMap]
    have := hfb.length_eq
    rw [List.length_map] at this
    exact this
  unfold Store.deleteSelection
  rw [g1, Option.bind_some, if_neg (by omega)]
  dsimp only
  rw [g2, Option.bind_some, g3, Option.bind_some, g4, Option.bind_some, g5, Option.bind_some, g6, Option.bind_some]
  dsimp only
  rw [g7, show s.updateBlocks [] = s from rfl, hmin, hF, Option.bind_some]
  dsimp only
  rw [← hmin, hcross, Option.bind_some, if_pos rfl]
  unfold Store.deleteCells
  dsimp only
  rw [htb, Option.bind_some, hcleared, k1, Option.bind_some]
  dsimp only
  rw [hdt, hkt, Option.bind_some]
  dsimp only
  rw [if_neg (by simp), Option.bind_some, o1, Option.bind_some]
  simp only [List.getLast?_nil, Option.bind_some]
  rw [o2, Option.bind_some]
  dsimp only
  rw [if_pos rfl, k2.keepFrames, Option.bind_some, hul, Option.bind_some, hre, Option.map_some, Option.map_some]
  rw [hcount]
  refine ⟨_, rfl, ?_, k4, ⟨k6.roots, k6.frames, k6.lists, k6.resources, k6.tables, k6.tableCells⟩, k7⟩
  obtain ⟨L2, m1, m2⟩ := k2.content
  have k8 := k2.on (s' := s1.updateDocument
      { d with
        characterCount := max 0 (d.characterCount - ((((xs.map fun x => x.2.chars.length).sum : Nat) : Int) + 0))
        blockCount := ((flowParas items).length : Nat) }) (g := id) (L := L2) (d' := { d with
        characterCount := max 0 (d.characterCount - ((((xs.map fun x => x.2.chars.length).sum : Nat) : Int)))
        blockCount := ((flowParas items).length : Nat) }) (fun _ => rfl)
    (by rw [List.map_id]; exact ⟨m1.text, m1.perm, m1.keys, m1.block, m1.formats, m1.images, m1.fresh, m1.clean⟩)
    (by rw [List.map_id]; exact m2)
    (by simp only [Store.updateDocument, IdMap.insert_get, if_true, k5, h.document, Store.keepDoc]; simp)
    rfl rfl rfl rfl rfl rfl rfl fun _ => rfl
  have hid : ∀ l : List SItem, l.map (SItem.on id) = l := by
    intro l
    have := on_emptied_nil l
    rwa [show emptied [] = id by funext q; simp [emptied]] at this
  rw [hid] at k8
  exact k8

end Verif
