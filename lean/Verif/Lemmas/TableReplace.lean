import Verif.Lemmas.TablePasteDoc
import Verif.Lemmas.TableCells
import Verif.Lemmas.TableEditDrop
import Verif.Lemmas.PasteState
import Verif.Lemmas.TablePlace
/- Pasting a table on the cells of another. -/
namespace Verif
open Store
variable {s s' : Store} {d : Document} {f : Nat} {items : List SItem}

theorem Tabled.docTables_perm (h : Tabled s d f items) : (s.docTables d.id).Perm ((tablesOf items).map fun t => t.table.id) := by
  unfold Store.docTables; rw [h.document]; exact h.tables

theorem Tabled.cellBlocks_perm (h : Tabled s d f items) :
    ((s.docTables d.id).flatMap fun t => (s.getCells (s.tableCellIds t)).flatMap fun c => c.cellFrame.toList.flatMap s.frameBlocks).Perm
      (((tablesOf items).flatMap fun t => t.cells.flatMap SCell.paras).map SPara.id) := by
  refine (h.docTables_perm.flatMap_right _).trans ?_
  rw [List.flatMap_map, List.map_flatMap]
  refine flatMap_perm_of fun t ht => ?_
  have hs := h.table t ht
  refine (hs.getCells.flatMap_right _).trans ?_
  rw [List.flatMap_map, List.map_flatMap]
  refine flatMap_perm_of fun c hc => ?_
  obtain ⟨_, c2, _, cfr, c4, _, _, _, _, c9⟩ := hs.cell c hc
  rw [c2]
  have : s.frameBlocks c.frame = cfr.blocks := by unfold Store.frameBlocks; rw [c4]; rfl
  simpa [this] using c9

theorem Tabled.pasteBlocks (h : Tabled s d f items) (hp : Placed s (flowParas items)) :
    s.pasteBlocks d.id f = placed 0 (flowParas items) := by
  obtain ⟨L, hH, hsub⟩ := h.content
  obtain ⟨fr, f1, f2, f3, f4, f5, f6, f7⟩ := h.frame
  have e : ((flowParas items).map fun p => p.entity (s.storedPos p)) = placed 0 (flowParas items) := by
    apply map_entity_placed
    intro L p R e
    obtain ⟨b, h1, h2⟩ := hp L p R e
    simp [Store.storedPos, h1, h2]
  have hf : s.frameBlocks f = fr.blocks := by unfold Store.frameBlocks; rw [f1]; rfl
  refine eq_of_sorted Block.documentPosition ?_ (sortByKey_sorted _ _) (placed_strict 0 _)
  refine (sortByKey_perm _ _).trans ?_
  rw [← e, ← hH.getBlocks _ fun q hq => hq]
  have : (s.docTables d.id).flatMap (fun t => (s.getCells (s.tableCellIds t)).flatMap fun c =>
        c.cellFrame.toList.flatMap fun cf => s.getBlocks (s.frameBlocks cf)) =
      s.getBlocks ((s.docTables d.id).flatMap fun t => (s.getCells (s.tableCellIds t)).flatMap fun c => c.cellFrame.toList.flatMap s.frameBlocks) := by
    unfold Store.getBlocks; simp only [List.filterMap_flatMap]
  rw [this]
  have e2 : ∀ a b, s.getBlocks a ++ s.getBlocks b = s.getBlocks (a ++ b) := fun a b => by
    unfold Store.getBlocks; rw [List.filterMap_append]
  rw [e2, hf]
  refine List.Perm.filterMap _ ?_
  refine (f7.append h.cellBlocks_perm).trans ?_
  rw [← List.map_append]
  exact ((flowParas_perm items).map _).symm

theorem Tabled.blockToCell_mem (h : Tabled s d f items) {x : Nat × Nat × Nat} (hx : x ∈ s.blockToCell d.id) :
    ∃ t ∈ tablesOf items, ∃ c ∈ t.cells, ∃ q ∈ c.paras, x = (q.id, c.frame, t.table.id) := by
  unfold Store.blockToCell at hx
  simp only [List.mem_flatMap, List.mem_map, Option.mem_toList] at hx
  obtain ⟨t, ht, c, hc, cf, hcf, b, hb, rfl⟩ := hx
  obtain ⟨t, ht', rfl⟩ := List.mem_map.mp (h.docTables_perm.mem_iff.mp ht)
  have hs := h.table t ht'
  obtain ⟨c, hc', rfl⟩ := List.mem_map.mp (hs.getCells.mem_iff.mp hc)
  obtain ⟨_, c2, _, cfr, c4, _, _, _, _, c9⟩ := hs.cell c hc'
  rw [c2] at hcf
  cases hcf
  have : s.frameBlocks c.frame = cfr.blocks := by unfold Store.frameBlocks; rw [c4]; rfl
  rw [this] at hb
  obtain ⟨q, hq, rfl⟩ := List.mem_map.mp (c9.mem_iff.mp hb)
  exact ⟨t, ht', c, hc', q, hq, rfl⟩

theorem Tabled.mem_blockToCell (h : Tabled s d f items) {t : STable} {c : SCell} {q : SPara} (ht : t ∈ tablesOf items) (hc : c ∈ t.cells)
    (hq : q ∈ c.paras) : (q.id, c.frame, t.table.id) ∈ s.blockToCell d.id := by
  unfold Store.blockToCell
  simp only [List.mem_flatMap, List.mem_map, Option.mem_toList]
  have hs := h.table t ht
  obtain ⟨_, c2, _, cfr, c4, _, _, _, _, c9⟩ := hs.cell c hc
  have : s.frameBlocks c.frame = cfr.blocks := by unfold Store.frameBlocks; rw [c4]; rfl
  refine ⟨t.table.id, h.docTables_perm.mem_iff.mpr (List.mem_map_of_mem ht), c.cell, hs.getCells.mem_iff.mpr (List.mem_map_of_mem hc), c.frame,
    c2, q.id, ?_, rfl⟩
  rw [this]; exact c9.mem_iff.mpr (List.mem_map_of_mem hq)

/-- A paragraph is in one cell. -/
theorem Tabled.para_cell (h : Tabled s d f items) {t u : STable} {c x : SCell} {p q : SPara} (ht : t ∈ tablesOf items) (hc : c ∈ t.cells) (hq : q ∈ c.paras)
    (hu : u ∈ tablesOf items) (hx : x ∈ u.cells) (hp : p ∈ x.paras) (e : q.id = p.id) :
    c.frame = x.frame ∧ t.table.id = u.table.id ∧ c.cell = x.cell := by
  have k : ∀ {t : STable} {c : SCell} {q : SPara}, t ∈ tablesOf items → c ∈ t.cells → q ∈ c.paras → q.id ∈ s.frameBlocks c.frame := by
    intro t c q ht hc hq
    obtain ⟨_, c2, _, cfr, c4, _, _, _, _, c9⟩ := (h.table t ht).cell c hc
    have : s.frameBlocks c.frame = cfr.blocks := by unfold Store.frameBlocks; rw [c4]; rfl
    rw [this]; exact c9.mem_iff.mpr (List.mem_map_of_mem hq)
  have e1 := h.arranged.frame_unique (k ht hc hq) (e ▸ k hu hx hp)
  have := h.cell_unique hu hx ht hc e1
  exact ⟨e1, this⟩

theorem replaceCell_one {σ : Store} {cf i : Nat} {b : Block} {fb : FragBlock} (hb : σ.frameBlocks cf = [i]) (hi : σ.blocks i = some b) (hid : b.id = i) :
    replaceCell cf [fb] σ = some ((σ.updateBlock b).writeState i (fragState fb).1 (fragState fb).2) := by
  have e : σ.getBlocks [i] = [b] := by simp [Store.getBlocks, hi]
  unfold Store.replaceCell
  rw [hb, e]
  simp [Store.dropExtra, Store.addExtra, hid]

theorem updateBlock_still {σ : Store} {b : Block} (h : σ.blocks b.id = some b) (i : Nat) : (σ.updateBlock b).blocks i = σ.blocks i := by
  unfold Store.updateBlock
  show (σ.blocks.insert b.id _).get i = _
  rw [IdMap.insert_get]
  split
  · rename_i e
    subst e
    have e2 : σ.blocks b.id = some b := h
    rw [e2]
    show some (keepBlock b (some b)) = some b
    rfl
  · rfl

/-- Everything but formats and images. -/
structure SameButFormats (s s' : Store) : Prop where
  blocks : ∀ i, s'.blocks i = s.blocks i
  rope : s'.rope = s.rope
  offsets : s'.blockOffsets = s.blockOffsets
  frames : s'.frames = s.frames
  tables : s'.tables = s.tables
  cells : s'.tableCells = s.tableCells
  documents : s'.documents = s.documents
  lists : s'.lists = s.lists

theorem SameButFormats.refl (s : Store) : SameButFormats s s := ⟨fun _ => rfl, rfl, rfl, rfl, rfl, rfl, rfl, rfl⟩

theorem SameButFormats.trans {a b c : Store} (h : SameButFormats a b) (k : SameButFormats b c) : SameButFormats a c :=
  ⟨fun i => (k.blocks i).trans (h.blocks i), k.rope.trans h.rope, k.offsets.trans h.offsets, k.frames.trans h.frames, k.tables.trans h.tables,
    k.cells.trans h.cells, k.documents.trans h.documents, k.lists.trans h.lists⟩

theorem replaceCells_spec {u : STable} {r k : Int} {cells : List TableCell} (hperm : cells.Perm (u.cells.map SCell.cell))
    (hord : u.cells.Pairwise SCell.before) (hframe : ∀ c ∈ u.cells, c.cell.cellFrame = some c.frame) (one : ∀ c ∈ u.cells, ∃ q, c.paras = [q])
    (huniq : ∀ c ∈ u.cells, ∀ x ∈ u.cells, ∀ p ∈ c.paras, ∀ q ∈ x.paras, p.id = q.id → c.cell = x.cell) (cs : List FragCell)
    (hblocks : ∀ x ∈ cs, ∃ fb, x.blocks = [fb]) (hn : (cs.map fun x => (x.row, x.column)).Nodup) : ∀ (σ : Store),
    (∀ c ∈ u.cells, σ.frameBlocks c.frame = c.paras.map SPara.id) →
    (∀ c ∈ u.cells, ∀ q ∈ c.paras, ∃ b, σ.blocks q.id = some b ∧ b.id = q.id) →
    ∃ s', replaceCells cells r k cs σ = some s' ∧ SameButFormats σ s' ∧
      (∀ x ∈ cs, ∀ c ∈ u.cells, c.cell.row = r + x.row → c.cell.column = k + x.column → ∀ q ∈ c.paras, ∀ fb ∈ x.blocks,
        (s'.formatRuns q.id).getD [] = (fragState fb).1 ∧ (s'.blockImages q.id).getD [] = (fragState fb).2) ∧
      (∀ i, (∀ x ∈ cs, ∀ c ∈ u.cells, c.cell.row = r + x.row → c.cell.column = k + x.column → ∀ q ∈ c.paras, q.id ≠ i) →
        s'.formatRuns i = σ.formatRuns i ∧ s'.blockImages i = σ.blockImages i) := by
  have hplace : ∀ c ∈ u.cells, ∀ x ∈ u.cells, c.cell.row = x.cell.row → c.cell.column = x.cell.column → c = x := by
    intro c hc x hx e1 e2
    obtain ⟨i, hi, rfl⟩ := List.getElem_of_mem hc
    obtain ⟨j, hj, rfl⟩ := List.getElem_of_mem hx
    rcases Nat.lt_trichotomy i j with h | h | h
    · have := List.pairwise_iff_getElem.mp hord i j hi hj h
      unfold SCell.before at this; omega
    · subst h; rfl
    · have := List.pairwise_iff_getElem.mp hord j i hj hi h
      unfold SCell.before at this; omega
  induction cs with
  | nil => intro σ _ _; exact ⟨σ, rfl, .refl _, by simp, fun i _ => ⟨rfl, rfl⟩⟩
  | cons x cs ih =>
    intro σ h1 h2
    rw [List.map_cons, List.nodup_cons] at hn
    obtain ⟨fb, hfb⟩ := hblocks x (by simp)
    have ih := ih (fun y hy => hblocks y (by simp [hy])) hn.2
    unfold Store.replaceCells
    cases hf : cells.find? fun (y : TableCell) => decide (y.row = r + x.row ∧ y.column = k + x.column) with
    | none =>
      rw [Option.bind_none, Option.bind_some]
      obtain ⟨s', e, e1, e2, e3⟩ := ih σ h1 h2
      have hno : ∀ c ∈ u.cells, ¬ (c.cell.row = r + x.row ∧ c.cell.column = k + x.column) := by
        intro c hc
        have := List.find?_eq_none.mp hf c.cell (hperm.mem_iff.mpr (List.mem_map_of_mem hc))
        simpa using this
      refine ⟨s', e, e1, ?_, ?_⟩
      · intro y hy c hc a1 a2
        rcases List.mem_cons.mp hy with rfl | hy
        · exact absurd ⟨a1, a2⟩ (hno c hc)
        · exact e2 y hy c hc a1 a2
      · intro i hi
        exact e3 i fun y hy => hi y (by simp [hy])
    | some y =>
      have hy := List.find?_some hf
      have hym := List.mem_of_find?_eq_some hf
      obtain ⟨c, hc, rfl⟩ := List.mem_map.mp (hperm.mem_iff.mp hym)
      simp only [decide_eq_true_eq] at hy
      obtain ⟨q, hq⟩ := one c hc
      obtain ⟨b, hb, hbid⟩ := h2 c hc q (by simp [hq])
      rw [Option.bind_some, hframe c hc]
      dsimp only
      rw [hfb, replaceCell_one (i := q.id) (by rw [h1 c hc, hq]; rfl) hb hbid, Option.bind_some]
      generalize hσ : (σ.updateBlock b).writeState q.id (fragState fb).1 (fragState fb).2 = σ1
      have same : SameButFormats σ σ1 := by
        subst hσ
        exact ⟨updateBlock_still (by rw [hbid]; exact hb), rfl, rfl, rfl, rfl, rfl, rfl, rfl⟩
      have r1 : (σ1.formatRuns q.id).getD [] = (fragState fb).1 ∧ (σ1.blockImages q.id).getD [] = (fragState fb).2 := by
        subst hσ
        constructor
        · show ((if (fragState fb).1 = [] then _ else _ : IdMap _).get q.id).getD [] = _
          split
          · rename_i e; rw [e]; simp [IdMap.erase_get]
          · simp [IdMap.insert_get]
        · show ((if (fragState fb).2 = [] then _ else _ : IdMap _).get q.id).getD [] = _
          split
          · rename_i e; rw [e]; simp [IdMap.erase_get]
          · simp [IdMap.insert_get]
      have r2 : ∀ i, q.id ≠ i → σ1.formatRuns i = σ.formatRuns i ∧ σ1.blockImages i = σ.blockImages i := by
        intro i hi
        subst hσ
        constructor
        · show (if (fragState fb).1 = [] then _ else _ : IdMap _).get i = σ.formatRuns.get i
          split
          · rw [IdMap.erase_get, if_neg (by omega)]; rfl
          · rw [IdMap.insert_get, if_neg (by omega)]; rfl
        · show (if (fragState fb).2 = [] then _ else _ : IdMap _).get i = σ.blockImages.get i
          split
          · rw [IdMap.erase_get, if_neg (by omega)]; rfl
          · rw [IdMap.insert_get, if_neg (by omega)]; rfl
      obtain ⟨s', e, e1, e2, e3⟩ := ih σ1 (fun c hc => by
        have : σ1.frameBlocks c.frame = σ.frameBlocks c.frame := by unfold Store.frameBlocks; rw [same.frames]
        rw [this]; exact h1 c hc) (fun c hc q hq => by rw [same.blocks]; exact h2 c hc q hq)
      refine ⟨s', e, same.trans e1, ?_, ?_⟩
      · intro z hz c' hc' a1 a2 q' hq' fb' hfb'
        rcases List.mem_cons.mp hz with rfl | hz
        · have : c' = c := hplace c' hc' c hc (by omega) (by omega)
          subst this
          rw [hq] at hq'
          rw [hfb] at hfb'
          simp only [List.mem_cons, List.not_mem_nil, or_false] at hq' hfb'
          subst hq' hfb'
          have := e3 q'.id (by
            intro w hw c'' hc'' b1 b2 q'' hq'' he
            have := huniq c'' hc'' c' hc' q'' hq'' q' (by simp [hq]) he
            rw [this] at b1 b2
            apply hn.1
            refine List.mem_map.mpr ⟨w, hw, ?_⟩
            simp only [Prod.mk.injEq]
            omega)
          rw [this.1, this.2]
          exact r1
        · exact e2 z hz c' hc' a1 a2 q' hq' fb' hfb'
      · intro i hi
        have h3 := e3 i fun z hz => hi z (by simp [hz])
        have h4 := r2 i (hi x (by simp) c hc hy.1 hy.2 q (by simp [hq]))
        exact ⟨h3.1.trans h4.1, h3.2.trans h4.2⟩

end Verif
