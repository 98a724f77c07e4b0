import Verif.Lemmas.TableDelete
import Verif.Lemmas.TableEditAdd
import Verif.Spec.DeleteCells
/- The branch of `delete_text` for selections across cells, on documents in which no paragraph follows a table. -/
namespace Verif

variable {s s' : Store} {d : Document} {f : Nat} {items : List SItem} {P : List SPara} {T : List STable}

theorem Arranged.on {g : SPara → SPara} {L : List Para} {d' : Document} (h : Arranged s d f items) (hg : ∀ p, (g p).id = p.id)
    (hH : Carries s' L ((flowParas items).map g) ((tablesOf items).map fun t => t.table.id))
    (hsub : (paras ((topParas items).map g)).Sublist L)
    (hd : s'.documents d.id = some d') (hid : d'.id = d.id) (hfr : d'.frames = d.frames) (htb : d'.tables = d.tables)
    (hr : s'.roots = s.roots) (hf : s'.frames = s.frames) (ht : s'.tables = s.tables)
    (hc : s'.tableCells = s.tableCells) (hn : ∀ k, s'.next k = s.next k) : Arranged s' d' f (items.map (SItem.on g)) := by
  have ets : ((tablesOf (items.map (SItem.on g))).map fun t => t.table.id) = (tablesOf items).map fun t => t.table.id := by
    rw [tablesOf_on]; simp [STable.on, Function.comp_def]
  constructor
  · rw [hr, hid]; exact h.root
  · rw [hid]; exact hd
  · refine ⟨L, ?_, ?_⟩
    · rw [flowParas_on, ets]; exact hH
    · rw [topParas_on]; exact hsub
  · obtain ⟨fr, h1, h2, h3, h4, h5, h6, h7⟩ := h.frame
    refine ⟨fr, by rw [hf]; exact h1, h2, h3, h4, h5, ?_, ?_⟩
    · rw [entries_on hg]; exact h6
    · rw [topParas_on, ids_on hg]; exact h7
  · intro t ht'
    rw [tablesOf_on] at ht'
    obtain ⟨t, htm, rfl⟩ := List.mem_map.mp ht'
    exact (h.table t htm).on hg hf ht hc
  · obtain ⟨rest, h1, h2⟩ := h.frames
    exact ⟨rest, by rw [hfr]; exact h1, by rw [tableFrames_on]; exact h2⟩
  · rw [tableFrames_on, cells_on]; exact h.distinct
  · rw [tableFrames_on, hf]; exact h.onlyFrames
  · rw [htb, ets]; exact h.tables
  · rw [hf, hn]; exact h.freshFrames
  · rw [ht, hn]; exact h.freshTables
  · rw [hc, hn]; exact h.freshCells
  · rw [ets, ht]; exact h.onlyTables
  · rw [cells_on, hc]; exact h.onlyCells
  · rw [flowParas_on]
    intro p hp
    obtain ⟨q, hq, rfl⟩ := List.mem_map.mp hp
    rw [hg]; exact h.positive q hq
  · rw [topParas_on]; simpa using h.nonempty

theorem SItem.on_on (g g' : SPara → SPara) (it : SItem) : SItem.on g (SItem.on g' it) = SItem.on (fun q => g (g' q)) it := by
  cases it <;> simp [SItem.on, Function.comp_def]

theorem emptied_id (ids : List Nat) (q : SPara) : (emptied ids q).id = q.id := by unfold emptied; split <;> rfl

theorem emptied_cons (i : Nat) (ids : List Nat) (q : SPara) : emptied ids (emptied [i] q) = emptied (i :: ids) q := by
  unfold emptied
  by_cases h1 : q.id = i <;> by_cases h2 : q.id ∈ ids <;> simp [h1, h2]

theorem on_emptied_nil (items : List SItem) : items.map (SItem.on (emptied [])) = items := by
  have : emptied [] = id := by funext q; simp [emptied]
  rw [this]
  induction items with
  | nil => rfl
  | cons x l ih => rw [List.map_cons, ih]; cases x <;> simp [SItem.on]

theorem map_emptied_nil (ps : List SPara) : ps.map (emptied []) = ps := by
  have : emptied [] = id := by funext q; simp [emptied]
  rw [this]; simp

/-- The cell of the frame `x.1` holds the one paragraph `x.2`. -/
def HoldsOne (items : List SItem) (x : Nat × SPara) : Prop :=
  ∃ t ∈ tablesOf items, ∃ c ∈ t.cells, c.frame = x.1 ∧ c.paras = [x.2]

/-- The last of the text is not empty and not one of the paragraphs `ids`. -/
def EndsSafely (L : List Para) (ids : List Nat) : Prop := ∀ x, L.getLast? = some x → x.2 ≠ [] ∧ ∀ i ∈ ids, x.1 ≠ .block i

theorem EndsSafely.span {X Y : List Para} {x : Para} {ids : List Nat} (h : EndsSafely (X ++ x :: Y) ids) : span Y ≠ 1 := by
  intro e
  cases Y with
  | nil => simp [Verif.span] at e
  | cons y Y =>
    cases Y with
    | nil =>
      simp only [Verif.span] at e
      have := (h y (by simp)).1
      exact this (utf8Len_eq_zero.mp (by omega))
    | cons z Y => simp only [Verif.span] at e; omega

theorem EndsSafely.retext {L : List Para} {i : Nat} {ids : List Nat} (h : EndsSafely L (i :: ids)) (t : List Char) :
    EndsSafely (L.map (retext i t)) ids := by
  intro x hx
  rw [List.getLast?_map, Option.map_eq_some_iff] at hx
  obtain ⟨y, hy, rfl⟩ := hx
  obtain ⟨h1, h2⟩ := h y hy
  have : y.1 ≠ .block i := h2 i (by simp)
  unfold Verif.retext
  rw [if_neg this]
  exact ⟨h1, fun j hj => h2 j (by simp [hj])⟩

theorem updateBlock_stored {b : Block} (h : s.blocks b.id = some b) : s.updateBlock b = s := by
  unfold Store.updateBlock
  rw [h]
  have : Store.keepBlock b (some b) = b := rfl
  rw [this, IdMap.insert_same _ h]

/-- One cell is emptied. -/
theorem Arranged.clearCell {L : List Para} {x : Nat × SPara} {ids : List Nat} (h : Arranged s d f items)
    (hH : Carries s L (flowParas items) ((tablesOf items).map fun t => t.table.id)) (hsub : (paras (topParas items)).Sublist L)
    (hx : HoldsOne items x) (hcl : EndsSafely L (x.2.id :: ids)) :
    ∃ s', s.clearCell x.1 = some ((x.2.chars.length : Int), s') ∧ Arranged s' d f (items.map (SItem.on (emptied [x.2.id]))) ∧
      Carries s' (L.map (retext x.2.id [])) (flowParas (items.map (SItem.on (emptied [x.2.id])))) ((tablesOf items).map fun t => t.table.id) ∧
      (paras (topParas (items.map (SItem.on (emptied [x.2.id]))))).Sublist (L.map (retext x.2.id [])) ∧
      s'.blocks = s.blocks ∧ s'.documents = s.documents ∧ SameShell s s' ∧ s'.counters = s.counters := by
  obtain ⟨g, p⟩ := x
  obtain ⟨t, ht, c, hc, rfl, hcp⟩ := hx
  dsimp only at hcp hcl ⊢
  obtain ⟨_, _, _, fr, c1, c2, c3, c4, c5, c6⟩ := (h.table t ht).cell c hc
  rw [hcp] at c5 c6
  have hpm : p ∈ flowParas items := mem_flowParas.mpr (.inr ⟨t, ht, List.mem_flatMap.mpr ⟨c, hc, by rw [hcp]; simp⟩⟩)
  have hblocks : fr.blocks = [p.id] := List.perm_singleton.mp c6
  have hst := hH.stored hpm
  have hfb : s.frameBlocks c.frame = [p.id] := by unfold Store.frameBlocks; rw [c1]; exact hblocks
  obtain ⟨A, B, eAB⟩ := List.append_of_mem hpm
  obtain ⟨X, Y, hXY⟩ := hH.split hpm
  have hrep := hH.text
  rw [hXY] at hrep hcl
  obtain ⟨st', e1, e2⟩ := replaceContent_repr [] hrep hcl.span
  have hLmap : L.map (retext p.id []) = X ++ (.block p.id, []) :: Y := by
    rw [hXY]
    apply map_retext_split
    rw [← hXY]; exact hH.text.nodup
  unfold Store.clearCell
  rw [c1, Option.bind_some, hfb]
  have hgb : s.getBlocks [p.id] = [p.entity (s.storedPos p)] := by simp [Store.getBlocks, hst]
  rw [hgb]
  simp only [sortByKey, insertByKey]
  rw [show (p.entity (s.storedPos p)).id = p.id from rfl]
  simp only [mapOpt]
  rw [show (p.entity (s.storedPos p)).id = p.id from rfl, hH.charLength hpm]
  simp only [Option.bind_some, Option.map_some]
  unfold Store.clearBlock
  rw [updateBlock_stored (b := p.entity (s.storedPos p)) hst]
  dsimp only
  rw [show (p.entity (s.storedPos p)).id = p.id from rfl, e1]
  simp only [Option.map_some, Option.bind_some, List.map_nil, Store.forgetBlocks]
  have hfrsame : ({ fr with childOrder := [(p.id : Int)] } : Frame) = fr := by
    have : fr.childOrder = [(p.id : Int)] := by simpa using c5
    rw [← this]
  rw [hfrsame]
  have hupd : ∀ s2 : Store, s2.frames = s.frames → s2.updateFrame fr = s2 := by
    intro s2 hs2
    unfold Store.updateFrame
    rw [c2, hs2, c1]
    have : Store.keepFrame fr (some fr) = fr := rfl
    rw [this, IdMap.insert_same _ c1, ← hs2]
  rw [hupd]
  rotate_left
  · rfl
  have hmap : (flowParas items).map (emptied [p.id]) = A ++ { p with chars := [] } :: B := by
    have hn := hH.ids_nodup
    rw [← map_replace (p := p) (by rw [← eAB]; exact hn), ← eAB]
    apply List.map_congr_left
    intro q hq
    unfold emptied
    by_cases hq' : q.id = p.id
    · rw [if_pos (by simp [hq']), if_pos hq', hH.unique hpm hq hq']
    · rw [if_neg (by simp [hq']), if_neg hq']
  have hH2 := hH
  rw [eAB] at hH2
  have hC : Carries ({ (s.withText st') with formatRuns := (s.withText st').formatRuns.insert p.id [], blockImages := (s.withText st').blockImages.insert p.id [] })
      (L.map (retext p.id [])) ((flowParas items).map (emptied [p.id])) ((tablesOf items).map fun t => t.table.id) := by
    rw [hmap]
    refine hH2.replace [] rfl rfl ?_ ?_ ?_ ?_ ?_
    · show Repr ⟨st'.rope, st'.idx⟩ _
      simp only [List.map_nil]
      rw [hLmap]; exact e2
    · intro i hi
      simp only [Store.withText, IdMap.insert, hi, if_false]
    · simp only [IdMap.insert, if_true, Option.getD_some]
      exact StyledOk.nil_runs []
    · intro i hi
      simp only [Store.withText, IdMap.insert, hi, if_false]
    · simp only [IdMap.insert, if_true, Option.getD_some]
  have hsub2 : (paras ((topParas items).map (emptied [p.id]))).Sublist (L.map (retext p.id [])) := by
    have := hsub.map (retext p.id [])
    have e3 := paras_retext (ps := topParas items) (i := p.id) (cs := [])
    simp only [List.map_nil] at e3
    rw [e3] at this
    have e4 : emptied [p.id] = fun q => if q.id = p.id then { q with chars := [] } else q := by
      funext q; simp [emptied]
    rw [e4]
    exact this
  refine ⟨{ (s.withText st') with formatRuns := (s.withText st').formatRuns.insert p.id [], blockImages := (s.withText st').blockImages.insert p.id [] }, ?_, ?_, ?_, ?_, rfl, rfl, ⟨rfl, rfl, rfl, rfl, rfl, rfl⟩, rfl⟩
  · simp
  · exact h.on (emptied_id _) hC hsub2 h.document rfl rfl rfl rfl rfl rfl rfl fun _ => rfl
  · rw [flowParas_on]; exact hC
  · rw [topParas_on]; exact hsub2

theorem HoldsOne.on {x y : Nat × SPara} (h : HoldsOne items x) (hne : x.2.id ≠ y.2.id) :
    HoldsOne (items.map (SItem.on (emptied [y.2.id]))) x := by
  obtain ⟨t, ht, c, hc, h1, h2⟩ := h
  refine ⟨t.on (emptied [y.2.id]), by rw [tablesOf_on]; exact List.mem_map_of_mem ht,
    { c with paras := c.paras.map (emptied [y.2.id]) }, List.mem_map.mpr ⟨c, hc, rfl⟩, h1, ?_⟩
  simp [h2, emptied, hne]

/-- The cells are emptied one by one. -/
theorem clearCells_spec : ∀ (xs : List (Nat × SPara)) {s : Store} {items : List SItem} {L : List Para} {ts : List Nat}, Arranged s d f items →
    (tablesOf items).map (fun t => t.table.id) = ts →
    Carries s L (flowParas items) ts → (paras (topParas items)).Sublist L →
    (∀ x ∈ xs, HoldsOne items x) → (xs.map fun x => x.2.id).Nodup → EndsSafely L (xs.map fun x => x.2.id) →
    ∃ s' L', Store.clearCells (xs.map Prod.fst) s = some ((((xs.map fun x => x.2.chars.length).sum : Nat) : Int), s') ∧
      Arranged s' d f (items.map (SItem.on (emptied (xs.map fun x => x.2.id)))) ∧
      Carries s' L' (flowParas (items.map (SItem.on (emptied (xs.map fun x => x.2.id))))) ts ∧
      s'.blocks = s.blocks ∧ s'.documents = s.documents ∧ SameShell s s' ∧ s'.counters = s.counters
  | [], s, items, L, ts, h, hts, hH, hsub, _, _, _ => by
    refine ⟨s, L, rfl, ?_, ?_, rfl, rfl, ⟨rfl, rfl, rfl, rfl, rfl, rfl⟩, rfl⟩
    · rw [List.map_nil, on_emptied_nil]; exact h
    · rw [List.map_nil, on_emptied_nil]; exact hH
  | x :: xs, s, items, L, ts, h, hts, hH, hsub, hx, hnd, hcl => by
    simp only [List.map_cons, List.nodup_cons] at hnd
    rw [List.map_cons] at hcl
    rw [← hts] at hH
    obtain ⟨s1, e1, a1, b1, c1, d1, d2, d3, d4⟩ := h.clearCell hH hsub (hx x (by simp)) hcl
    have hts1 : (tablesOf (items.map (SItem.on (emptied [x.2.id])))).map (fun t => t.table.id) = ts := by
      rw [tablesOf_on, ← hts]; simp [STable.on, Function.comp_def]
    rw [hts] at b1
    obtain ⟨s2, L2, f1, f2, f3, f4, f5, f6, f7⟩ := clearCells_spec xs a1 hts1 b1 c1 (fun y hy => by
      refine (hx y (by simp [hy])).on ?_
      intro e
      exact hnd.1 (List.mem_map.mpr ⟨y, hy, e⟩)) hnd.2 (hcl.retext [])
    have hcomp : (items.map (SItem.on (emptied [x.2.id]))).map (SItem.on (emptied (xs.map fun x => x.2.id))) =
        items.map (SItem.on (emptied ((x :: xs).map fun x => x.2.id))) := by
      rw [List.map_map]
      apply List.map_congr_left
      intro it _
      simp only [Function.comp_def, SItem.on_on, emptied_cons, List.map_cons]
    refine ⟨s2, L2, ?_, ?_, ?_, f4.trans d1, f5.trans d2, ?_, f7.trans d4⟩
    · simp only [List.map_cons, Store.clearCells, e1, Option.bind_some, f1, Option.map_some, List.sum_cons]
      simp
    · rw [← hcomp]; exact f2
    · rw [← hcomp]; exact f3
    · exact ⟨f6.roots.trans d3.roots, f6.frames.trans d3.frames, f6.lists.trans d3.lists, f6.resources.trans d3.resources,
        f6.tables.trans d3.tables, f6.tableCells.trans d3.tableCells⟩

end Verif
