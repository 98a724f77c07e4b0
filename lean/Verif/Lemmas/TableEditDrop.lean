import Verif.Lemmas.TableEditInsert
import Verif.Lemmas.Sole
/- Cells that leave a table of a document: their frames, their paragraphs, their records. -/
namespace Verif
variable {s s' : Store} {d d' : Document} {f : Nat} {items A B : List SItem} {t t' : STable}
open Store

/-- What is listed is stored, and no paragraph is listed by two frames. -/
structure Linked (s : Store) : Prop where
  blocks : ∀ g x, s.frames g = some x → ∀ b ∈ x.blocks, (s.blocks b).isSome
  docs : ∀ i x, s.documents i = some x → ∀ g ∈ x.frames, (s.frames g).isSome
  apart : ∀ g x h y, s.frames g = some x → s.frames h = some y → g ≠ h → ∀ b ∈ x.blocks, b ∉ y.blocks

theorem rewriteOwners_idle {ids : List Nat} (os : List (Nat × List Nat)) : ∀ s : Store,
    (∀ o ∈ os, ∃ x, s.frames o.1 = some x ∧ x.blocks = o.2.filter (fun b => !ids.contains b) ∧ ∀ b ∈ x.blocks, (s.blocks b).isSome) →
    ∃ m : IdMap Frame, Store.rewriteOwners ids os s = some { s with frames := m } ∧ ∀ i, m i = s.frames i := by
  induction os with
  | nil => intro s _; exact ⟨s.frames, rfl, fun _ => rfl⟩
  | cons o os ih =>
    intro s h
    obtain ⟨o, l⟩ := o
    obtain ⟨x, h1, h2, h3⟩ := h _ (List.mem_cons_self ..)
    simp only at h1 h2
    have hset : s.setFrameBlocks o (l.filter fun b => !ids.contains b) =
        some { s with frames := s.frames.insert o { x with blocks := l.filter fun b => !ids.contains b } } := by
      unfold Store.setFrameBlocks
      rw [← h2, if_pos (by rw [List.all_eq_true]; exact h3), h1]
    have hx : ({ x with blocks := l.filter fun b => !ids.contains b } : Frame) = x := by rw [← h2]
    rw [hx] at hset
    have hget : ∀ i, (s.frames.insert o x) i = s.frames i := by
      intro i
      rw [IdMap.insert_get]
      split
      · rename_i e; rw [e, h1]
      · rfl
    obtain ⟨m, e, hm⟩ := ih { s with frames := s.frames.insert o x } (by
      intro p hp
      obtain ⟨y, k1, k2, k3⟩ := h p (List.mem_cons_of_mem _ hp)
      exact ⟨y, (hget p.1).trans k1, k2, k3⟩)
    refine ⟨m, ?_, fun i => (hm i).trans (hget i)⟩
    simp only [Store.rewriteOwners, hset, Option.bind_some]
    exact e

theorem rewriteDocs_idle {id : Nat} (os : List (Nat × List Nat)) : ∀ s : Store,
    (∀ o ∈ os, ∃ x, s.documents o.1 = some x ∧ x.frames = o.2.filter (fun b => b ≠ id) ∧ ∀ b ∈ x.frames, (s.frames b).isSome) →
    ∃ m : IdMap Document, Store.rewriteDocs id os s = some { s with documents := m } ∧ ∀ i, m i = s.documents i := by
  induction os with
  | nil => intro s _; exact ⟨s.documents, rfl, fun _ => rfl⟩
  | cons o os ih =>
    intro s h
    obtain ⟨o, l⟩ := o
    obtain ⟨x, h1, h2, h3⟩ := h _ (List.mem_cons_self ..)
    simp only at h1 h2
    have hset : s.setDocFrames o (l.filter fun b => b ≠ id) =
        some { s with documents := s.documents.insert o { x with frames := l.filter fun b => b ≠ id } } := by
      unfold Store.setDocFrames
      rw [← h2, if_pos (by rw [List.all_eq_true]; exact h3), h1]
    have hx : ({ x with frames := l.filter fun b => b ≠ id } : Document) = x := by rw [← h2]
    rw [hx] at hset
    have hget : ∀ i, (s.documents.insert o x) i = s.documents i := by
      intro i
      rw [IdMap.insert_get]
      split
      · rename_i e; rw [e, h1]
      · rfl
    obtain ⟨m, e, hm⟩ := ih { s with documents := s.documents.insert o x } (by
      intro p hp
      obtain ⟨y, k1, k2, k3⟩ := h p (List.mem_cons_of_mem _ hp)
      exact ⟨y, (hget p.1).trans k1, k2, k3⟩)
    refine ⟨m, ?_, fun i => (hm i).trans (hget i)⟩
    simp only [Store.rewriteDocs, hset, Option.bind_some]
    exact e

theorem rewriteTables_idle {ids : List Nat} (os : List (Nat × List Nat)) : ∀ s : Store,
    (∀ o ∈ os, ∃ x, s.tables o.1 = some x ∧ x.cells = o.2.filter (fun b => !ids.contains b) ∧ ∀ b ∈ x.cells, (s.tableCells b).isSome) →
    ∃ m : IdMap Table, Store.rewriteTables ids os s = some { s with tables := m } ∧ ∀ i, m i = s.tables i := by
  induction os with
  | nil => intro s _; exact ⟨s.tables, rfl, fun _ => rfl⟩
  | cons o os ih =>
    intro s h
    obtain ⟨o, l⟩ := o
    obtain ⟨x, h1, h2, h3⟩ := h _ (List.mem_cons_self ..)
    simp only at h1 h2
    have hset : s.setTableCells o (l.filter fun b => !ids.contains b) =
        some { s with tables := s.tables.insert o { x with cells := l.filter fun b => !ids.contains b } } := by
      unfold Store.setTableCells
      rw [← h2, if_pos (by rw [List.all_eq_true]; exact h3), h1]
    have hx : ({ x with cells := l.filter fun b => !ids.contains b } : Table) = x := by rw [← h2]
    rw [hx] at hset
    have hget : ∀ i, (s.tables.insert o x) i = s.tables i := by
      intro i
      rw [IdMap.insert_get]
      split
      · rename_i e; rw [e, h1]
      · rfl
    obtain ⟨m, e, hm⟩ := ih { s with tables := s.tables.insert o x } (by
      intro p hp
      obtain ⟨y, k1, k2, k3⟩ := h p (List.mem_cons_of_mem _ hp)
      exact ⟨y, (hget p.1).trans k1, k2, k3⟩)
    refine ⟨m, ?_, fun i => (hm i).trans (hget i)⟩
    simp only [Store.rewriteTables, hset, Option.bind_some]
    exact e

/-- The frames `gs` are gone from `s`, with their paragraphs. -/
structure FramesGone (s s' : Store) (gs : List Nat) : Prop where
  only : s' = { s with blocks := s'.blocks, frames := s'.frames, formatRuns := s'.formatRuns, blockImages := s'.blockImages, documents := s'.documents, tableCells := s'.tableCells }
  blocks : ∀ i, s'.blocks i = if i ∈ gs.flatMap s.frameBlocks then none else s.blocks i
  runs : ∀ i, s'.formatRuns i = if i ∈ gs.flatMap s.frameBlocks then none else s.formatRuns i
  images : ∀ i, s'.blockImages i = if i ∈ gs.flatMap s.frameBlocks then none else s.blockImages i
  frames : ∀ i, s'.frames i = if i ∈ gs then none else s.frames i
  docs : ∀ i, s'.documents i = (s.documents i).map fun d => { d with frames := d.frames.filter fun g => !gs.contains g }
  cell : ∀ i c, s.tableCells i = some c → (∀ g, c.cellFrame = some g → g ∉ gs) → s'.tableCells i = some c
  cells : ∀ i, (s'.tableCells i).isSome = (s.tableCells i).isSome

theorem removeBlocks_get (hl : Linked s) {g : Nat} {fr : Frame} (hg : s.frames g = some fr) :
    ∃ s1, s.removeBlocks fr.blocks = some s1 ∧
      s1 = { s with blocks := s1.blocks, frames := s1.frames, formatRuns := s1.formatRuns, blockImages := s1.blockImages } ∧
      (∀ i, s1.blocks i = if i ∈ fr.blocks then none else s.blocks i) ∧
      (∀ i, s1.formatRuns i = if i ∈ fr.blocks then none else s.formatRuns i) ∧
      (∀ i, s1.blockImages i = if i ∈ fr.blocks then none else s.blockImages i) ∧
      (∀ i, i ≠ g → s1.frames i = s.frames i) ∧ (s1.frames g).isSome := by
  by_cases hnil : fr.blocks = []
  · refine ⟨s, ?_, rfl, by simp [hnil], by simp [hnil], by simp [hnil], fun _ _ => rfl, by rw [hg]; rfl⟩
    unfold Store.removeBlocks
    rw [hnil]; rfl
  · have hnall : ¬ (fr.blocks.all fun i => (s.blocks i).isNone) = true := by
      intro hall
      rw [List.all_eq_true] at hall
      obtain ⟨b, hb⟩ := List.exists_mem_of_ne_nil _ hnil
      have h1 := hall b hb
      have h2 := hl.blocks g fr hg b hb
      cases e : s.blocks b <;> simp_all
    obtain ⟨m, e, hm⟩ := rewriteOwners_idle (ids := fr.blocks) (s.blockOwners fr.blocks) (s.tableRemoveBlocks fr.blocks) (by
      intro o ho
      unfold Store.blockOwners at ho
      obtain ⟨k, hk, rfl⟩ := List.mem_map.mp ho
      obtain ⟨hk1, hk2⟩ := List.mem_filter.mp hk
      have hsome : (s.frames k).isSome := (s.frames.mem k).mp hk1
      obtain ⟨x, hx⟩ := Option.isSome_iff_exists.mp hsome
      have hfb : s.frameBlocks k = x.blocks := by simp [Store.frameBlocks, hx]
      rw [hfb] at hk2
      have hst : Store.stripFrame fr.blocks x = { x with
          blocks := x.blocks.filter fun b => !fr.blocks.contains b
          childOrder := x.childOrder.filter fun e => !(decide (e > 0) && fr.blocks.contains e.toNat) } := by
        unfold Store.stripFrame; rw [if_pos hk2]
      refine ⟨Store.stripFrame fr.blocks x, ?_, ?_, ?_⟩
      · show (s.frames.mapValues _) k = _
        rw [IdMap.mapValues_get, hx]; rfl
      · rw [hst, hfb]
      · rw [hst]
        intro b hb
        obtain ⟨hb1, hb2⟩ := List.mem_filter.mp hb
        show ((fr.blocks.foldl IdMap.erase s.blocks) b).isSome
        rw [Sole.erase_get_foldl, if_neg (by simpa using hb2)]
        exact hl.blocks k x hx b hb1)
    refine ⟨_, by unfold Store.removeBlocks; rw [if_neg hnall]; exact e, rfl, ?_, ?_, ?_, ?_, ?_⟩
    · intro i; exact Sole.erase_get_foldl _ _ _
    · intro i; exact Sole.erase_get_foldl _ _ _
    · intro i; exact Sole.erase_get_foldl _ _ _
    · intro i hi
      show m i = _
      rw [hm i]
      show (s.frames.mapValues _) i = _
      rw [IdMap.mapValues_get]
      cases hx : s.frames i with
      | none => rfl
      | some x =>
        have : Store.stripFrame fr.blocks x = x := by
          unfold Store.stripFrame
          rw [if_neg]
          intro ha
          obtain ⟨b, h1, h2⟩ := List.any_eq_true.mp ha
          exact hl.apart i x g fr hx hg hi b h1 (by simpa using h2)
        rw [Option.map_some, this]
    · show (m g).isSome
      rw [hm g]
      show ((s.frames.mapValues _) g).isSome
      rw [IdMap.mapValues_get, hg]; rfl

theorem removeFrame_get (hl : Linked s) {g : Nat} (hg : (s.frames g).isSome)
    (hp : ∀ i x, s.frames i = some x → x.parentFrame ≠ some g) :
    ∃ s', s.removeFrame g = some s' ∧ FramesGone s s' [g] := by
  obtain ⟨fr, hfr⟩ := Option.isSome_iff_exists.mp hg
  obtain ⟨s1, e1, o1, b1, r1, i1, f1, f2⟩ := removeBlocks_get hl hfr
  have hfb : s.frameBlocks g = fr.blocks := by simp [Store.frameBlocks, hfr]
  have hdoc : s1.documents = s.documents := by rw [o1]
  have hcel : s1.tableCells = s.tableCells := by rw [o1]
  have hframes : ∀ i, (s1.tableRemoveFrame g).frames i = if i = g then none else s.frames i := by
    intro i
    show ((s1.frames.erase g).mapValues _) i = _
    rw [IdMap.mapValues_get, IdMap.erase_get]
    by_cases hi : i = g
    · simp [hi]
    · rw [if_neg hi, if_neg hi, f1 i hi]
      cases hx : s.frames i with
      | none => rfl
      | some x => rw [Option.map_some, if_neg (hp i x hx)]
  obtain ⟨m, e2, hm⟩ := rewriteDocs_idle (id := g)
    ((s1.documents.keys.filter fun d => (s1.docFrames d).contains g).map fun d => (d, s1.docFrames d)) (s1.tableRemoveFrame g) (by
      intro o ho
      obtain ⟨k, hk, rfl⟩ := List.mem_map.mp ho
      obtain ⟨hk1, hk2⟩ := List.mem_filter.mp hk
      have hsome : (s1.documents k).isSome := (s1.documents.mem k).mp hk1
      obtain ⟨x, hx⟩ := Option.isSome_iff_exists.mp hsome
      refine ⟨{ x with frames := x.frames.filter fun i => i ≠ g }, ?_, ?_, ?_⟩
      · show (s1.documents.mapValues _) k = _
        rw [IdMap.mapValues_get, hx]; rfl
      · simp [Store.docFrames, hx]
      · intro b hb
        obtain ⟨hb1, hb2⟩ := List.mem_filter.mp hb
        rw [hframes, if_neg (by simpa using hb2)]
        rw [hdoc] at hx
        exact hl.docs k x hx b hb1)
  refine ⟨{ (s1.tableRemoveFrame g) with documents := m }, ?_, ⟨?_, ?_, ?_, ?_, ?_, ?_, ?_, ?_⟩⟩
  · unfold Store.removeFrame
    rw [hfr]
    simp only [e1, Option.bind_some]
    exact e2
  · rw [o1]; rfl
  · intro i
    show s1.blocks i = _
    rw [b1]; simp [hfb]
  · intro i
    show s1.formatRuns i = _
    rw [r1]; simp [hfb]
  · intro i
    show s1.blockImages i = _
    rw [i1]; simp [hfb]
  · intro i
    show (s1.tableRemoveFrame g).frames i = _
    rw [hframes]; simp
  · intro i
    show m i = _
    rw [hm i]
    show (s1.documents.mapValues _) i = _
    rw [IdMap.mapValues_get, hdoc]
    congr 1
    funext x
    congr 1
    apply List.filter_congr
    intro a _
    by_cases h : a = g <;> simp [h]
  · intro i c hc hcf
    show (s1.tableCells.mapValues _) i = _
    rw [IdMap.mapValues_get, hcel, hc, Option.map_some, if_neg]
    intro h
    exact hcf g h (by simp)
  · intro i
    show ((s1.tableCells.mapValues _) i).isSome = _
    rw [IdMap.mapValues_get, hcel, Option.isSome_map]

theorem FramesGone.linked {gs : List Nat} (hl : Linked s) (h : FramesGone s s' gs) : Linked s' := by
  have hmem : ∀ g x, s'.frames g = some x → g ∉ gs ∧ s.frames g = some x := by
    intro g x hx
    rw [h.frames] at hx
    split at hx
    · cases hx
    · rename_i hn; exact ⟨hn, hx⟩
  refine ⟨?_, ?_, ?_⟩
  · intro g x hx b hb
    obtain ⟨h1, h2⟩ := hmem g x hx
    rw [h.blocks, if_neg]
    · exact hl.blocks g x h2 b hb
    · intro hm
      obtain ⟨k, hk, hbk⟩ := List.mem_flatMap.mp hm
      unfold Store.frameBlocks at hbk
      cases hy : s.frames k with
      | none => rw [hy] at hbk; simp at hbk
      | some y =>
        rw [hy] at hbk
        exact hl.apart g x k y h2 hy (fun e => h1 (e ▸ hk)) b hb (by simpa using hbk)
  · intro i x hx g hg
    rw [h.docs, Option.map_eq_some_iff] at hx
    obtain ⟨x0, h1, rfl⟩ := hx
    obtain ⟨hg1, hg2⟩ := List.mem_filter.mp hg
    rw [h.frames, if_neg (by simpa using hg2)]
    exact hl.docs i x0 h1 g hg1
  · intro g x k y hx hy hne
    exact hl.apart g x k y (hmem g x hx).2 (hmem k y hy).2 hne

theorem removeFrames_get (gs : List Nat) : ∀ s : Store, Linked s → gs.Nodup → (∀ g ∈ gs, (s.frames g).isSome) →
    (∀ i x, s.frames i = some x → ∀ g, x.parentFrame = some g → g ∉ gs) →
    ∃ s', Store.removeFrames gs s = some s' ∧ FramesGone s s' gs := by
  induction gs with
  | nil =>
    intro s _ _ _ _
    refine ⟨s, rfl, rfl, by simp, by simp, by simp, by simp, ?_, fun _ _ h _ => h, fun _ => rfl⟩
    intro i
    cases hx : s.documents i with
    | none => rfl
    | some x => rw [Option.map_some, List.filter_eq_self.mpr (by simp)]
  | cons g gs ih =>
    intro s hl hn hsome hp
    rw [List.nodup_cons] at hn
    obtain ⟨s1, e1, k1⟩ := removeFrame_get hl (hsome g (by simp)) (fun i x hx e => hp i x hx g e (by simp))
    have hold : ∀ i x, s1.frames i = some x → s.frames i = some x := by
      intro i x hx
      rw [k1.frames] at hx
      split at hx
      · cases hx
      · exact hx
    obtain ⟨s2, e2, k2⟩ := ih s1 (k1.linked hl) hn.2 (by
      intro i hi
      rw [k1.frames, if_neg (by intro e; rw [List.mem_singleton] at e; exact hn.1 (e ▸ hi))]
      exact hsome i (by simp [hi])) (by
      intro i x hx j hj hm
      exact hp i x (hold i x hx) j hj (by simp [hm]))
    have hfb : ∀ _ : Nat, gs.flatMap s1.frameBlocks = gs.flatMap s.frameBlocks := by
      intro _
      have : ∀ l : List Nat, (∀ x ∈ l, x ∈ gs) → l.flatMap s1.frameBlocks = l.flatMap s.frameBlocks := by
        intro l
        induction l with
        | nil => intro _; rfl
        | cons x l ihl =>
          intro hx
          rw [List.flatMap_cons, List.flatMap_cons, ihl fun y hy => hx y (by simp [hy])]
          congr 1
          unfold Store.frameBlocks
          rw [k1.frames, if_neg (by intro e; rw [List.mem_singleton] at e; exact hn.1 (e ▸ hx x (by simp)))]
      exact this gs fun _ h => h
    have hsplit : ∀ {α : Type} (i : Nat) (a : Option α), (if i ∈ gs.flatMap s1.frameBlocks then none
        else if i ∈ [g].flatMap s.frameBlocks then none else a) = if i ∈ (g :: gs).flatMap s.frameBlocks then none else a := by
      intro α i a
      rw [hfb i]
      simp only [List.flatMap_cons, List.flatMap_nil, List.append_nil, List.mem_append]
      by_cases h1 : i ∈ gs.flatMap s.frameBlocks <;> by_cases h2 : i ∈ s.frameBlocks g <;> simp [h1, h2]
    refine ⟨s2, ?_, ?_, ?_, ?_, ?_, ?_, ?_, ?_, ?_⟩
    · simp only [Store.removeFrames, e1, Option.bind_some]; exact e2
    · rw [k2.only, k1.only]
    · intro i; rw [k2.blocks, k1.blocks]; exact hsplit i _
    · intro i; rw [k2.runs, k1.runs]; exact hsplit i _
    · intro i; rw [k2.images, k1.images]; exact hsplit i _
    · intro i
      rw [k2.frames, k1.frames]
      simp only [List.mem_cons, List.not_mem_nil, or_false]
      by_cases h1 : i = g <;> by_cases h2 : i ∈ gs <;> simp [h1, h2]
    · intro i
      rw [k2.docs, k1.docs, Option.map_map]
      congr 1
      funext x
      simp only [Function.comp]
      congr 1
      rw [List.filter_filter]
      apply List.filter_congr
      intro a _
      by_cases h1 : a = g <;> by_cases h2 : a ∈ gs <;> simp [h1, h2]
    · intro i c hc hcf
      apply k2.cell
      · apply k1.cell i c hc
        intro j hj hm
        exact hcf j hj (by rw [List.mem_singleton] at hm; simp [hm])
      · intro j hj hm
        exact hcf j hj (by simp [hm])
    · intro i; rw [k2.cells, k1.cells]

/-- The records of cells go. -/
theorem removeCells_get {ids : List Nat} (hex : ∃ i ∈ ids, (s.tableCells i).isSome)
    (hc : ∀ i x, s.tables i = some x → ∀ c ∈ x.cells, (s.tableCells c).isSome) :
    ∃ s', s.removeCells ids = some s' ∧ s' = { s with tableCells := s'.tableCells, tables := s'.tables } ∧
      (∀ i, s'.tableCells i = if i ∈ ids then none else s.tableCells i) ∧
      (∀ i, s'.tables i = (s.tables i).map fun t => { t with cells := t.cells.filter fun c => !ids.contains c }) := by
  have hnall : ¬ (ids.all fun i => (s.tableCells i).isNone) = true := by
    intro hall
    rw [List.all_eq_true] at hall
    obtain ⟨i, h1, h2⟩ := hex
    have := hall i h1
    cases e : s.tableCells i <;> simp_all
  have htab : ∀ i, (s.tableRemoveCells ids).tables i = (s.tables i).map fun t => { t with cells := t.cells.filter fun c => !ids.contains c } := by
    intro i
    show (s.tables.mapValues _) i = _
    rw [IdMap.mapValues_get]
  obtain ⟨m, e, hm⟩ := rewriteTables_idle (ids := ids)
    ((s.tables.keys.filter fun t => (s.tableCellIds t).any fun c => ids.contains c).map fun t => (t, s.tableCellIds t))
    (s.tableRemoveCells ids) (by
      intro o ho
      obtain ⟨k, hk, rfl⟩ := List.mem_map.mp ho
      obtain ⟨hk1, hk2⟩ := List.mem_filter.mp hk
      have hsome : (s.tables k).isSome := (s.tables.mem k).mp hk1
      obtain ⟨x, hx⟩ := Option.isSome_iff_exists.mp hsome
      refine ⟨_, by rw [htab, hx]; rfl, ?_, ?_⟩
      · simp [Store.tableCellIds, hx]
      · intro b hb
        obtain ⟨hb1, hb2⟩ := List.mem_filter.mp hb
        show ((ids.foldl IdMap.erase s.tableCells) b).isSome
        rw [Sole.erase_get_foldl, if_neg (by simpa using hb2)]
        exact hc k x hx b hb1)
  refine ⟨_, by unfold Store.removeCells; rw [if_neg hnall]; exact e, rfl, ?_, ?_⟩
  · intro i; exact Sole.erase_get_foldl _ _ _
  · intro i
    show m i = _
    rw [hm, htab]

/-- Paragraphs leave the text. -/
theorem ropeRemoveBlocks_repr (ids : List Nat) : ∀ (st : RopeSt) (L : List Para), Repr st L → ids.Nodup →
    (L.map Prod.fst).Nodup → (∀ i ∈ ids, Marker.block i ∈ L.map Prod.fst) →
    ∃ st', Store.ropeRemoveBlocks ids st = some st' ∧
      Repr st' (L.filter fun p => match p.1 with | .block i => !ids.contains i | .table _ => true) := by
  induction ids with
  | nil =>
    intro st L h _ _ _
    refine ⟨st, rfl, ?_⟩
    rw [List.filter_eq_self.mpr]
    · exact h
    · rintro ⟨m, c⟩ _; cases m <;> simp
  | cons i ids ih =>
    intro st L h hn hL hm
    rw [List.nodup_cons] at hn
    obtain ⟨⟨m, c⟩, hp, he⟩ := List.mem_map.mp (hm i (by simp))
    simp only at he
    subst he
    obtain ⟨X, Y, rfl⟩ := List.append_of_mem hp
    obtain ⟨st1, e1, k1⟩ := removeBlock_repr h
    have hL' := hL
    rw [List.map_append, List.map_cons] at hL'
    have hcnt : ∀ m, m ∈ X.map Prod.fst ∨ m ∈ Y.map Prod.fst → m ≠ Marker.block i := by
      rintro m hm rfl
      rw [List.nodup_append, List.nodup_cons] at hL'
      rcases hm with hm | hm
      · exact hL'.2.2 _ hm _ (by simp) rfl
      · exact hL'.2.1.1 hm
    obtain ⟨st2, e2, k2⟩ := ih st1 (X ++ Y) k1 hn.2 (by
        rw [List.map_append]
        exact hL'.sublist ((List.Sublist.refl _).append (List.sublist_cons_self ..))) (by
        intro j hj
        have := hm j (by simp [hj])
        rw [List.map_append, List.map_cons, List.mem_append, List.mem_cons] at this
        rw [List.map_append, List.mem_append]
        rcases this with h1 | h1 | h1
        · exact .inl h1
        · cases h1; exact absurd hj hn.1
        · exact .inr h1)
    refine ⟨st2, by simp only [Store.ropeRemoveBlocks, e1, Option.bind_some]; exact e2, ?_⟩
    have hfil : ∀ l : List Para, (∀ m ∈ l.map Prod.fst, m ≠ Marker.block i) →
        (l.filter fun p => match p.1 with | .block j => !(i :: ids).contains j | .table _ => true) =
        l.filter fun p => match p.1 with | .block j => !ids.contains j | .table _ => true := by
      intro l hl
      apply List.filter_congr
      rintro ⟨m, c⟩ hm
      cases m with
      | table => rfl
      | block j =>
        have : j ≠ i := by intro e; exact hl _ (List.mem_map_of_mem hm) (by rw [e])
        simp [this]
    rw [List.filter_append, List.filter_cons_of_neg (by simp), hfil X fun m h => hcnt m (.inl h), hfil Y fun m h => hcnt m (.inr h),
      ← List.filter_append]
    exact k2

/-- The paragraphs with the ids `ids` are gone. -/
theorem Carries.shrunk {L : List Para} {ps : List SPara} {ts ids : List Nat} (h : Carries s L ps ts)
    (hr : Repr s'.text (L.filter fun p => match p.1 with | .block i => !ids.contains i | .table _ => true))
    (hb : ∀ i, s'.blocks i = if i ∈ ids then none else s.blocks i)
    (hruns : ∀ i, s'.formatRuns i = if i ∈ ids then none else s.formatRuns i)
    (himgs : ∀ i, s'.blockImages i = if i ∈ ids then none else s.blockImages i) (hnext : s'.next "block" = s.next "block") :
    Carries s' (L.filter fun p => match p.1 with | .block i => !ids.contains i | .table _ => true)
      (ps.filter fun p => !ids.contains p.id) ts := by
  have hmem : ∀ q ∈ ps.filter (fun p => !ids.contains p.id), q ∈ ps ∧ q.id ∉ ids := by
    intro q hq
    obtain ⟨h1, h2⟩ := List.mem_filter.mp hq
    exact ⟨h1, by simpa using h2⟩
  constructor
  · exact hr
  · refine (h.perm.filter _).trans (.of_eq ?_)
    rw [List.filter_append]
    congr 1
    · unfold paras
      rw [List.filter_map]; rfl
    · rw [List.filter_eq_self]
      intro x hx
      obtain ⟨i, _, rfl⟩ := List.mem_map.mp hx
      rfl
  · apply IdMap.keys_perm
    · exact h.ids_nodup.sublist (List.filter_sublist.map _)
    · intro i
      rw [hb]
      constructor
      · intro hi
        split at hi
        · simp at hi
        · rename_i hn
          have h1 := h.keys.mem_iff.mp ((s.blocks.mem i).mpr hi)
          obtain ⟨q, hq, rfl⟩ := List.mem_map.mp h1
          exact List.mem_map_of_mem (List.mem_filter.mpr ⟨hq, by simpa using hn⟩)
      · intro hi
        obtain ⟨q, hq, rfl⟩ := List.mem_map.mp hi
        obtain ⟨h1, h2⟩ := hmem q hq
        rw [if_neg h2]
        obtain ⟨b, hb, _⟩ := h.block q h1
        rw [hb]; rfl
  · intro q hq
    obtain ⟨h1, h2⟩ := hmem q hq
    rw [hb, if_neg h2]; exact h.block q h1
  · intro q hq
    obtain ⟨h1, h2⟩ := hmem q hq
    rw [hruns, if_neg h2]; exact h.formats q h1
  · intro q hq
    obtain ⟨h1, h2⟩ := hmem q hq
    rw [himgs, if_neg h2]; exact h.images q h1
  · intro q hq
    rw [hnext]; exact h.fresh q (hmem q hq).1
  · intro i hi
    rw [hnext] at hi
    rw [hruns, himgs]
    have := h.clean i hi
    split
    · exact ⟨rfl, rfl⟩
    · exact this

theorem same_of_nodup_flatMap {α β : Type} {g : α → List β} {k : β → Nat} : ∀ {l : List α}, ((l.flatMap g).map k).Nodup →
    ∀ a ∈ l, ∀ b ∈ l, ∀ x ∈ g a, ∀ y ∈ g b, k x = k y → a = b := by
  intro l
  induction l with
  | nil => intro _ a ha; simp at ha
  | cons c l ih =>
    intro hn a ha b hb x hx y hy e
    rw [List.flatMap_cons, List.map_append, List.nodup_append] at hn
    rcases List.mem_cons.mp ha with rfl | ha' <;> rcases List.mem_cons.mp hb with rfl | hb'
    · rfl
    · exact absurd e (hn.2.2 _ (List.mem_map_of_mem hx) _ (List.mem_map_of_mem (List.mem_flatMap.mpr ⟨b, hb', hy⟩)))
    · exact absurd e.symm (hn.2.2 _ (List.mem_map_of_mem hy) _ (List.mem_map_of_mem (List.mem_flatMap.mpr ⟨a, ha', hx⟩)))
    · exact ih hn.2.1 a ha' b hb' x hx y hy e

/-- A paragraph is listed by one frame. -/
theorem Arranged.frame_unique (h : Arranged s d f items) {i g k : Nat} (hg : i ∈ s.frameBlocks g) (hk : i ∈ s.frameBlocks k) : g = k := by
  obtain ⟨L, hL, _⟩ := h.content
  have hnd := hL.ids_nodup
  have hnd2 := ((flowParas_perm items).map SPara.id).nodup_iff.mp hnd
  have hcf : ((tablesOf items).flatMap fun t => t.cells.flatMap SCell.paras) = (cellsOf items).flatMap SCell.paras := by
    unfold cellsOf; rw [List.flatMap_assoc]
  rw [hcf, List.map_append, List.nodup_append] at hnd2
  have hcell : ∀ t ∈ tablesOf items, ∀ c ∈ t.cells, ∀ p ∈ c.paras, p ∈ (cellsOf items).flatMap SCell.paras := fun t ht c hc p hp =>
    List.mem_flatMap.mpr ⟨c, mem_cellsOf.mpr ⟨t, ht, hc⟩, hp⟩
  rcases h.mem_frameBlocks hg with ⟨p, hp, e1, e2⟩ | ⟨t, ht, c, hc, p, hp, e1, e2⟩ <;>
    rcases h.mem_frameBlocks hk with ⟨q, hq, e3, e4⟩ | ⟨u, hu, b, hb, q, hq, e3, e4⟩
  · rw [e2, e4]
  · exact absurd (e1.trans e3.symm) (hnd2.2.2 _ (List.mem_map_of_mem hp) _ (List.mem_map_of_mem (hcell u hu b hb q hq)))
  · exact absurd (e3.trans e1.symm) (hnd2.2.2 _ (List.mem_map_of_mem hq) _ (List.mem_map_of_mem (hcell t ht c hc p hp)))
  · rw [e2, e4, same_of_nodup_flatMap hnd2.2.1 c (mem_cellsOf.mpr ⟨t, ht, hc⟩) b (mem_cellsOf.mpr ⟨u, hu, hb⟩) p hp q hq (e1.trans e3.symm)]

/-- The cells of a table that stay. -/
def STable.only (t : STable) (keep : TableCell → Bool) : STable :=
  ⟨{ t.table with cells := t.table.cells.filter fun i => !((t.cells.filter fun c => !keep c.cell).map fun c => c.cell.id).contains i },
    t.anchor, t.cells.filter fun c => keep c.cell⟩

theorem Arranged.linked (h : Arranged s d f items) (hdocs : ∀ i, (s.documents i).isSome → i = d.id) : Linked s := by
  obtain ⟨L, hL, _⟩ := h.content
  have hst : ∀ p ∈ flowParas items, (s.blocks p.id).isSome := by
    intro p hp
    obtain ⟨b, hb, _⟩ := hL.block p hp
    rw [hb]; rfl
  have hfb : ∀ g x, s.frames g = some x → s.frameBlocks g = x.blocks := by
    intro g x hx; simp [Store.frameBlocks, hx]
  refine ⟨?_, ?_, ?_⟩
  · intro g x hx b hb
    rw [← hfb g x hx] at hb
    rcases h.mem_frameBlocks hb with ⟨p, hp, rfl, _⟩ | ⟨t, ht, c, hc, p, hp, rfl, _⟩
    · exact hst p (mem_flowParas.mpr (.inl hp))
    · exact hst p (mem_flowParas.mpr (.inr ⟨t, ht, List.mem_flatMap.mpr ⟨c, hc, hp⟩⟩))
  · intro i x hx g hg
    have := hdocs i (by rw [hx]; rfl)
    subst this
    rw [h.document] at hx; cases hx
    exact h.allFrames g hg
  · intro g x k y hx hy hne b hb hb'
    rw [← hfb g x hx] at hb
    rw [← hfb k y hy] at hb'
    have hnd := hL.ids_nodup
    apply hne
    exact h.frame_unique hb hb'

theorem eq_of_nodup_map {α : Type} {k : α → Nat} {l : List α} (hn : (l.map k).Nodup) {a b : α} (ha : a ∈ l) (hb : b ∈ l)
    (e : k a = k b) : a = b :=
  same_of_nodup_flatMap (g := fun x => [x]) (by simpa [List.flatMap_singleton'] using hn) a ha b hb a (by simp) b (by simp) e

theorem sublist_flatMap {α β : Type} {l m : List α} (h : l.Sublist m) (g : α → List β) : (l.flatMap g).Sublist (m.flatMap g) := by
  induction h with
  | slnil => exact .refl _
  | cons a _ ih => rw [List.flatMap_cons]; exact ih.trans (List.sublist_append_right _ _)
  | cons_cons a _ ih => rw [List.flatMap_cons, List.flatMap_cons]; exact (List.Sublist.refl _).append ih

/-- Some cells of a table leave the document. -/
theorem Arranged.dropCells (h : Arranged s d f (A ++ .table t :: B)) (hdocs : ∀ i, (s.documents i).isSome → i = d.id)
    {keep : TableCell → Bool} {gone : List TableCell} (hg : gone.Perm ((t.cells.map SCell.cell).filter fun c => !keep c)) :
    ∃ s1 fs, s.dropCells gone = some s1 ∧ Arranged s1 { d with frames := fs } f (A ++ .table (t.only keep) :: B) ∧
      s1.lists = s.lists ∧ (∀ q ∈ flowParas (A ++ .table (t.only keep) :: B), s1.blocks q.id = s.blocks q.id) := by
  have ht : t ∈ tablesOf (A ++ .table t :: B) := by rw [tables_at]; simp
  have hT := h.table t ht
  obtain ⟨L, hL, hsub⟩ := h.content
  have hd := h.distinct
  rw [frames_at, cells_at, List.map_append, List.map_append, List.nodup_cons, List.nodup_append, List.nodup_cons, List.nodup_append,
    List.nodup_append, List.nodup_append] at hd
  simp only [List.mem_append, List.mem_cons, not_or] at hd
  have hnf : (t.cells.map SCell.frame).Nodup := hd.1.2.2.1.2.1
  have hni : (t.cells.map fun c => c.cell.id).Nodup := hd.2.2.1.1
  generalize hout : t.cells.filter (fun c => !keep c.cell) = out
  have hom : ∀ c, c ∈ out ↔ c ∈ t.cells ∧ keep c.cell = false := by
    intro c; rw [← hout, List.mem_filter]; simp
  have hosub : out.Sublist t.cells := by rw [← hout]; exact List.filter_sublist
  have hg' : gone.Perm (out.map SCell.cell) := by
    refine hg.trans (.of_eq ?_)
    rw [List.filter_map, ← hout]; rfl
  -- the frames that go
  generalize hgs : gone.filterMap TableCell.cellFrame = gs
  have hgsp : gs.Perm (out.map SCell.frame) := by
    rw [← hgs]
    refine (hg'.filterMap _).trans (.of_eq ?_)
    exact cells_frames fun c hc => (hT.cell c ((hom c).mp hc).1).2.1
  have hgsn : gs.Nodup := hgsp.nodup_iff.mpr (hnf.sublist (hosub.map _))
  have hgsm : ∀ g, g ∈ gs ↔ ∃ c, c ∈ t.cells ∧ keep c.cell = false ∧ c.frame = g := by
    intro g
    rw [hgsp.mem_iff, List.mem_map]
    constructor
    · rintro ⟨c, hc, e⟩; exact ⟨c, ((hom c).mp hc).1, ((hom c).mp hc).2, e⟩
    · rintro ⟨c, h1, h2, e⟩; exact ⟨c, (hom c).mpr ⟨h1, h2⟩, e⟩
  have hgst : ∀ g ∈ gs, g ∈ t.cells.map SCell.frame := by
    intro g hg
    obtain ⟨c, h1, _, rfl⟩ := (hgsm g).mp hg
    exact List.mem_map_of_mem h1
  obtain ⟨s1, e1, k⟩ := removeFrames_get gs s (h.linked hdocs) hgsn (by
      intro g hg
      exact h.frame_some (by rw [frames_at]; simp only [List.mem_append, List.mem_cons]; exact .inr (.inr (.inl (hgst g hg))))) (by
      intro i x hx g hg hm
      have hgt := hgst g hm
      -- a parent is the main frame or an anchor
      rcases List.mem_cons.mp (h.onlyFrames i (by rw [hx]; rfl)) with rfl | hi
      · obtain ⟨fr, q1, _, q3, _⟩ := h.frame
        rw [hx] at q1; cases q1; rw [q3] at hg; cases hg
      · obtain ⟨u, hu, hi⟩ := mem_tableFrames_iff.mp hi
        have hU := h.table u hu
        have hgu : g = f ∨ g = u.anchor := by
          rcases hi with rfl | hi
          · obtain ⟨fr, q1, _, q3, _⟩ := hU.anchor
            rw [hx] at q1; cases q1; rw [q3] at hg; cases hg; exact .inl rfl
          · obtain ⟨c, hc, rfl⟩ := List.mem_map.mp hi
            obtain ⟨_, _, _, fr, q1, _, _, q4, _⟩ := hU.cell c hc
            rw [hx] at q1; cases q1
            rcases q4 with q4 | q4
            · rw [q4] at hg; cases hg; exact .inr rfl
            · rw [q4] at hg; cases hg
        rcases hgu with rfl | rfl
        · exact hd.1.1.2.2.1 hgt
        · rw [tables_at, List.mem_append, List.mem_cons] at hu
          rcases hu with hu | rfl | hu
          · exact hd.1.2.2.2 _ (mem_tableFrames_iff.mpr ⟨u, hu, .inl rfl⟩) _ (.inr (.inl hgt)) rfl
          · exact hd.1.2.2.1.1.1 hgt
          · exact hd.1.2.2.1.2.2.2 _ hgt _ (mem_tableFrames_iff.mpr ⟨u, hu, .inl rfl⟩) rfl)
  -- the paragraphs that go
  generalize hids : gs.flatMap s.frameBlocks = ids at *
  have hidsp : ids.Perm ((out.flatMap SCell.paras).map SPara.id) := by
    rw [← hids]
    refine (hgsp.flatMap_right _).trans ?_
    rw [List.flatMap_map, List.map_flatMap]
    exact flatMap_perm_of fun c hc => h.cellFrameBlocks ht ((hom c).mp hc).1
  have hflow : (flowParas (A ++ .table t :: B)).filter (fun p => !ids.contains p.id) = flowParas (A ++ .table (t.only keep) :: B) := by
    have hnd := hL.ids_nodup
    rw [flow_at, List.map_append, List.map_append, List.nodup_append, List.nodup_append] at hnd
    simp only [List.mem_append] at hnd
    have hidt : ∀ i ∈ ids, i ∈ (t.cells.flatMap SCell.paras).map SPara.id := by
      intro i hi
      obtain ⟨p, hp, rfl⟩ := List.mem_map.mp (hidsp.mem_iff.mp hi)
      obtain ⟨c, hc, hp⟩ := List.mem_flatMap.mp hp
      exact List.mem_map_of_mem (List.mem_flatMap.mpr ⟨c, ((hom c).mp hc).1, hp⟩)
    rw [flow_at, flow_at, List.filter_append, List.filter_append]
    congr 1
    · rw [List.filter_eq_self]
      intro p hp
      have : p.id ∉ ids := fun hi => hnd.2.2 _ (List.mem_map_of_mem hp) _ (.inl (hidt _ hi)) rfl
      simpa using this
    · congr 1
      · show _ = (t.cells.filter fun c => keep c.cell).flatMap SCell.paras
        have : ∀ l : List SCell, (∀ c ∈ l, c ∈ t.cells) →
            (l.flatMap SCell.paras).filter (fun p => !ids.contains p.id) = (l.filter fun c => keep c.cell).flatMap SCell.paras := by
          intro l
          induction l with
          | nil => intro _; rfl
          | cons c l ih =>
            intro hl
            rw [List.flatMap_cons, List.filter_append, ih fun x hx => hl x (by simp [hx])]
            have hct := hl c (by simp)
            cases hk : keep c.cell with
            | true =>
              rw [List.filter_cons_of_pos (p := fun c : SCell => keep c.cell) hk, List.flatMap_cons]
              congr 1
              rw [List.filter_eq_self]
              intro p hp
              have : p.id ∉ ids := by
                intro hi
                obtain ⟨q, hq, e⟩ := List.mem_map.mp (hidsp.mem_iff.mp hi)
                obtain ⟨c', hc', hq⟩ := List.mem_flatMap.mp hq
                obtain ⟨k1, k2⟩ := (hom c').mp hc'
                have := same_of_nodup_flatMap hnd.2.1.1 c' k1 c hct q hq p hp e
                rw [this, hk] at k2; cases k2
              simpa using this
            | false =>
              rw [List.filter_cons_of_neg (by simp [hk])]
              have : c.paras.filter (fun p => !ids.contains p.id) = [] := by
                rw [List.filter_eq_nil_iff]
                intro p hp
                have : p.id ∈ ids := hidsp.mem_iff.mpr (List.mem_map_of_mem (List.mem_flatMap.mpr ⟨c, (hom c).mpr ⟨hct, hk⟩, hp⟩))
                simpa using this
              rw [this, List.nil_append]
        exact this _ fun _ h => h
      · rw [List.filter_eq_self]
        intro p hp
        have : p.id ∉ ids := fun hi => hnd.2.1.2.2 _ (hidt _ hi) _ (List.mem_map_of_mem hp) rfl
        simpa using this
  obtain ⟨r, e2, hr⟩ := ropeRemoveBlocks_repr ids s1.text L (by rw [k.only]; exact hL.text) (by
      rw [hidsp.nodup_iff]
      refine List.Nodup.sublist ?_ hL.ids_nodup
      rw [flow_at, List.map_append, List.map_append]
      refine List.Sublist.trans ?_ (List.sublist_append_right _ _)
      refine List.Sublist.trans ?_ (List.sublist_append_left _ _)
      exact (sublist_flatMap hosub _).map _) hL.text.nodup (by
      intro i hi
      obtain ⟨p, hp, rfl⟩ := List.mem_map.mp (hidsp.mem_iff.mp hi)
      obtain ⟨c, hc, hp⟩ := List.mem_flatMap.mp hp
      have : p ∈ flowParas (A ++ .table t :: B) := mem_flowParas.mpr (.inr ⟨t, ht, List.mem_flatMap.mpr ⟨c, ((hom c).mp hc).1, hp⟩⟩)
      have h1 : ((.block p.id, p.text) : Para) ∈ L := hL.perm.mem_iff.mpr (List.mem_append_left _ (List.mem_map_of_mem this))
      exact List.mem_map_of_mem (f := Prod.fst) h1)
  have hsub' : (paras (topParas (A ++ .table (t.only keep) :: B))).Sublist
      (L.filter fun p => match p.1 with | .block i => !ids.contains i | .table _ => true) := by
    rw [top_at] at hsub ⊢
    have h1 := hsub.filter fun p : Para => match p.1 with | .block i => !ids.contains i | .table _ => true
    rw [List.filter_eq_self.mpr] at h1
    · exact h1
    · intro x hx
      unfold paras at hx
      obtain ⟨p, hp, rfl⟩ := List.mem_map.mp hx
      have : p.id ∉ ids := by
        intro hi
        obtain ⟨q, hq, e⟩ := List.mem_map.mp (hidsp.mem_iff.mp hi)
        obtain ⟨c, hc, hq⟩ := List.mem_flatMap.mp hq
        have hnd := ((flowParas_perm (A ++ .table t :: B)).map SPara.id).nodup_iff.mp hL.ids_nodup
        rw [List.map_append, List.nodup_append] at hnd
        refine hnd.2.2 p.id (List.mem_map_of_mem (by rw [top_at]; exact hp)) q.id (List.mem_map_of_mem ?_) e.symm
        exact List.mem_flatMap.mpr ⟨t, ht, List.mem_flatMap.mpr ⟨c, ((hom c).mp hc).1, hq⟩⟩
      simpa using this
  -- the records of the cells that go
  generalize hcs : gone.map TableCell.id = cs
  have hcsp : cs.Perm (out.map fun c => c.cell.id) := by
    rw [← hcs]
    refine (hg'.map _).trans (.of_eq ?_)
    rw [List.map_map]; rfl
  have hcsm : ∀ i, i ∈ cs ↔ ∃ c, c ∈ t.cells ∧ keep c.cell = false ∧ c.cell.id = i := by
    intro i
    rw [hcsp.mem_iff, List.mem_map]
    constructor
    · rintro ⟨c, hc, e⟩; exact ⟨c, ((hom c).mp hc).1, ((hom c).mp hc).2, e⟩
    · rintro ⟨c, h1, h2, e⟩; exact ⟨c, (hom c).mpr ⟨h1, h2⟩, e⟩
  have htab : s1.tables = s.tables := by rw [k.only]
  obtain ⟨s3, e3, o3, c3, t3⟩ : ∃ s3, (if gone = [] then some (s1.withText r) else (s1.withText r).removeCells cs) = some s3 ∧
      s3 = { s1.withText r with tableCells := s3.tableCells, tables := s3.tables } ∧
      (∀ i, s3.tableCells i = if i ∈ cs then none else s1.tableCells i) ∧
      (∀ i, s3.tables i = (s.tables i).map fun t => { t with cells := t.cells.filter fun c => !cs.contains c }) := by
    by_cases hgn : gone = []
    · rw [if_pos hgn]
      have : cs = [] := by rw [← hcs, hgn]; rfl
      refine ⟨_, rfl, rfl, by intro i; rw [this]; simp [Store.withText], ?_⟩
      intro i
      show s1.tables i = _
      rw [htab, this]
      cases hx : s.tables i with
      | none => rfl
      | some x => rw [Option.map_some, List.filter_eq_self.mpr (by simp)]
    · rw [if_neg hgn]
      obtain ⟨s3, q1, q2, q3, q4⟩ := removeCells_get (s := s1.withText r) (ids := cs) (by
          obtain ⟨c, hc⟩ := List.exists_mem_of_ne_nil _ hgn
          have hi : c.id ∈ cs := by rw [← hcs]; exact List.mem_map_of_mem hc
          refine ⟨c.id, hi, ?_⟩
          show (s1.tableCells c.id).isSome
          rw [k.cells]
          obtain ⟨c', h1, _, h3⟩ := (hcsm _).mp hi
          rw [← h3, (hT.cell c' h1).1]; rfl) (by
          intro i x hx c hc
          show (s1.tableCells c).isSome
          rw [k.cells]
          have hx : s.tables i = some x := by rw [← htab]; exact hx
          have hti := h.onlyTables i (by rw [hx]; rfl)
          obtain ⟨u, hu, rfl⟩ := List.mem_map.mp hti
          rw [(h.table u hu).table] at hx; cases hx
          obtain ⟨c', h1, rfl⟩ := List.mem_map.mp ((h.table u hu).cells.mem_iff.mp hc)
          rw [((h.table u hu).cell c' h1).1]; rfl)
      refine ⟨s3, q1, q2, q3, ?_⟩
      intro i
      rw [q4]
      show (s1.tables i).map _ = _
      rw [htab]
  have hf3 : s3.frames = s1.frames := by rw [o3]; rfl
  have hb3 : s3.blocks = s1.blocks := by rw [o3]; rfl
  have hd3 : s3.documents = s1.documents := by rw [o3]; rfl
  have hnx : ∀ key, s3.next key = s.next key := by
    intro key
    rw [o3]
    show s1.next key = _
    rw [k.only]; rfl
  have hkm : ∀ c, c ∈ (t.only keep).cells ↔ c ∈ t.cells ∧ keep c.cell = true := by
    intro c; exact List.mem_filter
  have hks : (t.only keep).cells.Sublist t.cells := List.filter_sublist
  -- frames and cells that stay
  have hfk : ∀ c, c ∈ (t.only keep).cells → c.frame ∉ gs := by
    intro c hc hm
    obtain ⟨c', h1, h2, h3⟩ := (hgsm _).mp hm
    have : c' = c := eq_of_nodup_map hnf h1 ((hkm c).mp hc).1 h3
    rw [this, ((hkm c).mp hc).2] at h2; cases h2
  have hck : ∀ c, c ∈ (t.only keep).cells → c.cell.id ∉ cs := by
    intro c hc hm
    obtain ⟨c', h1, h2, h3⟩ := (hcsm _).mp hm
    have : c' = c := eq_of_nodup_map hni h1 ((hkm c).mp hc).1 h3
    rw [this, ((hkm c).mp hc).2] at h2; cases h2
  have hcells : ∀ u ∈ tablesOf (A ++ .table t :: B), ∀ c ∈ u.cells, c.cell.id ∉ cs → (∀ g, c.cell.cellFrame = some g → g ∉ gs) →
      s3.tableCells c.cell.id = some c.cell := by
    intro u hu c hc h1 h2
    rw [c3, if_neg h1]
    exact k.cell _ _ ((h.table u hu).cell c hc).1 h2
  refine ⟨s3, d.frames.filter fun g => !gs.contains g, ?_, ?_, ?_, ?_⟩
  · unfold Store.dropCells
    simp only
    rw [hgs, hids, e1, Option.bind_some, e2, Option.bind_some, hcs]
    exact e3
  · apply h.replace (s' := s3) (t' := t.only keep) rfl rfl
    · rw [o3]; show s1.roots = _; rw [k.only]
    · rw [hd3, k.docs, h.document]; rfl
    · rfl
    · rfl
    · obtain ⟨rest, q1, q2⟩ := h.frames
      refine ⟨rest.filter fun g => !gs.contains g, ?_, ?_⟩
      · show d.frames.filter _ = _
        rw [q1, List.filter_cons_of_pos]
        have : f ∉ gs := fun hm => hd.1.1.2.2.1 (hgst f hm)
        simpa using this
      · refine (q2.filter _).trans (.of_eq ?_)
        rw [frames_at, frames_at, List.filter_append, List.filter_cons_of_pos, List.filter_append]
        · congr 1
          · rw [List.filter_eq_self]
            intro g hg
            have : g ∉ gs := fun hm => hd.1.2.2.2 g hg g (.inr (.inl (hgst g hm))) rfl
            simpa using this
          · congr 1
            congr 1
            · show _ = (t.cells.filter fun c => keep c.cell).map SCell.frame
              rw [List.filter_map]
              congr 1
              apply List.filter_congr
              intro c hc
              simp only [Function.comp]
              cases hk : keep c.cell with
              | true =>
                have := hfk c ((hkm c).mpr ⟨hc, hk⟩)
                simpa using this
              | false =>
                have := (hgsm c.frame).mpr ⟨c, hc, hk, rfl⟩
                simpa using this
            · rw [List.filter_eq_self]
              intro g hg
              have : g ∉ gs := fun hm => hd.1.2.2.1.2.2.2 g (hgst g hm) g hg rfl
              simpa using this
        · have : t.anchor ∉ gs := fun hm => hd.1.2.2.1.1.1 (hgst _ hm)
          simpa using this
    · refine ⟨_, ?_, hsub'⟩
      have hcar := hL.shrunk (s' := s3) (ids := ids) (by rw [o3]; exact hr) (by rw [hb3, ← hids]; exact k.blocks) (by
          rw [show s3.formatRuns = s1.formatRuns by rw [o3]; rfl, ← hids]; exact k.runs) (by
          rw [show s3.blockImages = s1.blockImages by rw [o3]; rfl, ← hids]; exact k.images) (hnx _)
      rw [hflow] at hcar
      rw [tables_at, List.map_append, List.map_cons] at hcar ⊢
      exact hcar
    · intro i h1 h2
      rw [hf3, k.frames, if_neg fun hm => h1 (hgst i hm)]
    · intro i h1 h2
      rw [hf3, k.frames, if_pos]
      obtain ⟨c, hc, rfl⟩ := List.mem_map.mp h1
      refine (hgsm _).mpr ⟨c, hc, ?_, rfl⟩
      cases hk : keep c.cell with
      | false => rfl
      | true => exact absurd (List.mem_map_of_mem ((hkm c).mpr ⟨hc, hk⟩)) h2
    · intro i h1 h2
      exact absurd ((hks.map _).subset h1) h2
    · intro i h1 h2
      rw [c3, if_neg]
      · cases hx : s.tableCells i with
        | none =>
          have := k.cells i
          rw [hx] at this
          cases hy : s1.tableCells i with
          | none => rfl
          | some y => rw [hy] at this; cases this
        | some c0 =>
          have hm := h.onlyCells i (by rw [hx]; rfl)
          obtain ⟨c, hc, rfl⟩ := List.mem_map.mp hm
          obtain ⟨u, hu, hcu⟩ := mem_cellsOf.mp hc
          have hc0 := ((h.table u hu).cell c hcu)
          rw [hc0.1] at hx; cases hx
          apply k.cell _ _ hc0.1
          intro g hg hgm
          rw [hc0.2.1] at hg
          cases hg
          have hgt := hgst _ hgm
          rw [tables_at, List.mem_append, List.mem_cons] at hu
          rcases hu with hu | rfl | hu
          · exact hd.1.2.2.2 _ (mem_tableFrames_iff.mpr ⟨u, hu, .inr (List.mem_map_of_mem hcu)⟩) _ (.inr (.inl hgt)) rfl
          · exact h1 (List.mem_map_of_mem (f := fun c : SCell => c.cell.id) hcu)
          · exact hd.1.2.2.1.2.2.2 _ hgt _ (mem_tableFrames_iff.mpr ⟨u, hu, .inr (List.mem_map_of_mem hcu)⟩) rfl
      · intro hm
        obtain ⟨c, hc, _, rfl⟩ := (hcsm _).mp hm
        exact h1 (List.mem_map_of_mem (f := fun c : SCell => c.cell.id) hc)
    · intro i h1 h2
      rw [c3, if_pos]
      obtain ⟨c, hc, rfl⟩ := List.mem_map.mp h1
      refine (hcsm _).mpr ⟨c, hc, ?_, rfl⟩
      cases hk : keep c.cell with
      | false => rfl
      | true => exact absurd (List.mem_map_of_mem (f := fun c : SCell => c.cell.id) ((hkm c).mpr ⟨hc, hk⟩)) h2
    · intro i h1 h2
      exact absurd ((hks.map _).subset h1) h2
    · intro i hi
      rw [t3]
      cases hx : s.tables i with
      | none => rfl
      | some x =>
        rw [Option.map_some, List.filter_eq_self.mpr]
        intro j hj
        have hti := h.onlyTables i (by rw [hx]; rfl)
        obtain ⟨u, hu, rfl⟩ := List.mem_map.mp hti
        rw [(h.table u hu).table] at hx; cases hx
        have hju := (h.table u hu).cells.mem_iff.mp hj
        obtain ⟨c, hc, rfl⟩ := List.mem_map.mp hju
        have : c.cell.id ∉ cs := by
          intro hm
          obtain ⟨c', hc', _, e⟩ := (hcsm _).mp hm
          rw [tables_at, List.mem_append, List.mem_cons] at hu
          rcases hu with hu | rfl | hu
          · exact hd.2.2.2 _ (List.mem_map_of_mem (f := fun c : SCell => c.cell.id) (mem_cellsOf.mpr ⟨u, hu, hc⟩)) _
              (.inl (List.mem_map_of_mem (f := fun c : SCell => c.cell.id) hc')) e.symm
          · exact hi rfl
          · exact hd.2.2.1.2.2 _ (List.mem_map_of_mem (f := fun c : SCell => c.cell.id) hc') _
              (List.mem_map_of_mem (f := fun c : SCell => c.cell.id) (mem_cellsOf.mpr ⟨u, hu, hc⟩)) e
        simpa using this
    · rw [t3, hT.table, Option.map_some]
      congr 1
      unfold STable.only
      simp only
      congr 1
      apply List.filter_congr
      intro i _
      rw [hout]
      congr 1
      rw [Bool.eq_iff_iff, List.contains_iff_mem, List.contains_iff_mem, hcsp.mem_iff]
    · show (t.table.cells.filter _).Perm ((t.cells.filter fun c => keep c.cell).map fun c => c.cell.id)
      refine (hT.cells.filter _).trans (.of_eq ?_)
      rw [List.filter_map]
      congr 1
      apply List.filter_congr
      intro c hc
      simp only [Function.comp]
      rw [hout]
      cases hk : keep c.cell with
      | true =>
        have := hck c ((hkm c).mpr ⟨hc, hk⟩)
        rw [hcsp.mem_iff] at this
        simpa using this
      | false =>
        have := (hcsm c.cell.id).mpr ⟨c, hc, hk, rfl⟩
        rw [hcsp.mem_iff] at this
        simpa using this
    · exact hT.order.sublist hks
    · exact hnf.sublist (hks.map _)
    · exact hni.sublist (hks.map _)
    · intro c hc
      obtain ⟨h1, h2⟩ := (hkm c).mp hc
      obtain ⟨q1, q2, q3, fr, q4⟩ := hT.cell c h1
      refine ⟨?_, q2, q3, fr, ?_, q4.2⟩
      · apply hcells t ht c h1 (hck c hc)
        intro g hg
        rw [q2] at hg; cases hg
        exact hfk c hc
      · rw [hf3, k.frames, if_neg (hfk c hc)]; exact q4.1
    · rw [hnx]; exact Nat.le_refl _
    · rw [hnx]; exact Nat.le_refl _
    · rw [hnx]; exact Nat.le_refl _
    · intro c hc
      obtain ⟨h1, h2⟩ := (hkm c).mp hc
      obtain ⟨q1, q2, q3, fr, q4⟩ := hT.cell c h1
      have w1 := h.freshFrames c.frame (by rw [q4.1]; rfl)
      have w2 := h.freshCells c.cell.id (by rw [q1]; rfl)
      rw [hnx, hnx]
      exact ⟨w1.1, w1.2, w2⟩
    · intro c hc p hp
      exact h.positive p (by
        rw [flow_at]; simp only [List.mem_append, List.mem_flatMap]; exact .inr (.inl ⟨c, ((hkm c).mp hc).1, hp⟩))
  · rw [o3]; show s1.lists = _; rw [k.only]
  · intro q hq
    rw [← hflow] at hq
    have hq2 : q.id ∉ ids := by simpa using (List.mem_filter.mp hq).2
    rw [hb3, k.blocks, hids, if_neg hq2]

end Verif
