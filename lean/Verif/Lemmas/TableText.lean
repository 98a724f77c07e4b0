import Verif.Lemmas.TableMake
import Verif.Lemmas.RopeOps
/- The text of a table: where new cells go, and what is put there. -/
namespace Verif
variable {s s' : Store} {d : Document} {f : Nat}
open Store

theorem Repr.range {st : RopeSt} {L : List Para} (h : Repr st L) (m : Marker) :
    ∃ r, st.idx.rangeOf m = some r ∧ ∀ x, r = some x → x.2 ≤ st.idx.total := by
  by_cases hm : m ∈ L.map Prod.fst
  · obtain ⟨⟨m', c⟩, hx, rfl⟩ := List.mem_map.mp hm
    obtain ⟨A, B, rfl⟩ := List.append_of_mem hx
    have f := h.focus
    refine ⟨_, f.rangeOf, ?_⟩
    intro x e
    cases e
    rw [f.total]
    cases B with
    | nil => simp
    | cons b B => simp [span]; omega
  · refine ⟨none, ?_, by intro x e; cases e⟩
    unfold Index.rangeOf
    have : st.idx.pos m = none := by
      cases e : st.idx.pos m with
      | none => rfl
      | some i =>
        have h1 := (h.cache.pos m i).mp e
        rw [h.starts] at h1
        have h2 : m ∈ (layout 0 L).map Prod.fst := by
          rw [List.mem_iff_getElem?]
          exact ⟨i, by rw [List.getElem?_map]; exact h1⟩
        rw [layout_keys] at h2
        exact absurd h2 hm
    rw [this]

/-- The range of an entry of the text. -/
theorem Repr.range_of_mem {st : RopeSt} {L : List Para} (h : Repr st L) {x : Para} (hx : x ∈ L) :
    ∃ r, st.idx.rangeOf x.1 = some (some r) := by
  obtain ⟨A, B, rfl⟩ := List.append_of_mem hx
  obtain ⟨m, c⟩ := x
  exact ⟨_, h.focus.rangeOf⟩

theorem Repr.range_last {st : RopeSt} {A : List Para} {x : Para} (h : Repr st (A ++ [x])) :
    ∃ n, st.idx.rangeOf x.1 = some (some (n, st.idx.total)) := by
  obtain ⟨m, c⟩ := x
  have f := h.focus
  refine ⟨span A, ?_⟩
  rw [f.rangeOf, f.total]
  simp

theorem foldl_max_le (rs : List (Nat × Nat)) (m t : Nat) (hm : m ≤ t) (h : ∀ r ∈ rs, r.2 ≤ t) :
    rs.foldl (fun m r => max m r.2) m ≤ t := by
  induction rs generalizing m with
  | nil => exact hm
  | cons r rs ih =>
    exact ih _ (by have := h r (by simp); show max m r.2 ≤ t; omega) fun x hx => h x (by simp [hx])

theorem le_foldl_max (rs : List (Nat × Nat)) (m : Nat) : m ≤ rs.foldl (fun m r => max m r.2) m := by
  induction rs generalizing m with
  | nil => exact Nat.le_refl _
  | cons r rs ih => exact Nat.le_trans (by omega) (ih (max m r.2))

theorem mem_le_foldl_max (rs : List (Nat × Nat)) (m : Nat) {x : Nat × Nat} (h : x ∈ rs) :
    x.2 ≤ rs.foldl (fun m r => max m r.2) m := by
  induction rs generalizing m with
  | nil => simp at h
  | cons r rs ih =>
    rcases List.mem_cons.mp h with rfl | h
    · exact Nat.le_trans (by omega) (le_foldl_max rs (max m x.2))
    · exact ih _ h

theorem mapOpt_exists {α β : Type} {g : α → Option β} {P : α → β → Prop} (l : List α)
    (h : ∀ x ∈ l, ∃ y, g x = some y ∧ P x y) :
    ∃ ys, mapOpt g l = some ys ∧ (∀ x ∈ l, ∃ y ∈ ys, P x y) ∧ ∀ y ∈ ys, ∃ x ∈ l, P x y := by
  induction l with
  | nil => exact ⟨[], rfl, by simp, by simp⟩
  | cons x l ih =>
    obtain ⟨y, h1, h2⟩ := h x (by simp)
    obtain ⟨ys, e, k1, k2⟩ := ih fun z hz => h z (by simp [hz])
    refine ⟨y :: ys, by simp [mapOpt, h1, e], ?_, ?_⟩
    · intro z hz
      rcases List.mem_cons.mp hz with rfl | hz
      · exact ⟨y, by simp, h2⟩
      · obtain ⟨w, hw, hp⟩ := k1 z hz
        exact ⟨w, by simp [hw], hp⟩
    · intro w hw
      rcases List.mem_cons.mp hw with rfl | hw
      · exact ⟨x, by simp, h2⟩
      · obtain ⟨z, hz, hp⟩ := k2 w hw
        exact ⟨z, by simp [hz], hp⟩

/-- `rs` are ranges of the text: they lie in it, and the entries `ms` are among them. -/
def Covers (s : Store) (rs : List (Nat × Nat)) (ms : List Marker) : Prop :=
  (∀ r ∈ rs, r.2 ≤ s.text.idx.total) ∧ ∀ m ∈ ms, ∀ r, s.text.idx.rangeOf m = some (some r) → r ∈ rs

theorem ranges_of {L : List Para} (h : Repr s.text L) (ms : List Marker) :
    ∃ own, mapOpt (fun m => s.text.idx.rangeOf m) ms = some own ∧ Covers s (own.filterMap id) ms := by
  obtain ⟨ys, e, k1, k2⟩ := mapOpt_exists (g := fun m => s.text.idx.rangeOf m)
    (P := fun m y => s.text.idx.rangeOf m = some y) ms fun m _ => by
      obtain ⟨r, e, _⟩ := h.range m
      exact ⟨r, e, e⟩
  refine ⟨ys, e, ?_, ?_⟩
  · intro r hr
    simp only [List.mem_filterMap, id] at hr
    obtain ⟨y, hy, rfl⟩ := hr
    obtain ⟨m, _, hm⟩ := k2 _ hy
    obtain ⟨r', e', k⟩ := h.range m
    rw [hm] at e'; cases e'
    exact k r rfl
  · intro m hm r hr
    obtain ⟨y, hy, e⟩ := k1 m hm
    rw [hr] at e; cases e
    simp only [List.mem_filterMap, id]
    exact ⟨_, hy, rfl⟩

theorem mapOpt_comp {α β γ : Type} (g : β → Option γ) (k : α → β) (l : List α) :
    mapOpt (fun x => g (k x)) l = mapOpt g (l.map k) := by
  induction l with
  | nil => rfl
  | cons x l ih => simp [mapOpt, ih]

theorem Covers.append {rs rs' : List (Nat × Nat)} {ms ms' : List Marker} (h : Covers s rs ms) (h' : Covers s rs' ms') :
    Covers s (rs ++ rs') (ms ++ ms') := by
  constructor
  · intro r hr
    rcases List.mem_append.mp hr with hr | hr
    · exact h.1 r hr
    · exact h'.1 r hr
  · intro m hm r hr
    rcases List.mem_append.mp hm with hm | hm
    · exact List.mem_append_left _ (h.2 m hm r hr)
    · exact List.mem_append_right _ (h'.2 m hm r hr)

theorem Covers.flatten {α : Type} {g : α → Option (List (Nat × Nat))} {mk : α → List Marker} (l : List α)
    (h : ∀ x ∈ l, ∃ rs, g x = some rs ∧ Covers s rs (mk x)) :
    ∃ ys, mapOpt g l = some ys ∧ Covers s ys.flatten (l.flatMap mk) := by
  obtain ⟨ys, e, k1, k2⟩ := mapOpt_exists (P := fun x rs => Covers s rs (mk x)) l h
  refine ⟨ys, e, ?_, ?_⟩
  · intro r hr
    obtain ⟨rs, hrs, hr⟩ := List.mem_flatten.mp hr
    obtain ⟨x, _, hx⟩ := k2 rs hrs
    exact hx.1 r hr
  · intro m hm r hr
    obtain ⟨x, hx, hm⟩ := List.mem_flatMap.mp hm
    obtain ⟨rs, hrs, k⟩ := k1 x hx
    exact List.mem_flatten.mpr ⟨rs, hrs, k.2 m hm r hr⟩

theorem frameRanges_leaf {L : List Para} (h : Repr s.text L) {g : Nat} {fr : Frame} (hf : s.frames g = some fr)
    (ht : fr.table = none) (hc : ∀ e ∈ fr.childOrder, 0 ≤ e) (k : Nat) :
    ∃ rs, s.frameRanges (k + 1) g = some rs ∧ Covers s rs (fr.blocks.map Marker.block) := by
  obtain ⟨own, e1, c1⟩ := ranges_of h (fr.blocks.map Marker.block)
  have e1' : mapOpt (fun b => s.blockOffsets.rangeOf (.block b)) fr.blocks = some own := by
    rw [mapOpt_comp (fun m => s.blockOffsets.rangeOf m) Marker.block]; exact e1
  obtain ⟨ys, e2, c2⟩ := Covers.flatten (s := s) (mk := fun _ : Int => []) (g := fun e : Int =>
    if e < 0 then s.frameRanges k (-e).toNat else some []) fr.childOrder fun e he =>
      ⟨[], if_neg (by have := hc e he; omega), by intro r hr; simp at hr, by intro m hm; simp at hm⟩
  unfold Store.frameRanges
  rw [hf]
  simp only [e1', Option.bind_some, ht, Option.toList_none, mapOpt, e2, List.flatMap_nil, Store.getCells, List.filterMap_nil,
    Option.map_some, List.flatten_nil, List.append_nil]
  refine ⟨_, rfl, ?_⟩
  have := c1.append c2
  rw [show fr.childOrder.flatMap (fun _ : Int => ([] : List Marker)) = [] by
    rw [List.flatMap_eq_nil_iff]; intros; rfl, List.append_nil] at this
  exact this

theorem getCells_map {cs : List SCell} (h : ∀ c ∈ cs, s.tableCells c.cell.id = some c.cell) :
    s.getCells (cs.map fun c => c.cell.id) = cs.map SCell.cell := by
  unfold Store.getCells
  rw [List.filterMap_map]
  induction cs with
  | nil => rfl
  | cons c cs ih =>
    have h1 : ((fun i => s.tableCells i) ∘ fun c : SCell => c.cell.id) c = some c.cell := h c (by simp)
    rw [List.filterMap_cons_some h1, ih fun x hx => h x (by simp [hx])]
    rfl

theorem ShowsTable.getCells {t : STable} (h : ShowsTable s f t) :
    (s.getCells (s.tableCellIds t.table.id)).Perm (t.cells.map SCell.cell) := by
  have e : s.tableCellIds t.table.id = t.table.cells := by simp [Store.tableCellIds, h.table]
  rw [e, ← getCells_map fun c hc => (h.cell c hc).1]
  exact h.cells.filterMap _

theorem ShowsTable.cellFrames {t : STable} (h : ShowsTable s f t) :
    ((s.getCells (s.tableCellIds t.table.id)).filterMap TableCell.cellFrame).Perm (t.cells.map SCell.frame) := by
  refine (h.getCells.filterMap _).trans (.of_eq ?_)
  rw [List.filterMap_map]
  have : ∀ cs : List SCell, (∀ c ∈ cs, c ∈ t.cells) →
      cs.filterMap (TableCell.cellFrame ∘ SCell.cell) = cs.map SCell.frame := by
    intro cs
    induction cs with
    | nil => intro _; rfl
    | cons c cs ih =>
      intro hc
      have h1 : (TableCell.cellFrame ∘ SCell.cell) c = some c.frame := (h.cell c (hc c (by simp))).2.1
      rw [List.filterMap_cons_some h1, ih fun x hx => hc x (by simp [hx])]
      rfl
  exact this t.cells fun c hc => hc

/-- The markers of a table in the text. -/
def tableMarkers (t : STable) : List Marker :=
  .table t.table.id :: (t.cells.flatMap SCell.paras).map fun p => .block p.id

theorem frameRanges_table {L : List Para} (h : Repr s.text L) {t : STable} (ht : ShowsTable s f t) (k : Nat) :
    ∃ rs, s.frameRanges (k + 2) t.anchor = some rs ∧ Covers s rs (tableMarkers t) := by
  obtain ⟨fr, a1, a2, a3, a4, a5, a6⟩ := ht.anchor
  obtain ⟨own, e1, c1⟩ := ranges_of h [.table t.table.id]
  have e1' : mapOpt (fun t => s.blockOffsets.rangeOf (.table t)) [t.table.id] = some own := by
    rw [mapOpt_comp (fun m => s.blockOffsets.rangeOf m) Marker.table]; exact e1
  obtain ⟨ys, e2, c2⟩ := Covers.flatten (s := s) (g := s.frameRanges (k + 1))
    (mk := fun g => (s.frameBlocks g).map Marker.block)
    ((s.getCells (s.tableCellIds t.table.id)).filterMap TableCell.cellFrame) (by
      intro g hg
      obtain ⟨c, hc, rfl⟩ := List.mem_map.mp (ht.cellFrames.mem_iff.mp hg)
      obtain ⟨_, _, _, cf, k1, k2, k3, k4, k5, k6⟩ := ht.cell c hc
      obtain ⟨rs, e, cv⟩ := frameRanges_leaf h k1 k3 (by
        intro e he
        rw [k5] at he
        obtain ⟨p, _, rfl⟩ := List.mem_map.mp he
        omega) k
      refine ⟨rs, e, ?_⟩
      simpa [Store.frameBlocks, k1] using cv)
  unfold Store.frameRanges
  rw [a1]
  simp only [a4, a5, a6, mapOpt, Option.bind_some, Option.toList_some, List.flatMap_cons, List.flatMap_nil,
    List.append_nil]
  rw [show s.tableCellIds t.table.id = s.tableCellIds t.table.id from rfl]
  rw [e2]
  have e1'' : s.blockOffsets.rangeOf (.table t.table.id) = some (own.headD none) ∧ own = [own.headD none] := by
    simp only [mapOpt, Option.bind_eq_some_iff, Option.map_eq_some_iff] at e1'
    cases hq : s.blockOffsets.rangeOf (.table t.table.id) with
    | none => simp [hq] at e1'
    | some x => simp [hq] at e1'; subst e1'; simp
  rw [e1''.1]
  simp only [Option.bind_some, Option.map_some, List.filterMap_nil, List.nil_append, List.flatten_nil]
  refine ⟨_, rfl, ?_⟩
  have c3 := c1.append c2
  rw [e1''.2] at c3
  refine ⟨?_, ?_⟩
  · have := c3.1; simpa using this
  · intro m hm r hr
    have : m ∈ [Marker.table t.table.id] ++ ((s.getCells (s.tableCellIds t.table.id)).filterMap TableCell.cellFrame).flatMap
        fun g => (s.frameBlocks g).map Marker.block := by
      simp only [tableMarkers, List.mem_cons] at hm
      rcases hm with rfl | hm
      · simp
      · refine List.mem_append_right _ ?_
        obtain ⟨p, hp, rfl⟩ := List.mem_map.mp hm
        obtain ⟨c, hc, hp⟩ := List.mem_flatMap.mp hp
        refine List.mem_flatMap.mpr ⟨c.frame, ht.cellFrames.mem_iff.mpr (List.mem_map_of_mem hc), ?_⟩
        obtain ⟨_, _, _, cf, k1, k2, k3, k4, k5, k6⟩ := ht.cell c hc
        simp only [Store.frameBlocks, k1, Option.map_some, Option.getD_some]
        exact List.mem_map_of_mem (k6.mem_iff.mpr (List.mem_map_of_mem hp))
    have := c3.2 m this r hr
    simpa using this

theorem mem_flowParas {items : List SItem} {p : SPara} : p ∈ flowParas items ↔
    p ∈ topParas items ∨ ∃ t ∈ tablesOf items, p ∈ t.cells.flatMap SCell.paras := by
  unfold flowParas topParas tablesOf
  simp only [List.mem_flatMap]
  constructor
  · rintro ⟨x, hx, hp⟩
    cases x with
    | para q => exact .inl ⟨_, hx, hp⟩
    | table t => exact .inr ⟨t, ⟨_, hx, by simp⟩, by simpa [SItem.paras] using hp⟩
  · rintro (⟨x, hx, hp⟩ | ⟨t, ⟨x, hx, ht⟩, hp⟩)
    · cases x with
      | para q => exact ⟨_, hx, hp⟩
      | table t => simp at hp
    · cases x with
      | para q => simp at ht
      | table t' =>
        simp only [List.mem_singleton] at ht; subst ht
        exact ⟨_, hx, by simpa [SItem.paras] using hp⟩

theorem mem_topParas {items : List SItem} {p : SPara} : p ∈ topParas items ↔ SItem.para p ∈ items := by
  unfold topParas
  simp only [List.mem_flatMap]
  constructor
  · rintro ⟨x, hx, hp⟩
    cases x with
    | para q => simp only [List.mem_singleton] at hp; subst hp; exact hx
    | table t => simp at hp
  · intro h; exact ⟨_, h, by simp⟩

theorem mem_tablesOf {items : List SItem} {t : STable} : t ∈ tablesOf items ↔ SItem.table t ∈ items := by
  unfold tablesOf
  simp only [List.mem_flatMap]
  constructor
  · rintro ⟨x, hx, hp⟩
    cases x with
    | table q => simp only [List.mem_singleton] at hp; subst hp; exact hx
    | para t => simp at hp
  · intro h; exact ⟨_, h, by simp⟩

/-- Everything in the text lies in the main frame, so that its end is the end of the text. -/
theorem topLevelFrameEnd_main {L : List Para} {items items0 : List SItem} {fr : Frame} (h : Repr s.text L)
    (hL : L ≠ []) (hm : ∀ x ∈ L, (∃ p ∈ flowParas items, x.1 = .block p.id) ∨ ∃ t ∈ tablesOf items, x.1 = .table t.table.id)
    (hf : s.frames f = some fr) (hp : fr.parentFrame = none) (hft : fr.table = none)
    (hc : fr.childOrder = items0.map SItem.entry) (h0 : tablesOf items0 = tablesOf items) (hb : fr.blocks.Perm ((topParas items).map SPara.id))
    (ht : ∀ t ∈ tablesOf items, ShowsTable s f t ∧ 0 < t.anchor) (hlen : 2 ≤ s.frames.len ∨ tablesOf items = []) :
    s.topLevelFrameEnd f = some s.text.idx.total := by
  obtain ⟨own, e1, c1⟩ := ranges_of h (fr.blocks.map Marker.block)
  have e1' : mapOpt (fun b => s.blockOffsets.rangeOf (.block b)) fr.blocks = some own := by
    rw [mapOpt_comp (fun m => s.blockOffsets.rangeOf m) Marker.block]; exact e1
  obtain ⟨ys, e2, c2⟩ := Covers.flatten (s := s)
    (g := fun x : SItem => if x.entry < 0 then s.frameRanges s.frames.len (-x.entry).toNat else some [])
    (mk := fun | .para _ => [] | .table t => tableMarkers t) items0 (by
      intro x hx
      cases x with
      | para p =>
        refine ⟨[], if_neg (by show ¬ ((p.id : Nat) : Int) < 0; omega), by intro r hr; simp at hr, by intro m hm; simp at hm⟩
      | table t =>
        have htm := h0 ▸ mem_tablesOf.mpr hx
        obtain ⟨h1, h2⟩ := ht t htm
        rw [if_pos (show (SItem.table t).entry < 0 by show -(t.anchor : Int) < 0; omega),
          show (-(SItem.table t).entry).toNat = t.anchor by show (- -(t.anchor : Int)).toNat = t.anchor; omega]
        rcases hlen with hlen | hlen
        · obtain ⟨k, hk⟩ : ∃ k, s.frames.len = k + 2 := ⟨s.frames.len - 2, by omega⟩
          rw [hk]
          exact frameRanges_table h h1 k
        · rw [hlen] at htm; simp at htm)
  have e2' : mapOpt (fun e : Int => if e < 0 then s.frameRanges s.frames.len (-e).toNat else some []) (items0.map SItem.entry) =
      some ys := by rw [← mapOpt_comp]; exact e2
  unfold Store.topLevelFrameEnd
  have htop : s.topFrame (s.frames.len + 1) f = some (some f) := by
    unfold Store.topFrame; rw [hf]; simp only [hp]
  rw [htop, Option.bind_some]
  simp only
  unfold Store.frameRanges
  rw [hf]
  simp only [e1', Option.bind_some, hft, Option.toList_none, mapOpt, hc, e2', List.flatMap_nil, Store.getCells,
    List.filterMap_nil, Option.map_some, List.flatten_nil, List.append_nil]
  have cv := c1.append c2
  congr 1
  apply Nat.le_antisymm
  · exact foldl_max_le _ _ _ (Nat.zero_le _) (by simpa using cv.1)
  · have hlast : L = L.dropLast ++ [L.getLast hL] := (List.dropLast_concat_getLast hL).symm
    generalize L.getLast hL = x at hlast
    generalize L.dropLast = A at hlast
    subst hlast
    obtain ⟨n, hn⟩ := h.range_last
    have hxm : x.1 ∈ fr.blocks.map Marker.block ++ items0.flatMap fun | .para _ => [] | .table t => tableMarkers t := by
      rcases hm x (by simp) with ⟨p, hp, e⟩ | ⟨t, ht', e⟩
      · rw [e]
        rcases mem_flowParas.mp hp with hp | ⟨t, ht', hp⟩
        · exact List.mem_append_left _ (List.mem_map_of_mem (hb.mem_iff.mpr (List.mem_map_of_mem hp)))
        · refine List.mem_append_right _ (List.mem_flatMap.mpr ⟨_, mem_tablesOf.mp (h0.symm ▸ ht'), ?_⟩)
          simp only [tableMarkers, List.mem_cons]
          exact .inr (List.mem_map.mpr ⟨p, hp, rfl⟩)
      · rw [e]
        refine List.mem_append_right _ (List.mem_flatMap.mpr ⟨_, mem_tablesOf.mp (h0.symm ▸ ht'), ?_⟩)
        simp [tableMarkers]
    have := cv.2 x.1 hxm _ hn
    have := mem_le_foldl_max _ 0 this
    simpa using this

/-- New empty paragraphs at the end of the text. -/
theorem ropeInsertEmpty_repr (bs : List Nat) : ∀ {st : RopeSt} {L : List Para}, Repr st L → L ≠ [] → bs.Nodup →
    (∀ b ∈ bs, Marker.block b ∉ L.map Prod.fst) →
    ∃ st', ropeInsertEmpty st.idx.total bs st = some st' ∧ Repr st' (L ++ bs.map fun b => (.block b, [])) := by
  induction bs with
  | nil => intro st L h _ _ _; exact ⟨st, rfl, by simpa using h⟩
  | cons b bs ih =>
    intro st L h hL hn hnew
    have hlast : L = L.dropLast ++ [L.getLast hL] := (List.dropLast_concat_getLast hL).symm
    generalize L.getLast hL = x at hlast
    generalize L.dropLast = A at hlast
    subst hlast
    obtain ⟨m, c⟩ := x
    obtain ⟨st1, e1, h1⟩ := insertBlockAt_repr (new := b) [] h (hnew b (by simp))
    have ht : st.idx.total = span A + utf8Len c := by rw [h.focus.total]; simp
    have h1' : Repr st1 ((A ++ [(m, c)]) ++ [(.block b, [])]) := by simpa using h1
    have ht1 : st1.idx.total = st.idx.total + 1 := by
      rw [h1'.focus.total, ht]; simp; omega
    rw [List.nodup_cons] at hn
    obtain ⟨st', e2, h2⟩ := ih h1' (by simp) hn.2 (by
      intro b' hb' hm
      rw [List.map_append, List.mem_append] at hm
      rcases hm with hm | hm
      · exact hnew b' (by simp [hb']) hm
      · simp only [List.map_cons, List.map_nil, List.mem_singleton, Marker.block.injEq] at hm
        subst hm; exact hn.1 hb')
    refine ⟨st', ?_, by simpa using h2⟩
    unfold Store.ropeInsertEmpty
    rw [ht, e1, Option.bind_some, ← ht, ← ht1, e2]

end Verif
