import Verif.Props.Reading
import Verif.Spec.TableReading
import Verif.Lemmas.TableEdge
/- What handles, the flow and snapshots show of a document with tables. -/
namespace Verif
variable {s : Store} {d : Document} {f g : Nat} {p : SPara} {items : List SItem} {t : STable} {c : SCell}
  {cell : Option (Nat × Int × Int)}
open Store

theorem Tabled.mainFrame (h : Tabled s d f items) : s.mainFrame = f := by
  obtain ⟨rest, r1, _⟩ := h.frames
  unfold Store.mainFrame Store.docFrames
  rw [h.docIdOf, Option.bind_some, h.document, Option.map_some, Option.getD_some, r1]; rfl

theorem flatMap_all {α β : Type} {u v : α → List β} : ∀ {l : List α}, (∀ x ∈ l, u x = v x) → l.flatMap u = l.flatMap v
  | [], _ => rfl
  | x :: l, h => by
    rw [List.flatMap_cons, List.flatMap_cons, h x (List.mem_cons_self ..), flatMap_all fun y hy => h y (List.mem_cons_of_mem _ hy)]

theorem ids_flatMap (ps : List SPara) : (ps.flatMap fun p => [p.id]) = ps.map SPara.id := by
  induction ps with
  | nil => rfl
  | cons p ps ih => rw [List.flatMap_cons, ih]; rfl

theorem collectFrame_leaf {fr : Frame} {ps : List SPara} (k : Nat) (hf : s.frames g = some fr)
    (hc : fr.childOrder = ps.map fun p => (p.id : Int)) (hne : ps ≠ []) (hpos : ∀ p ∈ ps, 0 < p.id) :
    s.collectFrameIds (k + 1) g = some (ps.map SPara.id) := by
  rw [Store.collectFrameIds, hf, Option.map_some, if_neg (by rw [hc]; simpa using hne), hc, List.flatMap_map,
    ← ids_flatMap]
  congr 1
  apply flatMap_all
  intro p hp
  have := hpos p hp
  rw [if_pos (by omega)]; simp

theorem Tabled.collectFrame (h : Tabled s d f items) :
    s.collectFrameIds (s.frames.len + 1) f = some ((flowParas items).map SPara.id) := by
  obtain ⟨fr, h1, h2, h3, h4, h5, h6, h7⟩ := h.frame
  have hlen : 0 < s.frames.len := by
    have : f ∈ s.frames.keys := (s.frames.mem f).mpr (by rw [h1]; rfl)
    unfold IdMap.len
    exact List.length_pos_of_mem this
  obtain ⟨k, hk⟩ : ∃ k, s.frames.len = k + 1 := ⟨s.frames.len - 1, by omega⟩
  have hne : items ≠ [] := by
    intro e; have := h.nonempty; rw [e] at this; exact this rfl
  rw [hk, Store.collectFrameIds, h1, Option.map_some, if_neg (by rw [h6]; simpa using hne), h6, List.flatMap_map]
  congr 1
  rw [flatMap_all (v := fun it : SItem => it.paras.map SPara.id)]
  · simp [flowParas, List.map_flatMap, Function.comp_def]
  · intro it hit
    generalize he : it.entry = e
    cases it with
    | para p =>
      have := h.positive p (mem_flowParas.mpr (.inl (mem_topParas.mpr hit)))
      simp only [SItem.entry] at he
      simp only [SItem.paras]
      rw [if_pos (by omega), ← he]
      simp
    | table t =>
      have ht := h.table t (mem_tablesOf.mpr hit)
      obtain ⟨fr', a1, a2, a3, a4, a5, a6⟩ := ht.anchor
      have hpos := (h.freshFrames t.anchor (by rw [a1]; rfl)).1
      simp only [SItem.entry] at he
      simp only [SItem.paras]
      have he' : (-e).toNat = t.anchor := by omega
      rw [if_neg (by omega), if_pos (by omega), he', a1]
      dsimp only
      rw [a6]
      dsimp only
      rw [ht.tableCellFrames, List.flatMap_map, List.map_flatMap]
      apply flatMap_all
      intro c hc
      obtain ⟨c1, c2, c3, fr2, c4, c5, c6, c7, c8, c9⟩ := ht.cell c hc
      rw [collectFrame_leaf k c4 c8 c3 fun p hp => h.positive p (mem_flowParas.mpr (.inr ⟨t, mem_tablesOf.mpr hit,
        List.mem_flatMap.mpr ⟨c, hc, hp⟩⟩))]
      rfl

theorem Tabled.visible (h : Tabled s d f items) : Visible s (flowParas items) := by
  obtain ⟨L, hH, _⟩ := h.content
  refine ⟨h.reads, hH.ids_nodup, hH.keys, ?_, by rw [h.mainFrame]; exact h.collectFrame⟩
  intro n p b hn hb
  by_cases ht : tablesOf items = []
  · exact (h.flat ht).visible.refresh hn hb
  · obtain ⟨b', e1, e2⟩ := h.seated ht n p hn
    rw [hb] at e1; cases e1
    obtain ⟨b', e3, e4⟩ := hH.block p (List.mem_of_getElem? hn)
    rw [hb] at e3; cases e3
    unfold Store.refreshBlock
    rw [if_neg (by rw [hH.matchFlow]; simpa using ht), ← e2]
    exact e4

/-- The place of a paragraph. -/
theorem Tabled.home (h : Tabled s d f items) (hh : HomeOf items f p g cell) :
    s.parentFrame p.id = some g ∧ s.tableCellOf p.id = cell ∧ (if s.tables.keys = [] then none else s.tableCellOf p.id) = cell := by
  rcases hh with ⟨hp, rfl, rfl⟩ | ⟨t, ht, c, hc, hp, rfl, rfl⟩
  · refine ⟨h.parentFrame_top hp, h.tableCellOf_top hp, ?_⟩
    rw [h.tableCellOf_top hp]; simp
  · refine ⟨h.parentFrame_cell ht hc hp, h.tableCellOf_cell ht hc hp, ?_⟩
    rw [if_neg, h.tableCellOf_cell ht hc hp]
    intro e
    have : t.table.id ∈ s.tables.keys := (s.tables.mem _).mpr (by rw [(h.table t ht).table]; rfl)
    rw [e] at this; cases this

theorem home_exists (hp : p ∈ flowParas items) : ∃ g cell, HomeOf items f p g cell := by
  rcases mem_flowParas.mp hp with hp | ⟨t, ht, hp⟩
  · exact ⟨f, none, .inl ⟨hp, rfl, rfl⟩⟩
  · obtain ⟨c, hc, hp⟩ := List.mem_flatMap.mp hp
    exact ⟨_, _, .inr ⟨t, ht, c, hc, hp, rfl, rfl⟩⟩

/-! ### The flow snapshot -/

theorem Tabled.snapBlocks (h : Tabled s d f items) (ht : t ∈ tablesOf items) (hc : c ∈ t.cells) :
    ∀ (X qs Y : List SPara), flowParas items = X ++ qs ++ Y → (∀ q ∈ qs, q ∈ c.paras) → ∀ x,
    ∃ bs, s.snapBlocks (placed x qs) (paraStart (flowParas items) X.length) =
        some (bs, paraStart (flowParas items) (X.length + qs.length)) ∧
      ParasShow s c.frame (some (t.table.id, c.cell.row, c.cell.column)) (flowParas items) X.length qs bs := by
  intro X qs
  induction qs generalizing X with
  | nil => intro Y e hm x; exact ⟨[], rfl, trivial⟩
  | cons q qs ih =>
    intro Y e hm x
    have hq : (flowParas items)[X.length]? = some q := by rw [e]; simp
    obtain ⟨h1, _, h3⟩ := h.home (.inr ⟨t, ht, c, hc, hm q (by simp), rfl, rfl⟩)
    obtain ⟨snap, k1, _, k2⟩ := h.visible.blockSnap hq h1 h3
    obtain ⟨bs, i1, i2⟩ := ih (X ++ [q]) Y (by rw [e]; simp) (fun y hy => hm y (by simp [hy])) (x + ((q.text.length : Int) + 1))
    have hz : paraStart (flowParas items) (X ++ [q]).length = paraStart (flowParas items) X.length + q.chars.length + 1 := by
      rw [List.length_append]; exact paraStart_succ hq
    refine ⟨snap :: bs, ?_, k1, ?_⟩
    · rw [placed, Store.snapBlocks, k2 x, Option.bind_some, k1.length, ← hz, i1, Option.map_some]
      have : (X ++ [q]).length + qs.length = X.length + (q :: qs).length := by simp; omega
      rw [this]
    · have : (X ++ [q]).length = X.length + 1 := by simp
      rw [← this]; exact i2

theorem Tabled.cellBlocks (h : Tabled s d f items) (ht : t ∈ tablesOf items) (hc : c ∈ t.cells) {X Y : List SPara}
    (e : flowParas items = X ++ c.paras ++ Y) {fr : Frame} (hf : s.frames c.frame = some fr) :
    sortByKey Block.documentPosition ((s.getBlocks fr.blocks).map s.refreshBlock) =
      placed (paraStart (flowParas items) X.length : Int) c.paras := by
  obtain ⟨_, _, _, fr', c4, c5, c6, c7, c8, c9⟩ := (h.table t ht).cell c hc
  rw [hf] at c4; cases c4
  refine eq_of_sorted Block.documentPosition ((sortByKey_perm _ _).trans ?_) (sortByKey_sorted _ _) (placed_strict _ _)
  refine ((c9.filterMap _).map s.refreshBlock).trans (.of_eq ?_)
  have key : ∀ (R X Y : List SPara), flowParas items = X ++ R ++ Y →
      ((R.map SPara.id).filterMap s.blocks).map s.refreshBlock = placed (paraStart (flowParas items) X.length : Int) R := by
    intro R
    induction R with
    | nil => intro X Y _; rfl
    | cons q R ih =>
      intro X Y e
      have hq : (flowParas items)[X.length]? = some q := by rw [e]; simp
      have hs := h.visible.stored (List.mem_of_getElem? hq)
      rw [List.map_cons, List.filterMap_cons, hs]
      dsimp only
      rw [List.map_cons, placed, h.visible.refresh hq hs, ih (X ++ [q]) Y (by rw [e]; simp)]
      congr 2
      rw [List.length_append]
      show ((paraStart (flowParas items) (X.length + 1) : Nat) : Int) = _
      rw [paraStart_succ hq, SPara.text_len]
      push_cast; omega
  exact key c.paras X Y e

theorem Tabled.snapCells (h : Tabled s d f items) (ht : t ∈ tablesOf items) :
    ∀ (cs : List SCell) (X Y : List SPara), (∀ c ∈ cs, c ∈ t.cells) → flowParas items = X ++ cs.flatMap SCell.paras ++ Y →
    ∃ ks, s.snapCells (cs.map SCell.cell) (paraStart (flowParas items) X.length) =
        some (ks, paraStart (flowParas items) (X.length + (cs.flatMap SCell.paras).length)) ∧
      CellsShow s t.table.id (flowParas items) X.length cs ks := by
  intro cs
  induction cs with
  | nil => intro X Y _ _; exact ⟨[], rfl, trivial⟩
  | cons c cs ih =>
    intro X Y hm e
    have hc := hm c (by simp)
    obtain ⟨_, c2, _, fr, c4, _⟩ := (h.table t ht).cell c hc
    have e1 : flowParas items = X ++ c.paras ++ (cs.flatMap SCell.paras ++ Y) := by rw [e, List.flatMap_cons]; simp
    obtain ⟨bs, b1, b2⟩ := h.snapBlocks ht hc X c.paras _ e1 (fun q hq => hq) (paraStart (flowParas items) X.length : Int)
    obtain ⟨ks, k1, k2⟩ := ih (X ++ c.paras) Y (fun x hx => hm x (by simp [hx])) (by rw [e1]; simp)
    rw [List.length_append] at k1 k2
    refine ⟨⟨c.cell, bs⟩ :: ks, ?_, rfl, b2, k2⟩
    rw [List.map_cons, Store.snapCells, c2, Option.bind_some, c4]
    dsimp only
    rw [h.cellBlocks ht hc e1 c4, b1, Option.bind_some]
    dsimp only
    rw [k1, Option.map_some]
    dsimp only
    congr 3
    rw [List.flatMap_cons, List.length_append]; omega

theorem Tabled.walk (h : Tabled s d f items) (step : Int → Nat → Option (Option FlowSnap × Nat))
    (hpara : ∀ (id pos : Nat) snap, 0 < id → s.blockSnap id (some pos) (some f) = some (some snap) →
      step (id : Int) pos = some (some (.block snap), pos + snap.length + 1))
    (htable : ∀ (a pos pos' tid : Nat) ar tb ks, 0 < a → s.frames a = some ar → ar.table = some tid → s.tables tid = some tb →
      s.snapCells (sortByKey TableCell.row (sortByKey TableCell.column (tb.cells.filterMap fun c => s.tableCells c))) pos = some (ks, pos') →
      step (-(a : Int)) pos = some (some (.table tb ks), pos')) :
    ∃ fs, walkOrder step (items.map SItem.entry) 0 = some (fs, paraStart (flowParas items) (flowParas items).length) ∧
      ItemsShow s f (flowParas items) 0 items fs := by
  have key : ∀ (R A : List SItem), items = A ++ R →
      ∃ fs, walkOrder step (R.map SItem.entry) (paraStart (flowParas items) (flowParas A).length) =
          some (fs, paraStart (flowParas items) (flowParas items).length) ∧
        ItemsShow s f (flowParas items) (flowParas A).length R fs := by
    intro R
    induction R with
    | nil => intro A e; exact ⟨[], by rw [e]; simp [walkOrder], trivial⟩
    | cons it R ih =>
      intro A e
      obtain ⟨fs, w1, w2⟩ := ih (A ++ [it]) (by rw [e]; simp)
      have hit : it ∈ items := by rw [e]; simp
      cases it with
      | para p =>
        have hn : (flowParas items)[(flowParas A).length]? = some p := by
          rw [e, flowParas_append, flowParas_para]; simp
        have hp : p ∈ topParas items := mem_topParas.mpr hit
        obtain ⟨h1, _, h3⟩ := h.home (f := f) (.inl ⟨hp, rfl, rfl⟩)
        obtain ⟨snap, k1, k2, _⟩ := h.visible.blockSnap hn h1 h3
        have hpos := h.positive p (List.mem_of_getElem? hn)
        have hl : (flowParas (A ++ [.para p])).length = (flowParas A).length + 1 := by
          rw [flowParas_append, List.length_append]; rfl
        rw [hl] at w1 w2
        refine ⟨.block snap :: fs, ?_, k1, w2⟩
        have hs : step (p.id : Int) (paraStart (flowParas items) (flowParas A).length) =
            some (some (.block snap), paraStart (flowParas items) ((flowParas A).length + 1)) := by
          rw [hpara _ _ _ hpos (k2 _ _ (.inr rfl) (.inr rfl)), k1.length, paraStart_succ hn]
        rw [List.map_cons, walkOrder, show (SItem.para p).entry = (p.id : Int) from rfl, hs, Option.bind_some, w1]
        rfl
      | table t =>
        have ht : t ∈ tablesOf items := mem_tablesOf.mpr hit
        have hT := h.table t ht
        obtain ⟨ar, a1, a2, a3, a4, a5, a6⟩ := hT.anchor
        have hpos := (h.freshFrames t.anchor (by rw [a1]; rfl)).1
        have ef : flowParas items = flowParas A ++ t.cells.flatMap SCell.paras ++ flowParas R := by
          conv => lhs; rw [e]
          rw [flowParas_append, flowParas_table]; simp
        obtain ⟨ks, k1, k2⟩ := h.snapCells ht t.cells (flowParas A) (flowParas R) (fun x hx => hx) ef
        have hl : (flowParas (A ++ [.table t])).length = (flowParas A).length + (t.cells.flatMap SCell.paras).length := by
          rw [flowParas_append, List.length_append, flowParas_table]; simp [flowParas]
        rw [hl] at w1 w2
        refine ⟨.table t.table ks :: fs, ?_, rfl, k2, w2⟩
        have hsort : sortByKey TableCell.row (sortByKey TableCell.column (t.table.cells.filterMap fun c => s.tableCells c)) =
            t.cells.map SCell.cell := by
          have := hT.sorted
          unfold Store.tableCellIds at this
          rw [hT.table] at this
          exact this
        have hs : step (-(t.anchor : Int)) (paraStart (flowParas items) (flowParas A).length) =
            some (some (.table t.table ks), paraStart (flowParas items) ((flowParas A).length + (t.cells.flatMap SCell.paras).length)) := by
          exact htable _ _ _ _ _ _ _ hpos a1 a6 hT.table (by rw [hsort, k1])
        rw [List.map_cons, walkOrder, show (SItem.table t).entry = -(t.anchor : Int) from rfl, hs, Option.bind_some, w1]
        rfl
  obtain ⟨fs, w1, w2⟩ := key items [] rfl
  exact ⟨fs, w1, w2⟩

theorem Tabled.snapshotFlow (h : Tabled s d f items) :
    ∃ fs, s.snapshotFlow = some fs ∧ ItemsShow s f (flowParas items) 0 items fs := by
  obtain ⟨fr, h1, h2, h3, h4, h5, h6, h7⟩ := h.frame
  unfold Store.snapshotFlow Store.flowSnapshot
  rw [h.mainFrame, h1]
  dsimp only
  rw [h6, Store.snapOrder]
  have hx : ∀ (o : Option (List FlowSnap × Nat)), (∃ fs, o = some (fs, paraStart (flowParas items) (flowParas items).length) ∧
      ItemsShow s f (flowParas items) 0 items fs) → ∃ fs, o.map Prod.fst = some fs ∧ ItemsShow s f (flowParas items) 0 items fs := by
    rintro o ⟨fs, w1, w2⟩
    exact ⟨fs, by rw [w1]; rfl, w2⟩
  refine hx _ (h.walk _ ?_ ?_)
  · intro id pos snap hid hs
    rw [if_pos (by omega), Int.toNat_natCast, hs]; rfl
  · intro a pos pos' tid ar tb ks ha e1 e2 e3 e4
    have e5 : (- -(a : Int)).toNat = a := by omega
    rw [if_neg (by omega), if_pos (by omega), e5, e1]
    dsimp only
    rw [e2]
    dsimp only
    rw [e3]
    dsimp only
    rw [e4]; rfl

end Verif
