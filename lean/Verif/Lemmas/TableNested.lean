import Verif.Lemmas.TableEditDrop
import Verif.Lemmas.TableCells
/- Where `insert_table` puts the table when the caret is in a cell. -/
namespace Verif
variable {s s' : Store} {d : Document} {f : Nat} {items A B : List SItem} {t : STable} {c : SCell}
open Store

/-- Every frame of a cell of the table names the frame of the table as its parent. -/
def Adopted (s : Store) (t : STable) : Prop :=
  ∀ c ∈ t.cells, ∃ fr, s.frames c.frame = some fr ∧ fr.parentFrame = some t.anchor

theorem findChild_one {entry : Int} {g i : Nat} {fr : Frame} : ∀ {fs : List Nat}, (∀ x ∈ fs, (s.frames x).isSome) → g ∈ fs →
    (∀ x y, s.frames x = some y → entry ∈ y.childOrder → x = g) → s.frames g = some fr →
    (fr.childOrder.findIdx? fun e => decide (e = entry)) = some i → s.findChild entry fs = some (some (g, i))
  | [], _, hg, _, _, _ => by cases hg
  | x :: fs, hs, hg, hu, hfr, hi => by
    obtain ⟨y, hy⟩ := Option.isSome_iff_exists.mp (hs x (by simp))
    simp only [Store.findChild, hy, Option.bind_some]
    by_cases hx : x = g
    · subst hx
      rw [hy] at hfr; cases hfr
      rw [hi]
    · have : (y.childOrder.findIdx? fun e => decide (e = entry)) = none := by
        rw [List.findIdx?_eq_none_iff]
        intro e he
        rw [decide_eq_false_iff_not]
        rintro rfl
        exact hx (hu x y hy he)
      rw [this]
      refine findChild_one (fun z hz => hs z (by simp [hz])) ?_ hu hfr hi
      rcases List.mem_cons.mp hg with h | h
      · exact absurd h.symm hx
      · exact h

theorem findIdx_entry {l : List Nat} {x : Nat} (h : x ∈ l) :
    ∃ i, ((l.map fun n : Nat => (n : Int)).findIdx? fun e => decide (e = (x : Int))) = some i := by
  cases e : (l.map fun n : Nat => (n : Int)).findIdx? fun e => decide (e = (x : Int)) with
  | some i => exact ⟨i, rfl⟩
  | none =>
    rw [List.findIdx?_eq_none_iff] at e
    have := e (x : Int) (List.mem_map_of_mem h)
    simp at this

/-- The entries of frames that are paragraphs are paragraphs of the frame. -/
theorem Arranged.entry_frameBlocks (h : Arranged s d f items) {g i : Nat} {fr : Frame} (hi : 0 < i) (hg : s.frames g = some fr)
    (he : (i : Int) ∈ fr.childOrder) : i ∈ s.frameBlocks g := by
  have hm := h.onlyFrames g (by rw [hg]; rfl)
  have hfb : s.frameBlocks g = fr.blocks := by simp [Store.frameBlocks, hg]
  rw [hfb]
  rcases List.mem_cons.mp hm with rfl | hm
  · obtain ⟨x, k1, k2, k3, k4, k5, k6, k7⟩ := h.frame
    rw [k1] at hg; cases hg
    rw [k6] at he
    obtain ⟨y, hy, e⟩ := List.mem_map.mp he
    cases y with
    | table t => simp only [SItem.entry] at e; omega
    | para p =>
      simp only [SItem.entry] at e
      have : p.id = i := by omega
      rw [← this]
      refine k7.mem_iff.mpr (List.mem_map_of_mem ?_)
      exact List.mem_flatMap.mpr ⟨_, hy, by simp⟩
  · obtain ⟨u, hu, rfl | hm⟩ := mem_tableFrames_iff.mp hm
    · obtain ⟨x, a1, a2, a3, a4, a5, _⟩ := (h.table u hu).anchor
      rw [a1] at hg; cases hg
      rw [a5] at he; cases he
    · obtain ⟨c, hc, rfl⟩ := List.mem_map.mp hm
      obtain ⟨_, _, _, x, c1, c2, c3, c4, c5, c6⟩ := (h.table u hu).cell c hc
      rw [c1] at hg; cases hg
      rw [c5] at he
      obtain ⟨p, hp, e⟩ := List.mem_map.mp he
      have : p.id = i := by omega
      rw [← this]
      exact c6.mem_iff.mpr (List.mem_map_of_mem hp)

theorem Arranged.findChild_cell (h : Arranged s d f items) (ht : t ∈ tablesOf items) (hc : c ∈ t.cells) {p : SPara} (hp : p ∈ c.paras) :
    ∃ i, s.findChild (p.id : Int) (s.docFrames d.id) = some (some (c.frame, i)) := by
  obtain ⟨_, _, _, fr, c1, c2, c3, c4, c5, c6⟩ := (h.table t ht).cell c hc
  have hpos : 0 < p.id := h.positive p (mem_flowParas.mpr (.inr ⟨t, ht, List.mem_flatMap.mpr ⟨c, hc, hp⟩⟩))
  have hdf : s.docFrames d.id = d.frames := by unfold Store.docFrames; rw [h.document]; rfl
  obtain ⟨i, hi⟩ := findIdx_entry (l := c.paras.map SPara.id) (List.mem_map_of_mem hp)
  refine ⟨i, ?_⟩
  rw [hdf]
  have hown : p.id ∈ s.frameBlocks c.frame := by
    simp only [Store.frameBlocks, c1]
    exact c6.mem_iff.mpr (List.mem_map_of_mem hp)
  refine findChild_one h.allFrames ?_ ?_ c1 ?_
  · obtain ⟨rest, h1, h2⟩ := h.frames
    rw [h1]
    refine List.mem_cons_of_mem _ (h2.mem_iff.mpr ?_)
    exact mem_tableFrames_iff.mpr ⟨t, ht, .inr (List.mem_map_of_mem hc)⟩
  · intro x y hx hy
    exact h.frame_unique (h.entry_frameBlocks hpos hx hy) hown
  · rw [c5, ← hi, List.map_map]; rfl

theorem foldl_max_eq {M : Int} : ∀ {l : List Int} {e : Int}, e ≤ M → (∀ x ∈ l, x ≤ M) → (e = M ∨ M ∈ l) → l.foldl max e = M
  | [], e, _, _, h => by
    rcases h with h | h
    · exact h
    · cases h
  | x :: l, e, h1, h2, h3 => by
    rw [List.foldl_cons]
    have hx := h2 x (by simp)
    refine foldl_max_eq (by omega) (fun y hy => h2 y (by simp [hy])) ?_
    rcases h3 with rfl | h3
    · left; omega
    · rcases List.mem_cons.mp h3 with rfl | h3
      · left; omega
      · exact .inr h3

/-- The last position of a table. -/
theorem Arranged.lastEnd (h : Arranged s d f (A ++ .table t :: B)) (hp : Placed s (flowParas (A ++ .table t :: B)))
    (ha : Adopted s t) (hne : t.cells ≠ []) :
    s.lastEnd d.id t.anchor = some ((charsBefore (paras (flowParas (A ++ [.table t]))) : Int) - 1) := by
  obtain ⟨L, hL, _⟩ := h.content
  have ht : t ∈ tablesOf (A ++ .table t :: B) := by simp [tablesOf]
  have hdf : s.docFrames d.id = d.frames := by unfold Store.docFrames; rw [h.document]; rfl
  have hnd := List.nodup_cons.mp h.distinct.1
  unfold Store.lastEnd
  -- what each frame gives
  let P : Nat → List Int → Prop := fun g ends => ∀ e : Int, e ∈ ends ↔ ∃ c ∈ t.cells, c.frame = g ∧ ∃ p ∈ c.paras, ∃ b,
    s.blocks p.id = some b ∧ e = b.documentPosition + p.chars.length
  have hflow : ∀ c ∈ t.cells, ∀ p ∈ c.paras, p ∈ flowParas (A ++ .table t :: B) := fun c hc p hp =>
    mem_flowParas.mpr (.inr ⟨t, ht, List.mem_flatMap.mpr ⟨c, hc, hp⟩⟩)
  have heach : ∀ g ∈ d.frames, ∃ ends, ((s.frames g).bind fun fr =>
      if fr.parentFrame = some t.anchor then
        mapOpt (fun b : Block => (blockCharLength s.text b.id).map fun (n : Nat) => b.documentPosition + n)
          (s.getBlocks (s.frameBlocks g))
      else some []) = some ends ∧ P g ends := by
    intro g hg
    obtain ⟨fr, hfr⟩ := Option.isSome_iff_exists.mp (h.allFrames g hg)
    rw [hfr, Option.bind_some]
    by_cases hpar : fr.parentFrame = some t.anchor
    · rw [if_pos hpar]
      have hcell : ∃ c ∈ t.cells, c.frame = g := by
        obtain ⟨rest, h1, h2⟩ := h.frames
        rw [h1] at hg
        rcases List.mem_cons.mp hg with rfl | hg
        · obtain ⟨x, k1, k2, k3, _⟩ := h.frame
          rw [k1] at hfr; cases hfr; rw [k3] at hpar; cases hpar
        · obtain ⟨u, hu, rfl | hcm⟩ := mem_tableFrames_iff.mp (h2.mem_iff.mp hg)
          · obtain ⟨x, a1, a2, a3, _⟩ := (h.table u hu).anchor
            rw [a1] at hfr; cases hfr
            rw [a3] at hpar
            have : f = t.anchor := Option.some.inj hpar
            exact absurd (mem_tableFrames_iff.mpr ⟨t, ht, .inl this⟩) hnd.1
          · obtain ⟨c, hc, rfl⟩ := List.mem_map.mp hcm
            obtain ⟨_, _, _, x, c1, c2, c3, c4, _⟩ := (h.table u hu).cell c hc
            rw [c1] at hfr; cases hfr
            rcases c4 with c4 | c4
            · rw [c4] at hpar
              have hua : u.anchor = t.anchor := Option.some.inj hpar
              have hut : u = t := by
                have hn2 := hnd.2
                unfold tableFrames at hn2
                exact same_of_nodup_flatMap (k := id) (by simpa using hn2) u hu t ht u.anchor (by simp) t.anchor (by simp) hua
              subst hut
              exact ⟨c, hc, rfl⟩
            · rw [c4] at hpar; cases hpar
      obtain ⟨c, hc, hcg⟩ := hcell
      obtain ⟨_, _, _, x, c1, c2, c3, c4, c5, c6⟩ := (h.table t ht).cell c hc
      have hbl : s.frameBlocks g = x.blocks := by rw [← hcg]; simp [Store.frameBlocks, c1]
      obtain ⟨ys, y1, y2, y3⟩ := mapOpt_exists (g := fun b : Block => (blockCharLength s.text b.id).map fun (n : Nat) => b.documentPosition + n)
        (P := fun b e => ∃ p ∈ c.paras, s.blocks p.id = some b ∧ e = b.documentPosition + p.chars.length)
        (s.getBlocks (s.frameBlocks g)) (by
          intro b hb
          rw [hbl] at hb
          obtain ⟨i, hi, hb⟩ := List.mem_filterMap.mp hb
          obtain ⟨p, hp, rfl⟩ := List.mem_map.mp (c6.mem_iff.mp hi)
          have hpf := hflow c hc p hp
          have hid : b.id = p.id := by
            obtain ⟨b', e1, e2⟩ := hL.block p hpf
            rw [hb] at e1; cases e1
            exact congrArg Block.id e2
          refine ⟨_, by rw [hid, hL.charLength hpf]; rfl, p, hp, hb, by rw [SPara.text_len]⟩)
      refine ⟨ys, y1, ?_⟩
      intro e
      constructor
      · intro he
        obtain ⟨b, hb, p, hp, k1, k2⟩ := y3 e he
        exact ⟨c, hc, hcg, p, hp, b, k1, k2⟩
      · rintro ⟨c', hc', hcg', p, hp, b, k1, k2⟩
        have hcc : c' = c := by
          have hn2 := hnd.2
          unfold tableFrames at hn2
          have hn4 : (t.anchor :: t.cells.map SCell.frame).Nodup :=
            flatMap_nodup_mem (g := fun t : STable => t.anchor :: t.cells.map SCell.frame) hn2 ht
          have hn3 := (List.nodup_cons.mp hn4).2
          exact same_of_nodup_flatMap (l := t.cells) (g := fun c => [c]) (k := SCell.frame) (by simpa using hn3) c' hc' c hc c' (by simp) c
            (by simp) (hcg'.trans hcg.symm)
        subst hcc
        have hb : b ∈ s.getBlocks (s.frameBlocks g) := by
          rw [hbl]
          exact List.mem_filterMap.mpr ⟨p.id, c6.mem_iff.mpr (List.mem_map_of_mem hp), k1⟩
        obtain ⟨e', he', p', hp', k1', k2'⟩ := y2 b hb
        have : e' = e := by
          have hpp : p'.id = p.id := by
            obtain ⟨b1, e1, e2⟩ := hL.block p (hflow c' hc p hp)
            obtain ⟨b2, e3, e4⟩ := hL.block p' (hflow c' hc p' hp')
            rw [k1] at e1; cases e1
            rw [k1'] at e3; cases e3
            exact (congrArg Block.id e4).symm.trans (congrArg Block.id e2)
          have := hL.unique (hflow c' hc p hp) (hflow c' hc p' hp') hpp
          rw [k2', k2, this]
        rw [← this]; exact he'
    · rw [if_neg hpar]
      refine ⟨[], rfl, ?_⟩
      intro e
      simp only [List.not_mem_nil, false_iff]
      rintro ⟨c, hc, rfl, _⟩
      obtain ⟨y, k1, k2⟩ := ha c hc
      rw [hfr] at k1; cases k1
      exact hpar k2
  rw [hdf]
  obtain ⟨ys, y1, y2, y3⟩ := mapOpt_exists d.frames heach
  rw [y1, Option.map_some]
  have hmem : ∀ e : Int, e ∈ ys.flatten ↔ ∃ c ∈ t.cells, ∃ p ∈ c.paras, ∃ b, s.blocks p.id = some b ∧ e = b.documentPosition + p.chars.length := by
    intro e
    rw [List.mem_flatten]
    constructor
    · rintro ⟨l, hl, he⟩
      obtain ⟨g, _, hg⟩ := y3 l hl
      obtain ⟨c, hc, _, r⟩ := (hg e).mp he
      exact ⟨c, hc, r⟩
    · rintro ⟨c, hc, r⟩
      have hcd : c.frame ∈ d.frames := by
        obtain ⟨rest, h1, h2⟩ := h.frames
        rw [h1]
        exact List.mem_cons_of_mem _ (h2.mem_iff.mpr (mem_tableFrames_iff.mpr ⟨t, ht, .inr (List.mem_map_of_mem hc)⟩))
      obtain ⟨l, hl, hg⟩ := y2 _ hcd
      exact ⟨l, hl, (hg e).mpr ⟨c, hc, rfl, r⟩⟩
  -- the last paragraph of the table
  have hcps : t.cells.flatMap SCell.paras ≠ [] := by
    cases hcs : t.cells with
    | nil => exact absurd hcs hne
    | cons c l =>
      have := ((h.table t ht).cell c (by rw [hcs]; simp)).2.2.1
      rw [List.flatMap_cons]
      simp [this]
  generalize hM : ((charsBefore (paras (flowParas (A ++ [.table t]))) : Int) - 1) = M
  have hfl : flowParas (A ++ .table t :: B) = flowParas A ++ (t.cells.flatMap SCell.paras ++ flowParas B) := by
    rw [flowParas_append]; rfl
  have hfl2 : flowParas (A ++ [.table t]) = flowParas A ++ t.cells.flatMap SCell.paras := by
    rw [flowParas_append]; simp [flowParas, SItem.paras]
  have hend : ∀ X p Y, t.cells.flatMap SCell.paras = X ++ p :: Y → ∀ b, s.blocks p.id = some b →
      b.documentPosition + p.chars.length + 1 + (charsBefore (paras Y) : Int) = M + 1 := by
    intro X p Y e b hb
    obtain ⟨b', k1, k2⟩ := hp (flowParas A ++ X) p (Y ++ flowParas B) (by rw [hfl, e]; simp)
    rw [hb] at k1; cases k1
    rw [k2, ← hM, hfl2, e]
    simp only [charsBefore_paras_two, charsBefore_paras_cons]
    push_cast; omega
  have hle : ∀ e ∈ ys.flatten, e ≤ M := by
    intro e he
    obtain ⟨c, hc, p, hp, b, k1, k2⟩ := (hmem e).mp he
    obtain ⟨X, Y, hXY⟩ := List.append_of_mem (List.mem_flatMap.mpr ⟨c, hc, hp⟩ : p ∈ t.cells.flatMap SCell.paras)
    have := hend X p Y hXY b k1
    omega
  have hin : M ∈ ys.flatten := by
    have hlast := List.dropLast_concat_getLast hcps
    generalize hq : (t.cells.flatMap SCell.paras).getLast hcps = q at hlast
    have hqm : q ∈ t.cells.flatMap SCell.paras := by rw [← hlast]; simp
    obtain ⟨c, hc, hqc⟩ := List.mem_flatMap.mp hqm
    obtain ⟨b, k1, _⟩ := hL.block q (hflow c hc q hqc)
    refine (hmem M).mpr ⟨c, hc, q, hqc, b, k1, ?_⟩
    have := hend _ q [] hlast.symm b k1
    have h0 : charsBefore (paras []) = 0 := rfl
    rw [h0] at this
    omega
  cases hfl3 : ys.flatten with
  | nil => rw [hfl3] at hin; cases hin
  | cons e es =>
    rw [hfl3] at hin hle
    show some (es.foldl max e) = some M
    rw [foldl_max_eq (hle e (by simp)) (fun x hx => hle x (by simp [hx])) ?_]
    rcases List.mem_cons.mp hin with h | h
    · exact .inl h.symm
    · exact .inr h

/-- Where the table goes when the caret is in a cell. -/
theorem Tabled.place_cell {p : SPara} {X Y : List SPara} {a b : List SChar} (h : Tabled s d f (A ++ .table t :: B))
    (hp : Placed s (flowParas (A ++ .table t :: B))) (ha : Adopted s t) (hcs : t.cells.flatMap SCell.paras = X ++ p :: Y)
    (hc : p.chars = a ++ b) :
    s.tablePlace d.id (placed 0 (flowParas (A ++ .table t :: B))) ((charsBefore (paras (flowParas A ++ X)) + a.length : Nat) : Int) =
      some ⟨f, (A ++ [SItem.table t]).length, some (p.id, true), (charsBefore (paras (flowParas (A ++ [.table t]))) : Int)⟩ := by
  obtain ⟨L, hH, hsub⟩ := h.content
  have ht : t ∈ tablesOf (A ++ .table t :: B) := by simp [tablesOf]
  obtain ⟨fr, f1, f2, f3, f4, f5, f6, f7⟩ := h.frame
  obtain ⟨rest, h1, h2⟩ := h.frames
  have hdf : s.docFrames d.id = f :: rest := by unfold Store.docFrames; rw [h.document, ← h1]; rfl
  have e : flowParas (A ++ .table t :: B) = (flowParas A ++ X) ++ p :: (Y ++ flowParas B) := by
    rw [flowParas_append]
    show _ ++ (t.cells.flatMap SCell.paras ++ flowParas B) = _
    rw [hcs]; simp
  have hpm : p ∈ flowParas (A ++ .table t :: B) := by rw [e]; simp
  obtain ⟨c, hcm, hpc⟩ := List.mem_flatMap.mp (show p ∈ t.cells.flatMap SCell.paras by rw [hcs]; simp)
  obtain ⟨i, hi⟩ := h.arranged.findChild_cell ht hcm hpc
  obtain ⟨cfr, g1, g2⟩ := ha c hcm
  obtain ⟨afr, a1, a2, a3, a4, a5, a6⟩ := (h.table t ht).anchor
  have hidx : (fr.childOrder.findIdx? fun x => decide (x = -(t.anchor : Int))) = some A.length := by
    rw [f6, List.map_append, List.map_cons, List.findIdx?_append]
    have : (A.map SItem.entry).findIdx? (fun x => decide (x = -(t.anchor : Int))) = none := by
      rw [List.findIdx?_eq_none_iff]
      intro x hx
      obtain ⟨y, hy, rfl⟩ := List.mem_map.mp hx
      rw [decide_eq_false_iff_not]
      cases y with
      | para q =>
        have := h.positive q (List.mem_flatMap.mpr ⟨_, List.mem_append_left _ hy, by simp [SItem.paras]⟩)
        simp only [SItem.entry]; omega
      | table u =>
        have hnd := (List.nodup_cons.mp h.distinct.1).2
        have hsplit : tablesOf (A ++ .table t :: B) = tablesOf A ++ t :: tablesOf B := by simp [tablesOf]
        unfold tableFrames at hnd
        rw [hsplit, List.flatMap_append, List.nodup_append] at hnd
        have hu : u ∈ tablesOf A := List.mem_flatMap.mpr ⟨_, hy, by simp⟩
        have := hnd.2.2 u.anchor (List.mem_flatMap.mpr ⟨u, hu, by simp⟩) t.anchor (by simp)
        simp only [SItem.entry]; omega
    rw [this]
    simp [List.findIdx?_cons, SItem.entry]
  unfold Store.tablePlace
  rw [if_neg (by rw [e]; intro h0; have := congrArg List.length h0; rw [placed_length] at this; simp at this)]
  rw [h.find e hc, Option.bind_some]
  dsimp only
  rw [show (p.entity (charsBefore (paras (flowParas A ++ X)))).id = p.id from rfl, hH.charLength hpm, Option.bind_some, hi]
  have hl := h.arranged.lastEnd hp ha (by intro h0; rw [h0] at hcm; cases hcm)
  rw [show (s.docFrames d.id).head? = some f by rw [hdf]; rfl]
  simp only [Option.bind_some, Option.getD_some, g1, g2, Option.map_some, a1, a6, Option.isSome_some, if_true, a3, f1, hidx, hl]
  simp

/-- `insert_table` with the caret in a cell. -/
theorem Tabled.insertTable_cell {p : SPara} {X Y : List SPara} {a b : List SChar} {position anchor rows columns : Int}
    (h : Tabled s d f (A ++ .table t :: B)) (hcs : t.cells.flatMap SCell.paras = X ++ p :: Y) (hc : p.chars = a ++ b)
    (ha : Adopted s t) (hlast : p.chars ≠ [] ∨ (s.blockOffsets.entries.map Prod.fst).getLast? ≠ some (.block p.id))
    (hpos : min position anchor = ((charsBefore (paras (flowParas A ++ X)) + a.length : Nat) : Int))
    (hr : 1 ≤ rows) (hcol : 1 ≤ columns) :
    ∃ s', s.insertTable position anchor rows columns = some (s', s.next "table", min position anchor, s.snapshot) ∧
      Tabled s' { d with
        frames := d.frames ++ (madeTable s rows columns).cells.map SCell.frame ++ [(madeTable s rows columns).anchor]
        tables := d.tables ++ [s.next "table"], blockCount := d.blockCount + rows * columns } f
        (A ++ .table t :: .table (madeTable s rows columns) :: B) ∧ s'.lists = s.lists := by
  obtain ⟨s1, m, c1, c2, c3, c4⟩ := h.catchUp
  obtain ⟨L, hH, hsub⟩ := c2.content
  have e : flowParas (A ++ .table t :: B) = (flowParas A ++ X) ++ p :: (Y ++ flowParas B) := by
    rw [flowParas_append]
    show _ ++ (t.cells.flatMap SCell.paras ++ flowParas B) = _
    rw [hcs]; simp
  have hpm : p ∈ flowParas (A ++ .table t :: B) := by rw [e]; simp
  have ha1 : Adopted s1 t := by rw [c4]; exact ha
  have hnew : Marker.table (s1.next "table") ∉ L.map Prod.fst := by
    intro hm
    have := (hH.perm.map Prod.fst).mem_iff.mp hm
    rw [List.map_append, List.mem_append, paras_fst] at this
    rcases this with hm | hm
    · simp at hm
    · rw [List.map_map] at hm
      obtain ⟨t, ht, e⟩ := List.mem_map.mp hm
      simp only [Function.comp, Marker.table.injEq] at e
      obtain ⟨t', ht', rfl⟩ := List.mem_map.mp ht
      have := c2.freshTables t'.table.id (by rw [(c2.table t' ht').table]; rfl)
      omega
  have hmt : madeTable s1 rows columns = madeTable s rows columns := by rw [c4]; rfl
  have hnt : s1.next "table" = s.next "table" := by rw [c4]; rfl
  have hls : s1.lists = s.lists := by rw [c4]
  have hins : s.insertTable position anchor rows columns =
      (s1.tablePlace d.id (s1.allBlocks d.id) (min position anchor)).bind fun place =>
        (buildTable s1 d (s1.allBlocks d.id) place rows columns).map fun s' => (s', s.next "table", min position anchor, s.snapshot) := by
    unfold Store.insertTable buildTable
    rw [if_neg (by omega), h.docIdOf, Option.bind_some, h.document, Option.bind_some, c1, Option.bind_some]
    rw [createTable_new c2.document c2.allTables]
    simp only [Option.bind_some, Option.map_bind, Function.comp_def, Option.map_map, hnt]
  rw [hins, c2.allBlocks c3, hpos, c2.place_cell c3 ha1 hcs hc, Option.bind_some]
  obtain ⟨X', Y', hL⟩ := hH.split hpm
  rw [hL] at hnew
  have hend : Y' ≠ [] ∨ p.text ≠ [] := by
    rcases hlast with hlast | hlast
    · right
      intro h0
      have : p.text.length = 0 := by rw [h0]; rfl
      rw [SPara.text_len] at this
      exact hlast (List.length_eq_zero_iff.mp this)
    · left
      rintro rfl
      apply hlast
      have hidx : s.blockOffsets = s1.blockOffsets := by rw [c4]
      have hst := hH.text.starts
      rw [hidx, show s1.blockOffsets.entries = _ from hst, layout_keys, hL]
      simp
  obtain ⟨st', t1, t2⟩ := insertTableAfter_repr (hL ▸ hH.text) hnew hend
  have e0 : A ++ .table t :: B = (A ++ [.table t]) ++ B := by simp
  rw [e0] at c2 c3 hH hsub
  obtain ⟨s', b1, b2, b3⟩ := Tabled.build (A := A ++ [.table t]) (B := B) c2 hH c3 hr hcol t1 t2
    (by
      rw [hL, List.perm_iff_count]
      intro x
      simp only [List.count_append, List.count_cons]; omega) (by
      rw [hL] at hsub
      exact hsub.trans (List.Sublist.append_left ((List.sublist_cons_self _ _).cons_cons _) _))
  rw [hmt, hnt, hls] at *
  exact ⟨s', by rw [e0, b1]; rfl, by simpa using b2, b3⟩

end Verif
