import Verif.Lemmas.TablePlace
import Verif.Lemmas.Editing
/- Typing in documents with tables. -/
namespace Verif
variable {s s' : Store} {d : Document} {f : Nat} {items : List SItem}
open Store

/-! ### Reading order of cells -/

/-- Sorting a list that is ordered by a second key. -/
theorem insertByKey_lex {α : Type} {k1 k2 : α → Int} {a : α} {l : List α}
    (h : l.Pairwise fun x y => k1 x < k1 y ∨ k1 x = k1 y ∧ k2 x ≤ k2 y) (ha : ∀ x ∈ l, k2 a ≤ k2 x) :
    (insertByKey k1 a l).Pairwise fun x y => k1 x < k1 y ∨ k1 x = k1 y ∧ k2 x ≤ k2 y := by
  induction l with
  | nil => simp [insertByKey]
  | cons b l ih =>
    rw [insertByKey]
    have h' := List.pairwise_cons.mp h
    split
    · rename_i hab
      refine List.pairwise_cons.mpr ⟨fun y hy => ?_, h⟩
      have hk := ha y hy
      rcases List.mem_cons.mp hy with rfl | hy
      · omega
      · have := h'.1 y hy; omega
    · rename_i hab
      refine List.pairwise_cons.mpr ⟨fun y hy => ?_, ih h'.2 fun x hx => ha x (List.mem_cons_of_mem _ hx)⟩
      rcases List.mem_cons.mp ((insertByKey_perm k1 a l).mem_iff.mp hy) with rfl | hy
      · omega
      · exact h'.1 y hy

theorem sortByKey_lex {α : Type} {k1 k2 : α → Int} {l : List α} (h : l.Pairwise fun x y => k2 x ≤ k2 y) :
    (sortByKey k1 l).Pairwise fun x y => k1 x < k1 y ∨ k1 x = k1 y ∧ k2 x ≤ k2 y := by
  induction l with
  | nil => exact .nil
  | cons a l ih =>
    have h' := List.pairwise_cons.mp h
    exact insertByKey_lex (ih h'.2) fun x hx => h'.1 x (mem_sortByKey.mp hx)

/-- Two lists of the same elements, one in order and one in strict order, are equal. -/
theorem eq_of_ordered {α : Type} {le lt : α → α → Prop} (hno : ∀ x y, lt x y → ¬ le y x) :
    ∀ {l m : List α}, l.Perm m → l.Pairwise le → m.Pairwise lt → l = m := by
  intro l
  induction l with
  | nil => intro m h _ _; exact h.nil_eq
  | cons a l ih =>
    intro m h hl hm
    cases m with
    | nil => exact absurd h.length_eq (by simp)
    | cons b m =>
      have hl' := List.pairwise_cons.mp hl
      have hm' := List.pairwise_cons.mp hm
      have e : a = b := by
        have ha : a ∈ b :: m := h.mem_iff.mp (List.mem_cons_self ..)
        have hb : b ∈ a :: l := h.mem_iff.mpr (List.mem_cons_self ..)
        rcases List.mem_cons.mp ha with rfl | ha
        · rfl
        · rcases List.mem_cons.mp hb with rfl | hb
          · rfl
          · exact absurd (hl'.1 b hb) (hno _ _ (hm'.1 a ha))
      subst e
      rw [ih ((List.perm_cons a).mp h) hl'.2 hm'.2]

theorem ShowsTable.sorted {t : STable} (h : ShowsTable s f t) :
    sortByKey TableCell.row (sortByKey TableCell.column (s.getCells (s.tableCellIds t.table.id))) = t.cells.map SCell.cell := by
  apply eq_of_ordered (le := fun x y : TableCell => x.row < y.row ∨ x.row = y.row ∧ x.column ≤ y.column)
    (lt := fun x y : TableCell => x.row < y.row ∨ x.row = y.row ∧ x.column < y.column)
  · intro x y h1 h2; omega
  · exact ((sortByKey_perm _ _).trans (sortByKey_perm _ _)).trans h.getCells
  · exact sortByKey_lex (sortByKey_sorted _ _)
  · rw [List.pairwise_map]; exact h.order

theorem cells_frames {cs : List SCell} (h : ∀ c ∈ cs, c.cell.cellFrame = some c.frame) :
    (cs.map SCell.cell).filterMap TableCell.cellFrame = cs.map SCell.frame := by
  induction cs with
  | nil => rfl
  | cons c cs ih =>
    rw [List.map_cons, List.filterMap_cons, h c (List.mem_cons_self ..)]
    simp only [List.map_cons]
    rw [ih fun x hx => h x (List.mem_cons_of_mem _ hx)]

theorem ShowsTable.tableCellFrames {t : STable} (h : ShowsTable s f t) :
    s.tableCellFrames t.table.id = t.cells.map SCell.frame := by
  have := h.sorted
  unfold Store.tableCellFrames
  show (sortByKey TableCell.row (sortByKey TableCell.column (s.getCells (s.tableCellIds t.table.id)))).filterMap _ = _
  rw [this, cells_frames fun c hc => (h.cell c hc).2.1]

/-! ### The walk over the paragraphs -/

theorem mapOpt_all {α β : Type} {g : α → Option β} {k : α → β} : ∀ {l : List α}, (∀ x ∈ l, g x = some (k x)) →
    mapOpt g l = some (l.map k)
  | [], _ => rfl
  | x :: l, h => by
    rw [mapOpt, h x (List.mem_cons_self ..), mapOpt_all fun y hy => h y (List.mem_cons_of_mem _ hy)]
    rfl

theorem mapOpt_map_all {α β γ : Type} {g : β → Option γ} {k : α → β} {v : α → γ} {l : List α}
    (h : ∀ x ∈ l, g (k x) = some (v x)) : mapOpt g (l.map k) = some (l.map v) := by
  rw [← mapOpt_comp]; exact mapOpt_all h

theorem collect_leaf {g : Nat} {fr : Frame} {ps : List SPara} (k : Nat) (hf : s.frames g = some fr)
    (hc : fr.childOrder = ps.map fun p => (p.id : Int)) (hne : ps ≠ []) (hpos : ∀ p ∈ ps, 0 < p.id) :
    s.collectBlockIds (k + 1) g = some (ps.map SPara.id) := by
  unfold Store.collectBlockIds
  rw [hf, Option.bind_some, if_neg (by rw [hc]; simpa using hne), hc]
  rw [mapOpt_all (k := fun e : Int => [e.toNat])]
  · simp only [Option.map_some, Option.some.injEq]
    clear hf hc hne hpos
    induction ps with
    | nil => rfl
    | cons p ps ih => simp only [List.map_cons, List.flatten_cons, ih]; simp
  · intro e he
    obtain ⟨p, hp, rfl⟩ := List.mem_map.mp he
    have := hpos p hp
    rw [if_pos (by omega)]

theorem Tabled.flowIds (h : Tabled s d f items) : s.flowIds f = some ((flowParas items).map SPara.id) := by
  obtain ⟨fr, h1, h2, h3, h4, h5, h6, h7⟩ := h.frame
  have hlen : 0 < s.frames.len := by
    have : f ∈ s.frames.keys := (s.frames.mem f).mpr (by rw [h1]; rfl)
    unfold IdMap.len
    exact List.length_pos_of_mem this
  obtain ⟨k, hk⟩ : ∃ k, s.frames.len = k + 1 := ⟨s.frames.len - 1, by omega⟩
  unfold Store.flowIds
  rw [hk]
  unfold Store.collectBlockIds
  have hne : items ≠ [] := by
    intro e; have := h.nonempty; rw [e] at this; exact this rfl
  rw [h1, Option.bind_some, if_neg (by rw [h6]; simpa using hne), h6]
  rw [mapOpt_map_all (v := fun it : SItem => it.paras.map SPara.id)]
  · simp [flowParas, List.flatten_eq_flatMap, List.flatMap_map, List.map_flatMap, Function.comp_def]
  · intro it hit
    generalize he : it.entry = e
    cases it with
    | para p =>
      have := h.positive p (mem_flowParas.mpr (.inl (mem_topParas.mpr hit)))
      simp only [SItem.entry] at he
      simp only [SItem.paras]
      rw [if_pos (by omega), ← he]
      simp
    | table t =>
      have ht := h.table t (mem_tablesOf.mpr hit)
      obtain ⟨fr', a1, a2, a3, a4, a5, a6⟩ := ht.anchor
      have hpos := (h.freshFrames t.anchor (by rw [a1]; rfl)).1
      simp only [SItem.entry] at he
      simp only [SItem.paras]
      have he' : (-e).toNat = t.anchor := by omega
      rw [if_neg (by omega), if_pos (by omega), he', a1, Option.bind_some, a6]
      simp only
      rw [ht.tableCellFrames, mapOpt_map_all (v := fun c : SCell => c.paras.map SPara.id)]
      · simp [List.flatten_eq_flatMap, List.flatMap_map, List.map_flatMap, Function.comp_def]
      · intro c hc
        obtain ⟨c1, c2, c3, fr2, c4, c5, c6, c7, c8, c9⟩ := ht.cell c hc
        refine collect_leaf k c4 c8 c3 fun p hp => h.positive p (mem_flowParas.mpr (.inr ⟨t, mem_tablesOf.mpr hit, ?_⟩))
        exact List.mem_flatMap.mpr ⟨c, hc, hp⟩

theorem Tabled.flowBlocks (h : Tabled s d f items) : s.flowBlocks d.id = some ((flowParas items).map SPara.id) := by
  obtain ⟨rest, hr, _⟩ := h.frames
  unfold Store.flowBlocks Store.docFrames
  rw [h.document]
  simp only [Option.map_some, Option.getD_some, hr, List.head?_cons, Option.bind_some]
  exact h.flowIds

/-- The walk over lengths. -/
theorem Carries.walkFlow {L : List Para} {ps : List SPara} {ts : List Nat} (h : Carries s L ps ts) {p : SPara} {a b : List SChar}
    (hc : p.chars = a ++ b) : ∀ (X Y : List SPara) (r : Nat), (∀ q ∈ X ++ p :: Y, q ∈ ps) →
    s.walkFlow ((r + charsBefore (paras X) + a.length : Nat) : Int) (r : Int) ((X ++ p :: Y).map SPara.id) =
      some (some (p.entity (s.storedPos p), ((r + charsBefore (paras X) : Nat) : Int)))
  | [], Y, r, hm => by
    have hp : p ∈ ps := hm p (by simp)
    have hl : p.text.length = a.length + b.length := by simp [SPara.text, hc]
    rw [List.nil_append, List.map_cons, Store.walkFlow, h.stored hp, Option.bind_some, show (p.entity (s.storedPos p)).id = p.id from rfl,
      h.charLength hp, Option.bind_some]
    rw [if_pos (by rw [charsBefore_paras_nil, hl]; omega)]
    simp
  | q :: X, Y, r, hm => by
    have hq : q ∈ ps := hm q (by simp)
    rw [List.cons_append, List.map_cons, Store.walkFlow, h.stored hq, Option.bind_some, show (q.entity (s.storedPos q)).id = q.id from rfl,
      h.charLength hq, Option.bind_some]
    have hl := q.text_len
    rw [charsBefore_paras_cons]
    rw [if_neg (by omega)]
    have := Carries.walkFlow h hc X Y (r + (q.chars.length + 1)) fun x hx => hm x (List.mem_cons_of_mem _ hx)
    rw [show (r : Int) + (q.text.length : Int) + 1 = ((r + (q.chars.length + 1) : Nat) : Int) by omega]
    rw [show r + (q.chars.length + 1 + charsBefore (paras X)) + a.length = r + (q.chars.length + 1) + charsBefore (paras X) + a.length by omega,
      show r + (q.chars.length + 1 + charsBefore (paras X)) = r + (q.chars.length + 1) + charsBefore (paras X) by omega]
    exact this

/-- Where typed text goes. -/
theorem Tabled.locateSimple {p : SPara} {X Y : List SPara} {a b : List SChar} (h : Tabled s d f items)
    (e : flowParas items = X ++ p :: Y) (hc : p.chars = a ++ b) :
    s.locateSimple d.id ((charsBefore (paras X) + a.length : Nat) : Int) =
      some (p.entity (s.storedPos p), (charsBefore (paras X) : Int), (a.length : Int)) := by
  obtain ⟨L, hH, hsub⟩ := h.content
  have hpm : p ∈ flowParas items := by rw [e]; simp
  have hl : p.text.length = a.length + b.length := by simp [SPara.text, hc]
  by_cases ht : tablesOf items = []
  · rw [ht] at hH
    have hS := hH.toShows (by rw [← flow_of_noTables ht]; exact hsub) h.root h.document
    have hf := hS
    rw [e] at hf
    unfold Store.locateSimple
    rw [hf.find hc, Option.bind_some]
    simp only [hS.stored hpm, Option.bind_some]
    rw [show (p.entity (s.storedPos p)).id = p.id from rfl, hS.charLength hpm, hl, Option.map_some,
      show max 0 (min (a.length : Int) ((a.length + b.length : Nat) : Int)) = (a.length : Int) by omega]
  · unfold Store.locateSimple
    rw [hH.noFind (by simpa using ht), Option.bind_some]
    simp only
    rw [h.flowBlocks, Option.bind_some, if_neg (by simpa using h.flow_nonempty)]
    have hw := hH.walkFlow hc X Y 0 fun q hq => by rw [e]; exact hq
    rw [← e, Nat.zero_add] at hw
    rw [show ((0 : Nat) : Int) = 0 from rfl] at hw
    rw [hw, Option.bind_some]
    simp only
    rw [show (p.entity (s.storedPos p)).id = p.id from rfl, hH.charLength hpm, hl, Option.map_some]
    congr 3
    omega

/-! ### Changing paragraphs in place -/

variable {g : SPara → SPara}

theorem flowParas_on (g : SPara → SPara) (items : List SItem) : flowParas (items.map (SItem.on g)) = (flowParas items).map g := by
  induction items with
  | nil => rfl
  | cons x items ih =>
    cases x with
    | para p => rw [List.map_cons, SItem.on, flowParas_para, flowParas_para, ih, List.map_cons]
    | table t =>
      rw [List.map_cons, SItem.on, flowParas_table, flowParas_table, ih, List.map_append]
      simp [List.flatMap_map, List.map_flatMap]

theorem topParas_on (g : SPara → SPara) (items : List SItem) : topParas (items.map (SItem.on g)) = (topParas items).map g := by
  induction items with
  | nil => rfl
  | cons x items ih =>
    cases x with
    | para p => rw [List.map_cons, SItem.on, topParas_para, topParas_para, ih, List.map_cons]
    | table t => rw [List.map_cons, SItem.on, topParas_table, topParas_table, ih]

/-- A table with another content in its paragraphs. -/
def STable.on (g : SPara → SPara) (t : STable) : STable :=
  { t with cells := t.cells.map fun c => { c with paras := c.paras.map g } }

theorem tablesOf_on (g : SPara → SPara) (items : List SItem) : tablesOf (items.map (SItem.on g)) = (tablesOf items).map (STable.on g) := by
  induction items with
  | nil => rfl
  | cons x items ih =>
    cases x with
    | para p => rw [List.map_cons, SItem.on, tablesOf_para, tablesOf_para, ih]
    | table t => rw [List.map_cons, SItem.on, tablesOf_table, tablesOf_table, ih, List.map_cons]; rfl

theorem tableFrames_on (g : SPara → SPara) (items : List SItem) : tableFrames (items.map (SItem.on g)) = tableFrames items := by
  unfold tableFrames
  rw [tablesOf_on]
  simp [List.flatMap_map, STable.on, Function.comp_def]

theorem cells_on (g : SPara → SPara) (items : List SItem) :
    ((cellsOf (items.map (SItem.on g))).map fun c => c.cell.id) = (cellsOf items).map fun c => c.cell.id := by
  unfold cellsOf
  rw [tablesOf_on]
  simp [List.flatMap_map, STable.on, Function.comp_def, List.map_flatMap]

theorem entries_on (hg : ∀ p, (g p).id = p.id) (items : List SItem) : (items.map (SItem.on g)).map SItem.entry = items.map SItem.entry := by
  rw [List.map_map]
  apply List.map_congr_left
  intro x _
  cases x <;> simp [SItem.on, SItem.entry, hg]

theorem ids_on (hg : ∀ p, (g p).id = p.id) (ps : List SPara) : (ps.map g).map SPara.id = ps.map SPara.id := by
  rw [List.map_map]
  apply List.map_congr_left
  intro x _
  exact hg x

theorem ShowsTable.on {t : STable} (h : ShowsTable s f t) (hg : ∀ p, (g p).id = p.id) (hf : s'.frames = s.frames)
    (ht : s'.tables = s.tables) (hc : s'.tableCells = s.tableCells) : ShowsTable s' f (t.on g) := by
  refine ⟨by rw [ht]; exact h.table, ?_, ?_, by rw [hf]; exact h.anchor, ?_⟩
  · simpa [STable.on, Function.comp_def] using h.cells
  · simp only [STable.on]; rw [List.pairwise_map]; exact h.order
  · intro c hc'
    obtain ⟨c, hcm, rfl⟩ := List.mem_map.mp hc'
    obtain ⟨c1, c2, c3, fr, c4, c5, c6, c7, c8, c9⟩ := h.cell c hcm
    refine ⟨by rw [hc]; exact c1, c2, by simpa using c3, fr, by rw [hf]; exact c4, c5, c6, c7, ?_, ?_⟩
    · rw [c8]; simp [Function.comp_def, hg]
    · rw [ids_on hg]; exact c9

/-- A change of the content of paragraphs that leaves everything else. -/
theorem Tabled.on {L : List Para} {d' : Document} (h : Tabled s d f items) (hg : ∀ p, (g p).id = p.id)
    (hH : Carries s' L ((flowParas items).map g) ((tablesOf items).map fun t => t.table.id))
    (hsub : (paras ((topParas items).map g)).Sublist L) (hseat : tablesOf items ≠ [] → Seated s' ((flowParas items).map g))
    (hd : s'.documents d.id = some d') (hid : d'.id = d.id) (hfr : d'.frames = d.frames) (htb : d'.tables = d.tables)
    (hr : s'.roots = s.roots) (hf : s'.frames = s.frames) (ht : s'.tables = s.tables)
    (hc : s'.tableCells = s.tableCells) (hn : ∀ k, s'.next k = s.next k) : Tabled s' d' f (items.map (SItem.on g)) := by
  have ets : ((tablesOf (items.map (SItem.on g))).map fun t => t.table.id) = (tablesOf items).map fun t => t.table.id := by
    rw [tablesOf_on]; simp [STable.on, Function.comp_def]
  constructor
  · rw [hr, hid]; exact h.root
  · rw [hid]; exact hd
  · refine ⟨L, ?_, ?_⟩
    · rw [flowParas_on, ets]; exact hH
    · rw [topParas_on]; exact hsub
  · obtain ⟨fr, h1, h2, h3, h4, h5, h6, h7⟩ := h.frame
    refine ⟨fr, by rw [hf]; exact h1, h2, h3, h4, h5, ?_, ?_⟩
    · rw [entries_on hg]; exact h6
    · rw [topParas_on, ids_on hg]; exact h7
  · intro t ht'
    rw [tablesOf_on] at ht'
    obtain ⟨t, htm, rfl⟩ := List.mem_map.mp ht'
    exact (h.table t htm).on hg hf ht hc
  · obtain ⟨rest, h1, h2⟩ := h.frames
    exact ⟨rest, by rw [hfr]; exact h1, by rw [tableFrames_on]; exact h2⟩
  · rw [tableFrames_on, cells_on]; exact h.distinct
  · rw [tableFrames_on, hf]; exact h.onlyFrames
  · rw [htb, ets]; exact h.tables
  · rw [hf, hn]; exact h.freshFrames
  · rw [ht, hn]; exact h.freshTables
  · rw [hc, hn]; exact h.freshCells
  · rw [ets, ht]; exact h.onlyTables
  · rw [cells_on, hc]; exact h.onlyCells
  · rw [flowParas_on]
    intro p hp
    obtain ⟨q, hq, rfl⟩ := List.mem_map.mp hp
    rw [hg]; exact h.positive q hq
  · rw [topParas_on]; simpa using h.nonempty
  · rw [flowParas_on]
    intro h'
    apply hseat
    rw [tablesOf_on] at h'
    simpa using h'

/-! ### Typing -/

/-- Positions after the length of one paragraph changed. -/
theorem placed_resized {X Y : List SPara} {p p' : SPara} {n : Int} (hp : Placed s (X ++ p :: Y)) (hid : p'.id = p.id)
    (hn : (p'.chars.length : Int) = p.chars.length + n)
    (hold : ∀ q ∈ X ++ p :: Y, ∀ b, s.blocks q.id = some b → ∃ b', s'.blocks q.id = some b' ∧ b'.documentPosition =
      if b.documentPosition > (charsBefore (paras X) : Int) then b.documentPosition + n else b.documentPosition) :
    Placed s' (X ++ p' :: Y) := by
  intro Z q W e
  rcases charsBefore_le e with ⟨V, h1, h2⟩ | ⟨V, h1, h2⟩
  · obtain ⟨b, k1, k2⟩ := hp Z q (V ++ p :: Y) (by rw [h1]; simp)
    obtain ⟨b', k3, k4⟩ := hold q (by rw [h1]; simp) b k1
    refine ⟨b', k3, ?_⟩
    rw [k4, if_neg, k2]
    rw [k2, h1, charsBefore_paras_two, charsBefore_paras_cons]
    push_cast; omega
  · cases V with
    | nil =>
      simp only [List.nil_append, List.cons.injEq] at h2
      obtain ⟨rfl, rfl⟩ := h2
      obtain ⟨b, k1, k2⟩ := hp X p Y rfl
      obtain ⟨b', k3, k4⟩ := hold p (by simp) b k1
      refine ⟨b', by rw [hid]; exact k3, ?_⟩
      rw [k4, if_neg, k2, h1]
      · simp
      · rw [k2]; omega
    | cons v V =>
      simp only [List.cons_append, List.cons.injEq] at h2
      obtain ⟨rfl, rfl⟩ := h2
      obtain ⟨b, k1, k2⟩ := hp (X ++ p :: V) q W (by simp)
      obtain ⟨b', k3, k4⟩ := hold q (by simp) b k1
      refine ⟨b', k3, ?_⟩
      rw [k4, k2, h1, charsBefore_paras_two, charsBefore_paras_two, charsBefore_paras_cons, charsBefore_paras_cons]
      rw [if_pos (by push_cast; omega)]
      push_cast; omega

/-- The blocks of all frames. -/
theorem Tabled.blocksOf (h : Tabled s d f items) :
    ((s.docFrames d.id).flatMap fun f => s.getBlocks (s.frameBlocks f)).Perm
      ((flowParas items).map fun p => p.entity (s.storedPos p)) := by
  obtain ⟨L, hH, hsub⟩ := h.content
  rw [← hH.getBlocks _ fun q hq => hq]
  have : (s.docFrames d.id).flatMap (fun f => s.getBlocks (s.frameBlocks f)) =
      s.getBlocks ((s.docFrames d.id).flatMap s.frameBlocks) := by
    unfold Store.getBlocks; rw [List.filterMap_flatMap]
  rw [this]
  exact h.frameBlocks_perm.filterMap _

/-- Moving some of the stored blocks. -/
theorem shiftStored_get {bs : List Block} {n : Int} (hn : (bs.map Block.id).Nodup) (hb : ∀ b ∈ bs, s.blocks b.id = some b) :
    (∀ b ∈ bs, (s.shiftStored bs n).blocks b.id = some { b with documentPosition := b.documentPosition + n }) ∧
    (∀ i, i ∉ bs.map Block.id → (s.shiftStored bs n).blocks i = s.blocks i) ∧
    ∃ m, s.shiftStored bs n = { s with blocks := m } := by
  unfold Store.shiftStored
  have e : ((bs.map fun b => ({ b with documentPosition := b.documentPosition + n } : Block)).map Block.id) =
      bs.map Block.id := by simp [Function.comp_def]
  obtain ⟨k1, k2, k3⟩ := updateBlocks_get (s := s)
    (bs.map fun b => ({ b with documentPosition := b.documentPosition + n } : Block)) (by rw [e]; exact hn)
  refine ⟨?_, ?_, k3⟩
  · intro b hbm
    have := k1 _ (List.mem_map.mpr ⟨b, hbm, rfl⟩)
    rw [show (s.updateBlocks _).blocks b.id = _ from this]
    simp [hb b hbm, keepBlock]
  · intro i hi; exact k2 i (by rw [e]; exact hi)

theorem staleAfter_congr {did : Nat} {blk : Block} (hd : s'.documents = s.documents) (hf : s'.frames = s.frames)
    (hb : ∀ i, s'.blocks i = s.blocks i) : s'.staleAfter did blk = s.staleAfter did blk := by
  unfold Store.staleAfter Store.docFrames Store.getBlocks Store.frameBlocks
  rw [hd, hf]
  simp only [hb]

/-- Paragraphs with one replaced. -/
theorem map_replace {p : SPara} {X Y : List SPara} (hn : ((X ++ p :: Y).map SPara.id).Nodup) (p' : SPara) :
    (X ++ p :: Y).map (fun q => if q.id = p.id then p' else q) = X ++ p' :: Y := by
  rw [List.map_append, List.map_cons, if_pos rfl]
  simp only [List.map_append, List.map_cons, List.nodup_append, List.nodup_cons] at hn
  congr 1
  · have : ∀ q ∈ X, (if q.id = p.id then p' else q) = q := by
      intro q hq
      rw [if_neg]
      intro e
      exact hn.2.2 _ (List.mem_map_of_mem hq) _ (List.mem_cons_self ..) e
    rw [List.map_congr_left this]; simp
  · congr 1
    have : ∀ q ∈ Y, (if q.id = p.id then p' else q) = q := by
      intro q hq
      rw [if_neg]
      intro e
      exact hn.2.1.1 (e ▸ List.mem_map_of_mem hq)
    rw [List.map_congr_left this]; simp

/-- `insert_text` without a selection. -/
theorem Tabled.insertSimple {p : SPara} {X Y : List SPara} {a b : List SChar} {dto : InsertTextDto} (h : Tabled s d f items)
    (e : flowParas items = X ++ p :: Y) (hc : p.chars = a ++ b)
    (hpos : dto.position = ((charsBefore (paras X) + a.length : Nat) : Int)) :
    ∃ s', s.insertSimple dto = some (s', ⟨dto.position + dto.text.length, 1⟩,
        .simple ⟨p.id, p.entity (s.storedPos p), s.runsOf p.id, s.imagesOf p.id, d.id,
          d.characterCount, utf8Len (a.map Prod.fst), utf8Len dto.text⟩) ∧
      Tabled s' { d with characterCount := d.characterCount + dto.text.length } f
        (items.map (SItem.on fun q => if q.id = p.id then { q with chars := a ++ styled dto.text (inheritFmt a) ++ b } else q)) ∧
      SameShell s s' ∧ s'.counters = s.counters := by
  obtain ⟨L, hH, hsub⟩ := h.content
  have hpm : p ∈ flowParas items := by rw [e]; simp
  have hn := hH.ids_nodup
  have hblk := isBlock_entity p (s.storedPos p)
  have hst := hH.stored hpm
  have hH' := hH
  rw [e] at hH'
  obtain ⟨s1, e1, hs1, hd1, hb1, hc1, hsh1⟩ := hH'.insertInto dto.text hc hblk
  have hg : ∀ q : SPara, (if q.id = p.id then { q with chars := a ++ styled dto.text (inheritFmt a) ++ b } else q).id = q.id := by
    intro q; split <;> rfl
  have hmap : (flowParas items).map (fun q => if q.id = p.id then { q with chars := a ++ styled dto.text (inheritFmt a) ++ b } else q) =
      X ++ { p with chars := a ++ styled dto.text (inheritFmt a) ++ b } :: Y := by
    rw [← map_replace (p := p) (by rw [← e]; exact hn), ← e]
    apply List.map_congr_left
    intro q hq
    by_cases hq' : q.id = p.id
    · rw [if_pos hq', if_pos hq', hH.unique hpm hq hq']
    · rw [if_neg hq', if_neg hq']
  have hb1' : ∀ i, s1.blocks i = s.blocks i := by
    intro i
    rw [hb1]
    by_cases hi : i = p.id
    · subst hi
      simp only [Store.updateBlock, SPara.entity, IdMap.insert_get, if_true]
      rw [hst]
      simp [keepBlock, SPara.entity]
    · simp only [Store.updateBlock, SPara.entity, IdMap.insert_get, if_neg hi]
  have hsub1 : (paras ((topParas items).map fun q => if q.id = p.id then { q with chars := a ++ styled dto.text (inheritFmt a) ++ b } else q)).Sublist
      (L.map (retext p.id ((a ++ styled dto.text (inheritFmt a) ++ b).map Prod.fst))) := by
    rw [← paras_retext]; exact hsub.map _
  have hn1 : ∀ k, s1.next k = s.next k := by intro k; unfold Store.next; rw [hc1]
  unfold Store.insertSimple
  rw [h.docIdOf, Option.bind_some, h.document, Option.bind_some, hpos, h.locateSimple e hc, Option.bind_some]
  dsimp only
  rw [e1, Option.bind_some]
  dsimp only
  rw [hs1.matchFlow]
  have fin : ∀ s2 m, s2 = { s1 with blocks := m } →
      Carries s2 (L.map (retext p.id ((a ++ styled dto.text (inheritFmt a) ++ b).map Prod.fst)))
        (X ++ { p with chars := a ++ styled dto.text (inheritFmt a) ++ b } :: Y) ((tablesOf items).map fun t => t.table.id) →
      (tablesOf items ≠ [] → Seated s2 (X ++ { p with chars := a ++ styled dto.text (inheritFmt a) ++ b } :: Y)) →
      Tabled (s2.updateDocument { d with characterCount := d.characterCount + dto.text.length })
        { d with characterCount := d.characterCount + dto.text.length } f
        (items.map (SItem.on fun q => if q.id = p.id then { q with chars := a ++ styled dto.text (inheritFmt a) ++ b } else q)) ∧
      SameShell s (s2.updateDocument { d with characterCount := d.characterCount + dto.text.length }) ∧
      (s2.updateDocument { d with characterCount := d.characterCount + dto.text.length }).counters = s.counters := by
    intro s2 m es2 hC hS
    refine ⟨?_, ?_, by rw [es2]; exact hc1⟩
    · refine h.on hg (d' := { d with characterCount := d.characterCount + dto.text.length })
        (L := L.map (retext p.id ((a ++ styled dto.text (inheritFmt a) ++ b).map Prod.fst)))
        ?_ hsub1 ?_ ?_ rfl rfl rfl ?_ ?_ ?_ ?_ ?_
      · rw [hmap]; exact hC.of_same rfl rfl rfl rfl rfl
      · rw [hmap]; exact hS
      · rw [es2]
        simp only [Store.updateDocument, IdMap.insert_get, if_true]
        rw [hd1, h.document]
        rfl
      · rw [es2]; exact hsh1.roots
      · rw [es2]; exact hsh1.frames
      · rw [es2]; exact hsh1.tables
      · rw [es2]; exact hsh1.tableCells
      · intro k; rw [es2]; exact hn1 k
    · rw [es2]
      exact ⟨hsh1.roots, hsh1.frames, hsh1.lists, hsh1.resources, hsh1.tables, hsh1.tableCells⟩
  by_cases ht : tablesOf items = []
  · rw [if_pos (by simp [ht])]
    refine ⟨_, ?_, fin s1 s1.blocks rfl hs1 fun h' => absurd ht h'⟩
    congr 2
  · rw [if_neg (by simp [ht])]
    have hpl : Placed s (X ++ p :: Y) := by rw [← e]; exact placed_of_seated (h.seated ht)
    obtain ⟨b0, q1, q2⟩ := hpl X p Y rfl
    have hsp : s.storedPos p = (charsBefore (paras X) : Int) := by simp [Store.storedPos, q1, q2]
    rw [staleAfter_congr hd1 hsh1.frames hb1']
    have hall := h.blocksOf
    have hids : (((s.docFrames d.id).flatMap fun f => s.getBlocks (s.frameBlocks f)).map Block.id).Nodup := by
      refine (hall.map Block.id).nodup_iff.mpr ?_
      rw [List.map_map]; exact hn
    have hmem : ∀ x, x ∈ s.staleAfter d.id (p.entity (s.storedPos p)) ↔
        ∃ q ∈ flowParas items, x = q.entity (s.storedPos q) ∧ q.id ≠ p.id ∧ s.storedPos q > charsBefore (paras X) := by
      intro x
      unfold Store.staleAfter
      rw [List.mem_filter, hall.mem_iff, List.mem_map]
      constructor
      · rintro ⟨⟨q, hq, rfl⟩, h2⟩
        simp [SPara.entity, hsp] at h2
        exact ⟨q, hq, rfl, h2.1, by simpa using h2.2⟩
      · rintro ⟨q, hq, rfl, h2, h3⟩
        refine ⟨⟨q, hq, rfl⟩, ?_⟩
        simp [SPara.entity, hsp, h2]
        exact h3
    have hstale : ((s.staleAfter d.id (p.entity (s.storedPos p))).map Block.id).Nodup :=
      (List.filter_sublist.map _).nodup hids
    have hstored : ∀ x ∈ s.staleAfter d.id (p.entity (s.storedPos p)), s1.blocks x.id = some x := by
      intro x hx
      obtain ⟨q, hq, rfl, _⟩ := (hmem x).mp hx
      rw [hb1']; exact hH.stored hq
    obtain ⟨k1, k2, m, k3⟩ := shiftStored_get (s := s1) (n := (dto.text.length : Int)) hstale hstored
    refine ⟨_, ?_, fin _ m k3 ?_ fun _ => seated_of_placed ?_⟩
    · congr 2
    · unfold Store.shiftStored
      apply hs1.updateBlocks
      intro x hx
      obtain ⟨y, hy, rfl⟩ := List.mem_map.mp hx
      obtain ⟨q, hq, rfl, hne, _⟩ := (hmem y).mp hy
      refine ⟨q, ?_, rfl⟩
      rw [e] at hq
      rcases List.mem_append.mp hq with hq | hq
      · exact List.mem_append_left _ hq
      · rcases List.mem_cons.mp hq with rfl | hq
        · exact absurd rfl hne
        · simp [hq]
    · refine placed_resized (n := dto.text.length) hpl rfl ?_ ?_
      · simp [hc, styled]; omega
      · intro q hq bq hbq
        rw [← e] at hq
        have hbq' := hbq
        rw [hH.stored hq] at hbq'
        cases hbq'
        by_cases hgt : s.storedPos q > (charsBefore (paras X) : Int)
        · have hqp : q.id ≠ p.id := by
            intro he
            have := hH.unique hpm hq he
            rw [this, hsp] at hgt
            omega
          have := k1 _ ((hmem _).mpr ⟨q, hq, rfl, hqp, hgt⟩)
          refine ⟨_, this, ?_⟩
          rw [if_pos (by simpa [SPara.entity] using hgt)]
        · refine ⟨_, (k2 q.id ?_).trans ((hb1' q.id).trans (hH.stored hq)), ?_⟩
          · intro hm
            obtain ⟨x, hx, hxe⟩ := List.mem_map.mp hm
            obtain ⟨q', hq', rfl, _, hgt'⟩ := (hmem x).mp hx
            have := hH.unique hq hq' hxe
            rw [this] at hgt'
            exact hgt hgt'
          · rw [if_neg (by simpa [SPara.entity] using hgt)]

end Verif
