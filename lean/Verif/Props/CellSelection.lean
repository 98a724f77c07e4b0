import Verif.Model.CellSelection
import Verif.Spec.CellSelection
import Verif.Props.BoxFormats
import Verif.Props.Grid
/-
C74: what kind of selection a cursor has in a document with tables, which cells it takes in, and the calls that work on
the table, row, column or cell the cursor is in.
-/
namespace Verif
variable {s : Store} {d : Document} {f : Nat} {items A B : List SItem} {t u : STable} {c c' : SCell} {n pos anchor : Nat}
open Store

theorem expandForSpans_more {cells : List (Nat × Nat × Nat × Nat)} {R : CellRange} : ∀ {n : Nat} {r : CellRange},
    expandForSpans cells n r = some R → ∀ m, n ≤ m → expandForSpans cells m r = some R := by
  intro n
  induction n with
  | zero => intro r h; cases h
  | succ n ih =>
    intro r h m hm
    obtain ⟨k, rfl⟩ : ∃ k, m = k + 1 := ⟨m - 1, by omega⟩
    rw [expandForSpans] at h ⊢
    split at h
    · rename_i hx; rw [if_pos hx]; exact ih h k (by omega)
    · rename_i hx; rw [if_neg hx]; exact h

theorem InCell.cellAt (h : Tabled s d f items) {x : Nat} (hx : InCell items t c x) :
    s.tableCellAt x = some (t.table.id, c.cell.row, c.cell.column) := by
  obtain ⟨ht, hc, m, p, k, hp, hpc, hk, rfl⟩ := hx
  exact (C71_cell_at h hp hk).1 ht hc hpc

theorem Tabled.same_place (h : Tabled s d f items) (ht : t ∈ tablesOf items) (hc : c ∈ t.cells) (hc' : c' ∈ t.cells)
    (hr : c.cell.row = c'.cell.row) (hk : c.cell.column = c'.cell.column) : c = c' := by
  have ho := (h.table t ht).order
  clear ht
  generalize t.cells = l at ho hc hc'
  induction l with
  | nil => cases hc
  | cons x l ih =>
    rw [List.pairwise_cons] at ho
    rcases List.mem_cons.mp hc with rfl | h1 <;> rcases List.mem_cons.mp hc' with rfl | h2
    · rfl
    · have := ho.1 _ h2; simp only [SCell.before] at this; omega
    · have := ho.1 _ h1; simp only [SCell.before] at this; omega
    · exact ih ho.2 h1 h2

/-- An explicit selection of cells is what it was set to; without it a cursor without selection selects nothing. -/
theorem C74_explicit (r : Nat × CellRange) :
    s.selectionKind n (some r) pos anchor = some (.cells r.1 r.2) ∧ s.selectionKind n none pos pos = some .none := by
  refine ⟨rfl, ?_⟩
  unfold Store.selectionKind
  rw [if_pos rfl]

/-- Inside one cell, and from a cell of one table to a cell of another, the selection is text. -/
theorem C74_text (h : Tabled s d f items) (hp : InCell items t c pos) (ha : InCell items u c' anchor) (hne : pos ≠ anchor)
    (hs : t.table.id ≠ u.table.id ∨ t = u ∧ c = c') : s.selectionKind n none pos anchor = some .text := by
  unfold Store.selectionKind
  rw [if_neg hne, hp.cellAt h, ha.cellAt h]
  dsimp only
  rcases hs with hs | ⟨rfl, rfl⟩
  · rw [if_pos hs]
  · rw [if_neg (by simp), if_pos ⟨rfl, rfl⟩]

theorem Tabled.cellSpans (h : Tabled s d f items) (ht : t ∈ tablesOf items) (hs : t.Sound) (x : Nat × Nat × Nat × Nat) :
    x ∈ s.cellSpans t.table.id ↔ ∃ c ∈ t.cells, x = (c.cell.row.toNat, c.cell.column.toNat, c.cell.rowSpan.toNat, c.cell.columnSpan.toNat) := by
  have hT := h.table t ht
  have hspan : ∀ c ∈ t.cells, 1 ≤ c.cell.rowSpan ∧ 1 ≤ c.cell.columnSpan := fun c hc => hs.tiling.span _ (List.mem_map.mpr ⟨c, hc, rfl⟩)
  unfold Store.cellSpans
  rw [hT.table, Option.map_some, Option.getD_some, List.mem_filterMap]
  constructor
  · rintro ⟨i, hi, hx⟩
    obtain ⟨c, hc, rfl⟩ := List.mem_map.mp (hT.cells.mem_iff.mp hi)
    rw [(hT.cell c hc).1, Option.map_some, Option.some.injEq] at hx
    have := hspan c hc
    refine ⟨c, hc, hx.symm.trans ?_⟩
    rw [Int.max_eq_left this.1, Int.max_eq_left this.2]
  · rintro ⟨c, hc, rfl⟩
    refine ⟨c.cell.id, hT.cells.mem_iff.mpr (List.mem_map.mpr ⟨c, hc, rfl⟩), ?_⟩
    have := hspan c hc
    rw [(hT.cell c hc).1, Option.map_some, Int.max_eq_left this.1, Int.max_eq_left this.2]

theorem STable.Sound.inside (hs : t.Sound) (hc : c ∈ t.cells) : 0 ≤ c.cell.row ∧ c.cell.row + c.cell.rowSpan ≤ t.table.rows ∧
    0 ≤ c.cell.column ∧ c.cell.column + c.cell.columnSpan ≤ t.table.columns ∧ 1 ≤ c.cell.rowSpan ∧ 1 ≤ c.cell.columnSpan := by
  have h1 := hs.tiling.inside _ (List.mem_map.mpr ⟨c, hc, rfl⟩)
  have h2 := hs.tiling.span _ (List.mem_map.mpr ⟨c, hc, rfl⟩)
  exact ⟨h1.1, h1.2.1, h1.2.2.1, h1.2.2.2, h2⟩

theorem STable.Sound.rect (hs : t.Sound) (hc : c ∈ t.cells) :
    cellRect (c.cell.row.toNat, c.cell.column.toNat, c.cell.rowSpan.toNat, c.cell.columnSpan.toNat) = c.rect := by
  have := hs.inside hc
  simp only [cellRect, SCell.rect, CellRange.mk.injEq, true_and]
  omega

theorem Tabled.cutsNone (h : Tabled s d f items) (ht : t ∈ tablesOf items) (hs : t.Sound) (R : CellRange) :
    R.cutsNone (s.cellSpans t.table.id) ↔ ∀ c ∈ t.cells, c.rect.meets R → c.rect.within R := by
  constructor
  · intro hR c hc
    rw [← hs.rect hc]
    exact hR _ ((h.cellSpans ht hs _).mpr ⟨c, hc, rfl⟩)
  · intro hR x hx
    obtain ⟨c, hc, rfl⟩ := (h.cellSpans ht hs x).mp hx
    rw [hs.rect hc]
    exact hR c hc

/-- From one cell of a table to another the selection is the smallest rectangle of cells that takes in both and cuts no
merged cell. -/
theorem C74_cells (h : Tabled s d f items) (hs : t.Sound) (hp : InCell items t c pos) (ha : InCell items t c' anchor) (hne : c ≠ c') :
    ∃ R n₀, (∀ n, n₀ ≤ n → s.selectionKind n none pos anchor = some (.cells t.table.id R)) ∧
      Takes t c c' R ∧ ∀ R', Takes t c c' R' → R.within R' := by
  obtain ⟨n₀, R, h1, h2, h3, h4⟩ := C39_expand (s.cellSpans t.table.id) ⟨min c.cell.row.toNat c'.cell.row.toNat,
    min c.cell.column.toNat c'.cell.column.toNat, max c.cell.row.toNat c'.cell.row.toNat,
    max c.cell.column.toNat c'.cell.column.toNat⟩
  have hpos : pos ≠ anchor := by
    rintro rfl
    have := (hp.cellAt h).symm.trans (ha.cellAt h)
    simp only [Option.some.injEq, Prod.mk.injEq, true_and] at this
    exact hne (h.same_place hp.1 hp.2.1 ha.2.1 this.1 this.2)
  have i1 := hs.inside hp.2.1
  have i2 := hs.inside ha.2.1
  have hcut := (h.cutsNone hp.1 hs R).mp h3
  refine ⟨R, n₀, ?_, ⟨?_, ?_, hcut⟩, ?_⟩
  · intro n hn
    unfold Store.selectionKind
    rw [if_neg hpos, hp.cellAt h, ha.cellAt h]
    dsimp only
    rw [if_neg (by simp), if_neg (by rintro ⟨e1, e2⟩; exact hne (h.same_place hp.1 hp.2.1 ha.2.1 e1 e2)), expandForSpans_more h1 n hn]
    rfl
  · apply hcut c hp.2.1
    simp only [CellRange.within, CellRange.meets, SCell.rect] at h2 ⊢
    omega
  · apply hcut c' ha.2.1
    simp only [CellRange.within, CellRange.meets, SCell.rect] at h2 ⊢
    omega
  · intro R' hR'
    apply h4 R' _ ((h.cutsNone hp.1 hs R').mpr hR'.whole)
    have k1 := hR'.first
    have k2 := hR'.second
    simp only [CellRange.within, SCell.rect] at k1 k2 ⊢
    omega

/-- The whole grid. -/
theorem Tabled.wholeRange (h : Tabled s d f items) (ht : t ∈ tablesOf items) (hs : t.Sound) :
    s.wholeRange t.table.id = ⟨0, 0, (t.table.rows - 1).toNat, (t.table.columns - 1).toNat⟩ := by
  obtain ⟨h1, h2, _⟩ := C72_table h ht
  have := hs.rows
  have := hs.columns
  unfold Store.wholeRange
  rw [h1, h2, if_pos (by omega), if_pos (by omega)]
  simp only [CellRange.mk.injEq, true_and]
  omega

theorem Tabled.expand_whole (h : Tabled s d f items) (ht : t ∈ tablesOf items) (hs : t.Sound) (n : Nat) :
    expandForSpans (s.cellSpans t.table.id) (n + 1) (s.wholeRange t.table.id) =
      some ⟨0, 0, (t.table.rows - 1).toNat, (t.table.columns - 1).toNat⟩ := by
  rw [h.wholeRange ht hs]
  have key : ∀ (l : List (Nat × Nat × Nat × Nat)) (b : Bool), (∀ x ∈ l, x ∈ s.cellSpans t.table.id) →
      l.foldl expandStep (⟨0, 0, (t.table.rows - 1).toNat, (t.table.columns - 1).toNat⟩, b) =
        (⟨0, 0, (t.table.rows - 1).toNat, (t.table.columns - 1).toNat⟩, b) := by
    intro l
    induction l with
    | nil => intro b _; rfl
    | cons x l ih =>
      intro b hl
      rw [List.foldl_cons]
      have hx : expandStep (⟨0, 0, (t.table.rows - 1).toNat, (t.table.columns - 1).toNat⟩, b) x =
          (⟨0, 0, (t.table.rows - 1).toNat, (t.table.columns - 1).toNat⟩, b) := by
        obtain ⟨c, hc, rfl⟩ := (h.cellSpans ht hs x).mp (hl x (by simp))
        have := hs.inside hc
        simp only [expandStep]
        rw [if_neg (by omega : ¬ c.cell.row.toNat < 0)]
        dsimp only
        rw [if_neg (by omega : ¬ _ > (t.table.rows - 1).toNat)]
        dsimp only
        rw [if_neg (by omega : ¬ c.cell.column.toNat < 0)]
        dsimp only
        rw [if_neg (by omega : ¬ _ > (t.table.columns - 1).toNat)]
        split <;> rfl
      rw [hx]
      exact ih b fun y hy => hl y (by simp [hy])
  rw [expandForSpans, expandPass, key _ _ fun x hx => hx]
  rfl

/-- From inside a table to outside the selection takes in all cells of the table, and it says on which side text is
selected with it. -/
theorem C74_mixed (h : Tabled s d f items) (hs : t.Sound) {x y : Nat} (hx : InCell items t c x) (hy : OutOfTables items y) :
    s.selectionKind (n + 1) none x y =
      some (.mixed t.table.id ⟨0, 0, (t.table.rows - 1).toNat, (t.table.columns - 1).toNat⟩ (decide (y < x)) (!decide (y < x))) ∧
    s.selectionKind (n + 1) none y x =
      some (.mixed t.table.id ⟨0, 0, (t.table.rows - 1).toNat, (t.table.columns - 1).toNat⟩ (decide (y < x)) (!decide (y < x))) := by
  have hne : x ≠ y := by
    rintro rfl
    have := hx.cellAt h
    rw [h.cellAt_out hy] at this; cases this
  constructor
  · unfold Store.selectionKind
    rw [if_neg hne, hx.cellAt h, h.cellAt_out hy]
    dsimp only
    rw [h.expand_whole hx.1 hs]; rfl
  · unfold Store.selectionKind
    rw [if_neg (Ne.symm hne), hx.cellAt h, h.cellAt_out hy]
    dsimp only
    rw [h.expand_whole hx.1 hs]; rfl

/-- The first paragraph of the first cell. -/
theorem Tabled.origin_some (h : Tabled s d f items) (ht : t ∈ tablesOf items) {start stop : Nat}
    (ho : s.originBetween start stop t.table.id = true) : ∃ z, InTable items t z ∧ start < z ∧ z < stop := by
  obtain ⟨A, B, e⟩ := List.append_of_mem (mem_tablesOf.mp ht)
  unfold Store.originBetween at ho
  obtain ⟨_, _, _, c4, c5⟩ := C72_table h ht
  by_cases hc : ∃ c ∈ t.cells, c.cell.row = ((0 : Nat) : Int) ∧ c.cell.column = ((0 : Nat) : Int)
  · obtain ⟨c, hc, hr, hk⟩ := hc
    obtain ⟨q, rest, hq⟩ : ∃ q rest, c.paras = q :: rest := by
      have := ((h.table t ht).cell c hc).2.2.1
      cases hcp : c.paras with
      | nil => exact absurd hcp this
      | cons q rest => exact ⟨q, rest, rfl⟩
    rw [(c4 c hc 0 0 hr hk).1, Option.bind_some, (C72_cell h ht hc).1, hq] at ho
    simp only [List.map_cons, List.head?_cons, Bool.and_eq_true, decide_eq_true_eq] at ho
    obtain ⟨j, hj⟩ := List.getElem?_of_mem (List.mem_flatMap.mpr ⟨c, hc, by rw [hq]; simp⟩ : q ∈ t.cells.flatMap SCell.paras)
    have hpos : s.blockPosition q.id = paraStart (flowParas items) ((flowParas A).length + j) :=
      h.reads.position (by rw [e]; exact at_table hj)
    rw [hpos] at ho
    exact ⟨_, ⟨A, B, j, q, 0, e, hj, by omega, rfl⟩, by omega, by omega⟩
  · rw [c5 0 0 (by intro c hc' hh; exact hc ⟨c, hc', hh⟩)] at ho
    cases ho

theorem STable.Sound.origin (hs : t.Sound) : ∃ c ∈ t.cells, c.cell.row = ((0 : Nat) : Int) ∧ c.cell.column = ((0 : Nat) : Int) := by
  have h1 := hs.tiling.once 0 0 (by omega) (by have := hs.rows; omega) (by omega) (by have := hs.columns; omega)
  obtain ⟨x, hx⟩ := List.exists_mem_of_length_pos (by rw [h1]; omega : 0 < _)
  obtain ⟨hx, hcov⟩ := List.mem_filter.mp hx
  obtain ⟨c, hc, rfl⟩ := List.mem_map.mp hx
  have := hs.inside hc
  simp only [TableCell.covers, decide_eq_true_eq] at hcov
  exact ⟨c, hc, by omega, by omega⟩

theorem Tabled.origin_sound (h : Tabled s d f items) (ht : t ∈ tablesOf items) (hs : t.Sound) :
    ∃ z, InTable items t z ∧ ∀ start stop, s.originBetween start stop t.table.id = (decide (z > start) && decide (z < stop)) := by
  obtain ⟨A, B, e⟩ := List.append_of_mem (mem_tablesOf.mp ht)
  obtain ⟨_, _, _, c4, c5⟩ := C72_table h ht
  obtain ⟨c, hc, hr, hk⟩ := hs.origin
  obtain ⟨q, rest, hq⟩ : ∃ q rest, c.paras = q :: rest := by
    have := ((h.table t ht).cell c hc).2.2.1
    cases hcp : c.paras with
    | nil => exact absurd hcp this
    | cons q rest => exact ⟨q, rest, rfl⟩
  obtain ⟨j, hj⟩ := List.getElem?_of_mem (List.mem_flatMap.mpr ⟨c, hc, by rw [hq]; simp⟩ : q ∈ t.cells.flatMap SCell.paras)
  have hpos : s.blockPosition q.id = paraStart (flowParas items) ((flowParas A).length + j) :=
    h.reads.position (by rw [e]; exact at_table hj)
  refine ⟨paraStart (flowParas items) ((flowParas A).length + j), ⟨A, B, j, q, 0, e, hj, by omega, rfl⟩, fun start stop => ?_⟩
  unfold Store.originBetween
  rw [(c4 c hc 0 0 hr hk).1, Option.bind_some, (C72_cell h ht hc).1, hq]
  simp only [List.map_cons, List.head?_cons, hpos]

theorem Tabled.between_skip (h : Tabled s d f items) {start stop : Nat} : ∀ (C : List SItem) (D : List FlowItem), (∀ x ∈ C, x ∈ items) →
    (∀ u ∈ tablesOf C, ∀ z, InTable items u z → ¬ (start < z ∧ z < stop)) →
    ((C.map SItem.flow) ++ D).findSome? (fun | .table t => if s.originBetween start stop t then some t else none | _ => none) =
      D.findSome? (fun | .table t => if s.originBetween start stop t then some t else none | _ => none) := by
  intro C
  induction C with
  | nil => intro D _ _; rfl
  | cons x C ih =>
    intro D hC hno
    rw [List.map_cons, List.cons_append, List.findSome?_cons]
    cases x with
    | para p => exact ih D (fun y hy => hC y (by simp [hy])) hno
    | table u =>
      have hu : s.originBetween start stop u.table.id = false := by
        cases ho : s.originBetween start stop u.table.id with
        | false => rfl
        | true =>
          obtain ⟨z, hz, hz'⟩ := h.origin_some (mem_tablesOf.mpr (hC _ (by simp))) ho
          exact absurd hz' (hno u (by rw [tablesOf_table]; simp) z hz)
      simp only [SItem.flow, hu, Bool.false_eq_true, if_false]
      exact ih D (fun y hy => hC y (by simp [hy])) fun u hu => hno u (by rw [tablesOf_table]; simp [hu])

/-- Outside the tables, with no table in between, the selection is text. -/
theorem C74_outside (h : Tabled s d f items) (hp : OutOfTables items pos) (ha : OutOfTables items anchor) (hne : pos ≠ anchor)
    (hno : ∀ u z, InTable items u z → ¬ (min pos anchor < z ∧ z < max pos anchor)) :
    s.selectionKind n none pos anchor = some .text := by
  unfold Store.selectionKind
  rw [if_neg hne, h.cellAt_out hp, h.cellAt_out ha]
  dsimp only
  have : s.findTableBetween (min pos anchor) (max pos anchor) = none := by
    unfold Store.findTableBetween
    rw [C72_flow h]
    have := h.between_skip (start := min pos anchor) (stop := max pos anchor) items [] (fun x hx => hx) fun u _ z hz => hno u z hz
    rw [List.append_nil] at this
    refine Eq.trans ?_ this
    congr 1
  rw [this]

/-- Outside the tables, with a table in between, the selection takes in all cells of the first such table, and text on
both sides. -/
theorem C74_around (h : Tabled s d f (A ++ .table t :: B)) (hs : t.Sound) (hp : OutOfTables (A ++ .table t :: B) pos)
    (ha : OutOfTables (A ++ .table t :: B) anchor) {z : Nat} (hz : InTable (A ++ .table t :: B) t z)
    (hb : min pos anchor < z ∧ z < max pos anchor)
    (hno : ∀ u ∈ tablesOf A, ∀ z, InTable (A ++ .table t :: B) u z → ¬ (min pos anchor < z ∧ z < max pos anchor)) :
    s.selectionKind (n + 1) none pos anchor =
      some (.mixed t.table.id ⟨0, 0, (t.table.rows - 1).toNat, (t.table.columns - 1).toNat⟩ true true) := by
  have ht : t ∈ tablesOf (A ++ .table t :: B) := mem_tablesOf.mpr (by simp)
  unfold Store.selectionKind
  rw [if_neg (by rintro rfl; omega), h.cellAt_out hp, h.cellAt_out ha]
  dsimp only
  have : s.findTableBetween (min pos anchor) (max pos anchor) = some t.table.id := by
    obtain ⟨w, hw, ho⟩ := h.origin_sound ht hs
    have hmin : OutOfTables (A ++ .table t :: B) (min pos anchor) := by
      rcases Nat.le_total pos anchor with e | e
      · rw [Nat.min_eq_left e]; exact hp
      · rw [Nat.min_eq_right e]; exact ha
    have hmax : OutOfTables (A ++ .table t :: B) (max pos anchor) := by
      rcases Nat.le_total pos anchor with e | e
      · rw [Nat.max_eq_right e]; exact ha
      · rw [Nat.max_eq_left e]; exact hp
    have h1 := (h.before_table hmin hz hw).1 hb.1
    have h2 := (h.before_table hmax hz hw).2 hb.2
    unfold Store.findTableBetween
    rw [C72_flow h]
    have hk := h.between_skip (start := min pos anchor) (stop := max pos anchor) A ((SItem.table t :: B).map SItem.flow)
      (fun x hx => by simp [hx]) hno
    rw [List.map_append] 
    refine Eq.trans ?_ (hk.trans ?_)
    · congr 1
    · rw [List.map_cons, List.findSome?_cons]
      simp only [SItem.flow, ho]
      rw [decide_eq_true h1, decide_eq_true h2]
      rfl
  rw [this]
  dsimp only
  rw [h.expand_whole ht hs]; rfl

/-- Two lists in the same strict order with the same members are equal. -/
theorem sorted_eq {α : Type} {lt : α → α → Prop} (irr : ∀ a, ¬ lt a a) (asym : ∀ a b, lt a b → ¬ lt b a) : ∀ {l l' : List α},
    l.Pairwise lt → l'.Pairwise lt → (∀ x, x ∈ l ↔ x ∈ l') → l = l' := by
  intro l
  induction l with
  | nil =>
    intro l' _ _ h
    cases l' with
    | nil => rfl
    | cons x l' => exact absurd ((h x).mpr (by simp)) (by simp)
  | cons a l ih =>
    intro l' h1 h2 h
    cases l' with
    | nil => exact absurd ((h a).mp (by simp)) (by simp)
    | cons b l' =>
      rw [List.pairwise_cons] at h1 h2
      have hab : a = b := by
        rcases List.mem_cons.mp ((h a).mp (by simp)) with e | ha
        · exact e
        · rcases List.mem_cons.mp ((h b).mpr (by simp)) with e | hb
          · exact e.symm
          · exact absurd (h1.1 b hb) (asym _ _ (h2.1 a ha))
      subst hab
      congr 1
      apply ih h1.2 h2.2
      intro x
      have hx := h x
      simp only [List.mem_cons] at hx
      constructor
      · intro hm
        rcases hx.mp (.inr hm) with e | e
        · subst e; exact absurd (h1.1 x hm) (irr x)
        · exact e
      · intro hm
        rcases hx.mpr (.inr hm) with e | e
        · subst e; exact absurd (h2.1 x hm) (irr x)
        · exact e

/-- The cells taken in by a range: those that start in it, in reading order. -/
theorem C74_selected_cells (h : Tabled s d f items) (ht : t ∈ tablesOf items) (R : CellRange) :
    s.cellsInRange t.table.id R = (t.cells.filter fun c => c.startsIn R).map fun c => (c.cell.row.toNat, c.cell.column.toNat) := by
  obtain ⟨_, _, _, c4, c5⟩ := C72_table h ht
  apply sorted_eq (lt := fun a b : Nat × Nat => a.1 < b.1 ∨ a.1 = b.1 ∧ a.2 < b.2) (fun a => by omega) (fun a b => by omega)
  · unfold Store.cellsInRange
    rw [List.pairwise_flatMap]
    constructor
    · intro row _
      rw [List.pairwise_filterMap]
      refine List.Pairwise.imp ?_ (List.pairwise_lt_range' (s := R.startCol) (n := R.endCol + 1 - R.startCol))
      intro a b hab x hx y hy
      split at hx <;> split at hy <;> simp only [Option.some.injEq, reduceCtorEq] at hx hy
      subst hx; subst hy
      exact .inr ⟨rfl, hab⟩
    · refine List.Pairwise.imp ?_ (List.pairwise_lt_range' (s := R.startRow) (n := R.endRow + 1 - R.startRow))
      intro a b hab x hx y hy
      obtain ⟨k, _, hx⟩ := List.mem_filterMap.mp hx
      obtain ⟨k', _, hy⟩ := List.mem_filterMap.mp hy
      split at hx <;> split at hy <;> simp only [Option.some.injEq, reduceCtorEq] at hx hy
      subst hx; subst hy
      exact .inl hab
  · rw [List.pairwise_map]
    have ho := (h.table t ht).order.filter fun c => c.startsIn R
    refine ho.imp_of_mem ?_
    intro a b ha hb hab
    have h1 := (List.mem_filter.mp ha).2
    have h2 := (List.mem_filter.mp hb).2
    simp only [SCell.startsIn, decide_eq_true_eq] at h1 h2
    simp only [SCell.before] at hab
    omega
  · intro x
    unfold Store.cellsInRange
    rw [List.mem_flatMap, List.mem_map]
    constructor
    · rintro ⟨row, hrow, hx⟩
      obtain ⟨col, hcol, hx⟩ := List.mem_filterMap.mp hx
      rw [List.mem_range'_1] at hrow hcol
      by_cases hc : ∃ c ∈ t.cells, c.cell.row = ((row : Nat) : Int) ∧ c.cell.column = ((col : Nat) : Int)
      · obtain ⟨c, hc, hr, hk⟩ := hc
        rw [(c4 c hc row col hr hk).1] at hx
        simp only [Option.isSome_some, if_true, Option.some.injEq] at hx
        refine ⟨c, List.mem_filter.mpr ⟨hc, ?_⟩, ?_⟩
        · simp only [SCell.startsIn, decide_eq_true_eq]; omega
        · rw [← hx, hr, hk]; rfl
      · rw [c5 row col (by intro c hc' hh; exact hc ⟨c, hc', hh⟩)] at hx
        simp at hx
    · rintro ⟨c, hc, rfl⟩
      obtain ⟨hc, hin⟩ := List.mem_filter.mp hc
      simp only [SCell.startsIn, decide_eq_true_eq] at hin
      refine ⟨c.cell.row.toNat, List.mem_range'_1.mpr (by omega), List.mem_filterMap.mpr ⟨c.cell.column.toNat, List.mem_range'_1.mpr (by omega), ?_⟩⟩
      rw [(c4 c hc c.cell.row.toNat c.cell.column.toNat (by omega) (by omega)).1]
      rfl

/-- `selected_cells` by what is selected: from one cell of a table to another it lists the cells of the smallest rectangle that takes in both;
from a cell to text outside of tables all cells of the table; within a cell, or without a selection, none. -/
theorem C74_selected (h : Tabled s d f items) (hs : t.Sound) (hp : InCell items t c pos) :
    (∀ c' anchor, InCell items t c' anchor → c ≠ c' → ∃ R n₀, Takes t c c' R ∧ (∀ R', Takes t c c' R' → R.within R') ∧
      ∀ n, n₀ ≤ n → s.selectedCells n none pos anchor =
        some ((t.cells.filter fun c => c.startsIn R).map fun c => (c.cell.row.toNat, c.cell.column.toNat))) ∧
    (∀ y n, OutOfTables items y →
      s.selectedCells (n + 1) none pos y = some (t.cells.map fun c => (c.cell.row.toNat, c.cell.column.toNat)) ∧
      s.selectedCells (n + 1) none y pos = some (t.cells.map fun c => (c.cell.row.toNat, c.cell.column.toNat))) ∧
    (∀ anchor n, InCell items t c anchor → s.selectedCells n none pos anchor = some []) := by
  refine ⟨?_, ?_, ?_⟩
  · intro c' anchor ha hne
    obtain ⟨R, n₀, h1, h2, h3⟩ := C74_cells h hs hp ha hne
    refine ⟨R, n₀, h2, h3, fun n hn => ?_⟩
    unfold Store.selectedCells
    rw [h1 n hn, Option.map_some]
    exact congrArg some (C74_selected_cells h hp.1 R)
  · intro y n hy
    obtain ⟨h1, h2⟩ := C74_mixed (n := n) h hs hp hy
    have hall : s.cellsInRange t.table.id ⟨0, 0, (t.table.rows - 1).toNat, (t.table.columns - 1).toNat⟩ =
        t.cells.map fun c => (c.cell.row.toNat, c.cell.column.toNat) := by
      rw [C74_selected_cells h hp.1, List.filter_eq_self.mpr]
      intro x hx
      have := hs.inside hx
      simp only [SCell.startsIn, decide_eq_true_eq]
      omega
    unfold Store.selectedCells
    rw [h1, h2]
    exact ⟨congrArg some hall, congrArg some hall⟩
  · intro anchor n ha
    unfold Store.selectedCells
    by_cases e : pos = anchor
    · subst e
      rw [(C74_explicit (anchor := pos) (0, ⟨0, 0, 0, 0⟩)).2]; rfl
    · rw [C74_text h hp ha e (.inr ⟨rfl, rfl⟩)]; rfl

/-- A range of cells set explicitly is grown to the smallest rectangle that cuts no merged cell. -/
theorem C74_select_range (h : Tabled s d f items) (ht : t ∈ tablesOf items) (hs : t.Sound) (r : CellRange) :
    ∃ R n₀, (∀ n, n₀ ≤ n → s.selectCellRange n t.table.id r.startRow r.startCol r.endRow r.endCol = some (t.table.id, R)) ∧
      r.within R ∧ (∀ c ∈ t.cells, c.rect.meets R → c.rect.within R) ∧
      ∀ R' : CellRange, r.within R' → (∀ c ∈ t.cells, c.rect.meets R' → c.rect.within R') → R.within R' := by
  obtain ⟨n₀, R, h1, h2, h3, h4⟩ := C39_expand (s.cellSpans t.table.id) r
  refine ⟨R, n₀, ?_, h2, (h.cutsNone ht hs R).mp h3, fun R' k1 k2 => h4 R' k1 ((h.cutsNone ht hs R').mpr k2)⟩
  intro n hn
  unfold Store.selectCellRange
  rw [expandForSpans_more h1 n hn]; rfl

/-- The calls that work where the cursor is act on the table, row, column and cell of the paragraph the cursor is in, also
at the end of its text. -/
theorem C74_current (h : Tabled s d f items) (hp : InCell items t c pos) (hr : 0 ≤ c.cell.row) (hk : 0 ≤ c.cell.column) :
    s.removeCurrentTable pos = s.removeTable t.table.id ∧
    s.insertRowBeside pos false = s.insertTableRow t.table.id c.cell.row ∧
    s.insertRowBeside pos true = s.insertTableRow t.table.id (c.cell.row + 1) ∧
    s.insertColumnBeside pos false = s.insertTableColumn t.table.id c.cell.column ∧
    s.insertColumnBeside pos true = s.insertTableColumn t.table.id (c.cell.column + 1) ∧
    s.removeCurrentRow pos = s.removeTableRow t.table.id c.cell.row ∧
    s.removeCurrentColumn pos = s.removeTableColumn t.table.id c.cell.column ∧
    ∀ rows columns, s.splitCurrentCell pos rows columns = s.splitTableCell c.cell.id rows columns := by
  unfold Store.removeCurrentTable Store.insertRowBeside Store.insertColumnBeside Store.removeCurrentRow Store.removeCurrentColumn
    Store.splitCurrentCell
  rw [hp.cellAt h]
  refine ⟨rfl, rfl, rfl, rfl, rfl, rfl, rfl, fun rows columns => ?_⟩
  have := ((C72_table h hp.1).2.2.2.1 c hp.2.1 c.cell.row.toNat c.cell.column.toNat (by omega) (by omega)).1
  simp only [Option.bind_some]
  rw [this]; rfl

/-- Outside the tables these calls are refused. -/
theorem C74_current_refused (h : Tabled s d f items) (hp : OutOfTables items pos) :
    s.removeCurrentTable pos = none ∧ (∀ b, s.insertRowBeside pos b = none) ∧ (∀ b, s.insertColumnBeside pos b = none) ∧
    s.removeCurrentRow pos = none ∧ s.removeCurrentColumn pos = none ∧ (∀ r k, s.splitCurrentCell pos r k = none) ∧
    ∀ a, s.mergeSelectedCells pos a = none := by
  unfold Store.removeCurrentTable Store.insertRowBeside Store.insertColumnBeside Store.removeCurrentRow Store.removeCurrentColumn
    Store.splitCurrentCell Store.mergeSelectedCells
  rw [h.cellAt_out hp]
  exact ⟨rfl, fun _ => rfl, fun _ => rfl, rfl, rfl, fun _ _ => rfl, fun _ => rfl⟩

/-- Merging the selected cells merges the rectangle between the cell of the cursor and that of the anchor.  Missing: an
anchor at the end of a paragraph that is neither empty nor the last one (see `C74_merge_selected_fails`). -/
theorem C74_merge_selected_partial (h : Tabled s d f items) (hp : InCell items t c pos) (ht : u ∈ tablesOf items) (hc : c' ∈ u.cells)
    {m k : Nat} {q : SPara} (hq : (flowParas items)[m]? = some q) (hqc : q ∈ c'.paras) (hk : k ≤ q.chars.length)
    (hend : k < q.chars.length ∨ q.chars = [] ∨ (flowParas items)[m + 1]? = none) :
    s.mergeSelectedCells pos (paraStart (flowParas items) m + k) =
      if t.table.id ≠ u.table.id then none
      else s.mergeTableCells t.table.id (min c.cell.row c'.cell.row) (min c.cell.column c'.cell.column)
        (max c.cell.row c'.cell.row) (max c.cell.column c'.cell.column) := by
  unfold Store.mergeSelectedCells
  rw [hp.cellAt h, Option.bind_some, (h.reads.blockAt m q k hq hk).1 hend, Option.bind_some,
    show (infoOf (flowParas items) m q).blockId = q.id from rfl, h.tableCellOf_cell ht hc hqc, Option.bind_some]

/-- With the anchor at the end of the text of the first cell and the cursor in the second, the selection is the two
cells, but merging the selected cells does nothing to the first: only the second cell, alone, is "merged". -/
theorem C74_merge_selected_fails : ∃ (s s1 s2 s3 : Store) (a x : Nat) (snap snap' : Snapshot) (r u : _),
    (Store.newStore.bind fun s => s.importPlainText "ab\ncd".toList) = some s ∧
    s.insertTable 2 2 1 2 = some (s1, a, 2, snap) ∧ s1.insertText ⟨3, 3, ['x']⟩ = some (s2, r, u) ∧
    s2.selectionKind 5 none 5 4 = some (.cells a ⟨0, 0, 0, 1⟩) ∧
    s2.mergeSelectedCells 5 4 = some (s3, x, snap') ∧
    (s2.tableCellIds a).length = 2 ∧ s3.tableCellIds a = s2.tableCellIds a := by
  refine ⟨_, _, _, _, _, _, _, _, _, _, rfl, rfl, rfl, ?_, rfl, ?_⟩
  · decide +kernel
  · decide +kernel

theorem filter_once {α : Type} {P : α → Bool} : ∀ {l : List α} {a : α}, a ∈ l → P a = true → (∀ b ∈ l, P b = true → b = a) → l.Nodup →
    (l.filter P).length = 1 := by
  intro l
  induction l with
  | nil => intro a h; cases h
  | cons x l ih =>
    intro a ha hP hu hn
    rw [List.nodup_cons] at hn
    rw [List.filter_cons]
    by_cases hx : P x = true
    · rw [if_pos hx]
      have hxa := hu x (by simp) hx
      have : l.filter P = [] := by
        rw [List.filter_eq_nil_iff]
        intro b hb hPb
        have := hu b (by simp [hb]) hPb
        exact hn.1 (by rw [hxa, ← this]; exact hb)
      rw [this]; rfl
    · rw [if_neg hx]
      rcases List.mem_cons.mp ha with rfl | ha
      · exact absurd hP hx
      · exact ih ha hP (fun b hb => hu b (by simp [hb])) hn.2

/-- Every table is sound when it is inserted (C67). -/
theorem C74_inserted_sound (h : Tabled s d f items) (ht : t ∈ tablesOf items) {rows columns : Nat} (he : EmptyTable t rows columns)
    (hr : 1 ≤ rows) (hc : 1 ≤ columns) : t.Sound := by
  have e1 : t.table.rows = rows := by rw [he.table]
  have e2 : t.table.columns = columns := by rw [he.table]
  have hplace : ∀ c ∈ t.cells, 0 ≤ c.cell.row ∧ c.cell.row < rows ∧ 0 ≤ c.cell.column ∧ c.cell.column < columns ∧
      c.cell.rowSpan = 1 ∧ c.cell.columnSpan = 1 := by
    intro c hcm
    have : (c.cell.row, c.cell.column) ∈ (List.range rows).flatMap fun r : Nat => (List.range columns).map fun c : Nat => ((r : Int), (c : Int)) := by
      rw [← he.places]; exact List.mem_map.mpr ⟨c, hcm, rfl⟩
    obtain ⟨r, hr', hm⟩ := List.mem_flatMap.mp this
    obtain ⟨k, hk', hm⟩ := List.mem_map.mp hm
    obtain ⟨i, _, hcell⟩ := he.cells c hcm
    rw [List.mem_range] at hr' hk'
    simp only [Prod.mk.injEq] at hm
    refine ⟨by omega, by omega, by omega, by omega, by rw [hcell], by rw [hcell]⟩
  have hids : (t.cells.map fun c => c.cell.id).Nodup := by
    obtain ⟨A, B, e⟩ := List.append_of_mem (mem_tablesOf.mp ht)
    have := h.distinct.2
    unfold cellsOf at this
    rw [e, tablesOf_append, tablesOf_table, List.flatMap_append, List.flatMap_cons, List.map_append, List.map_append] at this
    exact (List.nodup_append.mp (List.nodup_append.mp this).2.1).1
  refine ⟨by omega, by omega, ⟨?_, ?_, ?_, ?_⟩⟩
  · intro x hx
    obtain ⟨c, hcm, rfl⟩ := List.mem_map.mp hx
    have := hplace c hcm
    omega
  · intro x hx
    obtain ⟨c, hcm, rfl⟩ := List.mem_map.mp hx
    have := hplace c hcm
    omega
  · intro r k hr0 hr1 hk0 hk1
    have hm : ((r, k) : Int × Int) ∈ t.cells.map fun c => (c.cell.row, c.cell.column) := by
      rw [he.places]
      refine List.mem_flatMap.mpr ⟨r.toNat, List.mem_range.mpr (by omega), List.mem_map.mpr ⟨k.toNat, List.mem_range.mpr (by omega), ?_⟩⟩
      rw [Int.toNat_of_nonneg hr0, Int.toNat_of_nonneg hk0]
    obtain ⟨c, hcm, hpl⟩ := List.mem_map.mp hm
    simp only [Prod.mk.injEq] at hpl
    rw [List.filter_map, List.length_map]
    have hp := hplace c hcm
    refine filter_once hcm ?_ ?_ ?_
    · simp only [Function.comp, TableCell.covers, decide_eq_true_eq]; omega
    · intro b hb hcov
      have hpb := hplace b hb
      simp only [Function.comp, TableCell.covers, decide_eq_true_eq] at hcov
      exact h.same_place ht hb hcm (by omega) (by omega)
    · rw [List.nodup_iff_pairwise_ne, List.pairwise_map] at hids
      rw [List.nodup_iff_pairwise_ne]
      exact hids.imp fun hab e => hab (by rw [e])
  · rw [List.map_map]; exact hids

/-- The hypotheses are met: in "ab", a table of two cells, "cd" the positions 3 and 4 are in the two cells, 1 and 6 are
outside with the table in between. -/
example : ∃ (s : Store) (d : Document) (A B : List SItem) (t : STable) (c c' : SCell), Tabled s d 2 (A ++ .table t :: B) ∧
    t.Sound ∧ c ≠ c' ∧ InCell (A ++ .table t :: B) t c 3 ∧ InCell (A ++ .table t :: B) t c' 4 ∧
    OutOfTables (A ++ .table t :: B) 1 ∧ OutOfTables (A ++ .table t :: B) 6 ∧ InTable (A ++ .table t :: B) t 4 ∧ tablesOf A = [] := by
  obtain ⟨s, d, t, h1, _, h3, h4⟩ := sample_tabled
  have hp := h4.places
  match hcs : t.cells with
  | [] => rw [hcs] at hp; exact absurd hp (by decide)
  | [c] => rw [hcs] at hp; exact absurd (congrArg List.length hp) (by simp)
  | c :: c' :: x :: l => rw [hcs] at hp; exact absurd (congrArg List.length hp) (by simp)
  | [c, c'] =>
    obtain ⟨i, e1, _⟩ := h4.cells c (by rw [hcs]; simp)
    obtain ⟨j, e2, _⟩ := h4.cells c' (by rw [hcs]; simp)
    rw [hcs] at hp
    have hp : [(c.cell.row, c.cell.column), (c'.cell.row, c'.cell.column)] = [((0 : Int), (0 : Int)), (0, 1)] := hp
    simp only [List.cons.injEq, Prod.mk.injEq] at hp
    have hf : flowParas ([.para (plainPara 2 ['a', 'b'])] ++ .table t :: [.para (plainPara 3 ['c', 'd'])]) =
        [plainPara 2 ['a', 'b'], plainPara 4 [], plainPara 5 [], plainPara 3 ['c', 'd']] := by
      rw [List.singleton_append, flowParas_para, flowParas_table, h3]; rfl
    have h5 := h3
    rw [hcs] at h5
    have h5 : c.paras ++ (c'.paras ++ []) = [plainPara 4 [], plainPara 5 []] := h5
    have hl1 : c.paras.length = 1 := by rw [e1]; rfl
    have hl2 : c'.paras.length = 1 := by rw [e2]; rfl
    have k1 : plainPara 4 [] ∈ c.paras := by
      rw [e1] at h5 ⊢
      rw [← (List.cons.inj h5).1]; simp
    have k2 : plainPara 5 [] ∈ c'.paras := by
      rw [e1, e2] at h5
      rw [e2, ← (List.cons.inj (List.cons.inj h5).2).1]; simp
    have hT : t ∈ tablesOf ([.para (plainPara 2 ['a', 'b'])] ++ .table t :: [.para (plainPara 3 ['c', 'd'])]) :=
      mem_tablesOf.mpr (by simp)
    refine ⟨s, d, [.para (plainPara 2 ['a', 'b'])], [.para (plainPara 3 ['c', 'd'])], t, c, c', h1,
      C74_inserted_sound h1 hT h4 (by omega) (by omega), ?_, ⟨hT, by rw [hcs]; simp, 1, plainPara 4 [], 0, by rw [hf]; rfl, k1, by omega, by rw [hf]; rfl⟩,
      ⟨hT, by rw [hcs]; simp, 2, plainPara 5 [], 0, by rw [hf]; rfl, k2, by omega, by rw [hf]; rfl⟩, ?_, ?_, ?_, rfl⟩
    · rintro rfl
      have := hp.1.2
      have := hp.2.1.2
      omega
    · exact ⟨[], plainPara 2 ['a', 'b'], [.table t, .para (plainPara 3 ['c', 'd'])], 1, rfl, by decide, rfl⟩
    · refine ⟨[.para (plainPara 2 ['a', 'b']), .table t], plainPara 3 ['c', 'd'], [], 1, rfl, by decide, ?_⟩
      have : flowParas [.para (plainPara 2 ['a', 'b']), .table t] = [plainPara 2 ['a', 'b'], plainPara 4 [], plainPara 5 []] := by
        rw [flowParas_para, flowParas_table, h3]; rfl
      rw [this, hf]; rfl
    · refine ⟨[.para (plainPara 2 ['a', 'b'])], [.para (plainPara 3 ['c', 'd'])], 1, plainPara 5 [], 0, rfl, by rw [h3]; rfl, by decide, ?_⟩
      rw [hf]; rfl

end Verif
