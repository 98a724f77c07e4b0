import Verif.Lemmas.Grid
/-
C38, C39: the grid of a table.
-/
namespace Verif

/-! ## C38 -/

/-- New ids are different from each other and from those in use (C28). -/
structure FreshFor (fresh : Nat → Nat × Nat) (cells : List TableCell) : Prop where
  inj : ∀ i j, (fresh i).1 = (fresh j).1 → i = j
  new : ∀ i, ∀ c ∈ cells, c.id ≠ (fresh i).1

theorem covers_iff {c : TableCell} {r k : Int} : c.covers r k = true ↔
    c.row ≤ r ∧ r < c.row + c.rowSpan ∧ c.column ≤ k ∧ k < c.column + c.columnSpan :=
  decide_eq_true_iff

theorem filter_length {α : Type} (p : α → Bool) (l : List α) : (l.filter p).length = l.countP p :=
  List.countP_eq_length_filter.symm

/-- A new table is a grid of single cells. -/
theorem C38_new_table {rows columns : Int} {fresh : Nat → Nat × Nat} (hr : 1 ≤ rows)
    (hc : 1 ≤ columns) (hf : ∀ i j, (fresh i).1 = (fresh j).1 → i = j) :
    ∃ g, insertTable rows columns fresh = some g ∧ g.rows = rows ∧ g.columns = columns ∧ Tiled g := by
  refine ⟨_, by rw [insertTable, if_neg (by omega)], rfl, rfl, ?_⟩
  have hm : ∀ c ∈ newCells fresh 0 ((intRange rows).flatMap fun r =>
        (intRange columns).map fun c => (r, c, 1, 1)),
      0 ≤ c.row ∧ c.row < rows ∧ 0 ≤ c.column ∧ c.column < columns ∧ c.rowSpan = 1 ∧ c.columnSpan = 1 := by
    intro c h
    obtain ⟨j, p, _, hp, rfl⟩ := newCells_mem h
    simp only [List.mem_flatMap, List.mem_map] at hp
    obtain ⟨a, ha, b, hb, rfl⟩ := hp
    have := intRange_mem.mp ha
    have := intRange_mem.mp hb
    show 0 ≤ a ∧ a < rows ∧ 0 ≤ b ∧ b < columns ∧ (1 : Int) = 1 ∧ (1 : Int) = 1
    omega
  refine ⟨hr, hc, ?_, by simp only [List.length_replicate]; omega⟩
  constructor
  · intro c h; have := hm c h; simp only; omega
  · intro c h; have := hm c h; omega
  · intro r k h1 h2 h3 h4
    simp only at h2 h4
    rw [newCells_count,
      countP_product (fun a b => (a, b, (1 : Int), (1 : Int))) _
        (fun x => decide (x ≤ r ∧ r < x + 1)) (fun x => decide (x ≤ k ∧ k < x + 1))
        (fun _ _ => rfl),
      intRange_count (by omega), intRange_count (by omega), if_pos ⟨h1, h2⟩, if_pos ⟨h3, h4⟩]
  · exact newCells_ids hf _ _

theorem map_ids {f : TableCell → TableCell} (hf : ∀ c, (f c).id = c.id) (l : List TableCell) :
    (l.map f).map (fun c => c.id) = l.map fun c => c.id := by
  rw [List.map_map]; exact List.map_congr_left fun c _ => hf c

theorem nodup_with_new {fresh : Nat → Nat × Nat} {cells : List TableCell} (hf : FreshFor fresh cells)
    (h : (cells.map fun c => c.id).Nodup) (ps : List (Int × Int × Int × Int)) :
    ((cells ++ newCells fresh 0 ps).map fun c => c.id).Nodup := by
  rw [List.map_append, List.nodup_append]
  refine ⟨h, newCells_ids hf.inj _ _, ?_⟩
  intro a ha b hb
  obtain ⟨c, hc, rfl⟩ := List.mem_map.mp ha
  obtain ⟨d, hd, rfl⟩ := List.mem_map.mp hb
  obtain ⟨j, p, _, _, rfl⟩ := newCells_mem hd
  exact hf.new j c hc


/-- Exchanging rows and columns. -/
def TableCell.flip (c : TableCell) : TableCell :=
  { c with row := c.column, column := c.row, rowSpan := c.columnSpan, columnSpan := c.rowSpan }

theorem flip_flip (c : TableCell) : c.flip.flip = c := rfl

theorem map_flip_flip (l : List TableCell) : (l.map TableCell.flip).map TableCell.flip = l := by
  rw [List.map_map, show TableCell.flip ∘ TableCell.flip = id from rfl, List.map_id]

theorem flip_covers (c : TableCell) (r k : Int) : c.flip.covers r k = c.covers k r := by
  rw [Bool.eq_iff_iff]
  simp only [covers_iff, TableCell.flip]
  omega

theorem Tiling.flip {rows columns : Int} {cells : List TableCell} (h : Tiling rows columns cells) :
    Tiling columns rows (cells.map TableCell.flip) := by
  constructor
  · intro c hm
    obtain ⟨d, hd, rfl⟩ := List.mem_map.mp hm
    have := h.inside d hd
    simp only [TableCell.flip]; omega
  · intro c hm
    obtain ⟨d, hd, rfl⟩ := List.mem_map.mp hm
    exact (h.span d hd).symm
  · intro r k h1 h2 h3 h4
    rw [filter_length, List.countP_map,
      show ((fun c => TableCell.covers c r k) ∘ TableCell.flip) = fun c => c.covers k r from
        funext fun c => flip_covers c r k, ← filter_length]
    exact h.once k r h3 h4 h1 h2
  · rw [map_ids (f := TableCell.flip) (fun _ => rfl)]; exact h.ids

theorem newCells_flip (fresh : Nat → Nat × Nat) (ps : List (Int × Int × Int × Int)) : ∀ i,
    (newCells fresh i ps).map TableCell.flip =
      newCells fresh i (ps.map fun p => (p.2.1, p.1, p.2.2.2, p.2.2.1)) := by
  induction ps with
  | nil => intro i; rfl
  | cons p ps ih =>
    intro i
    obtain ⟨a, b, c, d⟩ := p
    simp only [newCells, List.map_cons, ih (i + 1)]
    rfl

theorem tiling_insertRow {rows columns : Int} {cells : List TableCell} (h : Tiling rows columns cells)
    {idx : Int} {fresh : Nat → Nat × Nat} (hf : FreshFor fresh cells) (h0 : 0 ≤ idx) (h1 : idx ≤ rows)
    (hc : 0 ≤ columns) (hl : ∀ c ∈ cells, ¬ (c.row < idx ∧ idx < c.row + c.rowSpan)) :
    Tiling (rows + 1) columns (cells.map (rowShift idx) ++
      newCells fresh 0 ((intRange columns).map fun c => (idx, c, 1, 1))) := by
  have hn : ∀ c ∈ newCells fresh 0 ((intRange columns).map fun c => (idx, c, (1 : Int), (1 : Int))),
      c.row = idx ∧ 0 ≤ c.column ∧ c.column < columns ∧ c.rowSpan = 1 ∧ c.columnSpan = 1 := by
    intro c h
    obtain ⟨j, p, _, hp, rfl⟩ := newCells_mem h
    simp only [List.mem_map] at hp
    obtain ⟨b, hb, rfl⟩ := hp
    have := intRange_mem.mp hb
    show idx = idx ∧ 0 ≤ b ∧ b < columns ∧ (1 : Int) = 1 ∧ (1 : Int) = 1
    omega
  constructor
  · intro c hm
    rcases List.mem_append.mp hm with hm | hm
    · obtain ⟨d, hd, rfl⟩ := List.mem_map.mp hm
      have := h.inside d hd
      have := hl d hd
      unfold rowShift
      split
      · simp only; omega
      · split
        · simp only; omega
        · omega
    · have := hn c hm; omega
  · intro c hm
    rcases List.mem_append.mp hm with hm | hm
    · obtain ⟨d, hd, rfl⟩ := List.mem_map.mp hm
      have := h.span d hd
      unfold rowShift
      split
      · exact this
      · split
        · simp only; omega
        · exact this
    · have := hn c hm; omega
  · intro r k k1 k2 k3 k4
    rw [List.filter_append, List.length_append, newCells_count, List.countP_map]
    have e : (placeCovers r k ∘ fun c : Int => (idx, c, (1 : Int), (1 : Int))) =
        fun x => decide (idx ≤ r ∧ r < idx + 1) && decide (x ≤ k ∧ k < x + 1) := rfl
    rw [e]
    by_cases hr : r = idx
    · have e2 : (fun x : Int => decide (idx ≤ r ∧ r < idx + 1) && decide (x ≤ k ∧ k < x + 1)) =
          fun x => decide (x ≤ k ∧ k < x + 1) := by
        funext x; rw [decide_eq_true (by omega), Bool.true_and]
      rw [e2, intRange_count (by omega), if_pos ⟨k3, k4⟩]
      have : (cells.map (rowShift idx)).filter (fun c => c.covers r k) = [] := by
        rw [List.filter_eq_nil_iff]
        intro c hm
        obtain ⟨d, hd, rfl⟩ := List.mem_map.mp hm
        have := hl d hd
        have := h.span d hd
        simp only [covers_iff, rowShift]
        split
        · simp only; omega
        · split
          · simp only; omega
          · omega
      rw [this]; rfl
    · have e2 : (fun x : Int => decide (idx ≤ r ∧ r < idx + 1) && decide (x ≤ k ∧ k < x + 1)) =
          fun _ => false := by
        funext x; rw [decide_eq_false (by omega), Bool.false_and]
      rw [e2, List.countP_false, Function.const, Nat.add_zero, filter_length, List.countP_map]
      have key : ∀ r', (if r < idx then r' = r else r' = r - 1) →
          cells.countP ((fun c => c.covers r k) ∘ rowShift idx) = cells.countP fun c => c.covers r' k := by
        intro r' hr'
        apply List.countP_congr
        intro c hm
        have := hl c hm
        have := h.span c hm
        simp only [Function.comp, covers_iff, rowShift]
        split at hr' <;> subst hr'
        · split
          · simp only; omega
          · split
            · simp only; omega
            · exact Iff.rfl
        · split
          · simp only; omega
          · split
            · simp only; omega
            · omega
      by_cases hr2 : r < idx
      · rw [key r (by rw [if_pos hr2]), ← filter_length]
        exact h.once r k k1 (by omega) k3 k4
      · rw [key (r - 1) (by rw [if_neg hr2]), ← filter_length]
        exact h.once (r - 1) k (by omega) (by omega) k3 k4
  · have hi : ∀ c, (rowShift idx c).id = c.id := by
      intro c; unfold rowShift; split
      · rfl
      · split <;> rfl
    refine nodup_with_new ⟨hf.inj, ?_⟩ (by rw [map_ids hi]; exact h.ids) _
    intro i c hm
    obtain ⟨d, hd, rfl⟩ := List.mem_map.mp hm
    rw [hi]; exact hf.new i d hd

theorem tiling_insertColumn {rows columns : Int} {cells : List TableCell} (h : Tiling rows columns cells)
    {idx : Int} {fresh : Nat → Nat × Nat} (hf : FreshFor fresh cells) (h0 : 0 ≤ idx) (h1 : idx ≤ columns)
    (hc : 0 ≤ rows) (hl : ∀ c ∈ cells, ¬ (c.column < idx ∧ idx < c.column + c.columnSpan)) :
    Tiling rows (columns + 1) (cells.map (columnShift idx) ++
      newCells fresh 0 ((intRange rows).map fun r => (r, idx, 1, 1))) := by
  have hf' : FreshFor fresh (cells.map TableCell.flip) := ⟨hf.inj, fun i c hm => by
    obtain ⟨d, hd, rfl⟩ := List.mem_map.mp hm
    exact hf.new i d hd⟩
  have := (tiling_insertRow h.flip hf' h0 h1 hc (by
    intro c hm
    obtain ⟨d, hd, rfl⟩ := List.mem_map.mp hm
    exact hl d hd)).flip
  rw [List.map_append, newCells_flip, List.map_map, List.map_map, List.map_map] at this
  have e : (TableCell.flip ∘ rowShift idx) ∘ TableCell.flip = columnShift idx := by
    funext c
    show (rowShift idx c.flip).flip = columnShift idx c
    by_cases h1 : c.column ≥ idx
    · rw [columnShift, if_pos h1, rowShift, if_pos (show c.flip.row ≥ idx from h1)]; rfl
    · rw [columnShift, if_neg h1, rowShift, if_neg (show ¬ c.flip.row ≥ idx from h1)]
      by_cases h2 : c.column + c.columnSpan > idx
      · rw [if_pos h2, if_pos (show c.flip.row + c.flip.rowSpan > idx from h2)]; rfl
      · rw [if_neg h2, if_neg (show ¬ c.flip.row + c.flip.rowSpan > idx from h2)]; rfl
  rw [e] at this
  exact this

/-- No cell of the table reaches across the line above row `idx`. -/
def Grid.rowLineFree (g : Grid) (idx : Int) : Prop :=
  ∀ c ∈ g.cells, ¬ (c.row < idx ∧ idx < c.row + c.rowSpan)

/-- No cell of the table reaches across the line left of column `idx`. -/
def Grid.columnLineFree (g : Grid) (idx : Int) : Prop :=
  ∀ c ∈ g.cells, ¬ (c.column < idx ∧ idx < c.column + c.columnSpan)

/-- Inserting a row where no merged cell crosses the line keeps the table a tiling.  Missing from the
full claim: an insertion through a merged cell, which the code accepts, see
`C38_insert_row_fails`. -/
theorem C38_insert_row_partial {g : Grid} (h : Tiled g) {idx : Int} {fresh : Nat → Nat × Nat}
    (hf : FreshFor fresh g.cells) (h0 : 0 ≤ idx) (h1 : idx ≤ g.rows) (hl : g.rowLineFree idx) :
    ∃ g', insertRow g idx fresh = some g' ∧ g'.rows = g.rows + 1 ∧ g'.columns = g.columns ∧
      Tiled g' := by
  have := h.rows
  have := h.columns
  refine ⟨_, if_neg (by omega), rfl, rfl, ?_, ?_,
    tiling_insertRow h.cells hf h0 h1 (by omega) hl, h.widths⟩ <;> simp only <;> omega

/-- The same for a column. -/
theorem C38_insert_column_partial {g : Grid} (h : Tiled g) {idx : Int} {fresh : Nat → Nat × Nat}
    (hf : FreshFor fresh g.cells) (h0 : 0 ≤ idx) (h1 : idx ≤ g.columns) (hl : g.columnLineFree idx) :
    ∃ g', insertColumn g idx fresh = some g' ∧ g'.rows = g.rows ∧ g'.columns = g.columns + 1 ∧
      Tiled g' := by
  have := h.rows
  have := h.columns
  have := h.widths
  refine ⟨_, if_neg (by omega), rfl, rfl, h.rows, ?_,
    tiling_insertColumn h.cells hf h0 h1 (by omega) hl, ?_⟩
  · simp only; omega
  · simp only [List.length_insertIdx]
    split <;> omega

/-- Inserting a row through a merged cell leaves a grid place covered twice: two rows merged into one
cell, a row inserted between them. -/
theorem C38_insert_row_fails : ∃ (g g' : Grid) (fresh : Nat → Nat × Nat), Tiled g ∧
    FreshFor fresh g.cells ∧ insertRow g 1 fresh = some g' ∧
    (g'.cells.filter fun c => c.covers 1 0).length = 2 := by
  refine ⟨⟨2, 1, [0], [{ id := 1, row := 0, column := 0, rowSpan := 2, columnSpan := 1 }]⟩, _,
    fun i => (i + 2, 0), ⟨by decide, by decide, ⟨by decide, by decide, ?_, by decide⟩, rfl⟩,
    ⟨?_, ?_⟩, rfl, rfl⟩
  · intro r k h1 h2 h3 h4
    simp only [List.filter_cons, List.filter_nil, TableCell.covers]
    rw [decide_eq_true (by simp only at *; omega)]
    rfl
  · intro i j h; simp only at h; omega
  · intro i c hm
    simp only [List.mem_singleton] at hm
    subst hm
    simp only; omega

/-- And a column through a merged cell likewise. -/
theorem C38_insert_column_fails : ∃ (g g' : Grid) (fresh : Nat → Nat × Nat), Tiled g ∧
    FreshFor fresh g.cells ∧ insertColumn g 1 fresh = some g' ∧
    (g'.cells.filter fun c => c.covers 0 1).length = 2 := by
  refine ⟨⟨1, 2, [0, 0], [{ id := 1, row := 0, column := 0, rowSpan := 1, columnSpan := 2 }]⟩, _,
    fun i => (i + 2, 0), ⟨by decide, by decide, ⟨by decide, by decide, ?_, by decide⟩, rfl⟩,
    ⟨?_, ?_⟩, rfl, rfl⟩
  · intro r k h1 h2 h3 h4
    simp only [List.filter_cons, List.filter_nil, TableCell.covers]
    rw [decide_eq_true (by simp only at *; omega)]
    rfl
  · intro i j h; simp only at h; omega
  · intro i c hm
    simp only [List.mem_singleton] at hm
    subst hm
    simp only; omega

theorem countP_filterMap' {α β : Type} (f : α → Option β) (p : β → Bool) (l : List α) :
    (l.filterMap f).countP p = l.countP fun a => (f a).elim false p := by
  induction l with
  | nil => rfl
  | cons a l ih =>
    rw [List.filterMap_cons, List.countP_cons, ← ih]
    cases f a with
    | none => simp
    | some b => exact List.countP_cons ..

theorem rowUnshift_cases {idx : Int} {c d : TableCell} (h : rowUnshift idx c = some d) :
    d.id = c.id ∧ d.column = c.column ∧ d.columnSpan = c.columnSpan ∧
    ((c.row = idx ∧ c.rowSpan > 1 ∧ d.row = c.row ∧ d.rowSpan = c.rowSpan - 1) ∨
     (c.row < idx ∧ c.row + c.rowSpan > idx ∧ d.row = c.row ∧ d.rowSpan = c.rowSpan - 1) ∨
     (c.row > idx ∧ d.row = c.row - 1 ∧ d.rowSpan = c.rowSpan) ∨
     (¬ c.row > idx ∧ ¬ (c.row = idx ∧ c.rowSpan ≥ 1) ∧ ¬ (c.row < idx ∧ c.row + c.rowSpan > idx) ∧ d = c)) := by
  unfold rowUnshift at h
  split at h
  · simp at h
  · split at h
    · rename_i h1 h2
      simp only [Option.some.injEq] at h
      subst h
      exact ⟨rfl, rfl, rfl, .inl ⟨h2.1, h2.2, rfl, rfl⟩⟩
    · split at h
      · rename_i h1 h2 h3
        simp only [Option.some.injEq] at h
        subst h
        exact ⟨rfl, rfl, rfl, .inr (.inl ⟨h3.1, h3.2, rfl, rfl⟩)⟩
      · split at h
        · rename_i h1 h2 h3 h4
          simp only [Option.some.injEq] at h
          subst h
          exact ⟨rfl, rfl, rfl, .inr (.inr (.inl ⟨h4, rfl, rfl⟩))⟩
        · simp only [Option.some.injEq] at h
          subst h
          exact ⟨rfl, rfl, rfl, .inr (.inr (.inr ⟨by assumption, by omega, by assumption, rfl⟩))⟩

theorem rowUnshift_none {idx : Int} {c : TableCell} : rowUnshift idx c = none ↔
    c.row = idx ∧ c.rowSpan = 1 := by
  unfold rowUnshift
  split
  · simp; assumption
  · rename_i h
    constructor
    · intro e
      split at e
      · simp at e
      · split at e
        · simp at e
        · split at e <;> simp at e
    · intro h'; exact absurd h' h

theorem filterMap_ids {f : TableCell → Option TableCell} (hf : ∀ c d, f c = some d → d.id = c.id)
    {l : List TableCell} (h : (l.map fun c => c.id).Nodup) :
    ((l.filterMap f).map fun c => c.id).Nodup := by
  have : (l.filterMap f).map (fun c => c.id) = (l.filter fun c => (f c).isSome).map fun c => c.id := by
    induction l with
    | nil => rfl
    | cons a l ih =>
      rw [List.map_cons, List.nodup_cons] at h
      rw [List.filterMap_cons, List.filter_cons]
      cases hfa : f a with
      | none => simpa using ih h.2
      | some b => simp [hf a b hfa, ih h.2]
  rw [this]
  exact h.sublist (List.Sublist.map _ List.filter_sublist)

theorem tiling_removeRow {rows columns : Int} {cells : List TableCell} (h : Tiling rows columns cells)
    {idx : Int} (h0 : 0 ≤ idx) (h1 : idx < rows) :
    Tiling (rows - 1) columns (cells.filterMap (rowUnshift idx)) := by
  constructor
  · intro d hm
    obtain ⟨c, hc, he⟩ := List.mem_filterMap.mp hm
    have := h.inside c hc
    have := h.span c hc
    obtain ⟨_, e1, e2, e | e | e | e⟩ := rowUnshift_cases he
    · omega
    · omega
    · omega
    · obtain ⟨a, b, c, rfl⟩ := e; omega
  · intro d hm
    obtain ⟨c, hc, he⟩ := List.mem_filterMap.mp hm
    have := h.inside c hc
    have := h.span c hc
    obtain ⟨_, e1, e2, e | e | e | e⟩ := rowUnshift_cases he
    · omega
    · omega
    · omega
    · obtain ⟨a, b, c, rfl⟩ := e; omega
  · intro r k k1 k2 k3 k4
    rw [filter_length, countP_filterMap']
    have key : ∀ r', (if r < idx then r' = r else r' = r + 1) →
        (cells.countP fun a => (rowUnshift idx a).elim false fun c => c.covers r k) =
          cells.countP fun c => c.covers r' k := by
      intro r' hr'
      apply List.countP_congr
      intro c hm
      have := h.span c hm
      cases hu : rowUnshift idx c with
      | none =>
        have := rowUnshift_none.mp hu
        simp only [Option.elim_none, Bool.false_eq_true, false_iff, covers_iff]
        split at hr' <;> omega
      | some d =>
        simp only [Option.elim_some, covers_iff]
        obtain ⟨_, e1, e2, e | e | e | e⟩ := rowUnshift_cases hu
        · split at hr' <;> omega
        · split at hr' <;> omega
        · split at hr' <;> omega
        · obtain ⟨a, b, c, rfl⟩ := e; split at hr' <;> omega
    by_cases hr : r < idx
    · rw [key r (by rw [if_pos hr]), ← filter_length]
      exact h.once r k k1 (by omega) k3 k4
    · rw [key (r + 1) (by rw [if_neg hr]), ← filter_length]
      exact h.once (r + 1) k (by omega) (by omega) k3 k4
  · exact filterMap_ids (fun c d he => (rowUnshift_cases he).1) h.ids

theorem columnUnshift_flip (idx : Int) (c : TableCell) :
    (rowUnshift idx c.flip).map TableCell.flip = columnUnshift idx c := by
  by_cases h1 : c.column = idx ∧ c.columnSpan = 1
  · rw [columnUnshift, if_pos h1, rowUnshift, if_pos (show c.flip.row = idx ∧ c.flip.rowSpan = 1 from h1)]
    rfl
  · rw [columnUnshift, if_neg h1, rowUnshift, if_neg (show ¬ (c.flip.row = idx ∧ c.flip.rowSpan = 1) from h1)]
    by_cases h2 : c.column = idx ∧ c.columnSpan > 1
    · rw [if_pos h2, if_pos (show c.flip.row = idx ∧ c.flip.rowSpan > 1 from h2)]; rfl
    · rw [if_neg h2, if_neg (show ¬ (c.flip.row = idx ∧ c.flip.rowSpan > 1) from h2)]
      by_cases h3 : c.column < idx ∧ c.column + c.columnSpan > idx
      · rw [if_pos h3, if_pos (show c.flip.row < idx ∧ c.flip.row + c.flip.rowSpan > idx from h3)]; rfl
      · rw [if_neg h3, if_neg (show ¬ (c.flip.row < idx ∧ c.flip.row + c.flip.rowSpan > idx) from h3)]
        by_cases h4 : c.column > idx
        · rw [if_pos h4, if_pos (show c.flip.row > idx from h4)]; rfl
        · rw [if_neg h4, if_neg (show ¬ c.flip.row > idx from h4)]; rfl

/-- Removing a row keeps the table a tiling, with merged cells anywhere. -/
theorem C38_remove_row {g : Grid} (h : Tiled g) {idx : Int} (h0 : 0 ≤ idx) (h1 : idx < g.rows)
    (h2 : 2 ≤ g.rows) :
    ∃ g', removeRow g idx = some g' ∧ g'.rows = g.rows - 1 ∧ g'.columns = g.columns ∧ Tiled g' := by
  have := h.columns
  refine ⟨_, (if_neg (by omega)).trans (if_neg (by omega)), rfl, rfl, ?_,
    h.columns, tiling_removeRow h.cells h0 h1, h.widths⟩
  simp only; omega

/-- Removing a column keeps the table a tiling, with merged cells anywhere. -/
theorem C38_remove_column {g : Grid} (h : Tiled g) {idx : Int} (h0 : 0 ≤ idx) (h1 : idx < g.columns)
    (h2 : 2 ≤ g.columns) :
    ∃ g', removeColumn g idx = some g' ∧ g'.rows = g.rows ∧ g'.columns = g.columns - 1 ∧ Tiled g' := by
  have hw := h.widths
  refine ⟨_, (if_neg (by omega)).trans (if_neg (by omega)), rfl, rfl, h.rows, ?_, ?_, ?_⟩
  · simp only; omega
  · have := (tiling_removeRow h.cells.flip h0 h1).flip
    rw [List.map_filterMap, List.filterMap_map] at this
    have e : (fun x => Option.map TableCell.flip (rowUnshift idx x)) ∘ TableCell.flip = columnUnshift idx :=
      funext fun c => columnUnshift_flip idx c
    rw [e] at this
    exact this
  · simp only
    rw [if_pos (by omega), List.length_eraseIdx, if_pos (by omega)]
    omega

/-- Removing the last row or column, or one that is not there, is refused. -/
theorem C38_remove_refused (g : Grid) (idx : Int) :
    (idx < 0 ∨ g.rows ≤ idx ∨ g.rows ≤ 1 → removeRow g idx = none) ∧
    (idx < 0 ∨ g.columns ≤ idx ∨ g.columns ≤ 1 → removeColumn g idx = none) := by
  constructor
  · intro h
    unfold removeRow
    split
    · rfl
    · rw [if_pos (by omega)]
  · intro h
    unfold removeColumn
    split
    · rfl
    · rw [if_pos (by omega)]

/-- Every cell that touches the range starts inside it (no merged cell sticks in from above or from
the left). -/
def Grid.rangeClosed (g : Grid) (r0 c0 r1 c1 : Int) : Prop :=
  ∀ c ∈ g.cells, ∀ r k, r0 ≤ r → r ≤ r1 → c0 ≤ k → k ≤ c1 → c.covers r k = true →
    startsInside r0 c0 r1 c1 c = true

theorem startsInside_iff {r0 c0 r1 c1 : Int} {c : TableCell} : startsInside r0 c0 r1 c1 c = true ↔
    c.row ≥ r0 ∧ c.row ≤ r1 ∧ c.column ≥ c0 ∧ c.column ≤ c1 := decide_eq_true_iff

theorem eq_of_id {cells : List TableCell} (h : (cells.map fun c => c.id).Nodup) {c d : TableCell}
    (hc : c ∈ cells) (hd : d ∈ cells) (he : c.id = d.id) : c = d := by
  induction cells with
  | nil => simp at hc
  | cons a l ih =>
    rw [List.map_cons, List.nodup_cons] at h
    rcases List.mem_cons.mp hc with h1 | h1
    · rcases List.mem_cons.mp hd with h2 | h2
      · rw [h1, h2]
      · exact (h.1 (List.mem_map.mpr ⟨d, h2, by rw [← he, h1]⟩)).elim
    · rcases List.mem_cons.mp hd with h2 | h2
      · exact (h.1 (List.mem_map.mpr ⟨c, h1, by rw [he, h2]⟩)).elim
      · exact ih h.2 h1 h2

theorem countP_id {cells : List TableCell} (h : (cells.map fun c => c.id).Nodup) {c : TableCell}
    (hc : c ∈ cells) : cells.countP (fun d => decide (d.id = c.id)) = 1 := by
  induction cells with
  | nil => simp at hc
  | cons a l ih =>
    rw [List.map_cons, List.nodup_cons] at h
    rw [List.countP_cons]
    rcases List.mem_cons.mp hc with rfl | hc
    · have : l.countP (fun d => decide (d.id = c.id)) = 0 := by
        rw [List.countP_eq_zero]
        intro d hd
        simp only [decide_eq_true_eq]
        exact fun e => h.1 (List.mem_map.mpr ⟨d, hd, e⟩)
      rw [this]; simp
    · rw [ih h.2 hc, if_neg]
      simp only [decide_eq_true_eq]
      exact fun e => h.1 (List.mem_map.mpr ⟨c, hc, e.symm⟩)

/-- Merging a range that no merged cell enters from outside keeps the table a tiling, and one cell then
fills the range.  Missing from the full claim: a range entered by a merged cell, which the code
accepts, see `C38_merge_fails`. -/
theorem C38_merge_partial {g g' : Grid} (h : Tiled g) {r0 c0 r1 c1 : Int}
    (hm : mergeCells g r0 c0 r1 c1 = some g') (hcl : g.rangeClosed r0 c0 r1 c1) :
    g'.rows = g.rows ∧ g'.columns = g.columns ∧ Tiled g' ∧
      ∃ c ∈ g'.cells, c.row = r0 ∧ c.column = c0 ∧ c.row + c.rowSpan - 1 = r1 ∧
        c.column + c.columnSpan - 1 = c1 := by
  unfold mergeCells at hm
  split at hm
  · simp at hm
  split at hm
  · simp at hm
  split at hm
  · simp at hm
  rename_i hr hc hb
  dsimp only at hm
  split at hm
  · simp at hm
  rename_i hsp
  simp only [List.any_eq_true, decide_eq_true_eq, not_exists, not_and] at hsp
  simp only [Option.map_eq_some_iff] at hm
  obtain ⟨surv, hs, rfl⟩ := hm
  have hsm := List.mem_of_find?_eq_some hs
  have hsp2 := List.find?_some hs
  simp only [decide_eq_true_eq] at hsp2
  obtain ⟨hsc, hsi⟩ := List.mem_filter.mp hsm
  have single : ∀ c ∈ g.cells, startsInside r0 c0 r1 c1 c = true → c.rowSpan = 1 ∧ c.columnSpan = 1 := by
    intro c hc hi
    have := hsp c (List.mem_filter.mpr ⟨hc, hi⟩)
    have := h.cells.span c hc
    omega
  have hinside := h.cells.inside
  have hspan := h.cells.span
  -- the new list
  have hmem : ∀ d, d ∈ (g.cells.filter fun c => !(startsInside r0 c0 r1 c1 c && decide (c.id ≠ surv.id))).map
      (fun c => if c.id = surv.id then
        { c with rowSpan := r1 - r0 + 1, columnSpan := c1 - c0 + 1 } else c) →
      (d = { surv with rowSpan := r1 - r0 + 1, columnSpan := c1 - c0 + 1 }) ∨
      (d ∈ g.cells ∧ startsInside r0 c0 r1 c1 d = false) := by
    intro d hd
    obtain ⟨c, hc, rfl⟩ := List.mem_map.mp hd
    obtain ⟨hc, hx⟩ := List.mem_filter.mp hc
    by_cases he : c.id = surv.id
    · rw [if_pos he, eq_of_id h.cells.ids hc hsc he]; exact .inl rfl
    · rw [if_neg he]
      refine .inr ⟨hc, ?_⟩
      simpa [he] using hx
  refine ⟨rfl, rfl, ⟨h.rows, h.columns, ?_, h.widths⟩, ?_⟩
  · constructor
    · intro d hd
      rcases hmem d hd with rfl | ⟨hd, _⟩
      · simp only; omega
      · exact hinside d hd
    · intro d hd
      rcases hmem d hd with rfl | ⟨hd, _⟩
      · simp only; omega
      · exact hspan d hd
    · intro r k k1 k2 k3 k4
      simp only at k2 k4
      rw [filter_length, List.countP_map, List.countP_filter]
      by_cases hin : r0 ≤ r ∧ r ≤ r1 ∧ c0 ≤ k ∧ k ≤ c1
      · rw [← countP_id h.cells.ids hsc]
        apply List.countP_congr
        intro c hc
        simp only [Function.comp, Bool.and_eq_true, Bool.not_eq_true', Bool.and_eq_false_iff,
          decide_eq_true_eq, decide_eq_false_iff_not, ne_eq, Decidable.not_not]
        constructor
        · rintro ⟨h1, h2⟩
          by_cases he : c.id = surv.id
          · exact he
          · rw [if_neg he] at h1
            rcases h2 with h2 | h2
            · rw [hcl c hc r k hin.1 hin.2.1 hin.2.2.1 hin.2.2.2 h1] at h2; cases h2
            · exact h2
        · intro he
          refine ⟨?_, .inr he⟩
          rw [if_pos he, covers_iff]
          have := eq_of_id h.cells.ids hc hsc he
          subst this
          simp only; omega
      · have := h.cells.once r k k1 k2 k3 k4
        rw [filter_length] at this
        rw [← this]
        apply List.countP_congr
        intro c hc
        simp only [Function.comp, Bool.and_eq_true, Bool.not_eq_true', Bool.and_eq_false_iff,
          decide_eq_false_iff_not, ne_eq, Decidable.not_not]
        constructor
        · rintro ⟨h1, h2⟩
          by_cases he : c.id = surv.id
          · rw [if_pos he, covers_iff] at h1
            have := eq_of_id h.cells.ids hc hsc he
            subst this
            simp only at h1
            omega
          · rw [if_neg he] at h1; exact h1
        · intro h1
          have hns : startsInside r0 c0 r1 c1 c = false := by
            by_cases hi : startsInside r0 c0 r1 c1 c = true
            · have := single c hc hi
              rw [startsInside_iff] at hi
              rw [covers_iff] at h1
              omega
            · simpa using hi
          refine ⟨?_, .inl hns⟩
          rw [if_neg]
          · exact h1
          · intro he
            rw [eq_of_id h.cells.ids hc hsc he, hsi] at hns
            cases hns
    · rw [map_ids]
      · exact h.cells.ids.sublist (List.Sublist.map _ List.filter_sublist)
      · intro c; split <;> rfl
  · refine ⟨{ surv with rowSpan := r1 - r0 + 1, columnSpan := c1 - c0 + 1 }, ?_, hsp2.1, hsp2.2, ?_, ?_⟩
    · refine List.mem_map.mpr ⟨surv, List.mem_filter.mpr ⟨hsc, by simp⟩, by rw [if_pos rfl]⟩
    · simp only; omega
    · simp only; omega

/-- The three-by-three table whose middle-left two cells are merged. -/
def gridMerged : Grid :=
  ⟨3, 3, [0, 0, 0],
    [{ id := 1, row := 0, column := 0, rowSpan := 1, columnSpan := 1 },
     { id := 2, row := 0, column := 1, rowSpan := 1, columnSpan := 1 },
     { id := 3, row := 0, column := 2, rowSpan := 1, columnSpan := 1 },
     { id := 4, row := 1, column := 0, rowSpan := 1, columnSpan := 2 },
     { id := 6, row := 1, column := 2, rowSpan := 1, columnSpan := 1 },
     { id := 7, row := 2, column := 0, rowSpan := 1, columnSpan := 1 },
     { id := 8, row := 2, column := 1, rowSpan := 1, columnSpan := 1 },
     { id := 9, row := 2, column := 2, rowSpan := 1, columnSpan := 1 }]⟩

theorem gridMerged_tiled : Tiled gridMerged := by
  refine ⟨by decide, by decide, ⟨by decide, by decide, ?_, by decide⟩, rfl⟩
  intro r k h1 h2 h3 h4
  simp only [gridMerged] at h2 h4
  have hr : r = 0 ∨ r = 1 ∨ r = 2 := by omega
  have hk : k = 0 ∨ k = 1 ∨ k = 2 := by omega
  rcases hr with rfl | rfl | rfl <;> rcases hk with rfl | rfl | rfl <;> decide

/-- Merging a range entered by a merged cell from outside is accepted and leaves a place covered by
two cells. -/
theorem C38_merge_fails : ∃ g', Tiled gridMerged ∧ mergeCells gridMerged 0 1 1 2 = some g' ∧
    (g'.cells.filter fun c => c.covers 1 1).length = 2 :=
  ⟨_, gridMerged_tiled, rfl, rfl⟩

/-- Splitting a merged cell keeps the table a tiling; the parts fill the old cell. -/
theorem C38_split {g g' : Grid} (h : Tiled g) {id : Nat} {sr sc : Int} {fresh : Nat → Nat × Nat}
    (hf : FreshFor fresh g.cells) (hs : splitCell g id sr sc fresh = some g') :
    g'.rows = g.rows ∧ g'.columns = g.columns ∧ Tiled g' ∧
      (g'.cells.length : Int) = g.cells.length + sr * sc - 1 := by
  unfold splitCell at hs
  split at hs
  · simp at hs
  rename_i hsr
  simp only [Option.bind_eq_some_iff] at hs
  obtain ⟨cell, hcell, hs⟩ := hs
  have hcm := List.mem_of_find?_eq_some hcell
  have hid := List.find?_some hcell
  simp only [decide_eq_true_eq] at hid
  split at hs
  · simp at hs
  split at hs
  · simp at hs
  split at hs
  · simp at hs
  rename_i hrow hcol _
  obtain ⟨hb1, ht1⟩ := partsTotal_span (show 1 ≤ sr by omega) (show sr ≤ cell.rowSpan by omega)
  obtain ⟨hb2, ht2⟩ := partsTotal_span (show 1 ≤ sc by omega) (show sc ≤ cell.columnSpan by omega)
  have hcnt : ∀ r k, (subCells cell sr sc).countP (placeCovers r k) = if cell.covers r k then 1 else 0 := by
    intro r k
    unfold subCells
    rw [countP_product (fun (a b : Int × Int) => (a.1, b.1, a.2, b.2)) _
      (fun p => decide (p.1 ≤ r ∧ r < p.1 + p.2)) (fun p => decide (p.1 ≤ k ∧ k < p.1 + p.2))
      (fun _ _ => rfl), splitParts_count hb1, splitParts_count hb2, ht1, ht2]
    by_cases h1 : cell.row ≤ r ∧ r < cell.row + cell.rowSpan
    · by_cases h2 : cell.column ≤ k ∧ k < cell.column + cell.columnSpan
      · rw [if_pos h1, if_pos h2, if_pos (covers_iff.mpr ⟨h1.1, h1.2, h2.1, h2.2⟩)]
      · rw [if_neg h2, Nat.mul_zero, if_neg]
        rw [covers_iff]; omega
    · rw [if_neg h1, Nat.zero_mul, if_neg]
      rw [covers_iff]; omega
  have hsub : ∀ p ∈ subCells cell sr sc, cell.row ≤ p.1 ∧ 1 ≤ p.2.2.1 ∧
      p.1 + p.2.2.1 ≤ cell.row + cell.rowSpan ∧ cell.column ≤ p.2.1 ∧ 1 ≤ p.2.2.2 ∧
      p.2.1 + p.2.2.2 ≤ cell.column + cell.columnSpan := by
    intro p hp
    simp only [subCells, List.mem_flatMap, List.mem_map] at hp
    obtain ⟨a, ha, b, hb, rfl⟩ := hp
    have := splitParts_mem hb1 _ _ _ ha
    have := splitParts_mem hb2 _ _ _ hb
    simp only; omega
  have hlen : ∀ (base extra : Int) (n : Nat) (i pos : Int), (splitParts base extra n i pos).length = n := by
    intro base extra n
    induction n with
    | zero => intro i pos; rfl
    | succ n ih => intro i pos; simp [splitParts, ih]
  have hlen2 : ((subCells cell sr sc).length : Int) = sr * sc := by
    have : (subCells cell sr sc).length = sr.toNat * sc.toNat := by
      simp only [subCells, List.length_flatMap, List.length_map, hlen, List.map_const',
        List.sum_replicate_nat]
    rw [this, Int.natCast_mul, Int.toNat_of_nonneg (by omega), Int.toNat_of_nonneg (by omega)]
  have hnlen : ∀ (ps : List (Int × Int × Int × Int)) i, (newCells fresh i ps).length = ps.length := by
    intro ps
    induction ps with
    | nil => intro i; rfl
    | cons p ps ih => intro i; obtain ⟨a, b, c, d⟩ := p; simp [newCells, ih]
  -- the first part sits at the old corner
  have hhead : ∀ p rest, subCells cell sr sc = p :: rest → p.1 = cell.row ∧ p.2.1 = cell.column := by
    intro p rest he
    unfold subCells at he
    obtain ⟨n, hn⟩ : ∃ n, sr.toNat = n + 1 := ⟨sr.toNat - 1, by omega⟩
    obtain ⟨m, hm'⟩ : ∃ m, sc.toNat = m + 1 := ⟨sc.toNat - 1, by omega⟩
    rw [hn, hm'] at he
    simp only [splitParts, List.flatMap_cons, List.map_cons, List.cons_append, List.cons.injEq] at he
    rw [← he.1]; exact ⟨rfl, rfl⟩
  cases hp : subCells cell sr sc with
  | nil => rw [hp] at hs; simp at hs
  | cons p rest =>
    obtain ⟨pr, pc, rs, cs⟩ := p
    rw [hp] at hs
    simp only [Option.some.injEq] at hs
    subst hs
    obtain ⟨rfl, rfl⟩ := hhead _ _ hp
    rw [hp] at hsub hcnt hlen2
    have hfirst := hsub _ (List.mem_cons_self ..)
    simp only at hfirst
    have hin := h.cells.inside cell hcm
    have hmem : ∀ d, d ∈ g.cells.map (fun c => if c.id = id then
        { cell with rowSpan := rs, columnSpan := cs } else c) →
        d = { cell with rowSpan := rs, columnSpan := cs } ∨ d ∈ g.cells := by
      intro d hd
      obtain ⟨c, hc, rfl⟩ := List.mem_map.mp hd
      split
      · exact .inl rfl
      · exact .inr hc
    refine ⟨rfl, rfl, ⟨h.rows, h.columns, ?_, h.widths⟩, ?_⟩
    · constructor
      · intro d hd
        rcases List.mem_append.mp hd with hd | hd
        · rcases hmem d hd with rfl | hd
          · simp only; omega
          · exact h.cells.inside d hd
        · obtain ⟨j, q, _, hq, rfl⟩ := newCells_mem hd
          have := hsub q (List.mem_cons_of_mem _ hq)
          simp only [newCell]; omega
      · intro d hd
        rcases List.mem_append.mp hd with hd | hd
        · rcases hmem d hd with rfl | hd
          · simp only; omega
          · exact h.cells.span d hd
        · obtain ⟨j, q, _, hq, rfl⟩ := newCells_mem hd
          have := hsub q (List.mem_cons_of_mem _ hq)
          simp only [newCell]; omega
      · intro r k k1 k2 k3 k4
        simp only at k2 k4
        rw [List.filter_append, List.length_append, newCells_count, filter_length, List.countP_map]
        have hone := h.cells.once r k k1 k2 k3 k4
        rw [filter_length] at hone
        have hc := hcnt r k
        rw [List.countP_cons] at hc
        -- split the old count at the cell
        have hsplit : ∀ (P Q : TableCell → Bool), (∀ c ∈ g.cells, c.id ≠ id → P c = Q c) →
            g.cells.countP P + (if Q cell then 1 else 0) =
              g.cells.countP Q + (if P cell then 1 else 0) := by
          intro P Q hPQ
          have key : ∀ (l : List TableCell), (l.map fun c => c.id).Nodup →
              (∀ c ∈ l, c ∈ g.cells) →
              (cell ∈ l → l.countP P + (if Q cell then 1 else 0) = l.countP Q + (if P cell then 1 else 0)) ∧
              (cell ∉ l → l.countP P = l.countP Q) := by
            intro l
            induction l with
            | nil => intro _ _; simp
            | cons a l ih =>
              intro hn hl
              rw [List.map_cons, List.nodup_cons] at hn
              obtain ⟨i1, i2⟩ := ih hn.2 fun c hc => hl c (List.mem_cons_of_mem _ hc)
              constructor
              · intro hm
                rcases List.mem_cons.mp hm with rfl | hm
                · have hnot : cell ∉ l := fun hx => hn.1 (List.mem_map.mpr ⟨cell, hx, rfl⟩)
                  rw [List.countP_cons, List.countP_cons, i2 hnot]; omega
                · have hne : a.id ≠ id := by
                    intro e
                    exact hn.1 (List.mem_map.mpr ⟨cell, hm, by rw [hid, e]⟩)
                  rw [List.countP_cons, List.countP_cons, hPQ a (hl a (List.mem_cons_self ..)) hne]
                  have := i1 hm
                  omega
              · intro hm
                have hne : a.id ≠ id := by
                  intro e
                  exact hm (by
                    rw [eq_of_id h.cells.ids hcm (hl a (List.mem_cons_self ..)) (by rw [hid, e])]
                    exact List.mem_cons_self ..)
                rw [List.countP_cons, List.countP_cons, hPQ a (hl a (List.mem_cons_self ..)) hne,
                  i2 fun hx => hm (List.mem_cons_of_mem _ hx)]
          exact (key g.cells h.cells.ids fun _ hc => hc).1 hcm
        have hs' := hsplit ((fun c => TableCell.covers c r k) ∘ fun c => if c.id = id then
          { cell with rowSpan := rs, columnSpan := cs } else c) (fun c => c.covers r k) (by
            intro c _ hne
            simp only [Function.comp, if_neg hne])
        have e1 : ((fun c => TableCell.covers c r k) ∘ fun c => if c.id = id then
            { cell with rowSpan := rs, columnSpan := cs } else c) cell =
            placeCovers r k (cell.row, cell.column, rs, cs) := by
          simp only [Function.comp, if_pos hid]
          rw [Bool.eq_iff_iff, covers_iff]
          simp only [placeCovers, Bool.and_eq_true, decide_eq_true_eq]
          omega
        rw [e1] at hs'
        omega
      · have hi : ∀ c : TableCell, (if c.id = id then
            { cell with rowSpan := rs, columnSpan := cs } else c).id = c.id := by
          intro c
          split
          · rename_i e; rw [e]; exact hid
          · rfl
        refine nodup_with_new ⟨hf.inj, ?_⟩ (by rw [map_ids hi]; exact h.cells.ids) _
        intro i c hm
        obtain ⟨d, hd, rfl⟩ := List.mem_map.mp hm
        rw [hi]; exact hf.new i d hd
    · simp only [List.length_append, List.length_map, hnlen]
      simp only [List.length_cons] at hlen2
      omega

/-- The sound table above meets the hypotheses: its merged cell can be split, a row can be inserted, a
row removed, a closed range merged. -/
example : FreshFor (fun i => (i + 100, 0)) gridMerged.cells ∧
    (splitCell gridMerged 4 1 2 fun i => (i + 100, 0)).isSome = true ∧
    (insertRow gridMerged 1 fun i => (i + 100, 0)).isSome = true ∧
    (removeRow gridMerged 1).isSome = true ∧ (mergeCells gridMerged 1 2 2 2).isSome = true := by
  refine ⟨⟨fun i j h => by simp only at h; omega, fun i c hc => ?_⟩, rfl, rfl, rfl, rfl⟩
  have : ∀ c ∈ gridMerged.cells, c.id < 100 := by decide
  have := this c hc
  simp only; omega

/-- The edits of a table. -/
inductive GridOp where
  | insertRow (idx : Int) (fresh : Nat → Nat × Nat)
  | insertColumn (idx : Int) (fresh : Nat → Nat × Nat)
  | removeRow (idx : Int)
  | removeColumn (idx : Int)
  | merge (r0 c0 r1 c1 : Int)
  | split (id : Nat) (sr sc : Int) (fresh : Nat → Nat × Nat)

/-- Carries out an edit; a refused edit leaves the table as it was. -/
def GridOp.run (g : Grid) : GridOp → Grid
  | .insertRow i f => (Verif.insertRow g i f).getD g
  | .insertColumn i f => (Verif.insertColumn g i f).getD g
  | .removeRow i => (Verif.removeRow g i).getD g
  | .removeColumn i => (Verif.removeColumn g i).getD g
  | .merge a b c d => (mergeCells g a b c d).getD g
  | .split i a b f => (splitCell g i a b f).getD g

/-- New cells get unused ids; a row or column is not inserted through a merged cell, and a merge range
is not entered by a merged cell. -/
def GridOp.careful (g : Grid) : GridOp → Prop
  | .insertRow i f => FreshFor f g.cells ∧ g.rowLineFree i
  | .insertColumn i f => FreshFor f g.cells ∧ g.columnLineFree i
  | .removeRow _ => True
  | .removeColumn _ => True
  | .merge a b c d => g.rangeClosed a b c d
  | .split _ _ _ f => FreshFor f g.cells

/-- Each edit of the list is careful in the table it meets. -/
def GridOp.allCareful : Grid → List GridOp → Prop
  | _, [] => True
  | g, op :: ops => op.careful g ∧ GridOp.allCareful (op.run g) ops

theorem GridOp.run_tiled {g : Grid} (h : Tiled g) (op : GridOp) (hc : op.careful g) :
    Tiled (op.run g) := by
  cases op with
  | insertRow i f =>
    simp only [GridOp.run]
    cases hx : Verif.insertRow g i f with
    | none => exact h
    | some g' =>
      have hb : ¬(i < 0 ∨ i > g.rows) := by
        intro hb; rw [Verif.insertRow, if_pos hb] at hx; cases hx
      obtain ⟨g2, e, _, _, ht⟩ := C38_insert_row_partial h hc.1 (idx := i) (by omega) (by omega) hc.2
      rw [e] at hx; cases hx; exact ht
  | insertColumn i f =>
    simp only [GridOp.run]
    cases hx : Verif.insertColumn g i f with
    | none => exact h
    | some g' =>
      have hb : ¬(i < 0 ∨ i > g.columns) := by
        intro hb; rw [Verif.insertColumn, if_pos hb] at hx; cases hx
      obtain ⟨g2, e, _, _, ht⟩ := C38_insert_column_partial h hc.1 (idx := i) (by omega) (by omega) hc.2
      rw [e] at hx; cases hx; exact ht
  | removeRow i =>
    simp only [GridOp.run]
    by_cases hb : i < 0 ∨ g.rows ≤ i ∨ g.rows ≤ 1
    · rw [(C38_remove_refused g i).1 hb]; exact h
    · obtain ⟨g2, e, _, _, ht⟩ := C38_remove_row h (idx := i) (by omega) (by omega) (by omega)
      rw [e]; exact ht
  | removeColumn i =>
    simp only [GridOp.run]
    by_cases hb : i < 0 ∨ g.columns ≤ i ∨ g.columns ≤ 1
    · rw [(C38_remove_refused g i).2 hb]; exact h
    · obtain ⟨g2, e, _, _, ht⟩ := C38_remove_column h (idx := i) (by omega) (by omega) (by omega)
      rw [e]; exact ht
  | merge a b c d =>
    simp only [GridOp.run]
    cases hx : mergeCells g a b c d with
    | none => exact h
    | some g' => exact (C38_merge_partial h hx hc).2.2.1
  | split i a b f =>
    simp only [GridOp.run]
    cases hx : splitCell g i a b f with
    | none => exact h
    | some g' => exact (C38_split h hc hx).2.2.1

/-- However a new table is edited, one careful edit after another, accepted or refused, its cells tile
its grid.  Missing from the full claim: edits that are not careful. -/
theorem C38_history_partial {rows columns : Int} {fresh : Nat → Nat × Nat} {g : Grid}
    (hf : ∀ i j, (fresh i).1 = (fresh j).1 → i = j) (hg : insertTable rows columns fresh = some g)
    (ops : List GridOp) (hc : GridOp.allCareful g ops) : Tiled (ops.foldl GridOp.run g) := by
  have h0 : Tiled g := by
    have hb : ¬(rows < 1 ∨ columns < 1) := by
      intro hb; rw [insertTable, if_pos hb] at hg; cases hg
    obtain ⟨g2, e, _, _, ht⟩ := C38_new_table (rows := rows) (columns := columns) (by omega) (by omega) hf
    rw [e] at hg; cases hg; exact ht
  clear hg
  induction ops generalizing g with
  | nil => exact h0
  | cons op ops ih => exact ih hc.2 (op.run_tiled h0 hc.1)

/-- A three-by-three table is merged, split and shrunk. -/
example : ((insertTable 3 3 fun i => (i + 1, i + 100)).map fun g =>
    ([GridOp.merge 0 0 1 1, .removeRow 0, .split 1 1 2 fun i => (i + 50, i + 500)].foldl
      GridOp.run g).cells.map fun c => (c.id, c.row, c.column, c.rowSpan, c.columnSpan)) =
    some [(1, 0, 0, 1, 1), (6, 0, 2, 1, 1), (7, 1, 0, 1, 1), (8, 1, 1, 1, 1), (9, 1, 2, 1, 1),
      (50, 0, 1, 1, 1)] := rfl

/-- A row line of the merged table is free, and a range is closed. -/
example : gridMerged.rowLineFree 1 ∧ gridMerged.rangeClosed 1 2 2 2 := by
  constructor
  · unfold Grid.rowLineFree; decide
  · intro c hc r k h1 h2 h3 h4 hv
    have hr : r = 1 ∨ r = 2 := by omega
    have hk : k = 2 := by omega
    subst hk
    rcases hr with rfl | rfl <;> revert hv <;> revert c <;> decide

section Spans
open CellRange

/-- The smallest rectangle around two rectangles. -/
def CellRange.hull (a b : CellRange) : CellRange :=
  ⟨min a.startRow b.startRow, min a.startCol b.startCol, max a.endRow b.endRow, max a.endCol b.endCol⟩

instance (a b : CellRange) : Decidable (a.meets b) := by unfold CellRange.meets; infer_instance

theorem expandStep_eq (s : CellRange × Bool) (c : Nat × Nat × Nat × Nat) :
    expandStep s c =
      (if (cellRect c).meets s.1 then s.1.hull (cellRect c) else s.1,
        s.2 || decide ((if (cellRect c).meets s.1 then s.1.hull (cellRect c) else s.1) ≠ s.1)) := by
  by_cases h : (cellRect c).meets s.1
  · rw [if_pos h]
    obtain ⟨⟨a, b, e, f⟩, t⟩ := s
    obtain ⟨r, k, rs, cs⟩ := c
    simp only [CellRange.meets, cellRect] at h
    unfold expandStep
    rw [if_pos (by simp only; omega)]
    simp only [cellRect, CellRange.hull]
    by_cases h1 : r < a <;> by_cases h2 : r + rs - 1 > e <;> by_cases h3 : k < b <;>
      by_cases h4 : k + cs - 1 > f <;> simp [h1, h2, h3, h4] <;> omega
  · rw [if_neg h]
    obtain ⟨⟨a, b, e, f⟩, t⟩ := s
    obtain ⟨r, k, rs, cs⟩ := c
    simp only [CellRange.meets, cellRect] at h
    unfold expandStep
    rw [if_neg (by simp only; omega)]
    simp

theorem hull_within {a b R : CellRange} (h1 : a.within R) (h2 : b.within R) : (a.hull b).within R := by
  simp only [CellRange.within, CellRange.hull] at *; omega

theorem within_hull_left (a b : CellRange) : a.within (a.hull b) := by
  simp only [CellRange.within, CellRange.hull]; omega

theorem within_hull_right (a b : CellRange) : b.within (a.hull b) := by
  simp only [CellRange.within, CellRange.hull]; omega

theorem within_trans {a b c : CellRange} (h : a.within b) (h' : b.within c) : a.within c := by
  simp only [CellRange.within] at *; omega

theorem within_refl (a : CellRange) : a.within a := by simp [CellRange.within]

theorem meets_mono {a b c : CellRange} (h : a.meets b) (h' : b.within c) : a.meets c := by
  simp only [CellRange.within, CellRange.meets] at *; omega

/-- The number of steps the range can still grow inside a grid whose last row is `B` and last column
`C`. -/
def growRoom (B C : Nat) (r : CellRange) : Nat :=
  r.startRow + r.startCol + (B - r.endRow) + (C - r.endCol)

theorem growRoom_hull {B C : Nat} {a b : CellRange} (h1 : b.endRow ≤ B) (h2 : b.endCol ≤ C) :
    growRoom B C (a.hull b) ≤ growRoom B C a ∧ (a.hull b ≠ a → growRoom B C (a.hull b) < growRoom B C a) := by
  obtain ⟨p, q, r, s⟩ := a
  obtain ⟨p', q', r', s'⟩ := b
  simp only [growRoom, CellRange.hull, ne_eq, CellRange.mk.injEq] at *
  omega

theorem foldl_expand (B C : Nat) (cells : List (Nat × Nat × Nat × Nat))
    (hB : ∀ c ∈ cells, (cellRect c).endRow ≤ B ∧ (cellRect c).endCol ≤ C) (s : CellRange × Bool) :
    s.1.within (cells.foldl expandStep s).1 ∧
    (∀ R : CellRange, s.1.within R → R.cutsNone cells → (cells.foldl expandStep s).1.within R) ∧
    growRoom B C (cells.foldl expandStep s).1 ≤ growRoom B C s.1 ∧
    (s.2 = true → (cells.foldl expandStep s).2 = true) ∧
    ((cells.foldl expandStep s).2 = true → s.2 = false →
      growRoom B C (cells.foldl expandStep s).1 < growRoom B C s.1) ∧
    ((cells.foldl expandStep s).2 = false →
      (cells.foldl expandStep s).1 = s.1 ∧ s.1.cutsNone cells) := by
  induction cells generalizing s with
  | nil =>
    refine ⟨within_refl _, fun _ h _ => h, Nat.le_refl _, fun h => h, ?_, ?_⟩
    · intro h1 h2; rw [List.foldl_nil, h2] at h1; cases h1
    · intro _; exact ⟨rfl, fun c hc => by simp at hc⟩
  | cons c l ih =>
    rw [List.foldl_cons]
    have hc := hB c (List.mem_cons_self ..)
    obtain ⟨i1, i2, i3, i4, i5, i6⟩ := ih (fun c hc => hB c (List.mem_cons_of_mem _ hc)) (expandStep s c)
    have hfst : (expandStep s c).1 = if (cellRect c).meets s.1 then s.1.hull (cellRect c) else s.1 := by
      rw [expandStep_eq]
    have hsnd : (expandStep s c).2 = (s.2 || decide ((expandStep s c).1 ≠ s.1)) := by
      rw [hfst, expandStep_eq]
    have hw : s.1.within (expandStep s c).1 := by
      rw [hfst]; split
      · exact within_hull_left _ _
      · exact within_refl _
    have hroom : growRoom B C (expandStep s c).1 ≤ growRoom B C s.1 ∧
        ((expandStep s c).1 ≠ s.1 → growRoom B C (expandStep s c).1 < growRoom B C s.1) := by
      rw [hfst]; split
      · exact growRoom_hull hc.1 hc.2
      · exact ⟨Nat.le_refl _, fun h => absurd rfl h⟩
    refine ⟨within_trans hw i1, ?_, Nat.le_trans i3 hroom.1, ?_, ?_, ?_⟩
    · intro R hR hcut
      refine i2 R ?_ fun d hd => hcut d (List.mem_cons_of_mem _ hd)
      rw [hfst]; split
      · rename_i hm
        exact hull_within hR (hcut c (List.mem_cons_self ..) (meets_mono hm hR))
      · exact hR
    · intro h; apply i4; rw [hsnd, h]; rfl
    · intro h1 h2
      by_cases he : (expandStep s c).1 = s.1
      · have := i5 h1 (by rw [hsnd, h2, he]; simp)
        rw [he] at this
        exact this
      · exact Nat.lt_of_le_of_lt i3 (hroom.2 he)
    · intro h
      have hf : (expandStep s c).2 = false := by
        cases hx : (expandStep s c).2 with
        | false => rfl
        | true => rw [i4 hx] at h; cases h
      have he : (expandStep s c).1 = s.1 := by
        rw [hsnd] at hf
        simp only [Bool.or_eq_false_iff, decide_eq_false_iff_not, ne_eq, Decidable.not_not] at hf
        exact hf.2
      obtain ⟨j1, j2⟩ := i6 h
      rw [he] at j1 j2
      refine ⟨j1, fun d hd hm => ?_⟩
      rcases List.mem_cons.mp hd with rfl | hd
      · rw [hfst, if_pos hm] at he
        have := within_hull_right s.1 (cellRect d)
        rwa [he] at this
      · exact j2 d hd hm

theorem expand_bound (cells : List (Nat × Nat × Nat × Nat)) :
    ∃ B C, ∀ c ∈ cells, (cellRect c).endRow ≤ B ∧ (cellRect c).endCol ≤ C := by
  induction cells with
  | nil => exact ⟨0, 0, fun c h => by simp at h⟩
  | cons a l ih =>
    obtain ⟨B, C, h⟩ := ih
    refine ⟨max B (cellRect a).endRow, max C (cellRect a).endCol, fun c hc => ?_⟩
    rcases List.mem_cons.mp hc with rfl | hc
    · omega
    · have := h c hc; omega

/-- Growing a selection stops, and what it gives contains the selection, cuts no merged cell, and is the
smallest rectangle that does both. -/
theorem C39_expand (cells : List (Nat × Nat × Nat × Nat)) (r : CellRange) :
    ∃ n R, expandForSpans cells n r = some R ∧ r.within R ∧ R.cutsNone cells ∧
      ∀ R' : CellRange, r.within R' → R'.cutsNone cells → R.within R' := by
  obtain ⟨B, C, hB⟩ := expand_bound cells
  have key : ∀ m r, growRoom B C r ≤ m → ∃ R, expandForSpans cells (m + 1) r = some R ∧ r.within R ∧
      R.cutsNone cells ∧ ∀ R' : CellRange, r.within R' → R'.cutsNone cells → R.within R' := by
    intro m
    induction m with
    | zero =>
      intro r hr
      obtain ⟨i1, i2, i3, i4, i5, i6⟩ := foldl_expand B C cells hB (r, false)
      cases hx : (cells.foldl expandStep (r, false)).2 with
      | true =>
        have := i5 hx rfl
        simp only at this
        omega
      | false =>
        obtain ⟨j1, j2⟩ := i6 hx
        refine ⟨r, ?_, within_refl _, j2, fun R' h _ => h⟩
        simp only [expandForSpans, expandPass, hx, j1, Bool.false_eq_true, if_false]
    | succ m ih =>
      intro r hr
      obtain ⟨i1, i2, i3, i4, i5, i6⟩ := foldl_expand B C cells hB (r, false)
      cases hx : (cells.foldl expandStep (r, false)).2 with
      | true =>
        have := i5 hx rfl
        simp only at this
        obtain ⟨R, k1, k2, k3, k4⟩ := ih (cells.foldl expandStep (r, false)).1 (by omega)
        refine ⟨R, ?_, within_trans i1 k2, k3, fun R' h1 h2 => k4 R' (i2 R' h1 h2) h2⟩
        rw [expandForSpans, expandPass, if_pos hx]; exact k1
      | false =>
        obtain ⟨j1, j2⟩ := i6 hx
        refine ⟨r, ?_, within_refl _, j2, fun R' h _ => h⟩
        rw [expandForSpans, expandPass, if_neg (by rw [hx]; simp), j1]
  obtain ⟨R, h⟩ := key (growRoom B C r) r (Nat.le_refl _)
  exact ⟨_, R, h⟩

/-- One merged cell pulls in another. -/
example : expandForSpans [(0, 0, 1, 2), (0, 2, 1, 1), (1, 0, 1, 1), (1, 1, 1, 2)] 4 ⟨0, 1, 1, 1⟩ =
    some ⟨0, 0, 1, 2⟩ := rfl

end Spans

end Verif
