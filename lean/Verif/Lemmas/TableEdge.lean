import Verif.Lemmas.TableCells
/- The edges of a table. -/
namespace Verif
variable {s : Store} {d : Document} {f : Nat} {p : SPara} {items A B : List SItem} {t : STable} {c : SCell}
open Store

/-- An item in the flow of the main frame. -/
def SItem.flow : SItem → FlowItem
  | .para p => .block p.id
  | .table t => .table t.table.id

theorem filterMap_all {α β : Type} {g : α → Option β} {k : α → β} : ∀ {l : List α}, (∀ x ∈ l, g x = some (k x)) →
    l.filterMap g = l.map k := by
  intro l
  induction l with
  | nil => intro _; rfl
  | cons x l ih =>
    intro h
    rw [List.filterMap_cons, h x (by simp), ih fun y hy => h y (by simp [hy])]
    rfl

theorem Tabled.flowItems (h : Tabled s d f items) : s.flowItems (items.map SItem.entry) = items.map SItem.flow := by
  unfold Store.flowItems
  rw [List.filterMap_map]
  apply filterMap_all
  intro x hx
  simp only [Function.comp]
  generalize he : x.entry = e
  cases x with
  | para p =>
    have := h.positive p (mem_flowParas.mpr (.inl (mem_topParas.mpr hx)))
    have he : (p.id : Int) = e := he
    rw [if_pos (by omega), ← he]
    simp [SItem.flow]
  | table t =>
    obtain ⟨ar, a1, a2, a3, a4, a5, a6⟩ := (h.table t (mem_tablesOf.mpr hx)).anchor
    have hpos := (h.freshFrames t.anchor (by rw [a1]; rfl)).1
    have he : -(t.anchor : Int) = e := he
    have e2 : (-e).toNat = t.anchor := by omega
    rw [if_neg (by omega), if_pos (by omega), e2, a1]
    simp [a6, SItem.flow]

theorem Tabled.table_ids (h : Tabled s d f (A ++ .table t :: B)) :
    (A.map SItem.flow ++ .table t.table.id :: B.map SItem.flow).findIdx? (· == FlowItem.table t.table.id) = some A.length := by
  obtain ⟨L, hH, _⟩ := h.content
  have hn := hH.tables_nodup
  rw [tablesOf_append, tablesOf_table, List.map_append, List.map_cons, List.nodup_append] at hn
  rw [List.findIdx?_append]
  have : (A.map SItem.flow).findIdx? (· == FlowItem.table t.table.id) = none := by
    rw [List.findIdx?_eq_none_iff]
    intro x hx
    obtain ⟨y, hy, rfl⟩ := List.mem_map.mp hx
    cases y with
    | para q => rfl
    | table u =>
      have := hn.2.2 u.table.id (List.mem_map.mpr ⟨u, mem_tablesOf.mpr hy, rfl⟩) t.table.id (by simp)
      simp [SItem.flow, this]
  rw [this]
  simp [List.findIdx?_cons]

theorem findSome_flow {g : Nat → Nat} : ∀ (C : List SItem), topParas C = [] → ∀ D : List FlowItem,
    ((C.map SItem.flow) ++ D).findSome? (fun | .block b => some (g b) | _ => none) =
      D.findSome? (fun | .block b => some (g b) | _ => none) := by
  intro C
  induction C with
  | nil => intro _ D; rfl
  | cons x C ih =>
    intro hC D
    cases x with
    | para p => rw [topParas_para] at hC; cases hC
    | table t => rw [List.map_cons, List.cons_append, List.findSome?_cons]; exact ih hC D

theorem topParas_nil_iff {C : List SItem} : topParas C = [] ↔ ∀ x ∈ C, ∃ t, x = .table t := by
  constructor
  · intro h x hx
    cases x with
    | para p =>
      have : p ∈ topParas C := mem_topParas.mpr hx
      rw [h] at this; cases this
    | table t => exact ⟨t, rfl⟩
  · intro h
    cases e : topParas C with
    | nil => rfl
    | cons p l =>
      have : p ∈ topParas C := by rw [e]; simp
      obtain ⟨t, ht⟩ := h _ (mem_topParas.mp this)
      cases ht

theorem Tabled.position_at (h : Tabled s d f (A ++ .para p :: B)) :
    s.blockPosition p.id = paraStart (flowParas (A ++ .para p :: B)) (flowParas A).length ∧
    s.blockLength p.id = p.chars.length := by
  have hp : (flowParas (A ++ .para p :: B))[(flowParas A).length]? = some p := by
    rw [flowParas_append, flowParas_para]; simp
  refine ⟨h.reads.position hp, ?_⟩
  obtain ⟨b, hb, hbb⟩ := h.reads.block p (List.mem_of_getElem? hp)
  have hid : b.id = p.id := by rw [hbb]
  unfold Store.blockLength
  rw [hb, Option.bind_some, hid, h.reads.charLength (List.mem_of_getElem? hp), SPara.text_len]
  rfl

/-- What is looked at for the edge of a table. -/
theorem Tabled.tableBoundary_eq (h : Tabled s d f (A ++ .table t :: B)) (before : Bool) :
    s.tableBoundary t.table.id before =
      if before then (A.map SItem.flow).reverse.findSome? (fun | .block b => some (s.blockPosition b + s.blockLength b) | _ => none)
      else (B.map SItem.flow).findSome? (fun | .block b => some (s.blockPosition b) | _ => none) := by
  obtain ⟨rest, r1, _⟩ := h.frames
  obtain ⟨fr, f1, f2, f3, f4, f5, f6, f7⟩ := h.frame
  unfold Store.tableBoundary
  rw [h.docIdOf, Option.bind_some, h.document, Option.bind_some, r1, List.head?_cons, Option.bind_some, f1, Option.bind_some, f6,
    h.flowItems]
  dsimp only
  have he : (A ++ SItem.table t :: B).map SItem.flow = A.map SItem.flow ++ .table t.table.id :: B.map SItem.flow := by
    rw [List.map_append, List.map_cons]; rfl
  rw [he, h.table_ids, Option.bind_some]
  have h1 : (A.map SItem.flow ++ FlowItem.table t.table.id :: B.map SItem.flow).take A.length = A.map SItem.flow := by
    rw [List.take_append_of_le_length (by simp), List.take_of_length_le (by simp)]
  have h2 : (A.map SItem.flow ++ FlowItem.table t.table.id :: B.map SItem.flow).drop (A.length + 1) = B.map SItem.flow := by
    rw [List.drop_append]; simp
  rw [h1, h2]
  split
  · apply congrArg (fun g => List.findSome? g (A.map SItem.flow).reverse); funext x; cases x <;> rfl
  · apply congrArg (fun g => List.findSome? g (B.map SItem.flow)); funext x; cases x <;> rfl

theorem Tabled.edge_after (h : Tabled s d f items) {x : Nat} (he : EdgeAfter items t x) :
    s.tableBoundary t.table.id false = some x := by
  obtain ⟨A, C, q, D, rfl, hC, rfl⟩ := he
  rw [h.tableBoundary_eq, if_neg (by simp), List.map_append, findSome_flow C hC, List.map_cons, List.findSome?_cons]
  have e : A ++ SItem.table t :: (C ++ SItem.para q :: D) = (A ++ SItem.table t :: C) ++ .para q :: D := by simp
  rw [e] at h
  have := h.position_at.1
  rw [← e] at this
  simp only [SItem.flow, this]

theorem Tabled.edge_before (h : Tabled s d f items) {x : Nat} (he : EdgeBefore items t x) :
    s.tableBoundary t.table.id true = some x := by
  obtain ⟨A, q, C, B, rfl, hC, rfl⟩ := he
  have e : A ++ SItem.para q :: (C ++ SItem.table t :: B) = (A ++ SItem.para q :: C) ++ .table t :: B := by simp
  have h' := h
  rw [e] at h'
  rw [h'.tableBoundary_eq, if_pos rfl, List.map_append, List.map_cons, List.reverse_append, List.reverse_cons,
    List.append_assoc, ← List.map_reverse, findSome_flow C.reverse (by
      rw [topParas_nil_iff] at hC ⊢; intro x hx; exact hC x (by simpa using hx))]
  have := h.position_at
  simp only [SItem.flow, List.singleton_append, List.findSome?_cons, this.1, this.2]

theorem Tabled.no_edge_after (h : Tabled s d f (A ++ .table t :: B)) (hB : topParas B = []) :
    s.tableBoundary t.table.id false = none := by
  rw [h.tableBoundary_eq, if_neg (by simp)]
  have := findSome_flow (g := s.blockPosition) B hB []
  rw [List.append_nil] at this
  exact this

theorem Tabled.no_edge_before (h : Tabled s d f (A ++ .table t :: B)) (hA : topParas A = []) :
    s.tableBoundary t.table.id true = none := by
  rw [h.tableBoundary_eq, if_pos rfl, ← List.map_reverse]
  have := findSome_flow (g := fun b => s.blockPosition b + s.blockLength b) A.reverse (by
      rw [topParas_nil_iff] at hA ⊢; intro x hx; exact hA x (by simpa using hx)) []
  rw [List.append_nil] at this
  exact this

/-- The cell read inside a table, and outside. -/
theorem Tabled.cellAt_in (h : Tabled s d f items) {x : Nat} (hx : InTable items t x) :
    ∃ r c, s.tableCellAt x = some (t.table.id, r, c) := by
  obtain ⟨A, B, n, p, k, rfl, hp, hk, rfl⟩ := hx
  obtain ⟨c, hc, hpc⟩ := List.mem_flatMap.mp (List.mem_of_getElem? hp)
  refine ⟨c.cell.row, c.cell.column, ?_⟩
  rw [h.reads.tableCellAt (p := p) ?_ hk]
  · exact h.tableCellOf_cell (mem_tablesOf.mpr (by simp)) hc hpc
  · obtain ⟨hlt, _⟩ := List.getElem?_eq_some_iff.mp hp
    rw [flowParas_append, flowParas_table, List.getElem?_append_right (by omega), Nat.add_sub_cancel_left,
      List.getElem?_append_left hlt, hp]

theorem Tabled.cellAt_out (h : Tabled s d f items) {x : Nat} (hx : OutOfTables items x) : s.tableCellAt x = none := by
  obtain ⟨A, p, B, k, rfl, hk, rfl⟩ := hx
  rw [h.reads.tableCellAt (p := p) (by rw [flowParas_append, flowParas_para]; simp) hk]
  exact h.tableCellOf_top (mem_topParas.mpr (by simp))

/-- Selections that do not cross the edge of a table are not moved. -/
theorem keepOutside_same {a x : Nat} (h : (s.tableCellAt x).isSome = (s.tableCellAt a).isSome) : s.keepOutside a x = x := by
  unfold Store.keepOutside
  cases e1 : s.tableCellAt x <;> cases e2 : s.tableCellAt a <;> rw [e1, e2] at h <;> first | rfl | cases h

theorem Tabled.split_unique {A' B' : List SItem} (h : Tabled s d f items) (e1 : items = A ++ .table t :: B)
    (e2 : items = A' ++ .table t :: B') : A = A' := by
  obtain ⟨L, hH, _⟩ := h.content
  have hn := hH.tables_nodup
  have key : ∀ {X Y X' Y' : List SItem}, ((tablesOf (X ++ .table t :: Y)).map fun t => t.table.id).Nodup →
      X ++ .table t :: Y = X' ++ .table t :: Y' → X = X' := by
    intro X
    induction X with
    | nil =>
      intro Y X' Y' hn he
      cases X' with
      | nil => rfl
      | cons x X' =>
        simp only [List.nil_append, List.cons_append, List.cons.injEq] at he
        obtain ⟨rfl, rfl⟩ := he
        rw [List.nil_append, tablesOf_table, List.map_cons, List.nodup_cons] at hn
        exact absurd (List.mem_map.mpr ⟨t, mem_tablesOf.mpr (by simp), rfl⟩) hn.1
    | cons x X ih =>
      intro Y X' Y' hn he
      cases X' with
      | nil =>
        simp only [List.nil_append, List.cons_append, List.cons.injEq] at he
        obtain ⟨rfl, rfl⟩ := he
        rw [List.cons_append, tablesOf_table, List.map_cons, List.nodup_cons] at hn
        exact absurd (List.mem_map.mpr ⟨t, mem_tablesOf.mpr (by simp), rfl⟩) hn.1
      | cons y X' =>
        simp only [List.cons_append, List.cons.injEq] at he
        obtain ⟨rfl, he⟩ := he
        rw [ih ?_ he]
        cases x with
        | para q => exact hn
        | table u => rw [List.cons_append, tablesOf_table, List.map_cons, List.nodup_cons] at hn; exact hn.2
  rw [e1] at hn
  exact key hn (e1.symm.trans e2)

/-- A paragraph outside the tables is before or after a table. -/
theorem beside {A' B' : List SItem} (e : A ++ .table t :: B = A' ++ .para p :: B') :
    (∃ C, A = A' ++ .para p :: C) ∨ (∃ C, A' = A ++ .table t :: C) := by
  rcases List.append_eq_append_iff.mp e with ⟨l, h1, h2⟩ | ⟨l, h1, h2⟩
  · cases l with
    | nil => simp at h2
    | cons x l =>
      simp only [List.cons_append, List.cons.injEq] at h2
      right; exact ⟨l, by rw [h1, ← h2.1]⟩
  · cases l with
    | nil => simp at h2
    | cons x l =>
      simp only [List.cons_append, List.cons.injEq] at h2
      left; exact ⟨l, by rw [h1, ← h2.1]⟩

theorem at_table {n : Nat} (hp : (t.cells.flatMap SCell.paras)[n]? = some p) :
    (flowParas (A ++ .table t :: B))[(flowParas A).length + n]? = some p := by
  obtain ⟨hlt, _⟩ := List.getElem?_eq_some_iff.mp hp
  rw [flowParas_append, flowParas_table, List.getElem?_append_right (by omega), Nat.add_sub_cancel_left,
    List.getElem?_append_left hlt, hp]

theorem at_top : (flowParas (A ++ .para p :: B))[(flowParas A).length]? = some p := by
  rw [flowParas_append, flowParas_para]; simp

/-- A position outside the tables that is before one position of a table is before all of them. -/
theorem Tabled.before_table (h : Tabled s d f items) {a x z : Nat} (ha : OutOfTables items a) (hx : InTable items t x)
    (hz : InTable items t z) : (a < x → a < z) ∧ (x < a → z < a) := by
  obtain ⟨A, B, n, p, k, e1, hp, hk, rfl⟩ := hx
  obtain ⟨A', B', m, q, j, e2, hq, hj, rfl⟩ := hz
  obtain ⟨A₀, r, B₀, i, e3, hi, rfl⟩ := ha
  have := h.split_unique e1 e2
  subst this
  have hr : (flowParas items)[(flowParas A₀).length]? = some r := by rw [e3]; exact at_top
  have hp' : (flowParas items)[(flowParas A).length + n]? = some p := by rw [e1]; exact at_table hp
  have hq' : (flowParas items)[(flowParas A).length + m]? = some q := by rw [e2]; exact at_table hq
  have hn := (List.getElem?_eq_some_iff.mp hp).1
  have hm := (List.getElem?_eq_some_iff.mp hq).1
  rcases beside (e1.symm.trans e3) with ⟨C, e⟩ | ⟨C, e⟩
  · have hl : (flowParas A₀).length < (flowParas A).length := by rw [e, flowParas_append, flowParas_para]; simp
    have h1 := paraStart_lt hr (m := (flowParas A).length + n) (by omega)
    have h2 := paraStart_lt hr (m := (flowParas A).length + m) (by omega)
    omega
  · have hl : (flowParas A).length + (t.cells.flatMap SCell.paras).length ≤ (flowParas A₀).length := by
      rw [e, flowParas_append, flowParas_table, List.length_append, List.length_append]; omega
    have h1 := paraStart_lt hp' (m := (flowParas A₀).length) (by omega)
    have h2 := paraStart_lt hq' (m := (flowParas A₀).length) (by omega)
    omega

theorem Tabled.before_edge (h : Tabled s d f items) {y z : Nat} (he : EdgeAfter items t y) (hz : InTable items t z) : z < y := by
  obtain ⟨A, C, q, D, e1, hC, rfl⟩ := he
  obtain ⟨A', B', m, p, j, e2, hp, hj, rfl⟩ := hz
  have := h.split_unique e2 e1
  subst this
  have hp' : (flowParas items)[(flowParas A').length + m]? = some p := by rw [e2]; exact at_table hp
  have hm := (List.getElem?_eq_some_iff.mp hp).1
  have := paraStart_lt hp' (m := (flowParas (A' ++ .table t :: C)).length) (by
    rw [flowParas_append, flowParas_table, List.length_append, List.length_append]; omega)
  omega

theorem Tabled.after_edge (h : Tabled s d f items) {y z : Nat} (he : EdgeBefore items t y) (hz : InTable items t z) : y < z := by
  obtain ⟨A, q, C, B, e1, hC, rfl⟩ := he
  obtain ⟨A', B', m, p, j, e2, hp, hj, rfl⟩ := hz
  have := h.split_unique (A := A ++ .para q :: C) (B := B) (by rw [e1]; simp) e2
  subst this
  have hq : (flowParas items)[(flowParas A).length]? = some q := by rw [e1]; exact at_top
  have := paraStart_lt hq (m := (flowParas (A ++ .para q :: C)).length + m) (by
    rw [flowParas_append, flowParas_para]; simp; omega)
  omega

end Verif
