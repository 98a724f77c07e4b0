import Verif.Lemmas.TableReads
import Verif.Model.BoxFormats
/- Documents with tables whose tables, cells and frames get other formats. -/
namespace Verif
variable {s : Store} {d : Document} {f : Nat} {items A B : List SItem} {t : STable}
open Store

/-- A table with other entities for itself and its cells. -/
def STable.dress (gt : Table → Table) (gc : TableCell → TableCell) (t : STable) : STable :=
  { t with table := gt t.table, cells := t.cells.map fun c => { c with cell := gc c.cell } }

/-- The same for an item. -/
def SItem.dress (gt : Table → Table) (gc : TableCell → TableCell) : SItem → SItem
  | .para p => .para p
  | .table t => .table (t.dress gt gc)

/-- Changes of formats alone. -/
structure Dressing (gt : Table → Table) (gc : TableCell → TableCell) (gf : Frame → Frame) (f : Nat) : Prop where
  table : ∀ t, (gt t).id = t.id ∧ (gt t).cells = t.cells
  cell : ∀ c, (gc c).id = c.id ∧ (gc c).row = c.row ∧ (gc c).column = c.column ∧ (gc c).cellFrame = c.cellFrame
  frame : ∀ r, (gf r).id = r.id ∧ (gf r).parentFrame = r.parentFrame ∧ (gf r).blocks = r.blocks ∧
    (gf r).childOrder = r.childOrder ∧ (gf r).table = r.table
  quote : ∀ r, r.id = f → (gf r).fmtIsBlockquote = r.fmtIsBlockquote

variable {gt : Table → Table} {gc : TableCell → TableCell} {gf : Frame → Frame}

theorem flowParas_dress (items : List SItem) : flowParas (items.map (SItem.dress gt gc)) = flowParas items := by
  induction items with
  | nil => rfl
  | cons x items ih =>
    cases x with
    | para p => rw [List.map_cons, SItem.dress, flowParas_para, flowParas_para, ih]
    | table t =>
      rw [List.map_cons, SItem.dress, flowParas_table, flowParas_table, ih]
      simp [STable.dress, List.flatMap_map]

theorem topParas_dress (items : List SItem) : topParas (items.map (SItem.dress gt gc)) = topParas items := by
  induction items with
  | nil => rfl
  | cons x items ih =>
    cases x with
    | para p => rw [List.map_cons, SItem.dress, topParas_para, topParas_para, ih]
    | table t => rw [List.map_cons, SItem.dress, topParas_table, topParas_table, ih]

theorem tablesOf_dress (items : List SItem) : tablesOf (items.map (SItem.dress gt gc)) = (tablesOf items).map (STable.dress gt gc) := by
  induction items with
  | nil => rfl
  | cons x items ih =>
    cases x with
    | para p => rw [List.map_cons, SItem.dress, tablesOf_para, tablesOf_para, ih]
    | table t => rw [List.map_cons, SItem.dress, tablesOf_table, tablesOf_table, ih, List.map_cons]

theorem tableFrames_dress (items : List SItem) : tableFrames (items.map (SItem.dress gt gc)) = tableFrames items := by
  unfold tableFrames
  rw [tablesOf_dress]
  simp [List.flatMap_map, STable.dress, Function.comp_def]

theorem entries_dress (items : List SItem) : (items.map (SItem.dress gt gc)).map SItem.entry = items.map SItem.entry := by
  rw [List.map_map]
  apply List.map_congr_left
  intro x _
  cases x <;> rfl

theorem Dressing.cellIds (hg : Dressing gt gc gf f) (items : List SItem) :
    ((cellsOf (items.map (SItem.dress gt gc))).map fun c => c.cell.id) = (cellsOf items).map fun c => c.cell.id := by
  unfold cellsOf
  rw [tablesOf_dress]
  simp [List.flatMap_map, STable.dress, Function.comp_def, List.map_flatMap, (hg.cell _).1]

theorem Dressing.tableIds (hg : Dressing gt gc gf f) (items : List SItem) :
    ((tablesOf (items.map (SItem.dress gt gc))).map fun t => t.table.id) = (tablesOf items).map fun t => t.table.id := by
  rw [tablesOf_dress]
  simp [STable.dress, Function.comp_def, (hg.table _).1]

theorem ShowsTable.dress {T : IdMap Table} {C : IdMap TableCell} {F : IdMap Frame} (h : ShowsTable s f t) (hg : Dressing gt gc gf f)
    (hT : ∀ i, T i = (s.tables i).map gt) (hC : ∀ i, C i = (s.tableCells i).map gc) (hF : ∀ i, F i = (s.frames i).map gf) :
    ShowsTable { s with tables := T, tableCells := C, frames := F } f (t.dress gt gc) := by
  obtain ⟨fr, a1, a2, a3, a4, a5, a6⟩ := h.anchor
  obtain ⟨g1, g2, g3, g4, g5⟩ := hg.frame fr
  refine ⟨?_, ?_, ?_, ⟨gf fr, ?_, by rw [g1, a2]; rfl, by rw [g2, a3], by rw [g3, a4], by rw [g4, a5], ?_⟩, ?_⟩
  · show T (gt t.table).id = some (gt t.table)
    rw [(hg.table _).1, hT, h.table]; rfl
  · show (gt t.table).cells.Perm _
    rw [(hg.table _).2]
    simpa [STable.dress, Function.comp_def, (hg.cell _).1] using h.cells
  · simp only [STable.dress]
    rw [List.pairwise_map]
    refine h.order.imp ?_
    intro a b hab
    simp only [SCell.before, (hg.cell _).2.1, (hg.cell _).2.2.1] at hab ⊢
    exact hab
  · show F t.anchor = _
    rw [hF, a1]; rfl
  · show (gf fr).table = some (gt t.table).id
    rw [g5, a6, (hg.table _).1]
  · intro c hc
    obtain ⟨c, hcm, rfl⟩ := List.mem_map.mp hc
    obtain ⟨c1, c2, c3, fr2, c4, c5, c6, c7, c8, c9⟩ := h.cell c hcm
    obtain ⟨g1, g2, g3, g4, g5⟩ := hg.frame fr2
    refine ⟨?_, ?_, c3, gf fr2, ?_, by rw [g1, c5], by rw [g5, c6], by rw [g2]; exact c7, by rw [g4]; exact c8, by rw [g3]; exact c9⟩
    · show C (gc c.cell).id = some (gc c.cell)
      rw [(hg.cell _).1, hC, c1]; rfl
    · show (gc c.cell).cellFrame = _
      rw [(hg.cell _).2.2.2, c2]
    · show F c.frame = _
      rw [hF, c4]; rfl

/-- Other formats for tables, cells and frames leave the rest of the document. -/
theorem Tabled.dress {T : IdMap Table} {C : IdMap TableCell} {F : IdMap Frame} (h : Tabled s d f items) (hg : Dressing gt gc gf f)
    (hT : ∀ i, T i = (s.tables i).map gt) (hC : ∀ i, C i = (s.tableCells i).map gc) (hF : ∀ i, F i = (s.frames i).map gf) :
    Tabled { s with tables := T, tableCells := C, frames := F } d f (items.map (SItem.dress gt gc)) := by
  constructor
  · exact h.root
  · exact h.document
  · obtain ⟨L, hH, hsub⟩ := h.content
    refine ⟨L, ?_, by rw [topParas_dress]; exact hsub⟩
    rw [flowParas_dress, hg.tableIds]
    exact ⟨hH.text, hH.perm, hH.keys, hH.block, hH.formats, hH.images, hH.fresh, hH.clean⟩
  · obtain ⟨fr, h1, h2, h3, h4, h5, h6, h7⟩ := h.frame
    obtain ⟨g1, g2, g3, g4, g5⟩ := hg.frame fr
    refine ⟨gf fr, ?_, by rw [g1, h2], by rw [g2, h3], by rw [g5, h4], by rw [hg.quote fr h2, h5], ?_, ?_⟩
    · show F f = _
      rw [hF, h1]; rfl
    · rw [entries_dress, g4]; exact h6
    · rw [topParas_dress, g3]; exact h7
  · intro t ht
    rw [tablesOf_dress] at ht
    obtain ⟨t, htm, rfl⟩ := List.mem_map.mp ht
    exact (h.table t htm).dress hg hT hC hF
  · rw [tableFrames_dress]; exact h.frames
  · rw [tableFrames_dress, hg.cellIds]; exact h.distinct
  · rw [tableFrames_dress]
    intro g hs
    apply h.onlyFrames
    have : (F g).isSome := hs
    rw [hF] at this; simpa using this
  · rw [hg.tableIds]; exact h.tables
  · intro g hs
    apply h.freshFrames
    have : (F g).isSome := hs
    rw [hF] at this; simpa using this
  · intro g hs
    apply h.freshTables
    have : (T g).isSome := hs
    rw [hT] at this; simpa using this
  · intro g hs
    apply h.freshCells
    have : (C g).isSome := hs
    rw [hC] at this; simpa using this
  · rw [hg.tableIds]
    intro g hs
    apply h.onlyTables
    have : (T g).isSome := hs
    rw [hT] at this; simpa using this
  · rw [hg.cellIds]
    intro g hs
    apply h.onlyCells
    have : (C g).isSome := hs
    rw [hC] at this; simpa using this
  · rw [flowParas_dress]; exact h.positive
  · rw [topParas_dress]; exact h.nonempty
  · rw [flowParas_dress, tablesOf_dress]
    intro hne
    exact h.seated (by intro e; rw [e] at hne; exact hne rfl)

/-- Rewriting one entry of a map in place. -/
theorem insert_dress {α : Type} {m : IdMap α} {k : Nat} {v : α} {key : α → Nat} (g : α → α) (hv : m k = some v)
    (hk : ∀ i x, m i = some x → key x = i) (i : Nat) :
    m.insert k (g v) i = (m i).map fun x => if key x = k then g x else x := by
  show (if i = k then some (g v) else m i) = _
  by_cases hi : i = k
  · subst hi
    rw [if_pos rfl, hv, Option.map_some, if_pos (hk _ _ hv)]
  · rw [if_neg hi]
    cases hm : m i with
    | none => rfl
    | some x => rw [Option.map_some, if_neg (by rw [hk _ _ hm]; exact hi)]

theorem Tabled.table_keys (h : Tabled s d f items) (i : Nat) (x : Table) (hx : s.tables i = some x) : x.id = i := by
  obtain ⟨t, ht, e⟩ := List.mem_map.mp (h.onlyTables i (by rw [hx]; rfl))
  have := (h.table t ht).table
  rw [e, hx] at this
  cases this; exact e

theorem Tabled.cell_keys (h : Tabled s d f items) (i : Nat) (x : TableCell) (hx : s.tableCells i = some x) : x.id = i := by
  obtain ⟨c, hc, e⟩ := List.mem_map.mp (h.onlyCells i (by rw [hx]; rfl))
  obtain ⟨t, ht, hc⟩ := List.mem_flatMap.mp hc
  have := ((h.table t ht).cell c hc).1
  rw [e, hx] at this
  cases this; exact e

theorem Tabled.frame_keys (h : Tabled s d f items) (i : Nat) (x : Frame) (hx : s.frames i = some x) : x.id = i := by
  rcases List.mem_cons.mp (h.onlyFrames i (by rw [hx]; rfl)) with rfl | hm
  · obtain ⟨fr, h1, h2, _⟩ := h.frame
    rw [hx] at h1; cases h1; exact h2
  · unfold tableFrames at hm
    obtain ⟨t, ht, hm⟩ := List.mem_flatMap.mp hm
    rcases List.mem_cons.mp hm with rfl | hm
    · obtain ⟨fr, h1, h2, _⟩ := (h.table t ht).anchor
      rw [hx] at h1; cases h1; exact h2
    · obtain ⟨c, hc, rfl⟩ := List.mem_map.mp hm
      obtain ⟨_, _, _, fr, h1, h2, _⟩ := (h.table t ht).cell c hc
      rw [hx] at h1; cases h1; exact h2

theorem dress_id (items : List SItem) : items.map (SItem.dress id id) = items := by
  conv => rhs; rw [← List.map_id items]
  apply List.map_congr_left
  intro x _
  cases x with
  | para p => rfl
  | table t => simp [SItem.dress, STable.dress]

theorem Tabled.other_tables (h : Tabled s d f (A ++ .table t :: B)) {u : STable} (hu : .table u ∈ A ++ B) : u.table.id ≠ t.table.id := by
  obtain ⟨L, hH, _⟩ := h.content
  have hn := hH.tables_nodup
  rw [tablesOf_append, tablesOf_table, List.map_append, List.map_cons, List.nodup_append, List.nodup_cons] at hn
  rcases List.mem_append.mp hu with hu | hu
  · exact hn.2.2 _ (List.mem_map.mpr ⟨u, mem_tablesOf.mpr hu, rfl⟩) _ (by simp)
  · intro e
    exact hn.2.1.1 (by rw [← e]; exact List.mem_map.mpr ⟨u, mem_tablesOf.mpr hu, rfl⟩)

theorem dress_others {A : List SItem} (hA : ∀ u, .table u ∈ A → u.dress gt gc = u) : A.map (SItem.dress gt gc) = A := by
  conv => rhs; rw [← List.map_id A]
  apply List.map_congr_left
  intro x hx
  cases x with
  | para p => rfl
  | table u => rw [SItem.dress, hA u hx]; rfl

end Verif
