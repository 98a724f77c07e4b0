import Verif.Spec.BoxFormats
import Verif.Lemmas.Dress
import Verif.Props.TableReading
import Verif.Props.TableCursor
/-
C73: setting the format of a table, of a cell or of a frame.
-/
namespace Verif
variable {s : Store} {d : Document} {f : Nat} {items A B : List SItem} {t : STable} {c : SCell} {C D : List SCell}
open Store

theorem given_or {α : Type} (a b : Option α) : given a b = a.or b := by cases a <;> rfl

theorem given_int32 (a : Option Int32) (b : Option Int) :
    (given (a.map Int32.toInt) b).map Int32.ofInt = a.or (b.map Int32.ofInt) := by
  cases a with
  | none => simp [given]
  | some v => simp [given, Int32.ofInt_toInt]

theorem TableFormat.ofTable_with (t : Table) (fmt : TableFormat) :
    .ofTable (t.withFormat fmt.toSetDto) = fmt.over (.ofTable t) := by
  simp [TableFormat.ofTable, Table.withFormat, TableFormat.toSetDto, TableFormat.over, given_int32]; try simp [given_or]

theorem CellFormat.ofCell_with (c : TableCell) (fmt : CellFormat) :
    .ofCell (c.withFormat fmt.toSetDto) = fmt.over (.ofCell c) := by
  simp [CellFormat.ofCell, TableCell.withFormat, CellFormat.toSetDto, CellFormat.over, given_int32]; try simp [given_or]

/-- A format can be set on every table of a document.  What is given replaces the old value, what is not given stays;
the rest of the document, its other tables and the place, size and content of this one stay.  Undo gives back the very
same state, so that redo, which executes the command again, does the same once more. -/
theorem C73_table_format (h : Tabled s d f (A ++ .table t :: B)) (fmt : TableFormat) :
    ∃ s' u snap, s.setTableFormat t.table.id fmt = some (s', snap) ∧
      Tabled s' d f (A ++ .table { t with table := u } :: B) ∧ u.sameBut t.table ∧
      s'.tableFormat t.table.id = fmt.over (s.tableFormat t.table.id) ∧
      (∀ i, i ≠ t.table.id → s'.tableFormat i = s.tableFormat i) ∧
      (∀ i, s'.cellFormat i = s.cellFormat i) ∧ (∀ i, s'.frameFormat i = s.frameFormat i) ∧
      s'.lists = s.lists ∧ s'.restoreUndo snap = s := by
  have hm : t ∈ tablesOf (A ++ .table t :: B) := mem_tablesOf.mpr (by simp)
  have ht := (h.table t hm).table
  have hd := h.dress (gt := fun x => if x.id = t.table.id then x.withFormat fmt.toSetDto else x) (gc := id) (gf := id)
    (T := s.tables.insert t.table.id (t.table.withFormat fmt.toSetDto)) (C := s.tableCells) (F := s.frames)
    ⟨fun x => by by_cases e : x.id = t.table.id <;> simp [e, Table.withFormat], fun x => ⟨rfl, rfl, rfl, rfl⟩,
      fun x => ⟨rfl, rfl, rfl, rfl, rfl⟩, fun x _ => rfl⟩
    (insert_dress (key := Table.id) (Table.withFormat · fmt.toSetDto) ht h.table_keys) (fun i => by simp) (fun i => by simp)
  have hout : ∀ u, .table u ∈ A ++ B → u.dress (fun x => if x.id = t.table.id then x.withFormat fmt.toSetDto else x) id = u := by
    intro u hu
    simp [STable.dress, h.other_tables hu]
  rw [List.map_append, List.map_cons, dress_others fun u hu => hout u (by simp [hu]), dress_others fun u hu => hout u (by simp [hu]),
    SItem.dress] at hd
  have e : t.dress (fun x => if x.id = t.table.id then x.withFormat fmt.toSetDto else x) id =
      { t with table := t.table.withFormat fmt.toSetDto } := by simp [STable.dress]
  rw [e] at hd
  refine ⟨_, t.table.withFormat fmt.toSetDto, s.snapshot, ?_, hd, ⟨rfl, rfl, rfl, rfl, rfl⟩, ?_, ?_, fun i => rfl, fun i => rfl, rfl, rfl⟩
  · unfold Store.setTableFormat
    rw [h.docIdOf, Option.bind_some, h.document, Option.bind_some, ht, Option.map_some]
    unfold Store.updateTable
    rw [show (t.table.withFormat fmt.toSetDto).id = t.table.id from rfl, ht]
    rfl
  · show ((s.tables.insert t.table.id (t.table.withFormat fmt.toSetDto) t.table.id).map TableFormat.ofTable).getD {} = _
    rw [show s.tables.insert t.table.id (t.table.withFormat fmt.toSetDto) t.table.id = some (t.table.withFormat fmt.toSetDto) from
      if_pos rfl]
    unfold Store.tableFormat
    rw [ht, Option.map_some, Option.getD_some, Option.map_some, Option.getD_some, TableFormat.ofTable_with]
  · intro i hi
    show ((s.tables.insert t.table.id (t.table.withFormat fmt.toSetDto) i).map TableFormat.ofTable).getD {} = _
    rw [show s.tables.insert t.table.id (t.table.withFormat fmt.toSetDto) i = s.tables i from if_neg hi]
    rfl

theorem Tabled.other_cells (h : Tabled s d f items) (ht : t ∈ tablesOf items) (hc : c ∈ t.cells) {u : STable} {x : SCell}
    (hu : u ∈ tablesOf items) (hx : x ∈ u.cells) (he : x.cell.id = c.cell.id) : x = c := by
  have hn := h.distinct.2
  have hcm : c ∈ cellsOf items := List.mem_flatMap.mpr ⟨t, ht, hc⟩
  have hxm : x ∈ cellsOf items := List.mem_flatMap.mpr ⟨u, hu, hx⟩
  clear ht hu
  generalize cellsOf items = l at hn hcm hxm
  induction l with
  | nil => simp at hcm
  | cons y l ih =>
    rw [List.map_cons, List.nodup_cons] at hn
    rcases List.mem_cons.mp hcm with rfl | hc' <;> rcases List.mem_cons.mp hxm with rfl | hx'
    · rfl
    · exact absurd (List.mem_map.mpr ⟨x, hx', he⟩) hn.1
    · exact absurd (List.mem_map.mpr ⟨c, hc', he.symm⟩) hn.1
    · exact ih hn.2 hc' hx'

/-- The same for a cell. -/
theorem C73_cell_format (h : Tabled s d f (A ++ .table t :: B)) (hc : t.cells = C ++ c :: D) (fmt : CellFormat) :
    ∃ s' u snap, s.setCellFormat c.cell.id fmt = some (s', snap) ∧
      Tabled s' d f (A ++ .table { t with cells := C ++ { c with cell := u } :: D } :: B) ∧ u.sameBut c.cell ∧
      s'.cellFormat c.cell.id = fmt.over (s.cellFormat c.cell.id) ∧
      (∀ i, i ≠ c.cell.id → s'.cellFormat i = s.cellFormat i) ∧
      (∀ i, s'.tableFormat i = s.tableFormat i) ∧ (∀ i, s'.frameFormat i = s.frameFormat i) ∧
      s'.lists = s.lists ∧ s'.restoreUndo snap = s := by
  have hm : t ∈ tablesOf (A ++ .table t :: B) := mem_tablesOf.mpr (by simp)
  have hcm : c ∈ t.cells := by rw [hc]; simp
  have ht := ((h.table t hm).cell c hcm).1
  have hd := h.dress (gt := id) (gc := fun x => if x.id = c.cell.id then x.withFormat fmt.toSetDto else x) (gf := id)
    (T := s.tables) (C := s.tableCells.insert c.cell.id (c.cell.withFormat fmt.toSetDto)) (F := s.frames)
    ⟨fun x => ⟨rfl, rfl⟩, fun x => by by_cases e : x.id = c.cell.id <;> simp [e, TableCell.withFormat],
      fun x => ⟨rfl, rfl, rfl, rfl, rfl⟩, fun x _ => rfl⟩
    (fun i => by simp) (insert_dress (key := TableCell.id) (TableCell.withFormat · fmt.toSetDto) ht h.cell_keys) (fun i => by simp)
  have hn := h.distinct.2
  unfold cellsOf at hn
  rw [tablesOf_append, tablesOf_table, List.flatMap_append, List.flatMap_cons, hc, List.map_append, List.map_append,
    List.map_append, List.map_cons] at hn
  have hdress : ∀ u : STable, (∀ x ∈ u.cells, x.cell.id ≠ c.cell.id) →
      u.dress id (fun x => if x.id = c.cell.id then x.withFormat fmt.toSetDto else x) = u := by
    intro u hu
    have : (u.cells.map fun x => { x with cell := if x.cell.id = c.cell.id then x.cell.withFormat fmt.toSetDto else x.cell }) = u.cells := by
      conv => rhs; rw [← List.map_id u.cells]
      apply List.map_congr_left
      intro x hx
      rw [if_neg (hu x hx)]; rfl
    simp only [STable.dress, this]; rfl
  have hn2 := List.nodup_append.mp hn
  have hn3 := List.nodup_append.mp hn2.2.1
  have hn4 := List.nodup_append.mp hn3.1
  have hA : ∀ u, .table u ∈ A → ∀ x ∈ u.cells, x.cell.id ≠ c.cell.id := by
    intro u hu x hx
    exact hn2.2.2 _ (List.mem_map.mpr ⟨x, List.mem_flatMap.mpr ⟨u, mem_tablesOf.mpr hu, hx⟩, rfl⟩) _ (by simp)
  have hB : ∀ u, .table u ∈ B → ∀ x ∈ u.cells, x.cell.id ≠ c.cell.id := by
    intro u hu x hx e
    exact hn3.2.2 c.cell.id (by simp) _ (List.mem_map.mpr ⟨x, List.mem_flatMap.mpr ⟨u, mem_tablesOf.mpr hu, hx⟩, rfl⟩) e.symm
  have hC : ∀ x ∈ C, x.cell.id ≠ c.cell.id := fun x hx => hn4.2.2 _ (List.mem_map.mpr ⟨x, hx, rfl⟩) _ (by simp)
  have hD : ∀ x ∈ D, x.cell.id ≠ c.cell.id := by
    intro x hx e
    exact (List.nodup_cons.mp hn4.2.1).1 (by rw [← e]; exact List.mem_map.mpr ⟨x, hx, rfl⟩)
  have hid : ∀ l : List SCell, (∀ x ∈ l, x.cell.id ≠ c.cell.id) →
      (l.map fun x => { x with cell := if x.cell.id = c.cell.id then x.cell.withFormat fmt.toSetDto else x.cell }) = l := by
    intro l hl
    conv => rhs; rw [← List.map_id l]
    apply List.map_congr_left
    intro x hx
    rw [if_neg (hl x hx)]; rfl
  rw [List.map_append, List.map_cons, dress_others fun u hu => hdress u (hA u hu), dress_others fun u hu => hdress u (hB u hu),
    SItem.dress] at hd
  have e : t.dress id (fun x => if x.id = c.cell.id then x.withFormat fmt.toSetDto else x) =
      { t with cells := C ++ { c with cell := c.cell.withFormat fmt.toSetDto } :: D } := by
    simp only [STable.dress, hc]
    rw [List.map_append, List.map_cons, hid C hC, hid D hD, if_pos rfl]; rfl
  rw [e] at hd
  refine ⟨_, c.cell.withFormat fmt.toSetDto, s.snapshot, ?_, hd, ⟨rfl, rfl, rfl, rfl, rfl, rfl⟩, ?_, ?_, fun i => rfl, fun i => rfl, rfl, rfl⟩
  · unfold Store.setCellFormat
    rw [h.docIdOf, Option.bind_some, h.document, Option.bind_some, ht, Option.map_some]
    unfold Store.updateCell
    rw [show (c.cell.withFormat fmt.toSetDto).id = c.cell.id from rfl, ht]
    rfl
  · show ((s.tableCells.insert c.cell.id (c.cell.withFormat fmt.toSetDto) c.cell.id).map CellFormat.ofCell).getD {} = _
    rw [show s.tableCells.insert c.cell.id (c.cell.withFormat fmt.toSetDto) c.cell.id = some (c.cell.withFormat fmt.toSetDto) from
      if_pos rfl]
    unfold Store.cellFormat
    rw [ht, Option.map_some, Option.getD_some, Option.map_some, Option.getD_some, CellFormat.ofCell_with]
  · intro i hi
    show ((s.tableCells.insert c.cell.id (c.cell.withFormat fmt.toSetDto) i).map CellFormat.ofCell).getD {} = _
    rw [show s.tableCells.insert c.cell.id (c.cell.withFormat fmt.toSetDto) i = s.tableCells i from if_neg hi]
    rfl

theorem FrameFormat.ofFrame_with (r : Frame) (fmt : FrameFormat) :
    .ofFrame (r.withFormat fmt.toSetDto) = ({ fmt with position := none } : FrameFormat).over (.ofFrame r) := by
  simp [FrameFormat.ofFrame, Frame.withFormat, FrameFormat.toSetDto, FrameFormat.over, given_int32]; try simp [given_or]

/-- A format can be set on every frame: the main frame, and the frames of tables and cells.  What is given replaces the
old value, except the position, which is dropped (see `C73_frame_position_fails`); the document stays, unless it is the
main frame that is made a quotation or declared to be none, which is left out here.  Missing: the position. -/
theorem C73_frame_format_partial (h : Tabled s d f items) {g : Nat} (hg : g ∈ f :: tableFrames items) (fmt : FrameFormat)
    (hq : g = f → fmt.isBlockquote = none) :
    ∃ s' snap, s.setFrameFormat g fmt = some (s', snap) ∧ Tabled s' d f items ∧
      s'.frameFormat g = ({ fmt with position := none } : FrameFormat).over (s.frameFormat g) ∧
      (∀ i, i ≠ g → s'.frameFormat i = s.frameFormat i) ∧
      (∀ i, s'.tableFormat i = s.tableFormat i) ∧ (∀ i, s'.cellFormat i = s.cellFormat i) ∧
      s'.lists = s.lists ∧ s'.restoreUndo snap = s := by
  obtain ⟨fr, hfr⟩ : ∃ fr, s.frames g = some fr := by
    rcases List.mem_cons.mp hg with rfl | hm
    · obtain ⟨fr, h1, _⟩ := h.frame; exact ⟨fr, h1⟩
    · unfold tableFrames at hm
      obtain ⟨t, ht, hm⟩ := List.mem_flatMap.mp hm
      rcases List.mem_cons.mp hm with rfl | hm
      · obtain ⟨fr, h1, _⟩ := (h.table t ht).anchor; exact ⟨fr, h1⟩
      · obtain ⟨c, hc, rfl⟩ := List.mem_map.mp hm
        obtain ⟨_, _, _, fr, h1, _⟩ := (h.table t ht).cell c hc; exact ⟨fr, h1⟩
  have hid := h.frame_keys g fr hfr
  have hd := h.dress (gt := id) (gc := id) (gf := fun x => if x.id = g then x.withFormat fmt.toSetDto else x)
    (T := s.tables) (C := s.tableCells) (F := s.frames.insert g (fr.withFormat fmt.toSetDto))
    ⟨fun x => ⟨rfl, rfl⟩, fun x => ⟨rfl, rfl, rfl, rfl⟩, fun x => by by_cases e : x.id = g <;> simp [e, Frame.withFormat],
      fun x hx => by
        by_cases e : x.id = g
        · have := hq (by rw [← e, hx])
          simp [e, Frame.withFormat, FrameFormat.toSetDto, this, given]
        · simp [e]⟩
    (fun i => by simp) (fun i => by simp) (insert_dress (key := Frame.id) (Frame.withFormat · fmt.toSetDto) hfr h.frame_keys)
  rw [dress_id] at hd
  refine ⟨_, s.snapshot, ?_, hd, ?_, ?_, fun i => rfl, fun i => rfl, rfl, rfl⟩
  · unfold Store.setFrameFormat
    rw [h.docIdOf, Option.bind_some, h.document, Option.bind_some, hfr, Option.map_some]
    unfold Store.updateFrame
    rw [show (fr.withFormat fmt.toSetDto).id = g from hid, hfr]
    rfl
  · show ((s.frames.insert g (fr.withFormat fmt.toSetDto) g).map FrameFormat.ofFrame).getD {} = _
    rw [show s.frames.insert g (fr.withFormat fmt.toSetDto) g = some (fr.withFormat fmt.toSetDto) from if_pos rfl]
    unfold Store.frameFormat
    rw [hfr, Option.map_some, Option.getD_some, Option.map_some, Option.getD_some, FrameFormat.ofFrame_with]
  · intro i hi
    show ((s.frames.insert g (fr.withFormat fmt.toSetDto) i).map FrameFormat.ofFrame).getD {} = _
    rw [show s.frames.insert g (fr.withFormat fmt.toSetDto) i = s.frames i from if_neg hi]
    rfl

/-- The position in a frame format never arrives: the call succeeds and reports nothing, and the frame is not placed. -/
theorem C73_frame_position_fails : ∃ (s s' : Store) (p : FramePosition) (snap : Snapshot),
    (Store.newStore.bind fun s => s.importPlainText "ab".toList) = some s ∧
    s.setFrameFormat 2 { position := some p } = some (s', snap) ∧
    (s.frameFormat 2).position = none ∧ (s'.frameFormat 2).position = none := by
  refine ⟨_, _, .floatLeft, _, rfl, rfl, ?_⟩
  decide +kernel

/-- Formats are refused for tables, cells and frames that are not in the document. -/
theorem C73_absent (h : Tabled s d f items) (id : Nat) :
    (id ∉ (tablesOf items).map (fun t => t.table.id) → ∀ fmt, s.setTableFormat id fmt = none) ∧
    (id ∉ (cellsOf items).map (fun c => c.cell.id) → ∀ fmt, s.setCellFormat id fmt = none) ∧
    (id ∉ f :: tableFrames items → ∀ fmt, s.setFrameFormat id fmt = none) := by
  refine ⟨?_, ?_, ?_⟩ <;> intro hn fmt
  · unfold Store.setTableFormat
    rw [h.docIdOf, Option.bind_some, h.document, Option.bind_some]
    cases hs : s.tables id with
    | none => rfl
    | some x => exact absurd (h.onlyTables id (by rw [hs]; rfl)) hn
  · unfold Store.setCellFormat
    rw [h.docIdOf, Option.bind_some, h.document, Option.bind_some]
    cases hs : s.tableCells id with
    | none => rfl
    | some x => exact absurd (h.onlyCells id (by rw [hs]; rfl)) hn
  · unfold Store.setFrameFormat
    rw [h.docIdOf, Option.bind_some, h.document, Option.bind_some]
    cases hs : s.frames id with
    | none => rfl
    | some x => exact absurd (h.onlyFrames id (by rw [hs]; rfl)) hn

/-- The calls that work where the cursor is: in a cell, also at the end of its text, they format the table and the cell
of the paragraph the cursor is in; outside the tables they are refused. -/
theorem C73_current (h : Tabled s d f items) {n k : Nat} {p : SPara} (hp : (flowParas items)[n]? = some p) (hk : k ≤ p.chars.length) :
    (t ∈ tablesOf items → c ∈ t.cells → p ∈ c.paras → 0 ≤ c.cell.row → 0 ≤ c.cell.column →
      (∀ fmt, s.setCurrentTableFormat (paraStart (flowParas items) n + k) fmt = s.setTableFormat t.table.id fmt) ∧
      ∀ fmt, s.setCurrentCellFormat (paraStart (flowParas items) n + k) fmt = s.setCellFormat c.cell.id fmt) ∧
    (p ∈ topParas items →
      (∀ fmt, s.setCurrentTableFormat (paraStart (flowParas items) n + k) fmt = none) ∧
      ∀ fmt, s.setCurrentCellFormat (paraStart (flowParas items) n + k) fmt = none) := by
  obtain ⟨h1, h2⟩ := C71_cell_at (t := t) (c := c) h hp hk
  constructor
  · intro ht hc hpc hr hcol
    unfold Store.setCurrentTableFormat Store.setCurrentCellFormat
    rw [h1 ht hc hpc]
    refine ⟨fun _ => rfl, fun fmt => ?_⟩
    have := ((C72_table h ht).2.2.2.1 c hc c.cell.row.toNat c.cell.column.toNat (by omega) (by omega)).1
    simp only [Option.bind_some]
    rw [this]; rfl
  · intro ht
    unfold Store.setCurrentTableFormat Store.setCurrentCellFormat
    rw [h2 ht]
    exact ⟨fun _ => rfl, fun _ => rfl⟩

/-- The hypotheses are met: "ab", a table of two cells, "cd"; the cursor at position 4 is in the second cell. -/
example : ∃ (s : Store) (d : Document) (A B : List SItem) (t : STable) (c c' : SCell), Tabled s d 2 (A ++ .table t :: B) ∧
    t.cells = [c] ++ c' :: [] ∧ 0 ≤ c'.cell.row ∧ 0 ≤ c'.cell.column ∧
    ∃ p ∈ c'.paras, (flowParas (A ++ .table t :: B))[2]? = some p ∧ paraStart (flowParas (A ++ .table t :: B)) 2 = 4 := by
  obtain ⟨s, d, t, h1, _, h3, h4⟩ := sample_tabled
  have hp := h4.places
  match hcs : t.cells with
  | [] => rw [hcs] at hp; exact absurd hp (by decide)
  | [c] => rw [hcs] at hp; exact absurd (congrArg List.length hp) (by simp)
  | c :: c' :: x :: l => rw [hcs] at hp; exact absurd (congrArg List.length hp) (by simp)
  | [c, c'] =>
    obtain ⟨i, e1, _⟩ := h4.cells c (by rw [hcs]; simp)
    obtain ⟨j, e2, _⟩ := h4.cells c' (by rw [hcs]; simp)
    rw [hcs] at hp
    have hp : [(c.cell.row, c.cell.column), (c'.cell.row, c'.cell.column)] = [((0 : Int), (0 : Int)), (0, 1)] := hp
    have hr : c'.cell.row = 0 ∧ c'.cell.column = 1 := by
      simp only [List.cons.injEq, Prod.mk.injEq] at hp; exact hp.2.1
    have hf : flowParas ([.para (plainPara 2 ['a', 'b'])] ++ .table t :: [.para (plainPara 3 ['c', 'd'])]) =
        [plainPara 2 ['a', 'b'], plainPara 4 [], plainPara 5 [], plainPara 3 ['c', 'd']] := by
      rw [List.singleton_append, flowParas_para, flowParas_table, h3]; rfl
    rw [hcs] at h3
    have h3 : c.paras ++ (c'.paras ++ []) = [plainPara 4 [], plainPara 5 []] := h3
    rw [e1, e2] at h3
    refine ⟨s, d, [.para (plainPara 2 ['a', 'b'])], [.para (plainPara 3 ['c', 'd'])], t, c, c', h1, hcs, by omega, by omega,
      plainPara 5 [], ?_, by rw [hf]; rfl, by rw [hf]; rfl⟩
    rw [e2]
    have := (List.cons.inj (List.cons.inj h3).2).1
    rw [this]; simp

end Verif
