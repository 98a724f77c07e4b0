import Verif.Lemmas.DocxGrid
import Verif.Lemmas.TableEditGrow
import Verif.Lemmas.ExportHtml
import Verif.Lemmas.TableEditCells
import Verif.Spec.CellSelection
/- DOCX export of a document. -/
namespace Verif
open Store

variable {s : Store} {d : Document} {f : Nat} {items : List SItem} {p : SPara} {t : STable}

theorem InTurn.map {α β γ : Type} {R : β → γ → Prop} {u : α → β} {v : α → γ} : ∀ {l : List α}, (∀ x ∈ l, R (u x) (v x)) →
    InTurn R (l.map u) (l.map v)
  | [], _ => trivial
  | x :: l, h => ⟨h x (by simp), InTurn.map fun y hy => h y (by simp [hy])⟩

theorem InTurn.map_right {α γ : Type} {R : α → γ → Prop} {v : α → γ} {l : List α} (h : ∀ x ∈ l, R x (v x)) :
    InTurn R l (l.map v) := by
  have := InTurn.map (R := R) (u := id) (v := v) (l := l) h
  simpa using this

theorem InTurn.mapOpt {α β γ : Type} {R : α → γ → Prop} {u : β → Option γ} {v : α → β} : ∀ {l : List α},
    (∀ x ∈ l, ∃ y, u (v x) = some y ∧ R x y) → ∃ ys, mapOpt u (l.map v) = some ys ∧ InTurn R l ys
  | [], _ => ⟨[], rfl, trivial⟩
  | x :: l, h => by
    obtain ⟨y, h1, h2⟩ := h x (by simp)
    obtain ⟨ys, h3, h4⟩ := InTurn.mapOpt (l := l) fun z hz => h z (by simp [hz])
    refine ⟨y :: ys, ?_, h2, h4⟩
    simp [Verif.mapOpt, h1, h3]

theorem InTurn.append {α β : Type} {R : α → β → Prop} : ∀ {l : List α} {m : List β} {l' : List α} {m' : List β},
    InTurn R l m → InTurn R l' m' → InTurn R (l ++ l') (m ++ m')
  | [], [], _, _, _, h => h
  | _ :: _, _ :: _, _, _, h, h' => ⟨h.1, h.2.append h'⟩
  | [], _ :: _, _, _, h, _ => h.elim
  | _ :: _, [], _, _, h, _ => h.elim

theorem InTurn.length {α β : Type} {R : α → β → Prop} : ∀ {l : List α} {m : List β}, InTurn R l m → m.length = l.length
  | [], [], _ => rfl
  | _ :: _, _ :: _, h => by simp [h.2.length]
  | [], _ :: _, h => h.elim
  | _ :: _, [], h => h.elim

/-- How an item of a paragraph is written. -/
def docxItemLook : Item CharFormat → List (Char × DocxLook)
  | .char c f => [(c, ⟨f.fontBold == some true, f.fontItalic == some true, f.fontUnderline == some true, f.fontStrikeout == some true,
      f.fontFamily == some "monospace"⟩)]
  | .image i => docxRead (docxSegment (.image i))

theorem docxRead_append (a b : List DocxRun) : docxRead (a ++ b) = docxRead a ++ docxRead b := by simp [docxRead]

theorem bdec {α : Type} [DecidableEq α] (a b : Option α) : decide (a = b) = (a == b) := by
  by_cases h : a = b
  · subst h; simp
  · simp [h]

theorem docxRead_marks (fm : CharFormat) (x : List Char) : docxRead [docxMarks fm x] = x.flatMap fun c => docxItemLook (.char c fm) := by
  induction x with
  | nil => rfl
  | cons c x ih =>
    rw [List.flatMap_cons, ← ih]
    simp only [docxRead, docxMarks, docxItemLook, List.flatMap_cons, List.flatMap_nil, List.append_nil, List.map_cons, List.cons_append,
      List.nil_append, List.cons.injEq, Prod.mk.injEq, true_and, and_true, DocxLook.mk.injEq]
    exact ⟨bdec _ _, bdec _ _, bdec _ _, bdec _ _, bdec _ _⟩

theorem docxRead_items (segs : List (Segment CharFormat)) :
    docxRead (segs.flatMap docxSegment) = (segItems segs).flatMap docxItemLook := by
  induction segs with
  | nil => rfl
  | cons g segs ih =>
    rw [List.flatMap_cons, docxRead_append, ih]
    cases g with
    | image i => simp [segItems, docxItemLook]
    | text x fm =>
      have e : segItems (Segment.text x fm :: segs) = x.map (fun c => Item.char c fm) ++ segItems segs := by simp [segItems]
      rw [e, List.flatMap_append, List.flatMap_map, ← docxRead_marks]
      congr 1
      show docxRead (if x = [] then [] else [docxMarks fm x]) = _
      split
      · rename_i h; subst h; rfl
      · rfl

theorem docxRead_segments {segs : List (Segment CharFormat)} (h : segItems segs = p.chars.map fun c => .char c.1 (c.2.getD {})) :
    docxRead (segs.flatMap docxSegment) = docxLooks p := by
  rw [docxRead_items, h, List.flatMap_map]
  unfold docxLooks
  generalize p.chars = cs
  induction cs with
  | nil => rfl
  | cons c cs ih => rw [List.flatMap_cons, List.map_cons, ih]; rfl

theorem Carries.docxRuns {L : List Para} {ps : List SPara} {ts : List Nat} (h : Carries s L ps ts) (hp : p ∈ ps) (x : Int) :
    ∃ runs, s.docxRuns (p.entity x) = some runs ∧ docxRead runs = docxLooks p := by
  obtain ⟨segs, h1, h2⟩ := (h.formats p hp).segments {}
  refine ⟨segs.flatMap docxSegment, ?_, docxRead_segments h2⟩
  unfold Store.docxRuns Store.blockSegments Store.segmentsOf Store.runsOf Store.imagesOf
  have hid : (p.entity x).id = p.id := rfl
  rw [hid, h.content hp, h.images p hp]
  simp only [Option.bind_some]
  show Option.map _ (inlineSegmentsView _ (p.chars.map Prod.fst) _ _) = _
  rw [h1]; rfl

/-- The stored positions ascend. -/
def Ascends (s : Store) (ps : List SPara) : Prop := ps.Pairwise fun p q => s.storedPos p < s.storedPos q

theorem Seated.ascends {ps : List SPara} (h : Seated s ps) : Ascends s ps := by
  unfold Ascends
  rw [List.pairwise_iff_getElem]
  intro i j hi hj hij
  obtain ⟨b, b1, b2⟩ := h i _ (List.getElem?_eq_getElem hi)
  obtain ⟨c, c1, c2⟩ := h j _ (List.getElem?_eq_getElem hj)
  unfold Store.storedPos
  rw [b1, c1]
  have := paraStart_lt (List.getElem?_eq_getElem hi) hij
  simp only [Option.map_some, Option.getD_some]
  omega

theorem topParas_sublist (items : List SItem) : (topParas items).Sublist (flowParas items) := by
  induction items with
  | nil => exact .slnil
  | cons x items ih =>
    cases x with
    | para p => exact ih.cons_cons p
    | table t => exact ih.trans (List.sublist_append_right _ _)

theorem cellParas_sublist {c : SCell} (ht : t ∈ tablesOf items) (hc : c ∈ t.cells) : c.paras.Sublist (flowParas items) := by
  induction items with
  | nil => exact absurd ht (by simp [tablesOf])
  | cons x items ih =>
    cases x with
    | para p => exact (ih ht).cons p
    | table u =>
      rw [tablesOf_table, List.mem_cons] at ht
      rw [flowParas_table]
      rcases ht with rfl | ht
      · refine List.Sublist.trans ?_ (List.sublist_append_left _ _)
        obtain ⟨X, Y, e⟩ := List.append_of_mem hc
        rw [e, List.flatMap_append, List.flatMap_cons]
        exact (List.sublist_append_left _ _).trans (List.sublist_append_right _ _)
      · exact (ih ht).trans (List.sublist_append_right _ _)

/-- The blocks of the main frame by stored position. -/
theorem Arranged.mainBlocks (h : Arranged s d f items) (ho : Ascends s (flowParas items)) :
    sortByKey Block.documentPosition (s.getBlocks (s.frameBlocks f)) = (topParas items).map fun p => p.entity (s.storedPos p) := by
  obtain ⟨L, hL, _⟩ := h.content
  have hsub : ∀ q ∈ topParas items, q ∈ flowParas items := fun q hq => (topParas_sublist items).subset hq
  apply eq_of_ordered (le := fun a b : Block => a.documentPosition ≤ b.documentPosition)
    (lt := fun a b : Block => a.documentPosition < b.documentPosition)
  · intro x y h1 h2; omega
  · refine (sortByKey_perm _ _).trans ?_
    rw [← hL.getBlocks (topParas items) hsub]
    exact h.mainFrameBlocks.filterMap _
  · exact sortByKey_sorted _ _
  · rw [List.pairwise_map]
    exact ho.sublist (topParas_sublist items)

theorem Arranged.docxCell (h : Arranged s d f items) (ho : Ascends s (flowParas items)) (ht : t ∈ tablesOf items) {c : SCell} (hc : c ∈ t.cells) :
    ∃ ps, s.docxCellParas c.cell = some ps ∧ InTurn ShowsDocxText c.paras ps := by
  obtain ⟨L, hL, _⟩ := h.content
  obtain ⟨_, k2, _⟩ := (h.table t ht).cell c hc
  unfold Store.docxCellParas
  rw [k2]
  simp only []
  rw [h.sortedBlocks ht hc (ho.sublist (cellParas_sublist ht hc))]
  apply InTurn.mapOpt
  intro p hp
  obtain ⟨runs, h1, h2⟩ := hL.docxRuns ((cellParas_sublist ht hc).subset hp) (s.storedPos p)
  exact ⟨{ runs }, by rw [h1]; rfl, ⟨h2, rfl⟩⟩

/-- The paragraphs written for a cell. -/
def cellParasOf (s : Store) (c : TableCell) : List DocxPara := (s.docxCellParas c).getD []

theorem Arranged.shows_start (h : Arranged s d f items) (ho : Ascends s (flowParas items)) (ht : t ∈ tablesOf items)
    (hs : Tiling t.table.rows t.table.columns (t.cells.map SCell.cell)) {c : SCell} (hc : c ∈ t.cells) :
    ShowsDocxCell c (docxStart (cellParasOf s) c.cell) := by
  obtain ⟨ps, h1, h2⟩ := h.docxCell ho ht hc
  refine ⟨width_start _ (hs.span _ (List.mem_map_of_mem hc)).2, rfl, ?_⟩
  show InTurn _ _ (cellParasOf s c.cell)
  unfold cellParasOf
  rw [h1]; exact h2

/-- The cells that begin in a row, by column. -/
theorem row_cells {cells : List SCell} {rows columns : Nat} (ht : Tiling rows columns (cells.map SCell.cell)) (ho : cells.Pairwise SCell.before) {r : Nat} :
    ((List.range' 0 columns).filterMap fun (k : Nat) =>
      (cells.map SCell.cell).find? fun (c : TableCell) => decide (c.row = (r : Int) ∧ c.column = (k : Int))) =
    (cells.filter fun c => decide (c.cell.row = (r : Int))).map SCell.cell := by
  have hfind : ∀ (k : Nat) (b : TableCell),
      (cells.map SCell.cell).find? (fun (c : TableCell) => decide (c.row = (r : Int) ∧ c.column = (k : Int))) = some b →
      b ∈ cells.map SCell.cell ∧ b.row = (r : Int) ∧ b.column = (k : Int) := by
    intro k b hb
    have h1 := List.find?_some (p := fun (c : TableCell) => decide (c.row = (r : Int) ∧ c.column = (k : Int))) hb
    exact ⟨List.mem_of_find?_eq_some hb, of_decide_eq_true h1⟩
  have hl : ((List.range' 0 columns).filterMap fun (k : Nat) =>
      (cells.map SCell.cell).find? fun (c : TableCell) => decide (c.row = (r : Int) ∧ c.column = (k : Int))).Pairwise
      fun a b : TableCell => a.column < b.column := by
    rw [List.pairwise_filterMap]
    refine (List.pairwise_lt_range' (s := 0) (n := columns) 1).imp ?_
    intro a b hab x hx y hy
    have h1 := (hfind _ _ hx).2.2
    have h2 := (hfind _ _ hy).2.2
    omega
  have hm : ((cells.filter fun c => decide (c.cell.row = (r : Int))).map SCell.cell).Pairwise fun a b : TableCell => a.column < b.column := by
    rw [List.pairwise_map, List.pairwise_filter]
    refine ho.imp ?_
    intro a b hab h1 h2
    simp only [decide_eq_true_eq] at h1 h2
    unfold SCell.before at hab
    omega
  have hnd : ∀ {l : List TableCell}, (l.Pairwise fun a b : TableCell => a.column < b.column) → l.Nodup := by
    intro l hl
    exact hl.imp fun {a b} hab e => by subst e; omega
  apply eq_of_ordered (le := fun a b : TableCell => a.column ≤ b.column) (lt := fun a b : TableCell => a.column < b.column)
  · intro x y h1 h2; omega
  · rw [List.perm_ext_iff_of_nodup (hnd hl) (hnd hm)]
    intro a
    rw [List.mem_filterMap]
    constructor
    · rintro ⟨k, _, hk⟩
      obtain ⟨h1, h2, _⟩ := hfind _ _ hk
      obtain ⟨c, hc, rfl⟩ := List.mem_map.mp h1
      exact List.mem_map_of_mem (List.mem_filter.mpr ⟨hc, decide_eq_true h2⟩)
    · intro ha
      obtain ⟨c, hc, rfl⟩ := List.mem_map.mp ha
      obtain ⟨hc, hr⟩ := List.mem_filter.mp hc
      have hr := of_decide_eq_true hr
      have hcm := List.mem_map_of_mem (f := SCell.cell) hc
      have hin := ht.inside _ hcm
      have hsp := ht.span _ hcm
      refine ⟨c.cell.column.toNat, List.mem_range'_1.mpr (by omega), ?_⟩
      cases hf : (cells.map SCell.cell).find? fun (x : TableCell) => decide (x.row = (r : Int) ∧ x.column = (c.cell.column.toNat : Int)) with
      | none =>
        have := List.find?_eq_none.mp hf _ hcm
        simp only [decide_eq_true_eq] at this
        exact absurd ⟨hr, by omega⟩ this
      | some b =>
        obtain ⟨h1, h2, h3⟩ := hfind _ _ hf
        have hsb := ht.span _ h1
        rw [ht.unique h1 hcm (r := r) (k := c.cell.column) (by simp only [TableCell.covers, decide_eq_true_eq]; omega)
          (by simp only [TableCell.covers, decide_eq_true_eq]; omega)]
  · exact hl.imp fun h => by omega
  · exact hm

theorem Arranged.docxTable (h : Arranged s d f items) (ho : Ascends s (flowParas items)) (ht : t ∈ tablesOf items) (hs : t.Sound) :
    ∃ x, s.docxTable t.table.id = some x ∧ IsDocxTable t x := by
  obtain ⟨hr, hk, hti⟩ := hs
  obtain ⟨rows, hrows⟩ : ∃ n : Nat, t.table.rows = n := ⟨t.table.rows.toNat, by omega⟩
  obtain ⟨columns, hcols⟩ : ∃ n : Nat, t.table.columns = n := ⟨t.table.columns.toNat, by omega⟩
  have hs' := hti
  rw [hrows, hcols] at hti
  have hg : ∀ c ∈ t.cells.map SCell.cell, s.docxCellParas c = some (cellParasOf s c) := by
    intro x hx
    obtain ⟨c, hc, rfl⟩ := List.mem_map.mp hx
    obtain ⟨ps, h1, _⟩ := h.docxCell ho ht hc
    unfold cellParasOf; rw [h1]; rfl
  have hst : ∀ c ∈ t.cells, ShowsDocxCell c (docxStart (cellParasOf s) c.cell) := fun c hc => h.shows_start ho ht hs' hc
  refine ⟨_, by
    unfold Store.docxTable
    rw [(h.table t ht).table, Option.bind_some, Store.sortedCells, (h.table t ht).sorted, hrows, hcols, Int.toNat_natCast, Int.toNat_natCast,
      docxRows_all hti hg, Option.map_some], _, rfl, ?_, ?_⟩
  · refine ⟨by simp [hrows], ?_⟩
    intro r row hrow
    rw [List.getElem?_map] at hrow
    obtain ⟨r', h1, h2⟩ := Option.map_eq_some_iff.mp hrow
    obtain ⟨hlt, rfl⟩ := List.getElem?_eq_some_iff.mp h1
    rw [List.length_range] at hlt
    rw [List.getElem_range] at h2
    rw [← h2, docxTail_starts hti hlt columns 0 (by omega), row_cells hti (h.table t ht).order, List.map_map]
    exact InTurn.map_right fun c hc => hst c (List.mem_filter.mp hc).1
  · intro hthin
    have hthin' : ∀ c ∈ t.cells.map SCell.cell, c.rowSpan = 1 ∨ c.columnSpan = 1 := by
      intro x hx
      obtain ⟨c, hc, rfl⟩ := List.mem_map.mp hx
      exact hthin c hc
    have hcol : ∀ {r : Nat}, r < rows → _ := fun {r} hr => docxTail_columns (g := cellParasOf s) hti hthin' hr columns 0 0 (by omega) (RowAt.zero hti hr)
    have hrow : ∀ {r : Nat} {row : List DocxCell}, ((List.range rows).map fun r => docxTail (cellParasOf s) (t.cells.map SCell.cell) r columns 0)[r]? = some row →
        r < rows ∧ row = docxTail (cellParasOf s) (t.cells.map SCell.cell) r columns 0 := by
      intro r row hrow
      rw [List.getElem?_map] at hrow
      obtain ⟨r', h1, h2⟩ := Option.map_eq_some_iff.mp hrow
      obtain ⟨hlt, rfl⟩ := List.getElem?_eq_some_iff.mp h1
      rw [List.length_range] at hlt
      rw [List.getElem_range] at h2
      exact ⟨hlt, h2.symm⟩
    refine ⟨by simp [hrows], ?_, ?_, ?_⟩
    · intro row hr
      obtain ⟨r, hlt, rfl⟩ := List.mem_map.mp hr
      have := (hcol (List.mem_range.mp hlt)).1
      omega
    · intro r row k x hr hx
      obtain ⟨hlt, rfl⟩ := hrow hr
      obtain ⟨_, h2, h3, h4⟩ := ((hcol hlt).2 k x).mp hx
      obtain ⟨o1, o2⟩ := hti.owner hlt h2
      obtain ⟨y, e1, e2, e3⟩ := emit_width (g := cellParasOf s) hti hthin' o1 o2 h3
      obtain ⟨c, hc, hce⟩ := List.mem_map.mp o1
      rw [h4, List.cons.injEq] at e1
      obtain rfl := e1.1
      rw [← hce] at e2 e3 h3 o2
      refine ⟨c, hc, h3, ?_⟩
      simp only [TableCell.covers, decide_eq_true_eq] at o2
      rcases e3 with ⟨e3, e4⟩ | ⟨e3, e4⟩
      · exact .inl ⟨e3, by rw [e4]; exact hst c hc⟩
      · exact .inr ⟨e3, by omega, e2, by rw [e4], by rw [e4]⟩
    · intro c hc r row hr h1 h2
      obtain ⟨hlt, rfl⟩ := hrow hr
      have hcm := List.mem_map_of_mem (f := SCell.cell) hc
      have hin := hti.inside _ hcm
      have hsp := hti.span _ hcm
      have hk' : c.cell.column.toNat < columns := by omega
      obtain ⟨o1, o2⟩ := hti.owner hlt hk'
      have e : ownerAt (t.cells.map SCell.cell) r c.cell.column.toNat = c.cell :=
        hti.unique o1 hcm o2 (by simp only [TableCell.covers, decide_eq_true_eq]; omega)
      obtain ⟨y, e1, e2, e3⟩ := emit_width (g := cellParasOf s) hti hthin' o1 o2 (by rw [e]; omega)
      exact ⟨y, ((hcol hlt).2 _ y).mpr ⟨by omega, hk', by rw [e]; omega, e1⟩⟩

/-- The table a frame stands for. -/
def tableAt (items : List SItem) (g : Nat) : Option STable := (tablesOf items).find? fun t => t.anchor == g

theorem Arranged.cellFrameIds (h : Arranged s d f items) {g : Nat} :
    (s.cellFrameIds d.id).contains g = true ↔ ∃ t ∈ tablesOf items, g ∈ t.cells.map SCell.frame := by
  rw [List.contains_iff_mem]
  unfold Store.cellFrameIds
  have hd : s.docTables d.id = d.tables := by simp [Store.docTables, h.document]
  rw [hd, List.mem_flatMap]
  constructor
  · rintro ⟨i, hi, hg⟩
    obtain ⟨t, ht, rfl⟩ := List.mem_map.mp (h.tables.mem_iff.mp hi)
    exact ⟨t, ht, (h.table t ht).cellFrames.mem_iff.mp hg⟩
  · rintro ⟨t, ht, hg⟩
    exact ⟨t.table.id, h.tables.mem_iff.mpr (List.mem_map_of_mem ht), (h.table t ht).cellFrames.mem_iff.mpr hg⟩

theorem tableFrames_nodup (h : (tableFrames items).Nodup) : ((tablesOf items).map STable.anchor).Nodup ∧
    ∀ t ∈ tablesOf items, ∀ u ∈ tablesOf items, t.anchor ∉ u.cells.map SCell.frame := by
  unfold tableFrames at h
  generalize tablesOf items = ts at h
  induction ts with
  | nil => simp
  | cons t ts ih =>
    rw [List.flatMap_cons, List.nodup_append] at h
    obtain ⟨h1, h2, h3⟩ := h
    obtain ⟨i1, i2⟩ := ih h2
    rw [List.nodup_cons] at h1
    have hin : ∀ u ∈ ts, ∀ g, g = u.anchor ∨ g ∈ u.cells.map SCell.frame → g ∈ ts.flatMap fun t => t.anchor :: t.cells.map SCell.frame :=
      fun u hu g hg => List.mem_flatMap.mpr ⟨u, hu, List.mem_cons.mpr hg⟩
    refine ⟨?_, ?_⟩
    · rw [List.map_cons, List.nodup_cons]
      refine ⟨fun hm => ?_, i1⟩
      obtain ⟨u, hu, e⟩ := List.mem_map.mp hm
      exact h3 t.anchor (by simp) t.anchor (hin u hu _ (.inl e.symm)) rfl
    · intro a ha b hb hm
      rcases List.mem_cons.mp ha with rfl | ha' <;> rcases List.mem_cons.mp hb with rfl | hb'
      · exact h1.1 hm
      · exact h3 a.anchor (by simp) a.anchor (hin b hb' _ (.inr hm)) rfl
      · exact h3 a.anchor (List.mem_cons_of_mem _ hm) a.anchor (hin a ha' _ (.inl rfl)) rfl
      · exact i2 a ha' b hb' hm

theorem tableAt_anchor (h : (tableFrames items).Nodup) (ht : t ∈ tablesOf items) : tableAt items t.anchor = some t := by
  have h1 := (tableFrames_nodup h).1
  unfold tableAt
  generalize tablesOf items = ts at h1 ht
  induction ts with
  | nil => simp at ht
  | cons u ts ih =>
    rw [List.map_cons, List.nodup_cons] at h1
    rcases List.mem_cons.mp ht with rfl | ht
    · exact List.find?_cons_of_pos (p := fun u : STable => u.anchor == t.anchor) (by simp)
    · rw [List.find?_cons_of_neg (p := fun u : STable => u.anchor == t.anchor), ih h1.2 ht]
      intro e
      have e : u.anchor = t.anchor := by simpa using e
      exact h1.1 (e ▸ List.mem_map_of_mem ht)

theorem tableAt_cell (h : (tableFrames items).Nodup) (ht : t ∈ tablesOf items) {g : Nat} (hg : g ∈ t.cells.map SCell.frame) : tableAt items g = none := by
  unfold tableAt
  rw [List.find?_eq_none]
  intro u hu e
  have e : u.anchor = g := by simpa using e
  exact (tableFrames_nodup h).2 u hu t ht (e ▸ hg)

theorem tableAt_mem {g : Nat} (h : tableAt items g = some t) : t ∈ tablesOf items ∧ t.anchor = g := by
  unfold tableAt at h
  have h1 := List.find?_some (p := fun t : STable => t.anchor == g) h
  exact ⟨List.mem_of_find?_eq_some h, by simpa using h1⟩

theorem tableFrames_tables (h : (tableFrames items).Nodup) : (tableFrames items).filterMap (tableAt items) = tablesOf items := by
  have key : ∀ ts : List STable, (∀ t ∈ ts, t ∈ tablesOf items) →
      (ts.flatMap fun t => t.anchor :: t.cells.map SCell.frame).filterMap (tableAt items) = ts := by
    intro ts
    induction ts with
    | nil => intro _; rfl
    | cons t ts ih =>
      intro hts
      have ht := hts t (by simp)
      rw [List.flatMap_cons, List.filterMap_append, List.filterMap_cons, tableAt_anchor h ht, ih fun u hu => hts u (by simp [hu])]
      have : (t.cells.map SCell.frame).filterMap (tableAt items) = [] := by
        rw [List.filterMap_eq_nil_iff]
        intro g hg
        exact tableAt_cell h ht hg
      rw [this]; rfl
  exact key (tablesOf items) fun _ ht => ht

theorem anchors_sublist (gs : List Nat) : ((gs.filterMap (tableAt items)).map STable.anchor).Sublist gs := by
  induction gs with
  | nil => exact .slnil
  | cons g gs ih =>
    rw [List.filterMap_cons]
    split
    · exact ih.cons g
    · rename_i t ht
      rw [List.map_cons, (tableAt_mem ht).2]
      exact ih.cons_cons g

theorem Arranged.docxFrame_main {twips : Int → Int} (h : Arranged s d f items) (ho : Ascends s (flowParas items)) :
    ∃ xs, s.docxFrame twips d.id f = some xs ∧ InTurn (IsDocxPara twips) (topParas items) xs := by
  obtain ⟨L, hL, _⟩ := h.content
  obtain ⟨fr, f1, f2, f3, f4, _⟩ := h.frame
  have hn := h.distinct.1
  rw [List.nodup_cons] at hn
  unfold Store.docxFrame
  rw [if_neg (by
    rw [h.cellFrameIds]
    rintro ⟨t, ht, hg⟩
    exact hn.1 (mem_tableFrames_iff.mpr ⟨t, ht, .inr hg⟩)), f1, Option.bind_some, f4]
  simp only []
  rw [h.mainBlocks ho]
  obtain ⟨ys, h1, h2⟩ := InTurn.mapOpt (R := ShowsDocxPara twips) (u := s.docxPara twips) (v := fun p => p.entity (s.storedPos p)) (l := topParas items) (by
    intro p hp
    obtain ⟨runs, r1, r2⟩ := hL.docxRuns ((topParas_sublist items).subset hp) (s.storedPos p)
    refine ⟨_, by unfold Store.docxPara; rw [r1, Option.map_some], ?_⟩
    exact ⟨r2, rfl, rfl, bdec _ _⟩)
  rw [h1]
  refine ⟨_, rfl, ?_⟩
  clear h1
  generalize topParas items = ps at h2
  induction ps generalizing ys with
  | nil => cases ys with
    | nil => trivial
    | cons y ys => exact h2.elim
  | cons p ps ih => cases ys with
    | nil => exact h2.elim
    | cons y ys => exact ⟨⟨y, rfl, h2.1⟩, ih ys h2.2⟩

theorem Arranged.docxFrame_other {twips : Int → Int} (h : Arranged s d f items) (ho : Ascends s (flowParas items))
    (hs : ∀ t ∈ tablesOf items, t.Sound) {g : Nat} (hg : g ∈ tableFrames items) :
    ∃ xs, s.docxFrame twips d.id g = some xs ∧ InTurn IsDocxTable (tableAt items g).toList xs := by
  have hn := (List.nodup_cons.mp h.distinct.1).2
  obtain ⟨t, ht, e⟩ := mem_tableFrames_iff.mp hg
  unfold Store.docxFrame
  rcases e with rfl | e
  · rw [if_neg (by
      rw [h.cellFrameIds]
      rintro ⟨u, hu, hg⟩
      exact (tableFrames_nodup hn).2 t ht u hu hg), tableAt_anchor hn ht]
    obtain ⟨fr, f1, f2, f3, f4, f5, f6⟩ := (h.table t ht).anchor
    rw [f1, Option.bind_some, f6]
    obtain ⟨x, h1, h2⟩ := h.docxTable ho ht (hs t ht)
    simp only [h1]
    exact ⟨[x], rfl, h2, trivial⟩
  · rw [if_pos (h.cellFrameIds.mpr ⟨t, ht, e⟩), tableAt_cell hn ht e]
    exact ⟨[], rfl, trivial⟩

theorem Arranged.exportDocx {twips : Int → Int} (h : Arranged s d f items) (ho : Ascends s (flowParas items))
    (hs : ∀ t ∈ tablesOf items, t.Sound) : ∃ ps ts tabs, s.exportDocx twips = some (ps ++ ts, ((ps ++ ts).length : Int)) ∧
      InTurn (IsDocxPara twips) (topParas items) ps ∧ InTurn IsDocxTable tabs ts ∧ tabs.Perm (tablesOf items) ∧
      (tabs.map STable.anchor).Sublist d.frames := by
  obtain ⟨rest, r1, r2⟩ := h.frames
  have hn := (List.nodup_cons.mp h.distinct.1).2
  obtain ⟨ps, p1, p2⟩ := h.docxFrame_main (twips := twips) ho
  have key : ∀ gs : List Nat, (∀ g ∈ gs, g ∈ tableFrames items) →
      ∃ l, mapOpt (s.docxFrame twips d.id) gs = some l ∧ InTurn IsDocxTable (gs.filterMap (tableAt items)) l.flatten := by
    intro gs
    induction gs with
    | nil => intro _; exact ⟨[], rfl, trivial⟩
    | cons g gs ih =>
      intro hgs
      obtain ⟨xs, x1, x2⟩ := h.docxFrame_other (twips := twips) ho hs (hgs g (by simp))
      obtain ⟨l, l1, l2⟩ := ih fun y hy => hgs y (by simp [hy])
      refine ⟨xs :: l, by simp [mapOpt, x1, l1], ?_⟩
      have e : (g :: gs).filterMap (tableAt items) = (tableAt items g).toList ++ gs.filterMap (tableAt items) := by
        rw [List.filterMap_cons]
        cases tableAt items g <;> rfl
      rw [e, List.flatten_cons]
      exact x2.append l2
  obtain ⟨l, l1, l2⟩ := key rest fun g hg => r2.mem_iff.mp hg
  refine ⟨ps, l.flatten, rest.filterMap (tableAt items), ?_, p2, l2, ?_, ?_⟩
  · unfold Store.exportDocx
    obtain ⟨r, r', q1, q2, q3, q4⟩ := h.root
    have hd : s.docId = some d.id := h.docId
    rw [hd, Option.bind_some]
    have hf : s.docFrames d.id = f :: rest := by unfold Store.docFrames; rw [h.document, Option.map_some, Option.getD_some, r1]
    rw [hf]
    simp [mapOpt, p1, l1]
  · have := r2.filterMap (tableAt items)
    rwa [tableFrames_tables hn] at this
  · rw [r1]; exact (anchors_sublist rest).cons f

end Verif
