import Verif.Props.CopyMixed
import Verif.Props.PasteTable
import Verif.Props.CopyPaste
/- C106: copying a table and pasting it elsewhere. -/
namespace Verif
open Store
variable {s : Store} {d : Document} {f : Nat} {items : List SItem}

/-- Two tables look the same: as many rows and columns, the same formats, and cell by cell the same place, spans, formats and characters with
the formats they show.  (A span below 1 counts as 1.) -/
structure SameLook (u T : STable) : Prop where
  size : T.table.rows = u.table.rows ∧ T.table.columns = u.table.columns
  formats : T.table = { u.table with id := T.table.id, cells := T.table.cells, columnWidths := T.table.columnWidths }
  widths : u.table.columnWidths ≠ [] → T.table.columnWidths = u.table.columnWidths
  length : T.cells.length = u.cells.length
  cells : ∀ (k : Nat) (c x : SCell), u.cells[k]? = some c → T.cells[k]? = some x →
    x.cell = { c.cell with
      id := x.cell.id, rowSpan := max c.cell.rowSpan 1, columnSpan := max c.cell.columnSpan 1, cellFrame := x.cell.cellFrame } ∧
    (x.paras.flatMap SPara.chars).map shownAs = (c.paras.flatMap SPara.chars).map shownAs

theorem mem_parts {lo hi : Nat} {u : STable} (its : List SItem) (n : Nat) (h : SPart.table u ∈ parts lo hi n its) :
    u ∈ tablesOf its ∧ u.cells ≠ [] := by
  induction its generalizing n with
  | nil => simp [parts] at h
  | cons it its ih =>
    cases it with
    | para p =>
      rw [parts] at h
      rcases List.mem_append.mp h with h | h
      · split at h <;> simp at h
      · have := ih _ h
        exact ⟨mem_tablesOf.mpr (List.mem_cons_of_mem _ (mem_tablesOf.mp this.1)), this.2⟩
    | table t =>
      rw [parts] at h
      rcases List.mem_append.mp h with h | h
      · split at h
        · simp at h
        · rename_i hc
          have e : u = t := by simpa using h
          subst e
          refine ⟨mem_tablesOf.mpr (by simp), fun e => hc (by rw [e]; rfl)⟩
      · have := ih _ h
        exact ⟨mem_tablesOf.mpr (List.mem_cons_of_mem _ (mem_tablesOf.mp this.1)), this.2⟩

theorem WholeCopy.shown (s : Store) {p : SPara} {fb : FragBlock} (h : WholeCopy p fb) : fb.IsText ∧ fb.chars.map shownAs = p.chars.map shownAs := by
  have : CopyOf s { fb with format := {}, list := none } ⟨p.chars, none⟩ := ⟨h.text, h.chars, rfl, rfl⟩
  obtain ⟨h1, h2⟩ := this.shown
  exact ⟨⟨h1.elements, h1.text⟩, h2⟩

theorem inTurn_get {α β : Type} {R : α → β → Prop} {l : List α} {m : List β} (h : InTurn R l m) :
    l.length = m.length ∧ ∀ (k : Nat) (a : α) (b : β), l[k]? = some a → m[k]? = some b → R a b := by
  induction l generalizing m with
  | nil => cases m with
    | nil => exact ⟨rfl, by simp⟩
    | cons _ _ => exact h.elim
  | cons x l ih => cases m with
    | nil => exact h.elim
    | cons y m =>
      obtain ⟨h1, h2⟩ := ih h.2
      refine ⟨by simp [h1], fun k a b ha hb => ?_⟩
      cases k with
      | zero => simp at ha hb; subst ha; subst hb; exact h.1
      | succ k => exact h2 k a b (by simpa using ha) (by simpa using hb)

/-- **C106 (partial).** A selection across cells of one table is copied, in any document, and pasted in a paragraph of a document without
tables: the new document has, right behind that paragraph, a table that looks the same, and else its old paragraphs.  Full statement: for
cells with several paragraphs, with paragraph formats, and into documents with tables; see `C85_two_paragraphs_fails`,
`C85_place_after_table_fails` and `C106_heading_fails`. -/
theorem C106_copy_paste_table_partial (h : Tabled s d f items) {lo hi : Nat} (hlt : lo < hi) {p q : SPara}
    (hp : p ∈ touched lo hi 0 (flowParas items)) (hq : q ∈ touched lo hi 0 (flowParas items)) (ha : Elsewhere items p q)
    {u : STable} (hone : parts lo hi 0 items = [.table u]) (hsize : 0 < u.table.rows ∧ 0 < u.table.columns)
    (hplaces : ∀ c ∈ u.cells, 0 ≤ c.cell.row ∧ 0 ≤ c.cell.column) (hsimple : ∀ c ∈ u.cells, ∃ q, c.paras = [q])
    {s2 : Store} {d2 : Document} {f2 : Nat} {P Q : List SPara} {r : SPara} (h2 : Tabled s2 d2 f2 ((P ++ r :: Q).map SItem.para))
    (hplace : (s2.frameBlocks f2)[P.length]? = some r.id) {k : Nat} (hk : k ≤ r.chars.length) {pos : Int}
    (hpos : pos = (paraStart (P ++ r :: Q) P.length + k : Nat)) :
    ∃ ft t s' d' T snap, s.copyFragment lo hi = some ([], [ft], t) ∧
      s2.insertTables pos [ft] = some (s', ⟨pos, u.cells.length⟩, snap) ∧
      Arranged s' d' f2 (P.map SItem.para ++ .para r :: .table T :: Q.map SItem.para) ∧ SameLook u T ∧
      SameContent (s'.restoreUndo snap) s2 := by
  obtain ⟨fbs, fts, t, r1, _, r3, r4, _⟩ := C105_across_partial h lo hi hlt hp hq ha
  rw [hone] at r3 r4
  obtain ⟨hu, hcne⟩ := mem_parts items 0 (hone ▸ List.mem_singleton.mpr rfl : SPart.table u ∈ parts lo hi 0 items)
  cases fbs with
  | cons _ _ => exact r3.elim
  | nil =>
  cases fts with
  | nil => exact r4.elim
  | cons ft fts =>
  cases fts with
  | cons _ _ => exact r4.2.elim
  | nil =>
  have hT : TableCopy (0, u) ft := r4.1
  obtain ⟨hlen, hget⟩ := inTurn_get hT.cells
  have hcell : ∀ x ∈ ft.cells, ∃ c ∈ u.cells, CellCopy c x := by
    intro x hx
    obtain ⟨i, hi, rfl⟩ := List.getElem_of_mem hx
    have hi' : i < u.cells.length := by rw [show u.cells.length = ft.cells.length from hlen]; exact hi
    exact ⟨u.cells[i], List.getElem_mem _, hget i _ _ (List.getElem?_eq_getElem hi') (List.getElem?_eq_getElem hi)⟩
  have hblocks : ∀ x c, c ∈ u.cells → CellCopy c x → ∃ fb q, x.blocks = [fb] ∧ c.paras = [q] ∧ WholeCopy q fb := by
    intro x c hc hcc
    obtain ⟨q, hq⟩ := hsimple c hc
    have hb := hcc.blocks
    rw [hq] at hb
    match hx : x.blocks with
    | [] => rw [hx] at hb; exact hb.elim
    | [fb] => rw [hx] at hb; exact ⟨fb, q, rfl, hq, hb.1⟩
    | _ :: _ :: _ => rw [hx] at hb; exact hb.2.elim
  have hrows : (ft.rows : Int) = u.table.rows := by rw [hT.rows]; exact Int.toNat_of_nonneg (Int.le_of_lt hsize.1)
  have hcols : (ft.columns : Int) = u.table.columns := by rw [hT.columns]; exact Int.toNat_of_nonneg (Int.le_of_lt hsize.2)
  obtain ⟨s', d', T, snap, g1, g2, g3, _, _, g6⟩ := C85_paste_table_partial h2 ft k hplace
    ⟨by omega, by omega, fun e => hcne (List.length_eq_zero_iff.mp (by rw [show u.cells.length = ft.cells.length from hlen, e]; rfl))⟩
    (by
      intro x hx
      obtain ⟨c, hc, hcc⟩ := hcell x hx
      obtain ⟨fb, q, b1, _, b3⟩ := hblocks x c hc hcc
      refine ⟨by rw [b1]; simp, fun y hy => ?_⟩
      rw [b1, List.mem_singleton] at hy
      subst hy
      exact (b3.shown s).1)
    (by
      unfold Store.FragTable.InOrder
      have ho := (h.table u hu).order
      rw [List.pairwise_iff_getElem] at ho ⊢
      intro i j hi hj hij
      have hi' : i < u.cells.length := by rw [show u.cells.length = ft.cells.length from hlen]; exact hi
      have hj' : j < u.cells.length := by rw [show u.cells.length = ft.cells.length from hlen]; exact hj
      have k1 := hget i _ _ (List.getElem?_eq_getElem hi') (List.getElem?_eq_getElem hi)
      have k2 := hget j _ _ (List.getElem?_eq_getElem hj') (List.getElem?_eq_getElem hj)
      have := ho i j hi' hj' hij
      have n1 := hplaces _ (List.getElem_mem hi')
      have n2 := hplaces _ (List.getElem_mem hj')
      unfold SCell.before at this
      rw [k1.row, k1.column, k2.row, k2.column]
      omega)
    hk pos hpos
  refine ⟨ft, t, s', d', T, snap, r1, ?_, g3, ⟨⟨?_, ?_⟩, ?_, ?_, ?_, ?_⟩, g6⟩
  · rw [g1, show u.cells.length = ft.cells.length from hlen]
  · rw [g2.size.1, hrows]
  · rw [g2.size.2, hcols]
  · have := g2.formats
    rw [hT.format, hrows, hcols] at this
    exact this
  · intro hw
    rw [g2.widths, hT.format, if_neg hw]
  · rw [g2.length]; exact hlen.symm
  · intro i c x hc hx
    have hi : i < u.cells.length := (List.getElem?_eq_some_iff.mp hc).1
    have hi' : i < ft.cells.length := by rw [← show u.cells.length = ft.cells.length from hlen]; exact hi
    have hy := List.getElem?_eq_getElem hi'
    have hcc := hget i _ _ hc hy
    have hcm := List.mem_of_getElem? hc
    have hl := g2.cells i _ _ hy hx
    obtain ⟨fb, q, b1, b2, b3⟩ := hblocks _ c hcm hcc
    have hn := hplaces c hcm
    refine ⟨?_, ?_⟩
    · have e := hl.formats
      rw [hcc.format, hcc.row, hcc.column, hcc.rowSpan, hcc.columnSpan, Int.toNat_of_nonneg hn.1, Int.toNat_of_nonneg hn.2,
        Int.toNat_of_nonneg (by omega), Int.toNat_of_nonneg (by omega)] at e
      exact e
    · obtain ⟨j, hj⟩ := hl.paras
      rw [hj, b2]
      simp only [List.flatMap_cons, List.flatMap_nil, List.append_nil]
      unfold Store.FragCell.chars
      rw [b1]
      exact (b3.shown s).2

/-- The hypotheses are met: of "ab" and a table of two cells, one with "x", both cells are selected. -/
example : ∃ (s : Store) (d : Document) (t : STable) (p q : SPara) (s2 : Store) (d2 : Document),
    Tabled s d 2 [.para ⟨2, [('a', none), ('b', none)], {}⟩, .table t] ∧
    p ∈ touched 3 6 0 (flowParas [.para ⟨2, [('a', none), ('b', none)], {}⟩, .table t]) ∧
    q ∈ touched 3 6 0 (flowParas [.para ⟨2, [('a', none), ('b', none)], {}⟩, .table t]) ∧
    Elsewhere [.para ⟨2, [('a', none), ('b', none)], {}⟩, .table t] p q ∧
    parts 3 6 0 [.para ⟨2, [('a', none), ('b', none)], {}⟩, .table t] = [.table t] ∧
    t.cells.map (fun c => c.paras.map SPara.text) = [[['x']], [[]]] ∧ (0 < t.table.rows ∧ 0 < t.table.columns) ∧
    (∀ c ∈ t.cells, 0 ≤ c.cell.row ∧ 0 ≤ c.cell.column) ∧ (∀ c ∈ t.cells, ∃ q, c.paras = [q]) ∧
    Tabled s2 d2 2 (([(⟨2, [('a', none), ('b', none)], {}⟩ : SPara)] ++ (⟨3, [('c', none), ('d', none)], {}⟩ : SPara) :: []).map SItem.para) ∧
    (s2.frameBlocks 2)[1]? = some 3 := by
  obtain ⟨s, d, e0, hd1, h, _⟩ := import_tabled "ab".toList
  have hb : s.next "block" = 3 := by
    have : (Store.newStore.bind fun s => s.importPlainText "ab".toList).map (fun s => s.next "block") = some 3 := by decide +kernel
    rw [e0] at this; simpa using this
  have e : (linesFrom 2 (Store.splitLines (unixText "ab".toList))).map SItem.para =
      [] ++ .para ⟨2, [('a', none), ('b', none)], {}⟩ :: [] := by rfl
  rw [e] at h
  obtain ⟨s1, _, h2, _⟩ := h.insertTable_top (a := [('a', none), ('b', none)]) (b := []) (position := 2) (anchor := 2)
    (rows := 1) (columns := 2) rfl (by decide) (by decide) (by decide)
  have hm := madeTable_empty s 1 2
  have ht : (madeTable s 1 2).cells.map SCell.paras = [[⟨3, [], {}⟩], [⟨4, [], {}⟩]] := by unfold madeTable; rw [hb]; rfl
  have hpl : ((madeTable s 1 2).cells.map fun c => (c.cell.row, c.cell.column)) = [(0, 0), (0, 1)] := hm.places
  have hrows : (madeTable s 1 2).table.rows = 1 := congrArg Table.rows hm.table
  have hcols : (madeTable s 1 2).table.columns = 2 := congrArg Table.columns hm.table
  rw [if_neg (by simp)] at h2
  generalize madeTable s 1 2 = t at *
  obtain ⟨c1, c2, hc, p1, p2⟩ : ∃ c1 c2, t.cells = [c1, c2] ∧ c1.paras = [⟨3, [], {}⟩] ∧ c2.paras = [⟨4, [], {}⟩] := by
    rcases hcl : t.cells with _ | ⟨a, _ | ⟨b, _ | ⟨x, l⟩⟩⟩ <;> rw [hcl] at ht <;> simp at ht
    exact ⟨a, b, rfl, ht⟩
  rw [hc] at hpl
  simp at hpl
  obtain ⟨s3, _, k2, _⟩ := h2.insertSimple (dto := ⟨3, 3, ['x']⟩) (p := ⟨3, [], {}⟩) (X := [⟨2, [('a', none), ('b', none)], {}⟩])
    (Y := [⟨4, [], {}⟩]) (a := []) (b := []) (by simp [flowParas, SItem.paras, hc, p1, p2]) rfl rfl
  obtain ⟨t2, ht2⟩ : ∃ t2 : STable, t2 = t.on fun q => if q.id = 3 then { q with chars := [] ++ styled ['x'] (inheritFmt []) ++ [] } else q := ⟨_, rfl⟩
  have hcs : t2.cells = [{ c1 with paras := [⟨3, [('x', none)], {}⟩] }, { c2 with paras := [⟨4, [], {}⟩] }] := by
    rw [ht2]; simp [STable.on, hc, p1, p2, styled, inheritFmt]
  have htt : t2.table = t.table := by rw [ht2]; rfl
  have hmap : ([] ++ [SItem.para ⟨2, [('a', none), ('b', none)], {}⟩, SItem.table t]).map (SItem.on fun q =>
      if q.id = 3 then { q with chars := [] ++ styled ['x'] (inheritFmt []) ++ [] } else q) =
      [SItem.para ⟨2, [('a', none), ('b', none)], {}⟩, SItem.table t2] := by
    rw [ht2]; simp [SItem.on, STable.on]
  rw [hmap] at k2
  obtain ⟨s4, d4, e4, _, h4, _⟩ := import_tabled "ab\ncd".toList
  have e5 : (linesFrom 2 (Store.splitLines (unixText "ab\ncd".toList))).map SItem.para =
      ([(⟨2, [('a', none), ('b', none)], {}⟩ : SPara)] ++ (⟨3, [('c', none), ('d', none)], {}⟩ : SPara) :: []).map SItem.para := by rfl
  rw [e5] at h4
  have hfb : (s4.frameBlocks 2)[1]? = some 3 := by
    have : (Store.newStore.bind fun s => s.importPlainText "ab\ncd".toList).map (fun s => (s.frameBlocks 2)[1]?) = some (some 3) := by decide +kernel
    rw [e4] at this; simpa using this
  refine ⟨s3, _, t2, ⟨3, [('x', none)], {}⟩, ⟨4, [], {}⟩, s4, d4, k2, ?_, ?_, ⟨?_, ?_⟩, ?_, ?_, ?_, ?_, ?_, h4, hfb⟩
  · simp [flowParas, SItem.paras, hcs, touched]
  · simp [flowParas, SItem.paras, hcs, touched]
  · simp [topParas]
  · intro u hu c hcu
    have hu : u = t2 := by simpa [tablesOf] using hu
    subst hu
    rw [hcs] at hcu
    simp only [List.mem_cons, List.not_mem_nil, or_false] at hcu
    rcases hcu with rfl | rfl <;> simp
  · simp [parts, touched, hcs]
  · simp [hcs, SPara.text]
  · rw [htt, hrows, hcols]; decide
  · intro c hcu
    rw [hcs] at hcu
    simp only [List.mem_cons, List.not_mem_nil, or_false] at hcu
    rcases hcu with rfl | rfl <;> simp [hpl]
  · intro c hcu
    rw [hcs] at hcu
    simp only [List.mem_cons, List.not_mem_nil, or_false] at hcu
    rcases hcu with rfl | rfl <;> simp

/-- **C106 with paragraph formats is false.** "xy" in a cell is a heading; the copy has it as one, but once pasted it is none. -/
theorem C106_heading_fails : ∃ (s s1 s2 s3 : Store) (t : Nat) (pos : Int) (snap : Snapshot),
    (Store.newStore.bind fun s => s.importPlainText "ab".toList) = some s ∧
    s.insertTable 2 2 1 2 = some (s1, t, pos, snap) ∧ (s1.insertText ⟨3, 3, "xy".toList⟩).map (fun r => r.1) = some s2 ∧
    (s2.setBlockFormat { headingLevel := some 2 } 3 3).map (fun r => r.1) = some s3 ∧
    (s3.copyFragment 3 7).map (fun r => r.2.1.map fun t => t.cells.map fun c => c.blocks.map fun b => b.format.fmtHeadingLevel) =
      some [[[some 2], [none]]] ∧
    ((s3.copyFragment 3 7).bind fun r => (s.insertTables 2 r.2.1).map fun w =>
      (blockContent w.1.text 3, (w.1.blocks 3).map Block.fmtHeadingLevel)) = some (some "xy".toList, some none) := by
  refine ⟨_, _, _, _, _, _, _, rfl, rfl, rfl, rfl, ?_, ?_⟩ <;> decide +kernel

end Verif
