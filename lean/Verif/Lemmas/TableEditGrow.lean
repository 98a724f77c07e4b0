import Verif.Lemmas.TableEditSeat
/- Rows, columns and cells added to a table of a document. -/
namespace Verif
variable {s s' : Store} {d d' : Document} {f : Nat} {items A B : List SItem} {t t' : STable}
open Store

theorem foldl_min_eq {m : Int} : ∀ {l : List Int} {a : Int}, (m = a ∨ m ∈ l) → m ≤ a → (∀ x ∈ l, m ≤ x) → l.foldl min a = m := by
  intro l
  induction l with
  | nil =>
    intro a h1 h2 _
    rcases h1 with rfl | h
    · rfl
    · simp at h
  | cons b l ih =>
    intro a h1 h2 h3
    have hb := h3 b (by simp)
    rw [List.foldl_cons]
    refine ih ?_ (by omega) fun x hx => h3 x (by simp [hx])
    rcases h1 with rfl | h1
    · left; omega
    · rcases List.mem_cons.mp h1 with rfl | h1
      · left; omega
      · exact .inr h1

/-- The first position in a table is that of its first cell. -/
theorem Tabled.tableBase (h : Tabled s d f (A ++ .table t :: B)) (hne : t.cells ≠ []) :
    s.tableBase ((s.getCells (s.tableCellIds t.table.id)).filterMap TableCell.cellFrame) = charsBefore (paras (flowParas A)) := by
  have ha := h.arranged
  have ht : t ∈ tablesOf (A ++ .table t :: B) := by rw [tables_at]; simp
  obtain ⟨L, hL, _⟩ := ha.content
  have hp := placed_of_seated (h.seated (by rw [tables_at]; simp))
  have hfr : ((s.getCells (s.tableCellIds t.table.id)).filterMap TableCell.cellFrame).Perm (t.cells.map SCell.frame) := by
    refine ((ha.cells_read ht).filterMap _).trans (.of_eq ?_)
    exact cells_frames fun c hc => ((h.table t ht).cell c hc).2.1
  have hpos : ∀ q ∈ t.cells.flatMap SCell.paras, (charsBefore (paras (flowParas A)) : Int) ≤ s.storedPos q := by
    intro q hq
    obtain ⟨X, Y, e⟩ := List.append_of_mem hq
    obtain ⟨b, b1, b2⟩ := hp (flowParas A ++ X) q (Y ++ flowParas B) (by rw [flow_at, e]; simp)
    unfold Store.storedPos
    rw [b1]
    simp only [Option.map_some, Option.getD_some]
    rw [b2, paras_append, charsBefore_append]
    omega
  have hmem : ∀ x, x ∈ ((((s.getCells (s.tableCellIds t.table.id)).filterMap TableCell.cellFrame).flatMap fun f =>
      s.getBlocks (s.frameBlocks f)).map Block.documentPosition) ↔ ∃ q ∈ t.cells.flatMap SCell.paras, x = s.storedPos q := by
    intro x
    constructor
    · intro hx
      obtain ⟨b, hb, rfl⟩ := List.mem_map.mp hx
      obtain ⟨g, hg, hb⟩ := List.mem_flatMap.mp hb
      obtain ⟨c, hc, rfl⟩ := List.mem_map.mp (hfr.mem_iff.mp hg)
      obtain ⟨i, hi, hb⟩ := List.mem_filterMap.mp hb
      obtain ⟨q, hq, rfl⟩ := List.mem_map.mp ((ha.cellFrameBlocks ht hc).mem_iff.mp hi)
      refine ⟨q, List.mem_flatMap.mpr ⟨c, hc, hq⟩, ?_⟩
      unfold Store.storedPos; rw [hb]; rfl
    · rintro ⟨q, hq, rfl⟩
      obtain ⟨c, hc, hq⟩ := List.mem_flatMap.mp hq
      have hst := hL.stored (p := q) (mem_flowParas.mpr (.inr ⟨t, ht, List.mem_flatMap.mpr ⟨c, hc, hq⟩⟩))
      refine List.mem_map.mpr ⟨q.entity (s.storedPos q), List.mem_flatMap.mpr ⟨c.frame, hfr.mem_iff.mpr (List.mem_map_of_mem hc), ?_⟩, rfl⟩
      exact List.mem_filterMap.mpr ⟨q.id, (ha.cellFrameBlocks ht hc).mem_iff.mpr (List.mem_map_of_mem hq), hst⟩
  obtain ⟨c0, cs, ec⟩ := List.exists_cons_of_ne_nil hne
  have hc0 := ((h.table t ht).cell c0 (by rw [ec]; simp)).2.2.1
  obtain ⟨q0, qs, eq0⟩ := List.exists_cons_of_ne_nil hc0
  have hfirst : s.storedPos q0 = charsBefore (paras (flowParas A)) := by
    obtain ⟨b, b1, b2⟩ := hp (flowParas A) q0 (qs ++ (cs.flatMap SCell.paras ++ flowParas B)) (by rw [flow_at, ec, List.flatMap_cons, eq0]; simp)
    unfold Store.storedPos
    rw [b1]
    simp only [Option.map_some, Option.getD_some]
    exact b2
  have hin := (hmem (s.storedPos q0)).mpr ⟨q0, by rw [ec, List.flatMap_cons, eq0]; simp, rfl⟩
  rw [hfirst] at hin
  unfold Store.tableBase
  generalize (((s.getCells (s.tableCellIds t.table.id)).filterMap TableCell.cellFrame).flatMap fun f =>
      s.getBlocks (s.frameBlocks f)).map Block.documentPosition = l at *
  cases l with
  | nil => simp at hin
  | cons p ps =>
    refine foldl_min_eq ?_ ?_ ?_
    · exact (List.mem_cons.mp hin)
    · obtain ⟨q, hq, e⟩ := (hmem p).mp (by simp)
      rw [e]; exact hpos q hq
    · intro x hx
      obtain ⟨q, hq, e⟩ := (hmem x).mp (by simp [hx])
      rw [e]; exact hpos q hq

theorem reassign_only (s : Store) (tid : Nat) (base : Int) : ∃ m, s.reassignCells tid base = { s with blocks := m } := by
  unfold Store.reassignCells
  exact updateBlocks_only _ _

theorem shiftOutside_only (s : Store) (did tid : Nat) (base n : Int) : ∃ m, s.shiftOutside did tid base n = { s with blocks := m } := by
  unfold Store.shiftOutside Store.shiftFrom
  exact updateBlocks_only _ _

/-- Moving by nothing. -/
theorem Arranged.shiftOutside_zero (h : Arranged s d f items) (did tid : Nat) (base : Int) (i : Nat) :
    (s.shiftOutside did tid base 0).blocks i = s.blocks i := by
  unfold Store.shiftOutside
  simp only
  generalize hbs : ((s.docFrames did).filter _).flatMap _ = bs
  have hst : ∀ b ∈ bs, s.blocks b.id = some b := by
    intro b hb
    rw [← hbs] at hb
    obtain ⟨g, _, hb⟩ := List.mem_flatMap.mp hb
    obtain ⟨p, hp, k1, k2⟩ := h.getBlocks hb
    have : b.id = p.id := by rw [k1.eq]; rfl
    rw [this]; exact k2
  obtain ⟨w1, w2, _⟩ := shiftFrom_det (start := base) (n := 0) hst
  by_cases hi : i ∈ bs.map Block.id
  · obtain ⟨b, hb, rfl⟩ := List.mem_map.mp hi
    rw [w1 b hb, hst b hb]
    congr 1
    simp
  · exact w2 i hi

/-- The stored positions behind the first item of a split. -/
theorem Tabled.storedPos_at (h : Tabled s d f (A ++ .table t :: B)) {X Y : List SPara} {q : SPara}
    (e : flowParas (A ++ .table t :: B) = X ++ q :: Y) : s.storedPos q = charsBefore (paras X) := by
  obtain ⟨b, b1, b2⟩ := placed_of_seated (h.seated (by rw [tables_at]; simp)) X q Y e
  unfold Store.storedPos
  rw [b1]
  simp only [Option.map_some, Option.getD_some]
  exact b2

/-- The paragraphs of a cell are stored in order. -/
theorem Tabled.cellPos (h : Tabled s d f (A ++ .table t :: B)) {c : SCell} (hc : c ∈ t.cells) :
    c.paras.Pairwise fun p q => s.storedPos p < s.storedPos q := by
  obtain ⟨X, Y, e⟩ := List.append_of_mem hc
  have key : ∀ (l : List SPara) (Z : List SPara), Z ++ l = c.paras → l.Pairwise fun p q => s.storedPos p < s.storedPos q := by
    intro l
    induction l with
    | nil => intro _ _; exact .nil
    | cons p l ih =>
      intro Z hZ
      refine List.pairwise_cons.mpr ⟨?_, ih (Z ++ [p]) (by simpa using hZ)⟩
      intro q hq
      obtain ⟨U, V, eq⟩ := List.append_of_mem hq
      have h1 := h.storedPos_at (X := flowParas A ++ (X.flatMap SCell.paras ++ Z)) (q := p)
        (Y := l ++ (Y.flatMap SCell.paras ++ flowParas B)) (by
          rw [flow_at, e, List.flatMap_append, List.flatMap_cons, ← hZ]; simp)
      have h2 := h.storedPos_at (X := flowParas A ++ (X.flatMap SCell.paras ++ Z) ++ p :: U) (q := q)
        (Y := V ++ (Y.flatMap SCell.paras ++ flowParas B)) (by
          rw [flow_at, e, List.flatMap_append, List.flatMap_cons, ← hZ, eq]; simp)
      rw [h1, h2]
      rw [paras_append (_ ++ _) (p :: U), charsBefore_append, charsBefore_paras_cons]
      omega
  exact key c.paras [] rfl

/-- The stored positions after cells were added to a table of empty cells. -/
theorem Tabled.growSeat {s3 : Store} {d3 : Document} {T : STable} {G : TableCell → TableCell} {ms : List SCell} {base cnt : Int}
    (hT : Tabled s d f (A ++ .table t :: B)) (k1 : Arranged s3 d3 f (A ++ .table T :: B)) (hd : d3.id = d.id)
    (hid : T.table.id = t.table.id) (hcs : T.cells.Perm (t.cells.map (recell G) ++ ms))
    (hms : ∀ c ∈ ms, ∃ i, c.paras = [⟨i, [], {}⟩]) (k4 : ∀ q ∈ flowParas (A ++ .table t :: B), s3.blocks q.id = s.blocks q.id)
    (hemp : ∀ c ∈ t.cells, ∀ p ∈ c.paras, p.chars = []) (hcnt : cnt = ms.length) (hbase : base = charsBefore (paras (flowParas A))) :
    Seated ((s3.reassignCells t.table.id base).shiftOutside d.id t.table.id base cnt) (flowParas (A ++ .table T :: B)) := by
  have hmid : ∀ q ∈ flowParas A ++ (t.cells.flatMap SCell.paras ++ flowParas B), s3.storedPos q = s.storedPos q := by
    intro q hq
    unfold Store.storedPos
    rw [k4 q (by rw [flow_at]; exact hq)]
  have hml : ∀ l : List SCell, (∀ c ∈ l, ∃ i, c.paras = [⟨i, [], {}⟩]) → (l.flatMap SCell.paras).length = l.length := by
    intro l
    induction l with
    | nil => intro _; rfl
    | cons c l ih =>
      intro hl
      obtain ⟨i, hi⟩ := hl c (by simp)
      rw [List.flatMap_cons, List.length_append, ih fun x hx => hl x (by simp [hx]), hi]
      simp only [List.length_cons, List.length_nil]; omega
  have hrp : (t.cells.map (recell G)).flatMap SCell.paras = t.cells.flatMap SCell.paras := by
    rw [List.flatMap_map]; rfl
  rw [← hd, ← hid]
  refine k1.reseat (old := (t.cells.flatMap SCell.paras).length) hbase (by omega) ?_ ?_ ?_ ?_ ?_
  · intro X q Y e
    rw [hmid q (by rw [e]; simp)]
    exact hT.storedPos_at (by rw [flow_at, e, List.append_assoc, List.cons_append])
  · intro X q Y e
    rw [hmid q (by rw [e]; simp)]
    have := hT.storedPos_at (X := flowParas A ++ (t.cells.flatMap SCell.paras ++ X)) (q := q) (Y := Y) (by rw [flow_at, e]; simp)
    rw [this, paras_append, charsBefore_append, paras_append, charsBefore_append, charsBefore_all_empty (ps := t.cells.flatMap _), hbase]
    · omega
    · intro p hp
      obtain ⟨c, hc, hp⟩ := List.mem_flatMap.mp hp
      exact hemp c hc p hp
  · have : (T.cells.flatMap SCell.paras).length = (t.cells.flatMap SCell.paras).length + ms.length := by
      rw [(hcs.flatMap_right _).length_eq, List.flatMap_append, List.length_append, hrp, hml ms hms]
    rw [hcnt, this]; omega
  · intro c hc p hp
    rcases List.mem_append.mp (hcs.mem_iff.mp hc) with hc | hc
    · obtain ⟨c', hc', rfl⟩ := List.mem_map.mp hc
      exact hemp c' hc' p hp
    · obtain ⟨i, hi⟩ := hms c hc
      rw [hi, List.mem_singleton] at hp
      rw [hp]
  · intro c hc
    rcases List.mem_append.mp (hcs.mem_iff.mp hc) with hc | hc
    · obtain ⟨c', hc', rfl⟩ := List.mem_map.mp hc
      show c'.paras.Pairwise _
      refine List.Pairwise.imp_of_mem ?_ (hT.cellPos hc')
      intro p q hp hq hlt
      rw [hmid p, hmid q]
      · exact hlt
      · exact List.mem_append_right _ (List.mem_append_left _ (List.mem_flatMap.mpr ⟨c', hc', hq⟩))
      · exact List.mem_append_right _ (List.mem_append_left _ (List.mem_flatMap.mpr ⟨c', hc', hp⟩))
    · obtain ⟨i, hi⟩ := hms c hc
      rw [hi]; exact List.pairwise_singleton _ _

theorem Arranged.growAll (h : Arranged s d f (A ++ .table t :: B)) {G : TableCell → TableCell}
    (hG : ∀ c ∈ t.cells, (G c.cell).id = c.cell.id ∧ (G c.cell).cellFrame = c.cell.cellFrame) {s0 : Store} (hw : CellsWritten s s0 t G)
    {l : List (Int × Int × Int × Int)} {g' : Grid}
    (hg : g'.cells = (t.cells.map SCell.cell).map G ++ newCells (fun k => (s.next "table_cell" + k, s.next "frame" + k)) 0 l)
    (ha : g'.Apart) {tb : Table}
    (htb : tb = { t.table with rows := g'.rows, columns := g'.columns, columnWidths := g'.widths, cells := tb.cells }) (base cnt : Int) :
    ∃ xs s1, s0.createCells d.id t.table.id l = some (xs, s1) ∧
      (s1.tables t.table.id = some { t.table with cells := t.table.cells ++ xs.map fun x => x.2.2 }) ∧
      xs.length = l.length ∧
      ∀ s2 : Store, s2 = { s1 with tables := s2.tables } → (∀ i, i ≠ t.table.id → s2.tables i = s1.tables i) →
        s2.tables t.table.id = some { tb with cells := t.table.cells ++ xs.map fun x => x.2.2 } →
        ∃ s3 t', s2.addToTable t.table.id (xs.map fun x => x.2.1) = some s3 ∧ Restructured t g' t' ∧
          ∀ s4 : Store, (s4 = (s3.reassignCells t.table.id base).shiftOutside d.id t.table.id base cnt ∨
              cnt = 0 ∧ s4 = s3.reassignCells t.table.id base) →
            Arranged (s4.updateDocument { d with blockCount := d.blockCount + cnt })
              { d with frames := d.frames ++ xs.map fun x => x.1, blockCount := d.blockCount + cnt } f (A ++ .table t' :: B) ∧
            (s4.updateDocument { d with blockCount := d.blockCount + cnt }).lists = s.lists ∧
            (Tabled s d f (A ++ .table t :: B) → t.cells ≠ [] → (∀ c ∈ t.cells, ∀ p ∈ c.paras, p.chars = []) → cnt = l.length →
              base = s.tableBase ((s.getCells (s.tableCellIds t.table.id)).filterMap TableCell.cellFrame) →
              Tabled (s4.updateDocument { d with blockCount := d.blockCount + cnt })
                { d with frames := d.frames ++ xs.map fun x => x.1, blockCount := d.blockCount + cnt } f (A ++ .table t' :: B)) := by
  obtain ⟨cs, hcs, s1, e1, e2, key⟩ := h.grow hG hw hg ha htb
  generalize hms : madeCells (s.next "frame") (s.next "block") (s.next "table_cell") l = ms at *
  have m1 : ((ms.map fun c => (c.frame, (c.paras.map SPara.id).headD 0, c.cell.id)).map fun x : Nat × Nat × Nat => x.2.2) =
      ms.map fun c => c.cell.id := by rw [List.map_map]; rfl
  have m2 : ((ms.map fun c => (c.frame, (c.paras.map SPara.id).headD 0, c.cell.id)).map fun x : Nat × Nat × Nat => x.1) =
      ms.map SCell.frame := by rw [List.map_map]; rfl
  refine ⟨_, s1, e1, by rw [m1]; exact e2, ?_, ?_⟩
  · rw [List.length_map, ← hms, madeCells_length]
  intro s2 q1 q2 q3
  rw [m1] at q3
  obtain ⟨s3, e3, k1, k2, k3, k4, k5⟩ := key s2 q1 q2 q3
  have htid : tb.id = t.table.id := by rw [htb]
  obtain ⟨T, hT1, hT2, hT3⟩ : ∃ T : STable, T = ⟨{ tb with cells := t.table.cells ++ ms.map fun c => c.cell.id }, t.anchor, cs⟩ ∧
    T.table.id = t.table.id ∧ T.cells = cs := ⟨_, rfl, htid, rfl⟩
  rw [← hT1] at k1 k2
  refine ⟨s3, T, e3, k2, ?_⟩
  clear hT1
  rw [m2]
  intro s4 hs4
  have har : Arranged s4 { d with frames := d.frames ++ ms.map SCell.frame } f (A ++ .table T :: B) := by
    rcases hs4 with rfl | ⟨_, rfl⟩
    · exact (k1.reassign _ _).shiftOutside _ _ _ _
    · exact k1.reassign _ _
  have har' := har.updateDocument (e := { d with blockCount := d.blockCount + cnt }) rfl
  have hdd : ({ ({ d with blockCount := d.blockCount + cnt } : Document) with
      frames := ({ d with frames := d.frames ++ ms.map SCell.frame } : Document).frames
      lists := ({ d with frames := d.frames ++ ms.map SCell.frame } : Document).lists
      resources := ({ d with frames := d.frames ++ ms.map SCell.frame } : Document).resources
      tables := ({ d with frames := d.frames ++ ms.map SCell.frame } : Document).tables } : Document) =
      { d with frames := d.frames ++ ms.map SCell.frame, blockCount := d.blockCount + cnt } := rfl
  rw [hdd] at har'
  refine ⟨har', ?_, ?_⟩
  · show s4.lists = s.lists
    rw [← k3]
    obtain ⟨m, em⟩ := reassign_only s3 t.table.id base
    obtain ⟨m', em'⟩ := shiftOutside_only (s3.reassignCells t.table.id base) d.id t.table.id base cnt
    rcases hs4 with rfl | ⟨_, rfl⟩
    · rw [em', em]
    · rw [em]
  · intro hT hne hemp hcnt hbase
    refine har'.tabled fun _ => ?_
    rw [hT.tableBase hne] at hbase
    have hseat := hT.growSeat (ms := ms) (cnt := cnt) k1 rfl hT2 (by rw [hT3]; exact hcs) (by
        intro c hc
        rw [← hms] at hc
        obtain ⟨i, hi, _⟩ := madeCells_mem hc
        exact ⟨i, hi⟩) (by
        intro q hq
        apply k4
        intro hm
        rw [← hms, madeCells_blocks, List.mem_range'_1] at hm
        obtain ⟨L, hL, _⟩ := h.content
        have := hL.fresh q hq
        omega) hemp (by rw [hcnt, ← hms, madeCells_length]) hbase
    clear k2 k3 k4 k5 hcs key e1 e2 e3 har har'
    intro n p hp
    obtain ⟨b, b1, b2⟩ := hseat n p hp
    refine ⟨b, ?_, b2⟩
    show s4.blocks p.id = some b
    rcases hs4 with hs4 | ⟨e0, hs4⟩
    · rw [hs4]; exact b1
    · rw [e0, (k1.reassign t.table.id base).shiftOutside_zero d.id t.table.id base p.id] at b1
      rw [hs4]; exact b1

end Verif
