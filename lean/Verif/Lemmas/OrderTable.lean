import Verif.Lemmas.OrderMore
/-
The table commands keep a store in good order.
-/
namespace Verif

/-! ### Steps -/

theorem Fine.createCellFrame {s t : Store} (h : Fine s) {did g b : Nat}
    (hc : s.createCellFrame did = some ((g, b), t)) :
    Grows s t ∧ (t.frames g).isSome = true ∧ (t.blocks b).isSome = true := by
  simp only [Store.createCellFrame, Option.bind_eq_some_iff, Option.map_eq_some_iff] at hc
  obtain ⟨⟨g', s1⟩, hs1, created, hcr, ⟨b', s2⟩, hs2, he⟩ := hc
  have m1 := h.createFrame rfl rfl rfl (fun q hq => by cases hq) (fun q hq => by cases hq) hs1
  have hcr' : created = { id := g' } := by
    have := m1.here
    rw [show s1.tab .frame g' = _ from hcr] at this
    exact Option.some.inj this
  have m2 := createBlock_made hs2 m1.grows.fine rfl (by intro l hl; cases hl)
  have g2 := m1.grows.trans m2.grows
  obtain ⟨bl, hbl, hn, _⟩ := m2.owned created hcr
  have g3 := g2.fine.updateFrame (f := { created with childOrder := [(b' : Int)] })
    (o := { created with blocks := bl })
    (by rw [← hbl]; exact congrArg s2.frames (show created.id = g' by rw [hcr'])) (by
      intro j hj hp
      rw [List.mem_singleton] at hj
      subst hj; simpa using hn)
  cases he
  exact ⟨g2.trans g3, g3.keep .frame g' rfl (by rw [show s2.tab .frame g' = _ from hbl]; rfl),
    g3.keep .block b' rfl m2.here⟩

theorem Fine.createCells {s t : Store} (h : Fine s) {did tid : Nat} {l : List (Int × Int × Int × Int)}
    {xs : List (Nat × Nat × Nat)} (hc : s.createCells did tid l = some (xs, t)) :
    Grows s t ∧ (∀ x ∈ xs, (t.frames x.1).isSome = true) ∧ ∀ x ∈ xs, (t.blocks x.2.1).isSome = true := by
  induction l generalizing s xs with
  | nil => cases hc; exact ⟨.refl h, fun x hx => (by cases hx), fun x hx => (by cases hx)⟩
  | cons p l ih =>
    obtain ⟨r, c, rs, cs⟩ := p
    simp only [Store.createCells, Option.bind_eq_some_iff, Option.map_eq_some_iff] at hc
    obtain ⟨⟨⟨g, b⟩, s1⟩, h1, ⟨cell, s2⟩, h2, ⟨ys, s3⟩, h3, he⟩ := hc
    obtain ⟨g1, hg, hb⟩ := h.createCellFrame h1
    have m := g1.fine.createCell (by
      intro f hf
      cases hf
      exact hg) h2
    cases he
    obtain ⟨g3, a1, a2⟩ := ih m.grows.fine h3
    have k := m.grows.trans g3
    refine ⟨g1.trans k, fun x hx => ?_, fun x hx => ?_⟩ <;> rcases List.mem_cons.mp hx with rfl | hx
    · exact k.keep .frame _ rfl hg
    · exact a1 x hx
    · exact k.keep .block _ rfl hb
    · exact a2 x hx

theorem Fine.addCellText {s t : Store} (h : Fine s) {f : Nat} {bs : List Nat} (ha : s.addCellText f bs = some t) :
    Grows s t := by
  simp only [Store.addCellText, Option.bind_eq_some_iff, Option.map_eq_some_iff] at ha
  obtain ⟨start, _, r, _, he⟩ := ha
  subst he
  exact h.withText r

theorem Fine.catchUp {s t : Store} (h : Fine s) (hc : s.catchUp = some t) : Grows s t := by
  simp only [Store.catchUp] at hc
  split at hc
  · simp only [Option.map_eq_some_iff] at hc
    obtain ⟨l, _, he⟩ := hc
    subst he
    refine h.updateBlocks _ fun b hb => ?_
    simp only [List.mem_filterMap, Option.bind_eq_some_iff] at hb
    obtain ⟨x, _, c, hc, hb⟩ := hb
    split at hb
    · cases hb
    · cases hb
      exact (FitBlock.of h hc).like rfl rfl
  · cases hc; exact .refl h

theorem Fine.docFrame {s : Store} (h : Fine s) {did f : Nat} (hf : f ∈ s.docFrames did) : (s.frames f).isSome = true := by
  cases hd : s.documents did with
  | none => simp [Store.docFrames, hd] at hf
  | some d =>
    simp only [Store.docFrames, hd, Option.map_some, Option.getD_some] at hf
    exact (h.tidy.refs .document did d hd).owns (.frame, f) (by simp [owns, hf])

theorem Fine.tablePlace {s : Store} (h : Fine s) {did : Nat} {all : List Block} {p : Int} {pl : Store.TablePlace}
    (hp : s.tablePlace did all p = some pl) : (s.frames pl.parent).isSome = true := by
  simp only [Store.tablePlace] at hp
  split at hp
  · simp only [Option.map_eq_some_iff] at hp
    obtain ⟨f, hf, rfl⟩ := hp
    exact h.docFrame (List.mem_of_mem_head? (by rw [hf]; rfl))
  · simp only [Option.bind_eq_some_iff] at hp
    obtain ⟨⟨target, i, offset⟩, _, len, _, first, _, found, _, owning, ho, hoist, _, hp⟩ := hp
    split at hp
    · simp only [Option.bind_eq_some_iff, Option.map_eq_some_iff] at hp
      obtain ⟨gf, hgf, i, _, e, _, rfl⟩ := hp
      show (s.frames _).isSome = true
      rw [hgf]; rfl
    · cases hp
      show (s.frames _).isSome = true
      rw [ho]; rfl

theorem Fine.linkTable {s t : Store} (h : Fine s) {did tid parent index : Nat} {fs : List Nat}
    (hp : (s.frames parent).isSome = true) (ht : (s.tables tid).isSome = true)
    (hl : s.linkTable did tid parent index fs = some t) : Grows s t := by
  simp only [Store.linkTable, Option.bind_eq_some_iff, Option.map_eq_some_iff] at hl
  obtain ⟨⟨a, s1⟩, hs1, pf, hpf, he⟩ := hl
  have m := h.createFrame rfl rfl rfl (fun q hq => by cases hq; exact hp) (fun q hq => by cases hq; exact ht) hs1
  have g1 := m.grows
  have g2 := g1.trans (g1.fine.adoptAll (a := a) (by rw [show s1.frames a = _ from m.here]; rfl) fs)
  subst he
  refine g2.trans (g2.fine.updateFrame (o := pf) (by
    rw [← hpf]; exact congrArg _ (show pf.id = parent from frame_id g2.fine hpf)) ?_)
  intro j hj h0
  rcases mem_insertIdx_or hj with rfl | hj
  · omega
  · exact g2.fine.orders hpf j hj h0

theorem Fine.anchorText {s t : Store} (h : Fine s) {tid : Nat} {n : Option (Nat × Bool)}
    (ha : s.anchorText tid n = some t) : Grows s t := by
  cases n with
  | none => cases ha; exact .refl h
  | some x =>
    simp only [Store.anchorText, Option.map_eq_some_iff] at ha
    obtain ⟨r, _, he⟩ := ha
    subst he; exact h.withText r

theorem Fine.placeCells {s : Store} (h : Fine s) {start : Int} {bs : List Nat}
    (hb : ∀ b ∈ bs, (s.blocks b).isSome = true) : Grows s (s.placeCells start bs) := by
  refine h.updateBlocks _ fun b hb' => ?_
  simp only [List.mem_map] at hb'
  obtain ⟨x, hx, rfl⟩ := hb'
  obtain ⟨o, ho⟩ := Option.isSome_iff_exists.mp (hb x.1 (List.mem_of_getElem? (List.mk_mem_zipIdx_iff_getElem?.mp hx)))
  exact ⟨h.pos (k := .block) ho, h.lt (k := .block) ho, fun l hl => by cases hl⟩

theorem Fine.shiftFrom {s : Store} (h : Fine s) {bs : List Block} {start d : Int} (hb : ∀ b ∈ bs, FitBlock s b) :
    Grows s (s.shiftFrom bs start d) := by
  refine h.updateBlocks _ fun b hb' => ?_
  obtain ⟨c, hc, rfl⟩ := List.mem_map.mp hb'
  exact (hb c (List.mem_filter.mp hc).1).like rfl rfl

theorem Fine.allBlocks {s : Store} (h : Fine s) (did : Nat) : ∀ b ∈ s.allBlocks did, Here s b := by
  intro b hb
  simp only [Store.allBlocks, mem_sortByKey, List.mem_flatMap] at hb
  obtain ⟨f, _, hb⟩ := hb
  exact h.hereBlocks _ b hb

theorem Fine.insertTable {s t : Store} (h : Fine s) {p a r c : Int} {tid : Nat} {n : Int} {u : Snapshot}
    (hi : s.insertTable p a r c = some (t, tid, n, u)) : Grows s t ∧ u = s.snapshot := by
  simp only [Store.insertTable] at hi
  split at hi
  · cases hi
  simp only [Option.bind_eq_some_iff, Option.map_eq_some_iff] at hi
  obtain ⟨did, _, doc, hdoc, s1, hs1, pl, hpl, ⟨t', s2⟩, hs2, ⟨cells, s3⟩, hs3, s4, hs4, s5, hs5, s6, hs6, he⟩ := hi
  have g1 := h.catchUp hs1
  have hall := g1.fine.allBlocks did
  have m2 := g1.fine.createTable rfl hs2
  obtain ⟨g3, hfr, hbl⟩ := m2.grows.fine.createCells hs3
  have k3 := m2.grows.trans g3
  have g4 := g3.fine.linkTable (k3.keep .frame _ rfl (g1.fine.tablePlace hpl))
    (g3.keep .table _ rfl (by rw [m2.here]; rfl)) hs4
  have g5 := g4.trans (g4.fine.anchorText hs5)
  have g6 := g5.trans (g5.fine.placeCells (start := pl.start) (bs := cells.map fun x => x.2.1) (by
    intro b hb
    obtain ⟨x, hx, rfl⟩ := List.mem_map.mp hb
    exact g5.keep .block _ rfl (hbl x hx)))
  have g7 := k3.trans (g6.trans (g6.fine.addCellText hs6))
  have g8 := g1.trans (g7.trans (g7.fine.shiftFrom (start := pl.start) (d := r * c)
    (fun b hb => ((hall b hb).later g7).fit)))
  have g9 := g8.updateDoc (d := { doc with blockCount := doc.blockCount + r * c }) rfl h hdoc rfl
  cases he
  exact ⟨g9, rfl⟩

/-! ### remove_table -/

/-- The kinds that no table command removes. -/
def notTabular (k : EKind) : Bool := decide (k ≠ .block ∧ k ≠ .frame ∧ k ≠ .table ∧ k ≠ .tableCell)

theorem notTabular_frames {k : EKind} (h : notTabular k = true) : notFrames k = true := by
  revert h; cases k <;> decide

theorem notTabular_tables {k : EKind} (h : notTabular k = true) : notTables k = true := by
  revert h; cases k <;> decide

theorem Fine.dropAnchor {s t : Store} (h : Fine s) {a : Nat} {fs : List Nat} (hd : s.dropAnchor a fs = some t) :
    Leads notFrames s t := by
  unfold Store.dropAnchor at hd
  dsimp only at hd
  split at hd
  · rename_i fr hfr
    obtain ⟨f, _, hf⟩ := List.mem_filterMap.mp (List.mem_of_find?_eq_some hfr)
    have g := h.updateFrame (f := { fr with childOrder := fr.childOrder.filter fun e => e ≠ -(a : Int) }) (o := fr)
      (by rw [← hf]; exact congrArg s.frames (show fr.id = f from frame_id h hf))
      (fun j hj h0 => h.orders hf j (List.mem_filter.mp hj).1 h0)
    exact (Leads.of g).trans (g.fine.removeFrame' hd)
  · exact h.removeFrame' hd

theorem Fine.dropAnchor? {s t : Store} (h : Fine s) {a : Option Nat} {fs : List Nat}
    (hd : s.dropAnchor? a fs = some t) : Leads notFrames s t := by
  cases a with
  | none => cases hd; exact .refl h
  | some a => exact h.dropAnchor hd

theorem Fine.closeGap {s : Store} (h : Fine s) {did : Nat} {total : Int} {ps : List Int} :
    Grows s (s.closeGap did total ps) := by
  cases ps with
  | nil => exact .refl h
  | cons p ps =>
    refine h.shiftFrom fun b hb => ?_
    obtain ⟨f, _, hb⟩ := List.mem_flatMap.mp hb
    exact (h.hereBlocks _ b hb).fit

theorem Fine.removeTable {s t : Store} (h : Fine s) {tid : Nat} {u : Snapshot}
    (hi : s.removeTable tid = some (t, u)) : Leads notTabular s t ∧ u = s.snapshot := by
  simp only [Store.removeTable, Option.bind_eq_some_iff, Option.map_eq_some_iff] at hi
  obtain ⟨did, _, doc, hdoc, tab, _, r, _, s2, hs2, s3, hs3, r', _, s4, hs4, he⟩ := hi
  have g1 := h.withText r
  have g2 := (Leads.of g1).trans (g1.fine.removeFrames hs2)
  have g3 := g2.trans (g2.fine.dropAnchor? hs3)
  have g4 := g3.trans (.of (g3.fine.withText r'))
  have g5 := (g4.mono fun _ => notTabular_frames).trans ((g4.fine.removeTableEntity hs4).mono fun _ => notTabular_tables)
  cases he
  refine ⟨Leads.updateDoc (g5.trans (.of g5.fine.closeGap)) (by decide) h hdoc rfl, rfl⟩

/-! ### Rows, columns, merging and splitting -/

theorem Fine.cellHere {s : Store} (h : Fine s) {ids : List Nat} {c : TableCell} (hc : c ∈ s.getCells ids) :
    s.tableCells c.id = some c := by
  obtain ⟨i, _, hi⟩ := List.mem_filterMap.mp hc
  rw [show c.id = i from h.tidy.keyed .tableCell i c hi]; exact hi

theorem Fine.reassignCells {s : Store} (h : Fine s) {tid : Nat} {base : Int} : Grows s (s.reassignCells tid base) := by
  refine h.updateBlocks _ fun b hb => ?_
  obtain ⟨x, hx, rfl⟩ := List.mem_map.mp hb
  have := List.mem_of_getElem? (List.mk_mem_zipIdx_iff_getElem?.mp hx)
  simp only [List.mem_flatMap, mem_sortByKey] at this
  obtain ⟨c, _, f, _, hb⟩ := this
  exact (h.hereBlocks _ _ hb).fit.like rfl rfl

theorem Fine.shiftOutside {s : Store} (h : Fine s) {did tid : Nat} {base d : Int} :
    Grows s (s.shiftOutside did tid base d) := by
  refine h.shiftFrom fun b hb => ?_
  obtain ⟨f, _, hb⟩ := List.mem_flatMap.mp hb
  exact (h.hereBlocks _ b hb).fit

theorem Fine.addToTable {s t : Store} (h : Fine s) {tid : Nat} {bs : List Nat} (ha : s.addToTable tid bs = some t) :
    Grows s t := by
  simp only [Store.addToTable] at ha
  split at ha
  · exact h.addCellText ha
  · cases ha; exact .refl h

/-- The kinds that stay when cells go, with their frames. -/
def notCells (k : EKind) : Bool := decide (k ≠ .block ∧ k ≠ .frame ∧ k ≠ .tableCell)

theorem Fine.dropCells {s t : Store} (h : Fine s) {gone : List TableCell} (hd : s.dropCells gone = some t) :
    Leads notCells s t ∧
      ∀ i, i ∉ gone.map TableCell.id → (s.tableCells i).isSome = true → (t.tableCells i).isSome = true := by
  simp only [Store.dropCells, Option.bind_eq_some_iff] at hd
  obtain ⟨s1, hs1, r, _, hd⟩ := hd
  have g1 := h.removeFrames hs1
  have g2 := g1.trans (.of (g1.fine.withText r))
  have g3 : Leads notCells s (s1.withText r) := g2.mono fun k hk => by revert hk; cases k <;> decide
  have hkeep : ∀ i, (s.tableCells i).isSome = true → ((s1.withText r).tableCells i).isSome = true :=
    fun i hi => g2.keep .tableCell i (by decide) hi
  split at hd
  · cases hd
    exact ⟨g3, fun i _ hi => hkeep i hi⟩
  · obtain ⟨k1, k2⟩ := g2.fine.removeCells' hd
    exact ⟨g3.trans (k1.mono fun k hk => by revert hk; cases k <;> decide), fun i hi hs => k2 i hi (hkeep i hs)⟩

theorem rowShift_id (idx : Int) (c : TableCell) : (rowShift idx c).id = c.id := by
  unfold rowShift; split <;> (try split) <;> rfl

theorem columnShift_id (idx : Int) (c : TableCell) : (columnShift idx c).id = c.id := by
  unfold columnShift; split <;> (try split) <;> rfl

theorem rowUnshift_id {idx : Int} {c d : TableCell} (h : rowUnshift idx c = some d) : d.id = c.id := by
  unfold rowUnshift at h
  split at h
  · cases h
  split at h
  · cases h; rfl
  split at h
  · cases h; rfl
  split at h <;> cases h <;> rfl

theorem columnUnshift_id {idx : Int} {c d : TableCell} (h : columnUnshift idx c = some d) : d.id = c.id := by
  unfold columnUnshift at h
  split at h
  · cases h
  split at h
  · cases h; rfl
  split at h
  · cases h; rfl
  split at h <;> cases h <;> rfl

theorem Fine.shiftCells {s : Store} (h : Fine s) {ids : List Nat} {f : TableCell → TableCell} (hf : ∀ c, (f c).id = c.id) :
    Grows s (s.updateCells ((s.getCells ids).map f)) := by
  refine h.updateCells _ fun c hc => ?_
  obtain ⟨o, ho, rfl⟩ := List.mem_map.mp hc
  rw [hf, h.cellHere ho]; rfl

theorem Fine.insertTableRow {s t : Store} (h : Fine s) {tid : Nat} {idx : Int} {u : Snapshot}
    (hi : s.insertTableRow tid idx = some (t, u)) : Grows s t ∧ u = s.snapshot := by
  simp only [Store.insertTableRow, Option.bind_eq_some_iff] at hi
  obtain ⟨did, _, doc, hdoc, tab, htab, hi⟩ := hi
  split at hi
  · cases hi
  simp only [Option.bind_eq_some_iff] at hi
  obtain ⟨⟨xs, s2⟩, hs2, s3, hs3, he⟩ := hi
  have g1 := h.shiftCells (ids := s.tableCellIds tid) (rowShift_id idx)
  have g2 := g1.trans (g1.fine.createCells hs2).1
  have hid : tab.id = tid := h.tidy.keyed .table tid tab htab
  have g3 := g2.trans (g2.fine.updateTable (x := { tab with rows := tab.rows + 1 })
    (g2.keep .table _ rfl (by rw [hid, show s.tab .table tid = _ from htab]; rfl)))
  have g4 := g3.trans (g3.fine.addToTable hs3)
  have g5 := g4.trans (g4.fine.reassignCells (tid := tid)
    (base := s.tableBase ((s.getCells (s.tableCellIds tid)).filterMap TableCell.cellFrame)))
  have g6 := g5.trans (g5.fine.shiftOutside (did := did) (tid := tid)
    (base := s.tableBase ((s.getCells (s.tableCellIds tid)).filterMap TableCell.cellFrame)) (d := tab.columns))
  have g7 := g6.updateDoc (d := { doc with blockCount := doc.blockCount + tab.columns }) rfl h hdoc rfl
  cases he
  exact ⟨g7, rfl⟩

theorem Fine.insertTableColumn {s t : Store} (h : Fine s) {tid : Nat} {idx : Int} {u : Snapshot}
    (hi : s.insertTableColumn tid idx = some (t, u)) : Grows s t ∧ u = s.snapshot := by
  simp only [Store.insertTableColumn, Option.bind_eq_some_iff] at hi
  obtain ⟨did, _, doc, hdoc, tab, htab, hi⟩ := hi
  split at hi
  · cases hi
  simp only [Option.bind_eq_some_iff] at hi
  obtain ⟨⟨xs, s2⟩, hs2, s3, hs3, he⟩ := hi
  have g1 := h.shiftCells (ids := s.tableCellIds tid) (columnShift_id idx)
  have g2 := g1.trans (g1.fine.createCells hs2).1
  have hid : tab.id = tid := h.tidy.keyed .table tid tab htab
  have g3 := g2.trans (g2.fine.updateTable (x := { tab with
      columns := tab.columns + 1
      columnWidths := List.insertIdx tab.columnWidths (min idx.toNat tab.columnWidths.length) 0 })
    (g2.keep .table _ rfl (by rw [hid, show s.tab .table tid = _ from htab]; rfl)))
  have g4 := g3.trans (g3.fine.addToTable hs3)
  have g5 := g4.trans (g4.fine.reassignCells (tid := tid)
    (base := s.tableBase ((s.getCells (s.tableCellIds tid)).filterMap TableCell.cellFrame)))
  have g6 := g5.trans (g5.fine.shiftOutside (did := did) (tid := tid)
    (base := s.tableBase ((s.getCells (s.tableCellIds tid)).filterMap TableCell.cellFrame)) (d := tab.rows))
  have g7 := g6.updateDoc (d := { doc with blockCount := doc.blockCount + tab.rows }) rfl h hdoc rfl
  cases he
  exact ⟨g7, rfl⟩

/-- The cells that stay are still there when the others are gone. -/
theorem Fine.unshiftCells {s t : Store} (h : Fine s) {ids : List Nat} {f : TableCell → Option TableCell}
    (hf : ∀ c d, f c = some d → d.id = c.id)
    (hd : s.dropCells ((s.getCells ids).filter fun c => (f c).isNone) = some t) :
    Leads notCells s (t.updateCells ((s.getCells ids).filterMap f)) := by
  obtain ⟨g, hk⟩ := h.dropCells hd
  refine g.trans (.of (g.fine.updateCells _ fun d hd' => ?_))
  obtain ⟨c, hc, hcd⟩ := List.mem_filterMap.mp hd'
  rw [hf c d hcd]
  have hcs := h.cellHere hc
  refine hk _ ?_ (by rw [hcs]; rfl)
  intro hm
  obtain ⟨c', hc', he⟩ := List.mem_map.mp hm
  obtain ⟨a, b⟩ := List.mem_filter.mp hc'
  have := h.cellHere a
  rw [he, hcs] at this
  cases this
  rw [hcd] at b; cases b

theorem Fine.removeTableRow {s t : Store} (h : Fine s) {tid : Nat} {idx : Int} {u : Snapshot}
    (hi : s.removeTableRow tid idx = some (t, u)) : Leads notCells s t ∧ u = s.snapshot := by
  simp only [Store.removeTableRow, Option.bind_eq_some_iff] at hi
  obtain ⟨did, _, doc, hdoc, tab, htab, hi⟩ := hi
  split at hi
  · cases hi
  split at hi
  · cases hi
  simp only [Option.bind_eq_some_iff] at hi
  obtain ⟨s2, hs2, he⟩ := hi
  have g2 := h.unshiftCells (fun _ _ => rowUnshift_id) hs2
  have hid : tab.id = tid := h.tidy.keyed .table tid tab htab
  have g3 := g2.trans (.of (g2.fine.updateTable (x := { tab with rows := tab.rows - 1 })
    (g2.keep .table _ (by decide) (by rw [hid, show s.tab .table tid = _ from htab]; rfl))))
  have g5 := g3.trans (.of (g3.fine.reassignCells (tid := tid)
    (base := s.tableBase ((s.getCells (s.tableCellIds tid)).filterMap TableCell.cellFrame))))
  cases he
  exact ⟨(g5.trans (.of g5.fine.shiftOutside)).updateDoc (by decide) h hdoc rfl, rfl⟩

theorem Fine.removeTableColumn {s t : Store} (h : Fine s) {tid : Nat} {idx : Int} {u : Snapshot}
    (hi : s.removeTableColumn tid idx = some (t, u)) : Leads notCells s t ∧ u = s.snapshot := by
  simp only [Store.removeTableColumn, Option.bind_eq_some_iff] at hi
  obtain ⟨did, _, doc, hdoc, tab, htab, hi⟩ := hi
  split at hi
  · cases hi
  split at hi
  · cases hi
  simp only [Option.bind_eq_some_iff] at hi
  obtain ⟨s2, hs2, he⟩ := hi
  have g2 := h.unshiftCells (fun _ _ => columnUnshift_id) hs2
  have hid : tab.id = tid := h.tidy.keyed .table tid tab htab
  have g3 := g2.trans (.of (g2.fine.updateTable (x := { tab with
      columns := tab.columns - 1
      columnWidths := if idx.toNat < tab.columnWidths.length then tab.columnWidths.eraseIdx idx.toNat
        else tab.columnWidths })
    (g2.keep .table _ (by decide) (by rw [hid, show s.tab .table tid = _ from htab]; rfl))))
  have g5 := g3.trans (.of (g3.fine.reassignCells (tid := tid)
    (base := s.tableBase ((s.getCells (s.tableCellIds tid)).filterMap TableCell.cellFrame))))
  cases he
  exact ⟨(g5.trans (.of g5.fine.shiftOutside)).updateDoc (by decide) h hdoc rfl, rfl⟩

theorem Fine.mergeTableCells {s t : Store} (h : Fine s) {tid : Nat} {r0 c0 r1 c1 : Int} {c : Nat} {u : Snapshot}
    (hi : s.mergeTableCells tid r0 c0 r1 c1 = some (t, c, u)) : Leads notCells s t ∧ u = s.snapshot := by
  simp only [Store.mergeTableCells, Option.bind_eq_some_iff] at hi
  obtain ⟨did, _, doc, hdoc, tab, htab, hi⟩ := hi
  split at hi
  · cases hi
  split at hi
  · cases hi
  split at hi
  · cases hi
  split at hi
  · cases hi
  simp only [Option.bind_eq_some_iff] at hi
  obtain ⟨surv, hsurv, s2, hs2, he⟩ := hi
  obtain ⟨g1, hk⟩ := h.dropCells hs2
  have hs := h.cellHere (List.mem_filter.mp (List.mem_of_find?_eq_some hsurv)).1
  have g2 := g1.trans (.of (g1.fine.updateCell (x := { surv with rowSpan := r1 - r0 + 1, columnSpan := c1 - c0 + 1 }) (by
    refine hk _ ?_ (by rw [hs]; rfl)
    intro hm
    obtain ⟨c', hc', he⟩ := List.mem_map.mp hm
    have := (List.mem_filter.mp hc').2
    simp only [decide_eq_true_eq] at this
    exact this he)))
  have g5 := g2.trans (.of (g2.fine.reassignCells (tid := tid)
    (base := s.tableBase ((s.getCells (s.tableCellIds tid)).filterMap TableCell.cellFrame))))
  cases he
  exact ⟨(g5.trans (.of g5.fine.shiftOutside)).updateDoc (by decide) h hdoc rfl, rfl⟩

theorem Fine.splitTableCell {s t : Store} (h : Fine s) {cid : Nat} {sr sc : Int} {cs : List Nat} {u : Snapshot}
    (hi : s.splitTableCell cid sr sc = some (t, cs, u)) : Grows s t ∧ u = s.snapshot := by
  simp only [Store.splitTableCell] at hi
  split at hi
  · cases hi
  simp only [Option.bind_eq_some_iff] at hi
  obtain ⟨cell, hcell, hi⟩ := hi
  split at hi
  · cases hi
  split at hi
  · cases hi
  split at hi
  · cases hi
  simp only [Option.bind_eq_some_iff] at hi
  obtain ⟨did, _, doc, hdoc, tid, _, tab, _, hi⟩ := hi
  split at hi
  · cases hi
  rename_i a b rs cspan rest hsub
  simp only [Option.bind_eq_some_iff] at hi
  obtain ⟨⟨xs, s2⟩, hs2, s3, hs3, he⟩ := hi
  have hid : cell.id = cid := h.tidy.keyed .tableCell cid cell hcell
  have g1 := h.updateCell (x := { cell with rowSpan := rs, columnSpan := cspan }) (by
    show (s.tableCells cell.id).isSome = true
    rw [hid, hcell]; rfl)
  have g2 := g1.trans (g1.fine.createCells hs2).1
  have g4 := g2.trans (g2.fine.addToTable hs3)
  have g5 := g4.trans (g4.fine.reassignCells (tid := tid)
    (base := s.tableBase ((s.getCells (s.tableCellIds tid)).filterMap TableCell.cellFrame)))
  cases he
  refine ⟨?_, rfl⟩
  split
  · exact (g5.trans g5.fine.shiftOutside).updateDoc rfl h hdoc rfl
  · exact g5.updateDoc rfl h hdoc rfl

end Verif
