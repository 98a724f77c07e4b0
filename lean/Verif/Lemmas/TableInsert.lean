import Verif.Lemmas.TableLink
/- Inserting a table into a document with tables. -/
namespace Verif
variable {s s' : Store} {d : Document} {f : Nat} {items A B : List SItem}
open Store

theorem flowParas_append (A B : List SItem) : flowParas (A ++ B) = flowParas A ++ flowParas B := by simp [flowParas]
theorem topParas_append (A B : List SItem) : topParas (A ++ B) = topParas A ++ topParas B := by simp [topParas]
theorem tablesOf_append (A B : List SItem) : tablesOf (A ++ B) = tablesOf A ++ tablesOf B := by simp [tablesOf]
theorem cellsOf_append (A B : List SItem) : cellsOf (A ++ B) = cellsOf A ++ cellsOf B := by simp [cellsOf, tablesOf_append]
theorem tableFrames_append (A B : List SItem) : tableFrames (A ++ B) = tableFrames A ++ tableFrames B := by
  simp [tableFrames, tablesOf_append]
theorem flowParas_table (t : STable) (B : List SItem) : flowParas (.table t :: B) = t.cells.flatMap SCell.paras ++ flowParas B := rfl
theorem flowParas_para (p : SPara) (B : List SItem) : flowParas (.para p :: B) = p :: flowParas B := rfl
theorem topParas_table (t : STable) (B : List SItem) : topParas (.table t :: B) = topParas B := rfl
theorem topParas_para (p : SPara) (B : List SItem) : topParas (.para p :: B) = p :: topParas B := rfl
theorem tablesOf_table (t : STable) (B : List SItem) : tablesOf (.table t :: B) = t :: tablesOf B := rfl
theorem tablesOf_para (p : SPara) (B : List SItem) : tablesOf (.para p :: B) = tablesOf B := rfl
theorem cellsOf_table (t : STable) (B : List SItem) : cellsOf (.table t :: B) = t.cells ++ cellsOf B := rfl
theorem cellsOf_para (p : SPara) (B : List SItem) : cellsOf (.para p :: B) = cellsOf B := rfl
theorem tableFrames_table (t : STable) (B : List SItem) :
    tableFrames (.table t :: B) = (t.anchor :: t.cells.map SCell.frame) ++ tableFrames B := rfl
theorem tableFrames_para (p : SPara) (B : List SItem) : tableFrames (.para p :: B) = tableFrames B := rfl

theorem length_gridPlaces {rows columns : Int} (hr : 1 ≤ rows) (hc : 1 ≤ columns) :
    ((gridPlaces rows columns).length : Int) = rows * columns := by
  unfold gridPlaces intRange
  rw [List.length_flatMap]
  simp only [List.length_map, List.length_range, List.map_map]
  have : ∀ n : Nat, ((List.range n).map ((fun _ : Int => columns.toNat) ∘ Int.ofNat)).sum = n * columns.toNat := by
    intro n
    induction n with
    | zero => simp
    | succ n ih => rw [List.range_succ, List.map_append, List.sum_append, ih]; simp [Nat.add_mul]
  rw [this]
  push_cast
  rw [Int.toNat_of_nonneg (by omega), Int.toNat_of_nonneg (by omega)]

theorem intRange_sorted (n : Int) : (intRange n).Pairwise (· < ·) := by
  unfold intRange
  rw [List.pairwise_map]
  exact List.pairwise_lt_range.imp fun h => by simpa using Int.ofNat_lt.mpr h

theorem gridPlaces_order (rows columns : Int) :
    (gridPlaces rows columns).Pairwise fun x y => x.1 < y.1 ∨ x.1 = y.1 ∧ x.2.1 < y.2.1 := by
  unfold gridPlaces
  have h := intRange_sorted rows
  generalize intRange rows = rs at h
  induction rs with
  | nil => exact .nil
  | cons r l ih =>
    rw [List.pairwise_cons] at h
    rw [List.flatMap_cons, List.pairwise_append]
    refine ⟨?_, ih h.2, ?_⟩
    · rw [List.pairwise_map]
      exact (intRange_sorted columns).imp fun h => .inr ⟨rfl, h⟩
    · intro x hx y hy
      obtain ⟨c, _, rfl⟩ := List.mem_map.mp hx
      obtain ⟨r', hr', hy⟩ := List.mem_flatMap.mp hy
      obtain ⟨c', _, rfl⟩ := List.mem_map.mp hy
      exact .inl (h.1 r' hr')

theorem madeCells_order (F B C : Nat) {l : List (Int × Int × Int × Int)}
    (h : l.Pairwise fun x y => x.1 < y.1 ∨ x.1 = y.1 ∧ x.2.1 < y.2.1) : (madeCells F B C l).Pairwise SCell.before := by
  rw [← madeCells_places F B C l, List.pairwise_map] at h
  exact h

/-- Empty paragraphs take one position each. -/
theorem charsBefore_empties (l : List Nat) : charsBefore (paras (l.map fun i => (⟨i, [], {}⟩ : SPara))) = l.length := by
  induction l with
  | nil => rfl
  | cons i l ih => rw [List.map_cons, charsBefore_paras_cons, ih]; simp; omega

theorem charsBefore_le {X Y Z W : List SPara} {q : SPara} (h : X ++ Y = Z ++ q :: W) :
    (∃ V, X = Z ++ q :: V ∧ W = V ++ Y) ∨ (∃ V, Z = X ++ V ∧ Y = V ++ q :: W) := by
  rw [List.append_eq_append_iff] at h
  rcases h with ⟨V, h1, h2⟩ | ⟨V, h1, h2⟩
  · exact .inr ⟨V, h1, h2⟩
  · cases V with
    | nil =>
      simp only [List.append_nil, List.nil_append] at h1 h2
      exact .inr ⟨[], by simp [h1], by simp [h2]⟩
    | cons v V =>
      simp only [List.cons_append, List.cons.injEq] at h2
      obtain ⟨rfl, h2⟩ := h2
      exact .inl ⟨V, h1, h2⟩

/-- Positions after `k` empty paragraphs came between `X` and `Y`. -/
theorem placed_between {X Y : List SPara} {ids : List Nat} {n : Int} (hp : Placed s (X ++ Y))
    (hn : n = (ids.length : Int))
    (hold : ∀ q ∈ X ++ Y, ∀ b, s.blocks q.id = some b → ∃ b', s'.blocks q.id = some b' ∧ b'.documentPosition =
      if b.documentPosition ≥ (charsBefore (paras X) : Int) then b.documentPosition + n else b.documentPosition)
    (hnew : ∀ (k : Nat) (i : Nat), ids[k]? = some i → ∃ b', s'.blocks i = some b' ∧
      b'.documentPosition = (charsBefore (paras X) : Int) + (k : Int)) :
    Placed s' (X ++ ids.map (fun i => (⟨i, [], {}⟩ : SPara)) ++ Y) := by
  intro Z q W e
  rw [List.append_assoc] at e
  rcases charsBefore_le e with ⟨V, h1, h2⟩ | ⟨V, h1, h2⟩
  · obtain ⟨b, k1, k2⟩ := hp Z q (V ++ Y) (by rw [h1]; simp)
    obtain ⟨b', k3, k4⟩ := hold q (by rw [h1]; simp) b k1
    refine ⟨b', k3, ?_⟩
    rw [k4, if_neg, k2]
    rw [k2, h1, charsBefore_paras_two, charsBefore_paras_cons]
    push_cast; omega
  · rcases charsBefore_le h2 with ⟨U, h3, h4⟩ | ⟨U, h3, h4⟩
    · have hlen : V.length < ids.length := by
        have := congrArg List.length h3; simp at this; omega
      have hg : ids[V.length]? = some q.id := by
        have := congrArg (fun l => l[V.length]?) h3
        simp only [List.getElem?_map, List.getElem?_append_right (Nat.le_refl _), Nat.sub_self,
          List.getElem?_cons_zero] at this
        rw [Option.map_eq_some_iff] at this
        obtain ⟨i, hi, rfl⟩ := this
        exact hi
      obtain ⟨b', k3, k4⟩ := hnew _ _ hg
      refine ⟨b', k3, ?_⟩
      rw [k4, h1, charsBefore_paras_two]
      have hV : charsBefore (paras V) = V.length := by
        have hVm : V = (ids.take V.length).map fun i => (⟨i, [], {}⟩ : SPara) := by
          have := congrArg (List.take V.length) h3
          rw [← List.map_take, List.take_left] at this
          exact this.symm
        have := charsBefore_empties (ids.take V.length)
        rw [← hVm] at this
        rw [this]; simp; omega
      rw [hV]; push_cast; omega
    · obtain ⟨b, k1, k2⟩ := hp (X ++ U) q W (by rw [h4]; simp)
      obtain ⟨b', k3, k4⟩ := hold q (by rw [h4]; simp) b k1
      refine ⟨b', k3, ?_⟩
      rw [k4, k2, charsBefore_paras_two, if_pos (by push_cast; omega), h1, h3, charsBefore_paras_two,
        charsBefore_paras_two, charsBefore_empties]
      push_cast; omega

theorem Tabled.allFrames (h : Tabled s d f items) : ∀ g ∈ d.frames, (s.frames g).isSome := by
  intro g hg
  obtain ⟨rest, h1, h2⟩ := h.frames
  rw [h1] at hg
  rcases List.mem_cons.mp hg with rfl | hg
  · obtain ⟨fr, e, _⟩ := h.frame; rw [e]; rfl
  · have := h2.mem_iff.mp hg
    simp only [tableFrames, List.mem_flatMap] at this
    obtain ⟨t, ht, hg⟩ := this
    have hs := h.table t ht
    rcases List.mem_cons.mp hg with rfl | hg
    · obtain ⟨fr, e, _⟩ := hs.anchor; rw [e]; rfl
    · obtain ⟨c, hc, rfl⟩ := List.mem_map.mp hg
      obtain ⟨_, _, _, fr, e, _⟩ := hs.cell c hc; rw [e]; rfl

theorem Tabled.allTables (h : Tabled s d f items) : ∀ t ∈ d.tables, (s.tables t).isSome := by
  intro t ht
  obtain ⟨x, hx, rfl⟩ := List.mem_map.mp (h.tables.mem_iff.mp ht)
  rw [(h.table x hx).table]; rfl

theorem Tabled.flow_nonempty (h : Tabled s d f items) : flowParas items ≠ [] := by
  intro e
  obtain ⟨p, hp⟩ := List.exists_mem_of_ne_nil _ h.nonempty
  have := mem_flowParas.mpr (.inl hp)
  rw [e] at this; simp at this

/-- The steps of `insertTable` once the place is known. -/
def buildTable (s : Store) (d : Document) (all : List Block) (place : TablePlace) (rows columns : Int) : Option Store :=
  (s.createTable { rows, columns, columnWidths := List.replicate columns.toNat 0 } d.id (-1)).bind fun (tid, s) =>
  (s.createCells d.id tid (gridPlaces rows columns)).bind fun (cells, s) =>
  (s.linkTable d.id tid place.parent place.index (cells.map Prod.fst)).bind fun s =>
  (s.anchorText tid place.neighbour).bind fun s =>
  ((s.placeCells place.start (cells.map fun x => x.2.1)).addCellText place.parent (cells.map fun x => x.2.1)).map fun s =>
  ((s.shiftFrom all place.start (rows * columns)).updateDocument { d with blockCount := d.blockCount + rows * columns })

theorem paraStart_split (L R : List SPara) : paraStart (L ++ R) L.length = charsBefore (paras L) := by
  simp [paraStart, charsBefore, paras, Function.comp_def, SPara.text]

theorem seated_of_placed {ps : List SPara} (h : Placed s ps) : Seated s ps := by
  intro n p hp
  have hn : n < ps.length := by
    by_cases e : n < ps.length
    · exact e
    · rw [List.getElem?_eq_none (by omega)] at hp; cases hp
  have e : ps = ps.take n ++ p :: ps.drop (n + 1) := by
    rw [List.getElem?_eq_getElem hn] at hp
    cases hp
    rw [← List.drop_eq_getElem_cons hn, List.take_append_drop]
  obtain ⟨b, h1, h2⟩ := h _ _ _ e
  refine ⟨b, h1, ?_⟩
  rw [h2]
  have : paraStart ps n = charsBefore (paras (ps.take n)) := by
    have := paraStart_split (ps.take n) (p :: ps.drop (n + 1))
    rw [← e, List.length_take, Nat.min_eq_left (by omega)] at this
    exact this
  rw [this]

theorem placed_of_seated {ps : List SPara} (h : Seated s ps) : Placed s ps := by
  intro X p Y e
  obtain ⟨b, h1, h2⟩ := h X.length p (by rw [e]; simp)
  exact ⟨b, h1, by rw [h2, e, paraStart_split]⟩

/-- A table with given cells. -/
def tableOf (tid : Nat) (rows columns : Int) (a : Nat) (cs : List SCell) : STable :=
  { table := { id := tid, rows, columns, columnWidths := List.replicate columns.toNat 0
               cells := cs.map fun c => c.cell.id }
    anchor := a
    cells := cs }

/-- The new table. -/
def madeTable (s : Store) (rows columns : Int) : STable :=
  tableOf (s.next "table") rows columns (s.next "frame" + (gridPlaces rows columns).length)
    (madeCells (s.next "frame") (s.next "block") (s.next "table_cell") (gridPlaces rows columns))

theorem Tabled.build {L L' : List Para} {st' : RopeSt} {rows columns : Int} {b : Nat} {after : Bool}
    (h : Tabled s d f (A ++ B)) (hH : Carries s L (flowParas (A ++ B)) ((tablesOf (A ++ B)).map fun t => t.table.id))
    (hp : Placed s (flowParas (A ++ B))) (hr : 1 ≤ rows) (hc : 1 ≤ columns)
    (hst : ropeInsertTableAnchor s.text (s.next "table") b after = some st') (hL : Repr st' L')
    (hperm : L'.Perm ((.table (s.next "table"), [objChar]) :: L)) (hsub : (paras (topParas (A ++ B))).Sublist L') :
    ∃ s', buildTable s d (placed 0 (flowParas (A ++ B)))
        ⟨f, A.length, some (b, after), (charsBefore (paras (flowParas A)) : Int)⟩ rows columns = some s' ∧
      Tabled s' { d with
        frames := d.frames ++ (madeTable s rows columns).cells.map SCell.frame ++ [(madeTable s rows columns).anchor]
        tables := d.tables ++ [s.next "table"], blockCount := d.blockCount + rows * columns } f
        (A ++ .table (madeTable s rows columns) :: B) ∧
      s'.lists = s.lists := by
  obtain ⟨fr, hfr, hfid, hfp, hft, hfq, hfc, hfb⟩ := h.frame
  have hn := length_gridPlaces hr hc
  have hnpos : 0 < (gridPlaces rows columns).length := by
    have : (1 : Int) ≤ rows * columns := by
      have := Int.mul_le_mul hr hc (by omega) (by omega); simpa using this
    omega
  have horder := madeCells_order (s.next "frame") (s.next "block") (s.next "table_cell") (gridPlaces_order rows columns)
  have hcf := madeCells_frames (s.next "frame") (s.next "block") (s.next "table_cell") (gridPlaces rows columns)
  have hcb := madeCells_blocks (s.next "frame") (s.next "block") (s.next "table_cell") (gridPlaces rows columns)
  have hcc := madeCells_cells (s.next "frame") (s.next "block") (s.next "table_cell") (gridPlaces rows columns)
  have hcp := madeCells_paras (s.next "frame") (s.next "block") (s.next "table_cell") (gridPlaces rows columns)
  have hcl := madeCells_length (s.next "frame") (s.next "block") (s.next "table_cell") (gridPlaces rows columns)
  have hcm : ∀ x ∈ madeCells (s.next "frame") (s.next "block") (s.next "table_cell") (gridPlaces rows columns), _ :=
    fun x hx => madeCells_mem hx
  unfold madeTable buildTable
  generalize hN : (gridPlaces rows columns).length = N at hnpos hcf hcb hcc hcp hcl hcm hn
  -- the table
  rw [createTable_new h.document h.allTables, Option.bind_some]
  generalize htid : s.next "table" = tid at hst hperm
  have htfresh : s.tables tid = none := by
    cases e : s.tables tid with
    | none => rfl
    | some x => have := h.freshTables tid (by rw [e]; rfl); omega
  generalize hs1 : ({ s with
      counters := (s.nextId "table").2.counters
      tables := s.tables.insert tid
        { ({ rows, columns, columnWidths := List.replicate columns.toNat 0 } : Table) with id := tid }
      documents := s.documents.insert d.id { d with tables := d.tables ++ [tid] } } : Store) = s1
  have hd1 : s1.documents ({ d with tables := d.tables ++ [tid] } : Document).id = some { d with tables := d.tables ++ [tid] } := by
    rw [← hs1]; simp
  have hd1' : ∀ i, i ≠ d.id → s1.documents i = s.documents i := by intro i hi; rw [← hs1]; simp [hi]
  have ht1 : s1.tables tid = some { id := tid, rows, columns, columnWidths := List.replicate columns.toNat 0 } := by
    rw [← hs1]; simp
  have ht1' : ∀ i, i ≠ tid → s1.tables i = s.tables i := by intro i hi; rw [← hs1]; simp [hi]
  have hnf1 : s1.next "frame" = s.next "frame" := by rw [← hs1]; exact next_other (a := "table") (b := "frame") (by decide) s
  have hnb1 : s1.next "block" = s.next "block" := by rw [← hs1]; exact next_other (a := "table") (b := "block") (by decide) s
  have hnc1 : s1.next "table_cell" = s.next "table_cell" := by rw [← hs1]; exact next_other (a := "table") (b := "table_cell") (by decide) s
  have hnt1 : s1.next "table" = tid + 1 := by rw [← hs1, ← htid]; exact next_self "table" s
  -- the cells
  obtain ⟨s2, e2, G⟩ := createCells_new (tid := tid) (gridPlaces rows columns) hd1 (by
      rw [← hs1]; exact h.allFrames) ht1 (by intro i hi; simp at hi)
  dsimp only
  rw [show s1.createCells d.id tid (gridPlaces rows columns) = _ from e2, Option.bind_some]
  dsimp only
  rw [hnf1, hnb1, hnc1] at G ⊢
  have G' : Grew s1 s2 d.id tid _ := G
  clear G
  generalize hcs : madeCells (s.next "frame") (s.next "block") (s.next "table_cell") (gridPlaces rows columns) = cs at *
  simp only [List.map_map]
  have hfst : (cs.map (Prod.fst ∘ fun c => (c.frame, (c.paras.map SPara.id).headD 0, c.cell.id))) = cs.map SCell.frame := rfl
  have hsnd : (cs.map ((fun x : Nat × Nat × Nat => x.2.1) ∘ fun c => (c.frame, (c.paras.map SPara.id).headD 0, c.cell.id))) =
      cellBlocks cs := by
    unfold cellBlocks
    rw [List.map_flatMap]
    have : ∀ l : List SCell, (∀ x ∈ l, x ∈ cs) →
        l.map ((fun x : Nat × Nat × Nat => x.2.1) ∘ fun c => (c.frame, (c.paras.map SPara.id).headD 0, c.cell.id)) =
        l.flatMap fun c => c.paras.map SPara.id := by
      intro l
      induction l with
      | nil => intro _; rfl
      | cons x l ih =>
        intro hl
        obtain ⟨i, hi, _⟩ := hcm x (hl x (by simp))
        rw [List.map_cons, List.flatMap_cons, ih fun y hy => hl y (by simp [hy])]
        simp [hi]
    exact this cs fun x hx => hx
  rw [hfst, hsnd]
  have hframeLt : ∀ g, (s.frames g).isSome → g < s.next "frame" := fun g hg => (h.freshFrames g hg).2
  have hcfm : ∀ g, g ∈ cs.map SCell.frame ↔ s.next "frame" ≤ g ∧ g < s.next "frame" + N := by
    intro g; rw [hcf]; simp [List.mem_range'_1]
  have hcbm : ∀ g, g ∈ cellBlocks cs ↔ s.next "block" ≤ g ∧ g < s.next "block" + N := by
    intro g; rw [hcb]; simp [List.mem_range'_1]
  have hccm : ∀ g, (g ∈ cs.map fun c => c.cell.id) ↔ s.next "table_cell" ≤ g ∧ g < s.next "table_cell" + N := by
    intro g; rw [hcc]; simp [List.mem_range'_1]
  have hs1fr : s1.frames = s.frames := by rw [← hs1]
  have hs1b : s1.blocks = s.blocks := by rw [← hs1]
  have hs1c : s1.tableCells = s.tableCells := by rw [← hs1]
  have hnf2 : s2.next "frame" = s.next "frame" + N := by rw [G'.nextFrame, hcl, hnf1]
  have hold2 : ∀ g, (s.frames g).isSome → s2.frames g = s.frames g := by
    intro g hg
    rw [G'.oldFrames g (fun hm => by have := hframeLt g hg; have := (hcfm g).mp hm; omega), hs1fr]
  have hfs : (s.frames f).isSome := by rw [hfr]; rfl
  have hfr2 : s2.frames f = some fr := by rw [hold2 f hfs]; exact hfr
  have hd2 : s2.documents d.id = some { d with tables := d.tables ++ [tid], frames := d.frames ++ cs.map SCell.frame } :=
    G'.document _ hd1
  -- the anchor
  obtain ⟨s3, e3, a1, a2, a3, a4, a5, n1, n2, n3, n4, k1, k2, k3, k4, k5, k6, k7, k8⟩ :=
    linkTable_new (s := s2) (d := { d with tables := d.tables ++ [tid], frames := d.frames ++ cs.map SCell.frame })
      (f := f) (fr := fr) (tid := tid) (idx := A.length) (gs := cs.map SCell.frame) hd2 (by
        intro g hg
        rcases List.mem_append.mp hg with hg | hg
        · rw [hold2 g (h.allFrames g hg)]; exact h.allFrames g hg
        · obtain ⟨c, hc, rfl⟩ := List.mem_map.mp hg
          rw [G'.frames c hc]; rfl) hfr2 hfid (by have := hframeLt f hfs; omega) (by
        intro g hg
        have := (hcfm g).mp hg
        have := hframeLt f hfs
        refine ⟨by omega, by omega, ?_⟩
        intro x hx
        obtain ⟨c, hc, rfl⟩ := List.mem_map.mp hg
        rw [G'.frames c hc] at hx; cases hx; rfl)
  rw [show s2.linkTable d.id tid f A.length (cs.map SCell.frame) = some s3 from e3, Option.bind_some]
  rw [hnf2] at a1 a2 a3 a4 a5 n1
  generalize ha : s.next "frame" + N = a at *
  have htext3 : s3.text = s.text := by rw [k1, G'.text, ← hs1]; rfl
  simp only [Store.anchorText, htext3, hst, Option.map_some, Option.bind_some]
  -- the positions of the cells
  have hcbn : (cellBlocks cs).Nodup := by rw [hcb]; exact List.nodup_range'
  unfold Store.placeCells
  obtain ⟨b1, b2, m4, b3⟩ := updateBlocks_get (s := s3.withText st')
    ((cellBlocks cs).zipIdx.map fun x => ({ id := x.1, documentPosition := (charsBefore (paras (flowParas A)) : Int) + (x.2 : Int) } : Block))
    (by
      rw [List.map_map]
      have : (Block.id ∘ fun x : Nat × Nat => ({ id := x.1, documentPosition := (charsBefore (paras (flowParas A)) : Int) + (x.2 : Int) } : Block)) = Prod.fst := rfl
      rw [this, List.zipIdx_map_fst]; exact hcbn)
  generalize hs4 : (s3.withText st').updateBlocks ((cellBlocks cs).zipIdx.map fun x =>
    ({ id := x.1, documentPosition := (charsBefore (paras (flowParas A)) : Int) + (x.2 : Int) } : Block)) = s4 at b1 b2 b3
  have hb4new : ∀ (k i : Nat), (cellBlocks cs)[k]? = some i → s4.blocks i =
      some { id := i, documentPosition := (charsBefore (paras (flowParas A)) : Int) + (k : Int) } := by
    intro k i hi
    have hm : (i, k) ∈ (cellBlocks cs).zipIdx := by
      rw [List.mem_zipIdx_iff_getElem?]; exact hi
    have := b1 _ (List.mem_map.mpr ⟨(i, k), hm, rfl⟩)
    rw [show s4.blocks i = _ from this]
    have himem : i ∈ cellBlocks cs := List.mem_of_getElem? hi
    unfold cellBlocks at himem
    obtain ⟨p, hpm, rfl⟩ := List.mem_map.mp himem
    obtain ⟨c, hcm', hpc⟩ := List.mem_flatMap.mp hpm
    have : (s3.withText st').blocks p.id = some { id := p.id } := by
      show s3.blocks p.id = _
      rw [k8]; exact G'.blocks c hcm' p hpc
    rw [this]; rfl
  have hb4old : ∀ i, i ∉ cellBlocks cs → s4.blocks i = s.blocks i := by
    intro i hi
    rw [b2]
    · show s3.blocks i = _
      rw [k8, G'.oldBlocks i hi, hs1b]
    · rw [List.map_map]
      have : (Block.id ∘ fun x : Nat × Nat => ({ id := x.1, documentPosition := (charsBefore (paras (flowParas A)) : Int) + (x.2 : Int) } : Block)) = Prod.fst := rfl
      rw [this, List.zipIdx_map_fst]; exact hi
  have hf4 : s4.frames = s3.frames := by rw [b3]; rfl
  have hc4 : s4.tableCells = s3.tableCells := by rw [b3]; rfl
  have ht4 : s4.tables = s3.tables := by rw [b3]; rfl
  have htx4 : s4.text = st' := by rw [b3]; rfl
  -- facts about the frames of the new store
  have hcell3 : ∀ c ∈ cs, s3.frames c.frame = some { freshFrame c with parentFrame := some a } := by
    intro c hc
    rw [a3 _ (List.mem_map_of_mem hc), G'.frames c hc]; rfl
  have hold3 : ∀ g, (s.frames g).isSome → g ≠ f → s3.frames g = s.frames g := by
    intro g hg hgf
    have := hframeLt g hg
    rw [a4 g (by omega) hgf (fun hm => by have := (hcfm g).mp hm; omega), hold2 g hg]
  have hmin : min A.length fr.childOrder.length = A.length := by rw [hfc]; simp
  have hco : fr.childOrder.insertIdx (min A.length fr.childOrder.length) (-(a : Int)) =
      (A ++ .table (tableOf tid rows columns a cs) :: B).map SItem.entry := by
    rw [hmin, hfc, List.map_append, List.map_append, List.map_cons]
    have : A.length = (A.map SItem.entry).length := by simp
    rw [this, insertIdx_length_append]; rfl
  rw [hco] at a2
  obtain ⟨fr3, a2', hfid3, hfp3, hft3, hfq3, hfc3, hfb3⟩ : ∃ fr3, s3.frames f = some fr3 ∧ fr3.id = f ∧ fr3.parentFrame = none ∧
      fr3.table = none ∧ fr3.fmtIsBlockquote = none ∧
      fr3.childOrder = (A ++ .table (tableOf tid rows columns a cs) :: B).map SItem.entry ∧
      fr3.blocks.Perm ((topParas (A ++ B)).map SPara.id) := ⟨_, a2, hfid, hfp, hft, hfq, rfl, hfb⟩
  have hTcells : (tableOf tid rows columns a cs).table = ({ id := tid, rows, columns, columnWidths := List.replicate columns.toNat 0, cells := cs.map fun c => c.cell.id } : Table) := rfl
  have hTt : (tableOf tid rows columns a cs).table.id = tid := rfl
  have hTa : (tableOf tid rows columns a cs).anchor = a := rfl
  have hTc : (tableOf tid rows columns a cs).cells = cs := rfl
  generalize hT : tableOf tid rows columns a cs = T at *
  have htables3 : ∀ i, i ≠ tid → s3.tables i = s.tables i := by
    intro i hi; rw [k6, G'.oldTables i hi, ht1' i hi]
  have hcells3 : ∀ i, (s.tableCells i).isSome → s3.tableCells i = s.tableCells i := by
    intro i hi
    rw [k7, G'.oldCells i (fun hm => by have := h.freshCells i hi; have := (hccm i).mp hm; omega), hs1c]
  have hnewT : ∀ s5 : Store, s5.frames = s3.frames → s5.tables = s3.tables → s5.tableCells = s3.tableCells →
      ∀ t ∈ tablesOf (A ++ .table T :: B), ShowsTable s5 f t := by
    intro s5 q1 q2 q3 t ht
    rw [tablesOf_append, tablesOf_table, List.mem_append, List.mem_cons] at ht
    have hcase : t = T ∨ t ∈ tablesOf (A ++ B) := by
      rw [tablesOf_append, List.mem_append]
      rcases ht with ht | ht | ht
      · exact .inr (.inl ht)
      · exact .inl ht
      · exact .inr (.inr ht)
    rcases hcase with rfl | ht
    · constructor
      · rw [q2, k6, hTt, G'.table _ ht1, hTcells]; simp
      · rw [hTcells, hTc]
      · rw [hTc]; exact horder
      · exact ⟨_, by rw [q1, hTa]; exact a1, by rw [hTa], rfl, rfl, rfl, by rw [hTt]⟩
      · intro c hc
        rw [hTc] at hc
        obtain ⟨i, c1, _, _, c2, _⟩ := hcm c hc
        refine ⟨by rw [q3, k7]; exact G'.cells c hc, c2, by rw [c1]; simp, _, by rw [q1]; exact hcell3 c hc, rfl, rfl,
          .inl (by rw [hTa]), rfl, .refl _⟩
    · have hs := h.table t ht
      have hne : ∀ g ∈ tableFrames (A ++ B), g ≠ f := by
        intro g hg e
        have := h.distinct.1
        rw [List.nodup_cons] at this
        exact this.1 (e ▸ hg)
      constructor
      · rw [q2, htables3 _ (by intro e; have := hs.table; rw [e, htfresh] at this; cases this)]
        exact hs.table
      · exact hs.cells
      · exact hs.order
      · obtain ⟨x, x1, x2⟩ := hs.anchor
        refine ⟨x, ?_, x2⟩
        rw [q1, hold3 _ (by rw [x1]; rfl) (hne _ (List.mem_flatMap.mpr ⟨t, ht, by simp⟩))]
        exact x1
      · intro c hc
        obtain ⟨x1, x2, x3, x, x4, x5⟩ := hs.cell c hc
        refine ⟨?_, x2, x3, x, ?_, x5⟩
        · rw [q3, hcells3 _ (by rw [x1]; rfl)]; exact x1
        · rw [q1, hold3 _ (by rw [x4]; rfl) (hne _ (List.mem_flatMap.mpr
            ⟨t, ht, List.mem_cons_of_mem _ (List.mem_map_of_mem hc)⟩))]
          exact x4
  have hfl' : flowParas (A ++ .table T :: B) = flowParas A ++ (cs.flatMap SCell.paras ++ flowParas B) := by
    rw [flowParas_append, flowParas_table, hTc]
  have hfl : flowParas (A ++ B) = flowParas A ++ flowParas B := flowParas_append A B
  have htop : topParas (A ++ .table T :: B) = topParas (A ++ B) := by
    rw [topParas_append, topParas_append, topParas_table]
  -- the text
  have hLne : L' ≠ [] := by
    intro e; rw [e] at hperm; have := hperm.length_eq; simp at this
  have htotal : s4.topLevelFrameEnd f = some s4.text.idx.total := by
    refine topLevelFrameEnd_main (L := L') (items := A ++ .table T :: B) (by rw [htx4]; exact hL) hLne ?_
      (by rw [hf4]; exact a2') hfp3 hft3 hfc3 rfl (by rw [htop]; exact hfb3) ?_ (.inl ?_)
    · intro x hx
      have := hperm.mem_iff.mp hx
      rcases List.mem_cons.mp this with rfl | hx
      · exact .inr ⟨T, by rw [tablesOf_append, tablesOf_table]; simp, by rw [hTt]⟩
      · have := hH.perm.mem_iff.mp hx
        rcases List.mem_append.mp this with hx | hx
        · obtain ⟨p, hp', rfl⟩ := List.mem_map.mp hx
          rw [hfl] at hp'
          refine .inl ⟨p, ?_, rfl⟩
          rw [hfl']
          simp only [List.mem_append] at hp' ⊢
          rcases hp' with hp' | hp'
          · exact .inl hp'
          · exact .inr (.inr hp')
        · obtain ⟨t, ht, rfl⟩ := List.mem_map.mp hx
          obtain ⟨t, ht', rfl⟩ := List.mem_map.mp ht
          clear ht
          refine .inr ⟨t, ?_, rfl⟩
          rw [tablesOf_append] at ht' ⊢
          rw [tablesOf_table]
          simp only [List.mem_append, List.mem_cons] at ht' ⊢
          rcases ht' with ht | ht
          · exact .inl ht
          · exact .inr (.inr ht)
    · intro t ht
      refine ⟨hnewT s4 hf4 ht4 hc4 t ht, ?_⟩
      obtain ⟨x, x1, _⟩ := (hnewT s4 hf4 ht4 hc4 t ht).anchor
      have hf0 := (h.freshFrames f hfs)
      by_cases e : t.anchor = a
      · omega
      · rw [tablesOf_append, tablesOf_table, List.mem_append, List.mem_cons] at ht
        have : t ∈ tablesOf (A ++ B) := by
          rw [tablesOf_append, List.mem_append]
          rcases ht with ht | rfl | ht
          · exact .inl ht
          · exact absurd hTa e
          · exact .inr ht
        obtain ⟨y, y1, _⟩ := (h.table t this).anchor
        exact (h.freshFrames _ (by rw [y1]; rfl)).1
    · have hfa : f ≠ a := by have := hframeLt f hfs; omega
      have h1 : f ∈ s4.frames.keys := (s4.frames.mem f).mpr (by rw [hf4, a2]; rfl)
      have h2 : a ∈ s4.frames.keys := (s4.frames.mem a).mpr (by rw [hf4, a1]; rfl)
      unfold IdMap.len
      match s4.frames.keys, h1, h2 with
      | [x], h1, h2 => simp at h1 h2; omega
      | _ :: _ :: _, _, _ => simp
  have hLfst : ∀ x ∈ cellBlocks cs, Marker.block x ∉ L'.map Prod.fst := by
    intro x hx hm
    have := (hperm.map Prod.fst).mem_iff.mp hm
    simp only [List.map_cons, List.mem_cons, reduceCtorEq, false_or] at this
    have := (hH.perm.map Prod.fst).mem_iff.mp this
    rw [List.map_append, List.mem_append] at this
    rcases this with hm | hm
    · rw [paras_fst] at hm
      obtain ⟨p, hpm, e⟩ := List.mem_map.mp hm
      simp only [Marker.block.injEq] at e
      have := hH.fresh p hpm
      have := (hcbm x).mp hx
      omega
    · simp at hm
  obtain ⟨st5, e5, r5⟩ := ropeInsertEmpty_repr (cellBlocks cs) hL hLne hcbn hLfst
  have e5' : s4.addCellText f (cellBlocks cs) = some (s4.withText st5) := by
    unfold Store.addCellText
    rw [htotal, Option.bind_some, htx4, e5]; rfl
  rw [e5', Option.map_some]
  -- the positions behind
  have hfresh0 : ∀ q ∈ flowParas (A ++ B), q.id ∉ cellBlocks cs := by
    intro q hq hm
    have := hH.fresh q hq
    have := (hcbm q.id).mp hm
    omega
  obtain ⟨p1, p2, m6, p3⟩ := shiftFrom_get (s := s4.withText st5) (bs := placed 0 (flowParas (A ++ B)))
    (start := (charsBefore (paras (flowParas A)) : Int)) (n := rows * columns) (placed_nodup hH.ids_nodup) (by
      intro x hx
      obtain ⟨q, hq, hqb⟩ := (placed_mem hx).2
      have : x.id = q.id := by rw [hqb]
      show s4.blocks x.id = _
      rw [hb4old _ (by rw [this]; exact hfresh0 q hq)]
      exact hH.placed_stored hp x hx)
  generalize hs6 : (s4.withText st5).shiftFrom (placed 0 (flowParas (A ++ B))) (charsBefore (paras (flowParas A)) : Int)
    (rows * columns) = s6 at p1 p2 p3
  have hnot : ∀ i ∈ cellBlocks cs, i ∉ (placed 0 (flowParas (A ++ B))).map Block.id := by
    intro i hi hm
    rw [placed_ids] at hm
    obtain ⟨q, hq, rfl⟩ := List.mem_map.mp hm
    exact hfresh0 q hq hi
  have hold6 : ∀ q ∈ flowParas (A ++ B), ∀ b, s.blocks q.id = some b → s6.blocks q.id =
      some { b with documentPosition := if b.documentPosition ≥ (charsBefore (paras (flowParas A)) : Int) then b.documentPosition + rows * columns
        else b.documentPosition } := by
    intro q hq b hb
    obtain ⟨X, Y, hXY⟩ := List.append_of_mem hq
    have hmem := placed_has (r := 0) X Y q
    rw [← hXY] at hmem
    have h1 := hH.placed_stored hp _ hmem
    rw [show (q.entity (0 + charsBefore (paras X))).id = q.id from rfl, hb] at h1
    cases h1
    exact p1 _ hmem
  have hnew6 : ∀ (k i : Nat), (cellBlocks cs)[k]? = some i → s6.blocks i =
      some { id := i, documentPosition := (charsBefore (paras (flowParas A)) : Int) + (k : Int) } := by
    intro k i hi
    rw [p2 i (hnot i (List.mem_of_getElem? hi))]
    exact hb4new k i hi
  have hother6 : ∀ i, i ∉ cellBlocks cs → i ∉ (flowParas (A ++ B)).map SPara.id → s6.blocks i = none := by
    intro i h1 h2
    rw [p2 i (by rw [placed_ids]; exact h2)]
    show s4.blocks i = none
    rw [hb4old i h1]; exact hH.absent h2
  have hcsp : cs.flatMap SCell.paras = (cellBlocks cs).map fun i => (⟨i, [], {}⟩ : SPara) := by rw [hcp, hcb]
  have hplaced6 : Placed s6 (flowParas (A ++ .table T :: B)) := by
    rw [hfl', hcsp, ← List.append_assoc]
    refine placed_between (s := s) (n := rows * columns) (by rw [← hfl]; exact hp) (by rw [hcb]; simp; omega) ?_ ?_
    · intro q hq b hb
      exact ⟨_, hold6 q (by rw [hfl]; exact hq) b hb, rfl⟩
    · intro k i hi
      exact ⟨_, hnew6 k i hi, rfl⟩
  -- what else is in the new store
  have hfr6 : s6.frames = s3.frames := by rw [p3, ← hf4]; rfl
  have htb6 : s6.tables = s3.tables := by rw [p3, ← ht4]; rfl
  have hce6 : s6.tableCells = s3.tableCells := by rw [p3, ← hc4]; rfl
  have htx6 : s6.text = st5 := by rw [p3]; rfl
  have hs4' : s4.roots = s3.roots ∧ s4.documents = s3.documents ∧ s4.counters = s3.counters ∧
      s4.formatRuns = s3.formatRuns ∧ s4.blockImages = s3.blockImages ∧ s4.lists = s3.lists := by
    rw [b3]; exact ⟨rfl, rfl, rfl, rfl, rfl, rfl⟩
  have hs6' : s6.roots = s3.roots ∧ s6.documents = s3.documents ∧ s6.counters = s3.counters ∧
      s6.formatRuns = s3.formatRuns ∧ s6.blockImages = s3.blockImages ∧ s6.lists = s3.lists := by
    rw [p3]; exact hs4'
  obtain ⟨z1, z2, z3, z4, z5, z6⟩ := hs6'
  have hnext6 : ∀ k, s6.next k = s3.next k := by intro k; simp [Store.next, z3]
  have hruns : s6.formatRuns = s.formatRuns := by rw [z4, k2, G'.runs, ← hs1]
  have himgs : s6.blockImages = s.blockImages := by rw [z5, k3, G'.images, ← hs1]
  have hdoc6 : s6.documents d.id = some { d with
      frames := d.frames ++ cs.map SCell.frame ++ [a], tables := d.tables ++ [tid] } := by
    rw [z2, a5]; simp
  have hids6 : (tablesOf (A ++ .table T :: B)).map (fun t => t.table.id) =
      (tablesOf A).map (fun t => t.table.id) ++ tid :: (tablesOf B).map fun t => t.table.id := by
    rw [tablesOf_append, tablesOf_table, List.map_append, List.map_cons, hTt]
  have hidsO : (tablesOf (A ++ B)).map (fun t => t.table.id) =
      (tablesOf A).map (fun t => t.table.id) ++ (tablesOf B).map fun t => t.table.id := by
    rw [tablesOf_append, List.map_append]
  have hmemNew : ∀ q, q ∈ flowParas (A ++ .table T :: B) → q ∈ flowParas (A ++ B) ∨ q ∈ cs.flatMap SCell.paras := by
    intro q hq
    rw [hfl'] at hq; rw [hfl]
    simp only [List.mem_append] at hq ⊢
    rcases hq with hq | hq | hq
    · exact .inl (.inl hq)
    · exact .inr hq
    · exact .inl (.inr hq)
  have hnewp : ∀ q ∈ cs.flatMap SCell.paras, q.chars = [] ∧ q.shape = {} ∧ q.id ∈ cellBlocks cs := by
    intro q hq
    refine ⟨?_, ?_, List.mem_map_of_mem hq⟩
    · rw [hcsp] at hq; obtain ⟨i, _, rfl⟩ := List.mem_map.mp hq; rfl
    · rw [hcsp] at hq; obtain ⟨i, _, rfl⟩ := List.mem_map.mp hq; rfl
  have hidsNew : ((flowParas (A ++ .table T :: B)).map SPara.id).Perm ((flowParas (A ++ B)).map SPara.id ++ cellBlocks cs) := by
    rw [hfl', hfl]
    unfold cellBlocks
    simp only [List.map_append]
    rw [List.perm_iff_count]
    intro x
    simp only [List.count_append]; omega
  have hidsNd : ((flowParas (A ++ B)).map SPara.id ++ cellBlocks cs).Nodup := by
    rw [List.nodup_append]
    refine ⟨hH.ids_nodup, hcbn, ?_⟩
    intro x hx y hy e
    subst e
    obtain ⟨q, hq, rfl⟩ := List.mem_map.mp hx
    exact hfresh0 q hq hy
  have hnextb : s6.next "block" = s.next "block" + N := by rw [hnext6, n2, G'.nextBlock, hnb1, hcl]
  have hholds : Carries s6 (L' ++ (cellBlocks cs).map fun b => (.block b, [])) (flowParas (A ++ .table T :: B))
      ((tablesOf (A ++ .table T :: B)).map fun t => t.table.id) := by
    constructor
    · rw [htx6]; exact r5
    · rw [hids6, hfl', List.map_append, List.map_cons]
      have h1 := hperm
      have h2 := hH.perm
      rw [hidsO, hfl, List.map_append] at h2
      have h3 : paras (cs.flatMap SCell.paras) = (cellBlocks cs).map fun b => ((.block b, []) : Para) := by
        rw [hcsp]; simp [paras, SPara.text]
      rw [List.perm_iff_count] at h1 h2 ⊢
      intro x
      have h1 := h1 x
      have h2 := h2 x
      have hpa : ∀ X Y : List SPara, paras (X ++ Y) = paras X ++ paras Y := fun X Y => by simp [paras]
      simp only [List.count_append, List.count_cons, hpa, h3] at h1 h2 ⊢
      omega
    · refine IdMap.keys_perm (hidsNew.nodup_iff.mpr hidsNd) ?_
      intro i
      rw [hidsNew.mem_iff, List.mem_append]
      constructor
      · intro hi
        by_cases h1 : i ∈ cellBlocks cs
        · exact .inr h1
        · by_cases h2 : i ∈ (flowParas (A ++ B)).map SPara.id
          · exact .inl h2
          · rw [hother6 i h1 h2] at hi; cases hi
      · rintro (hi | hi)
        · obtain ⟨q, hq, rfl⟩ := List.mem_map.mp hi
          obtain ⟨b, hb, _⟩ := hH.block q hq
          rw [hold6 q hq b hb]; rfl
        · obtain ⟨k, hk⟩ := List.mem_iff_getElem?.mp hi
          rw [hnew6 k i hk]; rfl
    · intro q hq
      rcases hmemNew q hq with hq | hq
      · obtain ⟨b, hb, hqb⟩ := hH.block q hq
        exact ⟨_, hold6 q hq b hb, by rw [hqb.with_pos]; exact isBlock_entity q _⟩
      · obtain ⟨g1, g2, g3⟩ := hnewp q hq
        obtain ⟨k, hk⟩ := List.mem_iff_getElem?.mp g3
        refine ⟨_, hnew6 k _ hk, ?_⟩
        unfold IsBlock
        rw [g2]
    · intro q hq
      rw [hruns]
      rcases hmemNew q hq with hq | hq
      · exact hH.formats q hq
      · obtain ⟨g1, g2, g3⟩ := hnewp q hq
        rw [(hH.clean q.id ((hcbm q.id).mp g3).1).1, g1]
        exact styledOk_plain []
    · intro q hq
      rw [himgs]
      rcases hmemNew q hq with hq | hq
      · exact hH.images q hq
      · obtain ⟨g1, g2, g3⟩ := hnewp q hq
        rw [(hH.clean q.id ((hcbm q.id).mp g3).1).2]; rfl
    · intro q hq
      rw [hnextb]
      rcases hmemNew q hq with hq | hq
      · have := hH.fresh q hq; omega
      · obtain ⟨g1, g2, g3⟩ := hnewp q hq
        exact ((hcbm q.id).mp g3).2
    · intro i hi
      rw [hruns, himgs]
      exact hH.clean i (by omega)
  refine ⟨_, rfl, ?_, ?_⟩
  · have key : ∀ s7 : Store, s7.documents d.id = some { d with
        frames := d.frames ++ cs.map SCell.frame ++ [a], tables := d.tables ++ [tid], blockCount := d.blockCount + rows * columns } →
        s7.roots = s6.roots → s7.frames = s6.frames → s7.tables = s6.tables → s7.tableCells = s6.tableCells →
        s7.text = s6.text → s7.blocks = s6.blocks → s7.formatRuns = s6.formatRuns → s7.blockImages = s6.blockImages →
        s7.counters = s6.counters → Tabled s7 { d with
          frames := d.frames ++ cs.map SCell.frame ++ [a], tables := d.tables ++ [tid], blockCount := d.blockCount + rows * columns } f
          (A ++ .table T :: B) := by
      intro s7 q1 q2 q3 q4 q5 q6 q7 q8 q9 q10
      have hnext7 : ∀ k, s7.next k = s3.next k := by intro k; rw [← hnext6]; simp [Store.next, q10]
      have hframes7 : s7.frames = s3.frames := by rw [q3, hfr6]
      have htf : (tableFrames (A ++ .table T :: B)).Perm (tableFrames (A ++ B) ++ (a :: cs.map SCell.frame)) := by
        rw [tableFrames_append, tableFrames_table, tableFrames_append, hTa, hTc, List.perm_iff_count]
        intro x
        simp only [List.count_append]; omega
      have hfresh9 : ∀ g ∈ f :: tableFrames (A ++ B), g < s.next "frame" := by
        intro g hg
        rcases List.mem_cons.mp hg with rfl | hg
        · exact hframeLt _ hfs
        · obtain ⟨rest, r1, r2⟩ := h.frames
          exact hframeLt g (h.allFrames g (by rw [r1]; exact List.mem_cons_of_mem _ (r2.mem_iff.mpr hg)))
      constructor
      · obtain ⟨r, r', x1, x2, x3, x4⟩ := h.root
        have : s7.roots = s.roots := by rw [q2, z1, k4, G'.roots, ← hs1]
        exact ⟨r, r', by rw [this]; exact x1, by rw [this]; exact x2, x3, x4⟩
      · exact q1
      · refine ⟨_, hholds.of_same q6 q7 q8 q9 (by rw [hnext7, hnext6]), ?_⟩
        rw [htop]
        exact hsub.trans (List.sublist_append_left _ _)
      · refine ⟨_, by rw [hframes7]; exact a2', hfid3, hfp3, hft3, hfq3, hfc3, ?_⟩
        rw [htop]; exact hfb3
      · exact hnewT s7 hframes7 (by rw [q4, htb6]) (by rw [q5, hce6])
      · obtain ⟨rest, r1, r2⟩ := h.frames
        refine ⟨rest ++ cs.map SCell.frame ++ [a], by rw [r1]; simp, ?_⟩
        refine .trans ?_ htf.symm
        rw [List.perm_iff_count] at r2 ⊢
        intro x
        have := r2 x
        simp only [List.count_append, List.count_cons, List.count_nil] at this ⊢
        omega
      · constructor
        · have : (f :: tableFrames (A ++ .table T :: B)).Perm ((f :: tableFrames (A ++ B)) ++ (a :: cs.map SCell.frame)) := by
            rw [List.cons_append]; exact htf.cons f
          rw [this.nodup_iff, List.nodup_append]
          refine ⟨h.distinct.1, ?_, ?_⟩
          · rw [List.nodup_cons]
            refine ⟨fun hm => ?_, ?_⟩
            · have := (hcfm a).mp hm; omega
            · rw [hcf]; exact List.nodup_range'
          · intro x hx y hy e
            subst e
            have h1 := hfresh9 x hx
            rcases List.mem_cons.mp hy with rfl | hy
            · omega
            · have := (hcfm x).mp hy; omega
        · have : ((cellsOf (A ++ .table T :: B)).map fun c => c.cell.id).Perm
              (((cellsOf (A ++ B)).map fun c => c.cell.id) ++ cs.map fun c => c.cell.id) := by
            rw [cellsOf_append, cellsOf_table, cellsOf_append, hTc, List.perm_iff_count]
            intro x
            simp only [List.map_append, List.count_append]; omega
          rw [this.nodup_iff, List.nodup_append]
          refine ⟨h.distinct.2, by rw [hcc]; exact List.nodup_range', ?_⟩
          intro x hx y hy e
          subst e
          obtain ⟨c, hc', rfl⟩ := List.mem_map.mp hx
          obtain ⟨t, ht, hct⟩ := List.mem_flatMap.mp hc'
          have h1 := ((h.table t ht).cell c hct).1
          have := h.freshCells c.cell.id (by rw [h1]; rfl)
          have := (hccm c.cell.id).mp hy
          omega
      · intro g hg
        rw [hframes7] at hg
        have htf' : g ∈ f :: tableFrames (A ++ .table T :: B) ↔ g = f ∨ g ∈ tableFrames (A ++ B) ++ (a :: cs.map SCell.frame) := by
          rw [List.mem_cons, htf.mem_iff]
        rw [htf']
        by_cases e1 : g = f
        · exact .inl e1
        · right
          rw [List.mem_append]
          by_cases e2 : g = a
          · right; rw [e2]; simp
          · by_cases e3 : g ∈ cs.map SCell.frame
            · right; exact List.mem_cons_of_mem _ e3
            · left
              rw [a4 g e2 e1 e3, G'.oldFrames g e3, hs1fr] at hg
              rcases List.mem_cons.mp (h.onlyFrames g hg) with e | e
              · exact absurd e e1
              · exact e
      · show (d.tables ++ [tid]).Perm _
        rw [hids6]
        have := h.tables
        rw [hidsO] at this
        rw [List.perm_iff_count] at this ⊢
        intro x
        have := this x
        simp only [List.count_append, List.count_cons, List.count_nil] at this ⊢
        omega
      · intro g hg
        rw [hframes7] at hg
        rw [hnext7, n1]
        have hf0 := h.freshFrames f hfs
        by_cases e1 : g = f
        · subst e1; omega
        · by_cases e2 : g = a
          · omega
          · by_cases e3 : g ∈ cs.map SCell.frame
            · have := (hcfm g).mp e3; omega
            · rw [a4 g e2 e1 e3, G'.oldFrames g e3, hs1fr] at hg
              have := h.freshFrames g hg
              omega
      · intro t ht
        rw [q4, htb6] at ht
        rw [hnext7, n4, G'.nextTable, hnt1]
        by_cases e : t = tid
        · omega
        · rw [htables3 t e] at ht
          have := h.freshTables t ht
          omega
      · intro c hc'
        rw [q5, hce6, k7] at hc'
        rw [hnext7, n3, G'.nextCell, hnc1, hcl]
        by_cases e : c ∈ cs.map fun c => c.cell.id
        · exact ((hccm c).mp e).2
        · rw [G'.oldCells c e, hs1c] at hc'
          have := h.freshCells c hc'
          omega
      · intro t ht
        rw [q4, htb6] at ht
        rw [hids6]
        by_cases e : t = tid
        · rw [e]; simp
        · rw [htables3 t e] at ht
          have := h.onlyTables t ht
          rw [hidsO] at this
          simp only [List.mem_append, List.mem_cons] at this ⊢
          rcases this with h1 | h1
          · exact .inl h1
          · exact .inr (.inr h1)
      · intro c hc'
        rw [q5, hce6, k7] at hc'
        rw [cellsOf_append, cellsOf_table, hTc, List.map_append, List.map_append, List.mem_append, List.mem_append]
        by_cases e : c ∈ cs.map fun c => c.cell.id
        · exact .inr (.inl e)
        · rw [G'.oldCells c e, hs1c] at hc'
          have := h.onlyCells c hc'
          rw [cellsOf_append, List.map_append, List.mem_append] at this
          rcases this with h1 | h1
          · exact .inl h1
          · exact .inr (.inr h1)
      · intro q hq
        rcases hmemNew q hq with hq | hq
        · exact h.positive q hq
        · obtain ⟨g1, g2, g3⟩ := hnewp q hq
          have := (hcbm q.id).mp g3
          obtain ⟨q0, hq0⟩ := List.exists_mem_of_ne_nil _ h.flow_nonempty
          have := h.positive q0 hq0
          have := hH.fresh q0 hq0
          omega
      · rw [htop]; exact h.nonempty
      · intro _
        refine seated_of_placed ?_
        intro X q Y e
        rw [q7]; exact hplaced6 X q Y e
    rw [hTc, hTa]
    refine key (s6.updateDocument _) ?_ rfl rfl rfl rfl rfl rfl rfl rfl rfl
    simp only [Store.updateDocument, IdMap.insert_get, hdoc6, Store.keepDoc, if_true]
  · show s6.lists = s.lists
    rw [z6, k5, G'.lists, ← hs1]

end Verif
