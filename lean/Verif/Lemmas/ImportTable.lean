import Verif.Lemmas.ImportCells
/- A document half loaded: a whole table. -/
namespace Verif
variable {s s' : Store} {d : Document} {L : List Para} {ps : List SPara} {ts : List Nat} {past : Imported} {x : ImportSt}
open Store

theorem hasCells_iff (rows : List (List (List ParsedSpan))) :
    hasCells rows = true ↔ ¬ (rows.length = 0 ∨ (rows.head?.map List.length).getD 0 = 0) := by
  unfold hasCells
  cases rows with
  | nil => simp
  | cons r rows => simp

theorem placedFrom_length (n : Nat) (k : Nat) : ∀ rows : List (List (List ParsedSpan)), (∀ row ∈ rows, row.length = n) →
    (((rows.zipIdx k).flatMap fun (row, r) => row.zipIdx.map fun (cell, c) => (r, c, cell)) : List (Nat × Nat × List ParsedSpan)).length =
      rows.length * n := by
  intro rows
  induction rows generalizing k with
  | nil => intro _; simp
  | cons row rows ih =>
    intro h
    rw [List.zipIdx_cons, List.flatMap_cons, List.length_append, ih _ (fun r hr => h r (List.mem_cons_of_mem _ hr))]
    simp only [List.length_map, List.length_zipIdx, h row (by simp), List.length_cons]
    rw [Nat.succ_mul]; omega

theorem placedCells_length {rows : List (List (List ParsedSpan))} (h : Rectangular rows) :
    (placedCells rows).length = rows.length * (rows.head?.map List.length).getD 0 := placedFrom_length _ 0 rows h

theorem placedCells_faces (rows : List (List (List ParsedSpan))) :
    ((placedCells rows).map fun x => cellFace x.1 x.2.1 x.2.2) = cellFaces rows := by
  unfold placedCells cellFaces
  rw [List.map_flatMap]
  congr 1
  funext x
  simp [List.map_map, Function.comp_def]

/-- The cells are placed in reading order. -/
theorem placedFrom_order (k : Nat) : ∀ rows : List (List (List ParsedSpan)),
    (((rows.zipIdx k).flatMap fun (row, r) => row.zipIdx.map fun (cell, c) => (r, c, cell)) : List (Nat × Nat × List ParsedSpan)).Pairwise
      (fun a b => a.1 < b.1 ∨ a.1 = b.1 ∧ a.2.1 < b.2.1) ∧
    ∀ a ∈ (((rows.zipIdx k).flatMap fun (row, r) => row.zipIdx.map fun (cell, c) => (r, c, cell)) : List (Nat × Nat × List ParsedSpan)), k ≤ a.1 := by
  intro rows
  induction rows generalizing k with
  | nil => simp
  | cons row rows ih =>
    obtain ⟨h1, h2⟩ := ih (k + 1)
    rw [List.zipIdx_cons, List.flatMap_cons]
    refine ⟨?_, ?_⟩
    · rw [List.pairwise_append]
      refine ⟨?_, h1, ?_⟩
      · rw [List.pairwise_map]
        have : ∀ (n : Nat) (l : List (List ParsedSpan)), (l.zipIdx n).Pairwise (fun a b => a.2 < b.2) := by
          intro n l
          induction l generalizing n with
          | nil => simp
          | cons a l ih' =>
            rw [List.zipIdx_cons, List.pairwise_cons]
            refine ⟨?_, ih' _⟩
            intro b hb
            have := (List.mem_zipIdx hb).1
            show n < b.2
            omega
        exact (this 0 row).imp fun {a b} hab => .inr ⟨rfl, hab⟩
      · intro a ha b hb
        obtain ⟨q, _, rfl⟩ := List.mem_map.mp ha
        have := h2 b hb
        left
        show k < b.1
        omega
    · intro a ha
      rcases List.mem_append.mp ha with ha | ha
      · obtain ⟨q, _, rfl⟩ := List.mem_map.mp ha
        exact Nat.le_refl _
      · have := h2 a ha; omega

theorem filledCells_order {F B C : Nat} {l : List (Nat × Nat × List ParsedSpan)}
    (h : l.Pairwise (fun a b => a.1 < b.1 ∨ a.1 = b.1 ∧ a.2.1 < b.2.1)) : (filledCells F B C l).Pairwise SCell.before := by
  have : ((filledCells F B C l).map fun c => (c.cell.row, c.cell.column)).Pairwise (fun a b => a.1 < b.1 ∨ a.1 = b.1 ∧ a.2 < b.2) := by
    rw [filledCells_place, List.pairwise_map]
    exact h.imp fun {a b} hab => by simp only; omega
  rw [List.pairwise_map] at this
  exact this

/-- A mark for a table, and the table itself. -/
theorem Mid.table (h : Mid s d L ps ts x past) (hL : L.map Prod.snd ≠ [[]]) (t : Table) (hc : t.cells = []) :
    ∃ s1, s.createTable t d.id (-1) = some (s.next "table", s1) ∧
      Mid (s1.withText (ropeAppendTableAnchor s1.text (s.next "table"))) { d with tables := d.tables ++ [s.next "table"] }
        (L ++ [(.table (s.next "table"), [objChar])]) ps (ts ++ [s.next "table"])
        { x with grouper := x.grouper.reset, emitted := true } (none :: past) ∧
      (∀ i, s1.tables i = if i = s.next "table" then some { t with id := s.next "table" } else s.tables i) ∧
      (∀ i, i ≠ d.id → s1.documents i = s.documents i) ∧
      s1.frames = s.frames ∧ s1.tableCells = s.tableCells ∧ s1.roots = s.roots ∧ s1.lists = s.lists ∧
      (∀ k, k ≠ "table" → s1.next k = s.next k) ∧ s1.next "table" = s.next "table" + 1 := by
  rw [createTable_new h.document h.docTables]
  generalize hs1 : ({ s with
      counters := (s.nextId "table").2.counters
      tables := s.tables.insert (s.next "table") { t with id := s.next "table" }
      documents := s.documents.insert d.id { d with tables := d.tables ++ [s.next "table"] } } : Store) = s1
  have hn : ∀ k, k ≠ "table" → s1.next k = s.next k := by
    intro k hk; rw [← hs1]; exact next_other (a := "table") (b := k) (Ne.symm hk) s
  have hn' : s1.next "table" = s.next "table" + 1 := by rw [← hs1]; exact next_self "table" s
  have hT : ∀ i, s1.tables i = if i = s.next "table" then some { t with id := s.next "table" } else s.tables i := by
    intro i; rw [← hs1]; simp only [IdMap.insert_get]
  have hD : ∀ i, s1.documents i = if i = d.id then some { d with tables := d.tables ++ [s.next "table"] } else s.documents i := by
    intro i; rw [← hs1]; simp only [IdMap.insert_get]
  have hF : s1.frames = s.frames := by rw [← hs1]
  have hLs : s1.lists = s.lists := by rw [← hs1]
  have hP : Penned s1 L ps ts := h.penned.of_same (by rw [← hs1]; rfl) (by rw [← hs1]) (by rw [← hs1]) (by rw [← hs1])
    (hn _ (by decide)) (by rw [hn']; omega)
  have hP2 := hP.anchor (t := s.next "table") hL (fun hm => by have := h.penned.marks _ hm; omega) (by rw [hn']; omega)
  refine ⟨s1, rfl, ⟨hP2, ?_, ?_, ?_, ?_, ?_, ?_, ?_, ?_, h.depth, ?_, ?_, h.chars, h.count⟩, hT, ?_, hF, by rw [← hs1], by rw [← hs1], hLs, hn, hn'⟩
  · show s1.documents d.id = _
    rw [hD, if_pos rfl]
  · intro i y hy
    have hy : s1.documents i = some y := hy
    rw [hD] at hy
    split at hy
    · rename_i e; cases hy; exact ⟨e, rfl⟩
    · exact h.docs i y hy
  · intro i hi
    show (s1.frames i).isSome
    rw [hF]; exact h.docFrames i hi
  · intro i hi
    show (s1.tables i).isSome
    rw [hT]
    split
    · rfl
    · rename_i hne
      rcases List.mem_append.mp hi with hi | hi
      · exact h.docTables i hi
      · simp only [List.mem_singleton] at hi; exact absurd hi hne
  · intro i y hy
    have hy : s1.frames i = some y := hy
    rw [hF] at hy
    have hB : s1.blocks = s.blocks := by rw [← hs1]
    show _ ∧ ∀ j ∈ y.blocks, (s1.blocks j).isSome
    rw [hB]; exact h.frameBlocks i y hy
  · obtain ⟨k1, k2, k3, k4, k5⟩ := h.lists
    refine ⟨?_, ?_, k3, k4, ?_⟩
    · show ∀ l ∈ d.lists, ∃ e, s1.lists l = some e ∧ e.id = l
      rw [hLs]; exact k1
    · show ∀ l, (s1.lists l).isSome → l ∈ d.lists
      rw [hLs]; exact k2
    · show ∀ l, (s1.lists l).isSome → l < s1.next "list"
      rw [hLs, hn _ (by decide)]; exact k5
  · exact knows_reset _ x.grouper
  · refine PastLists.none ?_
    show ∀ i id st, _ → s1.lists id = _
    rw [hLs]; exact h.past
  · intro q hq
    show (s1.frames q.1).isSome
    rw [hF]; exact h.stack q hq
  · simp
  · intro i hi; rw [hD, if_neg hi]

/-- What making a table does to the entities. -/
structure TableMade (s s' : Store) (d : Document) (f : Nat) (t : STable) : Prop where
  ids : t.table.id = s.next "table" ∧ t.anchor = s.next "frame" + t.cells.length ∧
    t.cells.map SCell.frame = List.range' (s.next "frame") t.cells.length ∧
    (t.cells.map fun c => c.cell.id) = List.range' (s.next "table_cell") t.cells.length
  tables : ∀ i, s'.tables i = if i = t.table.id then some t.table else s.tables i
  cellIds : t.table.cells = t.cells.map fun c => c.cell.id
  order : t.cells.Pairwise SCell.before
  cell : ∀ c ∈ t.cells, s'.tableCells c.cell.id = some c.cell ∧ c.cell.cellFrame = some c.frame ∧ (∃ p, c.paras = [p]) ∧
    ∃ par, (par = some t.anchor ∨ par = none) ∧ s'.frames c.frame = some { freshFrame c with parentFrame := par }
  oldCells : ∀ i, (i ∉ t.cells.map fun c => c.cell.id) → s'.tableCells i = s.tableCells i
  anchor : s'.frames t.anchor = some { id := t.anchor, parentFrame := some f, table := some t.table.id }
  oldFrames : ∀ i, i ∉ t.cells.map SCell.frame → i ≠ t.anchor → s'.frames i = s.frames i
  nextFrame : s'.next "frame" = s.next "frame" + t.cells.length + 1
  nextCell : s'.next "table_cell" = s.next "table_cell" + t.cells.length
  nextTable : s'.next "table" = s.next "table" + 1
  nextList : s'.next "list" = s.next "list"
  roots : s'.roots = s.roots
  lists : s'.lists = s.lists
  nonempty : t.cells ≠ []

theorem importTable_spec (h : Mid s d L ps ts x past) (hL : L.map Prod.snd ≠ [[]]) {f : Nat} {order : List Int}
    {rest : List (Nat × List Int)} (hx : x.stack = (f, order) :: rest) (hpos : x.position = charsBefore (paras ps))
    (html last : Bool) {rows : List (List (List ParsedSpan))} (hc : hasCells rows = true) (hr : Rectangular rows) :
    ∃ x' s' d' t, importTable html d.id last x rows s = some (x', s') ∧
      d' = { d with frames := d.frames ++ t.cells.map SCell.frame ++ [t.anchor], tables := d.tables ++ [t.table.id] } ∧
      Mid s' d' (L ++ flowText [.table t]) (ps ++ flowParas [.table t]) (ts ++ [t.table.id]) x' (none :: past) ∧
      TableMade s s' d f t ∧ x'.stack = (f, order ++ [-(t.anchor : Int)]) :: rest ∧ x'.depth = x.depth ∧
      (last = false → x'.position = charsBefore (paras (ps ++ flowParas [.table t]))) ∧
      [SItem.table t].map SItem.face = faceOf html (.table rows) none := by
  have hne := (hasCells_iff rows).mp hc
  generalize hcol : (rows.head?.map List.length).getD 0 = columns at hne
  obtain ⟨s1, e1, h1, hT, hD, hF, hC, hR, hLs, hn, hn'⟩ := h.table hL
    { rows := (rows.length : Int), columns := (columns : Int) } rfl
  have hlen := placedCells_length hr
  rw [hcol] at hlen
  have hpne : placedCells rows ≠ [] := by
    intro e
    rw [e] at hlen
    have : rows.length * columns = 0 := hlen.symm
    rw [Nat.mul_eq_zero] at this
    exact hne this
  generalize hs2 : s1.withText (ropeAppendTableAnchor s1.text (s.next "table")) = s2 at h1
  have nx2 : ∀ k, s2.next k = s1.next k := by intro k; rw [← hs2]; rfl
  have t2 : s2.tables = s1.tables := by rw [← hs2]; rfl
  have f2 : s2.frames = s.frames := by rw [← hs2]; exact hF
  have c2 : s2.tableCells = s.tableCells := by rw [← hs2]; exact hC
  obtain ⟨pos', s3, e3, h3, G, hp3, _⟩ := importCells_spec (tid := s.next "table") (total := (rows.length : Int) * (columns : Int))
    (placedCells rows) (t := { id := s.next "table", rows := (rows.length : Int), columns := (columns : Int) }) (n := 0)
    (pos := x.position) h1 (by simp) (by rw [t2, hT, if_pos rfl]) (by simp) (by rw [hlen]; simp) (fun _ => hpos) _ rfl
  rw [nx2, nx2, nx2, hn _ (by decide), hn _ (by decide), hn _ (by decide)] at e3 h3 G hp3
  have hord := (placedFrom_order 0 rows).1
  have hcframes := filledCells_frames (s.next "frame") (s.next "block") (s.next "table_cell") (placedCells rows)
  have hccells := filledCells_cells (s.next "frame") (s.next "block") (s.next "table_cell") (placedCells rows)
  have hclen := filledCells_length (s.next "frame") (s.next "block") (s.next "table_cell") (placedCells rows)
  have hcface := filledCells_face (s.next "frame") (s.next "block") (s.next "table_cell") (placedCells rows)
  have hcord := filledCells_order (F := s.next "frame") (B := s.next "block") (C := s.next "table_cell") hord
  have hcmem := fun q => filledCells_mem (F := s.next "frame") (B := s.next "block") (C := s.next "table_cell") (l := placedCells rows) (q := q)
  rw [show ((rows.zipIdx 0).flatMap fun (row, r) => row.zipIdx.map fun (cell, c) => (r, c, cell)) = placedCells rows from rfl] at hcord
  generalize filledCells (s.next "frame") (s.next "block") (s.next "table_cell") (placedCells rows) = cs at *
  simp only at h3
  obtain ⟨s4, e4, hF4, hD4, hT4, hC4, hR4, hL4, hB4, hn4, hn4', h4⟩ := openFrame_spec h3
    (fr := { parentFrame := some f, table := some (s.next "table") }) rfl rfl
  have nf3 : s3.next "frame" = s.next "frame" + cs.length := by rw [G.nextFrame, nx2, hn _ (by decide)]
  rw [nf3] at e4 hF4 hD4 hn4' h4
  have hFnot : s.next "frame" + cs.length ∉ cs.map SCell.frame := by
    rw [hcframes, hclen]; simp [List.mem_range']
  -- the parents of the cells
  have hfin : ∃ par s5, s5 = (if html then s4 else adoptCells (s.next "frame" + cs.length) (cs.map SCell.frame) s4) ∧
      (par = some (s.next "frame" + cs.length) ∨ par = none) ∧
      (∀ c ∈ cs, s5.frames c.frame = some { freshFrame c with parentFrame := par }) ∧
      (∀ i, i ∉ cs.map SCell.frame → s5.frames i = s4.frames i) ∧ (∃ fs, s5 = { s4 with frames := fs }) := by
    have hold : ∀ c ∈ cs, s4.frames c.frame = some (freshFrame c) := by
      intro c hc
      rw [hF4, IdMap.insert_get, if_neg]
      · exact G.frames c hc
      · intro e; exact hFnot (e ▸ List.mem_map_of_mem hc)
    cases html with
    | true =>
      exact ⟨none, s4, rfl, .inr rfl, hold, fun _ _ => rfl, s4.frames, rfl⟩
    | false =>
      obtain ⟨fs, ea, a1, a2⟩ := adoptCells_spec (s.next "frame" + cs.length) cs (s := s4)
        (by rw [hcframes]; exact List.nodup_range') hold
      refine ⟨some (s.next "frame" + cs.length), { s4 with frames := fs }, ?_, .inl rfl, a1, a2, fs, rfl⟩
      simp only [Bool.false_eq_true, if_false]
      exact ea.symm
  obtain ⟨par, s5, e5, hpar, hcf5, hof5, fs, hs5⟩ := hfin
  have h5 : Mid s5 { d with frames := d.frames ++ cs.map SCell.frame ++ [s.next "frame" + cs.length], tables := d.tables ++ [s.next "table"] }
      (L ++ [(.table (s.next "table"), [objChar])] ++ paras (cs.flatMap SCell.paras)) (ps ++ cs.flatMap SCell.paras) (ts ++ [s.next "table"])
      { x with grouper := x.grouper.reset, emitted := true, chars := x.chars + (charTotal (cs.flatMap SCell.paras) : Nat)
               count := x.count + (placedCells rows).length } (none :: past) := by
    refine Mid.same h4 (by rw [hs5]; rfl) (by rw [hs5]) (by rw [hs5]) (by rw [hs5]) (by rw [hs5]) ?_ ?_ (by rw [hs5]; exact fun _ h => h)
      (by rw [hs5]) (by rw [hs5]; rfl) (by rw [hs5]; exact Nat.le_refl _) (by rw [hs5]; rfl)
    · intro i hi
      by_cases hm : i ∈ cs.map SCell.frame
      · obtain ⟨c, hc, rfl⟩ := List.mem_map.mp hm
        rw [hcf5 c hc]; rfl
      · rw [hof5 i hm]; exact hi
    · intro i y hy
      by_cases hm : i ∈ cs.map SCell.frame
      · obtain ⟨c, hc, rfl⟩ := List.mem_map.mp hm
        rw [hcf5 c hc] at hy
        cases hy
        refine ⟨rfl, ?_⟩
        intro j hj
        refine (h4.frameBlocks c.frame (freshFrame c) ?_).2 j hj
        rw [hF4, IdMap.insert_get, if_neg]
        · exact G.frames c hc
        · intro e; exact hFnot (e ▸ List.mem_map_of_mem hc)
      · rw [hof5 i hm] at hy; exact h4.frameBlocks i y hy
  refine ⟨{ stack := (f, order ++ [-((s.next "frame" + cs.length : Nat) : Int)]) :: rest, depth := x.depth, grouper := x.grouper.reset
            emitted := true, position := pos' + (if last then 0 else 1)
            chars := x.chars + ((charTotal (cs.flatMap SCell.paras) : Nat) : Int), count := x.count + ((placedCells rows).length : Int) },
    s5, _, ⟨{ id := s.next "table", rows := (rows.length : Int), columns := (columns : Int), cells := cs.map fun c => c.cell.id },
    s.next "frame" + cs.length, cs⟩, ?_, rfl, ?_, ?_, ?_, ?_, ?_, ?_⟩
  rotate_left
  · -- the state
    have hdep : (((f, order ++ [-((s.next "frame" + cs.length : Nat) : Int)]) :: rest) : List (Nat × List Int)).length = x.depth + 1 := by
      have := h.depth
      rw [hx] at this
      simpa using this
    have hstk : ∀ q ∈ (((f, order ++ [-((s.next "frame" + cs.length : Nat) : Int)]) :: rest) : List (Nat × List Int)), (s5.frames q.1).isSome := by
      intro q hq
      rcases List.mem_cons.mp hq with e | hq
      · have := h5.stack (f, order) (by show _ ∈ x.stack; rw [hx]; simp)
        rw [e]; exact this
      · exact h5.stack q (by show _ ∈ x.stack; rw [hx]; exact List.mem_cons_of_mem _ hq)
    have e7 : flowText [.table ⟨{ id := s.next "table", rows := (rows.length : Int), columns := (columns : Int), cells := cs.map fun c => c.cell.id },
        s.next "frame" + cs.length, cs⟩] = (.table (s.next "table"), [objChar]) :: paras (cs.flatMap SCell.paras) := by
      simp [flowText]
    have e8 : flowParas [.table ⟨{ id := s.next "table", rows := (rows.length : Int), columns := (columns : Int), cells := cs.map fun c => c.cell.id },
        s.next "frame" + cs.length, cs⟩] = cs.flatMap SCell.paras := by
      simp [flowParas, SItem.paras]
    rw [e7, e8, show ∀ a : Para, ∀ l : List Para, L ++ a :: l = L ++ [a] ++ l by simp]
    exact ⟨h5.penned, h5.document, h5.docs, h5.docFrames, h5.docTables, h5.frameBlocks, h5.lists,
      knows_reset _ x.grouper, h5.past, hdep, hstk, h5.emitted, h5.chars, h5.count⟩
  · have hs4t : s5.tables = s3.tables := by rw [hs5]; exact hT4
    have hs4c : s5.tableCells = s3.tableCells := by rw [hs5]; exact hC4
    refine ⟨⟨rfl, rfl, by rw [hcframes, hclen], by rw [hccells, hclen]⟩, ?_, rfl, hcord, ?_, ?_, ?_, ?_, ?_, ?_, ?_, ?_, ?_, ?_, ?_⟩
    · intro i
      rw [hs4t]
      by_cases e : i = s.next "table"
      · subst e
        rw [if_pos rfl, G.table _ (by rw [t2, hT, if_pos rfl])]
        simp
      · rw [if_neg e, G.oldTables i e, t2, hT, if_neg e]
    · intro c hc'
      refine ⟨by rw [hs4c]; exact G.cells c hc', (hcmem c hc').1, (hcmem c hc').2, par, hpar, hcf5 c hc'⟩
    · intro i hi
      rw [hs4c, G.oldCells i hi, c2]
    · show s5.frames (s.next "frame" + cs.length) = _
      rw [hof5 _ hFnot, hF4]
      simp
    · intro i hi hi'
      rw [hof5 i hi, hF4, IdMap.insert_get, if_neg hi', G.oldFrames i hi, f2]
    · show s5.next "frame" = _
      rw [hs5]; exact hn4'
    · show s5.next "table_cell" = _
      rw [show s5.next "table_cell" = s4.next "table_cell" by rw [hs5]; rfl, hn4 _ (by decide), G.nextCell, nx2, hn _ (by decide)]
    · rw [show s5.next "table" = s4.next "table" by rw [hs5]; rfl, hn4 _ (by decide), G.nextTable, nx2, hn']
    · rw [show s5.next "list" = s4.next "list" by rw [hs5]; rfl, hn4 _ (by decide), G.nextList, nx2, hn _ (by decide)]
    · rw [show s5.roots = s4.roots by rw [hs5], hR4, G.roots, ← hs2]; exact hR
    · rw [show s5.lists = s4.lists by rw [hs5], hL4, G.lists, ← hs2]; exact hLs
    · intro e
      have e : cs = [] := e
      rw [e] at hclen
      exact hpne (List.length_eq_zero_iff.mp hclen.symm)
  · rfl
  · rfl
  · intro hlast
    simp only [hlast]
    have e8 : flowParas [.table ⟨{ id := s.next "table", rows := (rows.length : Int), columns := (columns : Int), cells := cs.map fun c => c.cell.id },
        s.next "frame" + cs.length, cs⟩] = cs.flatMap SCell.paras := by
      simp [flowParas, SItem.paras]
    rw [e8]
    exact hp3 hpne
  · simp only [List.map_cons, List.map_nil, SItem.face, faceOf, hc, if_true, hcol]
    rw [hcface, placedCells_faces]
  · unfold importTable
    simp only [hcol]
    rw [if_neg hne, e1, Option.bind_some]
    simp only
    rw [hx, List.head?_cons, Option.bind_some]
    simp only
    rw [hs2, e3, Option.bind_some]
    simp only
    rw [e4, Option.map_some]
    simp only
    rw [← e5]
    rfl

/-- A table without cells is skipped. -/
theorem importTable_empty (h : Mid s d L ps ts x past) (html last : Bool) {rows : List (List (List ParsedSpan))} (hc : hasCells rows = false) :
    importTable html d.id last x rows s = some ({ x with grouper := x.grouper.reset }, s) ∧
    Mid s d L ps ts { x with grouper := x.grouper.reset } (none :: past) := by
  refine ⟨?_, ⟨h.penned, h.document, h.docs, h.docFrames, h.docTables, h.frameBlocks, h.lists, knows_reset _ x.grouper, h.past.none, h.depth,
    h.stack, h.emitted, h.chars, h.count⟩⟩
  unfold importTable
  rw [if_pos]
  · have := hasCells_iff rows
    rw [hc] at this
    simp only [Bool.false_eq_true, false_iff, Classical.not_not] at this
    exact this

end Verif
