import Verif.Lemmas.ImportTable
/- Loading all elements. -/
namespace Verif
variable {s s' : Store} {d d' : Document} {f : Nat} {items : List SItem}
open Store

/-- The entities of a document half loaded into the one frame `f`; the order of `f` is not stored yet. -/
structure Built (s : Store) (d : Document) (f : Nat) (items : List SItem) : Prop where
  frame : ∃ fr, s.frames f = some fr ∧ fr.id = f ∧ fr.parentFrame = none ∧ fr.table = none ∧
    fr.fmtIsBlockquote = none ∧ fr.blocks.Perm ((topParas items).map SPara.id)
  table : ∀ t ∈ tablesOf items, ShowsTable s f t
  frames : ∃ rest, d.frames = f :: rest ∧ rest.Perm (tableFrames items)
  distinct : (f :: tableFrames items).Nodup ∧ ((cellsOf items).map fun c => c.cell.id).Nodup
  onlyFrames : ∀ g, (s.frames g).isSome → g ∈ f :: tableFrames items
  tables : d.tables.Perm ((tablesOf items).map fun t => t.table.id)
  freshFrames : ∀ g, (s.frames g).isSome → 0 < g ∧ g < s.next "frame"
  freshTables : ∀ t, (s.tables t).isSome → t < s.next "table"
  freshCells : ∀ c, (s.tableCells c).isSome → c < s.next "table_cell"
  onlyTables : ∀ t, (s.tables t).isSome → t ∈ (tablesOf items).map fun t => t.table.id
  onlyCells : ∀ c, (s.tableCells c).isSome → c ∈ (cellsOf items).map fun c => c.cell.id

theorem flowText_append (A B : List SItem) : flowText (A ++ B) = flowText A ++ flowText B := by
  unfold flowText; rw [List.flatMap_append]
theorem mem_tableFrames {t : STable} (ht : t ∈ tablesOf items) : t.anchor ∈ tableFrames items ∧
    ∀ c ∈ t.cells, c.frame ∈ tableFrames items := by
  unfold tableFrames
  refine ⟨List.mem_flatMap.mpr ⟨t, ht, by simp⟩, fun c hc => List.mem_flatMap.mpr ⟨t, ht, ?_⟩⟩
  exact List.mem_cons_of_mem _ (List.mem_map_of_mem hc)

/-- A table is shown as before when its entities are. -/
theorem ShowsTable.same {t : STable} (h : ShowsTable s f t) (h1 : s'.tables t.table.id = s.tables t.table.id)
    (h2 : s'.frames t.anchor = s.frames t.anchor) (h3 : ∀ c ∈ t.cells, s'.frames c.frame = s.frames c.frame)
    (h4 : ∀ c ∈ t.cells, s'.tableCells c.cell.id = s.tableCells c.cell.id) : ShowsTable s' f t := by
  refine ⟨by rw [h1]; exact h.table, h.cells, h.order, by rw [h2]; exact h.anchor, ?_⟩
  intro c hc
  rw [h3 c hc, h4 c hc]
  exact h.cell c hc

theorem Built.para (h : Built s d f items) {p : SPara} {c : Option Nat} (hw : Wrote s s' d f c) (hp : p.id = s.next "block")
    (hdf : d'.frames = d.frames) (hdt : d'.tables = d.tables) : Built s' d' f (items ++ [.para p]) := by
  have e1 : topParas (items ++ [.para p]) = topParas items ++ [p] := by simp [topParas]
  have e2 : tablesOf (items ++ [.para p]) = tablesOf items := by simp [tablesOf]
  have e3 : tableFrames (items ++ [.para p]) = tableFrames items := by unfold tableFrames; rw [e2]
  have e4 : cellsOf (items ++ [.para p]) = cellsOf items := by unfold cellsOf; rw [e2]
  have hfn := h.distinct.1
  rw [List.nodup_cons] at hfn
  have hold : ∀ i ∈ tableFrames items, s'.frames i = s.frames i := by
    intro i hi
    rw [hw.frames, if_neg]
    intro e; subst e; exact hfn.1 hi
  have hsome : ∀ g, (s'.frames g).isSome → (s.frames g).isSome := by
    intro g hg
    rw [hw.frames] at hg
    split at hg
    · rename_i e; subst e; simpa using hg
    · exact hg
  obtain ⟨fr, f1, f2, f3, f4, f5, f6⟩ := h.frame
  refine ⟨?_, ?_, by rw [hdf, e3]; exact h.frames, by rw [e3, e4]; exact h.distinct, ?_, by rw [hdt, e2]; exact h.tables, ?_, ?_, ?_, ?_, ?_⟩
  · refine ⟨{ fr with blocks := fr.blocks ++ [s.next "block"] }, ?_, f2, f3, f4, f5, ?_⟩
    · rw [hw.frames, if_pos rfl, f1]; rfl
    · rw [e1, List.map_append]
      simp only [List.map_cons, List.map_nil, hp]
      exact f6.append_right _
  · rw [e2]
    intro t ht
    have hm := mem_tableFrames ht
    exact (h.table t ht).same (by rw [hw.tables]) (hold _ hm.1) (fun c hc => hold _ (hm.2 c hc)) (fun c _ => by rw [hw.tableCells])
  · rw [e3]; intro g hg; exact h.onlyFrames g (hsome g hg)
  · intro g hg
    rw [hw.next _ (by decide) (by decide)]
    exact h.freshFrames g (hsome g hg)
  · rw [hw.tables, hw.next _ (by decide) (by decide)]; exact h.freshTables
  · rw [hw.tableCells, hw.next _ (by decide) (by decide)]; exact h.freshCells
  · rw [hw.tables, e2]; exact h.onlyTables
  · rw [hw.tableCells, e4]; exact h.onlyCells

theorem Built.tableMade (h : Built s d f items) {t : STable} (hm : TableMade s s' d f t) (_hF0 : 0 < s.next "frame")
    (hdf : d'.frames = d.frames ++ t.cells.map SCell.frame ++ [t.anchor]) (hdt : d'.tables = d.tables ++ [t.table.id]) :
    Built s' d' f (items ++ [.table t]) := by
  have e1 : topParas (items ++ [.table t]) = topParas items := by simp [topParas]
  have e2 : tablesOf (items ++ [.table t]) = tablesOf items ++ [t] := by simp [tablesOf]
  have e3 : tableFrames (items ++ [.table t]) = tableFrames items ++ (t.anchor :: t.cells.map SCell.frame) := by
    unfold tableFrames; rw [e2]; simp
  have e4 : cellsOf (items ++ [.table t]) = cellsOf items ++ t.cells := by unfold cellsOf; rw [e2]; simp
  obtain ⟨i1, i2, i3, i4⟩ := hm.ids
  have hnewF : ∀ i ∈ t.anchor :: t.cells.map SCell.frame, s.next "frame" ≤ i ∧ i < s.next "frame" + t.cells.length + 1 := by
    intro i hi
    rcases List.mem_cons.mp hi with e | hi
    · rw [e, i2]; omega
    · rw [i3, List.mem_range'_1] at hi; omega
  have hnewC : ∀ i ∈ t.cells.map (fun c => c.cell.id), s.next "table_cell" ≤ i ∧ i < s.next "table_cell" + t.cells.length := by
    intro i hi
    rw [i4, List.mem_range'_1] at hi; exact hi
  have hold : ∀ i, i < s.next "frame" → s'.frames i = s.frames i := by
    intro i hi
    refine hm.oldFrames i ?_ ?_
    · intro hx; have := (hnewF i (List.mem_cons_of_mem _ hx)).1; omega
    · intro e; have := (hnewF t.anchor (by simp)).1; omega
  have holdC : ∀ i, i < s.next "table_cell" → s'.tableCells i = s.tableCells i := by
    intro i hi
    refine hm.oldCells i ?_
    intro hx; have := (hnewC i hx).1; omega
  have hlt : ∀ g ∈ f :: tableFrames items, g < s.next "frame" := by
    intro g hg
    rcases List.mem_cons.mp hg with e | hg
    · obtain ⟨fr, f1, _⟩ := h.frame
      rw [e]; exact (h.freshFrames f (by rw [f1]; rfl)).2
    · unfold tableFrames at hg
      obtain ⟨u, hu, hg⟩ := List.mem_flatMap.mp hg
      have hs := h.table u hu
      rcases List.mem_cons.mp hg with e | hg
      · obtain ⟨fr, f1, _⟩ := hs.anchor
        rw [e]; exact (h.freshFrames _ (by rw [f1]; rfl)).2
      · obtain ⟨c, hc, rfl⟩ := List.mem_map.mp hg
        obtain ⟨_, _, _, fr, f1, _⟩ := hs.cell c hc
        exact (h.freshFrames _ (by rw [f1]; rfl)).2
  have hltC : ∀ c ∈ (cellsOf items).map (fun c => c.cell.id), c < s.next "table_cell" := by
    intro c hc
    obtain ⟨q, hq, rfl⟩ := List.mem_map.mp hc
    unfold cellsOf at hq
    obtain ⟨u, hu, hq⟩ := List.mem_flatMap.mp hq
    exact h.freshCells _ (by rw [((h.table u hu).cell q hq).1]; rfl)
  have hfs : ∀ g, (s'.frames g).isSome → (s.frames g).isSome ∨ g ∈ t.anchor :: t.cells.map SCell.frame := by
    intro g hg
    by_cases hx : g ∈ t.anchor :: t.cells.map SCell.frame
    · exact .inr hx
    · simp only [List.mem_cons, not_or] at hx
      rw [hm.oldFrames g hx.2 hx.1] at hg
      exact .inl hg
  have hcs : ∀ g, (s'.tableCells g).isSome → (s.tableCells g).isSome ∨ g ∈ t.cells.map fun c => c.cell.id := by
    intro g hg
    by_cases hx : g ∈ t.cells.map fun c => c.cell.id
    · exact .inr hx
    · rw [hm.oldCells g hx] at hg
      exact .inl hg
  have hfl := hlt f (by simp)
  obtain ⟨fr, f1, f2, f3, f4, f5, f6⟩ := h.frame
  refine ⟨⟨fr, by rw [hold f hfl]; exact f1, f2, f3, f4, f5, by rw [e1]; exact f6⟩, ?_, ?_, ?_, ?_, ?_, ?_, ?_, ?_, ?_, ?_⟩
  · rw [e2]
    intro u hu
    rcases List.mem_append.mp hu with hu | hu
    · have hsh := h.table u hu
      have hmem := mem_tableFrames hu
      refine hsh.same ?_ (hold _ (hlt _ (List.mem_cons_of_mem _ hmem.1))) (fun c hc => hold _ (hlt _ (List.mem_cons_of_mem _ (hmem.2 c hc)))) ?_
      · rw [hm.tables, if_neg]
        intro e
        have := h.freshTables u.table.id (by rw [hsh.table]; rfl)
        omega
      · intro c hc
        exact holdC _ (hltC _ (List.mem_map.mpr ⟨c, List.mem_flatMap.mpr ⟨u, hu, hc⟩, rfl⟩))
    · simp only [List.mem_singleton] at hu
      subst hu
      refine ⟨by rw [hm.tables, if_pos rfl], by rw [hm.cellIds], hm.order, ⟨_, hm.anchor, rfl, rfl, rfl, rfl, rfl⟩, ?_⟩
      intro c hc
      obtain ⟨k1, k2, ⟨p, k3⟩, par, hpar, k4⟩ := hm.cell c hc
      refine ⟨k1, k2, by simp [k3], _, k4, rfl, rfl, hpar, rfl, List.Perm.refl _⟩
  · obtain ⟨rest, r1, r2⟩ := h.frames
    refine ⟨rest ++ (t.cells.map SCell.frame ++ [t.anchor]), by rw [hdf, r1]; simp, ?_⟩
    rw [e3]
    refine r2.append ?_
    exact List.perm_append_comm
  · rw [e3, e4]
    refine ⟨?_, ?_⟩
    · rw [← List.cons_append, List.nodup_append]
      refine ⟨h.distinct.1, ?_, ?_⟩
      · rw [List.nodup_cons]
        refine ⟨?_, by rw [i3]; exact List.nodup_range'⟩
        rw [i3, i2, List.mem_range'_1]; omega
      · intro a ha b hb e
        have h1 := hlt a ha
        have h2 := (hnewF b hb).1
        omega
    · rw [List.map_append, List.nodup_append]
      refine ⟨h.distinct.2, by rw [i4]; exact List.nodup_range', ?_⟩
      intro a ha b hb e
      have h1 := hltC a ha
      have h2 := (hnewC b hb).1
      omega
  · rw [e3]
    intro g hg
    rcases hfs g hg with hg | hg
    · rw [← List.cons_append]; exact List.mem_append_left _ (h.onlyFrames g hg)
    · rw [← List.cons_append]; exact List.mem_append_right _ hg
  · rw [hdt, e2, List.map_append]
    exact h.tables.append_right _
  · intro g hg
    rw [hm.nextFrame]
    rcases hfs g hg with hg | hg
    · have := h.freshFrames g hg; omega
    · have := hnewF g hg; omega
  · intro i hi
    rw [hm.tables] at hi
    rw [hm.nextTable]
    split at hi
    · omega
    · have := h.freshTables i hi; omega
  · intro i hi
    rw [hm.nextCell]
    rcases hcs i hi with hi | hi
    · have := h.freshCells i hi; omega
    · exact (hnewC i hi).2
  · intro i hi
    rw [hm.tables] at hi
    rw [e2, List.map_append]
    split at hi
    · rename_i e; rw [e]; simp
    · exact List.mem_append_left _ (h.onlyTables i hi)
  · intro i hi
    rw [e4, List.map_append]
    rcases hcs i hi with hi | hi
    · exact List.mem_append_left _ (h.onlyCells i hi)
    · exact List.mem_append_right _ hi

/-- Every list item belongs to a list of its style and indent. -/
def ItemsFit (s : Store) (es : List ParsedElement) (lists : List (Option Nat)) : Prop :=
  ∀ b l, (ParsedElement.block b, l) ∈ es.zip lists → ∀ st, b.listStyle = some st →
    ∃ i, l = some i ∧ s.lists i = some { id := i, style := st, indent := (b.listIndent : Int) }

theorem importLoop_spec (html : Bool) (es : List ParsedElement) :
    ∀ {s : Store} {d : Document} {L : List Para} {ps : List SPara} {ts : List Nat} {x : ImportSt} {past : Imported},
    Mid s d L ps ts x past → (∀ rows, ParsedElement.table rows ∈ es → Rectangular rows) → (L = [] → OpensWell es) →
    (L.map Prod.snd = [[]] → startsTable es = false) → (es ≠ [] → x.position = charsBefore (paras ps)) →
    ∃ x' s' d' items past', importLoop html d.id x es s = some (x', s') ∧ SameDoc d d' ∧ s'.roots = s.roots ∧ ListsGrow s s' ∧
      items.map SItem.face = facesOf html es (listsOf past x.depth (s.next "list") es) ∧
      ItemsFit s' es (listsOf past x.depth (s.next "list") es) ∧
      Mid s' d' (L ++ flowText items) (ps ++ flowParas items) (ts ++ (tablesOf items).map fun t => t.table.id) x' past' ∧
      (∀ f its, (∀ b, ParsedElement.block b ∈ es → b.quoteDepth = 0) → x.stack = [(f, its.map SItem.entry)] → 0 < s.next "frame" →
        Built s d f its → Built s' d' f (its ++ items) ∧ x'.stack = [(f, (its ++ items).map SItem.entry)]) := by
  induction es with
  | nil =>
    intro s d L ps ts x past h _ _ _ _
    refine ⟨x, s, d, [], past, rfl, rfl, rfl, fun _ _ h => h, rfl, ?_, ?_, ?_⟩
    · intro b l hm; simp [listsOf] at hm
    · simpa [flowText, flowParas, tablesOf] using h
    · intro f its _ hx _ hB; simpa [hx] using hB
  | cons e es ih =>
    intro s d L ps ts x past h hrect hL1 hL2 hpos0
    have hpos := hpos0 (by simp)
    have hrect' : ∀ rows, ParsedElement.table rows ∈ es → Rectangular rows := fun rows hm => hrect rows (List.mem_cons_of_mem _ hm)
    cases e with
    | block b =>
      generalize hc : listChoice (pastQuote past x.depth b) (s.next "list") b = c
      obtain ⟨x1, s1, d1, i, e1, k1, k2, k3, k4, k5, k6, k7, k8⟩ := importBlock_spec h hpos html es.isEmpty b hc
      have hLne : L ++ paras [paraOf html i b c] ≠ [] := by simp [paras]
      obtain ⟨x2, s2, d2, items, past2, e2, q1, q2, q3, q4, q5, q6, q7⟩ := ih k3 hrect' (fun e => absurd e hLne)
        (by
          intro e
          have hnil : L = [] := by
            cases L with
            | nil => rfl
            | cons a L => have := congrArg List.length e; simp [paras] at this
          subst hnil
          refine hL1 rfl ?_
          rw [← spansChars_text b.isCodeBlock]
          simpa [paras, SPara.text, paraOf] using e)
        (by
          intro hne
          refine k6 ?_
          cases es with
          | nil => exact absurd rfl hne
          | cons => rfl)
      have hlists : listsOf past x.depth (s.next "list") (.block b :: es) =
          c :: listsOf (pastAfter (pastQuote past x.depth b) b c) x1.depth (s1.next "list") es := by
        rw [listsOf, k4, k5]
        simp only [hc]
      refine ⟨x2, s2, d2, .para (paraOf html i b c) :: items, past2, ?_, k1.trans q1, q2.trans k2, ?_, ?_, ?_, ?_, ?_⟩
      · rw [importLoop, importElement, e1, Option.bind_some]
        dsimp only
        rw [← k1.id]; exact e2
      · intro l e he; exact q3 l e (k7 l e he)
      · rw [hlists, List.map_cons, q4]
        unfold facesOf
        rw [List.zip_cons_cons, List.flatMap_cons]
        rfl
      · rw [hlists]
        intro b' l hm st hst
        rw [List.zip_cons_cons] at hm
        rcases List.mem_cons.mp hm with e | hm
        · simp only [Prod.mk.injEq, ParsedElement.block.injEq] at e
          obtain ⟨rfl, rfl⟩ := e
          have hp := k3.past
          unfold listChoice at hc
          rw [hst] at hc
          simp only [Option.map_some] at hc
          subst hc
          refine ⟨_, rfl, q3 _ _ (hp b'.listIndent _ st ?_)⟩
          unfold pastAfter
          rw [hst]
          simp
        · exact q5 b' l hm st hst
      · have e3 : flowText (.para (paraOf html i b c) :: items) = paras [paraOf html i b c] ++ flowText items := rfl
        have e4 : flowParas (.para (paraOf html i b c) :: items) = paraOf html i b c :: flowParas items := rfl
        have e5 : tablesOf (.para (paraOf html i b c) :: items) = tablesOf items := rfl
        rw [e3, e4, e5, ← List.append_assoc]
        rw [show ps ++ paraOf html i b c :: flowParas items = ps ++ [paraOf html i b c] ++ flowParas items by simp]
        exact q6
      · intro f its hq hx h0 hB
        obtain ⟨m1, m2, m3, m4⟩ := k8 f _ hx (hq b (by simp))
        have hB1 := hB.para (d' := d1) (p := paraOf html i b c) m2 m1 (by rw [m3]) (by rw [m3])
        have := q7 f (its ++ [.para (paraOf html i b c)]) (fun b' hb' => hq b' (List.mem_cons_of_mem _ hb'))
          (by rw [m4, List.map_append]; simp [SItem.entry, paraOf, m1])
          (by rw [m2.next _ (by decide) (by decide)]; exact h0) hB1
        simpa using this
    | table rows =>
      cases hcl : hasCells rows with
      | true =>
        have hLn : L.map Prod.snd ≠ [[]] := by
          intro e
          have := hL2 e
          simp [startsTable, hcl] at this
        have hstk : ∃ f order rest, x.stack = (f, order) :: rest := by
          have := h.depth
          cases hx : x.stack with
          | nil => rw [hx] at this; simp at this
          | cons q r => exact ⟨q.1, q.2, r, rfl⟩
        obtain ⟨f, order, rest, hx⟩ := hstk
        obtain ⟨x1, s1, d1, t, e1, k1, k2, k3, k4, k5, k6, k7⟩ := importTable_spec h hLn hx hpos html es.isEmpty hcl (hrect rows (by simp))
        have hsd : SameDoc d d1 := by rw [k1]; rfl
        have hft : flowText [.table t] = (.table t.table.id, [objChar]) :: paras (t.cells.flatMap SCell.paras) := by simp [flowText]
        obtain ⟨x2, s2, d2, items, past2, e2, q1, q2, q3, q4, q5, q6, q7⟩ := ih k2 hrect' (fun e => by rw [hft] at e; simp at e)
          (by
            intro e
            exfalso
            rw [hft] at e
            cases L with
            | nil => simp at e
            | cons a L => have := congrArg List.length e; simp at this)
          (by
            intro hne
            refine k6 ?_
            cases es with
            | nil => exact absurd rfl hne
            | cons => rfl)
        have hlists : listsOf past x.depth (s.next "list") (.table rows :: es) =
            none :: listsOf (none :: past) x1.depth (s1.next "list") es := by
          rw [listsOf, k5, k3.nextList]
        refine ⟨x2, s2, d2, .table t :: items, past2, ?_, hsd.trans q1, q2.trans k3.roots, ?_, ?_, ?_, ?_, ?_⟩
        · rw [importLoop, importElement, e1, Option.bind_some]
          dsimp only
          rw [← hsd.id]; exact e2
        · intro l e he; exact q3 l e (by rw [k3.lists]; exact he)
        · rw [hlists, List.map_cons, q4]
          unfold facesOf
          rw [List.zip_cons_cons, List.flatMap_cons]
          simp only
          rw [← k7]; rfl
        · rw [hlists]
          intro b' l hm st hst
          rw [List.zip_cons_cons] at hm
          rcases List.mem_cons.mp hm with e | hm
          · cases e
          · exact q5 b' l hm st hst
        · have e3 : flowText (.table t :: items) = flowText [.table t] ++ flowText items := by simp [flowText]
          have e4 : flowParas (.table t :: items) = flowParas [.table t] ++ flowParas items := by simp [flowParas]
          have e5 : tablesOf (.table t :: items) = t :: tablesOf items := rfl
          rw [e3, e4, e5, ← List.append_assoc, ← List.append_assoc, List.map_cons,
            show ∀ (a : Nat) (l : List Nat), ts ++ a :: l = ts ++ [a] ++ l by simp]
          exact q6
        · intro f' its hq hx' h0 hB
          rw [hx] at hx'
          cases hx'
          have hB1 := hB.tableMade (d' := d1) k3 h0 (by rw [k1]) (by rw [k1])
          have := q7 f (its ++ [.table t]) (fun b' hb' => hq b' (List.mem_cons_of_mem _ hb'))
            (by rw [k4, List.map_append]; simp [SItem.entry])
            (by rw [k3.nextFrame]; omega) hB1
          simpa using this
      | false =>
        obtain ⟨e1, h1⟩ := importTable_empty h html es.isEmpty hcl
        obtain ⟨x2, s2, d2, items, past2, e2, q1, q2, q3, q4, q5, q6, q7⟩ := ih h1 hrect'
          (by intro e; have := hL1 e; simpa [OpensWell, hcl] using this)
          (by intro e; have := hL2 e; simpa [startsTable, hcl] using this) (fun _ => hpos)
        have hlists : listsOf past x.depth (s.next "list") (.table rows :: es) =
            none :: listsOf (none :: past) x.depth (s.next "list") es := rfl
        refine ⟨x2, s2, d2, items, past2, ?_, q1, q2, q3, ?_, ?_, q6, ?_⟩
        · rw [importLoop, importElement, e1, Option.bind_some]
          exact e2
        · rw [hlists, q4]
          unfold facesOf
          rw [List.zip_cons_cons, List.flatMap_cons]
          simp [faceOf, hcl]
        · rw [hlists]
          intro b' l hm st hst
          rw [List.zip_cons_cons] at hm
          rcases List.mem_cons.mp hm with e | hm
          · cases e
          · exact q5 b' l hm st hst
        · intro f its hq hx h0 hB
          exact q7 f its (fun b' hb' => hq b' (List.mem_cons_of_mem _ hb')) hx h0 hB

end Verif
