import Verif.Lemmas.TableEditRemove
import Verif.Lemmas.TableEditGrow
/- Removing a table from a document. -/
namespace Verif
variable {s s' : Store} {d d' : Document} {f : Nat} {items A B : List SItem} {t t' : STable}
open Store

theorem rewriteDocTables_idle {id : Nat} (os : List (Nat × List Nat)) : ∀ s : Store,
    (∀ o ∈ os, ∃ x, s.documents o.1 = some x ∧ x.tables = o.2.filter (fun b => b ≠ id) ∧ ∀ b ∈ x.tables, (s.tables b).isSome) →
    ∃ m : IdMap Document, Store.rewriteDocTables id os s = some { s with documents := m } ∧ ∀ i, m i = s.documents i := by
  induction os with
  | nil => intro s _; exact ⟨s.documents, rfl, fun _ => rfl⟩
  | cons o os ih =>
    intro s h
    obtain ⟨o, l⟩ := o
    obtain ⟨x, h1, h2, h3⟩ := h _ (List.mem_cons_self ..)
    simp only at h1 h2
    have hset : s.setDocTables o (l.filter fun b => b ≠ id) =
        some { s with documents := s.documents.insert o { x with tables := l.filter fun b => b ≠ id } } := by
      unfold Store.setDocTables
      rw [← h2, if_pos (by rw [List.all_eq_true]; exact h3), h1]
    have hx : ({ x with tables := l.filter fun b => b ≠ id } : Document) = x := by rw [← h2]
    rw [hx] at hset
    have hget : ∀ i, (s.documents.insert o x) i = s.documents i := by
      intro i
      rw [IdMap.insert_get]
      split
      · rename_i e; rw [e, h1]
      · rfl
    obtain ⟨m, e, hm⟩ := ih { s with documents := s.documents.insert o x } (by
      intro p hp
      obtain ⟨y, k1, k2, k3⟩ := h p (List.mem_cons_of_mem _ hp)
      exact ⟨y, (hget p.1).trans k1, k2, k3⟩)
    refine ⟨m, ?_, fun i => (hm i).trans (hget i)⟩
    simp only [Store.rewriteDocTables, hset, Option.bind_some]
    exact e

/-- The record of a table goes, with those of its cells. -/
theorem removeTableEntity_get {id : Nat} {x : Table} (hx : s.tables id = some x)
    (hc : ∀ i x, s.tables i = some x → ∀ c ∈ x.cells, (s.tableCells c).isSome)
    (hd : ∀ i x, s.documents i = some x → ∀ j ∈ x.tables, (s.tables j).isSome) :
    ∃ s', s.removeTableEntity id = some s' ∧
      s' = { s with tableCells := s'.tableCells, tables := s'.tables, documents := s'.documents, frames := s'.frames } ∧
      (∀ i, s'.tableCells i = if i ∈ x.cells then none else s.tableCells i) ∧
      (∀ i, s'.tables i = if i = id then none else (s.tables i).map fun t => { t with cells := t.cells.filter fun c => !x.cells.contains c }) ∧
      (∀ i, s'.documents i = (s.documents i).map fun d => { d with tables := d.tables.filter fun j => j ≠ id }) ∧
      (∀ i, s'.frames i = (s.frames i).map fun f => if f.table = some id then { f with table := none } else f) := by
  obtain ⟨s1, e1, o1, c1, t1⟩ : ∃ s', s.removeCells x.cells = some s' ∧ s' = { s with tableCells := s'.tableCells, tables := s'.tables } ∧
      (∀ i, s'.tableCells i = if i ∈ x.cells then none else s.tableCells i) ∧
      (∀ i, s'.tables i = (s.tables i).map fun t => { t with cells := t.cells.filter fun c => !x.cells.contains c }) := by
    by_cases hn : x.cells = []
    · refine ⟨s, by rw [hn]; rfl, rfl, by simp [hn], ?_⟩
      intro i
      cases hi : s.tables i with
      | none => rfl
      | some y => rw [Option.map_some, List.filter_eq_self.mpr (by simp [hn])]
    · obtain ⟨c, hcm⟩ := List.exists_mem_of_ne_nil _ hn
      exact removeCells_get ⟨c, hcm, hc id x hx c hcm⟩ hc
  have hdoc1 : s1.documents = s.documents := by rw [o1]
  have hfr1 : s1.frames = s.frames := by rw [o1]
  have hdocs : ∀ i, (s1.tableRemoveTable id).documents i = (s.documents i).map fun d => { d with tables := d.tables.filter fun j => j ≠ id } := by
    intro i
    show (s1.documents.mapValues _) i = _
    rw [IdMap.mapValues_get, hdoc1]
  have htabs : ∀ i, (s1.tableRemoveTable id).tables i =
      if i = id then none else (s.tables i).map fun t => { t with cells := t.cells.filter fun c => !x.cells.contains c } := by
    intro i
    show (s1.tables.erase id) i = _
    rw [IdMap.erase_get, t1]
  obtain ⟨m, e2, hm⟩ := rewriteDocTables_idle (id := id)
    ((s1.documents.keys.filter fun d => (s1.docTables d).contains id).map fun d => (d, s1.docTables d)) (s1.tableRemoveTable id) (by
      intro o ho
      obtain ⟨i, hi, rfl⟩ := List.mem_map.mp ho
      have hk := (List.mem_filter.mp hi).1
      rw [IdMap.mem, hdoc1] at hk
      obtain ⟨y, hy⟩ := Option.isSome_iff_exists.mp hk
      refine ⟨{ y with tables := y.tables.filter fun j => j ≠ id }, by rw [hdocs, hy]; rfl, ?_, ?_⟩
      · have : s1.docTables i = y.tables := by simp only [Store.docTables, hdoc1, hy]; rfl
        rw [this]
      · intro j hj
        obtain ⟨h1, h2⟩ := List.mem_filter.mp hj
        rw [htabs, if_neg (by simpa using h2)]
        have := hd i y hy j h1
        cases e : s.tables j with
        | none => rw [e] at this; cases this
        | some _ => rfl)
  refine ⟨{ s1.tableRemoveTable id with documents := m }, ?_, ?_, ?_, ?_, ?_, ?_⟩
  · simp only [Store.removeTableEntity, hx, e1, Option.bind_some]
    exact e2
  · show _ = _
    unfold Store.tableRemoveTable
    rw [o1]
  · exact c1
  · exact htabs
  · intro i; show m i = _; rw [hm, hdocs]
  · intro i
    show (s1.frames.mapValues _) i = _
    rw [IdMap.mapValues_get, hfr1]


/-- One table of an arranged document is gone. -/
theorem Arranged.without (h : Arranged s d f (A ++ .table t :: B)) (hroots : s'.roots = s.roots)
    (hdoc : s'.documents d.id = some d') (hdid : d'.id = d.id)
    (hdf : d'.frames = d.frames.filter fun g => !(t.anchor :: t.cells.map SCell.frame).contains g)
    (hdt : d'.tables = d.tables.filter fun j => j ≠ t.table.id)
    (hcontent : ∃ L, Carries s' L (flowParas (A ++ B)) ((tablesOf (A ++ B)).map fun t => t.table.id) ∧
      (paras (topParas (A ++ B))).Sublist L)
    (hf0 : s'.frames f = (s.frames f).map fun fr => { fr with childOrder := fr.childOrder.filter fun e => e ≠ -(t.anchor : Int) })
    (hf1 : ∀ i, i ≠ f → s'.frames i = if i ∈ t.anchor :: t.cells.map SCell.frame then none else s.frames i)
    (htabs : ∀ i, s'.tables i = if i = t.table.id then none else s.tables i)
    (hcells : ∀ i, s'.tableCells i = if i ∈ t.cells.map (fun c => c.cell.id) then none else s.tableCells i)
    (hnext : ∀ key, s'.next key = s.next key) : Arranged s' d' f (A ++ B) := by
  have ht : t ∈ tablesOf (A ++ .table t :: B) := by rw [tables_at]; simp
  have hd := h.distinct
  have hd0 := hd.1
  rw [frames_at] at hd0
  rw [frames_at, cells_at, List.map_append, List.map_append, List.nodup_cons, List.nodup_append, List.nodup_cons, List.nodup_append,
    List.nodup_append, List.nodup_append] at hd
  simp only [List.mem_append, List.mem_cons, not_or] at hd
  have hfsub : (tableFrames (A ++ B)).Sublist (tableFrames (A ++ .table t :: B)) := by
    rw [frames_at, tableFrames_append]
    exact (List.Sublist.refl _).append (((List.sublist_append_right _ _)).trans (List.sublist_cons_self ..))
  have hfa : f ∉ t.anchor :: t.cells.map SCell.frame := by
    simp only [List.mem_cons, not_or]; exact ⟨hd.1.1.2.1, hd.1.1.2.2.1⟩
  have hfs : ∀ g ∈ tableFrames (A ++ B), g ≠ f ∧ g ∉ t.anchor :: t.cells.map SCell.frame := by
    intro g hg
    rw [tableFrames_append, List.mem_append] at hg
    simp only [List.mem_cons, not_or]
    rcases hg with hg | hg
    · refine ⟨fun e => hd.1.1.1 (e ▸ hg), fun e => hd.1.2.2.2 g hg _ (.inl rfl) e, fun e => hd.1.2.2.2 g hg _ (.inr (.inl e)) rfl⟩
    · refine ⟨fun e => hd.1.1.2.2.2 (e ▸ hg), fun e => hd.1.2.2.1.1.2 (e ▸ hg), fun e => hd.1.2.2.1.2.2.2 _ e g hg rfl⟩
  have hsubt : ∀ u ∈ tablesOf (A ++ B), u ∈ tablesOf (A ++ .table t :: B) := by
    intro u hu
    rw [tablesOf_append, List.mem_append] at hu
    rw [tables_at, List.mem_append, List.mem_cons]
    rcases hu with hu | hu
    · exact .inl hu
    · exact .inr (.inr hu)
  obtain ⟨L0, hL0, _⟩ := h.content
  have htn := hL0.tables_nodup
  rw [tables_at, List.map_append, List.map_cons, List.nodup_append, List.nodup_cons] at htn
  simp only [List.mem_cons] at htn
  have htid : ∀ u ∈ tablesOf (A ++ B), u.table.id ≠ t.table.id := by
    intro u hu e
    rw [tablesOf_append, List.mem_append] at hu
    rcases hu with hu | hu
    · exact htn.2.2 _ (List.mem_map_of_mem (f := fun t : STable => t.table.id) hu) _ (.inl rfl) e
    · exact htn.2.1.1 (e ▸ List.mem_map_of_mem (f := fun t : STable => t.table.id) hu)
  have hcid : ∀ c ∈ cellsOf (A ++ B), c.cell.id ∉ t.cells.map fun c => c.cell.id := by
    intro c hc hm
    rw [cellsOf_append, List.mem_append] at hc
    rcases hc with hc | hc
    · exact hd.2.2.2 _ (List.mem_map_of_mem (f := fun c : SCell => c.cell.id) hc) _ (.inl hm) rfl
    · exact hd.2.2.1.2.2 _ hm _ (List.mem_map_of_mem (f := fun c : SCell => c.cell.id) hc) rfl
  have hold : ∀ g, (s'.frames g).isSome → (s.frames g).isSome ∧ g ∉ t.anchor :: t.cells.map SCell.frame := by
    intro g hg
    by_cases e : g = f
    · subst e
      rw [hf0, Option.isSome_map] at hg
      exact ⟨hg, hfa⟩
    · rw [hf1 g e] at hg
      split at hg
      · cases hg
      · rename_i hn; exact ⟨hg, hn⟩
  refine ⟨?_, by rw [hdid]; exact hdoc, hcontent, ?_, ?_, ?_, ?_, ?_, ?_, ?_, ?_, ?_, ?_, ?_, ?_, ?_⟩
  · obtain ⟨r, r', k1, k2, k3, k4⟩ := h.root
    exact ⟨r, r', by rw [hroots]; exact k1, by rw [hroots]; exact k2, by rw [hdid]; exact k3, by rw [hdid]; exact k4⟩
  · obtain ⟨fr, k1, k2, k3, k4, k5, k6, k7⟩ := h.frame
    rw [k1, Option.map_some] at hf0
    refine ⟨_, hf0, k2, k3, k4, k5, ?_, ?_⟩
    · show fr.childOrder.filter _ = _
      rw [k6, List.map_append, List.map_cons, List.filter_append, List.filter_cons_of_neg (by simp [SItem.entry]), List.map_append]
      have h0 : 0 < t.anchor := by
        obtain ⟨x, q, _⟩ := (h.table t ht).anchor
        exact (h.freshFrames _ (by rw [q]; rfl)).1
      have : ∀ l : List SItem, (∀ u ∈ tablesOf l, u ∈ tablesOf (A ++ B)) →
          (l.map SItem.entry).filter (fun e => e ≠ -(t.anchor : Int)) = l.map SItem.entry := by
        intro l hl
        rw [List.filter_eq_self]
        intro e he
        obtain ⟨i, hi, rfl⟩ := List.mem_map.mp he
        cases i with
        | para p =>
          have : (p.id : Int) ≠ -(t.anchor : Int) := by omega
          simp [SItem.entry, this]
        | table u =>
          have hu := hl u (by unfold tablesOf; exact List.mem_flatMap.mpr ⟨_, hi, by simp⟩)
          have hu2 := (hfs u.anchor (mem_tableFrames_iff.mpr ⟨u, hu, .inl rfl⟩)).2
          simp only [List.mem_cons, not_or] at hu2
          have : -(u.anchor : Int) ≠ -(t.anchor : Int) := by have := hu2.1; omega
          simpa [SItem.entry] using this
      rw [this A fun u hu => by rw [tablesOf_append]; simp [hu], this B fun u hu => by rw [tablesOf_append]; simp [hu]]
    · rw [top_at] at k7; rw [topParas_append]; exact k7
  · intro u hu
    have hU := h.table u (hsubt u hu)
    refine ⟨?_, hU.cells, hU.order, ?_, ?_⟩
    · rw [htabs, if_neg (htid u hu)]; exact hU.table
    · obtain ⟨h1, h2⟩ := hfs u.anchor (mem_tableFrames_iff.mpr ⟨u, hu, .inl rfl⟩)
      rw [hf1 _ h1, if_neg h2]; exact hU.anchor
    · intro c hc
      obtain ⟨h1, h2⟩ := hfs c.frame (mem_tableFrames_iff.mpr ⟨u, hu, .inr (List.mem_map_of_mem hc)⟩)
      rw [hcells, if_neg (hcid c (mem_cellsOf.mpr ⟨u, hu, hc⟩)), hf1 _ h1, if_neg h2]; exact hU.cell c hc
  · obtain ⟨rest, q1, q2⟩ := h.frames
    refine ⟨rest.filter fun g => !(t.anchor :: t.cells.map SCell.frame).contains g, ?_, ?_⟩
    · rw [hdf, q1, List.filter_cons_of_pos (by simpa using hfa)]
    · refine (q2.filter _).trans (.of_eq ?_)
      rw [frames_at, tableFrames_append, List.filter_append, ← List.cons_append, List.filter_append]
      have hnil : (t.anchor :: t.cells.map SCell.frame).filter (fun g => !(t.anchor :: t.cells.map SCell.frame).contains g) = [] := by
        rw [List.filter_eq_nil_iff]
        intro a ha
        rw [List.contains_iff_mem.mpr ha]; decide
      rw [hnil, List.nil_append]
      congr 1
      · rw [List.filter_eq_self]
        intro g hg
        have := (hfs g (by rw [tableFrames_append]; exact List.mem_append_left _ hg)).2
        rw [Bool.not_eq_true', ← Bool.not_eq_true, List.contains_iff_mem]; exact this
      · rw [List.filter_eq_self]
        intro g hg
        have := (hfs g (by rw [tableFrames_append]; exact List.mem_append_right _ hg)).2
        rw [Bool.not_eq_true', ← Bool.not_eq_true, List.contains_iff_mem]; exact this
  · refine ⟨h.distinct.1.sublist (hfsub.cons_cons f), h.distinct.2.sublist (List.Sublist.map _ ?_)⟩
    rw [cells_at, cellsOf_append]
    exact (List.Sublist.refl _).append (List.sublist_append_right _ _)
  · intro g hg
    obtain ⟨h1, h2⟩ := hold g hg
    rcases List.mem_cons.mp (h.onlyFrames g h1) with rfl | hm
    · simp
    · refine List.mem_cons_of_mem _ ?_
      rw [frames_at, ← List.cons_append, List.mem_append, List.mem_append] at hm
      rw [tableFrames_append, List.mem_append]
      rcases hm with hm | hm | hm
      · exact .inl hm
      · exact absurd hm h2
      · exact .inr hm
  · rw [hdt]
    refine (h.tables.filter _).trans (.of_eq ?_)
    rw [tables_at, tablesOf_append, List.map_append, List.map_cons, List.filter_append, List.filter_cons_of_neg (by simp), List.map_append]
    congr 1
    · rw [List.filter_eq_self]
      intro i hi
      obtain ⟨u, hu, rfl⟩ := List.mem_map.mp hi
      simpa using htid u (by rw [tablesOf_append]; simp [hu])
    · rw [List.filter_eq_self]
      intro i hi
      obtain ⟨u, hu, rfl⟩ := List.mem_map.mp hi
      simpa using htid u (by rw [tablesOf_append]; simp [hu])
  · intro g hg
    rw [hnext]; exact h.freshFrames g (hold g hg).1
  · intro i hi
    rw [hnext]
    rw [htabs] at hi
    split at hi
    · cases hi
    · exact h.freshTables i hi
  · intro i hi
    rw [hnext]
    rw [hcells] at hi
    split at hi
    · cases hi
    · exact h.freshCells i hi
  · intro i hi
    rw [htabs] at hi
    split at hi
    · cases hi
    · rename_i hn
      have := h.onlyTables i hi
      rw [tables_at, List.map_append, List.map_cons, List.mem_append, List.mem_cons] at this
      rw [tablesOf_append, List.map_append, List.mem_append]
      rcases this with e | e | e
      · exact .inl e
      · exact absurd e hn
      · exact .inr e
  · intro i hi
    rw [hcells] at hi
    split at hi
    · cases hi
    · rename_i hn
      have := h.onlyCells i hi
      rw [cells_at, List.map_append, List.map_append, List.mem_append, List.mem_append] at this
      rw [cellsOf_append, List.map_append, List.mem_append]
      rcases this with e | e | e
      · exact .inl e
      · exact absurd e hn
      · exact .inr e
  · intro p hp
    apply h.positive p
    rw [flow_at]
    rw [flowParas_append, List.mem_append] at hp
    simp only [List.mem_append]
    rcases hp with hp | hp
    · exact .inl hp
    · exact .inr (.inr hp)
  · have := h.nonempty
    rw [top_at] at this; rw [topParas_append]; exact this


/-- The entry of the text is not one of the paragraphs `ids`. -/
def stays (ids : List Nat) (p : Para) : Bool := match p.1 with | .block i => !ids.contains i | .table _ => true

theorem stays_block {ids : List Nat} {i : Nat} {c : List Char} : stays ids (.block i, c) = true ↔ i ∉ ids := by
  simp [stays]

/-- What becomes of the text when the paragraphs `ids` and the mark of the table `tid` leave it. -/
theorem text_without {st : RopeSt} {L : List Para} {ids : List Nat} {tid : Nat} (hr : Repr st L) (hn : ids.Nodup)
    (hids : ∀ i ∈ ids, Marker.block i ∈ L.map Prod.fst) (ht : (Marker.table tid, [objChar]) ∈ L)
    (hok : (∃ X Y m, st.idx.entries.map Prod.fst = X ++ .table tid :: Y ∧ m ∈ Y ∧ ∀ i ∈ ids, m ≠ .block i) ∨
      ((∀ p ∈ L, p.2 = [] → ∃ i ∈ ids, p.1 = .block i) ∧ ∃ i, Marker.block i ∈ L.map Prod.fst ∧ i ∉ ids)) :
    ∃ r r', Store.ropeRemoveBlocks ids st = some r ∧ ropeRemoveTableAnchor r tid = some r' ∧
      Repr r' ((L.filter (stays ids)).filter fun p => p.1 ≠ .table tid) := by
  obtain ⟨r, e, h⟩ := ropeRemoveBlocks_repr ids st L hr hn hr.nodup hids
  have h : Repr r (L.filter (stays ids)) := h
  have hnd := h.nodup
  obtain ⟨X, Y, eL⟩ := List.append_of_mem ht
  have eF : (L.filter (stays ids)) =
      (X.filter (stays ids)) ++ (.table tid, [objChar]) ::
      (Y.filter (stays ids)) := by
    rw [eL, List.filter_append, List.filter_cons_of_pos rfl]
  have hmarks : st.idx.entries.map Prod.fst = L.map Prod.fst := by rw [hr.starts, layout_keys]
  have hLn := hr.nodup
  rw [eL, List.map_append, List.map_cons, List.nodup_append, List.nodup_cons] at hLn
  rw [eF] at h hnd
  rw [List.map_append, List.map_cons, List.nodup_append, List.nodup_cons] at hnd
  have hout : ((L.filter (stays ids)).filter fun p => p.1 ≠ .table tid) =
      (X.filter (stays ids)) ++
      (Y.filter (stays ids)) := by
    rw [eF, List.filter_append, List.filter_cons_of_neg (by simp)]
    congr 1
    · rw [List.filter_eq_self]
      intro p hp
      have : p.1 ≠ .table tid := hnd.2.2 _ (List.mem_map_of_mem hp) _ (List.mem_cons_self ..)
      simpa using this
    · rw [List.filter_eq_self]
      intro p hp
      have : p.1 ≠ .table tid := fun e => hnd.2.1.1 (List.mem_map.mpr ⟨p, hp, e⟩)
      simpa using this
  rw [hout]
  generalize hX : (X.filter (stays ids)) = X' at *
  generalize hY : (Y.filter (stays ids)) = Y' at *
  cases Y' with
  | cons p R =>
    obtain ⟨r', k1, k2⟩ := removeTable_mid_repr h
    exact ⟨r, r', e, k1, k2⟩
  | nil =>
    rcases hok with ⟨U, V, m, e1, hm, hmi⟩ | ⟨hne, i, hi, hi'⟩
    · exfalso
      rw [hmarks, eL, List.map_append, List.map_cons] at e1
      have hUV : Y.map Prod.fst = V := by
        have hXn : Marker.table tid ∉ X.map Prod.fst := fun hx => hLn.2.2 _ hx _ (List.mem_cons_self ..) rfl
        have hUn : Marker.table tid ∉ U := by
          intro hx
          have h2 := hr.nodup
          rw [eL, List.map_append, List.map_cons, e1, List.nodup_append] at h2
          exact h2.2.2 _ hx _ (List.mem_cons_self ..) rfl
        rw [List.append_eq_append_iff] at e1
        rcases e1 with ⟨w, w1, w2⟩ | ⟨w, w1, w2⟩
        · cases w with
          | nil => simpa using w2
          | cons a w => simp at w2; exact absurd (by rw [w1, ← w2.1]; simp) hUn
        · cases w with
          | nil => simpa using w2.symm
          | cons a w => simp at w2; exact absurd (by rw [w1, ← w2.1]; simp) hXn
      rw [← hUV] at hm
      obtain ⟨p, hp, rfl⟩ := List.mem_map.mp hm
      have : p ∈ ([] : List Para) := by
        rw [← hY]
        refine List.mem_filter.mpr ⟨hp, ?_⟩
        obtain ⟨m, c⟩ := p
        cases m with
        | block i => exact stays_block.mpr fun hx => hmi i hx rfl
        | table i => rfl
      cases this
    · have hXne : X' ≠ [] := by
        intro e0
        obtain ⟨p, hp, ep⟩ := List.mem_map.mp hi
        have : p ∈ L.filter (stays ids) := by
          refine List.mem_filter.mpr ⟨hp, ?_⟩
          obtain ⟨m, c⟩ := p
          simp only at ep
          rw [ep]; exact stays_block.mpr hi'
        rw [eF, e0] at this
        simp at this
        rw [this] at ep; cases ep
      obtain ⟨Z, ⟨m, c⟩, eZ⟩ : ∃ Z q, X' = Z ++ [q] := ⟨X'.dropLast, X'.getLast hXne, (List.dropLast_concat_getLast hXne).symm⟩
      have hc : c ≠ [] := by
        intro ec
        have hmem : (m, c) ∈ L.filter (stays ids) := by
          rw [eF, eZ]; simp
        obtain ⟨h1, h2⟩ := List.mem_filter.mp hmem
        obtain ⟨i, hi, em⟩ := hne _ h1 ec
        simp only at em
        rw [em] at h2
        exact stays_block.mp h2 hi
      obtain ⟨r', k1, k2⟩ := removeTable_last_repr (L := Z) (m := m) (c := c) (by rw [eZ] at h; simpa using h) hc
      exact ⟨r, r', e, k1, by rw [eZ]; simpa using k2⟩


/-- A table leaves the document, up to the stored positions and the number of paragraphs. -/
theorem Arranged.dropTable (h : Arranged s d f (A ++ .table t :: B)) (hdocs : ∀ i, (s.documents i).isSome → i = d.id)
    (hok : (∃ X Y m, s.blockOffsets.entries.map Prod.fst = X ++ .table t.table.id :: Y ∧ m ∈ Y ∧ ∀ p ∈ t.cells.flatMap SCell.paras, m ≠ .block p.id) ∨
      ∀ q ∈ flowParas (A ++ B), q.chars ≠ []) {gs ids : List Nat} (hgsp : gs.Perm (t.cells.map SCell.frame))
    (hids : ids = gs.flatMap s.frameBlocks) :
    ∃ r s1 s2 r' s3 fs ts, Store.ropeRemoveBlocks ids s.text = some r ∧
      Store.removeFrames gs (s.withText r) = some s1 ∧ s1.dropAnchor t.anchor d.frames = some s2 ∧
      ropeRemoveTableAnchor s2.text t.table.id = some r' ∧ (s2.withText r').removeTableEntity t.table.id = some s3 ∧
      Arranged s3 { d with frames := fs, tables := ts } f (A ++ B) ∧
      s3.lists = s.lists ∧ (∀ q ∈ flowParas (A ++ B), s3.blocks q.id = s.blocks q.id) ∧
      (∀ i, (s3.documents i).isSome → (s.documents i).isSome) := by
  have ht : t ∈ tablesOf (A ++ .table t :: B) := by rw [tables_at]; simp
  have hT := h.table t ht
  obtain ⟨L, hL, hsub⟩ := h.content
  have hd := h.distinct
  rw [frames_at, cells_at, List.map_append, List.map_append, List.nodup_cons, List.nodup_append, List.nodup_cons, List.nodup_append,
    List.nodup_append, List.nodup_append] at hd
  simp only [List.mem_append, List.mem_cons, not_or] at hd
  have hnf : (t.cells.map SCell.frame).Nodup := hd.1.2.2.1.2.1
  have hgsn : gs.Nodup := hgsp.nodup_iff.mpr hnf
  have hgst : ∀ g, g ∈ gs ↔ g ∈ t.cells.map SCell.frame := fun g => hgsp.mem_iff
  have hidsp : ids.Perm ((t.cells.flatMap SCell.paras).map SPara.id) := by
    rw [hids]
    refine (hgsp.flatMap_right _).trans ?_
    rw [List.flatMap_map, List.map_flatMap]
    exact flatMap_perm_of fun c hc => h.cellFrameBlocks ht hc
  have hpids := hL.ids_nodup
  rw [flow_at, List.map_append, List.map_append, List.nodup_append, List.nodup_append] at hpids
  simp only [List.mem_append] at hpids
  have hkeep : ∀ q ∈ flowParas (A ++ B), q.id ∉ ids := by
    intro q hq hi
    have hi := hidsp.mem_iff.mp hi
    rw [flowParas_append, List.mem_append] at hq
    rcases hq with hq | hq
    · exact hpids.2.2 _ (List.mem_map_of_mem hq) _ (.inl hi) rfl
    · exact hpids.2.1.2.2 _ hi _ (List.mem_map_of_mem hq) rfl
  have hsubf : ∀ q ∈ flowParas (A ++ B), q ∈ flowParas (A ++ .table t :: B) := by
    intro q hq
    rw [flowParas_append, List.mem_append] at hq
    rw [flow_at]
    simp only [List.mem_append]
    rcases hq with hq | hq
    · exact .inl hq
    · exact .inr (.inr hq)
  have hflow : (flowParas (A ++ .table t :: B)).filter (fun p => !ids.contains p.id) = flowParas (A ++ B) := by
    rw [flow_at, flowParas_append, List.filter_append, List.filter_append]
    have hnil : (t.cells.flatMap SCell.paras).filter (fun p => !ids.contains p.id) = [] := by
      rw [List.filter_eq_nil_iff]
      intro p hp
      have : p.id ∈ ids := hidsp.mem_iff.mpr (List.mem_map_of_mem hp)
      simpa using this
    rw [hnil, List.nil_append]
    congr 1
    · rw [List.filter_eq_self]
      intro p hp
      have := hkeep p (by rw [flowParas_append]; exact List.mem_append_left _ hp)
      simpa using this
    · rw [List.filter_eq_self]
      intro p hp
      have := hkeep p (by rw [flowParas_append]; exact List.mem_append_right _ hp)
      simpa using this
  have hin : ∀ p ∈ flowParas (A ++ .table t :: B), ((.block p.id, p.text) : Para) ∈ L := fun p hp =>
    hL.perm.mem_iff.mpr (List.mem_append_left _ (List.mem_map_of_mem (f := fun p : SPara => ((.block p.id, p.text) : Para)) hp))
  -- the text
  obtain ⟨r, r', er, er', hr'⟩ := text_without (st := s.text) (ids := ids) (tid := t.table.id) hL.text (hidsp.nodup_iff.mpr hpids.2.1.1) (by
      intro i hi
      obtain ⟨p, hp, rfl⟩ := List.mem_map.mp (hidsp.mem_iff.mp hi)
      have := hin p (by rw [flow_at]; simp only [List.mem_append]; exact .inr (.inl hp))
      exact List.mem_map_of_mem (f := Prod.fst) this) (by
      refine hL.perm.mem_iff.mpr (List.mem_append_right _ ?_)
      exact List.mem_map_of_mem (f := fun t => ((.table t, [objChar]) : Para)) (List.mem_map_of_mem (f := fun t : STable => t.table.id) ht)) (by
      rcases hok with ⟨X, Y, m, k1, k2, k3⟩ | hok
      · refine .inl ⟨X, Y, m, k1, k2, ?_⟩
        intro i hi
        obtain ⟨p, hp, rfl⟩ := List.mem_map.mp (hidsp.mem_iff.mp hi)
        exact k3 p hp
      · refine .inr ⟨?_, ?_⟩
        · intro p hp e0
          rcases List.mem_append.mp (hL.perm.mem_iff.mp hp) with hp | hp
          · obtain ⟨q, hq, rfl⟩ := List.mem_map.mp hp
            by_cases hqi : q.id ∈ ids
            · exact ⟨q.id, hqi, rfl⟩
            · exfalso
              have hq2 : q ∈ flowParas (A ++ B) := by rw [← hflow]; exact List.mem_filter.mpr ⟨hq, by simpa using hqi⟩
              refine hok q hq2 ?_
              have e0 : q.text = [] := e0
              unfold SPara.text at e0
              simpa using e0
          · obtain ⟨i, _, rfl⟩ := List.mem_map.mp hp
            cases e0
        · obtain ⟨q, hq⟩ := List.exists_mem_of_ne_nil _ h.nonempty
          have hq1 : q ∈ flowParas (A ++ B) := by
            refine mem_flowParas.mpr (.inl ?_)
            rw [topParas_append, ← top_at A t B]; exact hq
          exact ⟨q.id, List.mem_map_of_mem (f := Prod.fst) (hin q (hsubf q hq1)), hkeep q hq1⟩)
  -- the cell frames
  have hl := h.linked hdocs
  have hl0 : Linked (s.withText r) := ⟨hl.blocks, hl.docs, hl.apart⟩
  have hpar : ∀ i x, s.frames i = some x → i ∉ t.cells.map SCell.frame → ∀ g, x.parentFrame = some g → g ∉ t.anchor :: t.cells.map SCell.frame := by
    intro i x hx hi0 g hg hm
    have hm : g = t.anchor ∨ g ∈ t.cells.map SCell.frame := List.mem_cons.mp hm
    rcases List.mem_cons.mp (h.onlyFrames i (by rw [hx]; rfl)) with rfl | hi
    · obtain ⟨fr, q1, _, q3, _⟩ := h.frame
      rw [hx] at q1; cases q1; rw [q3] at hg; cases hg
    · obtain ⟨u, hu, hi⟩ := mem_tableFrames_iff.mp hi
      have hU := h.table u hu
      rcases hi with rfl | hi
      · obtain ⟨fr, q1, _, q3, _⟩ := hU.anchor
        rw [hx] at q1; cases q1; rw [q3] at hg; cases hg
        rcases hm with hm | hm
        · exact hd.1.1.2.1 hm
        · exact hd.1.1.2.2.1 hm
      · obtain ⟨c, hc, rfl⟩ := List.mem_map.mp hi
        obtain ⟨_, _, _, fr, q1, _, _, q4, _⟩ := hU.cell c hc
        rw [hx] at q1; cases q1
        rcases q4 with q4 | q4
        · rw [q4] at hg; cases hg
          rw [tables_at, List.mem_append, List.mem_cons] at hu
          rcases hu with hu | rfl | hu
          · refine hd.1.2.2.2 _ (mem_tableFrames_iff.mpr ⟨u, hu, .inl rfl⟩) u.anchor ?_ rfl
            rcases hm with hm | hm
            · exact .inl hm
            · exact .inr (.inl hm)
          · exact hi0 (List.mem_map_of_mem hc)
          · have hua := mem_tableFrames_iff.mpr ⟨u, hu, .inl (rfl : u.anchor = u.anchor)⟩
            rcases hm with hm | hm
            · exact hd.1.2.2.1.1.2 (hm ▸ hua)
            · exact hd.1.2.2.1.2.2.2 _ hm _ hua rfl
        · rw [q4] at hg; cases hg
  have hpar' : ∀ i x, s.frames i = some x → ∀ g, x.parentFrame = some g → g ∉ t.cells.map SCell.frame := by
    intro i x hx g hg hm
    by_cases hi : i ∈ t.cells.map SCell.frame
    · obtain ⟨c, hc, rfl⟩ := List.mem_map.mp hi
      obtain ⟨_, _, _, fr, q1, _, _, q4, _⟩ := hT.cell c hc
      rw [hx] at q1; cases q1
      rcases q4 with q4 | q4
      · rw [q4] at hg; cases hg
        exact hd.1.2.2.1.1.1 hm
      · rw [q4] at hg; cases hg
    · exact hpar i x hx hi g hg (List.mem_cons_of_mem _ hm)
  obtain ⟨s1, e1, k1⟩ := removeFrames_get gs (s.withText r) hl0 hgsn (by
      intro g hg
      exact h.frame_some (by rw [frames_at]; simp only [List.mem_append, List.mem_cons]; exact .inr (.inr (.inl ((hgst g).mp hg))))) (by
      intro i x hx g hg hm
      exact hpar' i x hx g hg ((hgst g).mp hm))
  -- the anchor
  obtain ⟨fr, q1, q2, q3, q4, q5, q6, q7⟩ := h.frame
  have hfgs : f ∉ gs := fun hm => hd.1.1.2.2.1 ((hgst f).mp hm)
  have hf1 : s1.frames f = some fr := by rw [k1.frames, if_neg hfgs]; exact q1
  obtain ⟨rest, w1, w2⟩ := h.frames
  have hmem : fr.childOrder.contains (-(t.anchor : Int)) = true := by
    rw [List.contains_iff_mem, q6]; simp [SItem.entry]
  generalize hfr' : ({ fr with childOrder := fr.childOrder.filter fun e => e ≠ -(t.anchor : Int) } : Frame) = fr'
  have hupd : s1.updateFrame fr' = { s1 with frames := s1.frames.insert f fr' } := by
    unfold Store.updateFrame
    rw [← hfr']
    simp only
    rw [q2, hf1]
    rfl
  have hl1 := k1.linked hl0
  generalize hu : ({ s1 with frames := s1.frames.insert f fr' } : Store) = su at *
  have hsuf : ∀ i, su.frames i = if i = f then some fr' else s1.frames i := by
    intro i; rw [← hu]; rfl
  have hsub1 : su = { s1 with frames := su.frames } := by rw [← hu]
  have hprev : ∀ i x, su.frames i = some x → ∃ y, s1.frames i = some y ∧ y.blocks = x.blocks ∧ y.parentFrame = x.parentFrame := by
    intro i x hx
    rw [hsuf] at hx
    split at hx
    · rename_i e; subst e
      cases hx
      exact ⟨fr, hf1, by rw [← hfr'], by rw [← hfr']⟩
    · exact ⟨x, hx, rfl, rfl⟩
  have hlu : Linked su := by
    refine ⟨?_, ?_, ?_⟩
    · intro g x hx b hb
      obtain ⟨y, y1, y2, _⟩ := hprev g x hx
      rw [← y2] at hb
      rw [hsub1]; exact hl1.blocks g y y1 b hb
    · intro i x hx g hg
      have : (s1.frames g).isSome := hl1.docs i x (by rw [hsub1] at hx; exact hx) g hg
      rw [hsuf]; split
      · rfl
      · exact this
    · intro g x k y hx hy hne b hb
      obtain ⟨x', a1, a2, _⟩ := hprev g x hx
      obtain ⟨y', b1, b2, _⟩ := hprev k y hy
      rw [← b2]; rw [← a2] at hb
      exact hl1.apart g x' k y' a1 b1 hne b hb
  have hagr : t.anchor ∉ gs := fun hm => hd.1.2.2.1.1.1 ((hgst _).mp hm)
  have haf : t.anchor ≠ f := fun e => hd.1.1.2.1 e.symm
  obtain ⟨fa, a1, a2, a3, a4, a5, a6⟩ := hT.anchor
  have hsa : su.frames t.anchor = some fa := by
    rw [hsuf, if_neg haf, k1.frames, if_neg hagr]; exact a1
  obtain ⟨s2, e2, k2⟩ := removeFrame_get hlu (g := t.anchor) (by rw [hsa]; rfl) (by
      intro i x hx e
      obtain ⟨y, y1, _, y3⟩ := hprev i x hx
      rw [k1.frames] at y1
      split at y1
      · cases y1
      · rename_i hn
        exact hpar i y y1 (fun hm => hn ((hgst i).mpr hm)) t.anchor (y3.trans e) (List.mem_cons_self ..))
  have hdrop : s1.dropAnchor t.anchor d.frames = some s2 := by
    unfold Store.dropAnchor
    simp only
    rw [w1, List.filterMap_cons, hf1]
    simp only
    rw [List.find?_cons_of_pos (p := fun fr : Frame => fr.childOrder.contains (-(t.anchor : Int))) hmem]
    simp only
    rw [hfr', hupd]; exact e2
  have hnoblocks : [t.anchor].flatMap su.frameBlocks = [] := by
    simp [Store.frameBlocks, hsa, a4]
  have h2b : ∀ i, s2.blocks i = s1.blocks i := by
    intro i; rw [k2.blocks, hnoblocks, if_neg (by simp), ← hu]
  have h2r : ∀ i, s2.formatRuns i = s1.formatRuns i := by
    intro i; rw [k2.runs, hnoblocks, if_neg (by simp), ← hu]
  have h2i : ∀ i, s2.blockImages i = s1.blockImages i := by
    intro i; rw [k2.images, hnoblocks, if_neg (by simp), ← hu]
  have htext2 : s2.text = r := by
    rw [k2.only, ← hu, k1.only]; rfl
  have htab2 : s2.tables = s.tables := by
    rw [k2.only, ← hu, k1.only]; rfl
  have hcell2 : ∀ i, (s2.tableCells i).isSome = (s.tableCells i).isSome := by
    intro i
    rw [k2.cells, ← hu]
    exact k1.cells i
  have hdoc2 : ∀ i, s2.documents i = (s.documents i).map fun d =>
      { d with frames := (d.frames.filter fun g => !gs.contains g).filter fun g => ![t.anchor].contains g } := by
    intro i
    rw [k2.docs, ← hu]
    show (s1.documents i).map _ = _
    rw [k1.docs, Option.map_map]
    rfl
  -- the records
  obtain ⟨s3, e3, o3, c3, t3, d3, f3⟩ := removeTableEntity_get (s := s2.withText r') (id := t.table.id) (x := t.table)
    (by show s2.tables _ = _; rw [htab2]; exact hT.table) (by
      intro i x hx c hc
      show (s2.tableCells c).isSome
      rw [hcell2]
      have hx : s.tables i = some x := by rw [← htab2]; exact hx
      obtain ⟨u, hu, rfl⟩ := List.mem_map.mp (h.onlyTables i (by rw [hx]; rfl))
      rw [(h.table u hu).table] at hx; cases hx
      obtain ⟨c', h1, rfl⟩ := List.mem_map.mp ((h.table u hu).cells.mem_iff.mp hc)
      rw [((h.table u hu).cell c' h1).1]; rfl) (by
      intro i x hx j hj
      show (s2.tables j).isSome
      rw [htab2]
      have hx : s2.documents i = some x := hx
      rw [hdoc2] at hx
      cases hy : s.documents i with
      | none => rw [hy] at hx; cases hx
      | some y =>
        rw [hy, Option.map_some] at hx
        cases hx
        have := hdocs i (by rw [hy]; rfl)
        subst this
        rw [h.document] at hy; cases hy
        obtain ⟨u, hu, rfl⟩ := List.mem_map.mp (h.tables.mem_iff.mp hj)
        rw [(h.table u hu).table]; rfl)
  have hb3 : ∀ i, s3.blocks i = if i ∈ ids then none else s.blocks i := by
    intro i
    rw [show s3.blocks = s2.blocks by rw [o3]; rfl, h2b, k1.blocks]
    rw [hids]; rfl
  have hnx : ∀ key, s3.next key = s.next key := by
    intro key
    rw [o3]
    show s2.next key = _
    rw [k2.only, ← hu, k1.only]; rfl
  refine ⟨r, s1, s2, r', s3, d.frames.filter (fun g => !(t.anchor :: t.cells.map SCell.frame).contains g),
    d.tables.filter (fun j => j ≠ t.table.id), er, e1, hdrop, by rw [htext2]; exact er', e3, ?_, ?_, ?_, ?_⟩
  · apply h.without
    · rw [o3]; show s2.roots = _; rw [k2.only, ← hu, k1.only]; rfl
    · rw [d3]
      show (s2.documents d.id).map _ = _
      rw [hdoc2, h.document]
      simp only [Option.map_some]
      congr 2
      rw [List.filter_filter]
      apply List.filter_congr
      intro g _
      rw [Bool.eq_iff_iff]
      simp only [Bool.and_eq_true, Bool.not_eq_true', ← Bool.not_eq_true, List.contains_iff_mem, List.mem_cons, hgst, not_or,
        List.not_mem_nil, not_false_eq_true, and_true]
    · rfl
    · rfl
    · rfl
    · have hcar := hL.shrunk (s' := { s3 with rope := r.rope, blockOffsets := r.idx }) (ids := ids) (by
          obtain ⟨r2, z1, z2⟩ := ropeRemoveBlocks_repr ids s.text L hL.text (hidsp.nodup_iff.mpr hpids.2.1.1) hL.text.nodup (by
            intro i hi
            obtain ⟨p, hp, rfl⟩ := List.mem_map.mp (hidsp.mem_iff.mp hi)
            have := hin p (by rw [flow_at]; simp only [List.mem_append]; exact .inr (.inl hp))
            exact List.mem_map_of_mem (f := Prod.fst) this)
          rw [er] at z1; cases z1
          exact z2) hb3 (by
          intro i
          show s3.formatRuns i = _
          rw [show s3.formatRuns = s2.formatRuns by rw [o3]; rfl, h2r, k1.runs, hids]; rfl) (by
          intro i
          show s3.blockImages i = _
          rw [show s3.blockImages = s2.blockImages by rw [o3]; rfl, h2i, k1.images, hids]; rfl) (hnx _)
      rw [hflow] at hcar
      have htn := hL.tables_nodup
      rw [tables_at, List.map_append, List.map_cons, List.nodup_append, List.nodup_cons] at htn
      simp only [List.mem_cons] at htn
      refine ⟨(L.filter (stays ids)).filter fun p => p.1 ≠ .table t.table.id, ⟨?_, ?_, hcar.keys, hcar.block, hcar.formats, hcar.images, hcar.fresh, hcar.clean⟩, ?_⟩
      · rw [show s3.text = r' by rw [o3]; rfl]; exact hr'
      · refine (hcar.perm.filter fun p => p.1 ≠ .table t.table.id).trans (.of_eq ?_)
        rw [List.filter_append, List.filter_eq_self.mpr]
        · congr 1
          rw [tables_at, tablesOf_append, List.map_append, List.map_cons, List.map_append, List.map_cons, List.filter_append,
            List.filter_cons_of_neg (by simp), List.map_append, List.map_append]
          congr 1
          · rw [List.filter_eq_self]
            intro x hx
            obtain ⟨i, hi, rfl⟩ := List.mem_map.mp hx
            have := htn.2.2 i hi _ (.inl rfl)
            simpa using this
          · rw [List.filter_eq_self]
            intro x hx
            obtain ⟨i, hi, rfl⟩ := List.mem_map.mp hx
            have : i ≠ t.table.id := fun e => htn.2.1.1 (e ▸ hi)
            simpa using this
        · intro x hx
          obtain ⟨q, _, rfl⟩ := List.mem_map.mp hx
          simp
      · rw [top_at, ← topParas_append] at hsub
        have h1 := (hsub.filter (stays ids)).filter fun p => p.1 ≠ .table t.table.id
        have hfix : (paras (topParas (A ++ B))).filter (stays ids) = paras (topParas (A ++ B)) := by
          rw [List.filter_eq_self]
          intro x hx
          obtain ⟨q, hq, rfl⟩ := List.mem_map.mp hx
          exact stays_block.mpr (hkeep q (mem_flowParas.mpr (.inl hq)))
        rw [hfix, List.filter_eq_self.mpr] at h1
        · exact h1
        · intro x hx
          obtain ⟨q, _, rfl⟩ := List.mem_map.mp hx
          simp
    · rw [f3]
      show (s2.frames f).map _ = _
      rw [k2.frames, if_neg (by simp only [List.mem_singleton]; exact fun e => haf e.symm), hsuf, if_pos rfl, q1]
      simp only [Option.map_some]
      rw [hfr', if_neg]
      rw [← hfr']
      show ¬ fr.table = _
      rw [q4]; simp
    · intro i hi
      rw [f3]
      show (s2.frames i).map _ = _
      rw [k2.frames, hsuf, if_neg hi, k1.frames]
      by_cases hm : i ∈ t.anchor :: t.cells.map SCell.frame
      · rw [if_pos hm]
        rcases List.mem_cons.mp hm with rfl | hm
        · simp
        · rw [if_pos ((hgst i).mpr hm)]
          split <;> rfl
      · rw [if_neg hm]
        simp only [List.mem_cons, not_or] at hm
        rw [if_neg (by simpa using hm.1), if_neg fun hx => hm.2 ((hgst i).mp hx)]
        show (s.frames i).map _ = _
        cases hx : s.frames i with
        | none => rfl
        | some x =>
          rw [Option.map_some, if_neg]
          intro e
          exact hm.1 (h.anchor_unique ht hx e).1
    · intro i
      rw [t3]
      show (if i = t.table.id then none else (s2.tables i).map _) = _
      rw [htab2]
      split
      · rfl
      · rename_i hi
        cases hx : s.tables i with
        | none => rfl
        | some x =>
          rw [Option.map_some, List.filter_eq_self.mpr]
          intro j hj
          obtain ⟨u, hu, rfl⟩ := List.mem_map.mp (h.onlyTables i (by rw [hx]; rfl))
          rw [(h.table u hu).table] at hx; cases hx
          obtain ⟨c, hc, rfl⟩ := List.mem_map.mp ((h.table u hu).cells.mem_iff.mp hj)
          have : c.cell.id ∉ t.table.cells := by
            intro hm
            have hm := hT.cells.mem_iff.mp hm
            rw [tables_at, List.mem_append, List.mem_cons] at hu
            rcases hu with hu | rfl | hu
            · exact hd.2.2.2 _ (List.mem_map_of_mem (f := fun c : SCell => c.cell.id) (mem_cellsOf.mpr ⟨u, hu, hc⟩)) _ (.inl hm) rfl
            · exact hi rfl
            · exact hd.2.2.1.2.2 _ hm _ (List.mem_map_of_mem (f := fun c : SCell => c.cell.id) (mem_cellsOf.mpr ⟨u, hu, hc⟩)) rfl
          simpa using this
    · intro i
      rw [c3]
      by_cases hm : i ∈ t.cells.map fun c => c.cell.id
      · rw [if_pos hm, if_pos (hT.cells.mem_iff.mpr hm)]
      · rw [if_neg hm, if_neg fun hx => hm (hT.cells.mem_iff.mp hx)]
        show s2.tableCells i = _
        cases hx : s.tableCells i with
        | none =>
          have := hcell2 i
          rw [hx] at this
          cases hy : s2.tableCells i with
          | none => rfl
          | some y => rw [hy] at this; cases this
        | some c0 =>
          obtain ⟨c, hc, rfl⟩ := List.mem_map.mp (h.onlyCells i (by rw [hx]; rfl))
          obtain ⟨u, hu', hcu⟩ := mem_cellsOf.mp hc
          have hc0 := ((h.table u hu').cell c hcu)
          rw [hc0.1] at hx; cases hx
          have hfar : c.frame ≠ t.anchor ∧ c.frame ∉ t.cells.map SCell.frame := by
            rw [tables_at, List.mem_append, List.mem_cons] at hu'
            rcases hu' with hu' | rfl | hu'
            · have hcf := mem_tableFrames_iff.mpr ⟨u, hu', .inr (List.mem_map_of_mem hcu)⟩
              exact ⟨fun e => hd.1.2.2.2 _ hcf _ (.inl rfl) e, fun e => hd.1.2.2.2 _ hcf _ (.inr (.inl e)) rfl⟩
            · exact absurd (List.mem_map_of_mem (f := fun c : SCell => c.cell.id) hcu) hm
            · have hcf := mem_tableFrames_iff.mpr ⟨u, hu', .inr (List.mem_map_of_mem hcu)⟩
              exact ⟨fun e => hd.1.2.2.1.1.2 (e ▸ hcf), fun e => hd.1.2.2.1.2.2.2 _ e _ hcf rfl⟩
          apply k2.cell
          · rw [← hu]
            show s1.tableCells _ = _
            apply k1.cell _ _ hc0.1
            intro g hg hgm
            rw [hc0.2.1] at hg; cases hg
            exact hfar.2 ((hgst _).mp hgm)
          · intro g hg hgm
            rw [hc0.2.1] at hg; cases hg
            exact hfar.1 (by simpa using hgm)
    · exact hnx
  · rw [o3]; show s2.lists = _; rw [k2.only, ← hu, k1.only]; rfl
  · intro q hq
    rw [hb3, if_neg (hkeep q hq)]
  · intro i hi
    rw [d3] at hi
    have hi : ((s2.documents i).map _).isSome := hi
    rw [hdoc2, Option.isSome_map, Option.isSome_map] at hi
    exact hi

theorem getBlocks_keys {l : List Nat} : (∀ i ∈ l, ∃ b, s.blocks i = some b ∧ b.id = i) → (s.getBlocks l).map Block.id = l := by
  unfold Store.getBlocks
  induction l with
  | nil => intro _; rfl
  | cons i l ih =>
    intro h
    obtain ⟨b, h1, h2⟩ := h i (by simp)
    rw [List.filterMap_cons, h1]
    simp only [List.map_cons]
    rw [h2, ih fun j hj => h j (by simp [hj])]

theorem Arranged.anchorOf (h : Arranged s d f (A ++ .table t :: B)) : s.anchorOf t.table.id d.frames = some t.anchor := by
  have ht : t ∈ tablesOf (A ++ .table t :: B) := by rw [tables_at]; simp
  unfold Store.anchorOf
  cases e : d.frames.findSome? fun f => (s.frames f).bind fun fr => if fr.table = some t.table.id then some fr.id else none with
  | none =>
    rw [List.findSome?_eq_none_iff] at e
    obtain ⟨fa, a1, a2, a3, a4, a5, a6⟩ := (h.table t ht).anchor
    obtain ⟨rest, w1, w2⟩ := h.frames
    have := e t.anchor (by
      rw [w1]; exact List.mem_cons_of_mem _ (w2.mem_iff.mpr (mem_tableFrames_iff.mpr ⟨t, ht, .inl rfl⟩)))
    rw [a1, Option.bind_some, if_pos a6] at this
    cases this
  | some a =>
    obtain ⟨g, hg, e⟩ := List.exists_of_findSome?_eq_some e
    obtain ⟨fr, h1, h2⟩ := Option.bind_eq_some_iff.mp e
    split at h2
    · rename_i hf
      obtain ⟨rfl, _⟩ := h.anchor_unique ht h1 hf
      obtain ⟨fa, a1, a2, _⟩ := (h.table t ht).anchor
      rw [a1] at h1; cases h1
      rw [a2] at h2; exact h2.symm
    · cases h2

/-- A table is removed from a document. -/
theorem Arranged.removeTable (h : Arranged s d f (A ++ .table t :: B)) (hdocs : ∀ i, (s.documents i).isSome → i = d.id)
    (hok : (∃ X Y m, s.blockOffsets.entries.map Prod.fst = X ++ .table t.table.id :: Y ∧ m ∈ Y ∧ ∀ p ∈ t.cells.flatMap SCell.paras, m ≠ .block p.id) ∨
      ∀ q ∈ flowParas (A ++ B), q.chars ≠ []) :
    ∃ s' d', s.removeTable t.table.id = some (s', s.snapshot) ∧ Arranged s' d' f (A ++ B) ∧
      d' = { d with frames := d'.frames, tables := d'.tables, blockCount := d.blockCount - ((t.cells.flatMap SCell.paras).length : Int) } ∧
      s'.lists = s.lists ∧ (∀ i, (s'.documents i).isSome → i = d'.id) ∧
      (Tabled s d f (A ++ .table t :: B) → t.blank → Tabled s' d' f (A ++ B)) := by
  have ht : t ∈ tablesOf (A ++ .table t :: B) := by rw [tables_at]; simp
  have hT := h.table t ht
  obtain ⟨L, hL, _⟩ := h.content
  generalize hgs : (s.getCells (s.tableCellIds t.table.id)).filterMap TableCell.cellFrame = gs
  have hgsp : gs.Perm (t.cells.map SCell.frame) := by
    rw [← hgs]
    refine ((h.cells_read ht).filterMap _).trans (.of_eq ?_)
    exact cells_frames fun c hc => (hT.cell c hc).2.1
  obtain ⟨r, s1, s2, r', s3, fs, ts, e1, e2, e3, e4, e5, h3, hlists, hblocks, hdocs3⟩ := h.dropTable hdocs hok hgsp rfl
  have hids : (gs.flatMap fun f => s.getBlocks (s.frameBlocks f)).map Block.id = gs.flatMap s.frameBlocks := by
    rw [List.map_flatMap]
    have : ∀ l : List Nat, (l.flatMap fun f => (s.getBlocks (s.frameBlocks f)).map Block.id) = l.flatMap s.frameBlocks := by
      intro l
      induction l with
      | nil => rfl
      | cons g l ih =>
        rw [List.flatMap_cons, List.flatMap_cons, ih]
        congr 1
        apply getBlocks_keys
        intro i hi
        rcases h.mem_frameBlocks hi with ⟨p, hp, rfl, _⟩ | ⟨u, hu, c, hc, p, hp, rfl, _⟩
        · obtain ⟨b, b1, b2⟩ := hL.block p (mem_flowParas.mpr (.inl hp))
          exact ⟨b, b1, by rw [b2.eq]; rfl⟩
        · obtain ⟨b, b1, b2⟩ := hL.block p (mem_flowParas.mpr (.inr ⟨u, hu, List.mem_flatMap.mpr ⟨c, hc, hp⟩⟩))
          exact ⟨b, b1, by rw [b2.eq]; rfl⟩
    exact this gs
  have hlen : (gs.flatMap fun f => s.getBlocks (s.frameBlocks f)).length = (t.cells.flatMap SCell.paras).length := by
    have h1 := congrArg List.length hids
    rw [List.length_map] at h1
    rw [h1, ((hgsp.flatMap_right _).trans ?_).length_eq, List.length_map (f := SPara.id)]
    rw [List.flatMap_map, List.map_flatMap]
    exact flatMap_perm_of fun c hc => h.cellFrameBlocks ht hc
  generalize hpos : (gs.flatMap fun f => s.getBlocks (s.frameBlocks f)).map Block.documentPosition = pos
  generalize hn : ((t.cells.flatMap SCell.paras).length : Int) = n
  have hgap : Arranged (s3.closeGap d.id n pos) { d with frames := fs, tables := ts } f (A ++ B) := by
    cases pos with
    | nil => exact h3
    | cons p ps =>
      apply h3.shiftFrom
      intro b hb
      obtain ⟨g, _, hb⟩ := List.mem_flatMap.mp hb
      exact ⟨_, hb⟩
  have hgo : ∃ m, s3.closeGap d.id n pos = { s3 with blocks := m } := by
    cases pos with
    | nil => exact ⟨_, rfl⟩
    | cons p ps => exact updateBlocks_only _ _
  have hfin := hgap.updateDocument (e := { d with blockCount := d.blockCount - n }) rfl
  refine ⟨_, _, ?_, hfin, rfl, ?_, ?_, ?_⟩
  · unfold Store.removeTable
    rw [h.docId, Option.bind_some, h.document, Option.bind_some, hT.table, Option.bind_some]
    simp only
    have hdf : (s.withText r).docFrames d.id = d.frames := by
      unfold Store.docFrames
      show ((s.documents d.id).map _).getD _ = _
      rw [h.document]; rfl
    have han : (s.withText r).anchorOf t.table.id d.frames = some t.anchor := h.anchorOf
    rw [hgs, hids, e1, Option.bind_some, hdf, han, e2, Option.bind_some]
    show (s1.dropAnchor t.anchor d.frames).bind _ = _
    rw [e3, Option.bind_some, e4, Option.bind_some, e5, Option.map_some, hlen, hn, hpos]
  · obtain ⟨m, e⟩ := hgo
    show (s3.closeGap d.id n pos).lists = _
    rw [e]; exact hlists
  · intro i hi
    obtain ⟨m, e⟩ := hgo
    have hi : (((s3.closeGap d.id n pos).documents.insert d.id _) i).isSome := hi
    rw [IdMap.insert_get, e] at hi
    split at hi
    · assumption
    · exact hdocs i (hdocs3 i hi)
  · intro hT0 hblank
    apply hfin.tabled
    intro _
    -- the stored positions
    have hbase := hT0.tableBase hblank.1
    rw [hgs] at hbase
    unfold Store.tableBase at hbase
    rw [hpos] at hbase
    have hdocb : (s3.closeGap d.id n pos).blocks = (s3.shiftFrom ((s3.docFrames d.id).flatMap fun f => s3.getBlocks (s3.frameBlocks f))
        (charsBefore (paras (flowParas A))) (-n)).blocks := by
      cases pos with
      | nil =>
        exfalso
        have hpl := congrArg List.length hpos
        rw [List.length_map, hlen] at hpl
        obtain ⟨c, cs, ec⟩ := List.exists_cons_of_ne_nil hblank.1
        obtain ⟨q, qs, eq⟩ := List.exists_cons_of_ne_nil (hT.cell c (by rw [ec]; simp)).2.2.1
        rw [ec, List.flatMap_cons, eq] at hpl
        simp at hpl
      | cons p ps =>
        simp only at hbase
        simp only [Store.closeGap]
        rw [hbase]
    generalize hbs : ((s3.docFrames d.id).flatMap fun f => s3.getBlocks (s3.frameBlocks f)) = bs at *
    obtain ⟨L3, hL3, _⟩ := h3.content
    have hstored : ∀ b ∈ bs, s3.blocks b.id = some b := by
      intro b hb
      rw [← hbs] at hb
      obtain ⟨g, _, hb⟩ := List.mem_flatMap.mp hb
      obtain ⟨p, hp, k1, k2⟩ := h3.getBlocks hb
      have : b.id = p.id := by rw [k1.eq]; rfl
      rw [this]; exact k2
    obtain ⟨w1, w2, w3⟩ := shiftFrom_det (start := (charsBefore (paras (flowParas A)) : Int)) (n := -n) hstored
    have hout : ∀ q ∈ flowParas (A ++ B), q.entity (s3.storedPos q) ∈ bs := by
      intro q hq
      have hst := hL3.stored hq
      rw [← hbs]
      rcases mem_flowParas.mp hq with hq | ⟨u, hu, hq⟩
      · exact List.mem_flatMap.mpr ⟨f, h3.mem_docFrames.mpr (by simp),
          List.mem_filterMap.mpr ⟨q.id, h3.mainFrameBlocks.mem_iff.mpr (List.mem_map_of_mem hq), hst⟩⟩
      · obtain ⟨c, hc, hq⟩ := List.mem_flatMap.mp hq
        exact List.mem_flatMap.mpr ⟨c.frame, h3.mem_docFrames.mpr (List.mem_cons_of_mem _ (mem_tableFrames_iff.mpr ⟨u, hu, .inr (List.mem_map_of_mem hc)⟩)),
          List.mem_filterMap.mpr ⟨q.id, (h3.cellFrameBlocks hu hc).mem_iff.mpr (List.mem_map_of_mem hq), hst⟩⟩
    have hpos3 : ∀ q ∈ flowParas (A ++ B), s3.storedPos q = s.storedPos q := by
      intro q hq
      unfold Store.storedPos
      rw [hblocks q hq]
    apply seated_of_placed
    intro X q Y e
    have hq : q ∈ flowParas (A ++ B) := by rw [e]; simp
    refine ⟨_, by show (s3.closeGap d.id n pos).blocks q.id = _; rw [hdocb]; exact w1 _ (hout q hq), ?_⟩
    show (if s3.storedPos q ≥ (charsBefore (paras (flowParas A)) : Int) then s3.storedPos q + -n else s3.storedPos q) = _
    rw [hpos3 q hq]
    rw [flowParas_append] at e
    rcases charsBefore_le e with ⟨V, hv1, hv2⟩ | ⟨V, hv1, hv2⟩
    · rw [hT0.storedPos_at (X := X) (q := q) (Y := V ++ (t.cells.flatMap SCell.paras ++ flowParas B)) (by rw [flow_at, hv1]; simp), if_neg]
      rw [hv1, paras_append, charsBefore_append, charsBefore_paras_cons]
      omega
    · have hce : charsBefore (paras (t.cells.flatMap SCell.paras)) = (t.cells.flatMap SCell.paras).length := by
        apply charsBefore_all_empty
        intro p hp
        obtain ⟨c, hc, hp⟩ := List.mem_flatMap.mp hp
        exact hblank.2 c hc p hp
      rw [hT0.storedPos_at (X := flowParas A ++ (t.cells.flatMap SCell.paras ++ V)) (q := q) (Y := Y) (by rw [flow_at, hv2]; simp), if_pos, ← hn, hv1,
        paras_append, charsBefore_append, paras_append, charsBefore_append, paras_append, charsBefore_append, hce]
      · omega
      · rw [paras_append, charsBefore_append]; omega

end Verif
