import Verif.Lemmas.TableFormat
import Verif.Lemmas.TableClear
import Verif.Props.Formatting
import Verif.Props.Tables
import Verif.Props.Stats
/-
C98: formatting characters and paragraphs in documents with tables.
-/
namespace Verif
variable {s s' : Store} {d : Document} {f : Nat} {items : List SItem} {m : CharFormat → CharFormat}
open Store

theorem flow_restyled (hp : Seated s (flowParas items)) (x y : Nat) :
    flowParas (items.map (SItem.on (restyled s m (min (x : Int) y) (max (x : Int) y)))) =
      reformatDoc m (min x y) (max x y) 0 (flowParas items) := by
  have hmm : (min (x : Int) y) = ((min x y : Nat) : Int) ∧ (max (x : Int) y) = ((max x y : Nat) : Int) := by omega
  rw [flowParas_on, hmm.1, hmm.2]
  exact map_reformat (m := m) (min x y) (max x y) s.storedPos 0 _ (placed_storedPos (placed_of_seated hp))

theorem format_tabled (h : Tabled s d f items) (hp : Seated s (flowParas items)) (x y : Nat) :
    ∃ s' inv items', s.formatText m x y = some (s', inv) ∧ Tabled s' d f items' ∧ Seated s' (flowParas items') ∧
      flowParas items' = reformatDoc m (min x y) (max x y) 0 (flowParas items) ∧ arrangement items' = arrangement items ∧
      s'.lists = s.lists := by
  obtain ⟨s', inv, e, o, h1⟩ := h.formatText (m := m) x y
  have hflow := flow_restyled (m := m) hp x y
  refine ⟨s', inv, _, e, h1, ?_, hflow, ?_, o.lists⟩
  · rw [hflow]
    exact seated_of_placed (placed_of_blocks (placed_of_seated hp) (reformatDoc_text _ _ _ _) fun i => by rw [o.blocks])
  · unfold arrangement
    rw [List.map_map]
    apply List.map_congr_left
    intro z _
    simp only [Function.comp_apply, SItem.on_on]
    rfl

/-- **C98 (set).** `set_text_format` between two positions of a document with tables: exactly the characters between the two,
in the order in which the document is read, cells included, get the given fields.  The paragraphs, the tables, their cells and
formats, the counts, the lists and the stored positions stay. -/
theorem C98_set_text_format (h : Tabled s d f items) (hp : Seated s (flowParas items)) (dto : SetFormatDto) (x y : Nat) :
    ∃ s' inv items', s.setTextFormat dto x y = some (s', inv) ∧ Tabled s' d f items' ∧ Seated s' (flowParas items') ∧
      flowParas items' = reformatDoc (mergeSet dto) (min x y) (max x y) 0 (flowParas items) ∧
      arrangement items' = arrangement items ∧ s'.lists = s.lists :=
  format_tabled h hp x y

/-- **C98 (merge).** The same of `merge_text_format`. -/
theorem C98_merge_text_format (h : Tabled s d f items) (hp : Seated s (flowParas items)) (dto : MergeFormatDto) (x y : Nat) :
    ∃ s' inv items', s.mergeTextFormat dto x y = some (s', inv) ∧ Tabled s' d f items' ∧ Seated s' (flowParas items') ∧
      flowParas items' = reformatDoc (mergeMerge dto) (min x y) (max x y) 0 (flowParas items) ∧
      arrangement items' = arrangement items ∧ s'.lists = s.lists :=
  format_tabled h hp x y

/-- The items of a document without the formats of the paragraphs. -/
def unshaped (items : List SItem) : List SItem := items.map (SItem.on fun q => { q with shape := {} })

/-- **C98 (paragraphs).** `set_block_format` for a selection in a document with tables: exactly the paragraphs the selection
touches, in cells too, get the given fields, and nothing else changes.  As in C50 the selection must not start at the very end
of a paragraph that has text (`C98_end_of_cell_fails`). -/
theorem C98_set_block_format_partial (h : Tabled s d f items) (hp : Seated s (flowParas items)) (dto : BlockFormatDto) (x y : Nat)
    (hend : ∀ n p, (flowParas items)[n]? = some p → p.chars ≠ [] → min x y ≠ paraStart (flowParas items) n + p.chars.length) :
    ∃ s' items', s.setBlockFormat dto x y = some (s', s.snapshot) ∧ Tabled s' d f items' ∧ Seated s' (flowParas items') ∧
      flowParas items' = reshapeDoc (applyBlockFormat dto) (touches (min x y) (max x y)) 0 (flowParas items) ∧
      unshaped items' = unshaped items ∧ s'.lists = s.lists := by
  obtain ⟨s', e, h1, hpos, _, hl⟩ := h.setBlockFormat dto x y
  have hflow : flowParas (items.map (SItem.on (reshapedAt s dto (min (x : Int) y) (max (x : Int) y)))) =
      reshapeDoc (applyBlockFormat dto) (touches (min x y) (max x y)) 0 (flowParas items) := by
    rw [flowParas_on]
    exact map_touched (dto := dto) (placed_of_seated hp) x y hend
  refine ⟨s', _, e, h1, ?_, hflow, ?_, hl⟩
  · rw [hflow]
    exact seated_of_placed (placed_of_blocks (placed_of_seated hp) (reshapeDoc_text _ _ _ _) hpos)
  · unfold unshaped
    rw [List.map_map]
    apply List.map_congr_left
    intro z _
    have key : ∀ q : SPara, ({ reshapedAt s dto (min (x : Int) y) (max (x : Int) y) q with shape := {} } : SPara) =
        { q with shape := {} } := by
      intro q; unfold reshapedAt; split <;> rfl
    simp only [Function.comp_apply, SItem.on_on, key]

/-- A document "ab", a table with an empty cell and one with "xy", "cd". -/
theorem celled : ∃ s : Store, ∃ d : Document, ∃ items : List SItem, ∃ i j : Nat,
    Tabled s d 2 items ∧ tablesOf items ≠ [] ∧ flowParas items = [⟨2, [('a', none), ('b', none)], {}⟩, ⟨i, [], {}⟩,
      ⟨j, [('x', none), ('y', none)], {}⟩, ⟨3, [('c', none), ('d', none)], {}⟩] := by
  obtain ⟨s, d, _, _, h, _⟩ := import_tabled "ab\ncd".toList
  have e : (linesFrom 2 (Store.splitLines (unixText "ab\ncd".toList))).map SItem.para =
      [] ++ .para ⟨2, [('a', none), ('b', none)], {}⟩ :: [.para ⟨3, [('c', none), ('d', none)], {}⟩] := by rfl
  rw [e] at h
  obtain ⟨s1, h1, h2, _⟩ := h.insertTable_top (a := [('a', none), ('b', none)]) (b := []) (position := 2) (anchor := 2)
    (rows := 1) (columns := 2) rfl (by decide) (by decide) (by decide)
  have hflow : flowParas ([] ++ (if [('a', (none : Option CharFormat)), ('b', none)] = [] then
      .table (madeTable s 1 2) :: .para ⟨2, [('a', none), ('b', none)], {}⟩ :: [.para ⟨3, [('c', none), ('d', none)], {}⟩]
      else .para ⟨2, [('a', none), ('b', none)], {}⟩ :: .table (madeTable s 1 2) :: [.para ⟨3, [('c', none), ('d', none)], {}⟩])) =
      [⟨2, [('a', none), ('b', none)], {}⟩, ⟨s.next "block", [], {}⟩, ⟨s.next "block" + 1, [], {}⟩, ⟨3, [('c', none), ('d', none)], {}⟩] := rfl
  obtain ⟨s2, u, items', k1, k2, k3, k4, _⟩ := C68_insert_text h2 4 (by rw [hflow]; show 4 ≤ 7; omega) ['x', 'y']
  refine ⟨s2, _, items', _, _, k2, ?_, by rw [k3, hflow]; rfl⟩
  intro e0
  have := congrArg tablesOf k4
  unfold arrangement at this
  rw [tablesOf_on, tablesOf_on, e0] at this
  exact absurd this (by simp [tablesOf_para, tablesOf_table])

/-- From the "b" before the table to the "x" in its second cell. -/
example : ∃ s s' : Store, ∃ d : Document, ∃ items items' : List SItem, ∃ inv, ∃ i j : Nat,
    Tabled s d 2 items ∧ Seated s (flowParas items) ∧ tablesOf items ≠ [] ∧
    s.setTextFormat { fontBold := some true } 5 1 = some (s', inv) ∧ Tabled s' d 2 items' ∧
    flowParas items' = [⟨2, [('a', none), ('b', some { fontBold := some true })], {}⟩, ⟨i, [], {}⟩,
      ⟨j, [('x', some { fontBold := some true }), ('y', none)], {}⟩, ⟨3, [('c', none), ('d', none)], {}⟩] := by
  obtain ⟨s, d, items, i, j, h1, h2, h3⟩ := celled
  obtain ⟨s', inv, items', k1, k2, _, k3, _⟩ := C98_set_text_format h1 (h1.seated h2) { fontBold := some true } 5 1
  exact ⟨s, s', d, items, items', inv, i, j, h1, h1.seated h2, h2, k1, k2, by rw [k3, h3]; rfl⟩

/-- The caret in the second cell. -/
example : ∃ s s' : Store, ∃ d : Document, ∃ items items' : List SItem, ∃ i j : Nat,
    Tabled s d 2 items ∧ Seated s (flowParas items) ∧ tablesOf items ≠ [] ∧
    s.setBlockFormat { headingLevel := some 9 } 5 5 = some (s', s.snapshot) ∧ Tabled s' d 2 items' ∧
    flowParas items' = [⟨2, [('a', none), ('b', none)], {}⟩, ⟨i, [], {}⟩,
      ⟨j, [('x', none), ('y', none)], { fmtHeadingLevel := some 6 }⟩, ⟨3, [('c', none), ('d', none)], {}⟩] := by
  obtain ⟨s, d, items, i, j, h1, h2, h3⟩ := celled
  obtain ⟨s', items', k1, k2, _, k3, _⟩ := C98_set_block_format_partial h1 (h1.seated h2) { headingLevel := some 9 } 5 5 (by
    intro n p hn hne
    rw [h3] at hn ⊢
    have hlt : n < 4 := by
      by_cases hlt : n < 4
      · exact hlt
      · rw [List.getElem?_eq_none (by simp; omega)] at hn; cases hn
    rcases n with _ | _ | _ | _ | n
    all_goals first | omega | (simp at hn; subst hn; first | exact absurd rfl hne | (simp [paraStart])))
  exact ⟨s, s', d, items, items', i, j, h1, h1.seated h2, h2, k1, k2, by rw [k3, h3]; rfl⟩

/-- **C98, negative.** With the caret at the end of the text of a cell, no paragraph is formatted. -/
theorem C98_end_of_cell_fails : ∃ (s s1 s2 : Store) (a snap r u : _),
    (Store.newStore.bind fun s => s.importPlainText "ab\ncd".toList) = some s ∧
    s.insertTable 2 2 1 2 = some (s1, a, 2, snap) ∧ s1.insertText ⟨4, 4, ['x', 'y']⟩ = some (s2, r, u) ∧
    blockContent s2.text 5 = some ['x', 'y'] ∧
    (s2.setBlockFormat { headingLevel := some 1 } 5 5).map (fun r => (r.1.blocks 5).map Block.fmtHeadingLevel) = some (some (some 1)) ∧
    (s2.setBlockFormat { headingLevel := some 1 } 6 6).map (fun r => r.1.blocks.keys.map fun i => (r.1.blocks i).map Block.fmtHeadingLevel) =
      some [some none, some none, some none, some none] := by
  refine ⟨_, _, _, _, _, _, _, rfl, rfl, rfl, ?_, ?_, ?_⟩ <;> decide +kernel

/-! ## C61 in documents with tables -/

/-- A list with the members of an image is the image of a list with the same members. -/
theorem perm_map_inv {α β : Type} {g : α → β} {l : List α} : ∀ {m : List β}, m.Perm (l.map g) → ∃ l' : List α, l'.Perm l ∧ m = l'.map g := by
  intro m
  induction m generalizing l with
  | nil => intro h; rw [List.map_eq_nil_iff.mp h.nil_eq.symm]; exact ⟨[], .refl _, rfl⟩
  | cons b m ih =>
    intro h
    obtain ⟨a, ha, rfl⟩ := List.mem_map.mp (h.mem_iff.mp (List.mem_cons_self ..))
    obtain ⟨A, B, rfl⟩ := List.append_of_mem ha
    have h1 : m.Perm ((A ++ B).map g) := by
      have : ((A ++ a :: B).map g).Perm (g a :: (A ++ B).map g) := by
        rw [List.map_append, List.map_cons, List.map_append]; exact List.perm_middle
      exact (h.trans this).cons_inv
    obtain ⟨l', k1, k2⟩ := ih h1
    exact ⟨a :: l', (k1.cons a).trans List.perm_middle.symm, by rw [List.map_cons, ← k2]⟩

/-- Every listed frame is stored under its own id. -/
theorem Tabled.own_frames (h : Tabled s d f items) : ∀ g ∈ s.docFrames d.id, ∃ fr, s.frames g = some fr ∧ fr.id = g := by
  obtain ⟨rest, h1, h2⟩ := h.frames
  have hdf : s.docFrames d.id = f :: rest := by unfold Store.docFrames; rw [h.document]; exact h1
  rw [hdf]
  intro g hg
  rcases List.mem_cons.mp hg with rfl | hg
  · obtain ⟨fr, a1, a2, _⟩ := h.frame
    exact ⟨fr, a1, a2⟩
  · have := h2.mem_iff.mp hg
    unfold tableFrames at this
    obtain ⟨t, ht, hm⟩ := List.mem_flatMap.mp this
    rcases List.mem_cons.mp hm with rfl | hm
    · obtain ⟨fr, a1, a2, _⟩ := (h.table t ht).anchor
      exact ⟨fr, a1, a2⟩
    · obtain ⟨c, hc, rfl⟩ := List.mem_map.mp hm
      obtain ⟨_, _, _, fr, a1, a2, _⟩ := (h.table t ht).cell c hc
      exact ⟨fr, a1, a2⟩

theorem Carries.countWords {K : List Para} {ps : List SPara} {ts : List Nat} (h : Carries s K ps ts) (qs : List SPara) (hq : ∀ q ∈ qs, q ∈ ps) :
    s.countWords (qs.map fun q => q.entity (s.storedPos q)) = some ((qs.map fun q => wordCount q.text).sum, 0) := by
  induction qs with
  | nil => rfl
  | cons p qs ih =>
    have hp := hq p (by simp)
    rw [List.map_cons]
    unfold Store.countWords Store.imagesOf
    rw [show (p.entity (s.storedPos p)).id = p.id from rfl, h.content hp, h.images p hp, Option.bind_some, ih fun x hx => hq x (by simp [hx])]
    simp only [Option.map_some, List.map_cons, List.sum_cons, List.length_nil, Nat.add_zero]

/-- **C61 (tables).** The statistics of a document with tables: the words are those of the paragraphs in reading order, cells
included; the frames are the main one and, for each table, one for the table and one for each cell; characters and paragraphs
are the counters of the document. -/
theorem C61_stats_tables_partial (h : Tabled s d f items) :
    ∃ st, s.documentStats = some st ∧ st.words = wordStarts false (docText (flowParas items)) ∧
      st.characters = d.characterCount ∧ st.blocks = d.blockCount ∧
      st.frames = 1 + ((tablesOf items).map fun t => 1 + t.cells.length).sum ∧ st.images = 0 ∧
      st.lists = d.lists.length ∧ st.tables = (tablesOf items).length := by
  obtain ⟨K, hH, _⟩ := h.content
  obtain ⟨rest, h1, h2⟩ := h.frames
  have hdf : s.docFrames d.id = f :: rest := by unfold Store.docFrames; rw [h.document]; exact h1
  have hfrs : ∀ l : List Nat, (∀ g ∈ l, ∃ fr, s.frames g = some fr ∧ fr.id = g) →
      ((l.filterMap fun i => s.frames i).flatMap fun fr => s.frameBlocks fr.id) = l.flatMap s.frameBlocks := by
    intro l hl
    induction l with
    | nil => rfl
    | cons g l ih =>
      obtain ⟨fr, a1, a2⟩ := hl g (by simp)
      rw [List.filterMap_cons_some a1, List.flatMap_cons, List.flatMap_cons, a2, ih fun x hx => hl x (by simp [hx])]
  have hperm : (s.getBlocks ((s.docFrames d.id).flatMap s.frameBlocks)).Perm
      ((flowParas items).map fun p => p.entity (s.storedPos p)) := by
    have := h.blocksOf
    unfold Store.getBlocks at this ⊢
    rw [List.filterMap_flatMap]; exact this
  obtain ⟨qs, hqp, hqs⟩ : ∃ qs : List SPara, qs.Perm (flowParas items) ∧
      s.getBlocks ((s.docFrames d.id).flatMap s.frameBlocks) = qs.map fun p => p.entity (s.storedPos p) :=
    perm_map_inv hperm
  refine ⟨⟨d.characterCount, wordStarts false (docText (flowParas items)), d.blockCount,
    1 + ((tablesOf items).map fun t => 1 + t.cells.length).sum, 0, d.lists.length, (tablesOf items).length⟩, ?_, rfl, rfl,
    rfl, rfl, rfl, rfl, rfl⟩
  unfold Store.documentStats
  rw [h.docIdOf, Option.bind_some, h.document, Option.bind_some]
  dsimp only
  rw [hfrs _ h.own_frames, hqs, hH.countWords qs fun q hq => hqp.mem_iff.mp hq, Option.map_some]
  have e1 : (qs.map fun q => wordCount q.text).sum = wordStarts false (docText (flowParas items)) := by
    rw [wordStarts_doc, (hqp.map fun q => wordCount q.text).sum_nat]
  have e2 : s.docLists d.id = d.lists := by unfold Store.docLists; rw [h.document]; rfl
  have e3 : s.docTables d.id = d.tables := by unfold Store.docTables; rw [h.document]; rfl
  have e4 : (tableFrames items).length = ((tablesOf items).map fun t => 1 + t.cells.length).sum := by
    unfold tableFrames
    rw [List.length_flatMap]
    congr 1
    apply List.map_congr_left
    intro t _
    simp; omega
  rw [e1, e2, e3, hdf, List.length_cons, h2.length_eq, e4, h.tables.length_eq, List.length_map, Nat.add_comm]

/-- "ab", a table with the cells "" and "xy", "cd": three words, one table, four frames. -/
example : ∃ s : Store, ∃ d : Document, ∃ items : List SItem, ∃ st, Tabled s d 2 items ∧ s.documentStats = some st ∧ st.words = 3 ∧
    1 ≤ st.tables := by
  obtain ⟨s, d, items, i, j, h1, h2, h3⟩ := celled
  obtain ⟨st, k1, k2, _, _, _, _, _, k3⟩ := C61_stats_tables_partial h1
  refine ⟨s, d, items, st, h1, k1, by rw [k2, h3]; rfl, ?_⟩
  rw [k3]
  exact List.length_pos_iff.mpr h2

end Verif
