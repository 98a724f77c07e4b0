import Verif.Lemmas.TableFree
import Verif.Lemmas.TableNested
import Verif.Lemmas.TableType
import Verif.Props.Store
import Verif.Lemmas.TableBreak
import Verif.Model.Reading
/-
Property theorems about documents with tables: C67 inserting a table, C68 typing, C69 breaking paragraphs and deleting.  Vocabulary: `Verif/Spec/{Editing,
Tables}.lean`.
-/
namespace Verif
variable {s : Store} {d : Document} {f : Nat} {A B : List SItem} {p : SPara}

open Store

theorem gridPlaces_range (rows columns : Nat) :
    (gridPlaces (rows : Int) (columns : Int)).map (fun x => (x.1, x.2.1)) =
      (List.range rows).flatMap fun r : Nat => (List.range columns).map fun c : Nat => ((r : Int), (c : Int)) := by
  simp [gridPlaces, intRange, List.flatMap_map, List.map_flatMap, Function.comp_def]

theorem madeCells_shape {F B C : Nat} {l : List (Int × Int × Int × Int)} {x : SCell}
    (hl : ∀ y ∈ l, y.2.2 = (1, 1)) (h : x ∈ madeCells F B C l) :
    x.cell = { id := x.cell.id, row := x.cell.row, column := x.cell.column, rowSpan := 1, columnSpan := 1
               cellFrame := some x.frame } := by
  induction l generalizing F B C with
  | nil => simp [madeCells] at h
  | cons y l ih =>
    obtain ⟨r, c, rs, cs⟩ := y
    have := hl (r, c, rs, cs) (List.mem_cons_self ..)
    simp only [Prod.mk.injEq] at this
    rw [madeCells, List.mem_cons] at h
    rcases h with rfl | h
    · simp [newCell, this]
    · exact ih (fun y hy => hl y (List.mem_cons_of_mem _ hy)) h

theorem madeTable_empty (s : Store) (rows columns : Nat) : EmptyTable (madeTable s rows columns) rows columns := by
  refine ⟨by simp [madeTable, tableOf], ?_, ?_⟩
  · rw [← gridPlaces_range]
    have := congrArg (List.map fun x : Int × Int × Int × Int => (x.1, x.2.1))
      (madeCells_places (s.next "frame") (s.next "block") (s.next "table_cell") (gridPlaces rows columns))
    rw [List.map_map] at this
    exact this
  · intro c hc
    obtain ⟨i, h1, _⟩ := madeCells_mem hc
    refine ⟨i, h1, madeCells_shape ?_ hc⟩
    intro y hy
    simp only [gridPlaces, List.mem_flatMap, List.mem_map] at hy
    obtain ⟨_, _, _, _, rfl⟩ := hy
    rfl

/-- **C67 (insert).** In every document of paragraphs and tables, whatever the tables, inserting a
table of any size with the caret at any place of a paragraph outside the tables puts one empty table of
that size beside that paragraph, in front of it if the caret is at its start and after it otherwise.
No paragraph, no other table and no list changes, the number of blocks grows by the number of cells,
nothing else of the document changes, and the caret stays.  Of a selection only the first end counts. -/
theorem C67_insert_table (h : Tabled s d f (A ++ .para p :: B)) (position anchor : Int) (rows columns k : Nat)
    (hr : 1 ≤ rows) (hc : 1 ≤ columns) (hk : k ≤ p.chars.length)
    (hpos : min position anchor = (paraStart (flowParas (A ++ .para p :: B)) (flowParas A).length + k : Nat)) :
    ∃ s' d' t snap, s.insertTable position anchor rows columns = some (s', t.table.id, min position anchor, snap) ∧
      EmptyTable t rows columns ∧
      Tabled s' d' f (A ++ if k = 0 then .table t :: .para p :: B else .para p :: .table t :: B) ∧
      d' = { d with frames := d'.frames, tables := d'.tables, blockCount := d.blockCount + rows * columns } ∧
      s'.lists = s.lists ∧ SameContent (s'.restoreUndo snap) s := by
  have e : flowParas (A ++ .para p :: B) = flowParas A ++ p :: flowParas B := by rw [flowParas_append, flowParas_para]
  rw [e, paraStart_split] at hpos
  have hl : (p.chars.take k).length = k := by simp; omega
  obtain ⟨s', h1, h2, h3⟩ := h.insertTable_top (a := p.chars.take k) (b := p.chars.drop k) (rows := (rows : Int))
    (columns := (columns : Int)) (by simp) (by rw [hpos, hl]) (by omega) (by omega)
  have : (p.chars.take k = []) ↔ k = 0 := by rw [← List.length_eq_zero_iff, hl]
  simp only [this] at h2
  exact ⟨s', _, madeTable s rows columns, _, h1, madeTable_empty s rows columns, h2, rfl, h3, (C27_undo_snapshot s s').1⟩

/-- A size of less than one row or column is refused. -/
theorem C67_insert_table_refused (position anchor rows columns : Int) (h : rows < 1 ∨ columns < 1) :
    s.insertTable position anchor rows columns = none := by
  unfold Store.insertTable; rw [if_pos h]

/-- The hypotheses are met by every loaded text; here a table in the middle of "ab|cd", and a second
one in front of the result. -/
example : ∃ s d t s' d' u, Tabled s d 2 [.para ⟨2, [('a', none), ('b', none)], {}⟩, .table t, .para ⟨3, [('c', none), ('d', none)], {}⟩] ∧
    EmptyTable t 2 3 ∧
    Tabled s' d' 2 [.table u, .para ⟨2, [('a', none), ('b', none)], {}⟩, .table t, .para ⟨3, [('c', none), ('d', none)], {}⟩] ∧
    EmptyTable u 1 1 := by
  obtain ⟨s, d, _, _, h, _⟩ := import_tabled "ab\ncd".toList
  have e : (linesFrom 2 (Store.splitLines (unixText "ab\ncd".toList))).map SItem.para =
      [] ++ .para ⟨2, [('a', none), ('b', none)], {}⟩ :: [.para ⟨3, [('c', none), ('d', none)], {}⟩] := by rfl
  rw [e] at h
  obtain ⟨s1, d1, t, _, _, h1, h2, _⟩ := C67_insert_table h 1 1 2 3 1 (by decide) (by decide) (by decide) (by decide)
  have h2' : Tabled s1 d1 2 ([] ++ .para ⟨2, [('a', none), ('b', none)], {}⟩ :: [.table t, .para ⟨3, [('c', none), ('d', none)], {}⟩]) := h2
  obtain ⟨s2, d2, u, _, _, g1, g2, _⟩ := C67_insert_table h2' 0 5 1 1 0 (by decide) (by decide) (by decide)
    (by simp [paraStart, flowParas]; decide)
  exact ⟨s1, d1, t, s2, d2, u, h2, h1, g2, g1⟩

/-- **C67 (in a cell).** With the caret anywhere in a table the new table goes right behind that table, and
nothing else changes.  The cells must name the frame of their table as parent, as those of `insert_table` and of
Markdown do, and the caret must not be in an empty paragraph that comes last in the stored text
(`C67_insert_in_cell_fails`). -/
theorem C67_insert_in_cell_partial {u : STable} (h : Tabled s d f (A ++ .table u :: B)) (ha : Adopted s u)
    (position anchor : Int) (rows columns n k : Nat) (hr : 1 ≤ rows) (hc : 1 ≤ columns)
    (hn : (u.cells.flatMap SCell.paras)[n]? = some p) (hk : k ≤ p.chars.length)
    (hlast : p.chars ≠ [] ∨ (s.blockOffsets.entries.map Prod.fst).getLast? ≠ some (.block p.id))
    (hpos : min position anchor = (paraStart (flowParas (A ++ .table u :: B)) ((flowParas A).length + n) + k : Nat)) :
    ∃ s' d' t snap, s.insertTable position anchor rows columns = some (s', t.table.id, min position anchor, snap) ∧
      EmptyTable t rows columns ∧ Tabled s' d' f (A ++ .table u :: .table t :: B) ∧
      d' = { d with frames := d'.frames, tables := d'.tables, blockCount := d.blockCount + rows * columns } ∧
      s'.lists = s.lists ∧ SameContent (s'.restoreUndo snap) s := by
  obtain ⟨hlt, hpn⟩ := List.getElem?_eq_some_iff.mp hn
  have hcs : u.cells.flatMap SCell.paras = (u.cells.flatMap SCell.paras).take n ++ p :: (u.cells.flatMap SCell.paras).drop (n + 1) := by
    rw [← hpn, ← List.drop_eq_getElem_cons hlt, List.take_append_drop]
  generalize hX : (u.cells.flatMap SCell.paras).take n = X at hcs
  generalize (u.cells.flatMap SCell.paras).drop (n + 1) = Y at hcs
  have hXn : X.length = n := by rw [← hX, List.length_take]; omega
  have e : flowParas (A ++ .table u :: B) = (flowParas A ++ X) ++ p :: (Y ++ flowParas B) := by
    rw [flowParas_append]
    show _ ++ (u.cells.flatMap SCell.paras ++ flowParas B) = _
    rw [hcs]; simp
  rw [e, show (flowParas A).length + n = (flowParas A ++ X).length by rw [List.length_append, hXn], paraStart_split] at hpos
  have hl : (p.chars.take k).length = k := by simp; omega
  obtain ⟨s', h1, h2, h3⟩ := h.insertTable_cell (a := p.chars.take k) (b := p.chars.drop k) (rows := (rows : Int))
    (columns := (columns : Int)) hcs (by simp) ha hlast (by rw [hpos, hl]) (by omega) (by omega)
  exact ⟨s', _, madeTable s rows columns, _, h1, madeTable_empty s rows columns, h2, rfl, h3, (C27_undo_snapshot s s').1⟩

/-- The hypotheses of `C67_insert_in_cell_partial` hold in the first cell of a table of "ab|cd". -/
example : ∃ (s : Store) (d : Document) (u : STable) (p : SPara),
    Tabled s d 2 ([.para ⟨2, [('a', none), ('b', none)], {}⟩] ++ .table u :: [.para ⟨3, [('c', none), ('d', none)], {}⟩]) ∧ Adopted s u ∧
    (u.cells.flatMap SCell.paras)[0]? = some p ∧
    (s.blockOffsets.entries.map Prod.fst).getLast? ≠ some (.block p.id) := by
  obtain ⟨s, d, e0, _, h, _⟩ := import_tabled "ab\ncd".toList
  have e : (linesFrom 2 (Store.splitLines (unixText "ab\ncd".toList))).map SItem.para =
      [] ++ .para ⟨2, [('a', none), ('b', none)], {}⟩ :: [.para ⟨3, [('c', none), ('d', none)], {}⟩] := by rfl
  rw [e] at h
  obtain ⟨s1, g1, g2, _⟩ := h.insertTable_top (position := 2) (anchor := 2) (rows := 1) (columns := 2)
    (a := [('a', none), ('b', none)]) (b := []) rfl (by decide) (by decide) (by decide)
  have hx : (Store.newStore.bind fun s => s.importPlainText "ab\ncd".toList).map (fun s =>
      (s.next "frame", s.next "block", s.next "table_cell")) = some (3, 4, 1) := by decide +kernel
  have hy : ((Store.newStore.bind fun s => s.importPlainText "ab\ncd".toList).bind fun s =>
      (s.insertTable 2 2 1 2).map fun r => ((r.1.frames 3).map Frame.parentFrame, (r.1.frames 4).map Frame.parentFrame,
        (r.1.blockOffsets.entries.map Prod.fst).getLast?)) = some (some (some 5), some (some 5), some (.block 5)) := by decide +kernel
  rw [e0] at hx hy
  rw [Option.bind_some, g1] at hy
  simp only [Option.map_some, Option.some.injEq, Prod.mk.injEq] at hx hy
  obtain ⟨x1, x2, x3⟩ := hx
  obtain ⟨y1, y2, y3⟩ := hy
  have hm : (madeTable s 1 2).cells = madeCells 3 4 1 (gridPlaces 1 2) := by simp only [madeTable, tableOf, x1, x2, x3]
  have hanchor : (madeTable s 1 2).anchor = 5 := by simp only [madeTable, tableOf, x1]; rfl
  refine ⟨s1, _, madeTable s 1 2, ⟨4, [], {}⟩, g2, ?_, by rw [hm]; rfl, by rw [y3]; decide⟩
  intro c hc
  rw [hm] at hc
  rw [hanchor]
  have : c.frame = 3 ∨ c.frame = 4 := by
    have : ∀ c ∈ madeCells 3 4 1 (gridPlaces 1 2), c.frame = 3 ∨ c.frame = 4 := by decide +kernel
    exact this c hc
  rcases this with e | e <;> rw [e]
  · obtain ⟨fr, q1, q2⟩ := Option.map_eq_some_iff.mp y1
    exact ⟨fr, q1, q2⟩
  · obtain ⟨fr, q1, q2⟩ := Option.map_eq_some_iff.mp y2
    exact ⟨fr, q1, q2⟩

/-- **C67, negative.** Inside a cell this fails: with the caret in the empty last cell of a table, inserting a
table leaves the index of the text out of order, and afterwards the text of the blocks in the new cell and
after it cannot be read. -/
theorem C67_insert_in_cell_fails : ∃ s s1 s2 : Store, ∃ a b snap1 snap2,
    (Store.newStore.bind fun s => s.importPlainText "ab\ncd".toList) = some s ∧
    s.insertTable 2 2 1 2 = some (s1, a, 2, snap1) ∧
    s1.insertTable 4 4 1 1 = some (s2, b, 4, snap2) ∧
    (s1.blocks 4).isSome ∧ (s1.blocks 5).isSome ∧ blockContent s1.text 4 = some [] ∧ blockContent s1.text 5 = some [] ∧
    (s2.blocks 4).isSome ∧ (s2.blocks 5).isSome ∧ blockContent s2.text 4 = none ∧ blockContent s2.text 5 = none := by
  refine ⟨_, _, _, _, _, _, _, rfl, rfl, rfl, ?_⟩
  decide +kernel

/-! ## C68 -/

variable {items : List SItem}

/-- **C68.** In every document of paragraphs and tables, typing at any position, in a cell or outside
the tables, puts the text there and changes nothing else: the paragraphs read in order are those of
`typeAt`, the arrangement of paragraphs, tables and cells stays, the number of characters grows by the
length of the text, and the caret moves behind it. -/
theorem C68_insert_text (h : Tabled s d f items) (pos : Nat) (hpos : pos ≤ docLen (flowParas items)) (t : List Char) :
    ∃ s' u items', s.insertText ⟨pos, pos, t⟩ = some (s', ⟨pos + t.length, 1⟩, u) ∧
      Tabled s' { d with characterCount := d.characterCount + t.length } f items' ∧
      flowParas items' = typeAt pos t (flowParas items) ∧ arrangement items' = arrangement items ∧
      s'.lists = s.lists := by
  obtain ⟨X, p, Y, a, b, e1, hc, e2⟩ := locate (flowParas items) h.flow_nonempty pos hpos
  obtain ⟨s', g1, g2, g3, _⟩ := h.insertSimple (dto := ⟨pos, pos, t⟩) e1 hc (by rw [e2])
  have hi : s.insertText ⟨pos, pos, t⟩ = s.insertSimple ⟨pos, pos, t⟩ := by
    unfold Store.insertText
    rw [if_neg (by simp)]
  rw [← hi] at g1
  refine ⟨s', _, _, g1, g2, ?_, ?_, g3.lists⟩
  · obtain ⟨L, hH, _⟩ := h.content
    have hn := hH.ids_nodup
    rw [flowParas_on, e2]
    have h4 := typeAt_eq X Y t hc
    have h5 := map_replace (p := p) (by rw [← e1]; exact hn) { p with chars := a ++ styled t (inheritFmt a) ++ b }
    rw [← e1] at h4 h5
    rw [h4, ← h5]
    apply List.map_congr_left
    intro q hq
    by_cases hq' : q.id = p.id
    · rw [if_pos hq', if_pos hq', hH.unique (by rw [e1]; simp) hq hq']
    · rw [if_neg hq', if_neg hq']
  · unfold arrangement
    rw [List.map_map]
    apply List.map_congr_left
    intro x _
    have key : ∀ q : SPara, ({ (if q.id = p.id then { q with chars := a ++ styled t (inheritFmt a) ++ b } else q : SPara) with chars := [] } : SPara) =
        { q with chars := [] } := by
      intro q; split <;> rfl
    cases x with
    | para q => simp only [Function.comp, SItem.on, key]
    | table t => simp only [Function.comp, SItem.on, List.map_map, Function.comp_def, key]

/-- Typing "xy" into the second cell of a table between "ab" and "cd". -/
example : ∃ s s' : Store, ∃ d : Document, ∃ items items' : List SItem, ∃ u,
    Tabled s d 2 items ∧ (flowParas items).map SPara.text = [['a', 'b'], [], [], ['c', 'd']] ∧
    s.insertText ⟨4, 4, ['x', 'y']⟩ = some (s', ⟨6, 1⟩, u) ∧
    Tabled s' { d with characterCount := d.characterCount + 2 } 2 items' ∧
    (flowParas items').map SPara.text = [['a', 'b'], [], ['x', 'y'], ['c', 'd']] := by
  obtain ⟨s, d, _, _, h, _⟩ := import_tabled "ab\ncd".toList
  have e : (linesFrom 2 (Store.splitLines (unixText "ab\ncd".toList))).map SItem.para =
      [] ++ .para ⟨2, [('a', none), ('b', none)], {}⟩ :: [.para ⟨3, [('c', none), ('d', none)], {}⟩] := by rfl
  rw [e] at h
  obtain ⟨s1, h1, h2, _⟩ := h.insertTable_top (a := [('a', none), ('b', none)]) (b := []) (position := 2) (anchor := 2)
    (rows := 1) (columns := 2) rfl (by decide) (by decide) (by decide)
  have hflow : flowParas ([] ++ (if [('a', (none : Option CharFormat)), ('b', none)] = [] then
      .table (madeTable s 1 2) :: .para ⟨2, [('a', none), ('b', none)], {}⟩ :: [.para ⟨3, [('c', none), ('d', none)], {}⟩]
      else .para ⟨2, [('a', none), ('b', none)], {}⟩ :: .table (madeTable s 1 2) :: [.para ⟨3, [('c', none), ('d', none)], {}⟩])) =
      [⟨2, [('a', none), ('b', none)], {}⟩, ⟨s.next "block", [], {}⟩, ⟨s.next "block" + 1, [], {}⟩, ⟨3, [('c', none), ('d', none)], {}⟩] := rfl
  obtain ⟨s2, u, items', k1, k2, k3, k4⟩ := C68_insert_text h2 4 (by rw [hflow]; show 4 ≤ 7; omega) ['x', 'y']
  refine ⟨s1, s2, _, _, items', u, h2, by rw [hflow]; rfl, k1, k2, ?_⟩
  rw [k3, hflow]
  rfl

/-- **C68, negative.** Undoing typed text does not bring a document with a table back: the stored positions of the
paragraphs after the typed text stay moved, so that a paragraph break at the same place as before goes
elsewhere.  Here: "ab", a table of two cells, "cd".  A break between "c" and "d" splits that paragraph; after
typing "xyz" into "ab" and undoing it, the same command splits nothing and adds an empty paragraph. -/
theorem C68_undo_fails : ∃ s s1 s2 s3 s4 s5 : Store, ∃ a snap r1 u r4 r5,
    (Store.newStore.bind fun s => s.importPlainText "ab\ncd".toList) = some s ∧
    s.insertTable 2 2 1 2 = some (s1, a, 2, snap) ∧
    s1.insertText ⟨1, 1, ['x', 'y', 'z']⟩ = some (s2, r1, u) ∧ s2.undoInsert u = some s3 ∧
    s3.rope = s1.rope ∧
    (s1.insertBlock 6).map (fun r => (r.1, r.2.1)) = some (s4, r4) ∧
    (s3.insertBlock 6).map (fun r => (r.1, r.2.1)) = some (s5, r5) ∧
    blockContent s4.text 3 = some ['c'] ∧ blockContent s4.text r4.newBlockId = some ['d'] ∧
    blockContent s5.text 3 = some ['c', 'd'] ∧ blockContent s5.text r5.newBlockId = some [] := by
  refine ⟨_, _, _, _, _, _, _, _, _, _, _, _, rfl, rfl, rfl, rfl, ?_, rfl, rfl, ?_⟩
  · decide +kernel
  · decide +kernel

/-! ## C69 -/

/-- **C69 (break).** In every document with tables, breaking a paragraph outside the tables at any place splits
exactly that paragraph: its beginning stays, the rest becomes a new paragraph of the same format right after it,
in front of what followed.  No other paragraph, no table and no list changes, one block more is counted, the caret
goes to the start of the new paragraph, and undo brings the content back.  (Without tables this is C18.) -/
theorem C69_insert_block_partial (h : Tabled s d f (A ++ .para p :: B)) (ht : tablesOf (A ++ .para p :: B) ≠ []) (k : Nat)
    (hk : k ≤ p.chars.length) (pos : Nat) (hpos : pos = paraStart (flowParas (A ++ .para p :: B)) (flowParas A).length + k) :
    ∃ s' new snap, s.insertBlock pos = some (s', ⟨(pos + 1 : Nat), new⟩, snap) ∧
      Tabled s' { d with blockCount := d.blockCount + 1 } f
        (A ++ .para { p with chars := p.chars.take k } :: .para ⟨new, p.chars.drop k, p.shape⟩ :: B) ∧
      new ∉ (flowParas (A ++ .para p :: B)).map SPara.id ∧
      s'.lists = s.lists ∧ SameContent (s'.restoreUndo snap) s := by
  have e : flowParas (A ++ .para p :: B) = flowParas A ++ p :: flowParas B := by rw [flowParas_append, flowParas_para]
  rw [e, paraStart_split] at hpos
  have hl : (p.chars.take k).length = k := by simp; omega
  obtain ⟨s', h1, h2, h3⟩ := h.insertBlock_top ht (a := p.chars.take k) (b := p.chars.drop k) (by simp)
  rw [hl, ← hpos] at h1
  refine ⟨s', _, _, h1, h2, ?_, h3, (C27_undo_snapshot s s').1⟩
  obtain ⟨L, hH, _⟩ := h.content
  intro hm
  obtain ⟨q, hq, hqe⟩ := List.mem_map.mp hm
  have := hH.fresh q hq
  omega

/-- A break in the paragraph after a table: "ab", a table of two cells, "c" and "d". -/
example : ∃ s s' : Store, ∃ d : Document, ∃ items items' : List SItem, ∃ r u,
    Tabled s d 2 items ∧ (flowParas items).map SPara.text = [['a', 'b'], [], [], ['c', 'd']] ∧
    s.insertBlock 6 = some (s', r, u) ∧
    Tabled s' { d with blockCount := d.blockCount + 1 } 2 items' ∧
    (flowParas items').map SPara.text = [['a', 'b'], [], [], ['c'], ['d']] := by
  obtain ⟨s, d, _, _, h, _⟩ := import_tabled "ab\ncd".toList
  have e : (linesFrom 2 (Store.splitLines (unixText "ab\ncd".toList))).map SItem.para =
      [] ++ .para ⟨2, [('a', none), ('b', none)], {}⟩ :: [.para ⟨3, [('c', none), ('d', none)], {}⟩] := by rfl
  rw [e] at h
  obtain ⟨s1, h1, h2, _⟩ := h.insertTable_top (a := [('a', none), ('b', none)]) (b := []) (position := 2) (anchor := 2)
    (rows := 1) (columns := 2) rfl (by decide) (by decide) (by decide)
  have h2' : Tabled s1 _ 2 ([.para ⟨2, [('a', none), ('b', none)], {}⟩, .table (madeTable s 1 2)] ++
      .para ⟨3, [('c', none), ('d', none)], {}⟩ :: []) := h2
  obtain ⟨s2, new, snap, k1, k2, _⟩ := C69_insert_block_partial h2' (by simp [tablesOf]) 1 (by decide) 6 rfl
  exact ⟨s1, s2, _, _, _, _, snap, h2', rfl, k1, k2, rfl⟩

/-- **C69, negative.** A break inside a cell does not stay in the cell: the rest of the cell's paragraph goes to
the end of the document.  Here: "ab", a table of two cells, "cd"; "xy" in the second cell, broken between the two. -/
theorem C69_break_in_cell_fails : ∃ s s1 s2 s3 : Store, ∃ t a snap r u r3,
    (Store.newStore.bind fun s => s.importPlainText "ab\ncd".toList) = some s ∧
    s.insertTable 2 2 1 2 = some (s1, t, 2, snap) ∧
    s1.insertText ⟨4, 4, ['x', 'y']⟩ = some (s2, r, u) ∧
    (s2.insertBlock 5).map (fun r => (r.1, r.2.1)) = some (s3, r3) ∧
    (s2.frames 2).map Frame.childOrder = some [2, -a, 3] ∧
    (s3.frames 2).map Frame.childOrder = some [2, -a, 3, r3.newBlockId] ∧
    blockContent s3.text r3.newBlockId = some ['y'] := by
  refine ⟨_, _, _, _, _, 5, _, _, _, _, rfl, rfl, rfl, rfl, ?_⟩
  decide +kernel

/-- **C69, negative.** Deleting in a document with a paragraph behind a table goes wrong.  Here: "ab", a table of
two cells, "cd".  Deleting the "d" leaves the whole text as it was, but counts a character less.  Deleting the
"a" removes it, but moves the stored position of "cd", so that a break between "c" and "d" splits nothing
and adds an empty paragraph. -/
theorem C69_delete_fails : ∃ s s1 s2 s3 s4 : Store, ∃ t snap r2 r3 r4,
    (Store.newStore.bind fun s => s.importPlainText "ab\ncd".toList) = some s ∧
    s.insertTable 2 2 1 2 = some (s1, t, 2, snap) ∧
    (s1.deleteText 6 7).map (fun r => (r.1, r.2.1)) = some (s2, r2) ∧
    s2.rope = s1.rope ∧ r2.deletedText = [] ∧
    (s1.documents 1).map Document.characterCount = some 4 ∧ (s2.documents 1).map Document.characterCount = some 3 ∧
    (s1.deleteText 0 1).map (fun r => (r.1, r.2.1)) = some (s3, r3) ∧ blockContent s3.text 2 = some ['b'] ∧
    (s3.insertBlock 5).map (fun r => (r.1, r.2.1)) = some (s4, r4) ∧
    blockContent s4.text 3 = some ['c', 'd'] ∧ blockContent s4.text r4.newBlockId = some [] := by
  refine ⟨_, _, _, _, _, _, _, _, _, _, rfl, rfl, rfl, ?_, ?_, ?_, ?_, rfl, ?_, rfl, ?_⟩ <;> decide +kernel

end Verif
