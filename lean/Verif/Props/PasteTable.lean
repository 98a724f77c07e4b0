import Verif.Lemmas.TablePasteMain
import Verif.Lemmas.TablePasteText
import Verif.Lemmas.TableReplace
import Verif.Lemmas.FragmentText
import Verif.Props.Tables
/-
C85: pasting a table.
-/
namespace Verif
open Store
variable {s s' : Store} {d : Document} {f : Nat} {P Q : List SPara} {p : SPara}

/-- **C85 (partial).** A fragment that is one table is pasted into a document of paragraphs with the caret anywhere
in a paragraph: the table appears right behind that paragraph, with the rows, columns, widths, formats and cells of the
fragment, each cell with its text in its formats; all other paragraphs stay; the counts of paragraphs and characters grow
by those of the table; undo gives back the content.  The cells hold at most one paragraph of text each, the paragraph is
at the same place in the list of the frame's paragraphs as in the document, and there is no table yet: the negative theorems below
show what happens otherwise.  That the stored positions are right is missing too. -/
theorem C85_paste_table_partial (h : Tabled s d f ((P ++ p :: Q).map SItem.para)) (t : FragTable) (k : Nat)
    (hplace : (s.frameBlocks f)[P.length]? = some p.id) (hv : 0 < t.rows ∧ 0 < t.columns ∧ t.cells ≠ [])
    (hsimple : ∀ c ∈ t.cells, c.Simple) (horder : t.InOrder) (hk : k ≤ p.chars.length) (pos : Int)
    (hpos : pos = (paraStart (P ++ p :: Q) P.length + k : Nat)) :
    ∃ s' d' T snap, s.insertTables pos [t] = some (s', ⟨pos, t.cells.length⟩, snap) ∧ TableLike t T ∧
      Arranged s' d' f (P.map SItem.para ++ .para p :: .table T :: Q.map SItem.para) ∧
      d' = { d with
        frames := d'.frames, tables := d'.tables
        blockCount := d.blockCount + t.cells.length
        characterCount := d.characterCount + (t.cells.map fun c => c.chars.length).sum } ∧
      s'.lists = s.lists ∧ SameContent (s'.restoreUndo snap) s := by
  obtain ⟨fr, f1, f2, f3, f4, f5, f6, f7⟩ := h.frame
  obtain ⟨L, hH, hsub⟩ := h.content
  have hfb : s.frameBlocks f = fr.blocks := by unfold Store.frameBlocks; rw [f1]; rfl
  rw [hfb] at hplace
  have hflow : ∀ l : List SPara, flowParas (l.map SItem.para) = l := by
    intro l
    induction l with
    | nil => rfl
    | cons q l ih => rw [List.map_cons, flowParas_para, ih]
  have hnot : ∀ l : List SPara, tablesOf (l.map SItem.para) = [] := by
    intro l
    induction l with
    | nil => rfl
    | cons q l ih => rw [List.map_cons, tablesOf_para, ih]
  have e0 : (P ++ p :: Q).map SItem.para = (P ++ [p]).map SItem.para ++ Q.map SItem.para := by simp
  have hnd : fr.blocks.Nodup := by
    rw [f7.nodup_iff, flow_of_noTables (hnot _)]; exact hH.ids_nodup
  have hidx : fr.blocks.findIdx? (fun j => j == p.id) = some P.length := by
    rw [List.findIdx?_eq_some_iff_getElem]
    obtain ⟨hlt, he⟩ := List.getElem?_eq_some_iff.mp hplace
    refine ⟨hlt, by simp [he], ?_⟩
    intro j hj
    have : fr.blocks[j] ≠ fr.blocks[P.length] := fun e => by
      have := (List.getElem_inj hnd).mp e
      omega
    rw [he] at this
    simpa using this
  have hl : (p.chars.take k).length = k := by simp; omega
  rw [paraStart_split] at hpos
  have hno := hnot (P ++ p :: Q)
  have hfl := hflow (P ++ p :: Q)
  rw [e0] at h hno hfl
  obtain ⟨s', d', h1, h2, h3, h4⟩ := h.pasteTable (p := p) (X := P) (Y := Q) (x := p.chars.take k) (y := p.chars.drop k) (t := t)
    hno hfl (by simp) f1 hidx (by simp) (by simp only [FragTable.void, Bool.or_eq_false_iff, decide_eq_false_iff_not]; exact ⟨⟨by omega, by omega⟩, hv.2.2⟩) hsimple horder
  rw [hl, ← hpos] at h1
  refine ⟨s', d', _, _, h1, pastedTable_like s t, by simpa using h3, h2, h4, (C27_undo_snapshot s s').1⟩

/-- The hypotheses are met: a table with "x" and "yz" pasted in "ab|cd". -/
example : ∃ s d t s' d' T snap, Tabled s d 2 ([⟨2, [('a', none), ('b', none)], {}⟩, ⟨3, [('c', none), ('d', none)], {}⟩].map SItem.para) ∧
    s.insertTables 1 [t] = some (s', ⟨1, 2⟩, snap) ∧ TableLike t T ∧
    (T.cells.map fun c => c.paras.map SPara.text) = [[['x']], [['y', 'z']]] ∧
    Arranged s' d' 2 [.para ⟨2, [('a', none), ('b', none)], {}⟩, .table T, .para ⟨3, [('c', none), ('d', none)], {}⟩] := by
  obtain ⟨s, d, e0, hd, h, _⟩ := import_tabled "ab\ncd".toList
  have e : (linesFrom 2 (Store.splitLines (unixText "ab\ncd".toList))).map SItem.para =
      ([] ++ (⟨2, [('a', none), ('b', none)], {}⟩ : SPara) :: [⟨3, [('c', none), ('d', none)], {}⟩]).map SItem.para := by rfl
  rw [e] at h
  have hx : ∀ (c : List Char), ({ text := c, elements := [.text c {}] } : FragBlock).IsText := by
    intro c
    refine ⟨by simp, ?_⟩
    simp [FragBlock.chars, styled, Function.comp_def]
  obtain ⟨s', d', T, snap, h1, h2, h3, _⟩ := C85_paste_table_partial h
    { rows := 1, columns := 2
      cells := [{ row := 0, column := 0, blocks := [{ text := ['x'], elements := [.text ['x'] {}] }] },
        { row := 0, column := 1, blocks := [{ text := ['y', 'z'], elements := [.text ['y', 'z'] {}] }] }] } 1
    (by
      have : (Store.newStore.bind fun s => s.importPlainText "ab\ncd".toList).map (fun s => (s.frameBlocks 2)[0]?) = some (some 2) := by
        decide +kernel
      rw [e0] at this
      simpa using this) (by decide) (by
      intro c hc
      simp only [List.mem_cons, List.not_mem_nil, or_false] at hc
      rcases hc with rfl | rfl
      · exact ⟨by decide, by intro fb hfb; simp only [List.mem_singleton] at hfb; subst hfb; exact hx _⟩
      · exact ⟨by decide, by intro fb hfb; simp only [List.mem_singleton] at hfb; subst hfb; exact hx _⟩)
    (by simp [FragTable.InOrder]) (by decide) 1 (by decide)
  refine ⟨s, d, _, s', d', T, snap, h, h1, h2, ?_, h3⟩
  have hlen := h2.length
  match hT : T.cells, hlen with
  | [a, b], _ =>
    obtain ⟨i, ha⟩ := (h2.cells 0 _ a rfl (by rw [hT]; rfl)).paras
    obtain ⟨j, hb⟩ := (h2.cells 1 _ b rfl (by rw [hT]; rfl)).paras
    simp [ha, hb, SPara.text, FragCell.chars, FragBlock.chars, styled]

/-- **C85, what really happens.** Whatever the document and the table: when pasting one table replaces the content of
cells of another, the text of the document stays as it is, character by character. -/
theorem C85_replaced_text (did : Nat) (pos : Int) (ts : List FragTable) (e : s.tryReplaceCells did pos ts = some (some s')) :
    s'.rope = s.rope ∧ s'.blockOffsets = s.blockOffsets :=
  tryReplaceCells_text e

/-- **C85, what really happens (partial).** A table pasted with the caret in a cell of another, where all its cells fall inside that one: the
cell as far down and to the right of the caret's cell as the pasted cell in its table gets the formats of the pasted text and loses its images, no
other paragraph changes its formats or images, and everything else (the text too, see `C85_replaced_text`) stays.  The pasted cells have one paragraph
of text each, no two of them one place, and the cells of the table one paragraph each. -/
theorem C85_on_cells_partial {A B : List SItem} {u : STable} {c0 : SCell} (h : Tabled s d f (A ++ .table u :: B)) (hc0 : c0 ∈ u.cells) (hp : p ∈ c0.paras)
    (n k : Nat) (hn : (u.cells.flatMap SCell.paras)[n]? = some p) (hk : k ≤ p.chars.length) (pos : Int)
    (hpos : pos = (paraStart (flowParas (A ++ .table u :: B)) ((flowParas A).length + n) + k : Nat)) (t : FragTable) (hne : t.cells ≠ [])
    (hfit : ∀ x ∈ t.cells, c0.cell.row + x.row < u.table.rows ∧ c0.cell.column + x.column < u.table.columns)
    (hone : ∀ x ∈ t.cells, ∃ fb : FragBlock, x.blocks = [fb] ∧ fb.IsText) (hplaces : (t.cells.map fun x => (x.row, x.column)).Nodup)
    (hcells : ∀ c ∈ u.cells, ∃ q, c.paras = [q]) :
    ∃ s' snap, s.insertTables pos [t] = some (s', ⟨pos, 0⟩, snap) ∧
      (∀ x ∈ t.cells, ∀ c ∈ u.cells, c.cell.row = c0.cell.row + x.row → c.cell.column = c0.cell.column + x.column → ∀ q ∈ c.paras, ∀ fb ∈ x.blocks,
        StyledOk ((s'.formatRuns q.id).getD []) fb.chars ∧ (s'.blockImages q.id).getD [] = []) ∧
      (∀ i, (∀ x ∈ t.cells, ∀ c ∈ u.cells, c.cell.row = c0.cell.row + x.row → c.cell.column = c0.cell.column + x.column → ∀ q ∈ c.paras, q.id ≠ i) →
        s'.formatRuns i = s.formatRuns i ∧ s'.blockImages i = s.blockImages i) ∧
      (∀ i, s'.blocks i = s.blocks i) ∧ s'.rope = s.rope ∧ s'.blockOffsets = s.blockOffsets ∧ s'.frames = s.frames ∧ s'.tables = s.tables ∧
      s'.tableCells = s.tableCells ∧ s'.documents = s.documents ∧ s'.lists = s.lists ∧ SameContent (s'.restoreUndo snap) s := by
  obtain ⟨hlt, hpn⟩ := List.getElem?_eq_some_iff.mp hn
  have hcs : u.cells.flatMap SCell.paras = (u.cells.flatMap SCell.paras).take n ++ p :: (u.cells.flatMap SCell.paras).drop (n + 1) := by
    rw [← hpn, ← List.drop_eq_getElem_cons hlt, List.take_append_drop]
  generalize hX : (u.cells.flatMap SCell.paras).take n = X at hcs
  generalize (u.cells.flatMap SCell.paras).drop (n + 1) = Y at hcs
  have hXn : X.length = n := by rw [← hX, List.length_take]; omega
  have e : flowParas (A ++ .table u :: B) = (flowParas A ++ X) ++ p :: (Y ++ flowParas B) := by
    rw [flowParas_append]
    show _ ++ (u.cells.flatMap SCell.paras ++ flowParas B) = _
    rw [hcs]; simp
  rw [e, show (flowParas A).length + n = (flowParas A ++ X).length by rw [List.length_append, hXn], paraStart_split] at hpos
  have hl : (p.chars.take k).length = k := by simp; omega
  have hu : u ∈ tablesOf (A ++ .table u :: B) := by
    unfold tablesOf; simp
  have hs := h.table u hu
  have hfind := h.find (a := p.chars.take k) (b := p.chars.drop k) e (by simp)
  rw [hl, ← hpos] at hfind
  obtain ⟨rest, hr1, _⟩ := h.frames
  have hdf : s.docFrames d.id = f :: rest := by unfold Store.docFrames; rw [h.document, ← hr1]; rfl
  have hpl := placed_of_seated (h.seated (by intro e; rw [e] at hu; cases hu))
  obtain ⟨L, hH, _⟩ := h.content
  have hb2c : (s.blockToCell d.id).reverse.find? (fun x => x.1 == p.id) = some (p.id, c0.frame, u.table.id) := by
    cases hf : (s.blockToCell d.id).reverse.find? (fun x => x.1 == p.id) with
    | none =>
      have := List.find?_eq_none.mp hf _ (List.mem_reverse.mpr (h.mem_blockToCell hu hc0 hp))
      simp at this
    | some x =>
      have h1 := List.find?_some hf
      obtain ⟨t', ht', c, hc, q, hq, rfl⟩ := h.blockToCell_mem (List.mem_reverse.mp (List.mem_of_find?_eq_some hf))
      simp only [beq_iff_eq] at h1
      obtain ⟨k1, k2, _⟩ := h.para_cell ht' hc hq hu hc0 hp h1
      rw [h1, k1, k2]
  have hplace : ((s.getCells (s.tableCellIds u.table.id)).find? fun c => decide (c.cellFrame = some c0.frame)) = some c0.cell := by
    cases hf : (s.getCells (s.tableCellIds u.table.id)).find? fun c => decide (c.cellFrame = some c0.frame) with
    | none =>
      have := List.find?_eq_none.mp hf c0.cell (hs.getCells.mem_iff.mpr (List.mem_map_of_mem hc0))
      simp [(hs.cell c0 hc0).2.1] at this
    | some x =>
      have h1 := List.find?_some hf
      obtain ⟨c, hc, rfl⟩ := List.mem_map.mp (hs.getCells.mem_iff.mp (List.mem_of_find?_eq_some hf))
      simp only [decide_eq_true_eq, (hs.cell c hc).2.1, Option.some.injEq] at h1
      rw [(h.cell_unique hu hc0 hu hc h1).2]
  obtain ⟨s', r1, r2, r3, r4⟩ := replaceCells_spec (u := u) (r := c0.cell.row) (k := c0.cell.column) hs.getCells hs.order (fun c hc => (hs.cell c hc).2.1) hcells
    (fun c hc x hx p hp q hq e => (h.para_cell hu hc hp hu hx hq e).2.2) t.cells (fun x hx => by obtain ⟨fb, hfb, _⟩ := hone x hx; exact ⟨fb, hfb⟩) hplaces s
    (fun c hc => by
      obtain ⟨_, _, _, cfr, c4, _, _, _, _, c9⟩ := hs.cell c hc
      have : s.frameBlocks c.frame = cfr.blocks := by unfold Store.frameBlocks; rw [c4]; rfl
      obtain ⟨q, hq⟩ := hcells c hc
      rw [hq] at c9 ⊢
      rw [this]; exact List.perm_singleton.mp c9)
    (fun c hc q hq => by
      obtain ⟨b, hb, hqb⟩ := hH.block q (mem_flowParas.mpr (.inr ⟨u, hu, List.mem_flatMap.mpr ⟨c, hc, hq⟩⟩))
      exact ⟨b, hb, by rw [hqb]⟩)
  have hbounds : ¬ (c0.cell.row + ((t.cells.map FragCell.row).foldl max 0 : Nat) ≥ u.table.rows ∨
      c0.cell.column + ((t.cells.map FragCell.column).foldl max 0 : Nat) ≥ u.table.columns) := by
    obtain ⟨x0, hx0⟩ := List.exists_mem_of_ne_nil _ hne
    have b0 := hfit x0 hx0
    rcases (foldl_max (t.cells.map FragCell.row) 0).2.2 with e1 | e1 <;> rcases (foldl_max (t.cells.map FragCell.column) 0).2.2 with e2 | e2
    · rw [e1, e2]; omega
    · obtain ⟨y, hy, e2⟩ := List.mem_map.mp e2
      have := hfit y hy
      rw [e1, ← e2]; omega
    · obtain ⟨y, hy, e1⟩ := List.mem_map.mp e1
      have := hfit y hy
      rw [e2, ← e1]; omega
    · obtain ⟨y, hy, e1⟩ := List.mem_map.mp e1
      obtain ⟨z, hz, e2⟩ := List.mem_map.mp e2
      have := hfit y hy
      have := hfit z hz
      rw [← e1, ← e2]; omega
  have htry : s.tryReplaceCells d.id pos [t] = some (some s') := by
    simp only [Store.tryReplaceCells, hdf, List.head?_cons, Option.bind_some, h.pasteBlocks hpl, hfind]
    rw [show (p.entity (charsBefore (paras (flowParas A ++ X)))).id = p.id from rfl, hb2c]
    simp only [hs.table, Option.bind_some, hplace, Option.map_some, Option.getD_some]
    rw [if_neg hbounds, r1]; rfl
  refine ⟨s', s.snapshot, ?_, ?_, r4, r2.blocks, r2.rope, r2.offsets, r2.frames, r2.tables, r2.cells, r2.documents, r2.lists, (C27_undo_snapshot s s').1⟩
  · unfold Store.insertTables
    rw [h.docIdOf, Option.bind_some, htry]; rfl
  · intro x hx c hc a1 a2 q hq fb hfb
    obtain ⟨fb', e1, e2⟩ := hone x hx
    rw [e1] at hfb
    simp only [List.mem_cons, List.not_mem_nil, or_false] at hfb
    subst hfb
    have := r3 x hx c hc a1 a2 q hq fb (by rw [e1]; simp)
    have k := fragState_styled e2
    rw [this.1, this.2]
    exact k

/-- A table of one cell with a bold letter. -/
def boldTable : FragTable :=
  { rows := 1, columns := 1, cells := [{ row := 0, column := 0, blocks := [{ text := ['x'], elements := [.text ['x'] { fontBold := some true }] }] }] }

/-- The hypotheses of `C85_on_cells_partial` are met: a table of one bold cell pasted on the first of two cells. -/
example : ∃ (s : Store) (d : Document) (u : STable) (c0 : SCell) (p : SPara) (t : FragTable),
    Tabled s d 2 ([.para ⟨2, [('a', none), ('b', none)], {}⟩] ++ .table u :: [.para ⟨3, [('c', none), ('d', none)], {}⟩]) ∧ c0 ∈ u.cells ∧ p ∈ c0.paras ∧
    (u.cells.flatMap SCell.paras)[0]? = some p ∧ t.cells ≠ [] ∧
    (∀ x ∈ t.cells, c0.cell.row + x.row < u.table.rows ∧ c0.cell.column + x.column < u.table.columns) ∧
    (∀ x ∈ t.cells, ∃ fb : FragBlock, x.blocks = [fb] ∧ fb.IsText) ∧ (t.cells.map fun x => (x.row, x.column)).Nodup ∧ ∀ c ∈ u.cells, ∃ q, c.paras = [q] := by
  obtain ⟨s, d, e0, _, h, _⟩ := import_tabled "ab\ncd".toList
  have e : (linesFrom 2 (Store.splitLines (unixText "ab\ncd".toList))).map SItem.para =
      [] ++ .para ⟨2, [('a', none), ('b', none)], {}⟩ :: [.para ⟨3, [('c', none), ('d', none)], {}⟩] := by rfl
  rw [e] at h
  obtain ⟨s1, g1, g2, _⟩ := h.insertTable_top (position := 2) (anchor := 2) (rows := 1) (columns := 2)
    (a := [('a', none), ('b', none)]) (b := []) rfl (by decide) (by decide) (by decide)
  have hm := madeTable_empty s 1 2
  have hcells : ∀ c ∈ (madeTable s 1 2).cells, ∃ q, c.paras = [q] := fun c hc => by
    obtain ⟨i, hi, _⟩ := hm.cells c hc
    exact ⟨_, hi⟩
  have hpl : ((madeTable s 1 2).cells.map fun c => (c.cell.row, c.cell.column)) = [(0, 0), (0, 1)] := hm.places
  obtain ⟨a, l, hT⟩ : ∃ a l, (madeTable s 1 2).cells = a :: l := by
    cases hT : (madeTable s 1 2).cells with
    | nil => rw [hT] at hpl; cases hpl
    | cons a l => exact ⟨a, l, rfl⟩
  rw [hT] at hpl
  simp only [List.map_cons, List.cons.injEq, Prod.mk.injEq] at hpl
  obtain ⟨q, hq⟩ := hcells a (by rw [hT]; simp)
  refine ⟨s1, _, madeTable s 1 2, a, q, boldTable, g2, by rw [hT]; simp, by simp [hq], by rw [hT]; simp [hq], by simp [boldTable], ?_, ?_,
    by simp [boldTable], hcells⟩
  · intro x hx
    simp only [boldTable, List.mem_cons, List.not_mem_nil, or_false] at hx
    subst hx
    have e1 : (madeTable s 1 2).table.rows = 1 := congrArg Table.rows hm.table
    have e2 : (madeTable s 1 2).table.columns = 2 := congrArg Table.columns hm.table
    rw [e1, e2, hpl.1.1, hpl.1.2]
    decide
  · intro x hx
    simp only [boldTable, List.mem_cons, List.not_mem_nil, or_false] at hx
    subst hx
    refine ⟨_, rfl, by simp, ?_⟩
    simp [FragBlock.chars, styled, Function.comp_def]

/-- A cell of one paragraph, without format. -/
def plainCell (t : List Char) : FragCell := { row := 0, column := 0, blocks := [{ text := t, elements := [.text t {}] }] }

/-- **C85, negative.** Pasting a table with "new" on a cell with "old" leaves "old". -/
theorem C85_replace_cell_fails : ∃ s s1 s2 s3 : Store, ∃ t snap1 r u q snap2,
    (Store.newStore.bind fun s => s.importPlainText "ab\ncd".toList) = some s ∧
    s.insertTable 2 2 1 1 = some (s1, t, 2, snap1) ∧ s1.insertText ⟨3, 3, "old".toList⟩ = some (s2, r, u) ∧
    s2.insertTables 4 [{ rows := 1, columns := 1, cells := [plainCell "new".toList] }] = some (s3, q, snap2) ∧
    blockContent s2.text 4 = some "old".toList ∧ blockContent s3.text 4 = some "old".toList ∧
    s3.tables.keys.length = 1 := by
  refine ⟨_, _, _, _, _, _, _, _, _, _, rfl, rfl, rfl, rfl, ?_⟩
  decide +kernel

/-- **C85, negative.** Of a cell with the paragraphs "x" and "y" only "x" is shown: the frame of the new cell holds both, but
only the first is in its order.  The document counts both. -/
theorem C85_two_paragraphs_fails : ∃ s s1 : Store, ∃ q snap,
    (Store.newStore.bind fun s => s.importPlainText "ab\ncd".toList) = some s ∧
    s.insertTables 2 [{ rows := 1, columns := 1, cells := [{ row := 0, column := 0, blocks := [
      { text := ['x'], elements := [.text ['x'] {}] }, { text := ['y'], elements := [.text ['y'] {}] }] }] }] = some (s1, q, snap) ∧
    blockContent s1.text 4 = some ['x'] ∧ blockContent s1.text 5 = some ['y'] ∧
    (s1.frames 3).map (fun c => (c.blocks, c.childOrder)) = some ([4, 5], [4]) ∧
    (s1.documents 1).map (fun d => d.blockCount) = some 4 := by
  refine ⟨_, _, _, _, rfl, rfl, ?_⟩
  decide +kernel

/-- **C85, negative.** The stored positions are wrong: pasted at the start of "ab|cd", the table with "x" is shown
behind "ab", but "x" is stored at 0 and "ab" at 2. -/
theorem C85_positions_fails : ∃ s s1 : Store, ∃ q snap,
    (Store.newStore.bind fun s => s.importPlainText "ab\ncd".toList) = some s ∧
    s.insertTables 0 [{ rows := 1, columns := 1, cells := [plainCell ['x']] }] = some (s1, q, snap) ∧
    (s1.frames 2).map (fun c => c.childOrder) = some [2, -4, 3] ∧
    (s1.blocks 2).map (fun b => b.documentPosition) = some 2 ∧ (s1.blocks 4).map (fun b => b.documentPosition) = some 0 := by
  refine ⟨_, _, _, _, rfl, rfl, ?_⟩
  decide +kernel

/-- **C85, negative.** With a table further up the new one is shown too early: of "ab", a table, "cd", "ef", pasting
in "ef" puts the table in front of "ef". -/
theorem C85_place_after_table_fails : ∃ s s1 s2 : Store, ∃ q1 snap1 q2 snap2,
    (Store.newStore.bind fun s => s.importPlainText "ab\ncd\nef".toList) = some s ∧
    s.insertTables 0 [{ rows := 1, columns := 1, cells := [plainCell ['x']] }] = some (s1, q1, snap1) ∧
    s1.insertTables 9 [{ rows := 1, columns := 1, cells := [plainCell ['y']] }] = some (s2, q2, snap2) ∧
    (s1.frames 2).map (fun c => c.childOrder) = some [2, -4, 3, 4] ∧ blockContent s1.text 4 = some "ef".toList ∧
    (s1.blocks 4).map (fun b => b.documentPosition) = some 8 ∧
    (s2.frames 2).map (fun c => c.childOrder) = some [2, -4, 3, -6, 4] := by
  refine ⟨_, _, _, _, _, _, _, rfl, rfl, rfl, ?_⟩
  decide +kernel

/-- **C85, negative.** After Enter the place is that of creation: "ab" is split into "a" and "b" in front of "cd" and "ef", and
a table pasted in "b" is shown at the end of the document. -/
theorem C85_place_after_enter_fails : ∃ s s1 s2 : Store, ∃ q1 snap1 q2 snap2,
    (Store.newStore.bind fun s => s.importPlainText "ab\ncd\nef".toList) = some s ∧
    s.insertBlock 1 = some (s1, q1, snap1) ∧
    s1.insertTables 3 [{ rows := 1, columns := 1, cells := [plainCell ['y']] }] = some (s2, q2, snap2) ∧
    s1.exportPlainText = some "a\nb\ncd\nef".toList ∧ blockContent s1.text 5 = some ['b'] ∧
    (s1.frames 2).map (fun c => c.childOrder) = some [2, 5, 3, 4] ∧
    (s2.frames 2).map (fun c => c.childOrder) = some [2, 5, 3, 4, -4] := by
  refine ⟨_, _, _, _, _, _, _, rfl, rfl, rfl, ?_⟩
  decide +kernel

end Verif
