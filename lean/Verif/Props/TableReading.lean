import Verif.Lemmas.TableShown
import Verif.Props.TableCursor
import Verif.Model.TableHandles
/-
C72: block handles, the flow, snapshots and the handles of tables and cells show a document with tables.
-/
namespace Verif
variable {s : Store} {d : Document} {f g : Nat} {p : SPara} {items : List SItem} {t : STable} {c : SCell}
  {cell : Option (Nat × Int × Int)}
open Store

/-- `blocks` and `block_by_number`: the paragraphs in reading order, those of cells included. -/
theorem C72_blocks (h : Tabled s d f items) :
    s.blockIds = (flowParas items).map SPara.id ∧ ∀ n, s.blockByNumber n = (flowParas items)[n]?.map SPara.id :=
  h.visible.blocks

/-- What the handle of paragraph number `n` shows, and where it says that the paragraph is. -/
theorem C72_handle (h : Tabled s d f items) {n : Nat} (hn : (flowParas items)[n]? = some p) (hh : HomeOf items f p g cell) :
    s.blockValid p.id = true ∧ s.numberOf p.id = n ∧
      s.blockAfter p.id = (flowParas items)[n + 1]?.map SPara.id ∧
      s.blockBefore p.id = (if n = 0 then none else (flowParas items)[n - 1]?.map SPara.id) ∧
      s.blockText p.id = some (p.chars.map Prod.fst) ∧ s.blockLength p.id = p.chars.length ∧
      s.blockIsEmpty p.id = some (decide (p.chars = [])) ∧ s.blockPosition p.id = paraStart (flowParas items) n ∧
      s.blockFormatOf p.id = .ofBlock p.shape ∧ s.parentFrame p.id = some g ∧ s.tableCellOf p.id = cell := by
  obtain ⟨h1, h2, h3, h4, h5, h6, h7, h8, h9⟩ := h.visible.handle hn
  obtain ⟨k1, k2, _⟩ := h.home hh
  exact ⟨h1, h2, h3, h4, h5, h6, h7, h8, h9, k1, k2⟩

/-- Every paragraph of the document is somewhere. -/
theorem C72_home (hp : p ∈ flowParas items) : ∃ g cell, HomeOf items f p g cell := home_exists hp

/-- A handle whose paragraph is gone. -/
theorem C72_absent (h : Tabled s d f items) {id : Nat} (hn : id ∉ (flowParas items).map SPara.id) :
    s.blockValid id = false ∧ s.numberOf id = 0 ∧ s.blockAfter id = none ∧ s.blockBefore id = none ∧
      s.blockText id = some [] ∧ s.blockLength id = 0 ∧ s.blockIsEmpty id = some true ∧ s.blockPosition id = 0 ∧
      s.blockFormatOf id = {} :=
  h.visible.no_handle hn

/-- `TextBlock::snapshot` shows the paragraph. -/
theorem C72_snapshot (h : Tabled s d f items) {n : Nat} (hn : (flowParas items)[n]? = some p) (hh : HomeOf items f p g cell) :
    ∃ snap, s.blockSnapshot p.id = some snap ∧ SnapShows s g cell (flowParas items) n p snap :=
  h.visible.blockSnapshot hn (h.home hh).1 (h.home hh).2.2

/-- `snapshot_block_at_position`: at every position of a paragraph, its end included, that paragraph; beyond the end of
the document the last one. -/
theorem C72_at_position (h : Tabled s d f items) :
    (∀ n p k g cell, (flowParas items)[n]? = some p → k ≤ p.chars.length → HomeOf items f p g cell →
      ∃ snap, s.snapshotBlockAt (paraStart (flowParas items) n + k) = some (some snap) ∧ SnapShows s g cell (flowParas items) n p snap) ∧
    ∀ pos, (docText (flowParas items)).length < pos → ∃ p g cell snap, (flowParas items).getLast? = some p ∧
      HomeOf items f p g cell ∧ s.snapshotBlockAt pos = some (some snap) ∧
      SnapShows s g cell (flowParas items) ((flowParas items).length - 1) p snap := by
  constructor
  · intro n p k g cell hn hk hh
    exact h.visible.at_position hn hk (h.home hh).1 (h.home hh).2.2
  · intro pos hpos
    have hl := List.getLast?_eq_some_getLast h.flow_nonempty
    obtain ⟨g, cell, hh⟩ := home_exists (f := f) (List.mem_of_getLast? hl)
    obtain ⟨snap, h1, h2⟩ := h.visible.at_beyond hpos hl (h.home hh).1 (h.home hh).2.2
    exact ⟨_, g, cell, snap, hl, hh, h1, h2⟩

/-- `blocks_in_range`: in reading order, exactly the paragraphs whose half-open range of characters meets the given
one; for an empty range those that contain the position. -/
theorem C72_in_range (h : Tabled s d f items) (position length : Nat) :
    ∃ ids, s.blocksInRange position length = some ids ∧ ids.Sublist ((flowParas items).map SPara.id) ∧
      ∀ n p, (flowParas items)[n]? = some p → (p.id ∈ ids ↔
        (length = 0 ∧ paraStart (flowParas items) n ≤ position ∧ position < paraStart (flowParas items) n + p.chars.length) ∨
        (0 < length ∧ paraStart (flowParas items) n < position + length ∧
          position < paraStart (flowParas items) n + p.chars.length)) :=
  h.visible.in_range position length

/-- `char_format_at`: the format of the character there, the default format if none was set; nothing at the end of the
paragraph and beyond. -/
theorem C72_char_format (h : Tabled s d f items) (hp : p ∈ flowParas items) (k : Nat) :
    s.blockCharFormat p.id k = some (p.chars[k]?.map fun c => c.2.getD {}) :=
  h.visible.char_at hp k

/-- `find_element_at_position`: the run of text that holds the position; limits as in C66. -/
theorem C72_element_partial (h : Tabled s d f items) {pos n k : Nat} (hi : InParagraph (flowParas items) pos n k p)
    (hne : p.chars ≠ []) :
    ∃ fs cs fmt o len byte, s.fragmentsOf p.id = some fs ∧ .text cs fmt o len byte ∈ fs ∧ cs.length = len ∧
      cs = ((p.chars.drop o).take len).map Prod.fst ∧
      o ≤ k ∧ (k < o + len ∨ k = p.chars.length ∧ k = o + len) ∧
      s.elementAt pos = some (synthElementId p.id byte, paraStart (flowParas items) n + o, k - o) :=
  h.visible.element hi hne

/-- `flow` lists the paragraphs outside the tables and the tables in their order. -/
theorem C72_flow (h : Tabled s d f items) :
    s.flow = items.map fun | .para p => .block p.id | .table t => .table t.table.id := by
  obtain ⟨fr, h1, h2, h3, h4, h5, h6, h7⟩ := h.frame
  unfold Store.flow
  rw [h.mainFrame, h1, Option.map_some, Option.getD_some, h6, h.flowItems]
  rfl

/-- `snapshot_flow` shows the whole document: every paragraph and every table in its order, every cell with its place,
spans and format and its paragraphs, and every paragraph as `SnapShows` says, with its place in the whole document. -/
theorem C72_flow_snapshot (h : Tabled s d f items) :
    ∃ fs, s.snapshotFlow = some fs ∧ ItemsShow s f (flowParas items) 0 items fs :=
  h.snapshotFlow

/-! ### Handles of tables and cells -/

/-- The size of a table, and the cell at a place: the cell whose row and column these are, and none if there is no such
cell. -/
theorem C72_table (h : Tabled s d f items) (ht : t ∈ tablesOf items) :
    s.tableRows t.table.id = t.table.rows.toNat ∧ s.tableColumns t.table.id = t.table.columns.toNat ∧
      s.tableWidths t.table.id = t.table.columnWidths.map Int32.ofInt ∧
      (∀ c ∈ t.cells, ∀ i j : Nat, c.cell.row = i → c.cell.column = j →
        s.cellAtPlace t.table.id i j = some c.cell.id ∧
        s.cellPlace c.cell.id = (i, j, c.cell.rowSpan.toNat, c.cell.columnSpan.toNat)) ∧
      ∀ i j : Nat, (∀ c ∈ t.cells, ¬ (c.cell.row = i ∧ c.cell.column = j)) → s.cellAtPlace t.table.id i j = none := by
  have hT := h.table t ht
  have hu : ∀ x ∈ t.cells, ∀ y ∈ t.cells, x.cell.row = y.cell.row → x.cell.column = y.cell.column → x = y := by
    intro x hx y hy e1 e2
    have hord := hT.order
    obtain ⟨i, hi, rfl⟩ := List.getElem_of_mem hx
    obtain ⟨j, hj, rfl⟩ := List.getElem_of_mem hy
    rw [List.pairwise_iff_getElem] at hord
    rcases Nat.lt_trichotomy i j with hij | rfl | hij
    · have := hord i j hi hj hij; unfold SCell.before at this; omega
    · rfl
    · have := hord j i hj hi hij; unfold SCell.before at this; omega
  refine ⟨?_, ?_, ?_, ?_, ?_⟩
  · unfold Store.tableRows; rw [hT.table]; rfl
  · unfold Store.tableColumns; rw [hT.table]; rfl
  · unfold Store.tableWidths; rw [hT.table]; rfl
  · intro c hc i j hi hj
    constructor
    · unfold Store.cellAtPlace
      rw [hT.table, Option.bind_some]
      apply findSome?_unique
      · refine ⟨c.cell.id, hT.cells.mem_iff.mpr (List.mem_map.mpr ⟨c, hc, rfl⟩), ?_⟩
        rw [(hT.cell c hc).1, Option.bind_some, if_pos ⟨hi, hj⟩]
      · intro k hk w hw
        obtain ⟨x, hx, rfl⟩ := List.mem_map.mp (hT.cells.mem_iff.mp hk)
        rw [(hT.cell x hx).1, Option.bind_some] at hw
        split at hw
        · next e => cases hw; rw [hu x hx c hc (by omega) (by omega)]
        · cases hw
    · unfold Store.cellPlace
      rw [(hT.cell c hc).1, Option.map_some, Option.getD_some, hi, hj]
      rfl
  · intro i j hno
    unfold Store.cellAtPlace
    rw [hT.table, Option.bind_some, List.findSome?_eq_none_iff]
    intro k hk
    obtain ⟨x, hx, rfl⟩ := List.mem_map.mp (hT.cells.mem_iff.mp hk)
    rw [(hT.cell x hx).1, Option.bind_some, if_neg (hno x hx)]

theorem cell_split (ht : t ∈ tablesOf items) (hc : c ∈ t.cells) : ∃ X Y, flowParas items = X ++ c.paras ++ Y := by
  obtain ⟨A, B, rfl⟩ := List.append_of_mem (mem_tablesOf.mp ht)
  obtain ⟨C, D, e⟩ := List.append_of_mem hc
  refine ⟨flowParas A ++ C.flatMap SCell.paras, D.flatMap SCell.paras ++ flowParas B, ?_⟩
  rw [flowParas_append, flowParas_table, e, List.flatMap_append, List.flatMap_cons]
  simp

theorem Tabled.frameSorted (h : Tabled s d f items) (ht : t ∈ tablesOf items) (hc : c ∈ t.cells) {X Y : List SPara}
    (e : flowParas items = X ++ c.paras ++ Y) :
    s.frameSorted c.frame = placed (paraStart (flowParas items) X.length : Int) c.paras := by
  obtain ⟨_, c2, _, fr, c4, _⟩ := (h.table t ht).cell c hc
  unfold Store.frameSorted
  rw [c4, Option.map_some, Option.getD_some, h.cellBlocks ht hc e c4]

/-- The paragraphs of a cell, by their handles and by their snapshots: those of the cell, in order. -/
theorem C72_cell (h : Tabled s d f items) (ht : t ∈ tablesOf items) (hc : c ∈ t.cells) :
    s.cellBlocks c.cell.id = c.paras.map SPara.id ∧
    ∃ n snaps, ((flowParas items).drop n).take c.paras.length = c.paras ∧ s.cellSnapshots c.cell.id = some snaps ∧
      ParasShow s c.frame (some (t.table.id, c.cell.row, c.cell.column)) (flowParas items) n c.paras snaps := by
  obtain ⟨c1, c2, _⟩ := (h.table t ht).cell c hc
  obtain ⟨X, Y, e⟩ := cell_split ht hc
  constructor
  · unfold Store.cellBlocks
    rw [c1, Option.bind_some, c2, Option.map_some, Option.getD_some, h.frameSorted ht hc e, placed_ids]
  · have key : ∀ (qs X Y : List SPara), flowParas items = X ++ qs ++ Y → (∀ q ∈ qs, q ∈ c.paras) → ∀ x,
        ∃ snaps, mapOpt (fun b : Block => s.blockSnap b.id none none) (placed x qs) = some (snaps.map some) ∧
          ParasShow s c.frame (some (t.table.id, c.cell.row, c.cell.column)) (flowParas items) X.length qs snaps := by
      intro qs
      induction qs with
      | nil => intro X Y _ _ x; exact ⟨[], rfl, trivial⟩
      | cons q qs ih =>
        intro X Y e hm x
        have hq : (flowParas items)[X.length]? = some q := by rw [e]; simp
        obtain ⟨h1, _, h3⟩ := h.home (.inr ⟨t, ht, c, hc, hm q (by simp), rfl, rfl⟩)
        obtain ⟨snap, k1, k2, _⟩ := h.visible.blockSnap hq h1 h3
        obtain ⟨snaps, i1, i2⟩ := ih (X ++ [q]) Y (by rw [e]; simp) (fun y hy => hm y (by simp [hy])) (x + ((q.text.length : Int) + 1))
        rw [List.length_append] at i2
        refine ⟨snap :: snaps, ?_, k1, i2⟩
        rw [placed, mapOpt, show (q.entity x).id = q.id from rfl, k2 none none (.inl rfl) (.inl rfl), Option.bind_some, i1]
        rfl
    obtain ⟨snaps, k1, k2⟩ := key c.paras X Y e (fun q hq => hq) (paraStart (flowParas items) X.length : Int)
    refine ⟨X.length, snaps, by rw [e]; simp, ?_, k2⟩
    unfold Store.cellSnapshots
    rw [c1, Option.bind_some, c2, Store.cellContent]
    unfold Store.frameSnapshots
    rw [h.frameSorted ht hc e, k1, Option.map_some, List.filterMap_map]
    congr 1
    have : ∀ l : List BlockSnap, l.filterMap (id ∘ some) = l := by
      intro l; induction l with
      | nil => rfl
      | cons x l ih => rw [List.filterMap_cons]; simp only [Function.comp, id]; rw [ih]
    exact this snaps

/-- `TextTable::snapshot`: the table and each of its cells once, with its paragraphs; no order of the cells is promised. -/
theorem C72_table_snapshot (h : Tabled s d f items) (ht : t ∈ tablesOf items) :
    ∃ (cs : List SCell) (ks : List CellSnap), s.tableSnapshot t.table.id = some (some (t.table, ks)) ∧ cs.Perm t.cells ∧ ks.map CellSnap.cell = cs.map SCell.cell ∧
      ∀ (i : Nat) c k, cs[i]? = some c → ks[i]? = some k → s.cellSnapshots c.cell.id = some k.blocks := by
  have hT := h.table t ht
  have hperm : ∃ cs : List SCell, cs.Perm t.cells ∧ t.table.cells = cs.map fun c => c.cell.id := by
    have := hT.cells
    clear hT
    generalize t.table.cells = l at this
    generalize t.cells = m at this
    induction l generalizing m with
    | nil =>
      have := this.nil_eq
      have hm : m = [] := by simpa using this.symm
      exact ⟨[], by rw [hm], rfl⟩
    | cons x l ih =>
      obtain ⟨c, hc, rfl⟩ := List.mem_map.mp (this.mem_iff.mp (by simp : x ∈ x :: l))
      obtain ⟨A, B, rfl⟩ := List.append_of_mem hc
      have h2 : l.Perm ((A ++ B).map fun c => c.cell.id) := by
        have e : ((A ++ c :: B).map fun c => c.cell.id).Perm (c.cell.id :: (A ++ B).map fun c => c.cell.id) := by
          rw [List.map_append, List.map_cons, List.map_append]
          exact List.perm_middle
        exact (List.perm_cons _).mp (this.trans e)
      obtain ⟨cs, i1, i2⟩ := ih (A ++ B) h2
      exact ⟨c :: cs, (i1.cons c).trans List.perm_middle.symm, by rw [i2]; rfl⟩
  obtain ⟨cs, p1, p2⟩ := hperm
  have hm : ∀ c ∈ cs, c ∈ t.cells := fun c hc => p1.mem_iff.mp hc
  have key : ∀ qs : List SCell, (∀ c ∈ qs, c ∈ t.cells) → ∃ ks : List CellSnap,
      mapOpt (fun c : TableCell => (s.cellContent c.cellFrame).map fun bs => (⟨c, bs⟩ : CellSnap)) ((qs.map fun c => c.cell.id).filterMap fun c => s.tableCells c) = some ks ∧
      ks.map CellSnap.cell = qs.map SCell.cell ∧
      ∀ (i : Nat) c k, qs[i]? = some c → ks[i]? = some k → s.cellSnapshots c.cell.id = some k.blocks := by
    intro qs
    induction qs with
    | nil => intro _; exact ⟨[], rfl, rfl, by intro i c k h; simp at h⟩
    | cons c qs ih =>
      intro hq
      obtain ⟨ks, k1, k2, k3⟩ := ih fun x hx => hq x (by simp [hx])
      have hc := hq c (by simp)
      obtain ⟨c1, c2, _⟩ := hT.cell c hc
      obtain ⟨_, n, snaps, _, e2, _⟩ := C72_cell h ht hc
      have e3 : s.frameSnapshots c.frame = some snaps := by
        unfold Store.cellSnapshots at e2
        rw [c1, Option.bind_some, c2] at e2
        exact e2
      refine ⟨⟨c.cell, snaps⟩ :: ks, ?_, by simp [k2], ?_⟩
      · rw [List.map_cons, List.filterMap_cons, c1]
        dsimp only
        rw [mapOpt, c2]
        rw [Store.cellContent, e3, Option.map_some, Option.bind_some, k1]
        rfl
      · intro i x k hx hk
        cases i with
        | zero => simp at hx hk; subst hx; subst hk; exact e2
        | succ i => exact k3 i x k (by simpa using hx) (by simpa using hk)
  obtain ⟨ks, k1, k2, k3⟩ := key cs hm
  refine ⟨cs, ks, ?_, p1, k2, k3⟩
  unfold Store.tableSnapshot
  rw [hT.table]
  dsimp only
  rw [p2, k1]
  rfl

/-- The document "ab", a table of two cells, "cd" meets the hypotheses: its flow, and the second cell. -/
example : ∃ (s : Store) (d : Document) (items : List SItem) (t : STable) (c : SCell), Tabled s d 2 items ∧ t ∈ tablesOf items ∧
    c ∈ t.cells ∧ c.paras = [plainPara 5 []] ∧ HomeOf items 2 (plainPara 5 []) c.frame (some (t.table.id, 0, 1)) ∧
    InParagraph (flowParas items) 6 3 1 (plainPara 3 ['c', 'd']) := by
  obtain ⟨s, d, t, h1, h2, h3, h4⟩ := sample_tabled
  have hf : flowParas [.para (plainPara 2 ['a', 'b']), .table t, .para (plainPara 3 ['c', 'd'])] =
      [plainPara 2 ['a', 'b'], plainPara 4 [], plainPara 5 [], plainPara 3 ['c', 'd']] := by
    rw [flowParas_para, flowParas_table, h3]; rfl
  have ht : t ∈ tablesOf [.para (plainPara 2 ['a', 'b']), .table t, .para (plainPara 3 ['c', 'd'])] := by simp [tablesOf]
  have hl : ∃ a b, t.cells = [a, b] ∧ b.cell.row = 0 ∧ b.cell.column = 1 := by
    have := h4.places
    match hc : t.cells with
    | [] => rw [hc] at this; simp at this
    | [a] => rw [hc] at this; have := congrArg List.length this; simp at this
    | [a, b] =>
      rw [hc] at this
      refine ⟨a, b, rfl, ?_⟩
      simp [List.range, List.range.loop] at this
      exact this.2
    | a :: b :: c :: l => rw [hc] at this; have := congrArg List.length this; simp at this
  obtain ⟨a, b, e, r1, r2⟩ := hl
  obtain ⟨i, ea, _⟩ := h4.cells a (by rw [e]; simp)
  obtain ⟨j, eb, _⟩ := h4.cells b (by rw [e]; simp)
  have hb : b.paras = [plainPara 5 []] := by
    rw [e] at h3
    simp [ea, eb] at h3
    rw [eb, h3.2]
  refine ⟨s, d, _, t, b, h1, ht, by rw [e]; simp, hb, .inr ⟨t, ht, b, by rw [e]; simp, by rw [hb]; simp, rfl, by rw [r1, r2]⟩, ?_⟩
  rw [hf]; exact ⟨rfl, rfl, by decide, .inl (by decide)⟩

end Verif
