import Verif.Lemmas.TablePasteCells
import Verif.Lemmas.TablePlace
/-
A pasted table in the store and in the text.
-/
namespace Verif
open Store
variable {s s' : Store} {d : Document} {f : Nat} {items A B : List SItem}

/-- The cells enter the text at its end. -/
theorem ropeCells_end {items0 : List SItem} {fr : Frame} (bs : List (Nat × List Char)) : ∀ {s : Store} {L : List Para}, Repr s.text L → L ≠ [] →
    (∀ x ∈ L, (∃ p ∈ flowParas items, x.1 = .block p.id) ∨ ∃ t ∈ tablesOf items, x.1 = .table t.table.id) →
    (∀ b ∈ bs, ∃ p ∈ flowParas items, p.id = b.1) → (bs.map Prod.fst).Nodup →
    (∀ b ∈ bs, Marker.block b.1 ∉ L.map Prod.fst) →
    s.frames f = some fr → fr.parentFrame = none → fr.table = none → fr.childOrder = items0.map SItem.entry →
    tablesOf items0 = tablesOf items → fr.blocks.Perm ((topParas items).map SPara.id) →
    (∀ t ∈ tablesOf items, ShowsTable s f t ∧ 0 < t.anchor) → (2 ≤ s.frames.len ∨ tablesOf items = []) →
    ∃ st', ropeCells f (bs.map fun x => [x]) s = some (s.withText st') ∧ Repr st' (L ++ bs.map fun x => (.block x.1, x.2)) := by
  induction bs with
  | nil =>
    intro s L h _ _ _ _ _ _ _ _ _ _ _ _ _
    exact ⟨s.text, rfl, by simpa using h⟩
  | cons x bs ih =>
    intro s L h hL hm hb hnd hnew hf hp hft hc hc0 hbl ht hlen
    obtain ⟨b, t⟩ := x
    have hend := topLevelFrameEnd_main h hL hm hf hp hft hc hc0 hbl ht hlen
    have hlast : L = L.dropLast ++ [L.getLast hL] := (List.dropLast_concat_getLast hL).symm
    generalize L.getLast hL = x at hlast
    generalize L.dropLast = A at hlast
    obtain ⟨m, c⟩ := x
    have h0 : Repr s.text (A ++ (m, c) :: []) := by rw [hlast] at h; exact h
    obtain ⟨st1, e1, h1⟩ := insertBlockAt_repr (new := b) t h0 (by have := hnew (b, t) (by simp); rw [hlast] at this; exact this)
    have htot : s.text.idx.total = span A + utf8Len c := by rw [h0.focus.total]; simp
    have h1' : Repr (s.withText st1).text (L ++ [(.block b, t)]) := by
      show Repr st1 _; rw [hlast]; simpa using h1
    rw [List.map_cons, List.nodup_cons] at hnd
    obtain ⟨st2, e2, h2⟩ := ih (s := s.withText st1) h1' (by simp) (by
        intro y hy
        rcases List.mem_append.mp hy with hy | hy
        · exact hm y hy
        · simp only [List.mem_singleton] at hy
          subst hy
          obtain ⟨p, p1, p2⟩ := hb (b, t) (by simp)
          exact .inl ⟨p, p1, by rw [p2]⟩) (fun y hy => hb y (by simp [hy])) hnd.2 (by
        intro y hy hmem
        rw [List.map_append, List.mem_append] at hmem
        rcases hmem with hmem | hmem
        · exact hnew y (by simp [hy]) hmem
        · simp only [List.map_cons, List.map_nil, List.mem_singleton, Marker.block.injEq] at hmem
          exact hnd.1 (List.mem_map.mpr ⟨y, hy, hmem⟩)) hf hp hft hc hc0 hbl (by
        intro u hu
        obtain ⟨q, q0⟩ := ht u hu
        exact ⟨⟨q.table, q.cells, q.order, q.anchor, q.cell⟩, q0⟩) hlen
    refine ⟨st2, ?_, by simpa using h2⟩
    simp only [List.map_cons, Store.ropeCells, Store.ropeCell]
    rw [hend, Option.bind_some, htot, e1, Option.bind_some]
    simp only [Store.ropeAddBlocks, Option.map_some, Option.bind_some]
    rw [e2]; rfl

/-- What making a table of a fragment changes. -/
structure TablePut (s s' : Store) (d : Document) (f : Nat) (t : FragTable) (tid a : Nat) (cs : List SCell) : Prop where
  anchor : s'.frames a = some { id := a, parentFrame := some f, table := some tid }
  frames : ∀ c ∈ cs, s'.frames c.frame = some (freshFrame c)
  oldFrames : ∀ i, i ≠ a → i ∉ cs.map SCell.frame → s'.frames i = s.frames i
  blocks : ∀ i ∈ cellBlocks cs, ∃ pos, s'.blocks i = some { id := i, documentPosition := pos }
  oldBlocks : ∀ i, i ∉ cellBlocks cs → s'.blocks i = s.blocks i
  cells : ∀ c ∈ cs, s'.tableCells c.cell.id = some c.cell
  oldCells : ∀ i, (i ∉ cs.map fun c => c.cell.id) → s'.tableCells i = s.tableCells i
  document : s'.documents d.id = some { d with
    frames := d.frames ++ cs.map SCell.frame ++ [a], tables := d.tables ++ [tid] }
  table : s'.tables tid = some { t.entity with id := tid, cells := cs.map fun c => c.cell.id }
  oldTables : ∀ i, i ≠ tid → s'.tables i = s.tables i
  nextFrame : s'.next "frame" = s.next "frame" + cs.length + 1
  nextBlock : s'.next "block" = s.next "block" + cs.length
  nextCell : s'.next "table_cell" = s.next "table_cell" + cs.length
  nextTable : s'.next "table" = s.next "table" + 1
  text : s'.text = s.text
  runs : ∀ c ∈ cs, ∀ p ∈ c.paras, StyledOk ((s'.formatRuns p.id).getD []) p.chars
  oldRuns : ∀ i, i ∉ cellBlocks cs → s'.formatRuns i = s.formatRuns i
  images : ∀ c ∈ cs, ∀ p ∈ c.paras, (s'.blockImages p.id).getD [] = []
  oldImages : ∀ i, i ∉ cellBlocks cs → s'.blockImages i = s.blockImages i
  roots : s'.roots = s.roots
  lists : s'.lists = s.lists

theorem cellBlocks_mem {cs : List SCell} {i : Nat} (h : i ∈ cellBlocks cs) : ∃ c ∈ cs, ∃ p ∈ c.paras, p.id = i := by
  unfold cellBlocks at h
  obtain ⟨p, hp, e⟩ := List.mem_map.mp h
  obtain ⟨c, hc, hpc⟩ := List.mem_flatMap.mp hp
  exact ⟨c, hc, p, hpc, e⟩

theorem pasteTable_put {t : FragTable} {pos : Int} (hdoc : s.documents d.id = some d) (hallT : ∀ t ∈ d.tables, (s.tables t).isSome)
    (hallF : ∀ g ∈ d.frames, (s.frames g).isSome) (hframeLt : ∀ g, (s.frames g).isSome → g < s.next "frame") (hsim : ∀ c ∈ t.cells, c.Simple)
    (hclean : ∀ i, s.next "block" ≤ i → s.formatRuns i = none ∧ s.blockImages i = none) :
    ∃ last s4, pasteTable d.id f t pos s = some (s.next "table", s.next "frame" + t.cells.length,
        cellTexts (pastedCells (s.next "frame") (s.next "block") (s.next "table_cell") t.cells), last, s4) ∧
      TablePut s s4 d f t (s.next "table") (s.next "frame" + t.cells.length)
        (pastedCells (s.next "frame") (s.next "block") (s.next "table_cell") t.cells) ∧
      last = pos + charsBefore (paras ((pastedCells (s.next "frame") (s.next "block") (s.next "table_cell") t.cells).flatMap SCell.paras)) ∧
      ∀ X q Y, (pastedCells (s.next "frame") (s.next "block") (s.next "table_cell") t.cells).flatMap SCell.paras = X ++ q :: Y →
        s4.blocks q.id = some { id := q.id, documentPosition := pos + charsBefore (paras X) } := by
  have hcf := pastedCells_frames (s.next "frame") (s.next "block") (s.next "table_cell") t.cells
  have hcb := pastedCells_blocks (s.next "frame") (s.next "block") (s.next "table_cell") t.cells
  have hcl := pastedCells_length (s.next "frame") (s.next "block") (s.next "table_cell") t.cells
  unfold Store.pasteTable
  rw [createTable_new hdoc hallT, Option.bind_some]
  generalize htid : s.next "table" = tid
  generalize hs1 : ({ s with
      counters := (s.nextId "table").2.counters
      tables := s.tables.insert tid { t.entity with id := tid }
      documents := s.documents.insert d.id { d with tables := d.tables ++ [tid] } } : Store) = s1
  have hd1 : s1.documents ({ d with tables := d.tables ++ [tid] } : Document).id = some { d with tables := d.tables ++ [tid] } := by
    rw [← hs1]; simp
  have ht1 : s1.tables tid = some { t.entity with id := tid } := by
    rw [← hs1]; simp
  have ht1' : ∀ i, i ≠ tid → s1.tables i = s.tables i := by intro i hi; rw [← hs1]; simp [hi]
  have hnf1 : s1.next "frame" = s.next "frame" := by rw [← hs1]; exact next_other (a := "table") (b := "frame") (by decide) s
  have hnb1 : s1.next "block" = s.next "block" := by rw [← hs1]; exact next_other (a := "table") (b := "block") (by decide) s
  have hnc1 : s1.next "table_cell" = s.next "table_cell" := by rw [← hs1]; exact next_other (a := "table") (b := "table_cell") (by decide) s
  have hnt1 : s1.next "table" = tid + 1 := by rw [← hs1, ← htid]; exact next_self "table" s
  have o1 : s1.frames = s.frames := by rw [← hs1]
  have o2 : s1.blocks = s.blocks := by rw [← hs1]
  have o3 : s1.tableCells = s.tableCells := by rw [← hs1]
  have o4 : s1.formatRuns = s.formatRuns ∧ s1.blockImages = s.blockImages ∧ s1.text = s.text ∧ s1.roots = s.roots ∧ s1.lists = s.lists := by
    rw [← hs1]; exact ⟨rfl, rfl, rfl, rfl, rfl⟩
  obtain ⟨firsts, last, s2, e2, hfi, hfx, hfl, hfp, G⟩ := pasteCells_new (tid := tid) (pos := pos) t.cells hsim hd1 (by
      rw [o1]; exact hallF) ht1 (by intro i hi; simp [FragTable.entity] at hi) (by
      intro i hi; rw [o4.1, o4.2.1]; exact hclean i (by omega))
  dsimp only
  rw [show pasteCells d.id tid t.cells pos s1 = _ from e2, Option.bind_some]
  dsimp only
  rw [hnf1, hnb1, hnc1] at G hfi hfl hfp ⊢
  have G' : Sprouted s1 s2 d.id tid _ := G
  clear G
  generalize hcs : pastedCells (s.next "frame") (s.next "block") (s.next "table_cell") t.cells = cs at *
  have hcbn : (cellBlocks cs).Nodup := by rw [hcb]; exact List.nodup_range'
  obtain ⟨b1, b2, m3, b3⟩ := updateBlocks_get (s := s2) firsts (by rw [hfi]; exact hcbn)
  generalize hs3 : s2.updateBlocks firsts = s3 at *
  have p1 : s3.frames = s2.frames := by rw [b3]
  have p2 : s3.documents = s2.documents := by rw [b3]
  have p3 : s3.tables = s2.tables := by rw [b3]
  have p4 : s3.tableCells = s2.tableCells := by rw [b3]
  have p5 : ∀ k, s3.next k = s2.next k := by rw [b3]; intro k; rfl
  have p6 : s3.formatRuns = s2.formatRuns ∧ s3.blockImages = s2.blockImages ∧ s3.text = s2.text ∧ s3.roots = s2.roots ∧ s3.lists = s2.lists := by
    rw [b3]; exact ⟨rfl, rfl, rfl, rfl, rfl⟩
  have hd2 : s2.documents d.id = some { d with tables := d.tables ++ [tid], frames := d.frames ++ cs.map SCell.frame } :=
    G'.document _ hd1
  have hcfm : ∀ g, g ∈ cs.map SCell.frame ↔ s.next "frame" ≤ g ∧ g < s.next "frame" + t.cells.length := by
    intro g; rw [hcf]; simp [List.mem_range'_1]
  have hnf3 : s3.next "frame" = s.next "frame" + t.cells.length := by rw [p5, G'.nextFrame, hcl, hnf1]
  have e4 := createFrame_new (s := s3) (d := { d with tables := d.tables ++ [tid], frames := d.frames ++ cs.map SCell.frame })
    (fr := { parentFrame := some f, table := some tid }) (by rw [p2]; exact hd2) rfl (by
      intro g hg
      rw [p1]
      rcases List.mem_append.mp hg with hg | hg
      · rw [G'.oldFrames g (fun hm => by have := hframeLt g (hallF g hg); have := (hcfm g).mp hm; omega), o1]
        exact hallF g hg
      · obtain ⟨c, hc, rfl⟩ := List.mem_map.mp hg
        rw [G'.frames c hc]; rfl)
  rw [show s3.createFrame { parentFrame := some f, table := some tid } d.id (-1) = _ from e4, Option.map_some, hnf3]
  have hblk : ∀ x ∈ firsts, s3.blocks x.id = some { id := x.id, documentPosition := x.documentPosition } := by
    intro x hx
    rw [b1 x hx]
    obtain ⟨c, hc, p, hp, e⟩ := cellBlocks_mem (cs := cs) (by rw [← hfi]; exact List.mem_map_of_mem hx)
    rw [← e, G'.blocks c hc p hp, e, hfx x hx]
    rfl
  refine ⟨last, _, rfl, ?_, hfl, ?_⟩
  rotate_left
  · intro X q Y e
    exact hblk _ (hfp X q Y e)
  constructor
  · simp
  · intro c hc
    have : c.frame ≠ s.next "frame" + t.cells.length := by
      have := (hcfm c.frame).mp (List.mem_map_of_mem hc); omega
    simp only [IdMap.insert_get, if_neg this, p1]
    exact G'.frames c hc
  · intro i hi hm
    simp only [IdMap.insert_get, if_neg hi, p1]
    rw [G'.oldFrames i hm, o1]
  · intro i hi
    rw [← hfi] at hi
    obtain ⟨x, hx, rfl⟩ := List.mem_map.mp hi
    refine ⟨x.documentPosition, ?_⟩
    show s3.blocks x.id = _
    exact hblk x hx
  · intro i hi
    show s3.blocks i = _
    rw [b2 i (by rw [hfi]; exact hi), G'.oldBlocks i hi, o2]
  · intro c hc
    show s3.tableCells _ = _
    rw [p4]; exact G'.cells c hc
  · intro i hi
    show s3.tableCells _ = _
    rw [p4, G'.oldCells i hi, o3]
  · simp only [IdMap.insert_get, if_true]
  · show s3.tables _ = _
    rw [p3, G'.table _ ht1]; simp [FragTable.entity]
  · intro i hi
    show s3.tables _ = _
    rw [p3, G'.oldTables i hi, ht1' i hi]
  · show (s3.nextId "frame").2.next "frame" = _
    rw [next_self, hnf3, hcl]
  · show (s3.nextId "frame").2.next "block" = _
    rw [next_other (by decide), p5, G'.nextBlock, hnb1]
  · show (s3.nextId "frame").2.next "table_cell" = _
    rw [next_other (by decide), p5, G'.nextCell, hnc1]
  · show (s3.nextId "frame").2.next "table" = _
    rw [next_other (by decide), p5, G'.nextTable, hnt1, htid]
  · show s3.text = _
    rw [p6.2.2.1, G'.text, o4.2.2.1]
  · intro c hc p hp
    show StyledOk ((s3.formatRuns p.id).getD []) _
    rw [p6.1]; exact G'.runs c hc p hp
  · intro i hi
    show s3.formatRuns i = _
    rw [p6.1, G'.oldRuns i hi, o4.1]
  · intro c hc p hp
    show (s3.blockImages p.id).getD [] = _
    rw [p6.2.1]; exact G'.images c hc p hp
  · intro i hi
    show s3.blockImages i = _
    rw [p6.2.1, G'.oldImages i hi, o4.2.1]
  · show s3.roots = _
    rw [p6.2.2.2.1, G'.roots, o4.2.2.2.1]
  · show s3.lists = _
    rw [p6.2.2.2.2, G'.lists, o4.2.2.2.2]

theorem Tabled.pasteTable_new {t : FragTable} {pos : Int} (h : Tabled s d f items) (hsim : ∀ c ∈ t.cells, c.Simple)
    (hclean : ∀ i, s.next "block" ≤ i → s.formatRuns i = none ∧ s.blockImages i = none) :
    ∃ last s4, pasteTable d.id f t pos s = some (s.next "table", s.next "frame" + t.cells.length,
        cellTexts (pastedCells (s.next "frame") (s.next "block") (s.next "table_cell") t.cells), last, s4) ∧
      TablePut s s4 d f t (s.next "table") (s.next "frame" + t.cells.length)
        (pastedCells (s.next "frame") (s.next "block") (s.next "table_cell") t.cells) := by
  obtain ⟨last, s4, h1, h2, _⟩ := pasteTable_put (f := f) (pos := pos) h.document h.allTables h.allFrames
    (fun g hg => (h.freshFrames g hg).2) hsim hclean
  exact ⟨last, s4, h1, h2⟩

/-- The blocks of the main frame are the paragraphs outside the tables. -/
theorem Tabled.entities {fr : Frame} (h : Tabled s d f items) (hno : tablesOf items = []) (hf : s.frames f = some fr) :
    Entities (flowParas items) (s.getBlocks fr.blocks) ∧ ((s.getBlocks fr.blocks).map Block.id).Nodup ∧
      ∀ x ∈ s.getBlocks fr.blocks, s.blocks x.id = some x := by
  obtain ⟨L, hH, hsub⟩ := h.content
  obtain ⟨fr', f1, f2, f3, f4, f5, f6, f7⟩ := h.frame
  rw [hf] at f1; cases f1
  rw [flow_of_noTables hno] at f7
  have key : ∀ l : List Nat, (∀ i ∈ l, i ∈ (flowParas items).map SPara.id) → (s.getBlocks l).map Block.id = l ∧
      (∀ x ∈ s.getBlocks l, s.blocks x.id = some x ∧ ∃ q ∈ flowParas items, IsBlock q x) := by
    intro l
    induction l with
    | nil => intro _; exact ⟨rfl, by simp [Store.getBlocks]⟩
    | cons i l ih =>
      intro hl
      obtain ⟨q, hq, e⟩ := List.mem_map.mp (hl i (by simp))
      obtain ⟨b, hb, hqb⟩ := hH.block q hq
      rw [e] at hb
      have hbi : b.id = i := by rw [hqb, ← e]
      obtain ⟨i1, i2⟩ := ih fun j hj => hl j (by simp [hj])
      have e2 : s.getBlocks (i :: l) = b :: s.getBlocks l := by simp [Store.getBlocks, hb]
      rw [e2]
      refine ⟨by rw [List.map_cons, i1, hbi], ?_⟩
      intro x hx
      rcases List.mem_cons.mp hx with rfl | hx
      · exact ⟨by rw [hbi]; exact hb, q, hq, hqb⟩
      · exact i2 x hx
  obtain ⟨k1, k2⟩ := key fr.blocks fun i hi => f7.mem_iff.mp hi
  refine ⟨⟨fun x hx => (k2 x hx).2, ?_⟩, ?_, fun x hx => (k2 x hx).1⟩
  · intro q hq
    have : q.id ∈ (s.getBlocks fr.blocks).map Block.id := by
      rw [k1, f7.mem_iff]; exact List.mem_map_of_mem hq
    obtain ⟨x, hx, e⟩ := List.mem_map.mp this
    exact ⟨x, hx, e⟩
  · rw [k1, f7.nodup_iff]; exact hH.ids_nodup

/-- The caret's paragraph among the blocks of the main frame. -/
theorem Tabled.findFrame {fr : Frame} {p : SPara} {X Y : List SPara} {a b : List SChar} (h : Tabled s d f items)
    (hno : tablesOf items = []) (hf : s.frames f = some fr) (e : flowParas items = X ++ p :: Y) (hc : p.chars = a ++ b) :
    ∃ i, s.findBlockAtPosition (sortByKey Block.documentPosition (s.getBlocks fr.blocks))
      ((charsBefore (paras X) + a.length : Nat) : Int) = some (p.entity (charsBefore (paras X)), i, (a.length : Int)) := by
  obtain ⟨L, hH, hsub⟩ := h.content
  rw [hno] at hH
  rw [flow_of_noTables hno] at hsub
  have hS := hH.toShows hsub h.root h.document
  have hE := (h.entities hno hf).1.sort
  rw [e] at hS hE
  obtain ⟨i, hi⟩ := hE.find (p := p) (by simp)
  exact ⟨i, hS.findIn hc hE hi⟩

theorem Tabled.noTryReplace {p : SPara} {X Y : List SPara} {a b : List SChar} {ts : List FragTable} (h : Tabled s d f items)
    (hno : tablesOf items = []) (e : flowParas items = X ++ p :: Y) (hc : p.chars = a ++ b) :
    s.tryReplaceCells d.id ((charsBefore (paras X) + a.length : Nat) : Int) ts = some none := by
  obtain ⟨fr, f1, f2, f3, f4, f5, f6, f7⟩ := h.frame
  obtain ⟨rest, h1, h2⟩ := h.frames
  have hdf : s.docFrames d.id = f :: rest := by unfold Store.docFrames; rw [h.document, ← h1]; rfl
  have hdt : s.docTables d.id = [] := by
    have := h.tables
    rw [hno] at this
    unfold Store.docTables; rw [h.document]; simpa using this
  have hfb : s.frameBlocks f = fr.blocks := by unfold Store.frameBlocks; rw [f1]; rfl
  match ts with
  | [] => rfl
  | _ :: _ :: _ => rfl
  | [t] =>
    obtain ⟨i, hi⟩ := h.findFrame hno f1 e hc
    simp only [Store.tryReplaceCells, hdf, List.head?_cons, Option.bind_some, Store.pasteBlocks, Store.blockToCell, hdt,
      List.flatMap_nil, List.append_nil, hfb, hi, List.reverse_nil, List.find?_nil]

end Verif
