import Verif.Lemmas.Carries
import Verif.Model.TableCommands
/- Creating tables, cells and their frames. -/
namespace Verif
variable {s s' : Store} {d : Document}
open Store

theorem insertAtIndex_end (l : List Nat) (x : Nat) : insertAtIndex l (-1) x = l ++ [x] := by
  unfold insertAtIndex; rw [if_neg (by omega)]

theorem IdMap.keys_perm {α : Type} {m : IdMap α} {l : List Nat} (hl : l.Nodup) (h : ∀ i, (m i).isSome ↔ i ∈ l) :
    m.keys.Perm l := by
  rw [List.perm_ext_iff_of_nodup m.nodup hl]
  intro i
  rw [m.mem]; exact h i

theorem next_other {a b : String} (h : a ≠ b) (s : Store) : (s.nextId a).2.next b = s.next b := next_insert_other h s

theorem next_self (a : String) (s : Store) : (s.nextId a).2.next a = s.next a + 1 := by
  simp [Store.nextId, Store.next]

/-- A new frame at the end of the document. -/
theorem createFrame_new {fr : Frame} (hd : s.documents d.id = some d) (h0 : fr.id = 0)
    (hall : ∀ i ∈ d.frames, (s.frames i).isSome) :
    s.createFrame fr d.id (-1) = some (s.next "frame", { s with
      counters := (s.nextId "frame").2.counters
      frames := s.frames.insert (s.next "frame") { fr with id := s.next "frame" }
      documents := s.documents.insert d.id { d with frames := d.frames ++ [s.next "frame"] } }) := by
  unfold Store.createFrame Store.insertNewFrame
  rw [if_pos h0]
  simp only [Option.bind_some]
  have e1 : (s.nextId "frame").1 = s.next "frame" := rfl
  have hdf : Store.docFrames { (s.nextId "frame").2 with
      frames := (s.nextId "frame").2.frames.insert (s.nextId "frame").1
        { fr with id := (s.nextId "frame").1 } } d.id = d.frames := by
    simp [Store.docFrames, Store.nextId, hd]
  rw [hdf, insertAtIndex_end, e1]
  unfold Store.setDocFrames
  rw [if_pos]
  · simp only [Store.nextId, hd, Option.map_some]
  · rw [List.all_eq_true]
    intro i hi
    simp only [Store.nextId, IdMap.insert_get]
    split
    · rfl
    · rename_i hne
      rcases List.mem_append.mp hi with hi | hi
      · exact hall i hi
      · simp only [List.mem_singleton] at hi; exact absurd hi hne

/-- A new table at the end of the document. -/
theorem createTable_new {t : Table} (hd : s.documents d.id = some d)
    (hall : ∀ i ∈ d.tables, (s.tables i).isSome) :
    s.createTable t d.id (-1) = some (s.next "table", { s with
      counters := (s.nextId "table").2.counters
      tables := s.tables.insert (s.next "table") { t with id := s.next "table" }
      documents := s.documents.insert d.id { d with tables := d.tables ++ [s.next "table"] } }) := by
  unfold Store.createTable Store.insertNewTable
  have e1 : (s.nextId "table").1 = s.next "table" := rfl
  have hdf : Store.docTables { (s.nextId "table").2 with
      tables := (s.nextId "table").2.tables.insert (s.nextId "table").1
        { t with id := (s.nextId "table").1 } } d.id = d.tables := by
    simp [Store.docTables, Store.nextId, hd]
  simp only
  rw [hdf, insertAtIndex_end, e1]
  unfold Store.setDocTables
  rw [if_pos]
  · simp only [Store.nextId, hd, Option.map_some]
  · rw [List.all_eq_true]
    intro i hi
    simp only [Store.nextId, IdMap.insert_get]
    split
    · rfl
    · rename_i hne
      rcases List.mem_append.mp hi with hi | hi
      · exact hall i hi
      · simp only [List.mem_singleton] at hi; exact absurd hi hne

/-- A new cell at the end of a table. -/
theorem createCell_new {t : Table} {tid : Nat} {c : TableCell} (ht : s.tables tid = some t)
    (hall : ∀ i ∈ t.cells, (s.tableCells i).isSome) :
    s.createCell c tid (-1) = some (s.next "table_cell", { s with
      counters := (s.nextId "table_cell").2.counters
      tableCells := s.tableCells.insert (s.next "table_cell") { c with id := s.next "table_cell" }
      tables := s.tables.insert tid { t with cells := t.cells ++ [s.next "table_cell"] } }) := by
  unfold Store.createCell Store.insertNewCell
  have e1 : (s.nextId "table_cell").1 = s.next "table_cell" := rfl
  have hdf : Store.tableCellIds { (s.nextId "table_cell").2 with
      tableCells := (s.nextId "table_cell").2.tableCells.insert (s.nextId "table_cell").1
        { c with id := (s.nextId "table_cell").1 } } tid = t.cells := by
    simp [Store.tableCellIds, Store.nextId, ht]
  simp only
  rw [hdf, insertAtIndex_end, e1]
  unfold Store.setTableCells
  rw [if_pos]
  · simp only [Store.nextId, ht, Option.map_some]
  · rw [List.all_eq_true]
    intro i hi
    simp only [Store.nextId, IdMap.insert_get]
    split
    · rfl
    · rename_i hne
      rcases List.mem_append.mp hi with hi | hi
      · exact hall i hi
      · simp only [List.mem_singleton] at hi; exact absurd hi hne

/-- The cells made for a list of places, with the ids they get. -/
def madeCells : Nat → Nat → Nat → List (Int × Int × Int × Int) → List SCell
  | _, _, _, [] => []
  | F, B, C, (r, c, rs, cs) :: l =>
    ⟨newCell (C, F) r c rs cs, F, [⟨B, [], {}⟩]⟩ :: madeCells (F + 1) (B + 1) (C + 1) l

/-- The frame of a new cell. -/
def freshFrame (c : SCell) : Frame :=
  { id := c.frame, blocks := c.paras.map SPara.id, childOrder := c.paras.map fun p => (p.id : Int) }

/-- Ids of the blocks of cells. -/
def cellBlocks (cs : List SCell) : List Nat := (cs.flatMap SCell.paras).map SPara.id

/-- What creating cells changes. -/
structure Grew (s s' : Store) (did tid : Nat) (cs : List SCell) : Prop where
  frames : ∀ c ∈ cs, s'.frames c.frame = some (freshFrame c)
  oldFrames : ∀ i, i ∉ cs.map SCell.frame → s'.frames i = s.frames i
  blocks : ∀ c ∈ cs, ∀ p ∈ c.paras, s'.blocks p.id = some { id := p.id }
  oldBlocks : ∀ i, i ∉ cellBlocks cs → s'.blocks i = s.blocks i
  cells : ∀ c ∈ cs, s'.tableCells c.cell.id = some c.cell
  oldCells : ∀ i, (i ∉ cs.map fun c => c.cell.id) → s'.tableCells i = s.tableCells i
  document : ∀ d, s.documents did = some d → s'.documents did = some { d with frames := d.frames ++ cs.map SCell.frame }
  oldDocs : ∀ i, i ≠ did → s'.documents i = s.documents i
  table : ∀ t, s.tables tid = some t → s'.tables tid = some { t with cells := t.cells ++ cs.map fun c => c.cell.id }
  oldTables : ∀ i, i ≠ tid → s'.tables i = s.tables i
  nextFrame : s'.next "frame" = s.next "frame" + cs.length
  nextBlock : s'.next "block" = s.next "block" + cs.length
  nextCell : s'.next "table_cell" = s.next "table_cell" + cs.length
  nextTable : s'.next "table" = s.next "table"
  text : s'.text = s.text
  runs : s'.formatRuns = s.formatRuns
  images : s'.blockImages = s.blockImages
  roots : s'.roots = s.roots
  lists : s'.lists = s.lists

theorem madeCells_length (F B C : Nat) (l : List (Int × Int × Int × Int)) : (madeCells F B C l).length = l.length := by
  induction l generalizing F B C with
  | nil => rfl
  | cons x l ih => obtain ⟨r, c, rs, cs⟩ := x; simp [madeCells, ih]

theorem madeCells_frames (F B C : Nat) (l : List (Int × Int × Int × Int)) :
    (madeCells F B C l).map SCell.frame = List.range' F l.length := by
  induction l generalizing F B C with
  | nil => rfl
  | cons x l ih => obtain ⟨r, c, rs, cs⟩ := x; simp [madeCells, ih, List.range'_succ]

theorem madeCells_cells (F B C : Nat) (l : List (Int × Int × Int × Int)) :
    ((madeCells F B C l).map fun c => c.cell.id) = List.range' C l.length := by
  induction l generalizing F B C with
  | nil => rfl
  | cons x l ih => obtain ⟨r, c, rs, cs⟩ := x; simp [madeCells, ih, List.range'_succ, newCell]

theorem madeCells_blocks (F B C : Nat) (l : List (Int × Int × Int × Int)) :
    cellBlocks (madeCells F B C l) = List.range' B l.length := by
  unfold cellBlocks
  induction l generalizing F B C with
  | nil => rfl
  | cons x l ih =>
    obtain ⟨r, c, rs, cs⟩ := x
    simp only [madeCells, List.flatMap_cons, List.map_append, List.map_cons, List.map_nil, ih, List.length_cons,
      List.range'_succ, List.singleton_append]

theorem madeCells_mem {F B C : Nat} {l : List (Int × Int × Int × Int)} {x : SCell} (h : x ∈ madeCells F B C l) :
    ∃ i, x.paras = [⟨i, [], {}⟩] ∧ B ≤ i ∧ i < B + l.length ∧ x.cell.cellFrame = some x.frame ∧
      (x.cell.row, x.cell.column, x.cell.rowSpan, x.cell.columnSpan) ∈ l := by
  induction l generalizing F B C with
  | nil => simp [madeCells] at h
  | cons y l ih =>
    obtain ⟨r, c, rs, cs⟩ := y
    simp only [madeCells, List.mem_cons] at h
    rcases h with rfl | h
    · exact ⟨B, rfl, by omega, by simp, rfl, by simp [newCell]⟩
    · obtain ⟨i, h1, h2, h3, h4, h5⟩ := ih h
      exact ⟨i, h1, by omega, by simp; omega, h4, List.mem_cons_of_mem _ h5⟩

theorem madeCells_places (F B C : Nat) (l : List (Int × Int × Int × Int)) :
    ((madeCells F B C l).map fun c => (c.cell.row, c.cell.column, c.cell.rowSpan, c.cell.columnSpan)) = l := by
  induction l generalizing F B C with
  | nil => rfl
  | cons x l ih => obtain ⟨r, c, rs, cs⟩ := x; simp [madeCells, ih, newCell]

/-- The new paragraphs in order. -/
theorem madeCells_paras (F B C : Nat) (l : List (Int × Int × Int × Int)) :
    (madeCells F B C l).flatMap SCell.paras = (List.range' B l.length).map fun i => (⟨i, [], {}⟩ : SPara) := by
  induction l generalizing F B C with
  | nil => rfl
  | cons x l ih => obtain ⟨r, c, rs, cs⟩ := x; simp [madeCells, ih, List.range'_succ]

/-- One cell frame. -/
theorem createCellFrame_new (hd : s.documents d.id = some d) (hall : ∀ i ∈ d.frames, (s.frames i).isSome) :
    ∃ s1, s.createCellFrame d.id = some ((s.next "frame", s.next "block"), s1) ∧
      (∀ i, s1.frames i = if i = s.next "frame" then
        some { id := s.next "frame", blocks := [s.next "block"], childOrder := [(s.next "block" : Int)] } else s.frames i) ∧
      (∀ i, s1.blocks i = if i = s.next "block" then some { id := s.next "block" } else s.blocks i) ∧
      (∀ i, s1.documents i = if i = d.id then some { d with frames := d.frames ++ [s.next "frame"] } else s.documents i) ∧
      s1.next "frame" = s.next "frame" + 1 ∧ s1.next "block" = s.next "block" + 1 ∧
      s1.next "table_cell" = s.next "table_cell" ∧ s1.next "table" = s.next "table" ∧
      s1.text = s.text ∧ s1.formatRuns = s.formatRuns ∧ s1.blockImages = s.blockImages ∧ s1.roots = s.roots ∧
      s1.lists = s.lists ∧ s1.tables = s.tables ∧ s1.tableCells = s.tableCells := by
  unfold Store.createCellFrame
  rw [createFrame_new hd rfl hall, Option.bind_some]
  generalize hs1 : ({ s with
      counters := (s.nextId "frame").2.counters
      frames := s.frames.insert (s.next "frame") { ({} : Frame) with id := s.next "frame" }
      documents := s.documents.insert d.id { d with frames := d.frames ++ [s.next "frame"] } } : Store) = s1
  have hf : s1.frames (s.next "frame") = some { id := s.next "frame" } := by rw [← hs1]; simp
  have hb : s1.next "block" = s.next "block" := by
    rw [← hs1]; exact next_other (a := "frame") (b := "block") (by decide) s
  simp only [hf, Option.bind_some]
  rw [createBlock_new hf rfl (by intro i hi; cases hi), hb]
  simp only [Option.map_some, List.nil_append]
  refine ⟨_, rfl, ?_, ?_, ?_, ?_, ?_, ?_, ?_, ?_, ?_, ?_, ?_, ?_, ?_, ?_⟩
  · intro i
    simp only [Store.updateFrame, IdMap.insert_get, if_true, Store.keepFrame]
    split
    · rfl
    · rename_i hi
      rw [← hs1]; simp [hi]
  · intro i
    simp only [Store.updateFrame, IdMap.insert_get]
    split
    · rfl
    · rw [← hs1]
  · intro i
    simp only [Store.updateFrame]
    rw [← hs1]; simp
  · show (s1.nextId "block").2.next "frame" = _
    rw [next_other (by decide), ← hs1]
    exact next_self "frame" s
  · show (s1.nextId "block").2.next "block" = _
    rw [next_self, hb]
  · show (s1.nextId "block").2.next "table_cell" = _
    rw [next_other (by decide), ← hs1]
    exact next_other (a := "frame") (b := "table_cell") (by decide) s
  · show (s1.nextId "block").2.next "table" = _
    rw [next_other (by decide), ← hs1]
    exact next_other (a := "frame") (b := "table") (by decide) s
  all_goals (rw [← hs1]; rfl)

theorem createCells_new {tid : Nat} (l : List (Int × Int × Int × Int)) :
    ∀ {s : Store} {d : Document} {t : Table}, s.documents d.id = some d → (∀ i ∈ d.frames, (s.frames i).isSome) →
      s.tables tid = some t → (∀ i ∈ t.cells, (s.tableCells i).isSome) →
      ∃ s', s.createCells d.id tid l = some
          ((madeCells (s.next "frame") (s.next "block") (s.next "table_cell") l).map fun c =>
            (c.frame, (c.paras.map SPara.id).headD 0, c.cell.id), s') ∧
        Grew s s' d.id tid (madeCells (s.next "frame") (s.next "block") (s.next "table_cell") l) := by
  induction l with
  | nil =>
    intro s d t hd _ ht _
    refine ⟨s, rfl, ?_⟩
    constructor <;> try (first | rfl | (intros; rfl))
    · intro c hc; simp [madeCells] at hc
    · intro c hc; simp [madeCells] at hc
    · intro c hc; simp [madeCells] at hc
    · intro x hx; simp [madeCells, hx]
    · intro x hx; simp [madeCells, hx]
  | cons y l ih =>
    obtain ⟨r, c, rs, cs⟩ := y
    intro s d t hd hfr ht hcl
    obtain ⟨s1, e1, g1, g2, g3, n1, n2, n3, n4, k1, k2, k3, k4, k5, k6, k7⟩ := createCellFrame_new hd hfr
    have hd1 := g3 d.id
    rw [if_pos rfl] at hd1
    have ht1 : s1.tables tid = some t := by rw [k6]; exact ht
    have hcl1 : ∀ i ∈ t.cells, (s1.tableCells i).isSome := by rw [k7]; exact hcl
    simp only [Store.createCells]
    rw [e1, Option.bind_some]
    simp only
    rw [createCell_new ht1 hcl1, Option.bind_some]
    generalize hs2 : ({ s1 with
      counters := (s1.nextId "table_cell").2.counters
      tableCells := s1.tableCells.insert (s1.next "table_cell")
        { newCell (0, s.next "frame") r c rs cs with id := s1.next "table_cell" }
      tables := s1.tables.insert tid { t with cells := t.cells ++ [s1.next "table_cell"] } } : Store) = s2
    have m1 : s2.frames = s1.frames := by rw [← hs2]
    have m2 : s2.blocks = s1.blocks := by rw [← hs2]
    have m3 : s2.documents = s1.documents := by rw [← hs2]
    have m4 : ∀ i, s2.tableCells i = if i = s.next "table_cell" then
        some (newCell (s.next "table_cell", s.next "frame") r c rs cs) else s.tableCells i := by
      intro i
      rw [← hs2, ← n3]
      simp only [IdMap.insert_get, k7]
      rfl
    have m5 : ∀ i, s2.tables i = if i = tid then some { t with cells := t.cells ++ [s.next "table_cell"] }
        else s.tables i := by
      intro i
      rw [← hs2, ← n3]
      simp only [IdMap.insert_get, k6]
    have q1 : s2.next "frame" = s.next "frame" + 1 := by
      rw [← hs2, ← n1]; exact next_other (a := "table_cell") (b := "frame") (by decide) s1
    have q2 : s2.next "block" = s.next "block" + 1 := by
      rw [← hs2, ← n2]; exact next_other (a := "table_cell") (b := "block") (by decide) s1
    have q3 : s2.next "table_cell" = s.next "table_cell" + 1 := by
      rw [← hs2, ← n3]; exact next_self "table_cell" s1
    have q4 : s2.next "table" = s.next "table" := by
      rw [← hs2, ← n4]; exact next_other (a := "table_cell") (b := "table") (by decide) s1
    have hd2 : s2.documents ({ d with frames := d.frames ++ [s.next "frame"] } : Document).id =
        some { d with frames := d.frames ++ [s.next "frame"] } := by rw [m3]; exact hd1
    obtain ⟨s', e2, G⟩ := ih (s := s2) hd2 (by
        intro i hi
        rw [m1, g1]
        split
        · rfl
        · rename_i hne
          rcases List.mem_append.mp hi with hi | hi
          · exact hfr i hi
          · simp only [List.mem_singleton] at hi; exact absurd hi hne)
      (t := { t with cells := t.cells ++ [s.next "table_cell"] }) (by rw [m5, if_pos rfl]) (by
        intro i hi
        rw [m4]
        split
        · rfl
        · rename_i hne
          rcases List.mem_append.mp hi with hi | hi
          · exact hcl i hi
          · simp only [List.mem_singleton] at hi; exact absurd hi hne)
    have e2' : s2.createCells d.id tid l = _ := e2
    rw [e2', Option.map_some]
    rw [n3] at *
    rw [q1, q2, q3] at G
    refine ⟨s', by simp [madeCells, q1, q2, q3, newCell], ?_⟩
    have hF : s.next "frame" ∉ (madeCells (s.next "frame" + 1) (s.next "block" + 1) (s.next "table_cell" + 1) l).map SCell.frame := by
      rw [madeCells_frames]; simp [List.mem_range']; omega
    have hB : s.next "block" ∉ cellBlocks (madeCells (s.next "frame" + 1) (s.next "block" + 1) (s.next "table_cell" + 1) l) := by
      rw [madeCells_blocks]; simp [List.mem_range']; omega
    have hC : s.next "table_cell" ∉ (madeCells (s.next "frame" + 1) (s.next "block" + 1) (s.next "table_cell" + 1) l).map fun c => c.cell.id := by
      rw [madeCells_cells]; simp [List.mem_range']; omega
    constructor
    · intro x hx
      simp only [madeCells, List.mem_cons] at hx
      rcases hx with rfl | hx
      · show s'.frames (s.next "frame") = _
        rw [G.oldFrames _ hF, m1, g1, if_pos rfl]; rfl
      · exact G.frames x hx
    · intro i hi
      simp only [madeCells, List.map_cons, List.mem_cons, not_or] at hi
      rw [G.oldFrames i hi.2, m1, g1, if_neg hi.1]
    · intro x hx p hp
      simp only [madeCells, List.mem_cons] at hx
      rcases hx with rfl | hx
      · simp only [List.mem_singleton] at hp
        subst hp
        show s'.blocks (s.next "block") = _
        rw [G.oldBlocks _ hB, m2, g2, if_pos rfl]
      · exact G.blocks x hx p hp
    · intro i hi
      simp only [cellBlocks, madeCells, List.flatMap_cons, List.map_append, List.mem_append, not_or, List.map_cons,
        List.map_nil, List.mem_singleton] at hi
      rw [G.oldBlocks i hi.2, m2, g2, if_neg hi.1]
    · intro x hx
      simp only [madeCells, List.mem_cons] at hx
      rcases hx with rfl | hx
      · show s'.tableCells (s.next "table_cell") = _
        rw [G.oldCells _ hC, m4, if_pos rfl]
      · exact G.cells x hx
    · intro i hi
      simp only [madeCells, List.map_cons, List.mem_cons, not_or] at hi
      rw [G.oldCells i hi.2, m4, if_neg (show ¬ i = s.next "table_cell" from hi.1)]
    · intro x hx
      rw [hd] at hx; cases hx
      have := G.document _ hd2
      rw [show s'.documents d.id = _ from this]
      simp [madeCells]
    · intro i hi
      rw [G.oldDocs i hi, m3, g3, if_neg hi]
    · intro x hx
      rw [ht] at hx; cases hx
      rw [G.table _ (by rw [m5, if_pos rfl])]
      simp [madeCells, newCell]
    · intro i hi
      rw [G.oldTables i hi, m5, if_neg hi]
    · rw [G.nextFrame, q1, madeCells, List.length_cons]; omega
    · rw [G.nextBlock, q2, madeCells, List.length_cons]; omega
    · rw [G.nextCell, q3, madeCells, List.length_cons]; omega
    · rw [G.nextTable, q4]
    · rw [G.text, ← hs2]; exact k1
    · rw [G.runs, ← hs2]; exact k2
    · rw [G.images, ← hs2]; exact k3
    · rw [G.roots, ← hs2]; exact k4
    · rw [G.lists, ← hs2]; exact k5

end Verif
