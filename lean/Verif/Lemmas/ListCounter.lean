import Verif.Lemmas.TablePasteDoc
/-
Making a table gives no number to a list.
-/
namespace Verif
open Store
variable {s s' : Store}

theorem nextId_list {k : String} (h : k ≠ "list") (s : Store) : (s.nextId k).2.next "list" = s.next "list" :=
  next_other h s

theorem setDocTables_next {o : Nat} {l : List Nat} (h : s.setDocTables o l = some s') (k : String) : s'.next k = s.next k := by
  unfold Store.setDocTables at h
  split at h
  · split at h <;> cases h <;> rfl
  · cases h

theorem setDocFrames_next {o : Nat} {l : List Nat} (h : s.setDocFrames o l = some s') (k : String) : s'.next k = s.next k := by
  unfold Store.setDocFrames at h
  split at h
  · split at h <;> cases h <;> rfl
  · cases h

theorem setTableCells_next {o : Nat} {l : List Nat} (h : s.setTableCells o l = some s') (k : String) : s'.next k = s.next k := by
  unfold Store.setTableCells at h
  split at h
  · split at h <;> cases h <;> rfl
  · cases h

theorem setFrameBlocks_next {o : Nat} {l : List Nat} (h : s.setFrameBlocks o l = some s') (k : String) : s'.next k = s.next k := by
  unfold Store.setFrameBlocks at h
  split at h
  · split at h <;> cases h <;> rfl
  · cases h

theorem createTable_list {t : Table} {o : Nat} {i : Int} {r : Nat} (h : s.createTable t o i = some (r, s')) : s'.next "list" = s.next "list" := by
  simp only [Store.createTable, Option.map_eq_some_iff] at h
  obtain ⟨x, h, e⟩ := h
  have := setDocTables_next h "list"
  cases e
  rw [this]; exact nextId_list (k := "table") (by decide) s

theorem createCell_list {c : TableCell} {o : Nat} {i : Int} {r : Nat} (h : s.createCell c o i = some (r, s')) : s'.next "list" = s.next "list" := by
  simp only [Store.createCell, Option.map_eq_some_iff] at h
  obtain ⟨x, h, e⟩ := h
  have := setTableCells_next h "list"
  cases e
  rw [this]; exact nextId_list (k := "table_cell") (by decide) s

theorem createFrame_list {c : Frame} {o : Nat} {i : Int} {r : Nat} (h : s.createFrame c o i = some (r, s')) : s'.next "list" = s.next "list" := by
  simp only [Store.createFrame, Store.insertNewFrame, Option.bind_eq_some_iff, Option.map_eq_some_iff] at h
  obtain ⟨⟨y, s1⟩, h0, x, h, e⟩ := h
  have := setDocFrames_next h "list"
  cases e
  rw [this]
  split at h0
  · cases h0; exact nextId_list (k := "frame") (by decide) s
  · split at h0 <;> cases h0; rfl

theorem createBlock_list {c : Block} {o : Nat} {i : Int} {r : Nat} (h : s.createBlock c o i = some (r, s')) : s'.next "list" = s.next "list" := by
  simp only [Store.createBlock, Store.insertNewBlock, Option.bind_eq_some_iff, Option.map_eq_some_iff] at h
  obtain ⟨⟨y, s1⟩, h0, x, h, e⟩ := h
  have := setFrameBlocks_next h "list"
  cases e
  rw [this]
  split at h0
  · cases h0; exact nextId_list (k := "block") (by decide) s
  · split at h0 <;> cases h0; rfl

theorem createCellFrame_list {d : Nat} {r : Nat × Nat} (h : s.createCellFrame d = some (r, s')) : s'.next "list" = s.next "list" := by
  simp only [Store.createCellFrame, Option.bind_eq_some_iff, Option.map_eq_some_iff] at h
  obtain ⟨⟨g, s1⟩, h1, _, _, ⟨b, s2⟩, h2, h3⟩ := h
  have e1 := createFrame_list h1
  have e2 := createBlock_list h2
  cases h3
  exact e2.trans e1

theorem addCellBlocks_list {g : Nat} (l : List FragBlock) : ∀ {pos : Int} {s s' : Store} {x : List (Nat × List Char)} {y : Int},
    addCellBlocks g l pos s = some (x, y, s') → s'.next "list" = s.next "list" := by
  induction l with
  | nil => intro pos s s' x y h; cases h; rfl
  | cons fb l ih =>
    intro pos s s' x y h
    simp only [Store.addCellBlocks, Option.bind_eq_some_iff, Option.map_eq_some_iff] at h
    obtain ⟨⟨b, s1⟩, h1, ⟨l', p', s2⟩, h2, h3⟩ := h
    have e1 := createBlock_list h1
    have e2 := ih h2
    cases h3
    exact e2.trans e1

theorem fillCell_list {g b : Nat} {l : List FragBlock} {pos : Int} {x : List (Nat × List Char)} {y : Int}
    (h : fillCell g b pos s l = some (x, y, s')) : s'.next "list" = s.next "list" := by
  cases l with
  | nil => cases h; rfl
  | cons fb l =>
    simp only [Store.fillCell, Option.map_eq_some_iff] at h
    obtain ⟨⟨l', p', s2⟩, h2, h3⟩ := h
    have e2 := addCellBlocks_list l h2
    cases h3
    exact e2

theorem pasteCells_list {did tid : Nat} (l : List FragCell) : ∀ {pos : Int} {s s' : Store} {x : List (List (Nat × List Char))} {z : List Block} {y : Int},
    pasteCells did tid l pos s = some (x, z, y, s') → s'.next "list" = s.next "list" := by
  induction l with
  | nil => intro pos s s' x z y h; cases h; rfl
  | cons fb l ih =>
    intro pos s s' x z y h
    simp only [Store.pasteCells, Option.bind_eq_some_iff, Option.map_eq_some_iff] at h
    obtain ⟨⟨⟨g, b⟩, s1⟩, h1, ⟨l1, n1, s2⟩, h2, ⟨c, s3⟩, h3, ⟨ls, bs, la, s4⟩, h4, h5⟩ := h
    have e1 := createCellFrame_list h1
    have e2 := fillCell_list h2
    have e3 := createCell_list h3
    have e4 := ih h4
    cases h5
    exact e4.trans (e3.trans (e2.trans e1))

theorem updateBlocks_next (l : List Block) : ∀ (s : Store) (k : String), (s.updateBlocks l).next k = s.next k := by
  induction l with
  | nil => intro s k; rfl
  | cons b l ih => intro s k; exact ih (s.updateBlock b) k

theorem pasteTable_list {did fid : Nat} {t : FragTable} {pos : Int} {a b : Nat} {x : List (List (Nat × List Char))} {y : Int}
    (h : pasteTable did fid t pos s = some (a, b, x, y, s')) : s'.next "list" = s.next "list" := by
  simp only [Store.pasteTable, Option.bind_eq_some_iff, Option.map_eq_some_iff] at h
  obtain ⟨⟨tid, s1⟩, h1, ⟨cells, firsts, next, s2⟩, h2, ⟨c, s3⟩, h3, h5⟩ := h
  have e1 := createTable_list h1
  have e2 := pasteCells_list _ h2
  have e3 := createFrame_list h3
  cases h5
  rw [updateBlocks_next] at e3
  exact e3.trans (e2.trans e1)

end Verif
