import Verif.Lemmas.OrderBase
/-
Removing keeps a store in good order.
-/
namespace Verif

theorem Fine.forgot {g : EKind → Nat → Bool} {s t : Store} (h : Fine s) (hf : Forgot g s t) {K : EKind → Bool}
    (hK : ∀ k i, K k = true → g k i = false) : Leads K s t := by
  refine ⟨⟨h.tidy.forgot hf, hf.ahead h.ahead⟩, by rw [hf.counters]; exact fun _ => Nat.le_refl _, ?_⟩
  intro k i hk hi
  rw [hf.tab, hK k i hk]
  simpa using hi

theorem Fine.drop {s : Store} (h : Fine s) (k : EKind) (ids : List Nat) {K : EKind → Bool} (hK : K k = false) :
    Leads K s (s.dropEnts k ids) := by
  refine h.forgot (dropEnts_forgot h.tidy k ids) fun k' i hk' => ?_
  simp only [goneOf, Bool.and_eq_false_imp, decide_eq_true_eq]
  rintro rfl
  rw [hK] at hk'; cases hk'

/-- Rewriting the owners changes nothing more. -/
theorem relink_same {s : Store} (hs : Tidy s) {k : EKind} {r : RelField} (ho : k.owner = some r) (ids : List Nat) (o : Nat) :
    (s.dropEnts k ids).setRel r o ((s.readRel r o).filter fun i => !ids.contains i) = some (s.dropEnts k ids) := by
  have hf := dropEnts_forgot hs k ids
  obtain ⟨h1, h2⟩ := owner_right ho
  have := readRel_forgot hf r (o := o) (by simp [goneOf, h2])
  have e : (s.readRel r o).filter (fun i => !ids.contains i) = (s.dropEnts k ids).readRel r o := by
    rw [this]
    apply List.filter_congr
    intro i _
    simp [goneOf, h1]
  rw [e]
  exact setRel_same (hs.forgot hf) r o

theorem setFrameBlocks_rel (s : Store) (f : Nat) (ids : List Nat) : s.setFrameBlocks f ids = s.setRel .frameBlocks f ids := by
  simp only [Store.setFrameBlocks, Store.setRel, reduceCtorEq, false_and, if_false]
  cases hc : s.frames.get f with
  | none =>
    have hc' : (s.tab RelField.frameBlocks.left).get f = none := hc
    rw [hc']; rfl
  | some e =>
    have hc' : (s.tab RelField.frameBlocks.left).get f = some e := hc
    rw [hc']; rfl

theorem setDocFrames_rel (s : Store) (f : Nat) (ids : List Nat) : s.setDocFrames f ids = s.setRel .docFrames f ids := by
  simp only [Store.setDocFrames, Store.setRel, reduceCtorEq, false_and, if_false]
  cases hc : s.documents.get f with
  | none =>
    have hc' : (s.tab RelField.docFrames.left).get f = none := hc
    rw [hc']; rfl
  | some e =>
    have hc' : (s.tab RelField.docFrames.left).get f = some e := hc
    rw [hc']; rfl

theorem setDocLists_rel (s : Store) (f : Nat) (ids : List Nat) : s.setDocLists f ids = s.setRel .docLists f ids := by
  simp only [Store.setDocLists, Store.setRel, reduceCtorEq, false_and, if_false]
  cases hc : s.documents.get f with
  | none =>
    have hc' : (s.tab RelField.docLists.left).get f = none := hc
    rw [hc']; rfl
  | some e =>
    have hc' : (s.tab RelField.docLists.left).get f = some e := hc
    rw [hc']; rfl

theorem setDocTables_rel (s : Store) (f : Nat) (ids : List Nat) : s.setDocTables f ids = s.setRel .docTables f ids := by
  simp only [Store.setDocTables, Store.setRel, reduceCtorEq, false_and, if_false]
  cases hc : s.documents.get f with
  | none =>
    have hc' : (s.tab RelField.docTables.left).get f = none := hc
    rw [hc']; rfl
  | some e =>
    have hc' : (s.tab RelField.docTables.left).get f = some e := hc
    rw [hc']; rfl

theorem setTableCells_rel (s : Store) (f : Nat) (ids : List Nat) : s.setTableCells f ids = s.setRel .tableCells f ids := by
  simp only [Store.setTableCells, Store.setRel, reduceCtorEq, false_and, if_false]
  cases hc : s.tables.get f with
  | none =>
    have hc' : (s.tab RelField.tableCells.left).get f = none := hc
    rw [hc']; rfl
  | some e =>
    have hc' : (s.tab RelField.tableCells.left).get f = some e := hc
    rw [hc']; rfl

/-! ### Blocks -/

theorem Fine.rewriteOwners {s : Store} (h : Fine s) (ids : List Nat) (os : List Nat) :
    Store.rewriteOwners ids (os.map fun f => (f, s.frameBlocks f)) (s.tableRemoveBlocks ids) =
      some (s.dropEnts .block ids) := by
  induction os with
  | nil => rfl
  | cons o os ih =>
    simp only [List.map_cons, Store.rewriteOwners, setFrameBlocks_rel]
    have : (s.tableRemoveBlocks ids).setRel .frameBlocks o ((s.frameBlocks o).filter fun b => !ids.contains b) =
        some (s.tableRemoveBlocks ids) := relink_same h.tidy (k := .block) rfl ids o
    rw [this, Option.bind_some]
    exact ih

/-- What is left when blocks are removed. -/
theorem Fine.removeBlocks {s t : Store} (h : Fine s) {ids : List Nat} (hr : s.removeBlocks ids = some t) :
    t = s ∨ t = s.dropEnts .block ids := by
  simp only [Store.removeBlocks] at hr
  split at hr
  · cases hr; exact .inl rfl
  · rw [Store.blockOwners, h.rewriteOwners] at hr
    cases hr; exact .inr rfl

theorem Fine.removeBlocks' {s t : Store} (h : Fine s) {ids : List Nat} (hr : s.removeBlocks ids = some t)
    {K : EKind → Bool} (hK : K .block = false) : Leads K s t := by
  rcases h.removeBlocks hr with rfl | rfl
  · exact .refl h
  · exact h.drop _ _ hK

/-! ### Frames -/

theorem filter_none {α : Type} (l : List α) (p : α → Bool) (h : (l.any fun i => !p i) = false) : l.filter p = l := by
  rw [List.filter_eq_self]
  intro a ha
  rw [List.any_eq_false] at h
  simpa using h a ha

theorem any_eq (l : List Nat) (id : Nat) : (l.any fun i => [id].contains i) = l.any fun i => !decide (i ≠ id) := by
  congr 1; funext i; simp

theorem tableRemoveFrame_eq (s : Store) (id : Nat) : s.tableRemoveFrame id = s.dropEnts .frame [id] := by
  have e1 : (fun f : Frame => if f.parentFrame = some id then { f with parentFrame := none } else f) =
      Store.stripRel .frameParent [id] := by
    funext f
    cases hp : f.parentFrame with
    | none => simp [Store.stripRel, RelField.read, hp]
    | some p => by_cases h : p = id <;> simp [Store.stripRel, RelField.read, RelField.write, hp, h]
  have e2 : (fun d : Document => { d with frames := d.frames.filter fun i => i ≠ id }) = Store.stripRel .docFrames [id] := by
    funext d
    simp only [Store.stripRel, RelField.read, RelField.write, any_eq]
    split
    · congr 1
      apply List.filter_congr; intro i _; by_cases hi : i = id <;> simp [hi]
    · rename_i h
      rw [filter_none _ _ (by simpa only [Bool.not_eq_true] using h)]
  have e3 : (fun c : TableCell => if c.cellFrame = some id then { c with cellFrame := none } else c) =
      Store.stripRel .cellFrame [id] := by
    funext f
    cases hp : f.cellFrame with
    | none => simp [Store.stripRel, RelField.read, hp]
    | some p => by_cases h : p = id <;> simp [Store.stripRel, RelField.read, RelField.write, hp, h]
  unfold Store.tableRemoveFrame Store.dropEnts
  simp only [e1, e2, e3, List.foldl_cons, List.foldl_nil]

theorem Fine.rewriteDocs {s : Store} (h : Fine s) (id : Nat) (os : List Nat) :
    Store.rewriteDocs id (os.map fun f => (f, s.docFrames f)) (s.dropEnts .frame [id]) =
      some (s.dropEnts .frame [id]) := by
  induction os with
  | nil => rfl
  | cons o os ih =>
    simp only [List.map_cons, Store.rewriteDocs, setDocFrames_rel]
    have := relink_same h.tidy (k := .frame) rfl [id] o
    have e : (s.readRel .docFrames o).filter (fun i => ![id].contains i) = (s.docFrames o).filter fun b => b ≠ id := by
      show (s.docFrames o).filter _ = _
      apply List.filter_congr; intro i _; by_cases hi : i = id <;> simp [hi]
    rw [e] at this
    rw [this, Option.bind_some]
    exact ih

/-- What is left when a frame is removed. -/
theorem Fine.removeFrame {s t : Store} (h : Fine s) {id : Nat} (hr : s.removeFrame id = some t) :
    t = s ∨ ∃ u, Leads (fun k => k ≠ .block) s u ∧ t = u.dropEnts .frame [id] := by
  simp only [Store.removeFrame] at hr
  split at hr
  · cases hr; exact .inl rfl
  · simp only [Option.bind_eq_some_iff] at hr
    obtain ⟨u, hu, hr⟩ := hr
    have h1 := h.removeBlocks' hu (K := fun k => k ≠ .block) (by decide)
    rw [tableRemoveFrame_eq, h1.fine.rewriteDocs] at hr
    cases hr
    exact .inr ⟨u, h1, rfl⟩

/-- The kinds that stay when frames go. -/
def notFrames (k : EKind) : Bool := decide (k ≠ .block ∧ k ≠ .frame)

theorem Fine.removeFrame' {s t : Store} (h : Fine s) {id : Nat} (hr : s.removeFrame id = some t) :
    Leads notFrames s t := by
  rcases h.removeFrame hr with rfl | ⟨u, hu, rfl⟩
  · exact .refl h
  · refine (hu.mono fun k hk => ?_).trans (hu.fine.drop _ _ (by decide))
    simp only [notFrames, decide_eq_true_eq] at hk
    simp [hk.1]

theorem Fine.removeFrames {s t : Store} (h : Fine s) {ids : List Nat} (hr : Store.removeFrames ids s = some t) :
    Leads notFrames s t := by
  induction ids generalizing s with
  | nil => cases hr; exact .refl h
  | cons i ids ih =>
    simp only [Store.removeFrames, Option.bind_eq_some_iff] at hr
    obtain ⟨u, hu, hr⟩ := hr
    have h1 := h.removeFrame' hu
    exact h1.trans (ih h1.fine hr)

/-! ### Cells -/

theorem tableRemoveCells_eq (s : Store) (ids : List Nat) : s.tableRemoveCells ids = s.dropEnts .tableCell ids := by
  have e : (fun t : Table => { t with cells := t.cells.filter fun c => !ids.contains c }) = Store.stripRel .tableCells ids := by
    funext t
    unfold Store.stripRel
    by_cases h : ((RelField.tableCells.read t).any fun i => ids.contains i) = true
    · rw [if_pos h]; rfl
    · rw [if_neg h]
      have : t.cells.filter (fun c => !ids.contains c) = t.cells :=
        filter_none _ _ (by simp only [Bool.not_not]; exact (Bool.not_eq_true _).mp h)
      rw [this]
  unfold Store.tableRemoveCells Store.dropEnts
  simp only [e]

theorem Fine.rewriteTables {s : Store} (h : Fine s) (ids : List Nat) (os : List Nat) :
    Store.rewriteTables ids (os.map fun f => (f, s.tableCellIds f)) (s.dropEnts .tableCell ids) =
      some (s.dropEnts .tableCell ids) := by
  induction os with
  | nil => rfl
  | cons o os ih =>
    simp only [List.map_cons, Store.rewriteTables, setTableCells_rel]
    have : (s.dropEnts .tableCell ids).setRel .tableCells o ((s.tableCellIds o).filter fun b => !ids.contains b) =
        some (s.dropEnts .tableCell ids) := relink_same h.tidy (k := .tableCell) rfl ids o
    rw [this, Option.bind_some]
    exact ih

theorem Fine.removeCells {s t : Store} (h : Fine s) {ids : List Nat} (hr : s.removeCells ids = some t) :
    t = s ∨ t = s.dropEnts .tableCell ids := by
  simp only [Store.removeCells] at hr
  split at hr
  · cases hr; exact .inl rfl
  · rw [tableRemoveCells_eq, h.rewriteTables] at hr
    cases hr; exact .inr rfl

theorem Fine.removeCells' {s t : Store} (h : Fine s) {ids : List Nat} (hr : s.removeCells ids = some t) :
    Leads (fun k => k ≠ .tableCell) s t ∧
      ∀ i, i ∉ ids → (s.tableCells i).isSome = true → (t.tableCells i).isSome = true := by
  rcases h.removeCells hr with rfl | rfl
  · exact ⟨.refl h, fun _ _ h => h⟩
  · refine ⟨h.drop _ _ (by decide), fun i hi hs => ?_⟩
    simp only [Store.dropEnts, IdMap.eraseAll_get]
    rw [if_neg (by simpa using hi)]; exact hs

/-! ### Tables -/

theorem tableRemoveTable_eq (s : Store) (id : Nat) : s.tableRemoveTable id = s.dropEnts .table [id] := by
  have e1 : (fun f : Frame => if f.table = some id then { f with table := none } else f) =
      Store.stripRel .frameTable [id] := by
    funext f
    cases hp : f.table with
    | none => simp [Store.stripRel, RelField.read, hp]
    | some p => by_cases h : p = id <;> simp [Store.stripRel, RelField.read, RelField.write, hp, h]
  have e2 : (fun d : Document => { d with tables := d.tables.filter fun i => i ≠ id }) = Store.stripRel .docTables [id] := by
    funext d
    simp only [Store.stripRel, RelField.read, RelField.write, any_eq]
    split
    · congr 1
      apply List.filter_congr; intro i _; by_cases hi : i = id <;> simp [hi]
    · rename_i h
      rw [filter_none _ _ (by simpa only [Bool.not_eq_true] using h)]
  unfold Store.tableRemoveTable Store.dropEnts
  simp only [e1, e2, List.foldl_cons, List.foldl_nil]

theorem Fine.rewriteDocTables {s : Store} (h : Fine s) (id : Nat) (os : List Nat) :
    Store.rewriteDocTables id (os.map fun f => (f, s.docTables f)) (s.dropEnts .table [id]) =
      some (s.dropEnts .table [id]) := by
  induction os with
  | nil => rfl
  | cons o os ih =>
    simp only [List.map_cons, Store.rewriteDocTables, setDocTables_rel]
    have := relink_same h.tidy (k := .table) rfl [id] o
    have e : (s.readRel .docTables o).filter (fun i => ![id].contains i) = (s.docTables o).filter fun b => b ≠ id := by
      show (s.docTables o).filter _ = _
      apply List.filter_congr; intro i _; by_cases hi : i = id <;> simp [hi]
    rw [e] at this
    rw [this, Option.bind_some]
    exact ih

/-- The kinds that stay when a table goes. -/
def notTables (k : EKind) : Bool := decide (k ≠ .table ∧ k ≠ .tableCell)

theorem Fine.removeTableEntity {s t : Store} (h : Fine s) {id : Nat} (hr : s.removeTableEntity id = some t) :
    Leads notTables s t := by
  simp only [Store.removeTableEntity] at hr
  split at hr
  · cases hr; exact .refl h
  · simp only [Option.bind_eq_some_iff] at hr
    obtain ⟨u, hu, hr⟩ := hr
    have h1 := (h.removeCells' hu).1
    rw [tableRemoveTable_eq, h1.fine.rewriteDocTables] at hr
    cases hr
    refine (h1.mono fun k hk => ?_).trans (h1.fine.drop _ _ (by decide))
    simp only [notTables, decide_eq_true_eq] at hk
    simp [hk.2]

/-! ### Lists -/

theorem tableRemoveList_eq (s : Store) (id : Nat) : s.tableRemoveList id = s.dropEnts .list [id] := by
  have e1 : (fun f : Block => if f.list = some id then { f with list := none } else f) =
      Store.stripRel .blockList [id] := by
    funext f
    cases hp : f.list with
    | none => simp [Store.stripRel, RelField.read, hp]
    | some p => by_cases h : p = id <;> simp [Store.stripRel, RelField.read, RelField.write, hp, h]
  have e2 : (fun d : Document => { d with lists := d.lists.filter fun i => i ≠ id }) = Store.stripRel .docLists [id] := by
    funext d
    simp only [Store.stripRel, RelField.read, RelField.write, any_eq]
    split
    · congr 1
      apply List.filter_congr; intro i _; by_cases hi : i = id <;> simp [hi]
    · rename_i h
      rw [filter_none _ _ (by simpa only [Bool.not_eq_true] using h)]
  unfold Store.tableRemoveList Store.dropEnts
  simp only [e1, e2, List.foldl_cons, List.foldl_nil]

theorem Fine.rewriteDocLists {s : Store} (h : Fine s) (id : Nat) (os : List Nat) :
    Store.rewriteDocLists id (os.map fun f => (f, s.docLists f)) (s.dropEnts .list [id]) =
      some (s.dropEnts .list [id]) := by
  induction os with
  | nil => rfl
  | cons o os ih =>
    simp only [List.map_cons, Store.rewriteDocLists, setDocLists_rel]
    have := relink_same h.tidy (k := .list) rfl [id] o
    have e : (s.readRel .docLists o).filter (fun i => ![id].contains i) = (s.docLists o).filter fun b => b ≠ id := by
      show (s.docLists o).filter _ = _
      apply List.filter_congr; intro i _; by_cases hi : i = id <;> simp [hi]
    rw [e] at this
    rw [this, Option.bind_some]
    exact ih

theorem Fine.removeListEntity {s t : Store} (h : Fine s) {id : Nat} (hr : s.removeListEntity id = some t) :
    Leads (fun k => k ≠ .list) s t := by
  simp only [Store.removeListEntity] at hr
  split at hr
  · cases hr; exact .refl h
  · rw [tableRemoveList_eq, h.rewriteDocLists] at hr
    cases hr
    exact h.drop _ _ (by decide)

end Verif
