import Verif.Model.TableCommands
import Verif.Lemmas.FlatBlock
/-
No command on tables creates a document.
-/
namespace Verif.Store
variable {s s' : Store} {k : Nat}

/-- Every document of the store has the id `k`. -/
def DocsIn (s : Store) (k : Nat) : Prop := ∀ i d, s.documents i = some d → i = k ∧ d.id = k

theorem DocsIn.of_eq (h : s.DocsIn k) (e : s'.documents = s.documents) : s'.DocsIn k := by
  intro i d hi; rw [e] at hi; exact h i d hi

theorem DocsIn.insert (h : s.DocsIn k) {i : Nat} {v : Document} (hi : i = k) (hv : v.id = k) :
    ({ s with documents := s.documents.insert i v } : Store).DocsIn k := by
  intro j d hj
  have hj : (s.documents.insert i v) j = some d := hj
  rw [IdMap.insert_get] at hj
  by_cases e : j = i
  · rw [if_pos e] at hj; cases hj; exact ⟨e.trans hi, hv⟩
  · rw [if_neg e] at hj; exact h j d hj

theorem DocsIn.updateDocument (h : s.DocsIn k) {d : Document} (hd : d.id = k) : (s.updateDocument d).DocsIn k := by
  refine h.insert hd ?_
  unfold keepDoc; split <;> exact hd

theorem DocsIn.mapDocs (h : s.DocsIn k) (g : Document → Document) (hg : ∀ d, (g d).id = d.id) (e : s'.documents = s.documents.mapValues g) :
    s'.DocsIn k := by
  intro i d hi
  rw [e, IdMap.mapValues_get, Option.map_eq_some_iff] at hi
  obtain ⟨x, hx, rfl⟩ := hi
  rw [hg]; exact h i x hx

theorem DocsIn.setDocFrames (h : s.DocsIn k) {did : Nat} {ids : List Nat} (e : s.setDocFrames did ids = some s') : s'.DocsIn k := by
  unfold Store.setDocFrames at e
  split at e
  · cases hd : s.documents did with
    | none => rw [hd] at e; cases e; exact h
    | some d => rw [hd] at e; cases e; exact h.insert (h did d hd).1 (h did d hd).2
  · cases e

theorem DocsIn.setDocTables (h : s.DocsIn k) {did : Nat} {ids : List Nat} (e : s.setDocTables did ids = some s') : s'.DocsIn k := by
  unfold Store.setDocTables at e
  split at e
  · cases hd : s.documents did with
    | none => rw [hd] at e; cases e; exact h
    | some d => rw [hd] at e; cases e; exact h.insert (h did d hd).1 (h did d hd).2
  · cases e

theorem DocsIn.setFrameBlocks (h : s.DocsIn k) {f : Nat} {ids : List Nat} (e : s.setFrameBlocks f ids = some s') : s'.DocsIn k := by
  unfold Store.setFrameBlocks at e
  split at e
  · split at e <;> cases e <;> exact h
  · cases e

theorem DocsIn.setTableCells (h : s.DocsIn k) {f : Nat} {ids : List Nat} (e : s.setTableCells f ids = some s') : s'.DocsIn k := by
  unfold Store.setTableCells at e
  split at e
  · split at e <;> cases e <;> exact h
  · cases e

theorem DocsIn.rewriteOwners (ids : List Nat) (l : List (Nat × List Nat)) : ∀ {s : Store}, s.DocsIn k →
    Store.rewriteOwners ids l s = some s' → s'.DocsIn k := by
  induction l with
  | nil => intro s h e; cases e; exact h
  | cons x l ih =>
    intro s h e
    obtain ⟨o, l'⟩ := x
    rw [Store.rewriteOwners, Option.bind_eq_some_iff] at e
    obtain ⟨s1, e1, e2⟩ := e
    exact ih (h.setFrameBlocks e1) e2

theorem DocsIn.rewriteDocs (id : Nat) (l : List (Nat × List Nat)) : ∀ {s : Store}, s.DocsIn k →
    Store.rewriteDocs id l s = some s' → s'.DocsIn k := by
  induction l with
  | nil => intro s h e; cases e; exact h
  | cons x l ih =>
    intro s h e
    obtain ⟨o, l'⟩ := x
    rw [Store.rewriteDocs, Option.bind_eq_some_iff] at e
    obtain ⟨s1, e1, e2⟩ := e
    exact ih (h.setDocFrames e1) e2

theorem DocsIn.rewriteTables (ids : List Nat) (l : List (Nat × List Nat)) : ∀ {s : Store}, s.DocsIn k →
    Store.rewriteTables ids l s = some s' → s'.DocsIn k := by
  induction l with
  | nil => intro s h e; cases e; exact h
  | cons x l ih =>
    intro s h e
    obtain ⟨o, l'⟩ := x
    rw [Store.rewriteTables, Option.bind_eq_some_iff] at e
    obtain ⟨s1, e1, e2⟩ := e
    exact ih (h.setTableCells e1) e2

theorem DocsIn.removeBlocks (h : s.DocsIn k) {ids : List Nat} (e : s.removeBlocks ids = some s') : s'.DocsIn k := by
  unfold Store.removeBlocks at e
  split at e
  · cases e; exact h
  · exact DocsIn.rewriteOwners (s := s.tableRemoveBlocks ids) _ _ (h.of_eq rfl) e

theorem DocsIn.removeFrame (h : s.DocsIn k) {id : Nat} (e : s.removeFrame id = some s') : s'.DocsIn k := by
  unfold Store.removeFrame at e
  split at e
  · cases e; exact h
  · rw [Option.bind_eq_some_iff] at e
    obtain ⟨s1, e1, e2⟩ := e
    refine DocsIn.rewriteDocs (s := s1.tableRemoveFrame id) _ _ ?_ e2
    exact (h.removeBlocks e1).mapDocs (fun d => { d with frames := d.frames.filter fun i => i ≠ id }) (fun _ => rfl) rfl

theorem DocsIn.removeFrames (l : List Nat) : ∀ {s : Store}, s.DocsIn k → Store.removeFrames l s = some s' → s'.DocsIn k := by
  induction l with
  | nil => intro s h e; cases e; exact h
  | cons x l ih =>
    intro s h e
    rw [Store.removeFrames, Option.bind_eq_some_iff] at e
    obtain ⟨s1, e1, e2⟩ := e
    exact ih (h.removeFrame e1) e2

theorem DocsIn.removeCells (h : s.DocsIn k) {ids : List Nat} (e : s.removeCells ids = some s') : s'.DocsIn k := by
  unfold Store.removeCells at e
  split at e
  · cases e; exact h
  · exact DocsIn.rewriteTables (s := s.tableRemoveCells ids) _ _ (h.of_eq rfl) e

theorem DocsIn.dropCells (h : s.DocsIn k) {gone : List TableCell} (e : s.dropCells gone = some s') : s'.DocsIn k := by
  unfold Store.dropCells at e
  simp only [Option.bind_eq_some_iff] at e
  obtain ⟨s1, e1, r, e2, e3⟩ := e
  have h1 : (s1.withText r).DocsIn k := (DocsIn.removeFrames _ h e1).of_eq rfl
  split at e3
  · cases e3; exact h1
  · exact h1.removeCells e3

theorem DocsIn.updateCells (h : s.DocsIn k) (cs : List TableCell) : (s.updateCells cs).DocsIn k := by
  unfold Store.updateCells
  induction cs generalizing s with
  | nil => exact h
  | cons c cs ih => exact ih (s := s.updateCell c) (h.of_eq rfl)

theorem DocsIn.updateBlocks (h : s.DocsIn k) (bs : List Block) : (s.updateBlocks bs).DocsIn k := by
  unfold Store.updateBlocks
  induction bs generalizing s with
  | nil => exact h
  | cons c cs ih => exact ih (s := s.updateBlock c) (h.of_eq rfl)

theorem DocsIn.reassignCells (h : s.DocsIn k) (tid : Nat) (base : Int) : (s.reassignCells tid base).DocsIn k := h.updateBlocks _

theorem DocsIn.shiftOutside (h : s.DocsIn k) (did tid : Nat) (base d : Int) : (s.shiftOutside did tid base d).DocsIn k := h.updateBlocks _

theorem DocsIn.addToTable (h : s.DocsIn k) {tid : Nat} {blocks : List Nat} (e : s.addToTable tid blocks = some s') : s'.DocsIn k := by
  unfold Store.addToTable at e
  split at e
  · unfold Store.addCellText at e
    simp only [Option.bind_eq_some_iff, Option.map_eq_some_iff] at e
    obtain ⟨_, _, r, _, rfl⟩ := e
    exact h.of_eq rfl
  · cases e; exact h

theorem DocsIn.createFrame (h : s.DocsIn k) {f : Frame} {o : Nat} {x : Int} {i : Nat} (e : s.createFrame f o x = some (i, s')) : s'.DocsIn k := by
  unfold Store.createFrame at e
  simp only [Option.bind_eq_some_iff, Option.map_eq_some_iff, Prod.exists, Prod.mk.injEq] at e
  obtain ⟨j, s1, e1, s2, e2, _, rfl⟩ := e
  refine DocsIn.setDocFrames (s := s1) ?_ e2
  unfold Store.insertNewFrame at e1
  split at e1
  · cases e1; exact h.of_eq rfl
  · split at e1 <;> cases e1
    exact h.of_eq rfl

theorem DocsIn.createBlock (h : s.DocsIn k) {b : Block} {o : Nat} {x : Int} {i : Nat} (e : s.createBlock b o x = some (i, s')) : s'.DocsIn k := by
  unfold Store.createBlock at e
  simp only [Option.bind_eq_some_iff, Option.map_eq_some_iff, Prod.exists, Prod.mk.injEq] at e
  obtain ⟨j, s1, e1, s2, e2, _, rfl⟩ := e
  refine DocsIn.setFrameBlocks (s := s1) ?_ e2
  unfold Store.insertNewBlock at e1
  split at e1
  · cases e1; exact h.of_eq rfl
  · split at e1 <;> cases e1
    exact h.of_eq rfl

theorem DocsIn.createCells (did tid : Nat) (l : List (Int × Int × Int × Int)) : ∀ {s : Store} {xs}, s.DocsIn k →
    s.createCells did tid l = some (xs, s') → s'.DocsIn k := by
  induction l with
  | nil => intro s xs h e; cases e; exact h
  | cons x l ih =>
    intro s xs h e
    obtain ⟨r, c, rs, cs⟩ := x
    unfold Store.createCells Store.createCellFrame Store.createCell at e
    simp only [Option.bind_eq_some_iff, Option.map_eq_some_iff, Prod.exists, Prod.mk.injEq] at e
    obtain ⟨g, b, s1, ⟨g1, s2, e1, fr, e2, b2, s3, e3, _, rfl⟩, c1, s4, ⟨s5, e5, _, rfl⟩, ys, s6, e6, _, rfl⟩ := e
    refine ih ?_ e6
    refine DocsIn.setTableCells (s := ((s3.updateFrame _).insertNewCell _).2) ?_ e5
    exact ((h.createFrame e1).createBlock e3).of_eq rfl

theorem DocsIn.insertTableRow (h : s.DocsIn k) {tid : Nat} {idx : Int} {snap : Snapshot}
    (e : s.insertTableRow tid idx = some (s', snap)) : s'.DocsIn k := by
  unfold Store.insertTableRow at e
  simp only [Option.bind_eq_some_iff] at e
  obtain ⟨did, _, doc, hd, tb, _, e⟩ := e
  have hk := h did doc hd
  split at e
  · cases e
  · simp only [Option.bind_eq_some_iff, Prod.exists] at e
    obtain ⟨xs, s1, e1, s2, e2, e3⟩ := e
    simp only [Option.some.injEq, Prod.mk.injEq] at e3
    rw [← e3.1]
    refine DocsIn.updateDocument ?_ hk.2
    refine DocsIn.shiftOutside (DocsIn.reassignCells ?_ _ _) _ _ _ _
    refine DocsIn.addToTable (s := s1.updateTable _) ?_ e2
    exact (DocsIn.createCells _ _ _ (h.updateCells _) e1).of_eq rfl

theorem DocsIn.insertTableColumn (h : s.DocsIn k) {tid : Nat} {idx : Int} {snap : Snapshot}
    (e : s.insertTableColumn tid idx = some (s', snap)) : s'.DocsIn k := by
  unfold Store.insertTableColumn at e
  simp only [Option.bind_eq_some_iff] at e
  obtain ⟨did, _, doc, hd, tb, _, e⟩ := e
  have hk := h did doc hd
  split at e
  · cases e
  · simp only [Option.bind_eq_some_iff, Prod.exists] at e
    obtain ⟨xs, s1, e1, s2, e2, e3⟩ := e
    simp only [Option.some.injEq, Prod.mk.injEq] at e3
    rw [← e3.1]
    refine DocsIn.updateDocument ?_ hk.2
    refine DocsIn.shiftOutside (DocsIn.reassignCells ?_ _ _) _ _ _ _
    refine DocsIn.addToTable (s := s1.updateTable _) ?_ e2
    exact (DocsIn.createCells _ _ _ (h.updateCells _) e1).of_eq rfl

theorem DocsIn.removeTableRow (h : s.DocsIn k) {tid : Nat} {idx : Int} {snap : Snapshot}
    (e : s.removeTableRow tid idx = some (s', snap)) : s'.DocsIn k := by
  unfold Store.removeTableRow at e
  simp only [Option.bind_eq_some_iff] at e
  obtain ⟨did, _, doc, hd, tb, _, e⟩ := e
  have hk := h did doc hd
  split at e
  · cases e
  · split at e
    · cases e
    · simp only [Option.bind_eq_some_iff] at e
      obtain ⟨s1, e1, e3⟩ := e
      simp only [Option.some.injEq, Prod.mk.injEq] at e3
      rw [← e3.1]
      refine DocsIn.updateDocument ?_ hk.2
      refine DocsIn.shiftOutside (DocsIn.reassignCells ?_ _ _) _ _ _ _
      exact ((h.dropCells e1).updateCells _).of_eq rfl

theorem DocsIn.removeTableColumn (h : s.DocsIn k) {tid : Nat} {idx : Int} {snap : Snapshot}
    (e : s.removeTableColumn tid idx = some (s', snap)) : s'.DocsIn k := by
  unfold Store.removeTableColumn at e
  simp only [Option.bind_eq_some_iff] at e
  obtain ⟨did, _, doc, hd, tb, _, e⟩ := e
  have hk := h did doc hd
  split at e
  · cases e
  · split at e
    · cases e
    · simp only [Option.bind_eq_some_iff] at e
      obtain ⟨s1, e1, e3⟩ := e
      simp only [Option.some.injEq, Prod.mk.injEq] at e3
      rw [← e3.1]
      refine DocsIn.updateDocument ?_ hk.2
      refine DocsIn.shiftOutside (DocsIn.reassignCells ?_ _ _) _ _ _ _
      exact ((h.dropCells e1).updateCells _).of_eq rfl

theorem DocsIn.mergeTableCells (h : s.DocsIn k) {tid i : Nat} {r0 c0 r1 c1 : Int} {snap : Snapshot}
    (e : s.mergeTableCells tid r0 c0 r1 c1 = some (s', i, snap)) : s'.DocsIn k := by
  unfold Store.mergeTableCells at e
  simp only [Option.bind_eq_some_iff] at e
  obtain ⟨did, _, doc, hd, tb, _, e⟩ := e
  have hk := h did doc hd
  split at e
  · cases e
  split at e
  · cases e
  split at e
  · cases e
  split at e
  · cases e
  simp only [Option.bind_eq_some_iff] at e
  obtain ⟨surv, _, s1, e1, e3⟩ := e
  simp only [Option.some.injEq, Prod.mk.injEq] at e3
  rw [← e3.1]
  refine DocsIn.updateDocument ?_ hk.2
  refine DocsIn.shiftOutside (DocsIn.reassignCells ?_ _ _) _ _ _ _
  exact (h.dropCells e1).of_eq rfl

theorem DocsIn.splitTableCell (h : s.DocsIn k) {cid : Nat} {sr sc : Int} {ids : List Nat}
    {snap : Snapshot} (e : s.splitTableCell cid sr sc = some (s', ids, snap)) : s'.DocsIn k := by
  unfold Store.splitTableCell at e
  split at e
  · cases e
  rw [Option.bind_eq_some_iff] at e
  obtain ⟨cell, _, e⟩ := e
  split at e
  · cases e
  split at e
  · cases e
  split at e
  · cases e
  simp only [Option.bind_eq_some_iff] at e
  obtain ⟨did, _, doc, hd, tid, _, tb, _, e⟩ := e
  have hk := h did doc hd
  split at e
  · cases e
  simp only [Option.bind_eq_some_iff, Prod.exists] at e
  obtain ⟨xs, s1, e1, s2, e2, e3⟩ := e
  simp only [Option.some.injEq, Prod.mk.injEq] at e3
  rw [← e3.1]
  refine DocsIn.updateDocument ?_ hk.2
  have h2 : (s2.reassignCells tid (s.tableBase ((s.getCells (s.tableCellIds tid)).filterMap TableCell.cellFrame))).DocsIn k :=
    DocsIn.reassignCells (DocsIn.addToTable (DocsIn.createCells _ _ _ (s := s.updateCell _) (h.of_eq rfl) e1) e2) _ _
  split
  · exact h2.shiftOutside _ _ _ _
  · exact h2

theorem DocsIn.importLines (fid : Nat) (ls : List (List Char)) : ∀ {first : Bool} {pos : Int} {s : Store} {ids n}, s.DocsIn k →
    Store.importLines fid first pos ls s = some (ids, n, s') → s'.DocsIn k := by
  induction ls with
  | nil => intro _ _ s _ _ h e; cases e; exact h
  | cons l ls ih =>
    intro first pos s ids n h e
    rw [Store.importLines] at e
    simp only [Option.bind_eq_some_iff, Option.map_eq_some_iff, Prod.exists, Prod.mk.injEq] at e
    obtain ⟨i, s1, e1, js, m, s2, e2, _, _, rfl⟩ := e
    exact ih (s := s1.withText _) ((h.createBlock e1).of_eq rfl) e2

theorem DocsIn.importPlainText (h : s.DocsIn k) {text : List Char} (e : s.importPlainText text = some s') : s'.DocsIn k := by
  unfold Store.importPlainText at e
  simp only [Option.bind_eq_some_iff, Option.map_eq_some_iff, Prod.exists] at e
  obtain ⟨did, _, s1, e1, fid, s2, e2, ids, n, s3, e3, fr, _, doc, e4, rfl⟩ := e
  have h3 : s3.DocsIn k := DocsIn.importLines (s := s2.withText ropeReset) _ _ (((DocsIn.removeFrames _ h e1).createFrame e2).of_eq rfl) e3
  exact DocsIn.updateDocument (s := s3.updateFrame _) (h3.of_eq rfl) (h3 did doc e4).2

theorem newStore_docsIn (e : Store.newStore = some s) : s.DocsIn 1 := by
  have h0 : ({ Store.empty with documents := Store.empty.documents.insert 1 { id := 1 } } : Store).DocsIn 1 :=
    DocsIn.insert (fun i d hi => by cases hi) rfl rfl
  unfold Store.newStore Store.createDocument at e
  simp only [Option.bind_eq_some_iff, Prod.exists] at e
  obtain ⟨did, s1, ⟨r, _, e1⟩, fid, s2, e2, fr, _, b, s3, e3, e4⟩ := e
  split at e1
  · cases e1
  · cases e4
    have h1 : s1.DocsIn 1 := by cases e1; exact h0.of_eq rfl
    exact ((h1.createFrame e2).createBlock e3).of_eq rfl

theorem DocsIn.catchUp (h : s.DocsIn k) (e : s.catchUp = some s') : s'.DocsIn k := by
  unfold Store.catchUp at e
  split at e
  · rw [Option.map_eq_some_iff] at e
    obtain ⟨l, _, rfl⟩ := e
    exact h.updateBlocks _
  · cases e; exact h

theorem DocsIn.addCellText (h : s.DocsIn k) {f : Nat} {blocks : List Nat} (e : s.addCellText f blocks = some s') : s'.DocsIn k := by
  unfold Store.addCellText at e
  simp only [Option.bind_eq_some_iff, Option.map_eq_some_iff] at e
  obtain ⟨_, _, r, _, rfl⟩ := e
  exact h.of_eq rfl

theorem DocsIn.insertTable (h : s.DocsIn k) {position anchor rows columns : Int} {t : Nat} {c : Int} {snap : Snapshot}
    (e : s.insertTable position anchor rows columns = some (s', t, c, snap)) : s'.DocsIn k := by
  unfold Store.insertTable at e
  split at e
  · cases e
  simp only [Option.bind_eq_some_iff, Option.map_eq_some_iff, Prod.exists, Prod.mk.injEq] at e
  obtain ⟨did, _, doc, hd, s1, e1, place, _, tid, s2, e2, xs, s3, e3, s4, e4, s5, e5, s6, e6, rfl, _⟩ := e
  have h2 : s2.DocsIn k := by
    unfold Store.createTable at e2
    simp only [Option.map_eq_some_iff, Prod.mk.injEq] at e2
    obtain ⟨sx, ex, _, rfl⟩ := e2
    refine DocsIn.setDocTables (s := (s1.insertNewTable _).2) ?_ ex
    exact (h.catchUp e1).of_eq rfl
  have h3 : s3.DocsIn k := DocsIn.createCells _ _ _ h2 e3
  have h4 : s4.DocsIn k := by
    unfold Store.linkTable at e4
    simp only [Option.bind_eq_some_iff, Option.map_eq_some_iff, Prod.exists] at e4
    obtain ⟨a, sx, ex, pf, _, rfl⟩ := e4
    have : ∀ (l : List Nat) (s : Store), (l.foldl (adopt a) s).documents = s.documents := by
      intro l
      induction l with
      | nil => intro s; rfl
      | cons g l ih => intro s; rw [List.foldl_cons, ih]; unfold adopt; split <;> rfl
    exact (h3.createFrame ex).of_eq (this _ _)
  have h5 : s5.DocsIn k := by
    unfold Store.anchorText at e5
    split at e5
    · rw [Option.map_eq_some_iff] at e5
      obtain ⟨r, _, rfl⟩ := e5
      exact h4.of_eq rfl
    · cases e5; exact h4
  exact DocsIn.updateDocument (DocsIn.updateBlocks (DocsIn.addCellText (h5.updateBlocks _) e6) _) (h did doc hd).2

end Verif.Store
