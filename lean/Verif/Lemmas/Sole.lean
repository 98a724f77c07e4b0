import Verif.Model.Editing
import Verif.Lemmas.FlatBlock
import Verif.Lemmas.Sort
/-
An invariant of the store that every editing command keeps: entities are stored under their own id,
there is one document and one frame, and no format or image table outlives its block.
-/
namespace Verif

/-- One document `D`, one frame `f`, entities under their own ids, no stray format tables, no table cells. -/
structure Sole (D f : Nat) (s : Store) : Prop where
  block : ∀ i b, s.blocks i = some b → b.id = i
  docs : ∀ i d, s.documents i = some d → i = D ∧ d.id = D
  frames : ∀ g fr, s.frames g = some fr → g = f ∧ fr.id = f
  runs : ∀ i, (s.formatRuns i).isSome → (s.blocks i).isSome
  images : ∀ i, (s.blockImages i).isSome → (s.blocks i).isSome
  cells : ∀ i, s.tableCells i = none

variable {D f : Nat} {s : Store}

namespace Sole

theorem withText (h : Sole D f s) (r : RopeSt) : Sole D f (s.withText r) :=
  ⟨h.block, h.docs, h.frames, h.runs, h.images, h.cells⟩

theorem updateBlock (h : Sole D f s) (b : Block) : Sole D f (s.updateBlock b) := by
  have hk : (Store.keepBlock b (s.blocks b.id)).id = b.id := by
    cases s.blocks b.id <;> rfl
  refine ⟨?_, h.docs, h.frames, ?_, ?_, h.cells⟩
  · intro i b' hb
    simp only [Store.updateBlock, IdMap.insert_get] at hb
    split at hb
    · rename_i hi; cases hb; rw [hk, hi]
    · exact h.block i b' hb
  · intro i hi
    have := h.runs i hi
    simp only [Store.updateBlock, IdMap.insert_get]
    split <;> simp [this]
  · intro i hi
    have := h.images i hi
    simp only [Store.updateBlock, IdMap.insert_get]
    split <;> simp [this]

theorem updateBlock_has (b b' : Block) (h : (s.blocks b'.id).isSome) :
    ((s.updateBlock b).blocks b'.id).isSome := by
  simp only [Store.updateBlock, IdMap.insert_get]
  split <;> simp [h]

theorem updateBlock_self (b : Block) : ((s.updateBlock b).blocks b.id).isSome := by
  simp [Store.updateBlock, IdMap.insert_get]

theorem updateBlocks (bs : List Block) : ∀ {s : Store}, Sole D f s → Sole D f (s.updateBlocks bs) := by
  induction bs with
  | nil => intro s h; exact h
  | cons b bs ih => intro s h; exact ih (h.updateBlock b)

theorem updateBlocks_has (bs : List Block) (b' : Block) : ∀ {s : Store}, (s.blocks b'.id).isSome →
    ((s.updateBlocks bs).blocks b'.id).isSome := by
  induction bs with
  | nil => intro s h; exact h
  | cons b bs ih => intro s h; exact ih (updateBlock_has b b' h)

theorem shiftStored (h : Sole D f s) (bs : List Block) (n : Int) : Sole D f (s.shiftStored bs n) :=
  updateBlocks _ h

theorem editRuns (h : Sole D f s) {id : Nat} (g) (hi : (s.blocks id).isSome) :
    Sole D f (s.editRuns id g) := by
  refine ⟨h.block, h.docs, h.frames, ?_, h.images, h.cells⟩
  intro i
  simp only [Store.editRuns, IdMap.insert_get]
  split
  · rename_i e; subst e; intro _; exact hi
  · exact h.runs i

theorem editImages (h : Sole D f s) {id : Nat} (g) (hi : (s.blocks id).isSome) :
    Sole D f (s.editImages id g) := by
  refine ⟨h.block, h.docs, h.frames, h.runs, ?_, h.cells⟩
  intro i
  simp only [Store.editImages, IdMap.insert_get]
  split
  · rename_i e; subst e; intro _; exact hi
  · exact h.images i

theorem updateDocument (h : Sole D f s) {d : Document} (hd : d.id = D) :
    Sole D f (s.updateDocument d) := by
  have hk : (Store.keepDoc d (s.documents d.id)).id = d.id := by
    cases s.documents d.id <;> rfl
  refine ⟨h.block, ?_, h.frames, h.runs, h.images, h.cells⟩
  intro i d' hi
  simp only [Store.updateDocument, IdMap.insert_get] at hi
  split at hi
  · rename_i e; cases hi; rw [hk, e]; exact ⟨hd, hd⟩
  · exact h.docs i d' hi

theorem updateFrame (h : Sole D f s) {fr : Frame} (hd : fr.id = f) : Sole D f (s.updateFrame fr) := by
  have hk : (Store.keepFrame fr (s.frames fr.id)).id = fr.id := by
    cases s.frames fr.id <;> rfl
  refine ⟨h.block, h.docs, ?_, h.runs, h.images, h.cells⟩
  intro i d' hi
  simp only [Store.updateFrame, IdMap.insert_get] at hi
  split at hi
  · rename_i e; cases hi; rw [hk, e]; exact ⟨hd, hd⟩
  · exact h.frames i d' hi

theorem setFrameBlocks (h : Sole D f s) {o : Nat} {l : List Nat} {s' : Store}
    (e : s.setFrameBlocks o l = some s') : Sole D f s' ∧ s'.blocks = s.blocks := by
  unfold Store.setFrameBlocks at e
  split at e
  · cases hf : s.frames o with
    | none => rw [hf] at e; cases e; exact ⟨h, rfl⟩
    | some fr =>
      rw [hf] at e; cases e
      refine ⟨⟨h.block, h.docs, ?_, h.runs, h.images, h.cells⟩, rfl⟩
      intro g fr' hg
      simp only [IdMap.insert_get] at hg
      split at hg
      · rename_i e; cases hg; subst e; exact h.frames _ fr hf
      · exact h.frames g fr' hg
  · cases e

theorem createBlock (h : Sole D f s) {b : Block} {o : Nat} {i : Int} {n : Nat} {s' : Store}
    (hb : b.id = 0) (e : s.createBlock b o i = some (n, s')) :
    Sole D f s' ∧ (s'.blocks n).isSome ∧ ∀ j, (s.blocks j).isSome → (s'.blocks j).isSome := by
  unfold Store.createBlock Store.insertNewBlock at e
  rw [if_pos hb] at e
  simp only [Option.bind_some, Option.map_eq_some_iff, Prod.mk.injEq] at e
  obtain ⟨s1, e1, e2, e3⟩ := e
  subst e2; subst e3
  have h1 : Sole D f ({ (s.nextId "block").2 with
      blocks := (s.nextId "block").2.blocks.insert (s.nextId "block").1 { b with id := (s.nextId "block").1 } }) := by
    refine ⟨?_, h.docs, h.frames, ?_, ?_, h.cells⟩
    · intro i b' hb
      simp only [IdMap.insert_get] at hb
      split at hb
      · rename_i hi; cases hb; exact hi.symm
      · exact h.block i b' hb
    · intro i hi
      have := h.runs i hi
      simp only [IdMap.insert_get]
      split
      · simp
      · exact this
    · intro i hi
      have := h.images i hi
      simp only [IdMap.insert_get]
      split
      · simp
      · exact this
  obtain ⟨g1, g2⟩ := h1.setFrameBlocks e1
  refine ⟨g1, ?_, ?_⟩
  · rw [g2]; simp
  · intro j hj
    rw [g2]
    simp only [IdMap.insert_get]
    split
    · simp
    · exact hj

theorem erase_get_foldl {α : Type} (ids : List Nat) (m : IdMap α) (i : Nat) :
    (ids.foldl IdMap.erase m) i = if i ∈ ids then none else m i := by
  induction ids generalizing m with
  | nil => simp
  | cons a ids ih =>
    rw [List.foldl_cons, ih]
    by_cases h1 : i ∈ ids
    · simp [h1]
    · by_cases h2 : i = a <;> simp [h1, h2]

theorem rewriteOwners (ids : List Nat) (os : List (Nat × List Nat)) : ∀ {s s' : Store}, Sole D f s →
    Store.rewriteOwners ids os s = some s' → Sole D f s' ∧ s'.blocks = s.blocks := by
  induction os with
  | nil => intro s s' h e; cases e; exact ⟨h, rfl⟩
  | cons o os ih =>
    intro s s' h e
    simp only [Store.rewriteOwners, Option.bind_eq_some_iff] at e
    obtain ⟨s1, e1, e2⟩ := e
    obtain ⟨g1, g2⟩ := h.setFrameBlocks e1
    obtain ⟨k1, k2⟩ := ih g1 e2
    exact ⟨k1, k2.trans g2⟩

theorem stripFrame_id (ids : List Nat) (fr : Frame) : (Store.stripFrame ids fr).id = fr.id := by
  unfold Store.stripFrame; split <;> rfl

theorem tableRemoveBlocks (h : Sole D f s) (ids : List Nat) : Sole D f (s.tableRemoveBlocks ids) := by
  refine ⟨?_, h.docs, ?_, ?_, ?_, h.cells⟩
  · intro i b hb
    simp only [Store.tableRemoveBlocks, erase_get_foldl] at hb
    split at hb
    · cases hb
    · exact h.block i b hb
  · intro g fr hg
    simp only [Store.tableRemoveBlocks, IdMap.mapValues_get, Option.map_eq_some_iff] at hg
    obtain ⟨fr0, h1, h2⟩ := hg
    subst h2
    rw [stripFrame_id]
    exact h.frames g fr0 h1
  · intro i
    simp only [Store.tableRemoveBlocks, erase_get_foldl]
    split
    · simp
    · exact h.runs i
  · intro i
    simp only [Store.tableRemoveBlocks, erase_get_foldl]
    split
    · simp
    · exact h.images i

theorem removeBlocks (h : Sole D f s) {ids : List Nat} {s' : Store}
    (e : s.removeBlocks ids = some s') : Sole D f s' := by
  unfold Store.removeBlocks at e
  split at e
  · cases e; exact h
  · exact (rewriteOwners ids _ (h.tableRemoveBlocks ids) e).1

theorem dropBlocks (ids : List Nat) : ∀ {s s' : Store}, Sole D f s → Store.dropBlocks ids s = some s' →
    Sole D f s' := by
  induction ids with
  | nil => intro s s' h e; cases e; exact h
  | cons i ids ih =>
    intro s s' h e
    simp only [Store.dropBlocks, Option.bind_eq_some_iff] at e
    obtain ⟨r, _, s1, e1, e2⟩ := e
    refine ih (removeBlocks (withText ?_ r) e1) e2
    refine ⟨h.block, h.docs, h.frames, ?_, ?_, h.cells⟩
    · intro j
      simp only [IdMap.erase_get]
      split
      · simp
      · exact h.runs j
    · intro j
      simp only [IdMap.erase_get]
      split
      · simp
      · exact h.images j

/-! ### The lookups return stored blocks -/

/-- Every block of the list is stored. -/
def Has (s : Store) (bs : List Block) : Prop := ∀ b ∈ bs, (s.blocks b.id).isSome

theorem getBlocks (h : Sole D f s) (ids : List Nat) : Has s (s.getBlocks ids) := by
  intro b hb
  simp only [Store.getBlocks, List.mem_filterMap] at hb
  obtain ⟨i, _, hi⟩ := hb
  rw [h.block i b hi, hi]; rfl

theorem has_sort {bs : List Block} (h : Has s bs) : Has s (sortByKey Block.documentPosition bs) := by
  intro b hb
  exact h b (mem_sortByKey.mp hb)

theorem walkStored_has {st : RopeSt} {p : Int} : ∀ (bs : List Block) (i : Nat) {r},
    Store.walkStored st p i bs = some (some r) → r.1 ∈ bs := by
  intro bs
  induction bs with
  | nil => intro i r e; simp [Store.walkStored] at e
  | cons b bs ih =>
    intro i r e
    simp only [Store.walkStored, Option.bind_eq_some_iff] at e
    obtain ⟨len, _, e⟩ := e
    split at e
    · cases e; simp
    · exact List.mem_cons_of_mem _ (ih _ e)

theorem findBlock {bs : List Block} {p : Int} {r} (hb : Has s bs)
    (e : s.findBlockAtPosition bs p = some r) : (s.blocks r.1.id).isSome := by
  unfold Store.findBlockAtPosition at e
  simp only [Option.bind_eq_some_iff] at e
  obtain ⟨found, _, e⟩ := e
  split at e
  · rename_i r' h1
    cases e
    simp only [Option.bind_eq_some_iff, Option.map_eq_some_iff] at h1
    obtain ⟨q, _, i, _, b, h2, h3⟩ := h1
    subst h3
    exact hb b (List.mem_of_getElem? h2)
  · simp only [Option.bind_eq_some_iff] at e
    obtain ⟨q, h1, e⟩ := e
    cases q with
    | some q => cases e; exact hb _ (walkStored_has _ _ h1)
    | none =>
      simp only [Option.bind_eq_some_iff, Option.map_eq_some_iff] at e
      obtain ⟨b, h2, len, _, h3⟩ := e
      subst h3
      exact hb b (List.mem_of_getLast? h2)

theorem insertInto (h : Sole D f s) {b : Block} {o : Int} {t : List Char} {r}
    (e : s.insertInto b o t = some r) : Sole D f r.2 := by
  unfold Store.insertInto at e
  simp only [Option.bind_eq_some_iff, Option.map_eq_some_iff] at e
  obtain ⟨c, _, q, _, e⟩ := e
  subst e
  refine withText ?_ q
  have h1 := (h.updateBlock b).editRuns (id := b.id)
    (fun runs => shiftRunsForInsert runs (logicalOffsetToByte c (s.imagesOf b.id) o) (utf8Len t)) (updateBlock_self b)
  split
  · exact h1.editImages _ (updateBlock_self b)
  · exact h1

theorem deleteRange (h : Sole D f s) {b : Block} {so eo : Int} {r} (hb : (s.blocks b.id).isSome)
    (e : s.deleteRange b so eo = some r) : Sole D f r.2 := by
  unfold Store.deleteRange at e
  split at e
  · cases e; exact h
  · simp only [Option.bind_eq_some_iff, Option.map_eq_some_iff] at e
    obtain ⟨c, _, g, _, q, _, e⟩ := e
    subst e
    exact (((h.editRuns _ hb).editImages _ hb).withText q).updateBlock b

theorem walkFlow_has (h : Sole D f s) {p : Int} : ∀ (ids : List Nat) (n : Int) {r},
    s.walkFlow p n ids = some (some r) → (s.blocks r.1.id).isSome := by
  intro ids
  induction ids with
  | nil => intro n r e; simp [Store.walkFlow] at e
  | cons i ids ih =>
    intro n r e
    simp only [Store.walkFlow, Option.bind_eq_some_iff] at e
    obtain ⟨b, hb, len, _, e⟩ := e
    split at e
    · cases e; simp only [h.block i b hb, hb, Option.isSome_some]
    · exact ih _ e

/-! ### The commands -/

theorem insertSimple (h : Sole D f s) {dto : Store.InsertTextDto} {r}
    (e : s.insertSimple dto = some r) : Sole D f r.1 := by
  unfold Store.insertSimple at e
  simp only [Option.bind_eq_some_iff] at e
  obtain ⟨did, _, doc, hdoc, ⟨b, pos, off⟩, _, ⟨o2, s1⟩, h1, e⟩ := e
  cases e
  have hs1 := h.insertInto h1
  refine updateDocument ?_ (h.docs _ _ hdoc).2
  split
  · exact hs1
  · exact hs1.shiftStored _ _

theorem insertWithSelection (h : Sole D f s) {dto : Store.InsertTextDto} {r}
    (e : s.insertWithSelection dto = some r) : Sole D f r.1 := by
  unfold Store.insertWithSelection at e
  simp only [Option.bind_eq_some_iff] at e
  obtain ⟨did, _, doc, hdoc, ids, _, ⟨b1, i1, o1⟩, hb1, ⟨b2, i2, o2⟩, hb2, e⟩ := e
  simp only at e
  split at e
  · cases e
  · simp only [Option.bind_eq_some_iff] at e
    obtain ⟨⟨rm, s1⟩, h1, doc2, hdoc2, ⟨b, i, off⟩, _, ⟨o3, s2⟩, h2, e⟩ := e
    cases e
    have hs1 : Sole D f s1 := h.deleteRange (findBlock (has_sort (h.getBlocks ids)) hb1) h1
    have hs1' := (hs1.updateDocument (d := { doc with characterCount := doc.characterCount - rm })
      (h.docs _ _ hdoc).2).shiftStored ((sortByKey Block.documentPosition (s.getBlocks ids)).drop (i1 + 1)) (-rm)
    have hs2 := hs1'.insertInto h2
    exact (hs2.shiftStored _ _).updateDocument (hs1'.docs _ _ hdoc2).2

theorem insertText (h : Sole D f s) {dto : Store.InsertTextDto} {r}
    (e : s.insertText dto = some r) : Sole D f r.1 := by
  unfold Store.insertText at e
  split at e
  · exact h.insertWithSelection e
  · exact h.insertSimple e

theorem insertBlock (h : Sole D f s) {p : Int} {r} (e : s.insertBlock p = some r) : Sole D f r.1 := by
  unfold Store.insertBlock at e
  simp only [Option.bind_eq_some_iff] at e
  obtain ⟨did, _, doc, hdoc, fid, _, ids, _, ⟨cur, i, off⟩, hcur, c, _, ⟨bf, af⟩, _, ow, _, ⟨new, s1⟩, h1,
    q, _, fr, hfr, e⟩ := e
  cases e
  have h0 := ((h.updateBlock cur).editRuns (id := cur.id)
    (fun _ => (splitRunsAt (s.runsOf cur.id) (logicalOffsetToByte c (s.imagesOf cur.id) off)).1)
    (updateBlock_self cur)).editImages (id := cur.id)
    (fun _ => (splitImagesAt (s.imagesOf cur.id) (logicalOffsetToByte c (s.imagesOf cur.id) off)).1)
    (updateBlock_self cur)
  obtain ⟨g1, g2, _⟩ := h0.createBlock rfl h1
  have g3 := ((g1.editRuns (id := new)
    (fun _ => (splitRunsAt (s.runsOf cur.id) (logicalOffsetToByte c (s.imagesOf cur.id) off)).2) g2).editImages
    (id := new) (fun _ => (splitImagesAt (s.imagesOf cur.id) (logicalOffsetToByte c (s.imagesOf cur.id) off)).2)
    g2).withText q
  have g4 := g3.frames _ _ hfr
  refine updateDocument (shiftStored (updateFrame g3 ?_) _ _) (h.docs _ _ hdoc).2
  exact g4.2

theorem setPosition_has {id : Nat} {p : Int} {bs : List Block} (h : Has s bs) :
    Has s (Store.setPosition id p bs) := by
  induction bs with
  | nil => exact h
  | cons b bs ih =>
    have h1 : Has s bs := fun x hx => h x (List.mem_cons_of_mem _ hx)
    unfold Store.setPosition
    split
    · intro x hx
      rcases List.mem_cons.mp hx with rfl | hx
      · exact h b (by simp)
      · exact h1 x hx
    · intro x hx
      rcases List.mem_cons.mp hx with rfl | hx
      · exact h _ (by simp)
      · exact ih h1 x hx

theorem refresh_has {st : RopeSt} : ∀ (es : List Int) (n : Int) {bs : List Block} {r}, Has s bs →
    Store.refreshPositions st es n bs = some r → Has s r.1 := by
  intro es
  induction es with
  | nil => intro n bs r h e; simp only [Store.refreshPositions, Option.some.injEq] at e; subst e; exact h
  | cons x es ih =>
    intro n bs r h e
    unfold Store.refreshPositions at e
    split at e
    · exact ih _ h e
    · split at e
      · exact ih _ h e
      · simp only [Option.bind_eq_some_iff] at e
        obtain ⟨len, _, e⟩ := e
        split at e
        · simp only [Option.map_eq_some_iff] at e
          obtain ⟨r', e1, e2⟩ := e
          subst e2
          exact ih _ (r := r') (setPosition_has h) e1
        · exact ih _ h e

theorem deleteSame (h : Sole D f s) {doc : Document} {bs : List Block} {b : Block} {i : Nat}
    {so eo st sp : Int} {r} (hd : doc.id = D) (hb : (s.blocks b.id).isSome)
    (e : s.deleteSame doc bs b i so eo st sp = some r) : Sole D f r.1 := by
  unfold Store.deleteSame at e
  simp only [Option.bind_eq_some_iff] at e
  obtain ⟨c, _, g, _, q, _, e⟩ := e
  cases e
  have h1 := (((h.editRuns (id := b.id) (fun runs => shiftRunsForDelete runs
    (logicalOffsetToByte c (s.imagesOf b.id) so) (logicalOffsetToByte c (s.imagesOf b.id) eo)) hb).editImages
    (id := b.id) (fun im => (shiftImagesForDelete im
    (logicalOffsetToByte c (s.imagesOf b.id) so) (logicalOffsetToByte c (s.imagesOf b.id) eo)).1) hb).withText q).updateBlock b
  refine updateDocument ?_ hd
  split
  · exact h1
  · exact h1.shiftStored _ _

theorem deleteAcross (h : Sole D f s) {did fid : Nat} {doc : Document} {bs : List Block} {b1 b2 : Block}
    {i1 i2 : Nat} {so eo st sp : Int} {r} (hd : doc.id = D)
    (e : s.deleteAcross did fid doc bs b1 i1 so b2 i2 eo st sp = some r) : Sole D f r.1 := by
  unfold Store.deleteAcross at e
  split at e
  · cases e
  simp only [Option.bind_eq_some_iff] at e
  obtain ⟨t1, _, t2, _, ms, _, p1, _, p2, _, q, _, s1, h1, fr, hfr, e⟩ := e
  cases e
  have h0 := h.updateBlock b1
  have hb := updateBlock_self (s := s) b1
  have g1 : Sole D f s1 := by
    refine dropBlocks _ (withText ?_ q) h1
    refine ⟨h0.block, h0.docs, h0.frames, ?_, ?_, h0.cells⟩
    · intro j
      simp only [IdMap.insert_get]
      split
      · rename_i ee; subst ee; intro _; exact hb
      · exact h0.runs j
    · intro j
      simp only [IdMap.insert_get]
      split
      · rename_i ee; subst ee; intro _; exact hb
      · exact h0.images j
  have g2 := g1.frames _ _ hfr
  refine updateDocument ?_ hd
  split
  · refine updateFrame g1 ?_
    exact g2.2
  · refine shiftStored (updateFrame g1 ?_) _ _
    exact g2.2

theorem deleteText (h : Sole D f s) {p a : Int} {r} (e : s.deleteText p a = some r) : Sole D f r.1 := by
  unfold Store.deleteText at e
  simp only [Option.bind_eq_some_iff] at e
  obtain ⟨did, _, e⟩ := e
  split at e
  · cases e; exact h
  simp only [Option.bind_eq_some_iff] at e
  obtain ⟨doc, hdoc, fid, _, ids, _, fr, hfr, ⟨bs, ch⟩, hbs, ⟨b1, i1, so⟩, hb1, cr, _, e⟩ := e
  simp only at e
  split at e
  · cases e
  simp only [Option.bind_eq_some_iff, Option.map_eq_some_iff] at e
  obtain ⟨⟨b2, i2, eo⟩, hb2, r', hr, e⟩ := e
  subst e
  have hd := (h.docs _ _ hdoc).2
  have h1 := updateBlocks ch h
  have hbs1 : Has (s.updateBlocks ch) (sortByKey Block.documentPosition bs) := by
    have h2 := refresh_has _ _ (h.getBlocks ids) hbs
    exact has_sort fun b hb => updateBlocks_has ch b (h2 b hb)
  simp only at hr
  split at hr
  · exact h1.deleteSame hd (findBlock hbs1 hb1) hr
  · exact h1.deleteAcross hd hr

theorem undoSimple (h : Sole D f s) {u : Store.InsertUndoData} {s' : Store}
    (hu : u.originalBlock.id = u.blockId) (e : s.undoInsert (.simple u) = some s') : Sole D f s' := by
  unfold Store.undoInsert at e
  simp only [Option.bind_eq_some_iff, Option.map_eq_some_iff] at e
  obtain ⟨q, _, doc, hdoc, e⟩ := e
  subst e
  have h0 := h.updateBlock u.originalBlock
  have hb := updateBlock_self (s := s) u.originalBlock
  rw [hu] at hb
  refine updateDocument (withText ?_ q) (h0.docs _ _ hdoc).2
  refine ⟨h0.block, h0.docs, h0.frames, ?_, ?_, h0.cells⟩
  · intro j
    simp only [IdMap.insert_get]
    split
    · rename_i ee; subst ee; intro _; exact hb
    · exact h0.runs j
  · intro j
    simp only [IdMap.insert_get]
    split
    · rename_i ee; subst ee; intro _; exact hb
    · exact h0.images j

theorem restoreUndo {s0 : Store} (h : Sole D f s) : Sole D f (s0.restoreUndo s.snapshot) :=
  ⟨h.block, h.docs, h.frames, h.runs, h.images, h.cells⟩

end Sole
end Verif
