import Verif.Lemmas.OrderRemove
/-
Typing, splitting paragraphs and deleting keep a store in good order.
-/
namespace Verif

/-- A block of the store, perhaps with other scalar fields. -/
structure Here (s : Store) (b : Block) : Prop where
  fit : FitBlock s b
  here : (s.blocks b.id).isSome = true

theorem Here.of {s : Store} (h : Fine s) {i : Nat} {b : Block} (hb : s.blocks i = some b) : Here s b :=
  ⟨.of h hb, by rw [block_id h hb, hb]; rfl⟩

theorem Here.like {s : Store} {b c : Block} (h : Here s b) (hi : c.id = b.id) (hl : c.list = b.list) : Here s c :=
  ⟨h.fit.like hi hl, hi ▸ h.here⟩

theorem Here.later {s t : Store} (h : Grows s t) {b : Block} (hb : Here s b) : Here t b :=
  ⟨hb.fit.later rfl h, h.keep .block b.id rfl hb.here⟩

theorem Fine.hereBlocks {s : Store} (h : Fine s) (ids : List Nat) : ∀ b ∈ s.getBlocks ids, Here s b := by
  intro b hb
  obtain ⟨i, _, hi⟩ := List.mem_filterMap.mp hb
  exact .of h hi

theorem Fine.hereSorted {s : Store} (h : Fine s) (ids : List Nat) :
    ∀ b ∈ sortByKey Block.documentPosition (s.getBlocks ids), Here s b :=
  fun b hb => h.hereBlocks ids b (mem_sortByKey.mp hb)

theorem walkStored_here {s : Store} {st : RopeSt} {p : Int} {i : Nat} {bs : List Block} (hb : ∀ b ∈ bs, Here s b)
    {b : Block} {j : Nat} {o : Int} (h : Store.walkStored st p i bs = some (some (b, j, o))) : Here s b := by
  induction bs generalizing i with
  | nil => cases h
  | cons c bs ih =>
    simp only [Store.walkStored, Option.bind_eq_some_iff] at h
    obtain ⟨len, _, h⟩ := h
    split at h
    · cases h; exact hb _ (by simp)
    · exact ih (fun b hb' => hb b (by simp [hb'])) h

theorem find_is_here {s s' : Store} {bs : List Block} (hb : ∀ b ∈ bs, Here s b) {p : Int}
    {b : Block} {j : Nat} {o : Int} (h : s'.findBlockAtPosition bs p = some (b, j, o)) : Here s b := by
  simp only [Store.findBlockAtPosition, Option.bind_eq_some_iff] at h
  obtain ⟨found, _, h⟩ := h
  split at h
  · rename_i r hr
    cases h
    simp only [Option.bind_eq_some_iff, Option.map_eq_some_iff] at hr
    obtain ⟨⟨id, off, start⟩, _, k, hk, c, hc, he⟩ := hr
    cases he
    exact (hb c (List.mem_of_getElem? hc)).like rfl rfl
  · simp only [Option.bind_eq_some_iff] at h
    obtain ⟨r, hr, h⟩ := h
    split at h
    · cases h; exact walkStored_here hb hr
    · simp only [Option.bind_eq_some_iff, Option.map_eq_some_iff] at h
      obtain ⟨c, hc, len, _, he⟩ := h
      cases he
      exact hb _ (List.mem_of_getLast? hc)

theorem fit_drop {s : Store} {bs : List Block} (hb : ∀ b ∈ bs, Here s b) {t : Store} {K : EKind → Bool}
    (hK : K .list = true) (hl : Leads K s t) (n : Nat) : ∀ b ∈ bs.drop n, FitBlock t b :=
  fun b hb' => (hb b (List.mem_of_mem_drop hb')).fit.later hK hl

/-! ### insert_text -/

theorem Fine.insertInto {s t : Store} (h : Fine s) {b : Block} (hb : Here s b) {o : Int} {text : List Char} {n : Nat}
    (hi : s.insertInto b o text = some (n, t)) : Grows s t := by
  simp only [Store.insertInto, Option.bind_eq_some_iff, Option.map_eq_some_iff] at hi
  obtain ⟨content, _, r, _, he⟩ := hi
  cases he
  have g1 := h.updateBlock hb.fit
  have g2 := g1.trans (g1.fine.editRuns (g1.keep .block b.id rfl hb.here) fun runs =>
    shiftRunsForInsert runs (logicalOffsetToByte content (s.imagesOf b.id) o) (utf8Len text))
  split
  · have g3 := g2.trans (g2.fine.editImages (g2.keep .block b.id rfl hb.here) fun im =>
      shiftImagesForInsert im (logicalOffsetToByte content (s.imagesOf b.id) o) (utf8Len text))
    exact g3.trans (g3.fine.withText r)
  · exact g2.trans (g2.fine.withText r)

theorem Fine.deleteRange {s t : Store} (h : Fine s) {b : Block} (hb : Here s b) {so eo : Int} {n : Int}
    (hi : s.deleteRange b so eo = some (n, t)) : Grows s t := by
  simp only [Store.deleteRange] at hi
  split at hi
  · cases hi; exact .refl h
  · simp only [Option.bind_eq_some_iff, Option.map_eq_some_iff] at hi
    obtain ⟨content, _, gone, _, r, _, he⟩ := hi
    cases he
    have g1 := h.editRuns hb.here fun runs => shiftRunsForDelete runs
      (logicalOffsetToByte content (s.imagesOf b.id) so) (logicalOffsetToByte content (s.imagesOf b.id) eo)
    have g2 := g1.trans (g1.fine.editImages (g1.keep .block b.id rfl hb.here) fun im => (shiftImagesForDelete im
      (logicalOffsetToByte content (s.imagesOf b.id) so) (logicalOffsetToByte content (s.imagesOf b.id) eo)).1)
    have g3 := g2.trans (g2.fine.withText r)
    exact g3.trans (g3.fine.updateBlock (hb.later g3).fit)

theorem Fine.insertWithSelection {s t : Store} (h : Fine s) {dto : Store.InsertTextDto} {res : Store.InsertTextResult}
    {u : Store.InsertUndo} (hi : s.insertWithSelection dto = some (t, res, u)) :
    Grows s t ∧ u = .selection s.snapshot := by
  simp only [Store.insertWithSelection, Option.bind_eq_some_iff] at hi
  obtain ⟨did, hdid, doc, hdoc, ids, hids, ⟨b1, i1, o1⟩, hb1, ⟨b2, i2, o2⟩, hb2, hi⟩ := hi
  split at hi
  · cases hi
  · simp only [Option.bind_eq_some_iff] at hi
    obtain ⟨⟨removed, s1⟩, hs1, doc2, hdoc2, ⟨b, i, off⟩, hb, ⟨off', s3⟩, hs3, he⟩ := hi
    cases he
    have hbs := h.hereSorted ids
    have g1 := h.deleteRange (find_is_here hbs hb1) hs1
    have g2 := g1.updateDoc (d := { doc with characterCount := doc.characterCount - removed }) rfl h hdoc rfl
    have g3 := g2.trans (g2.fine.shiftStored _ (-removed) (fit_drop hbs rfl g2 (i1 + 1)))
    have hbs3 := g3.fine.hereSorted ids
    have g4 := g3.fine.insertInto (find_is_here hbs3 hb) hs3
    have g5 := g4.trans (g4.fine.shiftStored _ dto.text.length (fit_drop hbs3 rfl g4 (i + 1)))
    exact ⟨g3.trans (g5.updateDoc rfl g3.fine hdoc2 rfl), rfl⟩

theorem walkFlow_here {s : Store} {p : Int} {run : Int} {ids : List Nat}
    {b : Block} {o : Int} (hw : s.walkFlow p run ids = some (some (b, o))) : ∃ i, s.blocks i = some b := by
  induction ids generalizing run with
  | nil => cases hw
  | cons c bs ih =>
    simp only [Store.walkFlow, Option.bind_eq_some_iff] at hw
    obtain ⟨b', hb', len, _, hw⟩ := hw
    split at hw
    · cases hw; exact ⟨_, hb'⟩
    · exact ih hw

theorem locate_some {s : Store} {did : Nat} {p : Int} {b : Block} {pos o : Int}
    (hl : s.locateSimple did p = some (b, pos, o)) : ∃ i, s.blocks i = some b := by
  simp only [Store.locateSimple, Option.bind_eq_some_iff] at hl
  obtain ⟨found, _, hl⟩ := hl
  split at hl
  · simp only [Option.bind_eq_some_iff, Option.map_eq_some_iff] at hl
    obtain ⟨c, hc, len, _, he⟩ := hl
    cases he; exact ⟨_, hc⟩
  · simp only [Option.bind_eq_some_iff] at hl
    obtain ⟨ids, _, hl⟩ := hl
    split at hl
    · cases hl
    · simp only [Option.bind_eq_some_iff] at hl
      obtain ⟨r, hr, hl⟩ := hl
      split at hl
      · simp only [Option.map_eq_some_iff] at hl
        obtain ⟨len, _, he⟩ := hl
        cases he; exact walkFlow_here hr
      · simp only [Option.bind_eq_some_iff, Option.map_eq_some_iff] at hl
        obtain ⟨c, ⟨i, _, hc⟩, ps, _, len, _, he⟩ := hl
        cases he; exact ⟨_, hc⟩

theorem Fine.stale {s : Store} (h : Fine s) (did : Nat) (b : Block) : ∀ c ∈ s.staleAfter did b, FitBlock s c := by
  intro c hc
  simp only [Store.staleAfter, List.mem_filter, List.mem_flatMap] at hc
  obtain ⟨⟨f, _, hc⟩, _⟩ := hc
  exact (h.hereBlocks _ c hc).fit

theorem Fine.insertSimple {s t : Store} (h : Fine s) {dto : Store.InsertTextDto} {res : Store.InsertTextResult}
    {u : Store.InsertUndo} (hi : s.insertSimple dto = some (t, res, u)) :
    Grows s t ∧ ∃ d i, u = .simple d ∧ s.blocks i = some d.originalBlock ∧ d.blockId = d.originalBlock.id := by
  simp only [Store.insertSimple, Option.bind_eq_some_iff] at hi
  obtain ⟨did, hdid, doc, hdoc, ⟨b, pos, o⟩, hb, ⟨off, s1⟩, hs1, he⟩ := hi
  obtain ⟨bi, hbi⟩ := locate_some hb
  have g1 := h.insertInto (.of h hbi) hs1
  have g2 : Grows s (if ropePositionsMatchFlow s1.text s1.blocks.len then s1
      else s1.shiftStored (s1.staleAfter did b) dto.text.length) := by
    split
    · exact g1
    · exact g1.trans (g1.fine.shiftStored _ _ (g1.fine.stale did b))
  have g3 := g2.updateDoc
    (d := { doc with characterCount := doc.characterCount + dto.text.length }) rfl h hdoc rfl
  cases he
  exact ⟨g3, _, _, rfl, hbi, rfl⟩

theorem Fine.insertText {s t : Store} (h : Fine s) {dto : Store.InsertTextDto} {res : Store.InsertTextResult}
    {u : Store.InsertUndo} (hi : s.insertText dto = some (t, res, u)) : Grows s t := by
  simp only [Store.insertText] at hi
  split at hi
  · exact (h.insertWithSelection hi).1
  · exact (h.insertSimple hi).1

/-! ### insert_block -/

theorem createBlock_made {s t : Store} {b : Block} {owner new : Nat} {index : Int}
    (hc : s.createBlock b owner index = some (new, t)) (h : Fine s) (h0 : b.id = 0)
    (hl : ∀ l, b.list = some l → (s.lists l).isSome = true) : MadeBlock s owner new t := h.createBlock h0 hl hc

theorem mem_insertIdx_or {α : Type} {l : List α} {k : Nat} {x a : α} (h : a ∈ l.insertIdx k x) : a = x ∨ a ∈ l := by
  induction l generalizing k with
  | nil => cases k <;> simp_all
  | cons b l ih =>
    cases k with
    | zero => simpa using h
    | succ k =>
      simp only [List.insertIdx_succ_cons, List.mem_cons] at h ⊢
      rcases h with h | h
      · exact .inr (.inl h)
      · exact (ih h).imp id .inr

theorem Fine.insertOrder {s : Store} (h : Fine s) {i : Nat} {frame : Frame} (hf : s.frames i = some frame)
    {new : Nat} (hn : new ∈ frame.blocks) (k : Nat) :
    Grows s (s.updateFrame { frame with childOrder := frame.childOrder.insertIdx k (new : Int) }) := by
  refine h.updateFrame (o := frame) (by rw [← hf]; exact congrArg s.frames (show frame.id = i from frame_id h hf)) ?_
  intro j hj hp
  rcases mem_insertIdx_or hj with rfl | hj
  · simpa using hn
  · exact h.orders hf j hj hp

theorem Fine.insertBlock {s t : Store} (h : Fine s) {p : Int} {res : Store.InsertBlockResult}
    {u : Snapshot} (hi : s.insertBlock p = some (t, res, u)) : Grows s t ∧ u = s.snapshot := by
  simp only [Store.insertBlock, Option.bind_eq_some_iff] at hi
  obtain ⟨did, hdid, doc, hdoc, fid, hfid, ids, hids, ⟨cur, i, off⟩, hcur, content, hcon, ⟨before, rest⟩, hspl,
    owner, howner, ⟨new, s3⟩, hs3, r, hr, frame, hframe, he⟩ := hi
  have hbs := h.hereBlocks ids
  have hc := find_is_here hbs hcur
  dsimp only at hs3 hr hspl howner hframe
  generalize hsp : logicalOffsetToByte content (s.imagesOf cur.id) off = split at *
  have g1 := h.updateBlock hc.fit
  have g2 := g1.trans (g1.fine.editRuns (g1.keep .block cur.id rfl hc.here) fun _ =>
    (splitRunsAt (s.runsOf cur.id) split).1)
  have g3 := g2.trans (g2.fine.editImages (g2.keep .block cur.id rfl hc.here) fun _ =>
    (splitImagesAt (s.imagesOf cur.id) split).1)
  have m := createBlock_made hs3 g3.fine rfl (fun l hl => (hc.later g3).fit.list l hl)
  have g4 := g3.trans m.grows
  have g5 := g4.trans (g4.fine.editRuns m.here fun _ => (splitRunsAt (s.runsOf cur.id) split).2)
  have g6 := g5.trans (g5.fine.editImages m.here fun _ => (splitImagesAt (s.imagesOf cur.id) split).2)
  have g7 := g6.trans (g6.fine.withText r)
  have hfr : s3.frames (owner.getD fid) = some frame := hframe
  have hnew : new ∈ frame.blocks := by
    cases hold : Store.frames _ (owner.getD fid) with
    | none => rw [m.absent hold] at hfr; cases hfr
    | some f =>
      obtain ⟨l, hl, hn, _⟩ := m.owned f hold
      rw [hl] at hfr; cases hfr; exact hn
  have g8 := g7.trans (g7.fine.insertOrder hframe hnew
    (((frame.childOrder.findIdx? fun e => decide (e > 0) && e.toNat == cur.id).map (· + 1)).getD
        frame.childOrder.length))
  have g9 := g8.trans (g8.fine.shiftStored _ 1 (fit_drop hbs rfl g8 (i + 1)))
  have g10 := g9.updateDoc (d := { doc with blockCount := doc.blockCount + 1 }) rfl h hdoc rfl
  cases he
  exact ⟨g10, rfl⟩

/-! ### delete_text -/

theorem setPosition_is_here {s : Store} {bs : List Block} (hb : ∀ b ∈ bs, Here s b) (i : Nat) (p : Int) :
    ∀ b ∈ Store.setPosition i p bs, Here s b := by
  induction bs with
  | nil => intro b hb'; cases hb'
  | cons c bs ih =>
    intro b hb'
    simp only [Store.setPosition] at hb'
    split at hb'
    · rcases List.mem_cons.mp hb' with rfl | hb'
      · exact (hb c (by simp)).like rfl rfl
      · exact hb b (by simp [hb'])
    · rcases List.mem_cons.mp hb' with rfl | hb'
      · exact hb _ (by simp)
      · exact ih (fun b hb' => hb b (by simp [hb'])) b hb'

theorem refresh_here {s : Store} {st : RopeSt} {es : List Int} {run : Int} {bs bs' ch : List Block}
    (hb : ∀ b ∈ bs, Here s b) (h : Store.refreshPositions st es run bs = some (bs', ch)) :
    (∀ b ∈ bs', Here s b) ∧ ∀ b ∈ ch, Here s b := by
  induction es generalizing run bs bs' ch with
  | nil => cases h; exact ⟨hb, fun b hb => by cases hb⟩
  | cons e es ih =>
    simp only [Store.refreshPositions] at h
    split at h
    · exact ih hb h
    · split at h
      · exact ih hb h
      · rename_i b hf
        simp only [Option.bind_eq_some_iff] at h
        obtain ⟨len, _, h⟩ := h
        split at h
        · simp only [Option.map_eq_some_iff] at h
          obtain ⟨⟨r1, r2⟩, hr, he⟩ := h
          cases he
          obtain ⟨a1, a2⟩ := ih (setPosition_is_here hb _ _) hr
          refine ⟨a1, fun c hc => ?_⟩
          rcases List.mem_cons.mp hc with rfl | hc
          · exact (hb b (List.mem_of_find?_eq_some hf)).like rfl rfl
          · exact a2 c hc
        · exact ih hb h

theorem Fine.deleteSame {s t : Store} (h : Fine s) {doc : Document} {did : Nat} (hdoc : (s.documents did).isSome = true)
    (hd : doc.id = did) {bs : List Block} (hbs : ∀ b ∈ bs, Here s b) {b : Block} (hb : Here s b) {i : Nat}
    {so eo start stop : Int} {res : Store.DeleteTextResult}
    (hi : s.deleteSame doc bs b i so eo start stop = some (t, res)) : Grows s t := by
  simp only [Store.deleteSame, Option.bind_eq_some_iff] at hi
  obtain ⟨content, _, gone, _, r, _, he⟩ := hi
  have g1 := h.editRuns hb.here fun runs => shiftRunsForDelete runs
    (logicalOffsetToByte content (s.imagesOf b.id) so) (logicalOffsetToByte content (s.imagesOf b.id) eo)
  have g2 := g1.trans (g1.fine.editImages (g1.keep .block b.id rfl hb.here) fun im => (shiftImagesForDelete im
    (logicalOffsetToByte content (s.imagesOf b.id) so) (logicalOffsetToByte content (s.imagesOf b.id) eo)).1)
  have g3 := g2.trans (g2.fine.withText r)
  have g4 := g3.trans (g3.fine.updateBlock (hb.later g3).fit)
  cases he
  split
  · exact g4.trans (g4.fine.updateDocument hd (g4.keep .document did rfl hdoc))
  · have g5 := g4.trans (g4.fine.shiftStored _ (-(stop - start)) (fit_drop hbs rfl g4 (i + 1)))
    exact g5.trans (g5.fine.updateDocument hd (g5.keep .document did rfl hdoc))

/-- The kinds that stay when blocks go. -/
def notBlocks (k : EKind) : Bool := decide (k ≠ .block)

theorem Fine.dropBlocks {s t : Store} (h : Fine s) {ids : List Nat} (hd : Store.dropBlocks ids s = some t) :
    Leads notBlocks s t := by
  induction ids generalizing s with
  | nil => cases hd; exact .refl h
  | cons i ids ih =>
    simp only [Store.dropBlocks, Option.bind_eq_some_iff] at hd
    obtain ⟨r, _, u, hu, hd⟩ := hd
    have g1 := h.eraseFormats i
    have g2 := g1.trans (g1.fine.withText r)
    have g3 := (Leads.of g2).trans (g2.fine.removeBlocks' (K := notBlocks) hu (by decide))
    exact g3.trans (ih g3.fine hd)

theorem Fine.deleteAcross {s t : Store} (h : Fine s) {doc : Document} {did fid : Nat}
    (hdoc : (s.documents did).isSome = true) (hd : doc.id = did) {bs : List Block} (hbs : ∀ b ∈ bs, Here s b)
    {b1 b2 : Block} (hb : Here s b1) {i1 i2 : Nat} {so eo start stop : Int} {res : Store.DeleteTextResult}
    (hi : s.deleteAcross did fid doc bs b1 i1 so b2 i2 eo start stop = some (t, res)) : Leads notBlocks s t := by
  simp only [Store.deleteAcross] at hi
  split at hi
  · cases hi
  simp only [Option.bind_eq_some_iff] at hi
  obtain ⟨t1, _, t2, _, mids, _, p1, _, p2, _, r, hr, s5, hs5, frame, hframe, he⟩ := hi
  have g1 := h.updateBlock hb.fit
  have g2 := g1.trans (g1.fine.setRuns (g1.keep .block b1.id rfl hb.here)
    (mergeRunsForJoin (s.runsOf b1.id) (logicalOffsetToByte t1 (s.imagesOf b1.id) so) (s.runsOf b2.id)
      (logicalOffsetToByte t2 (s.imagesOf b2.id) eo)))
  have g3 := g2.trans (g2.fine.setImages (g2.keep .block b1.id rfl hb.here)
    (mergeImagesForJoin (s.imagesOf b1.id) (logicalOffsetToByte t1 (s.imagesOf b1.id) so) (s.imagesOf b2.id)
      (logicalOffsetToByte t2 (s.imagesOf b2.id) eo)))
  have g4 := g3.trans (g3.fine.withText r)
  have g5 := (Leads.of g4).trans (g4.fine.dropBlocks hs5)
  have hid := frame_id g5.fine hframe
  have g6 := g5.trans (.of (g5.fine.updateFrame
    (f := { frame with childOrder := frame.childOrder.filter fun e => !(decide (0 ≤ e) &&
      (((bs.take (i2 + 1)).drop (i1 + 1)).map Block.id).contains e.toNat) }) (o := frame)
      (by rw [← hframe]; exact congrArg _ hid)
      fun j hj hp => g5.fine.orders hframe j (List.mem_filter.mp hj).1 hp))
  cases he
  split
  · exact g6.trans (.of (g6.fine.updateDocument hd (g6.keep .document did rfl hdoc)))
  · have g7 := g6.trans (.of (g6.fine.shiftStored _ (-(stop - start)) (fit_drop hbs rfl g6 (i2 + 1))))
    exact g7.trans (.of (g7.fine.updateDocument hd (g7.keep .document did rfl hdoc)))

theorem Fine.deleteText {s t : Store} (h : Fine s) {p a : Int} {res : Store.DeleteTextResult} {u : Snapshot}
    (hi : s.deleteText p a = some (t, res, u)) : Leads notBlocks s t ∧ u = s.snapshot := by
  simp only [Store.deleteText, Option.bind_eq_some_iff] at hi
  obtain ⟨did, hdid, hi⟩ := hi
  split at hi
  · cases hi; exact ⟨.refl h, rfl⟩
  · simp only [Option.bind_eq_some_iff] at hi
    obtain ⟨doc, hdoc, fid, hfid, ids, hids, root, hroot, ⟨bs, ch⟩, href, ⟨b1, i1, so⟩, hb1, cross, hcross, hi⟩ := hi
    split at hi
    · cases hi
    simp only [Option.bind_eq_some_iff, Option.map_eq_some_iff] at hi
    obtain ⟨⟨b2, i2, eo⟩, hb2, ⟨t', res'⟩, hr, he⟩ := hi
    cases he
    obtain ⟨hbs, hch⟩ := refresh_here (h.hereBlocks ids) href
    have g1 := h.updateBlocks ch fun b hb => (hch b hb).fit
    have hbs' : ∀ b ∈ sortByKey Block.documentPosition bs, Here (s.updateBlocks ch) b :=
      fun b hb => (hbs b (mem_sortByKey.mp hb)).later g1
    have hd' := g1.keep .document did rfl (by rw [show s.tab .document did = _ from hdoc]; rfl)
    refine ⟨(Leads.of g1).trans ?_, rfl⟩
    split at hr
    · exact .of (g1.fine.deleteSame hd' (doc_id h hdoc) hbs' (find_is_here hbs' hb1) hr)
    · exact g1.fine.deleteAcross hd' (doc_id h hdoc) hbs' (find_is_here hbs' hb1) hr

end Verif
