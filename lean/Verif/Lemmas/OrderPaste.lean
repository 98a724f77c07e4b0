import Verif.Lemmas.OrderTable
import Verif.Model.Clipboard
import Verif.Model.Replace
import Verif.Model.PasteTable
import Verif.Model.FragmentText
/-
Replacing and pasting keep a store in good order.
-/
namespace Verif
open Store (toU32 fragState)

/-! ### replace_text -/

theorem Fine.replaceInBlock {s t : Store} (h : Fine s) {b : Block} (hb : Here s b) {so eo : Nat} {rep : List Char}
    (hi : s.replaceInBlock b so eo rep = some t) : Grows s t := by
  simp only [Store.replaceInBlock, Option.bind_eq_some_iff, Option.map_eq_some_iff] at hi
  obtain ⟨content, _, _, _, r1, _, r2, _, he⟩ := hi
  cases he
  generalize logicalOffsetToByte content (s.imagesOf b.id) so = x
  generalize logicalOffsetToByte content (s.imagesOf b.id) eo = y
  have g1 := h.editRuns hb.here fun runs => shiftRunsForInsert (shiftRunsForDelete runs x y) x (utf8Len rep)
  have g2 := g1.trans (g1.fine.editImages (g1.keep .block b.id rfl hb.here) fun im =>
    shiftImagesForInsert (shiftImagesForDelete im x y).1 x (utf8Len rep))
  have g3 := g2.trans (g2.fine.updateBlock (hb.later g2).fit)
  exact g3.trans (g3.fine.withText r2)

theorem Fine.replaceLoop {s t : Store} (h : Fine s) {rep : List Char} {bs : List Block} {vs : List Store.ValidMatch}
    (hi : Store.replaceLoop rep bs vs s = some t) : Grows s t := by
  induction vs generalizing t with
  | nil => cases hi; exact .refl h
  | cons v vs ih =>
    simp only [Store.replaceLoop, Option.bind_eq_some_iff] at hi
    obtain ⟨u, hu, b, _, b', hb', hi⟩ := hi
    have g := ih hu
    exact g.trans (g.fine.replaceInBlock (.of g.fine hb') hi)

theorem shifted_here {s : Store} {n : Nat} {vs : List Store.ValidMatch} {blocks : List Block} {shift : Int} {bs : List Block}
    (hb : ∀ b ∈ bs, Here s b) : ∀ b ∈ Store.shiftedBlocks n vs blocks shift bs, Here s b := by
  induction bs generalizing shift with
  | nil => intro b hb'; cases hb'
  | cons c bs ih =>
    intro b hb'
    simp only [Store.shiftedBlocks] at hb'
    have ih' := fun k => ih (shift := k) fun b hb' => hb b (.tail _ hb')
    split at hb'
    · rcases List.mem_cons.mp hb' with rfl | hb'
      · exact (hb c (.head _)).like rfl rfl
      · exact ih' _ b hb'
    · exact ih' _ b hb'

theorem Fine.replaceMatches {s t : Store} (h : Fine s) {did : Nat} {rep : List Char} {all : Bool}
    {ms : List (Nat × Nat)} {r : Store.ReplaceResult} (hi : s.replaceMatches did rep all ms = some (t, r)) : Grows s t := by
  simp only [Store.replaceMatches] at hi
  split at hi
  · cases hi; exact .refl h
  simp only [Option.bind_eq_some_iff] at hi
  obtain ⟨⟨vs, sk⟩, _, hi⟩ := hi
  dsimp only at hi
  generalize (if all = true then vs else vs.take 1) = ws at hi
  split at hi
  · cases hi; exact .refl h
  simp only [Option.bind_eq_some_iff, Option.map_eq_some_iff] at hi
  obtain ⟨s1, h1, doc, hdoc, he⟩ := hi
  have g1 := h.replaceLoop h1
  have g2 := g1.trans (g1.fine.updateBlocks (Store.shiftedBlocks rep.length ws (s.sortedBlocks did) 0 (s1.sortedBlocks did))
    fun b hb => (shifted_here (g1.fine.sortedHere did) b hb).fit)
  have g3 := g2.trans ((Leads.refl g2.fine).updateDoc rfl g2.fine hdoc (d := { doc with
          characterCount := doc.characterCount + (ws.map fun v => (rep.length : Int) - v.len).sum }) rfl)
  cases he
  exact g3

theorem Fine.replaceText {s t : Store} (h : Fine s) {env : SearchEnv} {dto : Store.ReplaceDto} {r : Store.ReplaceResult}
    {u : Snapshot} (hi : s.replaceText env dto = some (t, r, u)) : Grows s t ∧ u = s.snapshot := by
  simp only [Store.replaceText, Option.bind_eq_some_iff, Option.map_eq_some_iff] at hi
  obtain ⟨did, _, text, _, ms, _, ⟨t', r'⟩, h1, he⟩ := hi
  cases he
  exact ⟨h.replaceMatches h1, rfl⟩

/-! ### Steps of pasting -/

theorem Fine.writeState {s : Store} (h : Fine s) {i : Nat} {runs : List (Run CharFormat)} {imgs : List (Img CharFormat)}
    (hb : (s.blocks i).isSome = true) : Grows s (s.writeState i runs imgs) := by
  refine h.formats (fun k => by cases k <;> rfl) rfl ?_ ?_
  · intro j hj
    simp only [Store.writeState] at hj
    split at hj
    · simp only [IdMap.erase] at hj
      split at hj
      · cases hj
      · exact h.tidy.runs j hj
    · simp only [IdMap.insert] at hj
      split at hj
      · rename_i e; exact e ▸ hb
      · exact h.tidy.runs j hj
  · intro j hj
    simp only [Store.writeState] at hj
    split at hj
    · simp only [IdMap.erase] at hj
      split at hj
      · cases hj
      · exact h.tidy.images j hj
    · simp only [IdMap.insert] at hj
      split at hj
      · rename_i e; exact e ▸ hb
      · exact h.tidy.images j hj

theorem Fine.clearState {s : Store} (h : Fine s) (i : Nat) : Grows s (s.writeState i [] []) := by
  simpa [Store.writeState] using h.eraseFormats i

theorem Fine.putBlock {s : Store} (h : Fine s) {b : Block} (hb : Here s b) : Grows s (s.putBlock b) := by
  obtain ⟨o, ho⟩ := Option.isSome_iff_exists.mp hb.here
  exact h.over (k := .block) (by decide) (o := o) ho rfl (refs_block hb.fit.list)

/-- The lists a grouper remembers exist. -/
def Known (s : Store) (g : ListGrouper) : Prop := ∀ id st, some (id, st) ∈ g → (s.lists id).isSome = true

theorem Known.nil (s : Store) : Known s [] := fun _ _ h => by cases h

theorem Known.later {s t : Store} (h : Grows s t) {g : ListGrouper} (hg : Known s g) : Known t g :=
  fun id st hm => h.keep .list id rfl (hg id st hm)

theorem Known.tryReuse {s : Store} {g : ListGrouper} (hg : Known s g) (st : ListStyle) (n : Nat) :
    Known s (g.tryReuse st n).1 ∧ ∀ id, (g.tryReuse st n).2 = some id → (s.lists id).isSome = true := by
  have h1 : Known s (g.take (n + 1)) := fun id st hm => hg id st (List.mem_of_mem_take hm)
  simp only [ListGrouper.tryReuse]
  split
  · rename_i id st' he
    split
    · refine ⟨h1, fun id' h => ?_⟩
      cases h
      exact h1 id st' (List.mem_of_getElem? he)
    · exact ⟨h1, fun _ h => by cases h⟩
  · exact ⟨h1, fun _ h => by cases h⟩

theorem Known.register {s : Store} {g : ListGrouper} (hg : Known s g) {id : Nat} (h : (s.lists id).isSome = true)
    (st : ListStyle) (n : Nat) : Known s (g.register id st n) := by
  intro id' st' hm
  simp only [ListGrouper.register] at hm
  rcases List.mem_or_eq_of_mem_set hm with hm | hm
  · rcases List.mem_append.mp hm with hm | hm
    · exact hg id' st' hm
    · have := List.eq_of_mem_replicate hm; cases this
  · cases hm; exact h

theorem Fine.chooseList {s t : Store} (h : Fine s) {did : Nat} {g g' : ListGrouper} (hg : Known s g)
    {fl : Option Store.FragList} {l : Option Nat} (hi : s.chooseList did g fl = some (t, g', l)) :
    Grows s t ∧ Known t g' ∧ (∀ i, l = some i → (t.lists i).isSome = true) ∧ t.frames = s.frames := by
  cases fl with
  | none =>
    cases hi
    exact ⟨.refl h, .nil _, (fun _ h => by cases h), rfl⟩
  | some fl =>
    obtain ⟨k1, k2⟩ := hg.tryReuse fl.style (toU32 fl.indent)
    simp only [Store.chooseList] at hi
    split at hi
    · rename_i id hid
      cases hi
      exact ⟨.refl h, k1, fun i hi => by cases hi; exact k2 _ hid, rfl⟩
    · simp only [Option.map_eq_some_iff] at hi
      obtain ⟨⟨id, u⟩, hu, he⟩ := hi
      cases he
      have m := h.createList rfl hu
      have hl : (u.lists id).isSome = true := by rw [show u.lists id = _ from m.here]; rfl
      exact ⟨m.grows, (k1.later m.grows).register hl _ _, fun i hi => by cases hi; exact hl,
        m.others .frame (by decide) (by decide) (by decide)⟩

theorem Fine.newList {s t : Store} (h : Fine s) {did : Nat} {fl : Option Store.FragList} {l : Option Nat}
    (hi : s.newList did fl = some (t, l)) :
    Grows s t ∧ (∀ i, l = some i → (t.lists i).isSome = true) ∧ t.frames = s.frames := by
  cases fl with
  | none => cases hi; exact ⟨.refl h, (fun _ h => by cases h), rfl⟩
  | some fl =>
    simp only [Store.newList, Option.map_eq_some_iff] at hi
    obtain ⟨⟨id, u⟩, hu, he⟩ := hi
    cases he
    have m := h.createList rfl hu
    exact ⟨m.grows, fun i hi => by cases hi; dsimp only; rw [show u.lists id = _ from m.here]; rfl,
      m.others .frame (by decide) (by decide) (by decide)⟩

/-- The frame `fid` has the blocks `ids` and what it had as `f`. -/
def HasBlocks (t : Store) (fid : Nat) (f : Frame) (ids : List Nat) : Prop :=
  ∃ o, t.frames fid = some o ∧ (∀ i ∈ f.blocks, i ∈ o.blocks) ∧ ∀ i ∈ ids, i ∈ o.blocks

theorem HasBlocks.of {s : Store} {fid : Nat} {f : Frame} (h : s.frames fid = some f) : HasBlocks s fid f [] :=
  ⟨f, h, fun _ h => h, fun _ h => by cases h⟩

theorem HasBlocks.same {s t : Store} {fid : Nat} {f : Frame} {ids : List Nat} (h : HasBlocks s fid f ids)
    (ht : t.frames = s.frames) : HasBlocks t fid f ids := by unfold HasBlocks; rw [ht]; exact h

theorem HasBlocks.made {s t : Store} {fid new : Nat} {f : Frame} {ids : List Nat} (h : HasBlocks s fid f ids)
    (m : MadeBlock s fid new t) : HasBlocks t fid f (new :: ids) := by
  obtain ⟨o, h1, h2, h3⟩ := h
  obtain ⟨l, hl, hn, ho⟩ := m.owned o h1
  refine ⟨_, hl, fun i hi => ho i (h2 i hi), fun i hi => ?_⟩
  rcases List.mem_cons.mp hi with rfl | hi
  · exact hn
  · exact ho i (h3 i hi)

theorem MadeBlock.holds {s0 s t : Store} {fid new : Nat} (m : MadeBlock s fid new t) {f : Frame} {ids : List Nat}
    (h : HasBlocks s0 fid f ids) (ht : s.frames = s0.frames) : HasBlocks t fid f (new :: ids) := (h.same ht).made m

theorem HasBlocks.sub {s : Store} {fid : Nat} {f : Frame} {ids ids' : List Nat} (h : HasBlocks s fid f ids)
    (hs : ∀ i ∈ ids', i ∈ ids) : HasBlocks s fid f ids' := by
  obtain ⟨o, h1, h2, h3⟩ := h
  exact ⟨o, h1, h2, fun i hi => h3 i (hs i hi)⟩

theorem Fine.placeChildren {t : Store} (h : Fine t) {c : Store.PasteAt} (hid : c.frame.id = c.fid)
    (ho : ∀ j ∈ c.frame.childOrder, 0 < j → j.toNat ∈ c.frame.blocks) {ids : List Nat}
    (hh : HasBlocks t c.fid c.frame ids) : Grows t (t.placeChildren c ids) := by
  obtain ⟨o, h1, h2, h3⟩ := hh
  refine h.updateFrame (o := o) (by rw [← h1]; exact congrArg t.frames hid) ?_
  intro j hj hp
  rcases List.mem_append.mp hj with hj | hj
  · rcases List.mem_append.mp hj with hj | hj
    · exact h2 _ (ho j (List.mem_of_mem_take hj) hp)
    · obtain ⟨i, hi, rfl⟩ := List.mem_map.mp hj
      exact h3 _ hi
  · exact h2 _ (ho j (List.mem_of_mem_drop hj) hp)

theorem Fine.addFragBlocks {s t : Store} (h : Fine s) {did fid : Nat} {fbs : List Store.FragBlock} {index : Nat} {run run' : Int}
    {g : ListGrouper} (hg : Known s g) {pay : List (Nat × List Char)} {f : Frame} {ids : List Nat}
    (hh : HasBlocks s fid f ids) (hi : Store.addFragBlocks did fid fbs index run g s = some (t, pay, run')) :
    Grows s t ∧ HasBlocks t fid f (pay.map Prod.fst ++ ids) := by
  induction fbs generalizing s index run g ids pay with
  | nil => cases hi; exact ⟨.refl h, hh⟩
  | cons fb fbs ih =>
    simp only [Store.addFragBlocks, Option.bind_eq_some_iff, Option.map_eq_some_iff] at hi
    obtain ⟨⟨s1, g1, l⟩, h1, ⟨new, s2⟩, h2, ⟨s3, pay', r3⟩, h3, he⟩ := hi
    cases he
    obtain ⟨a1, a2, a3, a4⟩ := h.chooseList hg h1
    have m := createBlock_made h2 a1.fine rfl a3
    have b1 := m.grows.fine.writeState (runs := (fragState fb).1) (imgs := (fragState fb).2) m.here
    have b2 := m.grows.trans b1
    obtain ⟨c1, c2⟩ := ih b1.fine (a2.later b2) (((hh.same a4).made m).same (ht := rfl)) h3
    refine ⟨a1.trans (b2.trans c1), c2.sub fun i hi => ?_⟩
    simp only [List.map_cons, List.cons_append, List.mem_cons, List.mem_append] at hi ⊢
    rcases hi with hi | hi | hi
    · exact .inr (.inl hi)
    · exact .inl hi
    · exact .inr (.inr hi)

/-- Where a fragment is pasted is a place in the store. -/
structure PasteHere (s : Store) (c : Store.PasteAt) : Prop where
  doc : s.documents c.did = some c.document
  frame : s.frames c.fid = some c.frame
  blocks : ∀ b ∈ c.blocks, Here s b
  cur : Here s c.cur

theorem Fine.pasteHead {s t : Store} (h : Fine s) {c : Store.PasteAt} (hc : PasteHere s c) {ow : Bool} {first : Store.FragBlock}
    {g : ListGrouper} (hi : s.pasteHead c ow first = some (t, g)) : Grows s t ∧ Known t g ∧ t.frames = s.frames := by
  simp only [Store.pasteHead] at hi
  split at hi
  · simp only [Option.map_eq_some_iff] at hi
    obtain ⟨⟨s1, g1, l⟩, h1, he⟩ := hi
    obtain ⟨a1, a2, a3, a4⟩ := h.chooseList (.nil _) h1
    have hb := hc.cur.later a1
    have b := a1.fine.putBlock (b := { first.format with
      id := c.cur.id, list := l, documentPosition := c.cur.documentPosition }) ⟨⟨hb.fit.pos, hb.fit.lt, a3⟩, hb.here⟩
    cases he
    exact ⟨a1.trans b, a2.later b, a4⟩
  · cases hi
    have b := h.updateBlock hc.cur.fit
    refine ⟨b, ?_, rfl⟩
    split
    · exact .nil _
    · rename_i l hl
      split
      · exact .nil _
      · exact (Known.nil _).register (b.keep .list l rfl (hc.cur.fit.list l hl)) _ _

theorem tailBlock_id (c : Store.PasteAt) (plain : Bool) (run : Int) : (Store.tailBlock c plain run).id = 0 := by
  unfold Store.tailBlock; split <;> rfl

theorem tailBlock_list {s t : Store} {c : Store.PasteAt} (hc : Here s c.cur) (g : Grows s t) (plain : Bool) (run : Int) :
    ∀ l, (Store.tailBlock c plain run).list = some l → (t.lists l).isSome = true := by
  intro l hl
  unfold Store.tailBlock at hl
  split at hl
  · cases hl
  · exact (hc.later g).fit.list l hl

theorem Fine.addTail {s0 s t : Store} (g0 : Grows s0 s) {c : Store.PasteAt} (hc : Here s0 c.cur) {plain : Bool} {index : Nat}
    {run : Int} {tail : Store.ParaState} {new : Nat} (hi : s.addTail c plain index run tail = some (t, new))
    {f : Frame} {ids : List Nat} (hh : HasBlocks s c.fid f ids) : Grows s0 t ∧ HasBlocks t c.fid f (new :: ids) := by
  simp only [Store.addTail, Option.map_eq_some_iff] at hi
  obtain ⟨⟨n, s1⟩, h1, he⟩ := hi
  cases he
  have m := createBlock_made h1 g0.fine (tailBlock_id _ _ _) (tailBlock_list hc g0 plain run)
  have g1 := g0.trans m.grows
  exact ⟨g1.trans (g1.fine.writeState m.here), (hh.made m).same rfl⟩

theorem Fine.pasteInline {s t : Store} (h : Fine s) {c : Store.PasteAt} (hc : PasteHere s c) {p : Int} {fb : Store.FragBlock}
    {r : Store.PasteResult} (hi : s.pasteInline c p fb = some (t, r)) : Grows s t := by
  simp only [Store.pasteInline] at hi
  split at hi
  · cases hi; exact .refl h
  simp only [Option.map_eq_some_iff] at hi
  obtain ⟨rope, _, he⟩ := hi
  have g1 := h.updateBlock hc.cur.fit
  have g2 := g1.trans (g1.fine.writeState (runs := coalesce (spliceRange (shiftRunsForInsert c.runs c.off (utf8Len fb.text)) c.off (c.off + utf8Len fb.text)
      (Store.moveRuns c.off (fragState fb).1))) (imgs := sortByKey (fun i : Img CharFormat => (i.off : Int))
      (shiftImagesForInsert c.imgs c.off (utf8Len fb.text) ++ Store.moveImages c.off (fragState fb).2)) (g1.keep .block c.cur.id rfl hc.cur.here))
  have g3 := g2.trans (g2.fine.withText rope)
  have g4 := g3.trans (g3.fine.shiftStored _ fb.state.len (fit_drop hc.blocks rfl g3 (c.index + 1)))
  have g5 := g4.updateDoc (d := { c.document with characterCount := c.document.characterCount + fb.state.len })
    rfl h hc.doc rfl
  cases he
  exact g5


theorem Fine.pasteMany {s t : Store} (h : Fine s) {c : Store.PasteAt} (hc : PasteHere s c) {first last : Store.FragBlock}
    {fbs : List Store.FragBlock} {r : Store.PasteResult} (hi : s.pasteMany c first last fbs = some (t, r)) : Grows s t := by
  simp only [Store.pasteMany, Option.bind_eq_some_iff, Option.map_eq_some_iff] at hi
  obtain ⟨⟨s1, g1⟩, h1, ⟨s2, pay, run⟩, h2, ⟨s3, extra⟩, h3, rope, _, he⟩ := hi
  obtain ⟨a1, a2, a3⟩ := h.pasteHead hc h1
  have b1 := a1.trans (a1.fine.writeState (runs := (Store.headState c.left first.inlineOnly
    (decide (c.before = []) && !first.inlineOnly) first).runs) (imgs := (Store.headState c.left first.inlineOnly
    (decide (c.before = []) && !first.inlineOnly) first).imgs) (a1.keep .block c.cur.id rfl hc.cur.here))
  obtain ⟨d1, d2⟩ := b1.fine.addFragBlocks (a2.later (a1.fine.writeState (a1.keep .block c.cur.id rfl hc.cur.here)))
    (((HasBlocks.of hc.frame).same a3).same rfl) h2
  have e1 := b1.trans d1
  have e2 : Grows s s3 ∧ HasBlocks s3 c.fid c.frame ((pay ++ extra).map Prod.fst) := by
    split at h3
    · cases h3; exact ⟨e1, by simpa using d2⟩
    · simp only [Option.map_eq_some_iff] at h3
      obtain ⟨⟨s4, id⟩, h4, h5⟩ := h3
      obtain ⟨k1, k2⟩ := Fine.addTail e1 hc.cur h4 d2
      cases h5
      exact ⟨k1, k2.sub fun i hi => by simpa [or_comm] using hi⟩
  have k1 := e2.1.trans (e2.1.fine.placeChildren (frame_id h hc.frame) (h.orders hc.frame) e2.2)
  have k2 := k1.trans (k1.fine.withText rope)
  cases he
  refine Leads.updateDoc ?_ rfl h hc.doc rfl
  exact k2.trans (k2.fine.shiftStored _ _ (fit_drop hc.blocks rfl k2 (c.index + 1)))

theorem Fine.pasteOver {s t : Store} (h : Fine s) {c : Store.PasteAt} (hc : PasteHere s c) {fb : Store.FragBlock}
    {r : Store.PasteResult} (hi : s.pasteOver c fb = some (t, r)) : Grows s t := by
  simp only [Store.pasteOver, Option.bind_eq_some_iff, Option.map_eq_some_iff] at hi
  obtain ⟨⟨s1, l⟩, h1, ⟨s3, pay, run, added⟩, h3, rope, _, he⟩ := hi
  obtain ⟨a1, a2, a3⟩ := h.newList h1
  have hb := hc.cur.later a1
  have b0 := a1.trans (a1.fine.putBlock (b := { fb.format with
    id := c.cur.id, list := l, documentPosition := c.cur.documentPosition }) ⟨⟨hb.fit.pos, hb.fit.lt, a2⟩, hb.here⟩)
  have b1 := b0.trans (b0.fine.writeState (runs := (fragState fb).1) (imgs := (fragState fb).2)
    (b0.keep .block c.cur.id rfl hc.cur.here))
  have e2 : Grows s s3 := by
    split at h3
    · cases h3; exact b1
    · simp only [Option.bind_eq_some_iff, Option.map_eq_some_iff] at h3
      obtain ⟨⟨new, s4⟩, h4, len, _, h5⟩ := h3
      have m := createBlock_made h4 b1.fine (tailBlock_id _ _ _) (tailBlock_list hc.cur b1 true _)
      have g1 := b1.trans m.grows
      have g2 := g1.trans (g1.fine.writeState (runs := c.right.runs) (imgs := c.right.imgs) m.here)
      have h0 : HasBlocks s1 c.fid c.frame [] := (HasBlocks.of hc.frame).same a3
      have hh := (m.holds h0 rfl).same (t := s4.writeState new c.right.runs c.right.imgs) rfl
      cases h5
      exact g2.trans (g2.fine.placeChildren (frame_id h hc.frame) (h.orders hc.frame) hh)
  have k2 := e2.trans (e2.fine.withText rope)
  cases he
  refine Leads.updateDoc ?_ rfl h hc.doc rfl
  exact k2.trans (k2.fine.shiftStored _ _ (fit_drop hc.blocks rfl k2 (c.index + 1)))

theorem Fine.pasteBetween {s t : Store} (h : Fine s) {c : Store.PasteAt} (hc : PasteHere s c) {fb : Store.FragBlock}
    {r : Store.PasteResult} (hi : s.pasteBetween c fb = some (t, r)) : Grows s t := by
  simp only [Store.pasteBetween, Option.bind_eq_some_iff, Option.map_eq_some_iff] at hi
  obtain ⟨len, _, ⟨s1, l⟩, h1, ⟨new, s2⟩, h2, ⟨s3, tail⟩, h3, rope, _, he⟩ := hi
  have b0 := h.updateBlock hc.cur.fit
  have b1 := b0.trans (b0.fine.writeState (runs := c.left.runs) (imgs := c.left.imgs)
    (b0.keep .block c.cur.id rfl hc.cur.here))
  obtain ⟨a1, a2, a3⟩ := b1.fine.newList h1
  have m := createBlock_made h2 a1.fine rfl a2
  have g1 := b1.trans (a1.trans m.grows)
  have g2 := g1.trans (g1.fine.writeState (runs := (fragState fb).1) (imgs := (fragState fb).2) m.here)
  have hh := (((((HasBlocks.of hc.frame).same (t := (s.updateBlock c.cur).writeState c.cur.id c.left.runs c.left.imgs)
    rfl).same a3).made m).same (t := s2.writeState new (fragState fb).1 (fragState fb).2) rfl)
  obtain ⟨k1, k2⟩ := Fine.addTail g2 hc.cur h3 hh
  have k3 := k1.trans (k1.fine.placeChildren (frame_id h hc.frame) (h.orders hc.frame)
    (k2.sub (ids' := [new, tail]) fun i hi => by simp at hi ⊢; rcases hi with rfl | rfl <;> simp))
  have k4 := k3.trans (k3.fine.shiftStored _ (c.cur.documentPosition + len + 1 + fb.state.len + 1 + c.right.len + 1 - (c.cur.documentPosition + c.len + 1))
    (fit_drop hc.blocks rfl k3 (c.index + 1)))
  have k5 := k4.updateDoc (d := { c.document with
    blockCount := c.document.blockCount + 2
    characterCount := c.document.characterCount + fb.state.len }) rfl h hc.doc rfl
  cases he
  exact k5.trans (k5.fine.withText rope)

theorem Fine.insertFragment {s t : Store} (h : Fine s) {p a : Int} {fbs : List Store.FragBlock} {r : Store.PasteResult}
    {u : Snapshot} (hi : s.insertFragment p a fbs = some (t, r, u)) : Grows s t ∧ u = s.snapshot := by
  simp only [Store.insertFragment] at hi
  split at hi
  · cases hi
  simp only [Option.bind_eq_some_iff] at hi
  obtain ⟨did, _, doc, hdoc, hi⟩ := hi
  split at hi
  · cases hi
  simp only [Option.bind_eq_some_iff, Option.map_eq_some_iff] at hi
  obtain ⟨root, _, pairs, _, ids, _, ⟨cur, i, o⟩, hcur, frame, hframe, content, _, ⟨b, a⟩, _, ⟨t', r'⟩, hp, he⟩ := hi
  cases he
  refine ⟨?_, rfl⟩
  dsimp only at hp hframe
  generalize hcc : (Store.PasteAt.mk did _ _ frame _ cur i _ _ _ b a) = c at hp
  have hc : PasteHere s c := by
    subst hcc
    exact ⟨hdoc, hframe, h.hereSorted ids, find_is_here (h.hereSorted ids) hcur⟩
  unfold Store.pasteFragment at hp
  split at hp
  · cases hp
  · split at hp
    · exact h.pasteInline hc hp
    · split at hp
      · exact h.pasteOver hc hp
      · exact h.pasteBetween hc hp
  · exact h.pasteMany hc hp

theorem Fine.insertDocumentFragment {s t : Store} (h : Fine s) {p : Int} {fr : Store.Fragment} {r : Store.PasteResult}
    {u : Snapshot} (hi : s.insertDocumentFragment p fr = some (t, r, u)) : Grows s t ∧ u = s.snapshot :=
  h.insertFragment hi

/-! ### Tables -/

theorem Fine.addCellBlocks {s t : Store} (h : Fine s) {g : Nat} {fbs : List Store.FragBlock} {pos pos' : Int}
    {l : List (Nat × List Char)} (hi : Store.addCellBlocks g fbs pos s = some (l, pos', t)) : Grows s t := by
  induction fbs generalizing s pos l with
  | nil => cases hi; exact .refl h
  | cons fb fbs ih =>
    simp only [Store.addCellBlocks, Option.bind_eq_some_iff, Option.map_eq_some_iff] at hi
    obtain ⟨⟨b, s1⟩, h1, ⟨l2, p2, s2⟩, h2, he⟩ := hi
    cases he
    have m := createBlock_made h1 h rfl (fun l hl => by cases hl)
    have g1 := m.grows.trans (m.grows.fine.writeState (runs := (fragState fb).1) (imgs := (fragState fb).2) m.here)
    exact g1.trans (ih g1.fine h2)

theorem Fine.fillCell {s t : Store} (h : Fine s) {g b : Nat} (hb : (s.blocks b).isSome = true) {fbs : List Store.FragBlock}
    {pos pos' : Int} {l : List (Nat × List Char)} (hi : Store.fillCell g b pos s fbs = some (l, pos', t)) : Grows s t := by
  cases fbs with
  | nil => cases hi; exact .refl h
  | cons fb fbs =>
    simp only [Store.fillCell, Option.map_eq_some_iff] at hi
    obtain ⟨⟨l2, p2, s2⟩, h2, he⟩ := hi
    cases he
    have g1 := h.writeState (runs := (fragState fb).1) (imgs := (fragState fb).2) hb
    exact g1.trans (g1.fine.addCellBlocks h2)

theorem Fine.pasteCells {s t : Store} (h : Fine s) {did tid : Nat} {cs : List Store.FragCell} {pos pos' : Int}
    {ls : List (List (Nat × List Char))} {bs : List Block} (hi : Store.pasteCells did tid cs pos s = some (ls, bs, pos', t)) :
    Grows s t ∧ ∀ b ∈ bs, Here t b := by
  induction cs generalizing s pos ls bs with
  | nil => cases hi; exact ⟨.refl h, fun _ h => by cases h⟩
  | cons c cs ih =>
    simp only [Store.pasteCells, Option.bind_eq_some_iff, Option.map_eq_some_iff] at hi
    obtain ⟨⟨⟨g, b⟩, s1⟩, h1, ⟨l, next, s2⟩, h2, ⟨ci, s3⟩, h3, ⟨ls', bs', last, s4⟩, h4, he⟩ := hi
    cases he
    obtain ⟨a1, a2, a3⟩ := h.createCellFrame h1
    have b1 := a1.fine.fillCell a3 h2
    have c1 := b1.fine.createCell (fun f hf => by cases hf; exact b1.keep .frame g rfl a2) h3
    obtain ⟨d1, d2⟩ := ih c1.grows.fine h4
    have e1 := b1.trans (c1.grows.trans d1)
    refine ⟨a1.trans e1, fun x hx => ?_⟩
    rcases List.mem_cons.mp hx with rfl | hx
    · have hx := e1.keep .block b rfl a3
      obtain ⟨o, ho⟩ := Option.isSome_iff_exists.mp hx
      have f := FitBlock.of e1.fine (show s4.blocks b = some o from ho)
      have hid := block_id e1.fine (show s4.blocks b = some o from ho)
      exact ⟨⟨hid ▸ f.pos, hid ▸ f.lt, fun l hl => by cases hl⟩, hx⟩
    · exact d2 x hx

theorem Fine.pasteTable {s t : Store} (h : Fine s) {did fid : Nat} (hf : (s.frames fid).isSome = true)
    {x : Store.FragTable} {pos pos' : Int} {tid a : Nat} {cells : List (List (Nat × List Char))}
    (hi : Store.pasteTable did fid x pos s = some (tid, a, cells, pos', t)) : Grows s t := by
  simp only [Store.pasteTable, Option.bind_eq_some_iff, Option.map_eq_some_iff] at hi
  obtain ⟨⟨ti, s1⟩, h1, ⟨ls, bs, next, s2⟩, h2, ⟨an, s3⟩, h3, he⟩ := hi
  cases he
  have m := h.createTable rfl h1
  obtain ⟨c1, c2⟩ := m.grows.fine.pasteCells h2
  have d := c1.trans (c1.fine.updateBlocks bs fun b hb => (c2 b hb).fit)
  have m2 := d.fine.createFrame rfl rfl rfl
    (fun p hp => by cases hp; exact d.keep .frame fid rfl (m.grows.keep .frame fid rfl hf))
    (fun p hp => by cases hp; exact d.keep .table ti rfl (by rw [m.here]; rfl)) h3
  exact m.grows.trans (d.trans m2.grows)

theorem Fine.pasteTables {s t : Store} (h : Fine s) {did fid : Nat} (hf : (s.frames fid).isSome = true) {blocks : List Block}
    {position : Int} {ts : List Store.FragTable} {idx : Nat} {pos pos' : Int}
    {l : List (Nat × Nat × Bool × List (List (Nat × List Char)))}
    (hi : Store.pasteTables did fid blocks position ts idx pos s = some (l, pos', t)) : Grows s t := by
  induction ts generalizing s idx pos l with
  | nil => cases hi; exact .refl h
  | cons x ts ih =>
    simp only [Store.pasteTables] at hi
    split at hi
    · exact ih h hf hi
    simp only [Option.bind_eq_some_iff, Option.map_eq_some_iff] at hi
    obtain ⟨target, _, ⟨tid, a, cells, next, s1⟩, h1, parent, hp, ⟨l2, last, s2⟩, h2, he⟩ := hi
    cases he
    have g1 := h.pasteTable hf h1
    have g2 := g1.trans (g1.fine.updateFrame (o := parent) (f := { parent with
        childOrder := List.insertIdx parent.childOrder (min idx parent.childOrder.length) (-(a : Int)) })
        (by rw [← hp]; exact congrArg s1.frames (show parent.id = fid from frame_id g1.fine hp)) (fun j hj hpos => by
          rcases mem_insertIdx_or hj with rfl | hj
          · omega
          · exact g1.fine.orders hp j hj hpos))
    exact g2.trans (ih g2.fine (g2.keep .frame fid rfl hf) h2)

theorem Fine.ropeCell {s t : Store} (h : Fine s) {fid : Nat} {l : List (Nat × List Char)}
    (hi : Store.ropeCell fid s l = some t) : Grows s t := by
  cases l with
  | nil => cases hi; exact .refl h
  | cons x l =>
    simp only [Store.ropeCell, Option.bind_eq_some_iff, Option.map_eq_some_iff] at hi
    obtain ⟨_, _, _, _, st, _, he⟩ := hi
    cases he
    exact h.withText st

theorem Fine.ropeCells {s t : Store} (h : Fine s) {fid : Nat} {ls : List (List (Nat × List Char))}
    (hi : Store.ropeCells fid ls s = some t) : Grows s t := by
  induction ls generalizing s with
  | nil => cases hi; exact .refl h
  | cons l ls ih =>
    simp only [Store.ropeCells, Option.bind_eq_some_iff] at hi
    obtain ⟨s1, h1, h2⟩ := hi
    have g := h.ropeCell h1
    exact g.trans (ih g.fine h2)

theorem Fine.ropeTables {s t : Store} (h : Fine s) {fid : Nat} {ls : List (Nat × Nat × Bool × List (List (Nat × List Char)))}
    (hi : Store.ropeTables fid ls s = some t) : Grows s t := by
  induction ls generalizing s with
  | nil => cases hi; exact .refl h
  | cons l ls ih =>
    simp only [Store.ropeTables, Store.ropeTable, Option.bind_eq_some_iff] at hi
    obtain ⟨s1, ⟨st, _, h1⟩, h2⟩ := hi
    have g0 := h.withText st
    have g := g0.trans (g0.fine.ropeCells h1)
    exact g.trans (ih g.fine h2)

theorem Fine.dropExtra {s t : Store} (h : Fine s) {bs : List Block} (hi : Store.dropExtra bs s = some t) :
    Leads notBlocks s t := by
  induction bs generalizing s with
  | nil => cases hi; exact .refl h
  | cons b bs ih =>
    simp only [Store.dropExtra, Option.bind_eq_some_iff] at hi
    obtain ⟨s1, h1, h2⟩ := hi
    have g0 := h.clearState b.id
    have g := (Leads.of g0).trans (g0.fine.removeBlocks' (K := notBlocks) h1 (by decide))
    exact g.trans (ih g.fine h2)

theorem Fine.addExtra {s t : Store} (h : Fine s) {cf : Nat} {fbs : List Store.FragBlock} (hi : Store.addExtra cf fbs s = some t) :
    Grows s t := by
  induction fbs generalizing s with
  | nil => cases hi; exact .refl h
  | cons fb fbs ih =>
    simp only [Store.addExtra, Option.bind_eq_some_iff] at hi
    obtain ⟨⟨b, s1⟩, h1, h2⟩ := hi
    have m := createBlock_made h1 h rfl (fun l hl => by cases hl)
    have g1 := m.grows.trans (m.grows.fine.writeState (runs := (fragState fb).1) (imgs := (fragState fb).2) m.here)
    exact g1.trans (ih g1.fine h2)

theorem updateBlock_here {s : Store} (b : Block) : ((s.updateBlock b).blocks b.id).isSome = true := by
  simp [Store.updateBlock, IdMap.insert]

theorem Fine.replaceCell {s t : Store} (h : Fine s) {cf : Nat} {fbs : List Store.FragBlock}
    (hi : Store.replaceCell cf fbs s = some t) : Leads notBlocks s t := by
  simp only [Store.replaceCell, Option.bind_eq_some_iff] at hi
  obtain ⟨s1, h1, hi⟩ := hi
  have g1 := h.dropExtra h1
  have hb : ∀ b ∈ s.getBlocks (s.frameBlocks cf), FitBlock s1 b :=
    fun b hb => (h.getBlocks _ b hb).later rfl g1
  split at hi
  · cases hi; exact g1
  · rename_i b l hl
    have hb := hb b (by rw [hl]; simp)
    have g2 := g1.fine.updateBlock hb
    cases hi
    exact g1.trans (.of (g2.trans (g2.fine.writeState (updateBlock_here b))))
  · rename_i b l fb fbs hl
    have hb := hb b (by rw [hl]; simp)
    have g2 := g1.fine.updateBlock hb
    have g3 := g2.trans (g2.fine.writeState (runs := (fragState fb).1) (imgs := (fragState fb).2) (updateBlock_here b))
    exact g1.trans (.of (g3.trans (g3.fine.addExtra hi)))

theorem Fine.replaceCells {s t : Store} (h : Fine s) {cells : List TableCell} {r k : Int} {cs : List Store.FragCell}
    (hi : Store.replaceCells cells r k cs s = some t) : Leads notBlocks s t := by
  induction cs generalizing s with
  | nil => cases hi; exact .refl h
  | cons c cs ih =>
    simp only [Store.replaceCells, Option.bind_eq_some_iff] at hi
    obtain ⟨s1, h1, h2⟩ := hi
    split at h1
    · cases h1; exact ih h h2
    · have g := h.replaceCell h1
      exact g.trans (ih g.fine h2)

theorem Fine.tryReplaceCells {s t : Store} (h : Fine s) {did : Nat} {p : Int} {ts : List Store.FragTable}
    (hi : s.tryReplaceCells did p ts = some (some t)) : Leads notBlocks s t := by
  unfold Store.tryReplaceCells at hi
  split at hi
  · simp only [Option.bind_eq_some_iff] at hi
    obtain ⟨fid, _, ⟨cur, i, o⟩, _, hi⟩ := hi
    dsimp only at hi
    split at hi
    · cases hi
    · simp only [Option.bind_eq_some_iff] at hi
      obtain ⟨target, _, hi⟩ := hi
      split at hi
      · cases hi
      · simp only [Option.map_eq_some_iff] at hi
        obtain ⟨t', h1, he⟩ := hi
        cases he
        exact h.replaceCells h1
  · cases hi

theorem Fine.insertTables {s t : Store} (h : Fine s) {p : Int} {ts : List Store.FragTable} {r : Store.PasteResult}
    {u : Snapshot} (hi : s.insertTables p ts = some (t, r, u)) : Leads notBlocks s t ∧ u = s.snapshot := by
  simp only [Store.insertTables, Option.bind_eq_some_iff] at hi
  obtain ⟨did, _, o, ho, hi⟩ := hi
  cases o with
  | some t' =>
    cases hi
    exact ⟨h.tryReplaceCells ho, rfl⟩
  | none =>
    simp only [Option.bind_eq_some_iff, Option.map_eq_some_iff] at hi
    obtain ⟨doc, hdoc, fid, hfid, idx, _, ⟨l, last, s1⟩, h1, s2, h2, he⟩ := hi
    obtain ⟨d, hd⟩ : ∃ d, s.documents did = some d := ⟨doc, hdoc⟩
    have hf : (s.frames fid).isSome = true := by
      have hm := List.mem_of_mem_head? hfid
      simp only [Store.docFrames, show s.documents.get did = _ from hdoc] at hm
      exact (h.tidy.refs .document did doc hdoc).owns (.frame, fid) (by
        simp only [owns, List.mem_append, List.mem_map]
        exact .inl (.inl (.inl ⟨fid, hm, rfl⟩)))
    have g1 := h.pasteTables hf h1
    have g2 := g1.trans (g1.fine.ropeTables h2)
    have hb := h.hereSorted (s.frameBlocks fid)
    have g3 : Grows s (if last - p > 0 then s2.shiftFrom (sortByKey Block.documentPosition (s.getBlocks (s.frameBlocks fid))) p (last - p) else s2) := by
      split
      · exact g2.trans (g2.fine.shiftFrom fun b hb' => ((hb b hb').later g2).fit)
      · exact g2
    have g4 := g3.updateDoc (d := { doc with
        blockCount := doc.blockCount + (Store.tablesSize ts).1
        characterCount := doc.characterCount + (Store.tablesSize ts).2 }) rfl h hdoc rfl
    cases he
    exact ⟨.of g4, rfl⟩

end Verif
