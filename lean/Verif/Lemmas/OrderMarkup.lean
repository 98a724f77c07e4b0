import Verif.Lemmas.OrderPaste
import Verif.Model.InsertMarkup
/-
Inserting Markdown or HTML keeps a store in good order.
-/
namespace Verif

theorem Fine.addParsedBlocks {s t : Store} (h : Fine s) {html : Bool} {did fid : Nat} {bs : List ParsedBlock} {index : Nat}
    {run run' : Int} {g : ListGrouper} (hg : Known s g) {pay : List (Nat × List Char)} {f : Frame} {ids : List Nat}
    (hh : HasBlocks s fid f ids) (hi : Store.addParsedBlocks html did fid bs index run g s = some (t, pay, run')) :
    Grows s t ∧ HasBlocks t fid f (pay.map Prod.fst ++ ids) := by
  induction bs generalizing s index run g ids pay with
  | nil => cases hi; exact ⟨.refl h, hh⟩
  | cons b bs ih =>
    simp only [Store.addParsedBlocks, Option.bind_eq_some_iff, Option.map_eq_some_iff] at hi
    obtain ⟨⟨s1, g1, l⟩, h1, ⟨new, s2⟩, h2, ⟨s3, pay', r3⟩, h3, he⟩ := hi
    cases he
    obtain ⟨a1, a2, a3, a4⟩ := h.chooseList hg h1
    have m := createBlock_made h2 a1.fine rfl a3
    have b1 := m.grows.fine.writeState (runs := (Store.parsedState b).runs) (imgs := []) m.here
    have b2 := m.grows.trans b1
    obtain ⟨c1, c2⟩ := ih b1.fine (a2.later b2) (((hh.same a4).made m).same (ht := rfl)) h3
    refine ⟨a1.trans (b2.trans c1), c2.sub fun i hi => ?_⟩
    simp only [List.map_cons, List.cons_append, List.mem_cons, List.mem_append] at hi ⊢
    rcases hi with hi | hi | hi
    · exact .inr (.inl hi)
    · exact .inl hi
    · exact .inr (.inr hi)

theorem Fine.insertHead {s t : Store} (h : Fine s) {c : Store.PasteAt} (hc : PasteHere s c) {over : Option ParsedBlock}
    {g g' : ListGrouper} (hg : Known s g) (hi : s.insertHead c over g = some (t, g')) :
    Grows s t ∧ Known t g' ∧ t.frames = s.frames := by
  cases over with
  | none => cases hi; exact ⟨.refl h, hg, rfl⟩
  | some b =>
    simp only [Store.insertHead, Option.map_eq_some_iff] at hi
    obtain ⟨⟨s1, g1, l⟩, h1, he⟩ := hi
    cases he
    obtain ⟨a1, a2, a3, a4⟩ := h.chooseList (.nil _) h1
    have hb := hc.cur.later a1
    have b := a1.fine.putBlock (b := Store.overBlock c.cur b l) ⟨⟨hb.fit.pos, hb.fit.lt, a3⟩, hb.here⟩
    exact ⟨a1.trans b, a2.later b, a4⟩

theorem Fine.primed {s : Store} {c : Store.PasteAt} (hc : PasteHere s c) : Known s (s.primedGrouper c.cur) := by
  unfold Store.primedGrouper
  split
  · exact .nil _
  · rename_i l hl
    split
    · exact .nil _
    · exact (Known.nil _).register (hc.cur.fit.list l hl) _ _

theorem Fine.insertTail {s0 s t : Store} (g0 : Grows s0 s) {c : Store.PasteAt} (hc : Here s0 c.cur) {plain : Bool}
    {index : Nat} {run : Int} {tail : Option Store.ParaState} {extra : List (Nat × List Char)}
    (hi : s.insertTail c plain index run tail = some (t, extra)) {f : Frame} {ids : List Nat} (hh : HasBlocks s c.fid f ids) :
    Grows s0 t ∧ HasBlocks t c.fid f (extra.map Prod.fst ++ ids) := by
  cases tail with
  | none => cases hi; exact ⟨g0, hh⟩
  | some p =>
    simp only [Store.insertTail, Option.map_eq_some_iff] at hi
    obtain ⟨⟨s1, id⟩, h1, he⟩ := hi
    cases he
    exact Fine.addTail g0 hc h1 hh

theorem Fine.insertBlocks {s t : Store} (h : Fine s) {html : Bool} {c : Store.PasteAt} (hc : PasteHere s c)
    {over : Option ParsedBlock} {g : ListGrouper} (hg : Known s g) {head : Store.ParaState} {mids : List ParsedBlock}
    {tail : Option Store.ParaState} {len : Nat} {run : Int}
    (hi : Store.insertBlocks html s c over g head mids tail = some (t, len, run)) : Grows s t := by
  simp only [Store.insertBlocks, Option.bind_eq_some_iff, Option.map_eq_some_iff] at hi
  obtain ⟨⟨s1, g1⟩, h1, ⟨st, next⟩, _, n, _, ⟨s2, pay, r2⟩, h2, ⟨s3, extra⟩, h3, st', _, after, _, he⟩ := hi
  cases he
  obtain ⟨a1, a2, a3⟩ := h.insertHead hc hg h1
  have b0 := a1.fine.writeState (runs := head.runs) (imgs := head.imgs) (a1.keep .block c.cur.id rfl hc.cur.here)
  have b1 := a1.trans b0
  obtain ⟨d1, d2⟩ := b1.fine.addParsedBlocks (a2.later b0) (((HasBlocks.of hc.frame).same a3).same rfl) h2
  obtain ⟨e1, e2⟩ := Fine.insertTail (b1.trans d1) hc.cur h3 d2
  have e3 : HasBlocks s3 c.fid c.frame ((pay ++ extra).map Prod.fst) := e2.sub fun i hi => by
    simp only [List.map_append, List.mem_append, List.append_nil] at hi ⊢
    exact hi.symm
  have k1 := e1.trans (e1.fine.placeChildren (frame_id h hc.frame) (h.orders hc.frame) e3)
  have k2 := k1.trans (k1.fine.withText st')
  exact k2.trans (k2.fine.shiftStored _ _ (fit_drop hc.blocks rfl k2 (c.index + 1)))

theorem Fine.insertInline {s t : Store} (h : Fine s) {c : Store.PasteAt} (hc : PasteHere s c) {p : Int} {b : ParsedBlock}
    {r : Store.PasteResult} (hi : s.insertInline c p b = some (t, r)) : Grows s t := by
  simp only [Store.insertInline] at hi
  split at hi
  · cases hi; exact .refl h
  simp only [Option.map_eq_some_iff] at hi
  obtain ⟨rope, _, he⟩ := hi
  have g1 := h.updateBlock hc.cur.fit
  have g2 := g1.trans (g1.fine.writeState
    (runs := coalesce (spliceRange (shiftRunsForInsert c.runs c.off (utf8Len (Store.parsedState b).text)) c.off
      (c.off + utf8Len (Store.parsedState b).text) (Store.moveRuns c.off (Store.parsedState b).runs)))
    (imgs := shiftImagesForInsert c.imgs c.off (utf8Len (Store.parsedState b).text))
    (g1.keep .block c.cur.id rfl hc.cur.here))
  have g3 := g2.trans (g2.fine.withText rope)
  have g4 := g3.trans (g3.fine.shiftStored _ (Store.parsedState b).text.length (fit_drop hc.blocks rfl g3 (c.index + 1)))
  cases he
  exact g4.updateDoc rfl h hc.doc rfl

theorem Fine.insertParsed {s t : Store} (h : Fine s) {html : Bool} {c : Store.PasteAt} (hc : PasteHere s c) {p : Int}
    {bs : List ParsedBlock} {r : Store.PasteResult} (hi : Store.insertParsed html s c p bs = some (t, r)) : Grows s t := by
  unfold Store.insertParsed at hi
  split at hi
  · cases hi
  · split at hi
    · exact h.insertInline hc hi
    · split at hi
      · simp only [Store.insertOver, Option.map_eq_some_iff] at hi
        obtain ⟨⟨s1, n, x⟩, h1, he⟩ := hi
        cases he
        exact (h.insertBlocks hc (.nil _) h1).updateDoc rfl h hc.doc rfl
      · simp only [Store.insertBetween, Option.map_eq_some_iff] at hi
        obtain ⟨⟨s1, n, x⟩, h1, he⟩ := hi
        cases he
        exact (h.insertBlocks hc (.nil _) h1).updateDoc rfl h hc.doc rfl
  · dsimp only at hi
    split at hi
    · simp only [Store.insertManyHtml, Option.map_eq_some_iff] at hi
      obtain ⟨⟨s1, n, x⟩, h1, he⟩ := hi
      cases he
      exact (h.insertBlocks hc (Fine.primed hc) h1).updateDoc rfl h hc.doc rfl
    · simp only [Store.insertManyMd, Option.map_eq_some_iff] at hi
      obtain ⟨⟨s1, n, x⟩, h1, he⟩ := hi
      cases he
      exact (h.insertBlocks hc (.nil _) h1).updateDoc rfl h hc.doc rfl

theorem Fine.insertMarkup {s t : Store} (h : Fine s) {html : Bool} {p a : Int} {es : List ParsedElement}
    {r : Store.PasteResult} {u : Snapshot} (hi : Store.insertMarkup html s p a es = some (t, r, u)) :
    Grows s t ∧ u = s.snapshot := by
  simp only [Store.insertMarkup, Option.bind_eq_some_iff] at hi
  obtain ⟨did, _, doc, hdoc, hi⟩ := hi
  split at hi
  · cases hi
  simp only [Option.bind_eq_some_iff, Option.map_eq_some_iff] at hi
  obtain ⟨fid, _, frame, hframe, ⟨cur, i, o⟩, hcur, content, _, ⟨b, a⟩, _, ⟨t', r'⟩, hp, he⟩ := hi
  cases he
  refine ⟨?_, rfl⟩
  dsimp only at hp hframe
  generalize hcc : (Store.PasteAt.mk did _ _ frame _ cur i _ _ _ b a) = c at hp
  have hc : PasteHere s c := by
    subst hcc
    exact ⟨hdoc, hframe, h.hereSorted _, find_is_here (h.hereSorted _) hcur⟩
  exact h.insertParsed hc hp

end Verif
