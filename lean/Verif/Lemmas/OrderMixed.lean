import Verif.Lemmas.OrderMarkup
import Verif.Model.PasteMixed
/-
Pasting a fragment with paragraphs and tables keeps a store in good order.
-/
namespace Verif
open Store (fragState)

/-! ### A new table leaves the frames alone -/

theorem cellFrame_frames {s t : Store} (h : Fine s) {did g b : Nat} (hc : s.createCellFrame did = some ((g, b), t)) :
    s.frames g = none ∧ ∀ i, i ≠ g → t.frames i = s.frames i := by
  simp only [Store.createCellFrame, Option.bind_eq_some_iff, Option.map_eq_some_iff] at hc
  obtain ⟨⟨g', s1⟩, hs1, created, hcr, ⟨b', s2⟩, hs2, he⟩ := hc
  have m1 := h.createFrame rfl rfl rfl (fun q hq => by cases hq) (fun q hq => by cases hq) hs1
  have hid : created.id = g' := by
    have := m1.here
    rw [show s1.tab .frame g' = _ from hcr] at this
    rw [Option.some.inj this]; rfl
  have m2 := createBlock_made hs2 m1.grows.fine rfl (by intro l hl; cases hl)
  cases he
  refine ⟨m1.fresh, fun i hi => ?_⟩
  show (s2.frames.insert created.id _) i = _
  rw [IdMap.insert_get, if_neg (by rw [hid]; exact hi), m2.frames i hi]
  exact m1.old i hi

theorem addCellBlocks_frames {s t : Store} (h : Fine s) {g : Nat} {fbs : List Store.FragBlock} {pos pos' : Int}
    {l : List (Nat × List Char)} (hi : Store.addCellBlocks g fbs pos s = some (l, pos', t)) :
    ∀ i, i ≠ g → t.frames i = s.frames i := by
  induction fbs generalizing s pos l with
  | nil => cases hi; exact fun _ _ => rfl
  | cons fb fbs ih =>
    simp only [Store.addCellBlocks, Option.bind_eq_some_iff, Option.map_eq_some_iff] at hi
    obtain ⟨⟨b, s1⟩, h1, ⟨l2, p2, s2⟩, h2, he⟩ := hi
    cases he
    have m := createBlock_made h1 h rfl (fun l hl => by cases hl)
    have g1 := m.grows.trans (m.grows.fine.writeState (runs := (fragState fb).1) (imgs := (fragState fb).2) m.here)
    intro i hi
    rw [ih g1.fine h2 i hi]
    exact m.frames i hi

theorem fillCell_frames {s t : Store} (h : Fine s) {g b : Nat} (hb : (s.blocks b).isSome = true) {fbs : List Store.FragBlock}
    {pos pos' : Int} {l : List (Nat × List Char)} (hi : Store.fillCell g b pos s fbs = some (l, pos', t)) :
    ∀ i, i ≠ g → t.frames i = s.frames i := by
  cases fbs with
  | nil => cases hi; exact fun _ _ => rfl
  | cons fb fbs =>
    simp only [Store.fillCell, Option.map_eq_some_iff] at hi
    obtain ⟨⟨l2, p2, s2⟩, h2, he⟩ := hi
    cases he
    have g1 := h.writeState (runs := (fragState fb).1) (imgs := (fragState fb).2) hb
    exact fun i hi => addCellBlocks_frames g1.fine h2 i hi

theorem pasteCells_frames {s t : Store} (h : Fine s) {did tid : Nat} {cs : List Store.FragCell} {pos pos' : Int}
    {ls : List (List (Nat × List Char))} {bs : List Block} (hi : Store.pasteCells did tid cs pos s = some (ls, bs, pos', t)) :
    ∀ i, (s.frames i).isSome = true → t.frames i = s.frames i := by
  induction cs generalizing s pos ls bs with
  | nil => cases hi; exact fun _ _ => rfl
  | cons c cs ih =>
    simp only [Store.pasteCells, Option.bind_eq_some_iff, Option.map_eq_some_iff] at hi
    obtain ⟨⟨⟨g, b⟩, s1⟩, h1, ⟨l, next, s2⟩, h2, ⟨ci, s3⟩, h3, ⟨ls', bs', last, s4⟩, h4, he⟩ := hi
    cases he
    obtain ⟨a1, a2, a3⟩ := h.createCellFrame h1
    obtain ⟨n1, n2⟩ := cellFrame_frames h h1
    have b1 := a1.fine.fillCell a3 h2
    have c1 := b1.fine.createCell (fun f hf => by cases hf; exact b1.keep .frame g rfl a2) h3
    intro i hi
    have hig : i ≠ g := by rintro rfl; rw [n1] at hi; cases hi
    have e1 : s1.frames i = s.frames i := n2 i hig
    have e2 : s2.frames i = s.frames i := (fillCell_frames a1.fine a3 h2 i hig).trans e1
    have e3 : s3.frames = s2.frames := c1.others .frame (by decide) (by decide) (by decide)
    rw [ih c1.grows.fine h4 i (by rw [e3, e2]; exact hi), e3, e2]

theorem updateBlocks_sameFrames (bs : List Block) (s : Store) : (s.updateBlocks bs).frames = s.frames := by
  unfold Store.updateBlocks
  induction bs generalizing s with
  | nil => rfl
  | cons b bs ih => rw [List.foldl_cons, ih]; rfl

theorem pasteTable_frames {s t : Store} (h : Fine s) {did fid : Nat} (hf : (s.frames fid).isSome = true)
    {x : Store.FragTable} {pos pos' : Int} {tid a : Nat} {cells : List (List (Nat × List Char))}
    (hi : Store.pasteTable did fid x pos s = some (tid, a, cells, pos', t)) :
    ∀ i, (s.frames i).isSome = true → t.frames i = s.frames i := by
  simp only [Store.pasteTable, Option.bind_eq_some_iff, Option.map_eq_some_iff] at hi
  obtain ⟨⟨ti, s1⟩, h1, ⟨ls, bs, next, s2⟩, h2, ⟨an, s3⟩, h3, he⟩ := hi
  cases he
  have m := h.createTable rfl h1
  obtain ⟨c1, c2⟩ := m.grows.fine.pasteCells h2
  have d := c1.trans (c1.fine.updateBlocks bs fun b hb => (c2 b hb).fit)
  have m2 := d.fine.createFrame rfl rfl rfl
    (fun p hp => by cases hp; exact d.keep .frame fid rfl (m.grows.keep .frame fid rfl hf))
    (fun p hp => by cases hp; exact d.keep .table ti rfl (by rw [m.here]; rfl)) h3
  intro i hi
  have e1 : s1.frames = s.frames := m.others .frame (by decide) (by decide) (by decide)
  have e2 : s2.frames i = s.frames i := by rw [pasteCells_frames m.grows.fine h2 i (by rw [e1]; exact hi), e1]
  have e3 : (s2.updateBlocks bs).frames i = s.frames i := by rw [updateBlocks_sameFrames]; exact e2
  have hn : i ≠ an := by
    rintro rfl
    have := m2.fresh
    rw [show (s2.updateBlocks bs).tab .frame i = (s2.updateBlocks bs).frames i from rfl, e3] at this
    rw [this] at hi; cases hi
  exact (m2.old i hn).trans e3

theorem ropeCells_frames {s t : Store} {fid : Nat} {ls : List (List (Nat × List Char))}
    (hi : Store.ropeCells fid ls s = some t) : t.frames = s.frames := by
  induction ls generalizing s with
  | nil => cases hi; rfl
  | cons l ls ih =>
    simp only [Store.ropeCells, Option.bind_eq_some_iff] at hi
    obtain ⟨s1, h1, h2⟩ := hi
    rw [ih h2]
    cases l with
    | nil => cases h1; rfl
    | cons x l =>
      simp only [Store.ropeCell, Option.bind_eq_some_iff, Option.map_eq_some_iff] at h1
      obtain ⟨_, _, _, _, st, _, he⟩ := h1
      cases he; rfl

/-! ### The paste -/

/-- The positive entries name blocks in `ids`. -/
def Named (es : List Int) (ids : List Nat) : Prop := ∀ j ∈ es, 0 < j → j.toNat ∈ ids

theorem HasBlocks.more {t : Store} {fid : Nat} {f : Frame} {ids a : List Nat} (h : HasBlocks t fid f (a ++ ids)) :
    HasBlocks t fid f ids := h.sub fun _ hi => List.mem_append.mpr (.inr hi)

theorem Fine.mixBlock {s t : Store} (h : Fine s) {did fid : Nat} {fb : Store.FragBlock} {m m' : Store.MixAt}
    (hg : Known s m.grouper) {es : List Int} {f : Frame} {ids : List Nat} (hh : HasBlocks s fid f ids)
    (hi : Store.mixBlock did fid fb m s = some (t, m', es)) :
    Grows s t ∧ Known t m'.grouper ∧ ∃ a, HasBlocks t fid f (a ++ ids) ∧ Named es a := by
  simp only [Store.mixBlock, Option.bind_eq_some_iff] at hi
  obtain ⟨⟨s1, g1, l⟩, h1, ⟨new, s2⟩, h2, hi⟩ := hi
  obtain ⟨a1, a2, a3, a4⟩ := h.chooseList hg h1
  have mk := createBlock_made h2 a1.fine rfl a3
  have b1 := mk.grows.fine.writeState (runs := (fragState fb).1) (imgs := (fragState fb).2) mk.here
  have b2 := mk.grows.trans b1
  have hb : HasBlocks (s2.writeState new (fragState fb).1 (fragState fb).2) fid f ([new] ++ ids) :=
    ((hh.same a4).made mk).same rfl
  have hn : Named [(new : Int)] [new] := by
    intro j hj _
    rw [List.mem_singleton] at hj
    subst hj; simp
  dsimp only at hi
  split at hi
  · cases hi
    exact ⟨a1.trans b2, a2.later b2, [new], hb, hn⟩
  · simp only [Option.map_eq_some_iff] at hi
    obtain ⟨st, _, he⟩ := hi
    cases he
    have c := b2.fine.withText st
    exact ⟨a1.trans (b2.trans c), (a2.later b2).later c, [new], hb.same rfl, hn⟩

theorem Fine.pushAnchor {s t : Store} (h : Fine s) {fid a : Nat} {f : Frame} {ids : List Nat} (hh : HasBlocks s fid f ids)
    (hi : Store.pushAnchor fid a s = some t) : Grows s t ∧ HasBlocks t fid f ids := by
  simp only [Store.pushAnchor, Option.map_eq_some_iff] at hi
  obtain ⟨parent, hp, he⟩ := hi
  have hid : parent.id = fid := frame_id h hp
  split at he
  · cases he; exact ⟨.refl h, hh⟩
  · subst he
    refine ⟨h.updateFrame (o := parent) (by rw [← hp]; exact congrArg s.frames hid) fun j hj hpos => ?_, ?_⟩
    · rcases List.mem_append.mp hj with hj | hj
      · exact h.orders hp j hj hpos
      · rw [List.mem_singleton] at hj; omega
    · obtain ⟨o, ho, h2⟩ := hh
      have e : some o = some parent := ho.symm.trans hp
      obtain rfl : o = parent := Option.some.inj e
      refine ⟨{ o with childOrder := o.childOrder ++ [-(a : Int)] }, ?_, h2⟩
      show (s.frames.insert o.id (Store.keepFrame _ (s.frames o.id))) fid = _
      rw [hid, IdMap.insert_get, if_pos rfl, ho]
      rfl

theorem Fine.mixTable {s t : Store} (h : Fine s) {did fid cur : Nat} {x : Store.FragTable} {m m' : Store.MixAt}
    (hg : Known s m.grouper) {es : List Int} {f : Frame} {ids : List Nat} (hh : HasBlocks s fid f ids)
    (hi : Store.mixTable did fid cur x m s = some (t, m', es)) :
    Grows s t ∧ Known t m'.grouper ∧ HasBlocks t fid f ids ∧ ∀ j ∈ es, j ≤ 0 := by
  unfold Store.mixTable at hi
  split at hi
  · cases hi; exact ⟨.refl h, hg, hh, fun _ h => by cases h⟩
  simp only [Option.bind_eq_some_iff] at hi
  obtain ⟨⟨tid, a, cells, next, s1⟩, h1, s2, hp, hi⟩ := hi
  have hf : (s.frames fid).isSome = true := by obtain ⟨o, ho, _⟩ := hh; rw [ho]; rfl
  have g1 := h.pasteTable hf h1
  have hh1 : HasBlocks s1 fid f ids := by
    obtain ⟨o, ho, h2⟩ := hh
    exact ⟨o, (pasteTable_frames h hf h1 fid hf).trans ho, h2⟩
  have k := g1.fine.pushAnchor hh1 hp
  have g2 := g1.trans k.1
  have hneg : ∀ j ∈ [-(a : Int)], j ≤ 0 := by intro j hj; rw [List.mem_singleton] at hj; omega
  split at hi
  · cases hi
    exact ⟨g2, hg.later g2, k.2, hneg⟩
  · simp only [Option.bind_eq_some_iff, Option.map_eq_some_iff] at hi
    obtain ⟨s3, h3, stop, _, he⟩ := hi
    obtain ⟨rfl, rfl, rfl⟩ : s3 = t ∧ _ = m' ∧ _ = es := by simpa using he
    have g3 : Grows s2 s3 ∧ HasBlocks s3 fid f ids := by
      simp only [Store.ropeTable, Option.bind_eq_some_iff] at h3
      obtain ⟨st, _, h3⟩ := h3
      have k1 := g2.fine.withText st
      refine ⟨k1.trans (k1.fine.ropeCells h3), k.2.same ?_⟩
      have := ropeCells_frames h3
      exact this
    exact ⟨g2.trans g3.1, (hg.later g2).later g3.1, g3.2, hneg⟩

theorem Fine.mixLoop {s t : Store} (h : Fine s) {did fid cur : Nat} {items : List Store.MixItem} {m m' : Store.MixAt}
    (hg : Known s m.grouper) {es : List Int} {f : Frame} {ids : List Nat} (hh : HasBlocks s fid f ids)
    (hi : Store.mixLoop did fid cur items m s = some (t, m', es)) :
    Grows s t ∧ ∃ a, HasBlocks t fid f (a ++ ids) ∧ Named es a := by
  induction items generalizing s m es ids with
  | nil => cases hi; exact ⟨.refl h, [], hh, fun _ h => by cases h⟩
  | cons x items ih =>
    cases x with
    | para fb =>
      simp only [Store.mixLoop, Option.bind_eq_some_iff, Option.map_eq_some_iff] at hi
      obtain ⟨⟨s1, m1, e⟩, h1, ⟨s2, m2, e2⟩, h2, he⟩ := hi
      cases he
      obtain ⟨a1, a2, a, a3, a4⟩ := h.mixBlock hg hh h1
      obtain ⟨b1, b, b2, b3⟩ := ih a1.fine a2 a3 h2
      refine ⟨a1.trans b1, b ++ a, by rw [List.append_assoc]; exact b2, fun j hj hp => ?_⟩
      rcases List.mem_append.mp hj with hj | hj
      · exact List.mem_append.mpr (.inr (a4 j hj hp))
      · exact List.mem_append.mpr (.inl (b3 j hj hp))
    | table x =>
      simp only [Store.mixLoop, Option.bind_eq_some_iff, Option.map_eq_some_iff] at hi
      obtain ⟨⟨s1, m1, e⟩, h1, ⟨s2, m2, e2⟩, h2, he⟩ := hi
      cases he
      obtain ⟨a1, a2, a3, a4⟩ := h.mixTable hg hh h1
      obtain ⟨b1, b, b2, b3⟩ := ih a1.fine a2 a3 h2
      refine ⟨a1.trans b1, b, b2, fun j hj hp => ?_⟩
      rcases List.mem_append.mp hj with hj | hj
      · have := a4 j hj; omega
      · exact b3 j hj hp

theorem Fine.mixHead {s t : Store} (h : Fine s) {c : Store.PasteAt} (hc : PasteHere s c) {over : Option Store.FragBlock}
    (hi : s.mixHead c over = some t) : Grows s t ∧ t.frames = s.frames := by
  cases over with
  | none => cases hi; exact ⟨h.updateBlock hc.cur.fit, rfl⟩
  | some b =>
    simp only [Store.mixHead, Option.map_eq_some_iff] at hi
    obtain ⟨⟨s1, l⟩, h1, he⟩ := hi
    cases he
    obtain ⟨a1, a2, a3⟩ := h.newList h1
    have hb := hc.cur.later a1
    have b := a1.fine.putBlock (b := { b.format with
      id := c.cur.id, list := l, documentPosition := c.cur.documentPosition }) ⟨⟨hb.fit.pos, hb.fit.lt, a2⟩, hb.here⟩
    exact ⟨a1.trans b, a3⟩

theorem Fine.mixTail {s0 s t : Store} (g0 : Grows s0 s) {c : Store.PasteAt} (hc : Here s0 c.cur) {plain : Bool}
    {m : Store.MixAt} {tail : Option Store.ParaState} {es : List Int} (hi : s.mixTail c plain m tail = some (t, es))
    {f : Frame} {ids : List Nat} (hh : HasBlocks s c.fid f ids) :
    Grows s0 t ∧ ∃ a, HasBlocks t c.fid f (a ++ ids) ∧ Named es a := by
  cases tail with
  | none => cases hi; exact ⟨g0, [], hh, fun _ h => by cases h⟩
  | some p =>
    simp only [Store.mixTail, Option.bind_eq_some_iff] at hi
    obtain ⟨⟨new, s1⟩, h1, hi⟩ := hi
    have mk := createBlock_made h1 g0.fine (tailBlock_id _ _ _) (tailBlock_list hc g0 plain m.running)
    have b1 := mk.grows.fine.writeState (runs := p.runs) (imgs := p.imgs) mk.here
    have b2 := g0.trans (mk.grows.trans b1)
    have hb : HasBlocks (s1.writeState new p.runs p.imgs) c.fid f ([new] ++ ids) := (hh.made mk).same rfl
    have hn : Named [(new : Int)] [new] := by
      intro j hj _
      rw [List.mem_singleton] at hj
      subst hj; simp
    dsimp only at hi
    split at hi
    · cases hi
      exact ⟨b2, [new], hb, hn⟩
    · simp only [Option.map_eq_some_iff] at hi
      obtain ⟨st, _, he⟩ := hi
      cases he
      exact ⟨b2.trans (b2.fine.withText st), [new], hb.same rfl, hn⟩

theorem Fine.placeEntries {t : Store} (h : Fine t) {c : Store.PasteAt} (hid : c.frame.id = c.fid)
    (ho : ∀ j ∈ c.frame.childOrder, 0 < j → j.toNat ∈ c.frame.blocks) {ids : List Nat} {es : List Int}
    (hh : HasBlocks t c.fid c.frame ids) (hn : Named es ids) : Grows t (t.placeEntries c es) := by
  obtain ⟨o, h1, h2, h3⟩ := hh
  refine h.updateFrame (o := o) (by rw [← h1]; exact congrArg t.frames hid) ?_
  intro j hj hp
  rcases List.mem_append.mp hj with hj | hj
  · rcases List.mem_append.mp hj with hj | hj
    · exact h2 _ (ho j (List.mem_of_mem_take hj) hp)
    · exact h3 _ (hn j hj hp)
  · exact h2 _ (ho j (List.mem_of_mem_drop hj) hp)

theorem Fine.pasteMixed {s t : Store} (h : Fine s) {c : Store.PasteAt} (hc : PasteHere s c) {items : List Store.MixItem}
    {n : Nat} {last : Store.FragBlock} {r : Store.PasteResult} (hi : s.pasteMixed c items n last = some (t, r)) :
    Grows s t := by
  simp only [Store.pasteMixed, Option.bind_eq_some_iff, Option.map_eq_some_iff] at hi
  obtain ⟨s1, h1, ⟨st, next⟩, _, len, _, ⟨s2, m, es⟩, h2, ⟨s3, e⟩, h3, he⟩ := hi
  obtain ⟨a1, a2⟩ := h.mixHead hc h1
  dsimp only at h2 h3 he
  generalize hrt : (Store.withText _ st) = s4 at h2
  have k : Grows s s4 ∧ s4.frames = s.frames ∧ s4.lists = s1.lists ∧ s4.blocks = s1.blocks := by
    subst hrt
    have b0 := fun r i => a1.fine.writeState (runs := r) (imgs := i) (a1.keep .block c.cur.id rfl hc.cur.here)
    exact ⟨a1.trans ((b0 _ _).trans ((b0 _ _).fine.withText st)), a2, rfl, rfl⟩
  have hc4 : Here s4 c.cur := hc.cur.later k.1
  have hg : Known s4 (if (decide (c.before = []) && !((items.head?.map Store.MixItem.inline).getD false) &&
      (items.head?.bind Store.MixItem.block?).isSome) = true then [] else s4.primedGrouper c.cur) := by
    split
    · exact .nil _
    · unfold Store.primedGrouper
      split
      · exact .nil _
      · rename_i l hl
        split
        · exact .nil _
        · exact (Known.nil _).register (hc4.fit.list l hl) _ _
  obtain ⟨b1, a, b2, b3⟩ := k.1.fine.mixLoop hg ((HasBlocks.of hc.frame).same k.2.1) h2
  obtain ⟨d1, a', d2, d3⟩ := Fine.mixTail (k.1.trans b1) hc.cur h3 b2
  have hn : Named (es ++ e) (a' ++ (a ++ [])) := by
    intro j hj hp
    rcases List.mem_append.mp hj with hj | hj
    · exact List.mem_append.mpr (.inr (List.mem_append.mpr (.inl (b3 j hj hp))))
    · exact List.mem_append.mpr (.inl (d3 j hj hp))
  have k1 := d1.trans (d1.fine.placeEntries (frame_id h hc.frame) (h.orders hc.frame) d2 hn)
  have k2 := fun d => k1.trans (k1.fine.shiftStored _ d (fit_drop hc.blocks rfl k1 (c.index + 1)))
  cases he
  exact (k2 _).updateDoc rfl h hc.doc rfl

theorem Fine.insertMixed {s t : Store} (h : Fine s) {p a : Int} {fbs : List Store.FragBlock} {ts : List Store.FragTable}
    {r : Store.PasteResult} {u : Snapshot} (hi : s.insertMixed p a fbs ts = some (t, r, u)) :
    Grows s t ∧ u = s.snapshot := by
  unfold Store.insertMixed at hi
  split at hi
  · cases hi
  · cases hi
  simp only [Option.bind_eq_some_iff] at hi
  obtain ⟨did, _, doc, hdoc, hi⟩ := hi
  split at hi
  · cases hi
  simp only [Option.bind_eq_some_iff, Option.map_eq_some_iff] at hi
  obtain ⟨root, _, pairs, _, ids, _, ⟨cur, i, o⟩, hcur, frame, hframe, content, _, ⟨b, a⟩, _, ⟨t', r'⟩, hp, he⟩ := hi
  cases he
  refine ⟨?_, rfl⟩
  dsimp only at hp hframe
  generalize hcc : (Store.PasteAt.mk did _ _ frame _ cur i _ _ _ b a) = c at hp
  have hc : PasteHere s c := by
    subst hcc
    exact ⟨hdoc, hframe, h.hereSorted _, find_is_here (h.hereSorted _) hcur⟩
  exact h.pasteMixed hc hp

end Verif
