import Verif.Lemmas.Paste
import Verif.Lemmas.ReplacePlaced
/- Where a fragment is pasted, and how a paste ends. -/
namespace Verif
variable {s : Store} {d : Document} {f : Nat} {ps L R : List SPara} {p : SPara} {st : RopeSt} {fr : Frame} {a b : List SChar}
open Store

/-- What the paste has at hand. -/
def pasteAt (s : Store) (d : Document) (f : Nat) (fr : Frame) (L : List SPara) (p : SPara) (R : List SPara)
    (a b : List SChar) : PasteAt :=
  ⟨d.id, d, f, fr, placed 0 (L ++ p :: R), p.entity (charsBefore (paras L)), L.length, utf8Len (a.map Prod.fst),
    (s.formatRuns p.id).getD [], [], a.map Prod.fst, b.map Prod.fst⟩

theorem Flat.blocks_placed (h : Flat s d f ps) (hp : Placed s ps) :
    sortByKey Block.documentPosition (s.getBlocks (ps.map SPara.id)) = placed 0 ps := by
  rw [h.getBlocks]
  have e : (ps.map fun p => p.entity (s.storedPos p)) = placed 0 ps := by
    apply map_entity_placed
    intro L p R e
    obtain ⟨b, h1, h2⟩ := hp L p R e
    simp [Store.storedPos, h1, h2]
  rw [e]
  exact eq_of_sorted Block.documentPosition (sortByKey_perm _ _) (sortByKey_sorted _ _) (placed_strict 0 ps)

theorem Flat.insertFragment_eq (h : Flat s d f (L ++ p :: R)) (hp : Placed s (L ++ p :: R))
    (hf : s.frames f = some fr) (hc : p.chars = a ++ b) (fbs : List FragBlock) (hne : fbs ≠ []) :
    s.insertFragment ((charsBefore (paras L) + a.length : Nat) : Int) ((charsBefore (paras L) + a.length : Nat) : Int) fbs =
      (s.pasteFragment (pasteAt s d f fr L p R a b) ((charsBefore (paras L) + a.length : Nat) : Int) fbs).map
        fun (s', r) => (s', r, s.snapshot) := by
  have hpm : p ∈ L ++ p :: R := by simp
  unfold Store.insertFragment
  rw [if_neg hne, h.docId, Option.bind_some, h.document, Option.bind_some]
  dsimp only
  rw [if_neg (by simp), h.docFrames, List.head?_cons, Option.bind_some, h.blocksBelow, Option.bind_some, h.flowIds,
    Option.bind_some, h.blocks_placed hp]
  have hfi := placed_find 0 L R p h.ids_nodup
  have hfind := h.toShows.findIn hc (placed_entities 0 (L ++ p :: R)) hfi
  rw [hfind, Option.bind_some]
  dsimp only
  have hid : (p.entity (charsBefore (paras L))).id = p.id := rfl
  rw [hid]
  have hfid : ((((L ++ p :: R).map fun p => (p.id, f)).reverse.find? fun e => e.1 == p.id).map Prod.snd).getD f = f := by
    cases hx : ((L ++ p :: R).map fun p => (p.id, f)).reverse.find? fun e => e.1 == p.id with
    | none => rfl
    | some x =>
      have := List.mem_of_find?_eq_some hx
      rw [List.mem_reverse, List.mem_map] at this
      obtain ⟨q, _, rfl⟩ := this
      rfl
  rw [hfid, hf, Option.bind_some, h.content hpm, Option.bind_some, h.offset hpm, text_take hc]
  have htxt : p.text = a.map Prod.fst ++ b.map Prod.fst := by simp [SPara.text, hc]
  rw [htxt, splitAtByte_append, Option.bind_some]
  dsimp only
  have himg : s.imagesOf p.id = [] := h.images p hpm
  rw [himg]
  rfl

/-! ### The head -/

/-- The paragraph gets other characters and another paragraph format. -/
theorem Adding.set {st' : RopeSt} (h : Adding s st d f fr (L ++ p :: R)) {blk : Block} {cs : List SChar} {shape : Block}
    {runs : List (Run CharFormat)} (hb : IsBlock ⟨p.id, cs, shape⟩ blk) (hst : StyledOk runs cs)
    (ht : Repr st' (paras (L ++ ⟨p.id, cs, shape⟩ :: R))) :
    Adding ((s.putBlock blk).writeState p.id runs []) st' d f fr (L ++ ⟨p.id, cs, shape⟩ :: R) := by
  have hsh := h.shows_
  have hid : blk.id = p.id := by rw [hb]
  have hmap : (L ++ ⟨p.id, cs, shape⟩ :: R).map SPara.id = (L ++ p :: R).map SPara.id := by simp
  have hnd := hsh.ids_nodup
  have hmem : ∀ q ∈ L ++ ⟨p.id, cs, shape⟩ :: R, q = ⟨p.id, cs, shape⟩ ∨ (q.id ≠ p.id ∧ q ∈ L ++ p :: R) := by
    intro q hq
    rw [List.map_append, List.map_cons, List.nodup_append, List.nodup_cons] at hnd
    simp only [List.mem_append, List.mem_cons] at hq
    rcases hq with hq | rfl | hq
    · exact .inr ⟨hnd.2.2 _ (List.mem_map_of_mem hq) _ (by simp), by simp [hq]⟩
    · exact .inl rfl
    · refine .inr ⟨fun e => hnd.2.1.1 (e ▸ List.mem_map_of_mem hq), by simp [hq]⟩
  generalize hs2 : (s.putBlock blk).writeState p.id runs [] = s2
  have h2b : ∀ i, s2.blocks i = if i = p.id then some blk else s.blocks i := by
    intro i; subst hs2; simp [Store.writeState, Store.putBlock, hid]
  have h2k : s2.blocks.keys = s.blocks.keys := by
    obtain ⟨x, hx, _⟩ := hsh.block p (by simp)
    have : s.blocks p.id = some x := hx
    subst hs2
    simp [Store.writeState, Store.putBlock, IdMap.insert, hid, this]
  have h2r : ∀ i, (s2.formatRuns i).getD [] = if i = p.id then runs else (s.formatRuns i).getD [] := by
    intro i; subst hs2
    simp only [Store.writeState, Store.putBlock]
    by_cases hr : runs = []
    · rw [if_pos hr, hr]
      simp only [IdMap.erase_get]
      split <;> rfl
    · rw [if_neg hr]
      simp only [IdMap.insert_get]
      split <;> rfl
  have h2i : ∀ i, (s2.blockImages i).getD [] = if i = p.id then [] else (s.blockImages i).getD [] := by
    intro i; subst hs2
    simp only [Store.writeState, Store.putBlock, if_true]
    simp only [IdMap.erase_get]
    split <;> rfl
  have h2f : s2.frames = s.frames := by subst hs2; rfl
  have h2n : s2.next "block" = s.next "block" := by subst hs2; rfl
  refine ⟨⟨?_, ?_, ht, ?_, ?_, ?_, ?_, ?_, ?_⟩, h.frames, h.tables, ?_, h.frid, ?_, ?_, h.plain⟩
  · have := hsh.root; subst hs2; exact this
  · have := hsh.document; subst hs2; exact this
  · show s2.blocks.keys.Perm _
    rw [h2k, hmap]; exact hsh.keys
  · intro q hq
    show ∃ b, s2.blocks q.id = some b ∧ _
    rcases hmem q hq with rfl | ⟨hne, hq⟩
    · exact ⟨blk, (h2b _).trans (if_pos rfl), hb⟩
    · rw [h2b, if_neg hne]; exact hsh.block q hq
  · intro i hi
    show s2.blocks i = none
    rw [hmap] at hi
    rw [h2b, if_neg (by rintro rfl; exact hi (by simp))]
    exact hsh.absent i hi
  · intro q hq
    show StyledOk ((s2.formatRuns q.id).getD []) q.chars
    rw [h2r]
    rcases hmem q hq with rfl | ⟨hne, hq⟩
    · rw [if_pos rfl]; exact hst
    · rw [if_neg hne]; exact hsh.formats q hq
  · intro q hq
    show (s2.blockImages q.id).getD [] = []
    rw [h2i]
    rcases hmem q hq with rfl | ⟨hne, hq⟩
    · rw [if_pos rfl]
    · rw [if_neg hne]; exact hsh.images q hq
  · intro q hq
    show q.id < s2.next "block"
    rw [h2n]
    rcases hmem q hq with rfl | ⟨hne, hq⟩
    · exact hsh.fresh p (by simp)
    · exact hsh.fresh q hq
  · rw [h2f, hmap]; exact h.frame
  · rw [h2f, h2n, hmap]; exact h.others
  · intro q hq
    rcases hmem q hq with rfl | ⟨hne, hq⟩
    · exact h.positive p (by simp)
    · exact h.positive q hq

/-- The text of the head. -/
theorem ropeHead {Lp Rp : List Para} {id : Nat} {x y : List Char} (h : Repr st (Lp ++ (.block id, x ++ y) :: Rp)) (t : List Char) :
    ∃ st', (if y = [] then some st else ropeDeleteInBlock st id (utf8Len x) (utf8Len x + utf8Len y)).bind (fun st =>
        if t = [] then some st else ropeInsertInBlock st id (utf8Len x) t) = some st' ∧
      Repr st' (Lp ++ (.block id, x ++ t) :: Rp) := by
  have h1 : ∃ st1, (if y = [] then some st else ropeDeleteInBlock st id (utf8Len x) (utf8Len x + utf8Len y)) = some st1 ∧
      Repr st1 (Lp ++ (.block id, x) :: Rp) := by
    by_cases hy : y = []
    · rw [if_pos hy]; subst hy
      exact ⟨st, rfl, by simpa using h⟩
    · rw [if_neg hy]
      have h' : Repr st (Lp ++ (.block id, x ++ y ++ []) :: Rp) := by simpa using h
      obtain ⟨st1, e1, e2⟩ := deleteInBlock_repr h'
      exact ⟨st1, e1, by simpa using e2⟩
  obtain ⟨st1, e1, e2⟩ := h1
  rw [e1, Option.bind_some]
  by_cases ht : t = []
  · rw [if_pos ht]; subst ht
    exact ⟨st1, rfl, by simpa using e2⟩
  · rw [if_neg ht]
    have e2' : Repr st1 (Lp ++ (.block id, x ++ []) :: Rp) := by simpa using e2
    obtain ⟨st2, e3, e4⟩ := insertInBlock_repr t e2'
    exact ⟨st2, e3, by simpa using e4⟩

/-! ### The end of a paste -/

theorem placeChildren_eq (L R qs : List SPara) (p : SPara) :
    let co := (L ++ p :: R).map fun q => (q.id : Int)
    let k := min (L.length + 1) co.length
    co.take k ++ (qs.map SPara.id).map (fun i : Nat => (i : Int)) ++ co.drop k =
      (L ++ p :: (qs ++ R)).map fun q => (q.id : Int) := by
  intro co k
  have hk : k = (L.map fun q => (q.id : Int)).length + 1 := by
    show min (L.length + 1) ((L ++ p :: R).map fun q => (q.id : Int)).length = _
    simp
  have hco : co = (L.map fun q => (q.id : Int)) ++ (p.id : Int) :: R.map fun q => (q.id : Int) := by simp [co]
  rw [hk, hco, List.take_length_add_append, List.drop_length_add_append]
  simp [Function.comp_def]

/-- The new paragraphs enter the order of the frame and the text is stored. -/
theorem Adding.finish {qs : List SPara} {c : PasteAt} {p0 : SPara} (h : Adding s st d f fr (L ++ p :: (qs ++ R)))
    (h1 : c.frame = fr) (h2 : c.index = L.length) (h3 : fr.childOrder = (L ++ p0 :: R).map fun q => (q.id : Int))
    (h4 : p0.id = p.id) : Flat ((s.placeChildren c (qs.map SPara.id)).withText st) d f (L ++ p :: (qs ++ R)) := by
  obtain ⟨bs, hf, hperm⟩ := h.frame
  have hco : fr.childOrder = (L ++ p :: R).map fun q => (q.id : Int) := by rw [h3]; simp [h4]
  have hfr : ∀ g, (s.placeChildren c (qs.map SPara.id)).frames g = if g = f then
      some { fr with blocks := bs, childOrder := (L ++ p :: (qs ++ R)).map fun q => (q.id : Int) } else s.frames g := by
    intro g
    unfold Store.placeChildren
    rw [h1, h2, hco]
    have := placeChildren_eq L R qs p
    dsimp only at this ⊢
    rw [this]
    simp only [Store.updateFrame, IdMap.insert_get, h.frid, hf]
    split
    · simp [Store.keepFrame]
    · rfl
  have hsh := h.shows_
  exact {
    root := hsh.root
    document := hsh.document
    text := hsh.text
    keys := hsh.keys
    block := hsh.block
    absent := hsh.absent
    formats := hsh.formats
    images := hsh.images
    fresh := hsh.fresh
    frames := h.frames
    tables := h.tables
    frame := ⟨_, (hfr f).trans (if_pos rfl), h.frid, rfl, hperm⟩
    others := by
      intro g gr hg hgf
      have hg' : (s.placeChildren c (qs.map SPara.id)).frames g = some gr := hg
      rw [hfr, if_neg hgf] at hg'
      exact h.others g gr hg' hgf
    positive := h.positive
    nonempty := by simp
    plain := by
      intro gr hg
      have hg' : (s.placeChildren c (qs.map SPara.id)).frames f = some gr := hg
      rw [hfr, if_pos rfl, Option.some.injEq] at hg'
      rw [← hg']; exact h.plain }

/-- Without new paragraphs the frame is as it was. -/
theorem Adding.finish_nil {p0 : SPara} (h : Adding s st d f fr (L ++ p :: R))
    (hfr : ∃ fr', s.frames f = some fr' ∧ fr'.childOrder = (L ++ p0 :: R).map fun q => (q.id : Int))
    (h4 : p0.id = p.id) : Flat (s.withText st) d f (L ++ p :: R) := by
  obtain ⟨bs, hf, hperm⟩ := h.frame
  obtain ⟨fr', hf', hco⟩ := hfr
  have : fr' = { fr with blocks := bs } := by rw [hf] at hf'; exact (Option.some.inj hf').symm
  subst this
  have hco' : fr.childOrder = (L ++ p :: R).map fun q => (q.id : Int) := by
    have : fr.childOrder = (L ++ p0 :: R).map fun q => (q.id : Int) := hco
    rw [this]; simp [h4]
  have hsh := h.shows_
  exact {
    root := hsh.root
    document := hsh.document
    text := hsh.text
    keys := hsh.keys
    block := hsh.block
    absent := hsh.absent
    formats := hsh.formats
    images := hsh.images
    fresh := hsh.fresh
    frames := h.frames
    tables := h.tables
    frame := ⟨_, hf, h.frid, hco', hperm⟩
    others := h.others
    positive := h.positive
    nonempty := by simp
    plain := by
      intro gr hg
      have hg' : s.frames f = some gr := hg
      rw [hf, Option.some.injEq] at hg'
      rw [← hg']; exact h.plain }

/-- The positions after the paragraphs that follow are shifted. -/
theorem shiftStored_placed (r x : Int) (qs : List SPara) (hnd : (qs.map SPara.id).Nodup) (s : Store) :
    (∀ A q B, qs = A ++ q :: B → ∃ b, (s.shiftStored (placed r qs) x).blocks q.id = some b ∧
      b.documentPosition = r + charsBefore (paras A) + x) ∧
    ∀ i, i ∉ qs.map SPara.id → (s.shiftStored (placed r qs) x).blocks i = s.blocks i := by
  induction qs generalizing s r with
  | nil =>
    refine ⟨?_, fun i _ => rfl⟩
    intro A q B e; simp at e
  | cons q qs ih =>
    rw [List.map_cons, List.nodup_cons] at hnd
    have e : s.shiftStored (placed r (q :: qs)) x =
        (s.updateBlock { q.entity r with documentPosition := r + x }).shiftStored (placed (r + (q.text.length + 1)) qs) x := rfl
    rw [e]
    obtain ⟨i1, i2⟩ := ih (r + (q.text.length + 1)) hnd.2 (s.updateBlock { q.entity r with documentPosition := r + x })
    refine ⟨?_, ?_⟩
    · intro A y B ey
      cases A with
      | nil =>
        simp only [List.nil_append, List.cons.injEq] at ey
        obtain ⟨rfl, _⟩ := ey
        have hb := i2 q.id hnd.1
        rw [hb]
        refine ⟨_, by simp [Store.updateBlock, SPara.entity]; rfl, ?_⟩
        rw [charsBefore_paras_nil]
        cases s.blocks q.id <;> simp [Store.keepBlock]
      | cons z A =>
        simp only [List.cons_append, List.cons.injEq] at ey
        obtain ⟨rfl, ey⟩ := ey
        obtain ⟨b, h1, h2⟩ := i1 A y B ey
        refine ⟨b, h1, ?_⟩
        rw [h2, charsBefore_paras_cons, SPara.text_length]
        push_cast; omega
    · intro i hi
      simp only [List.map_cons, List.mem_cons, not_or] at hi
      rw [i2 i hi.2]
      simp [Store.updateBlock, SPara.entity, hi.1]

/-- Two parts of a list of paragraphs. -/
theorem split_at {X R A B : List SPara} {q : SPara} (e : X ++ R = A ++ q :: B) :
    (∃ B', X = A ++ q :: B') ∨ ∃ A', A = X ++ A' ∧ R = A' ++ q :: B := by
  rcases List.append_eq_append_iff.mp e with ⟨A', h1, h2⟩ | ⟨C, h1, h2⟩
  · exact .inr ⟨A', h1, h2⟩
  · cases C with
    | nil =>
      simp only [List.append_nil, List.nil_append] at h1 h2
      exact .inr ⟨[], by simp [h1], by simp [← h2]⟩
    | cons y C =>
      simp only [List.cons_append, List.cons.injEq] at h2
      exact .inl ⟨C, by rw [h1, h2.1]⟩

/-- The end of a paste: later positions are shifted and the counts are set. -/
theorem Flat.close {X : List SPara} {D : Document} (h : Flat s d f (X ++ R)) (hD : D.id = d.id) (r x : Int) :
    ∃ s', (s.shiftStored (placed r R) x).updateDocument D = s' ∧ Flat s' (keepDoc D (some d)) f (X ++ R) ∧
      s'.lists = s.lists ∧ s'.counters = s.counters ∧ s'.text = s.text ∧
      ((∀ A q B, X = A ++ q :: B → ∃ b, s.blocks q.id = some b ∧ b.documentPosition = charsBefore (paras A)) →
        r + x = charsBefore (paras X) → Placed s' (X ++ R)) := by
  have hnd := h.ids_nodup
  have hb : ∀ b ∈ placed r R, ∃ q ∈ X ++ R, IsBlock q b := by
    intro b hb
    obtain ⟨q, hq, e⟩ := (placed_entities r R).all b hb
    exact ⟨q, by simp [hq], e⟩
  obtain ⟨e1, e2, e3, e4⟩ := h.toShows.shiftStored x hb
  have e5 := e1.updateDocument hD
  refine ⟨_, rfl, ?_, e2.lists, e3, ?_, ?_⟩
  · refine h.of_shell e5 ?_ e3 rfl rfl rfl
    exact e2.trans ⟨rfl, rfl, rfl, rfl, rfl, rfl⟩
  · have := congrArg Store.text (updateBlocks_blocks ((placed r R).map fun b => { b with documentPosition := b.documentPosition + x }) s s rfl).2
    exact this
  · intro hX hrx A q B e
    rw [List.map_append, List.nodup_append] at hnd
    obtain ⟨i1, i2⟩ := shiftStored_placed r x R hnd.2.1 s
    show ∃ b, (s.shiftStored (placed r R) x).blocks q.id = some b ∧ _
    rcases split_at e with ⟨B', e'⟩ | ⟨A', e', e''⟩
    · rw [i2 q.id (fun hm => hnd.2.2 q.id (List.mem_map_of_mem (by rw [e']; simp)) q.id hm rfl)]
      exact hX A q B' e'
    · obtain ⟨b, h1, h2⟩ := i1 A' q B e''
      refine ⟨b, h1, ?_⟩
      have : charsBefore (paras A) = charsBefore (paras X) + charsBefore (paras A') := by
        rw [e', paras_append]; simp [charsBefore]
      rw [h2, this]
      push_cast; omega

end Verif
