import Verif.Lemmas.PasteAt
import Verif.Lemmas.Frames
/- Pasting a fragment of several paragraphs. -/
namespace Verif
variable {s : Store} {d : Document} {f : Nat} {ps L R : List SPara} {p : SPara} {st : RopeSt} {fr : Frame} {a b : List SChar}
open Store

theorem pasteFragment_many (c : PasteAt) (pos : Int) (first last : FragBlock) (mid : List FragBlock) :
    s.pasteFragment c pos (first :: (mid ++ [last])) = s.pasteMany c first last (first :: (mid ++ [last])) := by
  cases mid with
  | nil => rfl
  | cons m mid =>
    have e : (m :: (mid ++ [last])).getLast (by simp) = last := by
      rw [List.getLast_cons (by simp)]; exact List.getLast_concat
    exact congrArg (fun l => s.pasteMany c first l _) e

/-- The two halves of the paragraph. -/
theorem pasteAt_left (hst : StyledOk ((s.formatRuns p.id).getD []) (a ++ b)) :
    StyledOk (pasteAt s d f fr L p R a b).left.runs a ∧ (pasteAt s d f fr L p R a b).left.imgs = [] ∧
      (pasteAt s d f fr L p R a b).left.text = a.map Prod.fst :=
  ⟨hst.left, rfl, rfl⟩

theorem pasteAt_right (hst : StyledOk ((s.formatRuns p.id).getD []) (a ++ b)) :
    StyledOk (pasteAt s d f fr L p R a b).right.runs b ∧ (pasteAt s d f fr L p R a b).right.imgs = [] ∧
      (pasteAt s d f fr L p R a b).right.text = b.map Prod.fst :=
  ⟨hst.right, rfl, rfl⟩

theorem headState_styled {left : ParaState} {first : FragBlock} (h1 : StyledOk left.runs a) (h2 : left.imgs = [])
    (h3 : left.text = a.map Prod.fst) (hf : first.IsText) (merge over : Bool) (ho : over = true → a = []) :
    StyledOk (headState left merge over first).runs (a ++ if over || merge then first.chars else []) ∧
      (headState left merge over first).imgs = [] ∧
      (headState left merge over first).text = (a ++ if over || merge then first.chars else []).map Prod.fst := by
  obtain ⟨g1, g2⟩ := fragState_styled hf
  unfold headState
  cases over with
  | true =>
    rw [ho rfl]
    simp only [if_true, Bool.true_or, List.nil_append]
    exact ⟨g1, g2, hf.text⟩
  | false =>
    cases merge with
    | true =>
      simp only [Bool.false_eq_true, if_false, if_true, Bool.or_true]
      refine ⟨?_, ?_, ?_⟩
      · show StyledOk (coalesce (left.runs ++ moveRuns (utf8Len left.text) (fragState first).1)) _
        rw [h3]; exact h1.append g1
      · show left.imgs ++ moveImages _ (fragState first).2 = []
        rw [h2, g2]; rfl
      · show left.text ++ first.text = _
        rw [h3, hf.text]; simp
    | false => simpa using ⟨h1, h2, h3⟩

theorem tailState_styled {right : ParaState} {last : FragBlock} (h1 : StyledOk right.runs b) (h2 : right.imgs = [])
    (h3 : right.text = b.map Prod.fst) (hf : last.IsText) (merge : Bool) :
    StyledOk (tailState right merge last).runs ((if merge then last.chars else []) ++ b) ∧
      (tailState right merge last).imgs = [] ∧
      (tailState right merge last).text = ((if merge then last.chars else []) ++ b).map Prod.fst := by
  obtain ⟨g1, g2⟩ := fragState_styled hf
  unfold tailState
  cases merge with
  | true =>
    simp only [if_true]
    refine ⟨?_, ?_, ?_⟩
    · show StyledOk (coalesce ((fragState last).1 ++ moveRuns (utf8Len last.text) right.runs)) _
      rw [hf.text]; exact g1.append h1
    · show (fragState last).2 ++ moveImages _ right.imgs = []
      rw [h2, g2]; rfl
    · show last.text ++ right.text = _
      rw [h3, hf.text]; simp
  | false => simpa using ⟨h1, h2, h3⟩

/-- The stored block of a paragraph, written back. -/
theorem updateBlock_same (h : Adding s st d f fr (L ++ p :: R)) (x : Int) :
    s.updateBlock (p.entity x) = s.putBlock (p.entity x) := by
  obtain ⟨blk, h1, h2⟩ := h.shows_.block p (by simp)
  have h1' : s.blocks (p.entity x).id = some blk := h1
  unfold Store.updateBlock Store.putBlock
  rw [h1']
  have : keepBlock (p.entity x) (some blk) = p.entity x := by
    rw [h2]; rfl
  rw [this]

/-- What the paste does to the paragraph it starts in. -/
theorem Adding.head {first : FragBlock} (h : Adding s s.text d f fr (L ++ p :: R)) (hl : ListsOk s d (L ++ p :: R))
    (hc : p.chars = a ++ b) (hf : first.IsText) (over merge : Bool) (ho : over = true → a = []) :
    ∃ s0 g s1 ls hd st1, s.pasteHead (pasteAt s d f fr L p R a b) over first = some (s0, g) ∧
      s0.writeState p.id (headState (pasteAt s d f fr L p R a b).left merge over first).runs
        (headState (pasteAt s d f fr L p R a b).left merge over first).imgs = s1 ∧
      ((if b.map Prod.fst = [] then some s.text else ropeDeleteInBlock s.text p.id (utf8Len (a.map Prod.fst))
          (utf8Len (a.map Prod.fst) + utf8Len (b.map Prod.fst))).bind fun st =>
        (if (if over || merge then first.chars else []).map Prod.fst = [] then some st else
          ropeInsertInBlock st p.id (utf8Len (a.map Prod.fst)) ((if over || merge then first.chars else []).map Prod.fst))) = some st1 ∧
      Adding s1 st1 { d with lists := ls } f fr (L ++ hd :: R) ∧ ListsOk s1 { d with lists := ls } (L ++ hd :: R) ∧
      GrouperOk s1 g ∧ hd.id = p.id ∧ hd.chars = a ++ (if over || merge then first.chars else []) ∧
      (over = true → PastedOne s1 first hd) ∧ (over = false → hd.shape = p.shape) ∧
      (∃ blk, s1.blocks p.id = some blk ∧ blk.documentPosition = charsBefore (paras L)) ∧
      (∀ i, i ≠ p.id → s1.blocks i = s.blocks i) ∧ s1.next "block" = s.next "block" ∧ s1.text = s.text ∧
      (∀ i e, s.lists i = some e → s1.lists i = some e) ∧ (∀ i ∈ d.lists, i ∈ ls) ∧
      (over = false → GrouperKnows g (caretSeen s p.shape.list)) ∧
      (over = true → ListRule d.lists [] first.list hd.shape.list ∧ (∀ i ∈ hd.shape.list, i ∈ ls) ∧
        GrouperKnows g [listSeen first.list hd.shape.list]) := by
  generalize hE : (if over || merge then first.chars else []) = E at *
  have hst0 : StyledOk ((s.formatRuns p.id).getD []) (a ++ b) := hc ▸ h.shows_.formats p (by simp)
  obtain ⟨l1, l2, l3⟩ := pasteAt_left (d := d) (f := f) (fr := fr) (L := L) (R := R) hst0
  obtain ⟨k1, k2, k3⟩ := headState_styled l1 l2 l3 hf merge over ho
  rw [hE] at k1 k3
  have hrep : Repr s.text (paras L ++ (.block p.id, a.map Prod.fst ++ b.map Prod.fst) :: paras R) := by
    have := h.shows_.text
    rw [paras_append, paras_cons] at this
    have e : p.text = a.map Prod.fst ++ b.map Prod.fst := by simp [SPara.text, hc]
    rw [e] at this
    exact this
  obtain ⟨st1, t1, t2⟩ := ropeHead hrep (E.map Prod.fst)
  have ht : ∀ shape, Repr st1 (paras (L ++ ⟨p.id, a ++ E, shape⟩ :: R)) := by
    intro shape
    rw [paras_append, paras_cons]
    simpa [SPara.text] using t2
  rw [k2]
  generalize hk : (headState (pasteAt s d f fr L p R a b).left merge over first).runs = runs at *
  cases over with
  | false =>
    have hset := h.set (blk := p.entity (charsBefore (paras L))) (cs := a ++ E) (shape := p.shape) rfl k1 (ht p.shape)
    refine ⟨_, _, _, d.lists, ⟨p.id, a ++ E, p.shape⟩, st1, rfl, rfl, t1, ?_, ?_, ?_, rfl, rfl, by simp, fun _ => rfl, ?_, ?_, ?_, ?_, ?_,
      fun _ h => h, fun _ => primed_knows s (p.entity (charsBefore (paras L))), by simp⟩
    · have e : (pasteAt s d f fr L p R a b).cur = p.entity (charsBefore (paras L)) := rfl
      rw [e, updateBlock_same h]; exact hset
    · refine ⟨hl.known, hl.only, ?_, hl.nodup, hl.fresh⟩
      intro q hq
      simp only [List.mem_append, List.mem_cons] at hq
      rcases hq with hq | rfl | hq
      · exact hl.items q (by simp [hq])
      · exact hl.items p (by simp)
      · exact hl.items q (by simp [hq])
    · have e : (pasteAt s d f fr L p R a b).cur = p.entity (charsBefore (paras L)) := rfl
      rw [e]
      have e2 : (p.entity (charsBefore (paras L))).list = p.shape.list := rfl
      rw [e2]
      cases p.shape.list with
      | none => exact .nil _
      | some l =>
        dsimp only
        cases hsl : s.lists l with
        | none => exact .nil _
        | some e => exact GrouperOk.register (.nil _) hsl
    · refine ⟨p.entity (charsBefore (paras L)), ?_, rfl⟩
      have e : (pasteAt s d f fr L p R a b).cur = p.entity (charsBefore (paras L)) := rfl
      rw [e, updateBlock_same h]
      simp [Store.writeState, Store.putBlock, SPara.entity]
    · intro i hi
      have e : (pasteAt s d f fr L p R a b).cur = p.entity (charsBefore (paras L)) := rfl
      rw [e, updateBlock_same h]
      simp [Store.writeState, Store.putBlock, SPara.entity, hi]
    · rfl
    · rfl
    · exact fun _ _ h => h
  | true =>
    obtain ⟨s0, g, l, ls, e1, a1, m1, gr1, like1, in1, b1, x1, n1, mo⟩ := h.chooseList hl (.nil s) first.list
    obtain ⟨rule1, kn1⟩ := h.chooseRule hl .nil e1
    have hset := a1.set (blk := { first.format with id := p.id, list := l, documentPosition := charsBefore (paras L) })
      (shape := { first.format with id := 0, documentPosition := 0, list := l }) rfl k1 (ht _)
    have ha := ho rfl
    have hE' : E = first.chars := by rw [← hE]; simp
    refine ⟨_, g, _, ls, ⟨p.id, a ++ E, { first.format with id := 0, documentPosition := 0, list := l }⟩, st1, ?_, rfl, t1, hset, ?_,
      ?_, rfl, rfl, fun _ => ⟨?_, rfl, ?_⟩, by simp, ?_, ?_, ?_, ?_, ?_, ?_, by simp, fun _ => ⟨rule1, fun i hi => in1 i hi, kn1⟩⟩
    · unfold Store.pasteHead
      rw [if_pos rfl]
      have e1' : s.chooseList (pasteAt s d f fr L p R a b).did [] first.list = _ := e1
      rw [e1']; rfl
    · refine ⟨m1.known, m1.only, ?_, m1.nodup, m1.fresh⟩
      intro q hq
      simp only [List.mem_append, List.mem_cons] at hq
      rcases hq with hq | rfl | hq
      · exact m1.items q (by simp [hq])
      · exact in1
      · exact m1.items q (by simp [hq])
    · exact gr1
    · show a ++ E = first.chars; rw [ha, hE']; rfl
    · exact like1
    · exact ⟨_, by simp [Store.writeState, Store.putBlock]; rfl, rfl⟩
    · intro i hi
      simp [Store.writeState, Store.putBlock, hi, b1]
    · exact n1
    · exact x1
    · exact mo
    · intro i hi
      obtain ⟨e, y1, _⟩ := hl.known i hi
      exact m1.only i (by rw [mo i e y1]; rfl)

theorem pasteAt_rest (L R : List SPara) (p : SPara) :
    (placed 0 (L ++ p :: R)).drop (L.length + 1) = placed (charsBefore (paras L) + (p.text.length + 1)) R := by
  rw [placed_append, placed]
  have : (placed 0 L).length = L.length := placed_length 0 L
  rw [← this, List.drop_length_add_append]
  simp

theorem PastedOne.mono {s' : Store} {fb : FragBlock} {q : SPara} (h : PastedOne s fb q)
    (hl : ∀ i e, s.lists i = some e → s'.lists i = some e) : PastedOne s' fb q :=
  ⟨h.chars, h.format, h.list.mono hl⟩

theorem PastedAs.length {fbs : List FragBlock} {qs : List SPara} (h : PastedAs s fbs qs) : qs.length = fbs.length := by
  induction fbs generalizing qs with
  | nil => cases qs with
    | nil => rfl
    | cons q qs => exact h.elim
  | cons fb fbs ih => cases qs with
    | nil => exact h.elim
    | cons q qs => simp [ih h.2]

/-- The paragraph made of the rest is added. -/
theorem Adding.tail {c : PasteAt} {x : SPara} {tl : ParaState} {cs : List SChar} {p0 : SPara} {q0 : Int}
    (h : Adding s st d f fr (L ++ x :: R)) (hl : ListsOk s d (L ++ x :: R)) (hcf : c.fid = f) (hcur : c.cur = p0.entity q0)
    (hcl : ∀ l, p0.shape.list = some l → l ∈ d.lists) (plain : Bool) (index : Nat) (running : Int)
    (h1 : StyledOk tl.runs cs) (h2 : tl.imgs = []) (h3 : tl.text = cs.map Prod.fst) :
    ∃ s' st', s.addTail c plain index running tl = some (s', s.next "block") ∧
      ropeAddBlocks [(s.next "block", tl.text)] x.id (utf8Len x.text) st = some st' ∧
      Adding s' st' d f fr (L ++ x :: ⟨s.next "block", cs, if plain then {} else p0.shape⟩ :: R) ∧
      ListsOk s' d (L ++ x :: ⟨s.next "block", cs, if plain then {} else p0.shape⟩ :: R) ∧
      (∀ i, i ≠ s.next "block" → s'.blocks i = s.blocks i) ∧
      (∃ blk, s'.blocks (s.next "block") = some blk ∧ blk.documentPosition = running) ∧ s'.lists = s.lists ∧ s'.text = s.text := by
  have hid : (tailBlock c plain running).id = 0 := by unfold tailBlock; split <;> rfl
  have hpos : (tailBlock c plain running).documentPosition = running := by unfold tailBlock; split <;> rfl
  have hsh : ∀ n, IsBlock ⟨n, cs, if plain then {} else p0.shape⟩ { tailBlock c plain running with id := n } := by
    intro n
    unfold tailBlock
    cases plain
    · simp only [hcur]; rfl
    · rfl
  obtain ⟨s2, st1, st2, c1, c2, c3, c4, c5, c6, c7, c8, c9, c10⟩ := h.add hid (index : Int) h1 _ hsh
  refine ⟨_, st2, ?_, ?_, c4, ?_, ?_, ?_, c6, c8⟩
  · unfold Store.addTail
    rw [hcf, c1, Option.map_some, h2]
  · unfold ropeAddBlocks
    rw [c2, Option.bind_some, h3, c3]; rfl
  · refine hl.addPara c6 c9 ?_
    cases plain
    · exact hcl
    · intro i hi
      simp at hi
  · intro i hi
    rw [c5, if_neg hi]
  · exact ⟨_, (c5 _).trans (if_pos rfl), hpos⟩

theorem ropePaste_eq {st st1 : RopeSt} {cur off : Nat} {after extra : List Char}
    (h : ((if after = [] then some st else ropeDeleteInBlock st cur off (off + utf8Len after)).bind fun st =>
      (if extra = [] then some st else ropeInsertInBlock st cur off extra)) = some st1) (pay : List (Nat × List Char)) :
    ropePaste st cur off after extra pay = ropeAddBlocks pay cur (off + utf8Len extra) st1 := by
  unfold ropePaste
  rw [← Option.bind_assoc, h, Option.bind_some]

/-- The end of a paste. -/
theorem Adding.close {hd : SPara} {new : List SPara} {D : Document} {c : PasteAt}
    (h : Adding s st d f fr (L ++ hd :: (new ++ R))) (hl : ListsOk s d (L ++ hd :: (new ++ R))) (hid : hd.id = p.id)
    (hco : fr.childOrder = (L ++ p :: R).map fun q => (q.id : Int)) (hD : D.id = d.id) (x : Int)
    (h1 : c.frame = fr) (h2 : c.index = L.length) (h3 : c.blocks = placed 0 (L ++ p :: R)) :
    ∃ s', (((s.placeChildren c (new.map SPara.id)).withText st).shiftStored (c.blocks.drop (c.index + 1)) x).updateDocument D = s' ∧
      Flat s' (keepDoc D (some d)) f (L ++ hd :: (new ++ R)) ∧ ListsOk s' (keepDoc D (some d)) (L ++ hd :: (new ++ R)) ∧
      s'.lists = s.lists ∧
      ((∀ A q B, L ++ hd :: new = A ++ q :: B → ∃ b, s.blocks q.id = some b ∧ b.documentPosition = charsBefore (paras A)) →
        charsBefore (paras L) + (p.text.length + 1) + x = charsBefore (paras (L ++ hd :: new)) →
        Placed s' (L ++ hd :: (new ++ R))) := by
  have hfl := h.finish (c := c) h1 h2 hco hid.symm
  have e : L ++ hd :: (new ++ R) = (L ++ hd :: new) ++ R := by simp
  rw [e] at hfl hl ⊢
  rw [h2, h3, pasteAt_rest]
  obtain ⟨s', e1, e2, e3, e4, e5, e6⟩ := hfl.close hD (charsBefore (paras L) + (p.text.length + 1)) x
  refine ⟨s', e1, e2, ?_, e3, e6⟩
  have hnx : s'.next "list" = s.next "list" := by
    unfold Store.next; rw [e4]; rfl
  have hls : s'.lists = s.lists := e3
  exact ⟨by rw [hls]; exact hl.known, by rw [hls]; exact hl.only, hl.items, hl.nodup, by rw [hls, hnx]; exact hl.fresh⟩

theorem last_of_new (L qs : List SPara) (hd : SPara) : ∃ L', L ++ hd :: qs = L' ++ [qs.getLastD hd] := by
  induction qs generalizing L hd with
  | nil => exact ⟨L, rfl⟩
  | cons q qs ih =>
    obtain ⟨L', e⟩ := ih (L ++ [hd]) q
    exact ⟨L', by rw [List.getLastD_cons, ← e]; simp⟩

/-- The stored positions up to the last new paragraph. -/
theorem positions {s' : Store} {hd : SPara} {new : List SPara}
    (hL : ∀ A q B, L = A ++ q :: B → ∃ b, s'.blocks q.id = some b ∧ b.documentPosition = charsBefore (paras A))
    (hh : ∃ b, s'.blocks hd.id = some b ∧ b.documentPosition = charsBefore (paras L))
    (hn : ∀ A q B, new = A ++ q :: B → ∃ b, s'.blocks q.id = some b ∧
      b.documentPosition = charsBefore (paras L) + (hd.chars.length + 1) + charsBefore (paras A)) :
    ∀ A q B, L ++ hd :: new = A ++ q :: B → ∃ b, s'.blocks q.id = some b ∧ b.documentPosition = charsBefore (paras A) := by
  intro A q B e
  rcases split_at e with ⟨B', e'⟩ | ⟨A', e', e''⟩
  · exact hL A q B' e'
  · cases A' with
    | nil =>
      simp only [List.nil_append, List.cons.injEq] at e''
      rw [← e''.1, e', List.append_nil]; exact hh
    | cons y A' =>
      simp only [List.cons_append, List.cons.injEq] at e''
      obtain ⟨b, h1, h2⟩ := hn A' q B e''.2
      refine ⟨b, h1, ?_⟩
      rw [h2, e', charsBefore_paras_two, charsBefore_paras_cons, e''.1]
      push_cast; omega

theorem sum_state_len {fbs : List FragBlock} (h : ∀ fb ∈ fbs, fb.IsText) :
    (fbs.map fun fb => fb.state.len).sum = (fbs.map fun fb => fb.chars.length).sum := by
  congr 1
  apply List.map_congr_left
  intro fb hfb
  exact state_len (h fb hfb)

/-- The characters counted for a paste of several paragraphs. -/
def countedMany (first last : FragBlock) (mid : List FragBlock) (a b : List SChar) : Int :=
  ((((first :: (mid ++ [last])).map fun fb => fb.chars.length).sum : Nat) : Int) -
    (if first.inlineOnly = false ∧ a ≠ [] then 0 else (b.length : Int))

theorem Flat.pasteMany {first last : FragBlock} {mid : List FragBlock} (h : Flat s d f (L ++ p :: R)) (hp : Placed s (L ++ p :: R))
    (hl : ListsOk s d (L ++ p :: R)) (hf : s.frames f = some fr) (hc : p.chars = a ++ b)
    (htx : ∀ fb ∈ first :: (mid ++ [last]), fb.IsText) :
    ∃ s' ls hd qs tl, s.pasteMany (pasteAt s d f fr L p R a b) first last (first :: (mid ++ [last])) =
        some (s', ⟨charsBefore (paras (L ++ hd :: (qs ++ tl))) - (b.length + 1), qs.length + tl.length⟩) ∧
      Flat s' { d with
        lists := ls
        blockCount := d.blockCount + (qs.length + tl.length)
        characterCount := d.characterCount + countedMany first last mid a b } f (L ++ hd :: (qs ++ tl ++ R)) ∧
      Placed s' (L ++ hd :: (qs ++ tl ++ R)) ∧
      ListsOk s' { d with
        lists := ls
        blockCount := d.blockCount + (qs.length + tl.length)
        characterCount := d.characterCount + countedMany first last mid a b } (L ++ hd :: (qs ++ tl ++ R)) ∧
      PastedMany s' first mid last p a b hd qs tl ∧ SharedMany s d.lists first mid last p a hd qs := by
  have hadd := h.adding hf
  have hfirst := htx first (by simp)
  have hlast := htx last (by simp)
  have hst0 : StyledOk ((s.formatRuns p.id).getD []) (a ++ b) := hc ▸ h.formats p (by simp)
  have hco : fr.childOrder = (L ++ p :: R).map fun q => (q.id : Int) := by
    obtain ⟨fr', g1, g2, g3, g4⟩ := h.frame
    rw [hf, Option.some.injEq] at g1
    rw [g1]; exact g3
  have hplen : p.text.length = a.length + b.length := by rw [SPara.text_length, hc, List.length_append]
  obtain ⟨r1, r2, r3⟩ := pasteAt_right (d := d) (f := f) (fr := fr) (L := L) (R := R) hst0
  obtain ⟨l1, l2, l3⟩ := pasteAt_left (d := d) (f := f) (fr := fr) (L := L) (R := R) hst0
  obtain ⟨y1, y2, y3⟩ := tailState_styled r1 r2 r3 hlast last.inlineOnly
  generalize hov : (decide (a = []) && !first.inlineOnly) = over
  have hov' : (decide ((pasteAt s d f fr L p R a b).before = []) && !first.inlineOnly) = over := by
    rw [← hov]; congr 1; simp [pasteAt]
  have ho : over = true → a = [] := by rw [← hov]; simp +contextual
  obtain ⟨k1, k2, k3⟩ := headState_styled l1 l2 l3 hfirst first.inlineOnly over ho
  obtain ⟨s0, g, s1, ls1, hd, st1, e1, e2, e3, e4, e5, e6, e7, e8, e9, e10, e11, e12, e13, e14, e15, e16, e17, e18⟩ :=
    hadd.head (R := R) (b := b) hl hc hfirst over first.inlineOnly ho
  -- the paragraphs of the fragment that become paragraphs
  generalize hM : (if first.inlineOnly = false ∧ a ≠ [] then [first] else []) ++ mid ++
    (if last.inlineOnly = true then [] else [last]) = M
  have hmids : (if last.inlineOnly = true then
      (if (first.inlineOnly || over) = true then (first :: (mid ++ [last])).tail else first :: (mid ++ [last])).dropLast
      else if (first.inlineOnly || over) = true then (first :: (mid ++ [last])).tail else first :: (mid ++ [last])) = M := by
    have e0 : (first :: (mid ++ [last])).dropLast = first :: mid := by
      have : first :: (mid ++ [last]) = (first :: mid) ++ [last] := rfl
      rw [this, List.dropLast_concat]
    rw [← hM, ← hov]
    cases first.inlineOnly <;> cases last.inlineOnly <;> by_cases ha : a = [] <;> simp [ha, e0]
  have hMt : ∀ fb ∈ M, fb.IsText := by
    intro fb hfb
    apply htx
    rw [← hM] at hfb
    simp only [List.mem_append] at hfb
    rcases hfb with (hfb | hfb) | hfb
    · split at hfb
      · simp only [List.mem_singleton] at hfb; simp [hfb]
      · simp at hfb
    · simp [hfb]
    · split at hfb
      · simp at hfb
      · simp only [List.mem_singleton] at hfb; simp [hfb]
  generalize hE : (if (over || first.inlineOnly) = true then first.chars else []) = E at *
  have hhlen : hd.chars.length = a.length + E.length := by rw [e8, List.length_append]
  have hhs : (headState (pasteAt s d f fr L p R a b).left first.inlineOnly over first).len = hd.chars.length := by
    unfold ParaState.len; rw [k2, k3, e8]; simp
  generalize hhst : headState (pasteAt s d f fr L p R a b).left first.inlineOnly over first = hs at *
  obtain ⟨past, hk, hk1, hk2⟩ : ∃ past, GrouperKnows g past ∧ (over = false → past = caretSeen s p.shape.list) ∧
      (over = true → past = [listSeen first.list hd.shape.list]) := by
    cases over with
    | false => exact ⟨_, e17 rfl, fun _ => rfl, by simp⟩
    | true => exact ⟨_, (e18 rfl).2.2, by simp, fun _ => rfl⟩
  obtain ⟨s2, ls2, qs, st2, i1, i2, i3, i4, i5, i6, i7, i8, i9, i10, i11, i12⟩ :=
    Adding.addAll M hMt (L.length + 1) ((charsBefore (paras L) : Int) + hs.len + 1) e4 e5 e6 hk
  have hqlen := i5.length
  -- the rest of the paragraph
  generalize hts : tailState (pasteAt s d f fr L p R a b).right last.inlineOnly last = ts at *
  have hskip : (decide (ts.text = []) && !last.inlineOnly && decide ((pasteAt s d f fr L p R a b).right.imgs = [])) =
      (decide (b = []) && !last.inlineOnly) := by
    rw [r2, y3]
    cases last.inlineOnly <;> simp
  generalize hrun : (charsBefore (paras L) : Int) + hs.len + 1 + charsBefore (paras qs) = run at *
  have hT : ∃ s3 st3 tl, (if (decide (b = []) && !last.inlineOnly) = true then some (s2, []) else
        (s2.addTail (pasteAt s d f fr L p R a b) over (L.length + 1 + qs.length) run ts).map fun (s, id) =>
          (s, [(id, ts.text)])) = some (s3, tl.map fun q : SPara => (q.id, q.text)) ∧
      ropeAddBlocks (tl.map fun q : SPara => (q.id, q.text)) (qs.getLastD hd).id (utf8Len (qs.getLastD hd).text) st2 = some st3 ∧
      Adding s3 st3 { d with lists := ls2 } f fr (L ++ hd :: (qs ++ tl ++ R)) ∧
      ListsOk s3 { d with lists := ls2 } (L ++ hd :: (qs ++ tl ++ R)) ∧ s3.lists = s2.lists ∧ s3.text = s2.text ∧
      (∀ i, i < s2.next "block" → s3.blocks i = s2.blocks i) ∧
      ((tl = [] ∧ b = [] ∧ last.inlineOnly = false) ∨ ∃ n blk, ¬ (decide (b = []) && !last.inlineOnly) = true ∧
        tl = [⟨n, (if last.inlineOnly = true then last.chars else []) ++ b, if over = true then {} else p.shape⟩] ∧
        s3.blocks n = some blk ∧ blk.documentPosition = run) := by
    by_cases hsk : (decide (b = []) && !last.inlineOnly) = true
    · rw [if_pos hsk]
      refine ⟨s2, st2, [], rfl, rfl, ?_, ?_, rfl, rfl, fun _ _ => rfl, .inl ⟨rfl, ?_⟩⟩
      · simpa using i3
      · simpa using i4
      · simpa using hsk
    · rw [if_neg hsk]
      obtain ⟨L', eL⟩ := last_of_new L qs hd
      have eL' : ∀ X : List SPara, L ++ hd :: (qs ++ X) = L' ++ (qs.getLastD hd) :: X := by
        intro X
        have := congrArg (· ++ X) eL
        simpa using this
      rw [eL'] at i3 i4
      have hcl : ∀ l, p.shape.list = some l → l ∈ ls2 := by
        intro l hpl
        obtain ⟨e, g1, g2⟩ := hl.known l (hl.items p (by simp) l hpl)
        exact i4.only l (by rw [i11 l e (e15 l e g1)]; rfl)
      obtain ⟨s3, st3, z1, z2, z3, z4, z5, ⟨blk, z6, z7⟩, z8, z9⟩ :=
        i3.tail (c := pasteAt s d f fr L p R a b) (p0 := p) (q0 := charsBefore (paras L)) i4 rfl rfl hcl over
          (L.length + 1 + qs.length) run y1 y2 y3
      refine ⟨s3, st3, [⟨s2.next "block", (if last.inlineOnly = true then last.chars else []) ++ b, if over = true then {} else p.shape⟩],
        ?_, ?_, ?_, ?_, z8, z9, ?_, .inr ⟨_, blk, hsk, rfl, z6, z7⟩⟩
      · rw [z1, Option.map_some]
        simp only [List.map_cons, List.map_nil, SPara.text, y3]
      · have e : ts.text = (⟨s2.next "block", (if last.inlineOnly = true then last.chars else []) ++ b, if over = true then {} else p.shape⟩ : SPara).text := y3
        rw [e] at z2
        exact z2
      · rw [List.append_assoc, eL']; exact z3
      · rw [List.append_assoc, eL']; exact z4
      · intro i hi
        exact z5 i (by omega)
  obtain ⟨s3, st3, tl, t1, t2, t3, t4, t5, t6, t7, t8⟩ := hT
  have htl : charsBefore (paras tl) = if (decide (b = []) && !last.inlineOnly) = true then 0 else ts.len + 1 := by
    have hlen : ts.len = ((if last.inlineOnly = true then last.chars else []) ++ b).length := by
      unfold ParaState.len; rw [y2, y3]; simp
    rcases t8 with ⟨rfl, x2, x3⟩ | ⟨n, blk, x1, rfl, x3, x4⟩
    · simp [x2, x3]
    · rw [if_neg x1, charsBefore_paras_cons, hlen]; simp
  have hmono : ∀ i e, s.lists i = some e → s3.lists i = some e := by
    intro i e hi; rw [t5]; exact i11 i e (e15 i e hi)
  generalize hxx : (if (decide (b = []) && !last.inlineOnly) = true then run else run + ts.len + 1) -
    ((charsBefore (paras L) : Int) + (pasteAt s d f fr L p R a b).len + 1) = xx
  have hclen : (pasteAt s d f fr L p R a b).len = a.length + b.length := by
    simp [PasteAt.len, pasteAt]
  generalize hD : ({ d with blockCount := d.blockCount + ((M.length : Int) + (if (decide (b = []) && !last.inlineOnly) = true then 0 else 1)), characterCount := d.characterCount + ((if (first.inlineOnly || over) = true then (hs.len : Int) - (pasteAt s d f fr L p R a b).len else 0) + ((M.map fun fb => fb.state.len).sum : Nat) + (if last.inlineOnly = true then (last.text.length : Int) else 0)) } : Document) = D
  obtain ⟨s', f1, f2, f3, f4, f5⟩ := Adding.close (D := D) (c := pasteAt s d f fr L p R a b) t3 t4 e7 hco
    (by subst hD; rfl) xx rfl rfl rfl
  have hb1 : (M.length : Int) + (if (decide (b = []) && !last.inlineOnly) = true then 0 else 1) = qs.length + tl.length := by
    rw [hqlen]
    rcases t8 with ⟨rfl, x2, x3⟩ | ⟨n, blk, x1, rfl, x3, x4⟩
    · simp [x2, x3]
    · rw [if_neg x1]; simp
  have hcx : (charsBefore (paras (L ++ hd :: (qs ++ tl))) : Int) =
      if (decide (b = []) && !last.inlineOnly) = true then run else run + ts.len + 1 := by
    rw [charsBefore_paras_two, charsBefore_paras_cons, charsBefore_paras_two, htl, ← hrun, hhs]
    split <;> push_cast <;> omega
  have hkd : keepDoc D (some { d with lists := ls2 }) = { d with
      lists := ls2
      blockCount := d.blockCount + (qs.length + tl.length)
      characterCount := d.characterCount + countedMany first last mid a b } := by
    have hb2 : (if (first.inlineOnly || over) = true then (hs.len : Int) - (pasteAt s d f fr L p R a b).len else 0) +
        ((M.map fun fb => fb.state.len).sum : Nat) + (if last.inlineOnly = true then (last.text.length : Int) else 0) =
        countedMany first last mid a b := by
      rw [hhs, hhlen, hclen, sum_state_len hMt, ← hM, ← hE, ← hov, hlast.text]
      unfold countedMany
      cases first.inlineOnly <;> cases last.inlineOnly <;> by_cases ha : a = [] <;> simp [ha] <;> omega
    subst hD
    rw [hb1, hb2]
    rfl
  rw [hkd] at f2 f3
  have hshare : SharedMany s d.lists first mid last p a hd qs := by
    refine ⟨fun hn => ?_, fun h1 h2 => ?_⟩
    · have ho' : over = false := by
        rw [← hov]
        cases hi : first.inlineOnly
        · by_cases ha : a = []
          · exact absurd ⟨hi, ha⟩ hn
          · simp [ha]
        · simp
      rw [hk1 ho', ← hM] at i12
      exact i12.fewer e16
    · have ho' : over = true := by rw [← hov]; simp [h1, h2]
      rw [hk2 ho', ← hM] at i12
      obtain ⟨w1, w2, _⟩ := e18 ho'
      refine ⟨w1, i12.fewer fun i hi => ?_⟩
      rcases List.mem_append.mp hi with hi | hi
      · exact w2 i (by simpa using hi)
      · exact e16 i hi
  refine ⟨s', ls2, hd, qs, tl, ?_, f2, ?_, f3, ?_, hshare⟩
  · unfold Store.pasteMany
    dsimp only
    rw [hov', e1, Option.bind_some]
    dsimp only
    have c1 : (pasteAt s d f fr L p R a b).cur.id = p.id := rfl
    have c2 : (pasteAt s d f fr L p R a b).did = d.id := rfl
    have c3 : (pasteAt s d f fr L p R a b).fid = f := rfl
    have c4 : (pasteAt s d f fr L p R a b).cur.documentPosition = charsBefore (paras L) := rfl
    have c5 : (pasteAt s d f fr L p R a b).off = utf8Len (a.map Prod.fst) := rfl
    have c6 : (pasteAt s d f fr L p R a b).after = b.map Prod.fst := rfl
    have c7 : (pasteAt s d f fr L p R a b).before = a.map Prod.fst := rfl
    have c8 : (pasteAt s d f fr L p R a b).index = L.length := rfl
    have c9 : (pasteAt s d f fr L p R a b).document = d := rfl
    rw [hhst, hts, c1, c2, c3, c4, c5, c6, c7, c8, c9, e2, hmids, i1, Option.bind_some]
    dsimp only
    rw [hskip, List.length_map, t1, Option.bind_some]
    dsimp only
    have htext : (s3.placeChildren (pasteAt s d f fr L p R a b)
        ((qs.map (fun q => (q.id, q.text)) ++ tl.map (fun q => (q.id, q.text))).map Prod.fst)).text = s.text :=
      t6.trans (i10.trans e14)
    have hdrop : hs.text.drop (a.map Prod.fst).length = E.map Prod.fst := by
      rw [k3, List.map_append, List.drop_left]
    have hut : utf8Len (a.map Prod.fst) + utf8Len (E.map Prod.fst) = utf8Len hd.text := by
      rw [SPara.text, e8, List.map_append, utf8Len_append]
    rw [htext, hdrop, ropePaste_eq e3, hut, ← e7, i2, t2, Option.map_some]
    have hids : (qs.map (fun q => (q.id, q.text)) ++ tl.map (fun q => (q.id, q.text))).map Prod.fst = (qs ++ tl).map SPara.id := by
      rw [← List.map_append, List.map_map]; rfl
    rw [hids, hxx, hD]
    have f1' : _ = s' := f1
    rw [c8] at f1'
    rw [f1']
    have hpos : (if (decide (b = []) && !last.inlineOnly) = true then run - 1 else
        if last.inlineOnly = true then run + (last.text.length : Int) else run) =
        (charsBefore (paras (L ++ hd :: (qs ++ tl))) : Int) - (b.length + 1) := by
      rw [hcx, hlast.text]
      have hlen : ts.len = ((if last.inlineOnly = true then last.chars else []) ++ b).length := by
        unfold ParaState.len; rw [y2, y3]; simp
      rw [hlen]
      cases last.inlineOnly <;> by_cases hb : b = [] <;> simp [hb] <;> omega
    have hadd' : (M.length : Int) + (if (decide (b = []) && !last.inlineOnly) = true then 0 else 1) = qs.length + tl.length := hb1
    rw [hpos, hadd']
  · apply f5
    · have hids : ∀ q ∈ L, q.id ≠ p.id ∧ q.id < s.next "block" := by
        intro q hq
        have hnd := h.ids_nodup
        rw [List.map_append, List.map_cons, List.nodup_append] at hnd
        exact ⟨hnd.2.2 _ (List.mem_map_of_mem hq) _ (by simp), h.fresh q (by simp [hq])⟩
      have hpf : p.id < s.next "block" := h.fresh p (by simp)
      apply positions
      · intro A q B e
        obtain ⟨h1, h2⟩ := hids q (by rw [e]; simp)
        rw [t7 _ (by omega), i7 _ (by omega), e12 _ h1]
        exact hp A q (B ++ p :: R) (by rw [e]; simp)
      · rw [e7, t7 _ (by omega), i7 _ (by omega)]
        exact e11
      · intro A q B e
        rcases split_at e with ⟨B', e'⟩ | ⟨A', e', e''⟩
        · obtain ⟨blk, h1, h2⟩ := i6 A q B' e'
          have hq2 : q.id < s2.next "block" := i3.shows_.fresh q (by rw [e']; simp)
          rw [t7 _ hq2]
          refine ⟨blk, h1, ?_⟩
          rw [h2, hhs]
          omega
        · rcases t8 with ⟨rfl, x2, x3⟩ | ⟨n, blk, x1, rfl, x3, x4⟩
          · simp at e''
          · have : A' = [] ∧ q = ⟨n, (if last.inlineOnly = true then last.chars else []) ++ b, if over = true then {} else p.shape⟩ := by
              cases A' with
              | nil => simp only [List.nil_append, List.cons.injEq] at e''; exact ⟨rfl, e''.1.symm⟩
              | cons y A' => simp at e''
            obtain ⟨rfl, rfl⟩ := this
            refine ⟨blk, x3, ?_⟩
            rw [x4, ← hrun, e', List.append_nil, hhs]
            omega
    · rw [hcx, hplen, ← hxx, hclen]
      push_cast
      omega
  · have hm2 : ∀ i e, s2.lists i = some e → s'.lists i = some e := by
      intro i e hi; rw [f4, t5]; exact hi
    refine ⟨e7, ?_, ?_, ?_, ?_, ?_⟩
    · intro hi
      have ho' : over = false := by rw [← hov, hi]; simp
      have : E = first.chars := by rw [← hE, hi]; simp
      rw [show hd = ⟨hd.id, hd.chars, hd.shape⟩ from rfl, e7, e8, e10 ho', this]
    · intro hi ha
      have ho' : over = true := by rw [← hov, hi, ha]; simp
      exact (e9 ho').mono fun i e hi => hm2 i e (i11 i e hi)
    · intro hi ha
      have ho' : over = false := by rw [← hov]; simp [ha]
      have : E = [] := by rw [← hE, hi, ho']; simp
      rw [show hd = ⟨hd.id, hd.chars, hd.shape⟩ from rfl, e7, e8, e10 ho', this, List.append_nil]
    · rw [hM]; exact i5.mono hm2
    · have hsh : (if over = true then ({} : Block) else p.shape) = if first.inlineOnly = false ∧ a = [] then {} else p.shape := by
        rw [← hov]
        by_cases ha : a = [] <;> cases first.inlineOnly <;> simp [ha]
      refine ⟨_, hsh, ?_, ?_, ?_⟩
      · intro hi
        rcases t8 with ⟨rfl, x2, x3⟩ | ⟨n, blk, x1, rfl, x3, x4⟩
        · rw [hi] at x3; simp at x3
        · exact ⟨n, by simp [hi]⟩
      · intro hi hb
        rcases t8 with ⟨rfl, x2, x3⟩ | ⟨n, blk, x1, rfl, x3, x4⟩
        · rfl
        · exact absurd (by simp [hb, hi]) x1
      · intro hi hb
        rcases t8 with ⟨rfl, x2, x3⟩ | ⟨n, blk, x1, rfl, x3, x4⟩
        · exact absurd x2 hb
        · exact ⟨n, by simp [hi]⟩

end Verif
