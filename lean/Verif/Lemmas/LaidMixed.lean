import Verif.Lemmas.LaidHead
/-
Pasting paragraphs mixed with tables in the last paragraph of a document without tables.
-/
namespace Verif
open Store
variable {s s' : Store} {d d' : Document} {f : Nat} {P : List SPara} {p : SPara} {fr : Frame} {a b : List SChar}

theorem charsBefore_docLen {X : List SPara} (h : X ≠ []) : charsBefore (paras X) = docLen X + 1 := by
  induction X with
  | nil => exact absurd rfl h
  | cons q X ih =>
    rw [charsBefore_paras_cons]
    cases X with
    | nil => simp [docLen]
    | cons y X =>
      rw [ih (by simp), docLen_cons q (by simp : y :: X ≠ [])]; omega

theorem Placed.left {A B : List SPara} (h : Placed s (A ++ B)) : Placed s A := by
  intro L q R e
  exact h L q (R ++ B) (by rw [e]; simp)

theorem Placed.one {ps : List SPara} {q : SPara} (h : Placed s ps) (hq : ∃ b, s.blocks q.id = some b ∧ b.documentPosition = charsBefore (paras ps)) :
    Placed s (ps ++ [q]) := by
  refine h.then ?_
  intro X y Y e
  obtain ⟨rfl, rfl, rfl⟩ : X = [] ∧ y = q ∧ Y = [] := by
    cases X with
    | nil => simp at e; exact ⟨rfl, e.1.symm, e.2⟩
    | cons z X => simp at e
  obtain ⟨b, b1, b2⟩ := hq
  exact ⟨b, b1, by rw [b2]; simp⟩

/-- The paragraph with the caret. -/
theorem Laid.mixHead {order : List SItem} (h : Laid s d f ((P ++ [p]).map SItem.para) order) (hl : ListsOk s d (P ++ [p])) (hpl : Placed s (P ++ [p]))
    (o : Option FragBlock) {runs : List (Run CharFormat)} {cs : List SChar} (hst : StyledOk runs cs) :
    ∃ s0 d1 shape st1, s.mixHead (pasteAt s d f fr P p [] a b) o = some s0 ∧
      ropeHeadText (s0.writeState p.id runs []).text p.id (cs.map Prod.fst) = some (st1, some st1.idx.total) ∧
      blockCharLength st1 p.id = some cs.length ∧ d1 = { d with lists := d1.lists } ∧
      Laid ((s0.writeState p.id runs []).withText st1) d1 f ((P ++ [(⟨p.id, cs, shape⟩ : SPara)]).map SItem.para) order ∧
      ListsOk ((s0.writeState p.id runs []).withText st1) d1 (P ++ [(⟨p.id, cs, shape⟩ : SPara)]) ∧
      Placed ((s0.writeState p.id runs []).withText st1) (P ++ [(⟨p.id, cs, shape⟩ : SPara)]) ∧
      (∀ i ∈ d.lists, i ∈ d1.lists) ∧ (o = none → shape = p.shape) ∧
      (∀ fb, o = some fb → cs = fb.chars → PastedOne ((s0.writeState p.id runs []).withText st1) fb ⟨p.id, cs, shape⟩) := by
  have hC := h.text_paras
  have hnd : ((P ++ [p]).map SPara.id).Nodup := hC.keys.nodup_iff.mp s.blocks.nodup
  have hne : ∀ q ∈ P, q.id ≠ p.id := by
    intro q hq
    rw [List.map_append, List.nodup_append] at hnd
    exact hnd.2.2 _ (List.mem_map_of_mem hq) _ (by simp)
  have hcur : (pasteAt s d f fr P p [] a b).cur = p.entity (charsBefore (paras P)) := rfl
  cases o with
  | none =>
    obtain ⟨blk, b1, b2⟩ := hC.block p (by simp)
    have e0 : s.updateBlock (p.entity (charsBefore (paras P))) = s.putBlock (p.entity (charsBefore (paras P))) := by
      have h1' : s.blocks (p.entity (charsBefore (paras P))).id = some blk := b1
      unfold Store.updateBlock Store.putBlock
      rw [h1']
      have : keepBlock (p.entity (charsBefore (paras P))) (some blk) = p.entity (charsBefore (paras P)) := by
        rw [b2]; rfl
      rw [this]
    obtain ⟨st1, t1, t2, t3⟩ := h.set (blk := p.entity (charsBefore (paras P))) (shape := p.shape) (cs := cs) rfl hst
    refine ⟨_, d, p.shape, st1, rfl, ?_, t2, rfl, ?_, ?_, ?_, fun _ h => h, fun _ => rfl, by simp⟩
    · rw [hcur, e0]; exact t1
    · rw [hcur, e0]; exact t3
    · refine ⟨hl.known, hl.only, ?_, hl.nodup, hl.fresh⟩
      intro q hq
      rcases List.mem_append.mp hq with hq | hq
      · exact hl.items q (by simp [hq])
      · rw [List.mem_singleton.mp hq]; exact hl.items p (by simp)
    · rw [hcur, e0]
      refine (hpl.left.keep ?_).one ?_
      · intro q hq
        have := hne q hq
        simp [Store.writeState, Store.putBlock, Store.withText, SPara.entity, this]
      · exact ⟨p.entity (charsBefore (paras P)), by simp [Store.writeState, Store.putBlock, Store.withText, SPara.entity], rfl⟩
  | some fb =>
    obtain ⟨s0, l, ls, e1, r1, l1, like1, in1⟩ := newList_new h.document hl fb.list
    have h1 := h.relist r1
    obtain ⟨st1, t1, t2, t3⟩ := h1.set (blk := { fb.format with id := p.id, list := l, documentPosition := charsBefore (paras P) })
      (shape := { fb.format with id := 0, documentPosition := 0, list := l }) (cs := cs) rfl hst
    refine ⟨s0.putBlock { fb.format with id := p.id, list := l, documentPosition := charsBefore (paras P) }, { d with lists := ls },
      { fb.format with id := 0, documentPosition := 0, list := l }, st1, ?_, t1, t2, rfl, t3, ?_, ?_, ?_, by simp, ?_⟩
    · have e1' : s.newList (pasteAt s d f fr P p [] a b).did fb.list = _ := e1
      simp only [Store.mixHead, e1']; rfl
    · refine ⟨l1.known, l1.only, ?_, l1.nodup, l1.fresh⟩
      intro q hq
      rcases List.mem_append.mp hq with hq | hq
      · exact l1.items q (by simp [hq])
      · rw [List.mem_singleton.mp hq]; exact in1
    · refine (hpl.left.keep ?_).one ?_
      · intro q hq
        have := hne q hq
        simp [Store.writeState, Store.putBlock, Store.withText, this, r1.blocks]
      · exact ⟨{ fb.format with id := p.id, list := l, documentPosition := charsBefore (paras P) },
          by simp [Store.writeState, Store.putBlock, Store.withText], rfl⟩
    · intro i hi
      obtain ⟨e, y1, _⟩ := hl.known i hi
      exact l1.only i (by rw [r1.mono i e y1]; rfl)
    · intro fb' e hcs
      cases e
      exact ⟨hcs, rfl, like1⟩

/-- The rest of the paragraph. -/
theorem Laid.mixTail {items order : List SItem} {m : MixAt} {c : PasteAt} {p0 : SPara} {q0 : Int} {cs : List SChar} {tl : ParaState}
    (h : Laid s d f items order) (hl : ListsOk s d (flowParas items))
    (hpl : Placed s (flowParas items)) (hnext : m.next = some s.text.idx.total) (hrun : m.running = charsBefore (paras (flowParas items)))
    (hcf : c.fid = f) (hcur : c.cur = p0.entity q0) (hcl : ∀ l, p0.shape.list = some l → l ∈ d.lists) (plain : Bool)
    (h1 : StyledOk tl.runs cs) (h2 : tl.imgs = []) (h3 : tl.text = cs.map Prod.fst) :
    ∃ s' q, s.mixTail c plain m (some tl) = some (s', [(q.id : Int)]) ∧ q.chars = cs ∧ (q.shape = if plain then {} else p0.shape) ∧
      Laid s' d f (items ++ [.para q]) order ∧ ListsOk s' d (flowParas items ++ [q]) ∧ Placed s' (flowParas items ++ [q]) ∧
      s'.lists = s.lists := by
  have hid : (tailBlock c plain m.running).id = 0 := by unfold tailBlock; split <;> rfl
  have hpos : (tailBlock c plain m.running).documentPosition = m.running := by unfold tailBlock; split <;> rfl
  have hsh : ∀ n, IsBlock ⟨n, cs, if plain then {} else p0.shape⟩ { tailBlock c plain m.running with id := n } := by
    intro n
    unfold tailBlock
    cases plain
    · simp only [hcur]; rfl
    · rfl
  obtain ⟨s2, st, c1, c2, c3, c4, c5, c6, c7, c8⟩ := h.addPara hid h1 _ hsh
  refine ⟨_, ⟨s.next "block", cs, if plain then {} else p0.shape⟩, ?_, rfl, rfl, c3, ?_, ?_, c6⟩
  · unfold Store.mixTail
    dsimp only
    rw [hcf, c1, Option.bind_some]
    dsimp only
    rw [hnext, h2, h3]
    dsimp only
    rw [c2]; rfl
  · exact hl.more c6 c7 rfl (by
      intro q hq
      rw [List.mem_singleton.mp hq]
      cases plain
      · exact hcl
      · intro i hi
        simp at hi)
  · refine (hpl.keep ?_).one ?_
    · intro q hq
      obtain ⟨L, hL, _⟩ := h.content
      have := hL.fresh q hq
      rw [c5, if_neg (by omega)]
    · exact ⟨_, (c5 _).trans (if_pos rfl), by show (tailBlock c plain m.running).documentPosition = _; rw [hpos, hrun]⟩

/-- The new entries enter the order of the frame. -/
theorem Laid.place {order A A' B : List SItem} (h : Laid s d f (A' ++ B) order) {c : PasteAt} (h1 : c.frame = fr) (h2 : fr.id = f)
    (h3 : fr.fmtIsBlockquote = none) (h4 : fr.childOrder = A.map SItem.entry) (h5 : c.index + 1 = A.length)
    (h6 : A'.map SItem.entry = A.map SItem.entry) : Arranged (s.placeEntries c (B.map SItem.entry)) d f (A' ++ B) := by
  obtain ⟨fr4, g1, g2, g3, g4, g5, g6, g7⟩ := h.main
  have hco : fr.childOrder.take (min (c.index + 1) fr.childOrder.length) ++ B.map SItem.entry ++
      fr.childOrder.drop (min (c.index + 1) fr.childOrder.length) = (A' ++ B).map SItem.entry := by
    have : min (c.index + 1) fr.childOrder.length = fr.childOrder.length := by rw [h5, h4]; simp
    rw [this, List.take_length, List.drop_length, List.append_nil, List.map_append, h6, h4]
  have hfr : ∀ g, (s.placeEntries c (B.map SItem.entry)).frames g = if g = f then
      some { fr with childOrder := (A' ++ B).map SItem.entry, parentFrame := fr4.parentFrame, blocks := fr4.blocks, table := fr4.table }
      else s.frames g := by
    intro g
    unfold Store.placeEntries
    rw [h1]
    dsimp only
    rw [hco]
    simp only [Store.updateFrame, IdMap.insert_get, h2, g1]
    split
    · simp [Store.keepFrame]
    · rfl
  have r := ordered_rest s f ((A' ++ B).map SItem.entry)
  obtain ⟨L, l1, l2⟩ := h.content
  refine h.arranged.change r.1.symm h.document rfl rfl rfl ⟨L, l1.of_same rfl rfl rfl rfl rfl, l2⟩
    ⟨_, (hfr f).trans (if_pos rfl), h2, g3, g4, h3, rfl, g7⟩ ?_ r.2.2.1.symm r.2.2.2.1.symm (by rw [ordered_next]; rfl) (by rw [ordered_next]; rfl)
    (by rw [ordered_next]; rfl) rfl h.arranged.positive h.arranged.nonempty
  intro g hg
  rw [hfr, if_neg hg, h.other hg]

/-- What the paragraph with the caret gets. -/
theorem mix_head {left : ParaState} {items : List MixItem} (h1 : StyledOk left.runs a) (h2 : left.imgs = [])
    (h3 : left.text = a.map Prod.fst) (htx : ∀ fb, MixItem.para fb ∈ items → fb.IsText) {mf over : Bool} {first : Option FragBlock} {head : ParaState}
    (hmf : (items.head?.map MixItem.inline).getD false = mf) (hfi : items.head?.bind MixItem.block? = first)
    (hov : (decide (a = []) && !mf && first.isSome) = over)
    (hhd : mixHeadState left mf over first = head) :
    ∃ E : List SChar, StyledOk head.runs (a ++ E) ∧ head.imgs = [] ∧ head.text = (a ++ E).map Prod.fst ∧
      (((mf || over) = true ∧ ∃ fb rest, items = .para fb :: rest ∧ E = fb.chars ∧ first = some fb ∧
          ((over = false ∧ fb.inlineOnly = true) ∨ (over = true ∧ fb.inlineOnly = false ∧ a = []))) ∨
        ((mf || over) = false ∧ over = false ∧ E = [] ∧ ∀ fb rest, items = .para fb :: rest → fb.inlineOnly = false ∧ a ≠ [])) := by
  cases items with
  | nil =>
    simp only [List.head?_nil, Option.bind_none, Option.map_none, Option.getD_none] at hfi hmf
    subst hfi hmf
    simp only [Option.isSome_none, Bool.and_false] at hov
    subst hov hhd
    exact ⟨[], by simpa [mixHeadState] using h1, h2, by simpa [mixHeadState] using h3, .inr ⟨rfl, rfl, rfl, by simp⟩⟩
  | cons x rest =>
    cases x with
    | table t =>
      simp only [List.head?_cons, Option.bind_some, MixItem.block?, Option.map_some, MixItem.inline, Option.getD_some] at hfi hmf
      subst hfi hmf
      simp only [Option.isSome_none, Bool.and_false] at hov
      subst hov hhd
      exact ⟨[], by simpa [mixHeadState] using h1, h2, by simpa [mixHeadState] using h3, .inr ⟨rfl, rfl, rfl, by simp⟩⟩
    | para fb =>
      simp only [List.head?_cons, Option.bind_some, MixItem.block?, Option.map_some, MixItem.inline, Option.getD_some] at hfi hmf
      subst hfi hmf
      simp only [Option.isSome_some, Bool.and_true] at hov
      have ho : over = true → a = [] := by rw [← hov]; simp +contextual
      obtain ⟨k1, k2, k3⟩ := headState_styled h1 h2 h3 (htx fb (by simp)) fb.inlineOnly over ho
      simp only [mixHeadState] at hhd
      rw [hhd] at k1 k2 k3
      refine ⟨_, k1, k2, k3, ?_⟩
      cases hi : fb.inlineOnly with
      | true =>
        rw [hi] at hov
        simp only [Bool.not_true, Bool.and_false] at hov
        subst hov
        exact .inl ⟨rfl, fb, rest, rfl, by simp, rfl, .inl ⟨rfl, hi⟩⟩
      | false =>
        rw [hi] at hov
        simp only [Bool.not_false, Bool.and_true] at hov
        by_cases ha : a = []
        · simp only [ha, decide_true] at hov
          subst hov
          exact .inl ⟨rfl, fb, rest, rfl, by simp, rfl, .inr ⟨rfl, hi, ha⟩⟩
        · simp only [ha, decide_false] at hov
          subst hov
          refine .inr ⟨rfl, rfl, by simp, ?_⟩
          intro fb' rest' e
          cases e
          exact ⟨hi, ha⟩

theorem mixJoins_eq (items : List MixItem) : (decide (2 ≤ (fragParas items).length) && (items.getLast?.map MixItem.inline).getD false) =
    mixJoins items := by
  unfold mixJoins
  cases items.getLast? with
  | none => rfl
  | some x => cases x <;> rfl

theorem enters_eq {items : List MixItem} {x : Bool}
    (h : (x = true ∧ ∃ fb rest, items = .para fb :: rest ∧ (fb.inlineOnly = true ∨ a = [])) ∨
      (x = false ∧ ∀ fb rest, items = .para fb :: rest → fb.inlineOnly = false ∧ a ≠ [])) : x = mixEnters a items := by
  rcases h with ⟨rfl, fb, rest, rfl, h⟩ | ⟨rfl, h⟩
  · rcases h with h | h <;> simp [mixEnters, h]
  · cases items with
    | nil => rfl
    | cons y l =>
      cases y with
      | table t => rfl
      | para fb =>
        obtain ⟨h1, h2⟩ := h fb l rfl
        cases a with
        | nil => exact absurd rfl h2
        | cons c a => simp [mixEnters, h1]

/-- The paste. -/
theorem Tabled.pasteMixed {items : List MixItem} {last : FragBlock} (h : Tabled s d f ((P ++ [p]).map SItem.para)) (hpl : Placed s (P ++ [p]))
    (hl : ListsOk s d (P ++ [p])) (hf : s.frames f = some fr) (hc : p.chars = a ++ b)
    (htx : ∀ fb, MixItem.para fb ∈ items → fb.IsText)
    (htb : ∀ t, MixItem.table t ∈ items → t.void = false ∧ (∀ c ∈ t.cells, c.Simple) ∧ t.InOrder)
    (hgap : ∀ A fb t B, items = A ++ .para fb :: .table t :: B → fb.text ≠ [])
    (hlast : (fragParas items).getLast? = some last) :
    ∃ s' d' hd new tl, s.pasteMixed (pasteAt s d f fr P p [] a b) items (fragParas items).length last =
        some (s', ⟨charsBefore (paras (flowParas (P.map SItem.para ++ .para hd :: (new ++ tl.map SItem.para)))) - (b.length + 1),
          (flowParas new).length + tl.length⟩) ∧
      Tabled s' d' f (P.map SItem.para ++ .para hd :: (new ++ tl.map SItem.para)) ∧
      Placed s' (flowParas (P.map SItem.para ++ .para hd :: (new ++ tl.map SItem.para))) ∧
      ListsOk s' d' (flowParas (P.map SItem.para ++ .para hd :: (new ++ tl.map SItem.para))) ∧
      MixPasted s' p a b items hd new tl ∧
      d' = { d with
        frames := d'.frames
        tables := d'.tables
        lists := d'.lists
        blockCount := d.blockCount + ((flowParas new).length + tl.length)
        characterCount := d.characterCount + (charTotal (flowParas (P.map SItem.para ++ .para hd :: (new ++ tl.map SItem.para))) : Int) -
          charTotal (P ++ [p]) - (if mixEnters a items then b.length else 0) } := by
  have hL := h.arranged.laid
  have hlastx : last.IsText := htx last (mem_fragParas.mp (List.mem_of_getLast? hlast))
  have hC := hL.text_paras
  have hst0 : StyledOk ((s.formatRuns p.id).getD []) (a ++ b) := hc ▸ hC.formats p (by simp)
  obtain ⟨r1, r2, r3⟩ := pasteAt_right (d := d) (f := f) (fr := fr) (L := P) (R := []) hst0
  obtain ⟨l1, l2, l3⟩ := pasteAt_left (d := d) (f := f) (fr := fr) (L := P) (R := []) hst0
  unfold Store.pasteMixed
  dsimp only
  rw [mixJoins_eq]
  have hbe : decide ((pasteAt s d f fr P p [] a b).before = []) = decide (a = []) := by simp [pasteAt]
  rw [hbe]
  generalize hmf : (items.head?.map MixItem.inline).getD false = mf
  generalize hfi : items.head?.bind MixItem.block? = first
  generalize hov : (decide (a = []) && !mf && first.isSome) = over
  generalize hhd : mixHeadState (pasteAt s d f fr P p [] a b).left mf over first = head
  obtain ⟨E, k1, k2, k3, key⟩ := mix_head l1 l2 l3 htx hmf hfi hov hhd
  obtain ⟨s0, d1, shape, st1, e1, e2, e3, hd1, L1, ls1, pl1, in1, sh1, po1⟩ := hL.mixHead (fr := fr) (a := a) (b := b) hl hpl
    (if over = true then first else none) k1
  rw [e1, Option.bind_some]
  have hcid : (pasteAt s d f fr P p [] a b).cur.id = p.id := rfl
  have hcpos : (pasteAt s d f fr P p [] a b).cur.documentPosition = charsBefore (paras P) := rfl
  have hcd : (pasteAt s d f fr P p [] a b).did = d1.id := by rw [hd1]; rfl
  have hcf : (pasteAt s d f fr P p [] a b).fid = f := rfl
  have hclen : (pasteAt s d f fr P p [] a b).len = a.length + b.length := by simp [PasteAt.len, pasteAt]
  rw [hcid, k2, k3, e2, Option.bind_some]
  dsimp only
  generalize hs1 : (s0.writeState p.id head.runs []).withText st1 = s1 at *
  have hs1t : s1.text = st1 := by rw [← hs1]; rfl
  rw [hs1t, e3, Option.bind_some]
  generalize hrest : (if (mf || over) = true then items.tail else items) = rest
  have hr : rest = items ∨ ∃ fb, items = .para fb :: rest := by
    rcases key with ⟨y1, fb, r, rfl, _⟩ | ⟨y1, _⟩
    · rw [if_pos y1] at hrest
      exact .inr ⟨fb, by rw [← hrest]; rfl⟩
    · rw [y1] at hrest
      exact .inl (by rw [← hrest]; rfl)
  have hent : (mf || over) = mixEnters a items := by
    apply enters_eq
    rcases key with ⟨y1, fb, r, y2, _, _, y3⟩ | ⟨y1, _, _, y2⟩
    · refine .inl ⟨y1, fb, r, y2, ?_⟩
      rcases y3 with y3 | y3
      · exact .inl y3.2
      · exact .inr y3.2.2
    · exact .inr ⟨y1, y2⟩
  have hmix : ∀ s', (∀ i e, s1.lists i = some e → s'.lists i = some e) →
      MixHead s' p a items ⟨p.id, a ++ E, shape⟩ rest (if over then {} else p.shape) := by
    intro s' hmo
    rcases key with ⟨y1, fb, r, rfl, y2, y3, y4⟩ | ⟨y1, y2, y3, y4⟩
    · rw [if_pos y1] at hrest
      have hrest' : r = rest := hrest
      subst hrest'
      rcases y4 with ⟨y4, y5⟩ | ⟨y4, y5, y6⟩
      · subst y4
        have := sh1 (by simp)
        subst this
        exact .joined fb _ _ y5 (by rw [y2])
      · subst y4
        exact .taken fb _ _ y5 y6 rfl ((po1 fb (by simp [y3]) (by rw [y6, y2]; rfl)).mono hmo)
    · rw [y1] at hrest
      have hrest' : items = rest := hrest
      subst hrest' y2
      have := sh1 (by simp)
      subst this
      exact .ended _ _ y4 (by rw [y3]; simp)
  have hj : mixJoins items = true → ∃ mids, rest = mids ++ [.para last] ∧ last.inlineOnly = true := by
    intro hj
    rw [← mixJoins_eq, Bool.and_eq_true, decide_eq_true_eq] at hj
    exact mix_last hr hj.1 hj.2 hlast
  generalize hjj : mixJoins items = joins at *
  generalize hm : (if joins = true then rest.dropLast else rest) = mids
  have hmids : (joins = true → rest = mids ++ [.para last]) ∧ (joins = false → rest = mids) := by
    constructor
    · intro e
      obtain ⟨m, h1, _⟩ := hj e
      rw [if_pos e, h1, List.dropLast_concat] at hm
      rw [h1, hm]
    · intro e
      rw [e] at hm; exact hm
  have hsub : ∃ X Y, items = X ++ mids ++ Y := by
    have h1 : ∃ Y, rest = mids ++ Y := by
      cases joins with
      | true => exact ⟨_, hmids.1 rfl⟩
      | false => exact ⟨[], by simpa using hmids.2 rfl⟩
    obtain ⟨Y, h1⟩ := h1
    rcases hr with h2 | ⟨fb, h2⟩
    · exact ⟨[], Y, by rw [← h2, h1]; rfl⟩
    · exact ⟨[.para fb], Y, by rw [h2, h1]; simp⟩
  obtain ⟨X, Y, hXY⟩ := hsub
  generalize hhp : (⟨p.id, a ++ E, shape⟩ : SPara) = hd at *
  have hdid : hd.id = p.id := by rw [← hhp]
  have hdch : hd.chars = a ++ E := by rw [← hhp]
  obtain ⟨s2, d2, new, order2, m2, f1, hd2, L2, ls2, nx2, rn2, pl2, it2, mo2, ml2, cn2, ct2⟩ := Laid.mixLoop (cur := p.id) (f := f) mids
    (fun fb hfb => htx fb (by rw [hXY]; simp [hfb])) (fun t ht => htb t (by rw [hXY]; simp [ht]))
    (fun A fb t B e => hgap (X ++ A) fb t (B ++ Y) (by rw [hXY, e]; simp)) L1 (by rw [flowParas_map]; exact ls1)
    (m := ⟨if over = true then [] else s1.primedGrouper (pasteAt s d f fr P p [] a b).cur,
      ((pasteAt s d f fr P p [] a b).cur.documentPosition + ((a ++ E).length : Nat) + 1 : Int), some st1.idx.total, p.id,
      !decide ((a ++ E).map Prod.fst = [])⟩) (p := hd)
    (by
      cases over with
      | true => exact .nil _
      | false => exact primedGrouper_ok _ _) (by rw [hs1t]) (by rw [topParas_map]; simp) hdid.symm
    (by show _ = !decide (hd.chars.map Prod.fst = []); rw [hdch]) (.inl hdid)
    (by
      rw [flowParas_map, charsBefore_paras_append, hdch]
      show (charsBefore (paras P) : Int) + _ + 1 = _
      push_cast; omega) (by rw [flowParas_map]; exact pl1)
  rw [hcd, hcf, f1, Option.bind_some]
  dsimp only
  -- the rest of the paragraph
  obtain ⟨y1, y2, y3⟩ := tailState_styled r1 r2 r3 hlastx joins
  have hskip : (decide ((tailState (pasteAt s d f fr P p [] a b).right joins last).text = []) && !joins &&
      decide ((pasteAt s d f fr P p [] a b).right.imgs = [])) = (!joins && decide (b = [])) := by
    rw [y3, r2]
    cases joins with
    | true => simp
    | false => simp
  rw [hskip]
  have htlen : (tailState (pasteAt s d f fr P p [] a b).right joins last).len = ((if joins then last.chars else []) ++ b).length := by
    unfold ParaState.len; rw [y2, y3]; simp
  rw [htlen]
  generalize htail : tailState (pasteAt s d f fr P p [] a b).right joins last = tail at *
  have hdl : ∀ l, p.shape.list = some l → l ∈ d2.lists := fun l hl' => ml2 l (in1 l (hl.items p (by simp) l hl'))
  have hT : ∃ s3 tl, s2.mixTail (pasteAt s d f fr P p [] a b) over m2 (if (!joins && decide (b = [])) = true then none else some tail) =
        some (s3, (tl.map SItem.para).map SItem.entry) ∧
      Laid s3 d2 f ((P ++ [hd]).map SItem.para ++ (new ++ tl.map SItem.para)) order2 ∧
      ListsOk s3 d2 (flowParas ((P ++ [hd]).map SItem.para ++ new) ++ tl) ∧
      Placed s3 (flowParas ((P ++ [hd]).map SItem.para ++ new) ++ tl) ∧ s3.lists = s2.lists ∧
      MixTail (if over then {} else p.shape) b joins rest mids tl ∧ tl.length = (if (!joins && decide (b = [])) = true then 0 else 1) ∧
      charsBefore (paras tl) = (if (!joins && decide (b = [])) = true then 0 else ((if joins then last.chars else []) ++ b).length + 1) ∧
      charTotal tl = ((if joins then last.chars else []) ++ b).length := by
    by_cases hsk : (!joins && decide (b = [])) = true
    · rw [if_pos hsk]
      simp only [Bool.and_eq_true, Bool.not_eq_true', decide_eq_true_eq] at hsk
      obtain ⟨rfl, rfl⟩ := hsk
      refine ⟨s2, [], rfl, by simpa using L2, by simpa using ls2, by simpa using pl2, rfl, ?_, rfl, rfl, rfl⟩
      rw [hmids.2 rfl]
      exact .none _ rfl
    · rw [if_neg hsk]
      obtain ⟨s3, q, z1, z2, z3, z4, z5, z6, z7⟩ := L2.mixTail (c := pasteAt s d f fr P p [] a b) ls2 pl2 nx2 rn2 rfl rfl hdl over y1 y2 y3
      refine ⟨s3, [q], z1, by simpa using z4, z5, z6, z7, ?_, ?_, ?_, ?_⟩
      · cases joins with
        | true =>
          rw [hmids.1 rfl]
          exact .joined last _ q (by rw [z2]; rfl) z3
        | false =>
          rw [hmids.2 rfl]
          exact .alone _ q (by simpa using hsk) (by rw [z2]; rfl) z3
      · rw [if_neg hsk]; rfl
      · rw [if_neg hsk, ← z2]; simp [paras, charsBefore, SPara.text_length]
      · rw [← z2]; simp [charTotal]
  obtain ⟨s3, tl, t1, L3, ls3, pl3, lt3, mt3, tn3, tc3, tt3⟩ := hT
  rw [t1, Option.map_some]
  dsimp only
  rw [← List.map_append]
  -- the order of the frame, the positions and the counts
  obtain ⟨fr', g1, g2, g3, g4, g5, g6, g7⟩ := h.frame
  rw [hf, Option.some.injEq] at g1
  subst g1
  have ha := L3.place (c := pasteAt s d f fr P p [] a b) (A := (P ++ [p]).map SItem.para) (fr := fr) rfl g2 g5 g6 (by simp [pasteAt])
    (by simp [SItem.entry, hdid])
  have hsh : ∀ (x : Store) (k : Int), x.shiftStored ((pasteAt s d f fr P p [] a b).blocks.drop ((pasteAt s d f fr P p [] a b).index + 1)) k = x := by
    intro x k
    have : (pasteAt s d f fr P p [] a b).blocks.drop ((pasteAt s d f fr P p [] a b).index + 1) = [] := pasteAt_rest P [] p
    rw [this]; rfl
  rw [hsh]
  have hfin : (P ++ [hd]).map SItem.para ++ (new ++ tl.map SItem.para) = P.map SItem.para ++ .para hd :: (new ++ tl.map SItem.para) := by simp
  have hfl : flowParas (P.map SItem.para ++ .para hd :: (new ++ tl.map SItem.para)) = flowParas ((P ++ [hd]).map SItem.para ++ new) ++ tl := by
    rw [← hfin, ← List.append_assoc, flowParas_append, flowParas_map]
  rw [hfin] at ha
  rw [← hfl] at ls3 pl3
  have hct : charTotal (flowParas (P.map SItem.para ++ .para hd :: (new ++ tl.map SItem.para))) = charTotal P + (a.length + E.length) +
      charTotal (flowParas new) + (((if joins then last.chars else []) : List SChar).length + b.length) := by
    rw [hfl, charTotal_append, tt3, flowParas_append, flowParas_map, charTotal_append, charTotal_append, List.length_append]
    have : charTotal [hd] = a.length + E.length := by simp [charTotal, hdch]
    rw [this]
  have hct0 : charTotal (P ++ [p]) = charTotal P + (a.length + b.length) := by
    rw [charTotal_append]
    have : charTotal [p] = a.length + b.length := by simp [charTotal, hc]
    rw [this]
  have hcb : charsBefore (paras (flowParas (P.map SItem.para ++ .para hd :: (new ++ tl.map SItem.para)))) =
      charsBefore (paras (flowParas ((P ++ [hd]).map SItem.para ++ new))) + charsBefore (paras tl) := by
    rw [hfl, charsBefore_paras_two]
  have hEn : mixEnters a items = false → E = [] := by
    intro e
    rw [← hent] at e
    rcases key with ⟨y, _⟩ | ⟨_, _, y, _⟩
    · rw [y] at e; cases e
    · exact y
  rw [hent, hclen, ← cn2, ← ct2]
  have hll : last.text.length = last.chars.length := by rw [hlastx.text]; simp
  rw [hll]
  have hd2' : d2 = { d with frames := d2.frames, tables := d2.tables, lists := d2.lists } := by rw [hd2, hd1]
  have hres : ∀ (D : Document), D.id = d.id → D.resources = d.resources → ∃ s5,
      (s3.placeEntries (pasteAt s d f fr P p [] a b) ((new ++ tl.map SItem.para).map SItem.entry)).updateDocument D = s5 ∧
      Tabled s5 { D with frames := d2.frames, tables := d2.tables, lists := d2.lists } f
        (P.map SItem.para ++ .para hd :: (new ++ tl.map SItem.para)) ∧
      Placed s5 (flowParas (P.map SItem.para ++ .para hd :: (new ++ tl.map SItem.para))) ∧
      ListsOk s5 { D with frames := d2.frames, tables := d2.tables, lists := d2.lists }
        (flowParas (P.map SItem.para ++ .para hd :: (new ++ tl.map SItem.para))) ∧ s5.lists = s3.lists := by
    intro D hD hR
    refine ⟨_, rfl, ?_, ?_, ?_, rfl⟩
    · have hp5 : Placed ((s3.placeEntries (pasteAt s d f fr P p [] a b) ((new ++ tl.map SItem.para).map SItem.entry)).updateDocument D)
        (flowParas (P.map SItem.para ++ .para hd :: (new ++ tl.map SItem.para))) := pl3
      refine Arranged.tabled ?_ (fun _ => seated_of_placed hp5)
      have hid2 : D.id = d2.id := by rw [hd2', hD]
      refine ha.change rfl ?_ hid2 rfl rfl ?_ ha.frame (fun _ _ => rfl) rfl rfl rfl rfl rfl rfl ha.positive ha.nonempty
      · have hst : (s3.placeEntries (pasteAt s d f fr P p [] a b) ((new ++ tl.map SItem.para).map SItem.entry)).documents d2.id = some d2 :=
          ha.document
        show (IdMap.insert _ _ _) d2.id = _
        rw [IdMap.insert_get, if_pos hid2.symm, hid2, hst]
        have hR2 : d2.resources = d.resources := by rw [hd2']
        show some ({ D with frames := d2.frames, lists := d2.lists, resources := d2.resources, tables := d2.tables } : Document) = _
        rw [hR2, ← hR, hid2]
      · obtain ⟨L, c1, c2⟩ := ha.content
        exact ⟨L, c1.of_same rfl rfl rfl rfl rfl, c2⟩
    · exact pl3
    · exact ⟨ls3.known, ls3.only, ls3.items, ls3.nodup, ls3.fresh⟩
  obtain ⟨s5, v1, v2, v3, v4, v5⟩ := hres { d with
      blockCount := d.blockCount + ((flowParas new).length + tl.length)
      characterCount := d.characterCount + (charTotal (flowParas (P.map SItem.para ++ .para hd :: (new ++ tl.map SItem.para))) : Int) -
          charTotal (P ++ [p]) - (if mixEnters a items then b.length else 0) } rfl rfl
  refine ⟨s5, _, hd, new, tl, ?_, v2, v3, v4, ⟨rest, _, mids, hmix s5 ?_, ?_, ?_⟩, rfl⟩
  · refine congrArg some (Prod.ext ?_ ?_)
    · rw [← v1]
      dsimp only
      have c1 : (if mixEnters a items = true then ((a ++ E).length : Int) - ((a.length + b.length : Nat) : Int) else 0) +
          (charTotal (flowParas new) : Int) + (if joins = true then (last.chars.length : Int) else 0) =
          (charTotal (flowParas (P.map SItem.para ++ .para hd :: (new ++ tl.map SItem.para))) : Int) -
          charTotal (P ++ [p]) - ((if mixEnters a items then b.length else 0 : Nat) : Int) := by
        rw [hct, hct0, List.length_append]
        cases he : mixEnters a items with
        | true => cases joins <;> simp <;> omega
        | false =>
          rw [hEn he]
          cases joins <;> simp <;> omega
      have c2 : ((flowParas new).length : Int) + (if (!joins && decide (b = [])) = true then 0 else 1) = (flowParas new).length + tl.length := by
        rw [tn3]
        split <;> rfl
      rw [c1, c2]
      congr 1
      show ({ d with characterCount := _, blockCount := _ } : Document) = _
      congr 1
      show d.characterCount + _ = _
      omega
    · have hb0 : (!joins && decide (b = [])) = true → b.length = 0 := by
        simp only [Bool.and_eq_true, Bool.not_eq_true', decide_eq_true_eq]
        rintro ⟨_, rfl⟩; rfl
      dsimp only
      have c2 : ((flowParas new).length : Int) + (if (!joins && decide (b = [])) = true then 0 else 1) = (flowParas new).length + tl.length := by
        rw [tn3]
        split <;> rfl
      rw [c2, hcb, rn2, tc3]
      congr 1
      split
      · rename_i e
        have := hb0 e
        push_cast; omega
      · cases joins with
        | true => simp; omega
        | false => simp
  · intro i e hi
    rw [v5, lt3]; exact mo2 i e hi
  · rw [hjj]; exact mt3
  · exact it2.mono (ItemLike.mono (by intro i e hi; rw [v5, lt3]; exact hi))

theorem Flat.insertMixed_eq {L R : List SPara} (h : Flat s d f (L ++ p :: R)) (hp : Placed s (L ++ p :: R))
    (hf : s.frames f = some fr) (hc : p.chars = a ++ b) {fbs : List FragBlock} {ts : List FragTable} {last : FragBlock}
    (hts : ts ≠ []) (hlast : fbs.getLast? = some last) :
    s.insertMixed ((charsBefore (paras L) + a.length : Nat) : Int) ((charsBefore (paras L) + a.length : Nat) : Int) fbs ts =
      (s.pasteMixed (pasteAt s d f fr L p R a b) (mixItems fbs ts) fbs.length last).map fun (s', r) => (s', r, s.snapshot) := by
  have hpm : p ∈ L ++ p :: R := by simp
  unfold Store.insertMixed
  cases ts with
  | nil => exact absurd rfl hts
  | cons t ts =>
  rw [hlast]
  dsimp only
  rw [h.docId, Option.bind_some, h.document, Option.bind_some]
  rw [if_neg (by simp), h.docFrames, List.head?_cons, Option.bind_some, h.blocksBelow, Option.bind_some, h.flowIds,
    Option.bind_some, h.blocks_placed hp]
  have hfi := placed_find 0 L R p h.ids_nodup
  have hfind := h.toShows.findIn hc (placed_entities 0 (L ++ p :: R)) hfi
  rw [hfind, Option.bind_some]
  dsimp only
  have hid : (p.entity (charsBefore (paras L))).id = p.id := rfl
  rw [hid]
  have hfid : ((((L ++ p :: R).map fun p => (p.id, f)).reverse.find? fun e => e.1 == p.id).map Prod.snd).getD f = f := by
    cases hx : ((L ++ p :: R).map fun p => (p.id, f)).reverse.find? fun e => e.1 == p.id with
    | none => rfl
    | some x =>
      have := List.mem_of_find?_eq_some hx
      rw [List.mem_reverse, List.mem_map] at this
      obtain ⟨q, _, rfl⟩ := this
      rfl
  rw [hfid, hf, Option.bind_some, h.content hpm, Option.bind_some, h.offset hpm, text_take hc]
  have htxt : p.text = a.map Prod.fst ++ b.map Prod.fst := by simp [SPara.text, hc]
  rw [htxt, splitAtByte_append, Option.bind_some]
  dsimp only
  have himg : s.imagesOf p.id = [] := h.images p hpm
  rw [himg]
  rfl

end Verif
