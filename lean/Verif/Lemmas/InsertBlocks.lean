import Verif.Lemmas.InsertMarkup
/- The branches of an insertion of Markdown or HTML that make blocks. -/
namespace Verif
variable {s : Store} {d : Document} {f : Nat} {ps L R : List SPara} {p : SPara} {st : RopeSt} {fr : Frame} {a b : List SChar}
open Store

theorem IdMap.ext_keys {α : Type} {m n : IdMap α} (h1 : m.keys = n.keys) (h2 : ∀ i, m i = n i) : m = n := by
  cases m; cases n
  simp only at h1 h2
  have := funext h2
  subst h1; subst this; rfl

theorem putBlock_same {x : Block} (h : s.blocks x.id = some x) : s.putBlock x = s := by
  unfold Store.putBlock
  have : s.blocks.insert x.id x = s.blocks := by
    apply IdMap.ext_keys
    · simp [IdMap.insert, h]
    · intro i
      rw [IdMap.insert_get]
      split
      · rename_i e; rw [e, h]
      · rfl
  rw [this]

theorem span_one {R : List SPara} (h : NotOneEmpty R) : span (paras R) ≠ 1 := by
  cases R with
  | nil => simp [paras, span]
  | cons q R =>
    rw [paras_cons, span_cons]
    cases R with
    | nil =>
      have := h q rfl
      have ht : q.text ≠ [] := by simpa [SPara.text] using this
      cases hq : q.text with
      | nil => exact absurd hq ht
      | cons c cs =>
        have := Char.utf8Size_pos c
        simp [utf8Len, paras, span] <;> omega
    | cons r R => rw [paras_cons, span_cons]; simp; omega

/-- The paragraph the insertion starts in: as it was, or with the format of `over`. -/
structure HeadAs (s : Store) (over : Option ParsedBlock) (p hd : SPara) : Prop where
  id : hd.id = p.id
  kept : over = none → hd.shape = p.shape
  taken : ∀ x, over = some x → hd.shape = overShape p.shape x hd.shape.list ∧ ListLike s (listAsked x) hd.shape.list

theorem HeadAs.mono {s' : Store} {over : Option ParsedBlock} {p hd : SPara} (h : HeadAs s over p hd)
    (hl : ∀ i e, s.lists i = some e → s'.lists i = some e) : HeadAs s' over p hd :=
  ⟨h.id, h.kept, fun x hx => ⟨(h.taken x hx).1, (h.taken x hx).2.mono hl⟩⟩

theorem Adding.insertHead {c : PasteAt} {st' : RopeSt} {g : ListGrouper} {past : Imported} {runs : List (Run CharFormat)} {hcs : List SChar}
    (h : Adding s st d f fr (L ++ p :: R)) (hl : ListsOk s d (L ++ p :: R)) (hp : Placed s (L ++ p :: R))
    (hcd : c.did = d.id) (hcur : c.cur = p.entity (charsBefore (paras L))) (over : Option ParsedBlock)
    (hg : GrouperOk s g) (hk : GrouperKnows g past) (hst : StyledOk runs hcs) (ht : ∀ shape, Repr st' (paras (L ++ ⟨p.id, hcs, shape⟩ :: R))) :
    ∃ s0 g' ls hd, s.insertHead c over g = some (s0, g') ∧
      Adding (s0.writeState p.id runs []) st' { d with lists := ls } f fr (L ++ hd :: R) ∧
      ListsOk (s0.writeState p.id runs []) { d with lists := ls } (L ++ hd :: R) ∧
      GrouperOk (s0.writeState p.id runs []) g' ∧ HeadAs (s0.writeState p.id runs []) over p hd ∧ hd.chars = hcs ∧
      (∃ blk, (s0.writeState p.id runs []).blocks p.id = some blk ∧ blk.documentPosition = charsBefore (paras L)) ∧
      (∀ i, i ≠ p.id → (s0.writeState p.id runs []).blocks i = s.blocks i) ∧
      (s0.writeState p.id runs []).next "block" = s.next "block" ∧ (s0.writeState p.id runs []).text = s.text ∧
      (∀ i e, s.lists i = some e → (s0.writeState p.id runs []).lists i = some e) ∧ (∀ i ∈ d.lists, i ∈ ls) ∧
      (over = none → GrouperKnows g' past) ∧
      (∀ x, over = some x → ListRule d.lists [] (listAsked x) hd.shape.list ∧ (∀ i ∈ hd.shape.list, i ∈ ls) ∧
        GrouperKnows g' [listSeen (listAsked x) hd.shape.list]) := by
  cases over with
  | none =>
    obtain ⟨blk, b1, b2⟩ := hp L p R rfl
    obtain ⟨blk', b3, b4⟩ := h.shows_.block p (by simp)
    have e : blk = blk' := by
      have : s.blocks p.id = some blk' := b3
      rw [b1, Option.some.injEq] at this; exact this
    subst e
    have he : blk = p.entity (charsBefore (paras L)) := by
      rw [b4, b2]; rfl
    have hset := h.set (blk := p.entity (charsBefore (paras L))) (cs := hcs) (shape := p.shape) rfl hst (ht p.shape)
    rw [putBlock_same (by rw [← he]; rw [show blk.id = p.id by rw [b4]]; exact b1)] at hset
    refine ⟨s, g, d.lists, ⟨p.id, hcs, p.shape⟩, rfl, hset, ⟨hl.known, hl.only, ?_, hl.nodup, hl.fresh⟩, hg,
      ⟨rfl, fun _ => rfl, by simp⟩, rfl, ⟨blk, b1, b2⟩, fun _ _ => rfl, rfl, rfl, fun _ _ h => h,
      fun _ h => h, fun _ => hk, by simp⟩
    intro q hq
    simp only [List.mem_append, List.mem_cons] at hq
    rcases hq with hq | rfl | hq
    · exact hl.items q (by simp [hq])
    · exact hl.items p (by simp)
    · exact hl.items q (by simp [hq])
  | some x =>
    obtain ⟨s0, g', l, ls, e1, a1, m1, gr1, like1, in1, b1, x1, n1, mo⟩ := h.chooseList hl (.nil s) (parsedList x)
    obtain ⟨rule1, k1⟩ := h.chooseRule hl .nil e1
    have hset := a1.set (blk := overBlock (p.entity (charsBefore (paras L))) x l)
      (shape := overShape p.shape x l) rfl hst (ht _)
    refine ⟨s0.putBlock (overBlock (p.entity (charsBefore (paras L))) x l), g', ls, ⟨p.id, hcs, overShape p.shape x l⟩, ?_,
      hset, ⟨m1.known, m1.only, ?_, m1.nodup, m1.fresh⟩, gr1,
      ⟨rfl, by simp, ?_⟩, rfl, ?_, ?_, n1, x1, mo, ?_, by simp, ?_⟩
    · unfold Store.insertHead
      rw [hcd]
      dsimp only
      rw [e1, hcur]; rfl
    · intro q hq
      simp only [List.mem_append, List.mem_cons] at hq
      rcases hq with hq | rfl | hq
      · exact m1.items q (by simp [hq])
      · exact in1
      · exact m1.items q (by simp [hq])
    · intro y hy
      cases hy
      exact ⟨rfl, like1⟩
    · exact ⟨_, by simp [Store.writeState, Store.putBlock, overBlock, SPara.entity]; rfl, rfl⟩
    · intro i hi
      simp [Store.writeState, Store.putBlock, overBlock, SPara.entity, hi, b1]
    · intro i hi
      obtain ⟨e, y1, _⟩ := hl.known i hi
      exact m1.only i (by rw [mo i e y1]; rfl)
    · intro y hy
      cases hy
      exact ⟨rule1, fun i hi => in1 i hi, k1⟩

theorem Flat.insertBlocks (html : Bool) (h : Flat s d f (L ++ p :: R)) (hp : Placed s (L ++ p :: R))
    (hl : ListsOk s d (L ++ p :: R)) (hf : s.frames f = some fr) (hc : p.chars = a ++ b) (hR : NotOneEmpty R)
    (over : Option ParsedBlock) {g : ListGrouper} (hg : GrouperOk s g) {past : Imported}
    (hk : GrouperKnows g past) {head : ParaState} {hcs : List SChar}
    (h1 : StyledOk head.runs hcs) (h2 : head.imgs = []) (h3 : head.text = hcs.map Prod.fst) (mids : List ParsedBlock)
    {tail : Option ParaState} {tcs : List SChar}
    (htail : ∀ t, tail = some t → StyledOk t.runs tcs ∧ t.imgs = [] ∧ t.text = tcs.map Prod.fst) :
    ∃ (s1 : Store) (ls : List Nat) (hd : SPara) (qs tl : List SPara),
      s.insertBlocks html (pasteAt s d f fr L p R a b) over g head mids tail =
        some (s1, hcs.length, ((charsBefore (paras (L ++ hd :: qs)) : Nat) : Int)) ∧
      (∀ D : Document, D.id = d.id →
        Flat (s1.updateDocument D) (keepDoc D (some { d with lists := ls })) f (L ++ hd :: (qs ++ tl ++ R)) ∧
        Placed (s1.updateDocument D) (L ++ hd :: (qs ++ tl ++ R)) ∧
        ListsOk (s1.updateDocument D) (keepDoc D (some { d with lists := ls })) (L ++ hd :: (qs ++ tl ++ R)) ∧
        HeadAs (s1.updateDocument D) over p hd ∧ InTurn (InsertedOne (s1.updateDocument D) html) mids qs) ∧
      hd.chars = hcs ∧ (tail = none → tl = []) ∧
      (tail ≠ none → ∃ n, tl = [⟨n, tcs, if over.isSome then {} else p.shape⟩]) ∧
      (over = none → ListsJoined d.lists past (mids.map listAsked) (qs.map fun q => q.shape.list)) ∧
      (∀ x, over = some x → ListsJoined d.lists [] (listAsked x :: mids.map listAsked)
        (hd.shape.list :: qs.map fun q => q.shape.list)) := by
  have hadd := h.adding hf
  have hco : fr.childOrder = (L ++ p :: R).map fun q => (q.id : Int) := by
    obtain ⟨fr', g1, g2, g3, g4⟩ := h.frame
    rw [hf, Option.some.injEq] at g1
    rw [g1]; exact g3
  have hplen : p.text.length = a.length + b.length := by rw [SPara.text_length, hc, List.length_append]
  have hrep : Repr s.text (paras L ++ (.block p.id, p.text) :: paras R) := by
    have := h.text
    rw [paras_append, paras_cons] at this
    exact this
  obtain ⟨st1, r1, r2⟩ := ropeHeadText_repr hrep (span_one hR) head.text
  have ht : ∀ shape, Repr st1 (paras (L ++ ⟨p.id, hcs, shape⟩ :: R)) := by
    intro shape
    rw [paras_append, paras_cons]
    simpa [SPara.text, h3] using r2
  obtain ⟨s0, g', ls1, hd, e1, e2, e3, e4, e5, e6, e7, e8, e9, e10, e11, e12, e13, e14⟩ :=
    hadd.insertHead (c := pasteAt s d f fr L p R a b) hl hp rfl rfl over hg hk h1 ht
  generalize hs1 : s0.writeState p.id head.runs [] = s1 at *
  have hht : hd.text = head.text := by rw [SPara.text, e6, h3]
  have hlen : blockCharLength st1 p.id = some hcs.length := by
    have := blockCharLength_repr r2 (id := p.id) (c := head.text) (by simp)
    rw [this, h3, List.length_map]
  obtain ⟨past', hk'⟩ : ∃ past', GrouperKnows g' past' ∧ (over = none → past' = past) ∧
      ∀ x, over = some x → past' = [listSeen (listAsked x) hd.shape.list] := by
    cases over with
    | none => exact ⟨past, e13 rfl, fun _ => rfl, by simp⟩
    | some x => exact ⟨_, (e14 x rfl).2.2, by simp, fun y hy => by cases hy; rfl⟩
  obtain ⟨s2, ls2, qs, st2, i1, i3, i4, i5, i6, i7, i8, i9, i10, i11, i12⟩ :=
    Adding.addParsed html mids (L.length + 1) ((charsBefore (paras L) : Int) + hcs.length + 1) e2 e3 e4 hk'.1
  have hrun : (charsBefore (paras L) : Int) + hcs.length + 1 + charsBefore (paras qs) = (charsBefore (paras (L ++ hd :: qs)) : Nat) := by
    rw [charsBefore_paras_two, charsBefore_paras_cons, e6]; push_cast; omega
  rw [hrun] at i1
  generalize hrn : ((charsBefore (paras (L ++ hd :: qs)) : Nat) : Int) = run at *
  have hT : ∃ s3 st3 tl, s2.insertTail (pasteAt s d f fr L p R a b) over.isSome (L.length + 1 + qs.length) run tail =
        some (s3, tl.map fun q : SPara => (q.id, q.text)) ∧
      Adding s3 st3 { d with lists := ls2 } f fr (L ++ hd :: (qs ++ tl ++ R)) ∧
      ListsOk s3 { d with lists := ls2 } (L ++ hd :: (qs ++ tl ++ R)) ∧ s3.lists = s2.lists ∧ s3.text = s2.text ∧
      (∀ i, i < s2.next "block" → s3.blocks i = s2.blocks i) ∧
      ((tl = [] ∧ tail = none) ∨ ∃ n blk, tail ≠ none ∧
        tl = [⟨n, tcs, if over.isSome then {} else p.shape⟩] ∧ s3.blocks n = some blk ∧ blk.documentPosition = run) := by
    cases tail with
    | none =>
      refine ⟨s2, st2, [], rfl, ?_, ?_, rfl, rfl, fun _ _ => rfl, .inl ⟨rfl, rfl⟩⟩
      · simpa using i3
      · simpa using i4
    | some t =>
      obtain ⟨y1, y2, y3⟩ := htail t rfl
      obtain ⟨L', eL⟩ := last_of_new L qs hd
      have eL' : ∀ X : List SPara, L ++ hd :: (qs ++ X) = L' ++ (qs.getLastD hd) :: X := by
        intro X
        have := congrArg (· ++ X) eL
        simpa using this
      rw [eL'] at i3 i4
      have hcl : ∀ l, p.shape.list = some l → l ∈ ls2 := by
        intro l hpl
        obtain ⟨e, g1, g2⟩ := hl.known l (hl.items p (by simp) l hpl)
        exact i4.only l (by rw [i11 l e (e11 l e g1)]; rfl)
      obtain ⟨s3, st3, z1, z2, z3, z4, z5, ⟨blk, z6, z7⟩, z8, z9⟩ :=
        i3.tail (c := pasteAt s d f fr L p R a b) (p0 := p) (q0 := charsBefore (paras L)) i4 rfl rfl hcl over.isSome
          (L.length + 1 + qs.length) run y1 y2 y3
      refine ⟨s3, st3, [⟨s2.next "block", tcs, if over.isSome then {} else p.shape⟩],
        ?_, ?_, ?_, z8, z9, ?_, .inr ⟨_, blk, by simp, rfl, z6, z7⟩⟩
      · unfold Store.insertTail
        dsimp only
        rw [z1, Option.map_some]
        simp only [List.map_cons, List.map_nil, SPara.text, y3]
      · rw [List.append_assoc, eL']; exact z3
      · rw [List.append_assoc, eL']; exact z4
      · intro i hi
        exact z5 i (by omega)
  obtain ⟨s3, st3, tl, t1, t3, t4, t5, t6, t7, t8⟩ := hT
  have hnd := t3.shows_.text.nodup
  have eparas : paras (L ++ hd :: (qs ++ tl ++ R)) = paras L ++ (.block p.id, head.text) :: (paras (qs ++ tl) ++ paras R) := by
    rw [paras_append, paras_cons, paras_append (qs ++ tl), e5.id, hht]
  rw [eparas] at hnd
  obtain ⟨st4, x1, x2⟩ := ropeAddAt_repr (qs ++ tl) r2 hnd
  rw [← eparas] at x2
  have t3' := t3.swap x2
  generalize hafter : (charsBefore (paras (L ++ hd :: (qs ++ tl))) : Int) = after
  have haf : afterTail st4 run (tl.map fun q : SPara => (q.id, q.text)) = some after := by
    rcases t8 with ⟨rfl, _⟩ | ⟨n, blk, _, rfl, _, _⟩
    · rw [List.append_nil] at hafter
      simp only [List.map_nil, afterTail]
      rw [← hrn, ← hafter]
    · have := blockCharLength_repr x2 (id := n) (c := (⟨n, tcs, if over.isSome then {} else p.shape⟩ : SPara).text) (by
        simp [paras])
      simp only [List.map_cons, List.map_nil, afterTail]
      rw [this, Option.map_some]
      have e : L ++ hd :: (qs ++ [(⟨n, tcs, if over.isSome then {} else p.shape⟩ : SPara)]) = (L ++ hd :: qs) ++ [⟨n, tcs, if over.isSome then {} else p.shape⟩] := by simp
      rw [← hafter, e, charsBefore_paras_append, ← hrn, SPara.text_length]
      push_cast
      congr 1
  generalize hxx : after - ((charsBefore (paras L) : Int) + (pasteAt s d f fr L p R a b).len + 1) = xx
  have hclen : (pasteAt s d f fr L p R a b).len = a.length + b.length := by simp [PasteAt.len, pasteAt]
  refine ⟨((s3.placeChildren (pasteAt s d f fr L p R a b) ((qs ++ tl).map SPara.id)).withText st4).shiftStored
    ((pasteAt s d f fr L p R a b).blocks.drop ((pasteAt s d f fr L p R a b).index + 1)) xx, ls2, hd, qs, tl, ?_, ?_, e6, ?_, ?_, ?_, ?_⟩
  · unfold Store.insertBlocks
    have c1 : (pasteAt s d f fr L p R a b).cur.id = p.id := rfl
    have c2 : (pasteAt s d f fr L p R a b).did = d.id := rfl
    have c3 : (pasteAt s d f fr L p R a b).fid = f := rfl
    have c4 : (pasteAt s d f fr L p R a b).cur.documentPosition = charsBefore (paras L) := rfl
    have c8 : (pasteAt s d f fr L p R a b).index = L.length := rfl
    rw [e1, Option.bind_some]
    dsimp only
    rw [c1, h2, hs1, e10, r1, Option.bind_some]
    dsimp only
    have i1' : addParsedBlocks html d.id f mids (L.length + 1) ((charsBefore (paras L) : Int) + hcs.length + 1) g' s1 = _ := i1
    rw [hlen, Option.bind_some, c2, c3, c4, c8, i1', Option.bind_some]
    dsimp only
    rw [List.length_map, t1, Option.bind_some]
    dsimp only
    rw [← List.map_append, x1, Option.bind_some, haf, Option.map_some, hxx]
    have hids : ((qs ++ tl).map (fun q => (q.id, q.text))).map Prod.fst = (qs ++ tl).map SPara.id := by
      rw [List.map_map]; rfl
    rw [hids, hrn]
  · intro D hD
    obtain ⟨s', f1, f2, f3, f4, f5⟩ := Adding.close (D := D) (c := pasteAt s d f fr L p R a b) t3' t4 e5.id hco hD xx rfl rfl rfl
    rw [f1]
    have hm2 : ∀ i e, s2.lists i = some e → s'.lists i = some e := by
      intro i e hi; rw [f4, t5]; exact hi
    refine ⟨f2, f5 ?_ ?_, f3, e5.mono fun i e hi => hm2 i e (i11 i e hi), InTurn.mono (fun _ _ h => h.mono hm2) i5⟩
    · have hids : ∀ q ∈ L, q.id ≠ p.id ∧ q.id < s.next "block" := by
        intro q hq
        have hnd := h.ids_nodup
        rw [List.map_append, List.map_cons, List.nodup_append] at hnd
        exact ⟨hnd.2.2 _ (List.mem_map_of_mem hq) _ (by simp), h.fresh q (by simp [hq])⟩
      have hpf : p.id < s.next "block" := h.fresh p (by simp)
      apply positions
      · intro A q B e
        obtain ⟨h1, h2⟩ := hids q (by rw [e]; simp)
        rw [t7 _ (by omega), i7 _ (by omega), e8 _ h1]
        exact hp A q (B ++ p :: R) (by rw [e]; simp)
      · rw [e5.id, t7 _ (by omega), i7 _ (by omega)]
        exact e7
      · intro A q B e
        rcases split_at e with ⟨B', e'⟩ | ⟨A', e', e''⟩
        · obtain ⟨blk, h1, h2⟩ := i6 A q B' e'
          have hq2 : q.id < s2.next "block" := i3.shows_.fresh q (by rw [e']; simp)
          rw [t7 _ hq2]
          refine ⟨blk, h1, ?_⟩
          rw [h2, e6]
          omega
        · rcases t8 with ⟨rfl, x2⟩ | ⟨n, blk, x1, rfl, x3, x4⟩
          · simp at e''
          · have : A' = [] ∧ q = ⟨n, tcs, if over.isSome then {} else p.shape⟩ := by
              cases A' with
              | nil => simp only [List.nil_append, List.cons.injEq] at e''; exact ⟨rfl, e''.1.symm⟩
              | cons y A' => simp at e''
            obtain ⟨rfl, rfl⟩ := this
            refine ⟨blk, x3, ?_⟩
            rw [x4, ← hrun, e', List.append_nil, e6]
            omega
    · rw [hplen, ← hxx, hclen, hafter]
      push_cast
      omega
  · intro hn
    rcases t8 with ⟨rfl, _⟩ | ⟨n, blk, x1, _⟩
    · rfl
    · exact absurd hn x1
  · intro hn
    rcases t8 with ⟨_, x⟩ | ⟨n, blk, x1, rfl, _⟩
    · exact absurd x hn
    · exact ⟨n, rfl⟩
  · intro ho
    rw [hk'.2.1 ho] at i12
    exact i12.fewer e12
  · intro x ho
    rw [hk'.2.2 x ho] at i12
    obtain ⟨y1, y2, _⟩ := e14 x ho
    refine ⟨y1, i12.fewer fun i hi => ?_⟩
    rcases List.mem_append.mp hi with hi | hi
    · exact y2 i (by simpa using hi)
    · exact e12 i hi

theorem Flat.insertInline {x : ParsedBlock} (h : Flat s d f (L ++ p :: R)) (hp : Placed s (L ++ p :: R))
    (hl : ListsOk s d (L ++ p :: R)) (hf : s.frames f = some fr) (hc : p.chars = a ++ b) (pos : Int) :
    ∃ s', s.insertInline (pasteAt s d f fr L p R a b) pos x = some (s', ⟨pos + x.chars.length, 0⟩) ∧
      Flat s' { d with characterCount := d.characterCount + x.chars.length } f
        (L ++ { p with chars := a ++ x.chars ++ b } :: R) ∧
      ListsOk s' { d with characterCount := d.characterCount + x.chars.length }
        (L ++ { p with chars := a ++ x.chars ++ b } :: R) ∧
      Placed s' (L ++ { p with chars := a ++ x.chars ++ b } :: R) := by
  have hflen := parsedState_length x
  by_cases h0 : x.chars = []
  · have e : ({ p with chars := a ++ x.chars ++ b } : SPara) = p := by rw [h0, List.append_nil, ← hc]
    have e2 : ({ d with characterCount := d.characterCount + x.chars.length } : Document) = d := by rw [h0]; simp
    rw [e, e2]
    refine ⟨s, ?_, h, hl, hp⟩
    unfold Store.insertInline
    dsimp only
    rw [if_pos (by rw [hflen, h0]; rfl), h0]; simp
  have hadd := h.adding hf
  have hco : fr.childOrder = (L ++ p :: R).map fun q => (q.id : Int) := by
    obtain ⟨fr', g1, g2, g3, g4⟩ := h.frame
    rw [hf, Option.some.injEq] at g1
    rw [g1]; exact g3
  have hst0 : StyledOk ((s.formatRuns p.id).getD []) (a ++ b) := hc ▸ h.formats p (by simp)
  have hplen : p.text.length = a.length + b.length := by rw [SPara.text_length, hc, List.length_append]
  have hrep : Repr s.text (paras L ++ (.block p.id, a.map Prod.fst ++ b.map Prod.fst) :: paras R) := by
    have := h.text
    rw [paras_append, paras_cons] at this
    have e : p.text = a.map Prod.fst ++ b.map Prod.fst := by simp [SPara.text, hc]
    rw [e] at this
    exact this
  obtain ⟨st1, e1, e2⟩ := insertInBlock_repr (x.chars.map Prod.fst) hrep
  obtain ⟨g1, g2, g3⟩ := parsedState_styled x
  have hst1 := hst0.paste g1
  have ht : Repr st1 (paras (L ++ ⟨p.id, a ++ x.chars ++ b, p.shape⟩ :: R)) := by
    rw [paras_append, paras_cons]
    simpa [SPara.text] using e2
  have a1 := hadd.set (blk := p.entity (charsBefore (paras L))) (cs := a ++ x.chars ++ b) (shape := p.shape) rfl hst1 ht
  generalize hs1 : (s.putBlock (p.entity (charsBefore (paras L)))).writeState p.id _ [] = s1 at a1
  have hs1t : s1.text = s.text := by subst hs1; rfl
  have hs1b : ∀ i, s1.blocks i = if i = p.id then some (p.entity (charsBefore (paras L))) else s.blocks i := by
    intro i; subst hs1; simp [Store.writeState, Store.putBlock, SPara.entity]
  have hfl := a1.finish_nil (p0 := p) (by
    obtain ⟨bs, x1, x2⟩ := a1.frame
    exact ⟨_, x1, hco⟩) rfl
  have eapp : L ++ (⟨p.id, a ++ x.chars ++ b, p.shape⟩ : SPara) :: R = (L ++ [⟨p.id, a ++ x.chars ++ b, p.shape⟩]) ++ R := by simp
  rw [eapp] at hfl
  generalize hD : ({ d with characterCount := d.characterCount + ((parsedState x).text.length : Int) } : Document) = D
  obtain ⟨s', f1, f2, f3, f4, f5, f6⟩ := hfl.close (D := D) (by subst hD; rfl) ((charsBefore (paras L) : Int) + (p.text.length + 1))
    (parsedState x).text.length
  have hkd : keepDoc D (some d) = { d with characterCount := d.characterCount + (x.chars.length : Int) } := by
    subst hD
    rw [hflen]; rfl
  rw [hkd] at f2
  rw [← eapp] at f2 f6
  have hsl : s'.lists = s.lists := by rw [f3]; subst hs1; rfl
  have hsn : s'.next "list" = s.next "list" := by
    unfold Store.next; rw [f4]; subst hs1; rfl
  refine ⟨s', ?_, f2, ?_, ?_⟩
  · unfold Store.insertInline
    have k1 : (pasteAt s d f fr L p R a b).cur = p.entity (charsBefore (paras L)) := rfl
    have k5 : (pasteAt s d f fr L p R a b).off = utf8Len (a.map Prod.fst) := rfl
    have k8 : (pasteAt s d f fr L p R a b).index = L.length := rfl
    have k9 : (pasteAt s d f fr L p R a b).document = d := rfl
    have k10 : (p.entity (charsBefore (paras L))).id = p.id := rfl
    have k11 : (pasteAt s d f fr L p R a b).runs = (s.formatRuns p.id).getD [] := rfl
    have k12 : (pasteAt s d f fr L p R a b).blocks = placed 0 (L ++ p :: R) := rfl
    have k13 : ∀ n, shiftImagesForInsert (pasteAt s d f fr L p R a b).imgs (utf8Len (a.map Prod.fst)) n = [] := by
      intro n
      have : (pasteAt s d f fr L p R a b).imgs = [] := rfl
      rw [this]; simp [shiftImagesForInsert]
    dsimp only
    rw [if_neg (by rw [hflen]; simpa using h0), k1, updateBlock_same hadd, k10, k5, k13, k11, k8, k9, k12, g3, hs1, hs1t,
      e1, Option.map_some, pasteAt_rest, ← g3, hD]
    have f1' : _ = s' := f1
    rw [f1', hflen]
  · refine ⟨by rw [hsl]; exact hl.known, by rw [hsl]; exact hl.only, ?_, hl.nodup, by rw [hsl, hsn]; exact hl.fresh⟩
    intro q hq
    simp only [List.mem_append, List.mem_cons] at hq
    rcases hq with hq | rfl | hq
    · exact hl.items q (by simp [hq])
    · exact hl.items p (by simp)
    · exact hl.items q (by simp [hq])
  · have hpl : ∀ q : SPara, q ∈ L → q.id ≠ p.id := by
      intro q hq
      have hnd := h.ids_nodup
      rw [List.map_append, List.map_cons, List.nodup_append] at hnd
      exact hnd.2.2 _ (List.mem_map_of_mem hq) _ (by simp)
    apply f6
    · apply positions
      · intro A q B e
        have hb' := hs1b q.id
        rw [if_neg (hpl q (by rw [e]; simp))] at hb'
        have := hp A q (B ++ p :: R) (by rw [e]; simp)
        rw [← hb'] at this
        exact this
      · exact ⟨_, (hs1b p.id).trans (if_pos rfl), rfl⟩
      · intro A q B e; simp at e
    · rw [charsBefore_paras_append, hplen, hflen]
      simp; omega

/-- The blocks of the frame in the order of their positions. -/
theorem Flat.frameBlocks_placed (h : Flat s d f ps) (hp : Placed s ps) :
    sortByKey Block.documentPosition (s.getBlocks (s.frameBlocks f)) = placed 0 ps := by
  obtain ⟨fr, g1, g2, g3, g4⟩ := h.frame
  have e1 : s.frameBlocks f = fr.blocks := by simp [Store.frameBlocks, g1]
  rw [e1]
  have hperm : (s.getBlocks fr.blocks).Perm (s.getBlocks (ps.map SPara.id)) := g4.filterMap _
  have e : (ps.map fun p => p.entity (s.storedPos p)) = placed 0 ps := by
    apply map_entity_placed
    intro L p R e
    obtain ⟨b, h1, h2⟩ := hp L p R e
    simp [Store.storedPos, h1, h2]
  rw [h.getBlocks, e] at hperm
  exact eq_of_sorted Block.documentPosition ((sortByKey_perm _ _).trans hperm) (sortByKey_sorted _ _) (placed_strict 0 ps)

theorem Flat.insertMarkup_eq (html : Bool) (h : Flat s d f (L ++ p :: R)) (hp : Placed s (L ++ p :: R))
    (hf : s.frames f = some fr) (hc : p.chars = a ++ b) (es : List ParsedElement) :
    s.insertMarkup html ((charsBefore (paras L) + a.length : Nat) : Int) ((charsBefore (paras L) + a.length : Nat) : Int) es =
      (s.insertParsed html (pasteAt s d f fr L p R a b) ((charsBefore (paras L) + a.length : Nat) : Int) (blocksOf es)).map
        fun (s', r) => (s', r, s.snapshot) := by
  have hpm : p ∈ L ++ p :: R := by simp
  unfold Store.insertMarkup
  rw [h.docId, Option.bind_some, h.document, Option.bind_some]
  dsimp only
  rw [if_neg (by simp), h.docFrames, List.head?_cons, Option.bind_some, hf, Option.bind_some, h.frameBlocks_placed hp]
  have hfi := placed_find 0 L R p h.ids_nodup
  have hfind := h.toShows.findIn hc (placed_entities 0 (L ++ p :: R)) hfi
  rw [hfind, Option.bind_some]
  dsimp only
  have hid : (p.entity (charsBefore (paras L))).id = p.id := rfl
  rw [hid, h.content hpm, Option.bind_some, h.offset hpm, text_take hc]
  have htxt : p.text = a.map Prod.fst ++ b.map Prod.fst := by simp [SPara.text, hc]
  rw [htxt, splitAtByte_append, Option.bind_some]
  dsimp only
  have himg : s.imagesOf p.id = [] := h.images p hpm
  rw [himg, flatten_eq]
  rfl

end Verif
