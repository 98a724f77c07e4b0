import Verif.Lemmas.PasteMany
/- Pasting a fragment of one paragraph. -/
namespace Verif
variable {s : Store} {d : Document} {f : Nat} {ps L R : List SPara} {p : SPara} {st : RopeSt} {fr : Frame} {a b : List SChar}
open Store

theorem blockCharLength_absent {ps : List Para} {id : Nat} (h : Repr st ps) (hm : Marker.block id ∉ ps.map Prod.fst) :
    blockCharLength st id = some 0 := by
  simp [blockCharLength, Index.rangeWithSuccessor, h.pos_none hm]

/-- `p` takes the text and the formats of another paragraph. -/
theorem Adding.setTo {st' : RopeSt} {fb : FragBlock} {cs : List SChar} {ls : List Nat} {l : Option Nat} {runs : List (Run CharFormat)}
    (h : Adding s st { d with lists := ls } f fr (L ++ p :: R)) (hl : ListsOk s { d with lists := ls } (L ++ p :: R))
    (hll : ListLike s fb.list l) (hin : ∀ i, l = some i → i ∈ ls) (x : Int) (hst : StyledOk runs cs) (hcs : cs = fb.chars)
    (ht : ∀ shape, Repr st' (paras (L ++ ⟨p.id, cs, shape⟩ :: R))) :
    ∃ hd : SPara, hd.id = p.id ∧ PastedOne s fb hd ∧
      Adding ((s.putBlock { fb.format with id := p.id, list := l, documentPosition := x }).writeState p.id runs [])
        st' { d with lists := ls } f fr (L ++ hd :: R) ∧
      ListsOk ((s.putBlock { fb.format with id := p.id, list := l, documentPosition := x }).writeState p.id runs [])
        { d with lists := ls } (L ++ hd :: R) := by
  have hset := h.set (blk := { fb.format with id := p.id, list := l, documentPosition := x })
    (shape := { fb.format with id := 0, documentPosition := 0, list := l }) rfl hst (ht _)
  refine ⟨⟨p.id, cs, { fb.format with id := 0, documentPosition := 0, list := l }⟩, rfl, ⟨hcs, rfl, hll⟩, hset, ?_⟩
  refine ⟨hl.known, hl.only, ?_, hl.nodup, hl.fresh⟩
  intro q hq
  simp only [List.mem_append, List.mem_cons] at hq
  rcases hq with hq | rfl | hq
  · exact hl.items q (by simp [hq])
  · exact hin
  · exact hl.items q (by simp [hq])

theorem Flat.pasteOver {fb : FragBlock} (h : Flat s d f (L ++ p :: R)) (hp : Placed s (L ++ p :: R))
    (hl : ListsOk s d (L ++ p :: R)) (hf : s.frames f = some fr) (hc : p.chars = b) (htx : fb.IsText) :
    ∃ s' ls hd tl, s.pasteOver (pasteAt s d f fr L p R [] b) fb =
        some (s', ⟨charsBefore (paras L) + fb.chars.length, tl.length⟩) ∧
      Flat s' { d with
        lists := ls
        blockCount := d.blockCount + tl.length
        characterCount := d.characterCount + (fb.chars.length - b.length) } f (L ++ hd :: (tl ++ R)) ∧
      ListsOk s' { d with
        lists := ls
        blockCount := d.blockCount + tl.length
        characterCount := d.characterCount + (fb.chars.length - b.length) } (L ++ hd :: (tl ++ R)) ∧
      (b = [] → Placed s' (L ++ hd :: (tl ++ R))) ∧
      hd.id = p.id ∧ PastedOne s' fb hd ∧ (b = [] → tl = []) ∧ (b ≠ [] → ∃ n, tl = [⟨n, b, {}⟩]) := by
  have hadd := h.adding hf
  have hco : fr.childOrder = (L ++ p :: R).map fun q => (q.id : Int) := by
    obtain ⟨fr', g1, g2, g3, g4⟩ := h.frame
    rw [hf, Option.some.injEq] at g1
    rw [g1]; exact g3
  have hc' : p.chars = [] ++ b := hc
  have hst0 : StyledOk ((s.formatRuns p.id).getD []) ([] ++ b) := hc' ▸ h.formats p (by simp)
  have hplen : p.text.length = b.length := by rw [SPara.text_length, hc]
  obtain ⟨r1, r2, r3⟩ := pasteAt_right (d := d) (f := f) (fr := fr) (L := L) (R := R) hst0
  have hrep : Repr s.text (paras L ++ (.block p.id, [] ++ b.map Prod.fst) :: paras R) := by
    have := h.text
    rw [paras_append, paras_cons] at this
    have e : p.text = [] ++ b.map Prod.fst := by simp [SPara.text, hc]
    rw [e] at this
    exact this
  obtain ⟨st1, e1, e2⟩ := ropeHead hrep (fb.chars.map Prod.fst)
  have ht : ∀ shape, Repr st1 (paras (L ++ ⟨p.id, fb.chars, shape⟩ :: R)) := by
    intro shape
    rw [paras_append, paras_cons]
    simpa [SPara.text] using e2
  obtain ⟨g1, g2⟩ := fragState_styled htx
  obtain ⟨s1, l, ls, n1, n2, n3, n4, n5, n6, n7, n8, n9⟩ := hadd.newList hl fb.list
  obtain ⟨hd, q1, q2, q3, q4⟩ := n2.setTo n3 n4 n5 (charsBefore (paras L)) g1 rfl ht
  generalize hs2 : (s1.putBlock { fb.format with id := p.id, list := l, documentPosition := charsBefore (paras L) }).writeState
    p.id (fragState fb).1 [] = s2 at *
  have hs2n : s2.next "block" = s.next "block" := by subst hs2; exact n8
  have hs2t : s2.text = s.text := by subst hs2; exact n7
  have hs2l : s2.lists = s1.lists := by subst hs2; rfl
  have hs2b : ∀ i, i ≠ p.id → s2.blocks i = s.blocks i := by
    intro i hi; subst hs2; simp [Store.writeState, Store.putBlock, hi, n6]
  have hs2p : ∃ b, s2.blocks hd.id = some b ∧ b.documentPosition = charsBefore (paras L) := by
    rw [q1]; subst hs2
    exact ⟨_, by simp [Store.writeState, Store.putBlock]; rfl, rfl⟩
  have hhc : hd.chars = fb.chars := q2.chars
  have hht : hd.text = fb.text := by rw [SPara.text, hhc, htx.text]
  generalize hrun : (charsBefore (paras L) : Int) + fb.state.len + 1 = run
  have hflen := state_len htx
  have hclen : (pasteAt s d f fr L p R [] b).len = b.length := by simp [PasteAt.len, pasteAt]
  have hnew : Marker.block (s.next "block") ∉ (paras (L ++ p :: R)).map Prod.fst := by
    rw [paras_fst]
    intro hm
    simp only [List.mem_map, Marker.block.injEq] at hm
    obtain ⟨q, hq, e⟩ := hm
    have := h.fresh q hq
    omega
  have hT : ∃ s3 st3 tl, (if (decide (b.map Prod.fst = []) && decide ((pasteAt s d f fr L p R [] b).right.imgs = [])) = true then
        some (s2, [], run, 0) else
        (s2.createBlock (tailBlock (pasteAt s d f fr L p R [] b) true run) f ((L.length + 1 : Nat) : Int)).bind fun (new, s') =>
        (blockCharLength s'.text new).map fun (len : Nat) =>
          ((s'.writeState new (pasteAt s d f fr L p R [] b).right.runs (pasteAt s d f fr L p R [] b).right.imgs).placeChildren
            (pasteAt s d f fr L p R [] b) [new], [(new, b.map Prod.fst)], run + len + 1, (1 : Int))) =
          some (if b = [] then s3 else s3.placeChildren (pasteAt s d f fr L p R [] b) (tl.map SPara.id),
            tl.map (fun q : SPara => (q.id, q.text)), run + tl.length, tl.length) ∧
      ropeAddBlocks (tl.map fun q : SPara => (q.id, q.text)) hd.id (utf8Len hd.text) st1 = some st3 ∧
      Adding s3 st3 { d with lists := ls } f fr (L ++ hd :: (tl ++ R)) ∧
      ListsOk s3 { d with lists := ls } (L ++ hd :: (tl ++ R)) ∧ s3.lists = s2.lists ∧ s3.text = s2.text ∧
      (b = [] → tl = [] ∧ s3 = s2) ∧ (b ≠ [] → ∃ n, tl = [⟨n, b, {}⟩]) := by
    rw [r2]
    by_cases hb : b = []
    · rw [if_pos (by simp [hb])]
      exact ⟨s2, st1, [], by simp [hb], rfl, by simpa using q3, by simpa using q4, rfl, rfl, fun _ => ⟨rfl, rfl⟩, fun h => absurd hb h⟩
    · rw [if_neg (by simp [hb])]
      obtain ⟨s3, st2, st3, c1, c2, c3, c4, c5, c6, c7, c8, c9, c10⟩ := q3.add (blk := tailBlock (pasteAt s d f fr L p R [] b) true run) rfl
        ((L.length + 1 : Nat) : Int) r1 {} (fun _ => rfl)
      refine ⟨_, st3, [⟨s2.next "block", b, {}⟩], ?_, ?_, c4, ?_, c6, c8, fun h => absurd h hb, fun _ => ⟨_, rfl⟩⟩
      · rw [c1, Option.bind_some]
        dsimp only
        have ht3 : s3.text = s.text := by
          have := c8; rw [hs2t] at this; exact this
        rw [ht3, hs2n, blockCharLength_absent h.text hnew, if_neg hb]
        simp [SPara.text]
      · simp only [List.map_cons, List.map_nil]
        unfold ropeAddBlocks
        rw [c2, Option.bind_some]
        have : (⟨s2.next "block", b, {}⟩ : SPara).text = b.map Prod.fst := rfl
        rw [this, c3]; rfl
      · exact q4.addPara c6 c9 (by simp)
  obtain ⟨s3, st3, tl, t1, t2, t3, t4, t5, t6, t7, t8⟩ := hT
  generalize hxx : run + (tl.length : Int) - ((charsBefore (paras L) : Int) + (pasteAt s d f fr L p R [] b).len + 1) = xx
  generalize hD : ({ d with blockCount := d.blockCount + (tl.length : Int), characterCount := d.characterCount + ((fb.state.len : Int) - (pasteAt s d f fr L p R [] b).len) } : Document) = D
  have hfl : Flat ((if b = [] then s3 else s3.placeChildren (pasteAt s d f fr L p R [] b) (tl.map SPara.id)).withText st3)
      { d with lists := ls } f ((L ++ hd :: tl) ++ R) := by
    by_cases hb : b = []
    · rw [if_pos hb]
      have htl := (t7 hb).1
      rw [htl] at t3 ⊢
      have := t3.finish_nil (R := R) (p := hd) (p0 := p) (by
        obtain ⟨bs, x1, x2⟩ := t3.frame
        exact ⟨_, x1, hco⟩) q1.symm
      simpa using this
    · rw [if_neg hb]
      have := t3.finish (c := pasteAt s d f fr L p R [] b) (p0 := p) rfl rfl hco q1.symm
      simpa using this
  have hpl : ∀ q : SPara, (q ∈ L → q.id ≠ p.id) := by
    intro q hq
    have hnd := h.ids_nodup
    rw [List.map_append, List.map_cons, List.nodup_append] at hnd
    exact hnd.2.2 _ (List.mem_map_of_mem hq) _ (by simp)
  obtain ⟨s', f1, f2, f3, f4, f5, f6⟩ := hfl.close (D := D) (by subst hD; rfl) ((charsBefore (paras L) : Int) + (p.text.length + 1)) xx
  have hkd : keepDoc D (some { d with lists := ls }) = { d with
      lists := ls
      blockCount := d.blockCount + (tl.length : Int)
      characterCount := d.characterCount + ((fb.chars.length : Int) - b.length) } := by
    subst hD
    rw [hflen, hclen]; rfl
  rw [hkd] at f2
  have eapp : L ++ hd :: tl ++ R = L ++ hd :: (tl ++ R) := by simp
  rw [eapp] at f2 f6
  have hsl : s'.lists = s3.lists := by rw [f3]; split <;> rfl
  have hsn : s'.next "list" = s3.next "list" := by
    unfold Store.next; rw [f4]; split <;> rfl
  refine ⟨s', ls, hd, tl, ?_, f2, ?_, ?_, q1, q2.mono ?_, fun h => (t7 h).1, t8⟩
  · unfold Store.pasteOver
    have c1 : (pasteAt s d f fr L p R [] b).cur.id = p.id := rfl
    have c2 : (pasteAt s d f fr L p R [] b).did = d.id := rfl
    have c3 : (pasteAt s d f fr L p R [] b).fid = f := rfl
    have c4 : (pasteAt s d f fr L p R [] b).cur.documentPosition = charsBefore (paras L) := rfl
    have c6 : (pasteAt s d f fr L p R [] b).after = b.map Prod.fst := rfl
    have c8 : (pasteAt s d f fr L p R [] b).index = L.length := rfl
    have c9 : (pasteAt s d f fr L p R [] b).document = d := rfl
    have c10 : (pasteAt s d f fr L p R [] b).blocks = placed 0 (L ++ p :: R) := rfl
    rw [c2, n1, Option.bind_some]
    dsimp only
    rw [c1, c3, c4, c6, c8, c9, c10, g2, hs2, hrun, t1, Option.bind_some]
    dsimp only
    have htext : (if b = [] then s3 else s3.placeChildren (pasteAt s d f fr L p R [] b) (tl.map SPara.id)).text = s.text := by
      have : s3.text = s.text := t6.trans hs2t
      split
      · exact this
      · exact this
    have e1' := ropePaste_eq (extra := fb.text) (after := b.map Prod.fst) (off := 0) (cur := p.id) (st := s.text) (st1 := st1)
      (by rw [htx.text]; exact e1)
    rw [htext, e1', Nat.zero_add, ← hht, ← q1, t2, Option.map_some, hxx, pasteAt_rest, hD]
    have f1' : _ = s' := f1
    rw [f1', hflen]
  · exact ⟨by rw [hsl]; exact t4.known, by rw [hsl]; exact t4.only, t4.items, t4.nodup, by rw [hsl, hsn]; exact t4.fresh⟩
  · intro hb
    apply f6
    · obtain ⟨htl, hs3⟩ := t7 hb
      rw [if_pos hb, htl, hs3]
      apply positions
      · intro A q B e
        have hb' := hs2b q.id (hpl q (by rw [e]; simp))
        have := hp A q (B ++ p :: R) (by rw [e]; simp)
        rw [← hb'] at this
        exact this
      · exact hs2p
      · intro A q B e; simp at e
    · rw [← hxx, (t7 hb).1, charsBefore_paras_append, hhc, hplen, hclen, ← hrun, hflen]
      simp; omega
  · intro i e hi
    rw [hsl, t5, hs2l]; exact hi

theorem updateBlocks_withText (bs : List Block) (r : RopeSt) : ∀ s : Store,
    (s.withText r).updateBlocks bs = (s.updateBlocks bs).withText r := by
  induction bs with
  | nil => intro s; rfl
  | cons x bs ih => intro s; exact ih (s.updateBlock x)

theorem Flat.pasteBetween {fb : FragBlock} (h : Flat s d f (L ++ p :: R)) (hp : Placed s (L ++ p :: R))
    (hl : ListsOk s d (L ++ p :: R)) (hf : s.frames f = some fr) (hc : p.chars = a ++ b) (htx : fb.IsText) :
    ∃ s' ls q n, s.pasteBetween (pasteAt s d f fr L p R a b) fb =
        some (s', ⟨charsBefore (paras L) + p.chars.length + 1 + fb.chars.length + 1, 1⟩) ∧
      Flat s' { d with
        lists := ls
        blockCount := d.blockCount + 2
        characterCount := d.characterCount + fb.chars.length } f (L ++ { p with chars := a } :: q :: ⟨n, b, p.shape⟩ :: R) ∧
      ListsOk s' { d with
        lists := ls
        blockCount := d.blockCount + 2
        characterCount := d.characterCount + fb.chars.length } (L ++ { p with chars := a } :: q :: ⟨n, b, p.shape⟩ :: R) ∧
      PastedOne s' fb q ∧ (b = [] → Placed s' (L ++ { p with chars := a } :: q :: ⟨n, b, p.shape⟩ :: R)) := by
  have hadd := h.adding hf
  have hco : fr.childOrder = (L ++ p :: R).map fun q => (q.id : Int) := by
    obtain ⟨fr', g1, g2, g3, g4⟩ := h.frame
    rw [hf, Option.some.injEq] at g1
    rw [g1]; exact g3
  have hst0 : StyledOk ((s.formatRuns p.id).getD []) (a ++ b) := hc ▸ h.formats p (by simp)
  have hplen : p.text.length = a.length + b.length := by rw [SPara.text_length, hc, List.length_append]
  obtain ⟨r1, r2, r3⟩ := pasteAt_right (d := d) (f := f) (fr := fr) (L := L) (R := R) hst0
  obtain ⟨l1, l2, l3⟩ := pasteAt_left (d := d) (f := f) (fr := fr) (L := L) (R := R) hst0
  have hrep : Repr s.text (paras L ++ (.block p.id, a.map Prod.fst ++ b.map Prod.fst) :: paras R) := by
    have := h.text
    rw [paras_append, paras_cons] at this
    have e : p.text = a.map Prod.fst ++ b.map Prod.fst := by simp [SPara.text, hc]
    rw [e] at this
    exact this
  obtain ⟨st1, e1, e2⟩ := ropeHead hrep []
  have ht : Repr st1 (paras (L ++ ⟨p.id, a, p.shape⟩ :: R)) := by
    rw [paras_append, paras_cons]
    simpa [SPara.text] using e2
  have a1 := hadd.set (blk := p.entity (charsBefore (paras L))) (cs := a) (shape := p.shape) rfl l1 ht
  have m1 : ListsOk ((s.putBlock (p.entity (charsBefore (paras L)))).writeState p.id (pasteAt s d f fr L p R a b).left.runs []) d
      (L ++ ⟨p.id, a, p.shape⟩ :: R) := by
    refine ⟨hl.known, hl.only, ?_, hl.nodup, hl.fresh⟩
    intro q hq
    simp only [List.mem_append, List.mem_cons] at hq
    rcases hq with hq | rfl | hq
    · exact hl.items q (by simp [hq])
    · exact hl.items p (by simp)
    · exact hl.items q (by simp [hq])
  generalize hs1 : (s.putBlock (p.entity (charsBefore (paras L)))).writeState p.id (pasteAt s d f fr L p R a b).left.runs [] = s1 at *
  have hs1n : s1.next "block" = s.next "block" := by subst hs1; rfl
  have hs1t : s1.text = s.text := by subst hs1; rfl
  have hs1l : s1.lists = s.lists := by subst hs1; rfl
  have hs1b : ∀ i, s1.blocks i = if i = p.id then some (p.entity (charsBefore (paras L))) else s.blocks i := by
    intro i; subst hs1; simp [Store.writeState, Store.putBlock, SPara.entity]
  obtain ⟨s2, l, ls, n1, n2, n3, n4, n5, n6, n7, n8, n9⟩ := a1.newList m1 fb.list
  obtain ⟨g1, g2⟩ := fragState_styled htx
  have hflen := state_len htx
  generalize hrun : (charsBefore (paras L) : Int) + (p.text.length : Nat) + 1 = run
  obtain ⟨s3, st2, st3, c1, c2, c3, c4, c5, c6, c7, c8, c9, c10⟩ := n2.add
    (blk := { fb.format with id := 0, list := l, documentPosition := run }) rfl ((L.length + 1 : Nat) : Int) g1
    { fb.format with id := 0, list := l, documentPosition := 0 } (fun _ => rfl)
  have m3 := n3.addPara (q := ⟨s2.next "block", fb.chars, { fb.format with id := 0, list := l, documentPosition := 0 }⟩) c6 c9 n5
  generalize hq : (⟨s2.next "block", fb.chars, { fb.format with id := 0, list := l, documentPosition := 0 }⟩ : SPara) = q at *
  generalize hs4 : s3.writeState (s2.next "block") (fragState fb).1 [] = s4 at *
  have eL : ∀ X : List SPara, L ++ (⟨p.id, a, p.shape⟩ : SPara) :: q :: X = (L ++ [⟨p.id, a, p.shape⟩]) ++ q :: X := by simp
  rw [eL] at c4 m3
  have hcl : ∀ l, p.shape.list = some l → l ∈ ls := by
    intro l hpl
    obtain ⟨e, g1, g2⟩ := hl.known l (hl.items p (by simp) l hpl)
    exact n3.only l (by rw [n9 l e (by rw [hs1l]; exact g1)]; rfl)
  obtain ⟨s5, st5, z1, z2, z3, z4, z5, ⟨blk, z6, z7⟩, z8, z9⟩ :=
    c4.tail (c := pasteAt s d f fr L p R a b) (p0 := p) (q0 := charsBefore (paras L)) m3 rfl rfl hcl false
      (L.length + 2) (run + fb.state.len + 1) r1 r2 r3
  rw [if_neg (by simp)] at z3 z4
  rw [← eL] at z3 z4
  generalize hn : s4.next "block" = n at *
  have hqid : q.id = s2.next "block" := by subst hq; rfl
  have hqt : q.text = fb.text := by subst hq; exact htx.text.symm
  have hqc : q.chars = fb.chars := by subst hq; rfl
  generalize hxx : run + (fb.state.len : Int) + 1 + (pasteAt s d f fr L p R a b).right.len + 1 -
    ((charsBefore (paras L) : Int) + (pasteAt s d f fr L p R a b).len + 1) = xx
  have hclen : (pasteAt s d f fr L p R a b).len = a.length + b.length := by simp [PasteAt.len, pasteAt]
  have hrlen : (pasteAt s d f fr L p R a b).right.len = b.length := by
    unfold ParaState.len; rw [r2, r3]; simp
  generalize hD : ({ d with blockCount := d.blockCount + 2, characterCount := d.characterCount + (fb.state.len : Int) } : Document) = D
  obtain ⟨s', f1, f2, f3, f4, f5⟩ := Adding.close (D := D) (c := pasteAt s d f fr L p R a b) (hd := ⟨p.id, a, p.shape⟩)
    (new := [q, ⟨n, b, p.shape⟩]) (R := R) (p := p) z3 z4 rfl hco (by subst hD; rfl) xx rfl rfl rfl
  have hkd : keepDoc D (some { d with lists := ls }) = { d with
      lists := ls
      blockCount := d.blockCount + 2
      characterCount := d.characterCount + (fb.chars.length : Int) } := by
    subst hD
    rw [hflen]; rfl
  rw [hkd] at f2 f3
  refine ⟨s', ls, q, n, ?_, f2, f3, ?_, ?_⟩
  · unfold Store.pasteBetween
    have k1 : (pasteAt s d f fr L p R a b).cur = p.entity (charsBefore (paras L)) := rfl
    have k2 : (pasteAt s d f fr L p R a b).did = d.id := rfl
    have k3 : (pasteAt s d f fr L p R a b).fid = f := rfl
    have k4 : (p.entity (charsBefore (paras L))).documentPosition = charsBefore (paras L) := rfl
    have k5 : (pasteAt s d f fr L p R a b).off = utf8Len (a.map Prod.fst) := rfl
    have k6 : (pasteAt s d f fr L p R a b).after = b.map Prod.fst := rfl
    have k8 : (pasteAt s d f fr L p R a b).index = L.length := rfl
    have k9 : (pasteAt s d f fr L p R a b).document = d := rfl
    have k10 : (p.entity (charsBefore (paras L))).id = p.id := rfl
    rw [k1, updateBlock_same hadd, k10, l2, hs1]
    dsimp only
    rw [hs1t, h.charLength (by simp : p ∈ L ++ p :: R), Option.bind_some]
    rw [k2, n1, Option.bind_some]
    dsimp only
    rw [k3, k4, k8, hrun, c1, Option.bind_some]
    dsimp only
    rw [g2, hs4, z1, Option.bind_some]
    dsimp only
    rw [k5, k6, k9, hxx, hD]
    have htext : ∀ c ids bs x D, (((s5.placeChildren c ids).shiftStored bs x).updateDocument D).text = s.text := by
      intro c ids bs x D
      have e5 : s5.text = s.text := z9.trans (c8.trans (n7.trans hs1t))
      have e6 := (updateBlocks_blocks (bs.map fun b => { b with documentPosition := b.documentPosition + x })
        (s5.placeChildren c ids) (s5.placeChildren c ids) rfl).2
      have e7 := congrArg Store.text e6
      exact e7.trans e5
    have hrope : ropeAddBlocks [(s2.next "block", fb.text), (n, b.map Prod.fst)] p.id (utf8Len (a.map Prod.fst)) st1 = some st5 := by
      have hz2 : ropeAddBlocks [(n, b.map Prod.fst)] (s2.next "block") (utf8Len fb.text) st3 = some st5 := by
        rw [hqid, hqt, r3] at z2; exact z2
      rw [ropeAddBlocks]
      have hc2 : ropeSplitBlock st1 p.id (utf8Len (a.map Prod.fst)) (s2.next "block") = some st2 := c2
      rw [hc2, Option.bind_some, htx.text, c3, Option.bind_some, ← htx.text]
      exact hz2
    rw [htext, ropePaste_eq e1, show utf8Len (a.map Prod.fst) + utf8Len ([] : List Char) = utf8Len (a.map Prod.fst) from rfl,
      hrope, Option.map_some]
    have hcomm : ∀ bs x, (((s5.placeChildren (pasteAt s d f fr L p R a b) [s2.next "block", n]).shiftStored bs x).updateDocument D).withText st5 =
        (((s5.placeChildren (pasteAt s d f fr L p R a b) [s2.next "block", n]).withText st5).shiftStored bs x).updateDocument D := by
      intro bs x
      unfold Store.shiftStored
      rw [updateBlocks_withText]
      rfl
    rw [hcomm]
    have f1' : (((s5.placeChildren (pasteAt s d f fr L p R a b) [s2.next "block", n]).withText st5).shiftStored
        ((pasteAt s d f fr L p R a b).blocks.drop (L.length + 1)) xx).updateDocument D = s' := by
      rw [← hqid]; exact f1
    rw [f1', ← hrun, hflen, SPara.text_length]
  · refine ⟨hqc, by subst hq; rfl, ?_⟩
    have e : q.shape.list = l := by subst hq; rfl
    rw [e]
    refine n4.mono ?_
    intro i e hi
    rw [f4, z8, c6]; exact hi
  · intro hb
    have hpl : ∀ q : SPara, q ∈ L → q.id ≠ p.id ∧ q.id < s.next "block" := by
      intro q hq
      have hnd := h.ids_nodup
      rw [List.map_append, List.map_cons, List.nodup_append] at hnd
      exact ⟨hnd.2.2 _ (List.mem_map_of_mem hq) _ (by simp), h.fresh q (by simp [hq])⟩
    have hpf : p.id < s.next "block" := h.fresh p (by simp)
    have hb5 : ∀ i, i < s.next "block" → s5.blocks i = s1.blocks i := by
      intro i hi
      rw [z5 i (by omega), c5, if_neg (by omega), n6]
    apply f5
    · apply positions
      · intro A q B e
        obtain ⟨h1, h2⟩ := hpl q (by rw [e]; simp)
        rw [hb5 _ h2, hs1b, if_neg h1]
        exact hp A q (B ++ p :: R) (by rw [e]; simp)
      · exact ⟨_, by rw [hb5 _ hpf, hs1b, if_pos rfl], rfl⟩
      · intro A x B e
        have hlen : (run : Int) = charsBefore (paras L) + (a.length + 1) := by
          rw [← hrun, hplen, hb]; simp; omega
        cases A with
        | nil =>
          simp only [List.nil_append, List.cons.injEq] at e
          have hx : s5.blocks x.id = some { ({ fb.format with id := 0, list := l, documentPosition := run } : Block) with id := s2.next "block" } := by
            rw [← e.1, hqid, z5 _ (by omega), c5, if_pos rfl]
          exact ⟨_, hx, by rw [charsBefore_paras_nil]; simpa using hlen⟩
        | cons y A =>
          simp only [List.cons_append, List.cons.injEq] at e
          obtain ⟨rfl, e⟩ := e
          cases A with
          | nil =>
            simp only [List.nil_append, List.cons.injEq] at e
            rw [← e.1]
            refine ⟨blk, z6, ?_⟩
            rw [z7, hlen, charsBefore_paras_cons, charsBefore_paras_nil, hqc, hflen]
            simp; omega
          | cons y' A => simp at e
    · rw [← hxx, charsBefore_paras_two, charsBefore_paras_cons, charsBefore_paras_cons, charsBefore_paras_cons, charsBefore_paras_nil,
        hclen, hrlen, hplen, hqc, hflen, ← hrun, hplen, hb]
      simp; omega

theorem Flat.pasteInline {fb : FragBlock} (h : Flat s d f (L ++ p :: R)) (hp : Placed s (L ++ p :: R))
    (hl : ListsOk s d (L ++ p :: R)) (hf : s.frames f = some fr) (hc : p.chars = a ++ b) (htx : fb.IsText) (pos : Int) :
    ∃ s', s.pasteInline (pasteAt s d f fr L p R a b) pos fb = some (s', ⟨pos + fb.chars.length, 0⟩) ∧
      Flat s' { d with characterCount := d.characterCount + fb.chars.length } f (L ++ { p with chars := a ++ fb.chars ++ b } :: R) ∧
      ListsOk s' { d with characterCount := d.characterCount + fb.chars.length } (L ++ { p with chars := a ++ fb.chars ++ b } :: R) ∧
      Placed s' (L ++ { p with chars := a ++ fb.chars ++ b } :: R) := by
  have hflen := state_len htx
  by_cases h0 : fb.chars = []
  · have e : ({ p with chars := a ++ fb.chars ++ b } : SPara) = p := by rw [h0, List.append_nil, ← hc]
    have e2 : ({ d with characterCount := d.characterCount + fb.chars.length } : Document) = d := by rw [h0]; simp
    rw [e, e2]
    refine ⟨s, ?_, h, hl, hp⟩
    unfold Store.pasteInline
    dsimp only
    rw [if_pos (by rw [hflen, h0]; rfl), h0]; simp
  have hadd := h.adding hf
  have hco : fr.childOrder = (L ++ p :: R).map fun q => (q.id : Int) := by
    obtain ⟨fr', g1, g2, g3, g4⟩ := h.frame
    rw [hf, Option.some.injEq] at g1
    rw [g1]; exact g3
  have hst0 : StyledOk ((s.formatRuns p.id).getD []) (a ++ b) := hc ▸ h.formats p (by simp)
  have hplen : p.text.length = a.length + b.length := by rw [SPara.text_length, hc, List.length_append]
  have hrep : Repr s.text (paras L ++ (.block p.id, a.map Prod.fst ++ b.map Prod.fst) :: paras R) := by
    have := h.text
    rw [paras_append, paras_cons] at this
    have e : p.text = a.map Prod.fst ++ b.map Prod.fst := by simp [SPara.text, hc]
    rw [e] at this
    exact this
  obtain ⟨st1, e1, e2⟩ := insertInBlock_repr (fb.chars.map Prod.fst) hrep
  obtain ⟨g1, g2⟩ := fragState_styled htx
  have hst1 := hst0.paste g1
  have ht : Repr st1 (paras (L ++ ⟨p.id, a ++ fb.chars ++ b, p.shape⟩ :: R)) := by
    rw [paras_append, paras_cons]
    simpa [SPara.text] using e2
  have a1 := hadd.set (blk := p.entity (charsBefore (paras L))) (cs := a ++ fb.chars ++ b) (shape := p.shape) rfl hst1 ht
  generalize hs1 : (s.putBlock (p.entity (charsBefore (paras L)))).writeState p.id _ [] = s1 at a1
  have hs1t : s1.text = s.text := by subst hs1; rfl
  have hs1b : ∀ i, s1.blocks i = if i = p.id then some (p.entity (charsBefore (paras L))) else s.blocks i := by
    intro i; subst hs1; simp [Store.writeState, Store.putBlock, SPara.entity]
  have hfl := a1.finish_nil (p0 := p) (by
    obtain ⟨bs, x1, x2⟩ := a1.frame
    exact ⟨_, x1, hco⟩) rfl
  have eapp : L ++ (⟨p.id, a ++ fb.chars ++ b, p.shape⟩ : SPara) :: R = (L ++ [⟨p.id, a ++ fb.chars ++ b, p.shape⟩]) ++ R := by simp
  rw [eapp] at hfl
  generalize hD : ({ d with characterCount := d.characterCount + (fb.state.len : Int) } : Document) = D
  obtain ⟨s', f1, f2, f3, f4, f5, f6⟩ := hfl.close (D := D) (by subst hD; rfl) ((charsBefore (paras L) : Int) + (p.text.length + 1)) fb.state.len
  have hkd : keepDoc D (some d) = { d with characterCount := d.characterCount + (fb.chars.length : Int) } := by
    subst hD
    rw [hflen]; rfl
  rw [hkd] at f2
  rw [← eapp] at f2 f6
  have hsl : s'.lists = s.lists := by rw [f3]; subst hs1; rfl
  have hsn : s'.next "list" = s.next "list" := by
    unfold Store.next; rw [f4]; subst hs1; rfl
  refine ⟨s', ?_, f2, ?_, ?_⟩
  · unfold Store.pasteInline
    have k1 : (pasteAt s d f fr L p R a b).cur = p.entity (charsBefore (paras L)) := rfl
    have k5 : (pasteAt s d f fr L p R a b).off = utf8Len (a.map Prod.fst) := rfl
    have k8 : (pasteAt s d f fr L p R a b).index = L.length := rfl
    have k9 : (pasteAt s d f fr L p R a b).document = d := rfl
    have k10 : (p.entity (charsBefore (paras L))).id = p.id := rfl
    have k11 : (pasteAt s d f fr L p R a b).runs = (s.formatRuns p.id).getD [] := rfl
    have k12 : (pasteAt s d f fr L p R a b).blocks = placed 0 (L ++ p :: R) := rfl
    have k13 : sortByKey (fun i : Img CharFormat => (i.off : Int))
      (shiftImagesForInsert (pasteAt s d f fr L p R a b).imgs (utf8Len (a.map Prod.fst)) (utf8Len fb.text) ++
        moveImages (utf8Len (a.map Prod.fst)) []) = [] := by
      have : (pasteAt s d f fr L p R a b).imgs = [] := rfl
      rw [this]; simp [shiftImagesForInsert, moveImages, sortByKey]
    dsimp only
    rw [if_neg (by rw [hflen]; simpa using h0), k1, updateBlock_same hadd, k10, k5, g2, k13, k11, k8, k9, k12, htx.text, hs1, hs1t,
      e1, Option.map_some, pasteAt_rest, hD]
    have f1' : _ = s' := f1
    rw [f1', hflen]
  · refine ⟨by rw [hsl]; exact hl.known, by rw [hsl]; exact hl.only, ?_, hl.nodup, by rw [hsl, hsn]; exact hl.fresh⟩
    intro q hq
    simp only [List.mem_append, List.mem_cons] at hq
    rcases hq with hq | rfl | hq
    · exact hl.items q (by simp [hq])
    · exact hl.items p (by simp)
    · exact hl.items q (by simp [hq])
  · have hpl : ∀ q : SPara, q ∈ L → q.id ≠ p.id := by
      intro q hq
      have hnd := h.ids_nodup
      rw [List.map_append, List.map_cons, List.nodup_append] at hnd
      exact hnd.2.2 _ (List.mem_map_of_mem hq) _ (by simp)
    apply f6
    · apply positions
      · intro A q B e
        have hb' := hs1b q.id
        rw [if_neg (hpl q (by rw [e]; simp))] at hb'
        have := hp A q (B ++ p :: R) (by rw [e]; simp)
        rw [← hb'] at this
        exact this
      · exact ⟨_, (hs1b p.id).trans (if_pos rfl), rfl⟩
      · intro A q B e; simp at e
    · rw [charsBefore_paras_append, hplen, hflen]
      simp; omega

end Verif
