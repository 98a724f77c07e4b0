import Verif.Lemmas.Flat
/- `insert_block` on a document of one frame. -/
namespace Verif

variable {s : Store} {d : Document} {f : Nat} {ps L R M : List SPara} {p : SPara} {a b m : List SChar}

@[simp] theorem IdMap.insert_get {α : Type} (m : IdMap α) (k : Nat) (v : α) (i : Nat) :
    (m.insert k v) i = if i = k then some v else m i := rfl

@[simp] theorem IdMap.erase_get {α : Type} (m : IdMap α) (k : Nat) (i : Nat) :
    (m.erase k) i = if i = k then none else m i := rfl

@[simp] theorem IdMap.mapValues_get {α : Type} (m : IdMap α) (g : α → α) (i : Nat) :
    (m.mapValues g) i = (m i).map g := rfl

theorem searchChildren_here (sub : Nat → Option (Option Nat)) (fid target : Nat) (l : List Nat)
    (hpos : ∀ x ∈ l, 0 < x) (ht : target ∈ l) :
    Store.searchChildren sub fid target (l.map fun x : Nat => (x : Int)) = some (some fid) := by
  induction l with
  | nil => simp at ht
  | cons x l ih =>
    have hx := hpos x (by simp)
    simp only [List.map_cons, Store.searchChildren]
    by_cases h : x = target
    · rw [if_pos ⟨by omega, by simpa using h⟩]
    · rw [if_neg (by simp [h]), if_neg (by omega)]
      exact ih (fun y hy => hpos y (by simp [hy])) (by
        rcases List.mem_cons.mp ht with e | e
        · exact absurd e.symm h
        · exact e)

theorem Flat.ownerFrame (h : Flat s d f ps) (hp : p ∈ ps) (fuel : Nat) :
    s.ownerFrame p.id (fuel + 1) f = some (some f) := by
  obtain ⟨fr, h1, h2, h3, h4⟩ := h.frame
  unfold Store.ownerFrame
  rw [h1, Option.bind_some, h3]
  have : (ps.map fun p => (p.id : Int)) = (ps.map SPara.id).map fun x : Nat => (x : Int) := by
    simp [Function.comp_def]
  rw [this, searchChildren_here]
  · rfl
  · intro x hx
    obtain ⟨q, hq, rfl⟩ := List.mem_map.mp hx
    exact h.positive q hq
  · exact List.mem_map_of_mem hp

theorem createBlock_new {fr : Frame} {blk : Block} (hf : s.frames f = some fr) (h0 : blk.id = 0)
    (hall : ∀ i ∈ fr.blocks, (s.blocks i).isSome) :
    s.createBlock blk f (-1) = some (s.next "block", { s with
      counters := (s.nextId "block").2.counters
      blocks := s.blocks.insert (s.next "block") { blk with id := s.next "block" }
      frames := s.frames.insert f { fr with blocks := fr.blocks ++ [s.next "block"] } }) := by
  unfold Store.createBlock Store.insertNewBlock
  rw [if_pos h0]
  simp only [Option.bind_some]
  have e1 : (s.nextId "block").1 = s.next "block" := rfl
  have hfr : Store.frameBlocks { (s.nextId "block").2 with
      blocks := (s.nextId "block").2.blocks.insert (s.nextId "block").1
        { blk with id := (s.nextId "block").1 } } f = fr.blocks := by
    simp [Store.frameBlocks, Store.nextId, hf]
  rw [hfr]
  unfold Store.setFrameBlocks
  rw [if_pos]
  · simp only [Store.nextId, hf, Option.map_some, insertAtIndex_neg]
    rfl
  · rw [List.all_eq_true]
    intro i hi
    rw [insertAtIndex_neg] at hi
    simp only [Store.nextId, IdMap.insert_get]
    split
    · rfl
    · rcases List.mem_append.mp hi with hi | hi
      · exact hall i hi
      · rename_i hne
        simp only [List.mem_singleton] at hi
        exact absurd hi hne
where
  insertAtIndex_neg {l : List Nat} {x : Nat} : Store.insertAtIndex l (-1) x = l ++ [x] := by
    unfold Store.insertAtIndex; rw [if_neg (by omega)]

theorem findIdx_child (L R : List SPara) (p : SPara) (hn : ((L ++ p :: R).map SPara.id).Nodup)
    (hpos : 0 < p.id) :
    ((L ++ p :: R).map fun q => (q.id : Int)).findIdx?
      (fun e => decide (e > 0) && e.toNat == p.id) = some L.length := by
  rw [List.findIdx?_eq_some_iff_getElem]
  refine ⟨by simp, ?_, ?_⟩
  · simp; omega
  · intro j hj
    have hjl : j < L.length := by omega
    simp only [List.getElem_map, List.getElem_append_left hjl, Int.toNat_natCast]
    have : L[j].id ≠ p.id := by
      rw [List.map_append, List.nodup_append] at hn
      exact hn.2.2 L[j].id (List.mem_map_of_mem (List.getElem_mem hjl)) p.id (by simp)
    simp [this]

theorem insertIdx_child (L R : List SPara) (p q : SPara) :
    ((L ++ p :: R).map fun q => (q.id : Int)).insertIdx (L.length + 1) (q.id : Int) =
      (L ++ p :: q :: R).map fun q => (q.id : Int) := by
  induction L with
  | nil => simp
  | cons x L ih => simpa using ih

/-- The position an `insert_block` splits at and the paragraph it creates. -/
theorem Flat.insertBlock (h : Flat s d f (L ++ p :: R)) (hc : p.chars = a ++ b) :
    ∃ s', s.insertBlock ((charsBefore (paras L) + a.length : Nat) : Int) =
        some (s', ⟨((charsBefore (paras L) + a.length + 1 : Nat) : Int), s.next "block"⟩, s.snapshot) ∧
      Flat s' { d with blockCount := d.blockCount + 1 } f
        (L ++ { p with chars := a } :: ⟨s.next "block", b, p.shape⟩ :: R) ∧
      s'.counters = (s.nextId "block").2.counters := by
  have hpm : p ∈ L ++ p :: R := by simp
  have hE : Entities (L ++ p :: R) (s.getBlocks ((L ++ p :: R).map SPara.id)) := by
    rw [h.getBlocks]; exact .of_map _ _
  obtain ⟨i, hi⟩ := hE.find hpm
  have hf1 := h.toShows.findIn hc hE hi
  obtain ⟨fr, hfr, hfid, hfc, hfb⟩ := h.frame
  have hnew : ∀ q ∈ L ++ p :: R, q.id ≠ s.next "block" := fun q hq => by
    have := h.fresh q hq; omega
  have htxt : p.text = a.map Prod.fst ++ b.map Prod.fst := by simp [SPara.text, hc]
  have hoff : logicalOffsetToByte p.text (s.imagesOf p.id) (a.length : Int) =
      utf8Len (a.map Prod.fst) := by rw [h.offset hpm, text_take hc]
  have himg : s.imagesOf p.id = [] := h.images p hpm
  have hblk := isBlock_entity p (charsBefore (paras L))
  have hid : (p.entity (charsBefore (paras L))).id = p.id := rfl
  unfold Store.insertBlock
  rw [h.docId, Option.bind_some, h.document, Option.bind_some]
  rw [h.docFrames, List.head?_cons, Option.bind_some, h.flowIds, Option.bind_some]
  dsimp only
  rw [hf1, Option.bind_some]
  dsimp only
  rw [hid, h.content hpm, Option.bind_some]
  rw [hoff, htxt, splitAtByte_append, Option.bind_some, himg]
  dsimp only
  generalize hs1 : ((s.updateBlock (p.entity (charsBefore (paras L)))).editRuns p.id fun _ =>
      (splitRunsAt (s.runsOf p.id) (utf8Len (a.map Prod.fst))).1).editImages p.id
        (fun _ => (splitImagesAt ([] : List (Img CharFormat)) (utf8Len (a.map Prod.fst))).1) = s1
  have hsh1 := h.toShows.updateBlock hpm hblk
  have h1f : s1.frames = s.frames := by subst hs1; rfl
  have h1b : s1.blocks = (s.updateBlock (p.entity (charsBefore (paras L)))).blocks := by subst hs1; rfl
  have h1t : s1.text = s.text := by subst hs1; rfl
  have h1c : s1.counters = s.counters := by subst hs1; rfl
  have h1d : s1.documents = s.documents := by subst hs1; rfl
  have h1o : s1.roots = s.roots := by subst hs1; rfl
  have h1n : s1.next "block" = s.next "block" := by simp [Store.next, h1c]
  have h1r : ∀ j, s1.formatRuns j = if j = p.id then
      some (splitRunsAt (s.runsOf p.id) (utf8Len (a.map Prod.fst))).1 else s.formatRuns j := by
    intro j; subst hs1; rfl
  have h1i : ∀ j, s1.blockImages j = if j = p.id then some [] else s.blockImages j := by
    intro j; subst hs1; rfl
  have hown : s1.ownerFrame p.id (s1.frames.len + 1) f = some (some f) := by
    have := h.ownerFrame hpm s.frames.len
    unfold Store.ownerFrame at this ⊢
    rw [h1f]
    rw [hfr, Option.bind_some, hfc] at this ⊢
    have e : ((L ++ p :: R).map fun p => (p.id : Int)) =
      ((L ++ p :: R).map SPara.id).map fun x : Nat => (x : Int) := by simp [Function.comp_def]
    rw [e, searchChildren_here]
    · rfl
    · intro x hx
      obtain ⟨q, hq, rfl⟩ := List.mem_map.mp hx
      exact h.positive q hq
    · exact List.mem_map_of_mem hpm
  rw [hown, Option.bind_some]
  dsimp only [Option.getD_some]
  rw [createBlock_new (fr := fr) (by rw [h1f]; exact hfr) rfl (by
    intro j hj
    have hj' := hfb.mem_iff.mp hj
    obtain ⟨q, hq, rfl⟩ := List.mem_map.mp hj'
    obtain ⟨blk, hblk', _⟩ := hsh1.block q hq
    rw [h1b, hblk']; rfl), Option.bind_some, h1n]
  dsimp only
  generalize hnx : s.next "block" = n at *
  generalize hs2 : (Store.editImages (Store.editRuns ({ s1 with
      counters := (s1.nextId "block").2.counters
      blocks := s1.blocks.insert n
        { p.entity (charsBefore (paras L)) with
          id := n
          documentPosition := (p.entity (charsBefore (paras L))).documentPosition +
            (a.map Prod.fst).length + (((splitImagesAt ([] : List (Img CharFormat))
              (utf8Len (a.map Prod.fst))).1.length : Nat) : Int) + 1 }
      frames := s1.frames.insert f { fr with blocks := fr.blocks ++ [n] } } : Store) n
      fun _ => (splitRunsAt (s.runsOf p.id) (utf8Len (a.map Prod.fst))).2) n
      fun _ => (splitImagesAt ([] : List (Img CharFormat)) (utf8Len (a.map Prod.fst))).2) = s2
  have h2f : s2.frames = s.frames.insert f { fr with blocks := fr.blocks ++ [n] } := by
    subst hs2; rw [← h1f]; rfl
  have h2b : s2.blocks = s1.blocks.insert n ((⟨n, b, p.shape⟩ : SPara).entity
      (charsBefore (paras L) + a.length + 1)) := by
    subst hs2; simp [Store.editImages, Store.editRuns, SPara.entity, splitImagesAt]
  have h2t : s2.text = s.text := by subst hs2; rw [← h1t]; rfl
  have h2c : s2.counters = (s.nextId "block").2.counters := by
    subst hs2; simp [Store.editImages, Store.editRuns, Store.nextId, h1c]
  have h2d : s2.documents = s.documents := by subst hs2; rw [← h1d]; rfl
  have h2o : s2.roots = s.roots := by subst hs2; rw [← h1o]; rfl
  have h2r : ∀ j, s2.formatRuns j = if j = n then
      some (splitRunsAt (s.runsOf p.id) (utf8Len (a.map Prod.fst))).2 else s1.formatRuns j := by
    intro j; subst hs2; rfl
  have h2i : ∀ j, s2.blockImages j = if j = n then some [] else s1.blockImages j := by
    intro j; subst hs2; rfl
  -- the rope
  have ht := h.text
  rw [paras_append, paras_cons, htxt] at ht
  obtain ⟨r, hr, hrep⟩ := splitBlock_repr (new := n) ht (by
    rw [← htxt, ← paras_cons, ← paras_append, paras_fst]
    intro hm
    obtain ⟨q, hq, e⟩ := List.mem_map.mp hm
    exact hnew q hq (by simpa using e))
  rw [h2t, hr, Option.bind_some]
  have hfr2 : (s2.withText r).frames f = some { fr with blocks := fr.blocks ++ [n] } := by
    show s2.frames f = _
    rw [h2f]; simp
  rw [hfr2, Option.bind_some]
  dsimp only
  rw [hfc, findIdx_child L R p h.ids_nodup (h.positive p hpm)]
  simp only [Option.map_some, Option.getD_some]
  rw [insertIdx_child L R p ⟨n, b, p.shape⟩]
  generalize hs3 : ((s2.withText r).updateFrame { fr with
    blocks := fr.blocks ++ [n]
    childOrder := (L ++ p :: ⟨n, b, p.shape⟩ :: R).map fun q => (q.id : Int) }) = s3
  have h3f : ∀ g, s3.frames g = if g = f then some { fr with
      blocks := fr.blocks ++ [n]
      childOrder := (L ++ p :: ⟨n, b, p.shape⟩ :: R).map fun q => (q.id : Int) } else s.frames g := by
    intro g
    subst hs3
    have e : (s2.withText r).frames = s2.frames := rfl
    simp only [Store.updateFrame, IdMap.insert_get, hfid, e, h2f]
    by_cases hg : g = f
    · simp [hg, Store.keepFrame]
    · simp [hg]
  have h3b : s3.blocks = s2.blocks := by subst hs3; rfl
  have h3o : s3.roots = s.roots := by rw [← h2o]; subst hs3; rfl
  have h3d : s3.documents = s.documents := by rw [← h2d]; subst hs3; rfl
  have h3r : s3.formatRuns = s2.formatRuns := by subst hs3; rfl
  have h3i : s3.blockImages = s2.blockImages := by subst hs3; rfl
  have h3c : s3.counters = s2.counters := by subst hs3; rfl
  have h3t : s3.text = r := by subst hs3; rfl
  have h3n : s3.next "block" = n + 1 := by
    simp [Store.next, h3c, h2c, Store.nextId] at hnx ⊢
    omega
  -- membership in the new list
  have hmem : ∀ q ∈ L ++ { p with chars := a } :: ⟨n, b, p.shape⟩ :: R,
      (q = ⟨n, b, p.shape⟩) ∨ (q.id ≠ n ∧ ∃ q0 ∈ L ++ p :: R, q0.id = q.id ∧ q0.shape = q.shape ∧
        ((q.id ≠ p.id ∧ q = q0) ∨ q = { p with chars := a })) := by
    intro q hq
    have hnd := h.ids_nodup
    simp only [List.mem_append, List.mem_cons] at hq
    rcases hq with hq | rfl | rfl | hq
    · refine .inr ⟨hnew q (by simp [hq]), q, by simp [hq], rfl, rfl, .inl ⟨?_, rfl⟩⟩
      rw [List.map_append, List.nodup_append] at hnd
      exact hnd.2.2 _ (List.mem_map_of_mem hq) _ (by simp)
    · exact .inr ⟨hnew p hpm, p, hpm, rfl, rfl, .inr rfl⟩
    · exact .inl rfl
    · refine .inr ⟨hnew q (by simp [hq]), q, by simp [hq], rfl, rfl, .inl ⟨?_, rfl⟩⟩
      rw [List.map_append, List.nodup_append, List.map_cons, List.nodup_cons] at hnd
      intro e
      exact hnd.2.1.1 (by rw [← e]; exact List.mem_map_of_mem hq)
  have hidsP : ((L ++ { p with chars := a } :: ⟨n, b, p.shape⟩ :: R).map SPara.id).Perm
      ((L ++ p :: R).map SPara.id ++ [n]) := by
    simp only [List.map_append, List.map_cons, List.append_assoc, List.cons_append]
    refine List.Perm.append_left _ (List.Perm.cons _ ?_)
    exact (List.perm_append_singleton n (R.map SPara.id)).symm
  have hmemid : ∀ i, i ∈ (L ++ { p with chars := a } :: ⟨n, b, p.shape⟩ :: R).map SPara.id ↔
      i ∈ (L ++ p :: R).map SPara.id ∨ i = n := by
    intro i; rw [hidsP.mem_iff, List.mem_append, List.mem_singleton]
  have hF : Flat s3 d f (L ++ { p with chars := a } :: ⟨n, b, p.shape⟩ :: R) := by
    constructor
    · constructor
      · rw [h3o]; exact h.root
      · rw [h3d]; exact h.document
      · rw [h3t]
        have : ({ p with chars := a } : SPara).text = a.map Prod.fst := rfl
        rw [paras_append, paras_cons, paras_cons, this]
        exact hrep
      · rw [h3b, h2b, h1b]
        have hn0 : (s.updateBlock (p.entity (charsBefore (paras L)))).blocks n = none :=
          hsh1.absent n (by
            intro hm
            obtain ⟨q, hq, e⟩ := List.mem_map.mp hm
            exact hnew q hq e)
        refine List.Perm.trans ?_ hidsP.symm
        simp only [IdMap.insert, hn0, Option.isSome_none, Bool.false_eq_true, if_false]
        exact hsh1.keys.append_right _
      · intro q hq
        rw [h3b, h2b, h1b]
        rcases hmem q hq with rfl | ⟨hne, q0, hq0, e1, e2, _⟩
        · exact ⟨_, by simp; rfl, isBlock_entity _ _⟩
        · obtain ⟨blk, hb1, hb2⟩ := hsh1.block q0 hq0
          refine ⟨blk, ?_, ?_⟩
          · simp only [IdMap.insert_get, hne, if_false]; rw [← e1]; exact hb1
          · rw [IsBlock, e1, e2] at hb2; exact hb2
      · intro i hi
        rw [hmemid, not_or] at hi
        rw [h3b, h2b, h1b]
        simp only [IdMap.insert_get, hi.2, if_false]
        exact hsh1.absent i hi.1
      · intro q hq
        rw [h3r, h2r]
        have hst := h.formats p hpm
        rw [hc] at hst
        rcases hmem q hq with rfl | ⟨hne, q0, hq0, e1, e2, ⟨hp', rfl⟩ | rfl⟩
        · simp only [if_true, Option.getD_some]
          exact hst.right
        · rw [if_neg hne, h1r, if_neg hp']
          exact h.formats q hq0
        · rw [if_neg hne, h1r, if_pos rfl]
          exact hst.left
      · intro q hq
        rw [h3i, h2i]
        rcases hmem q hq with rfl | ⟨hne, q0, hq0, e1, e2, ⟨hp', rfl⟩ | rfl⟩
        · simp
        · rw [if_neg hne, h1i, if_neg hp']
          exact h.images q hq0
        · rw [if_neg hne, h1i, if_pos rfl]
          rfl
      · intro q hq
        rw [h3n]
        have : q.id ∈ (L ++ { p with chars := a } :: ⟨n, b, p.shape⟩ :: R).map SPara.id :=
          List.mem_map_of_mem hq
        rcases (hmemid q.id).mp this with hm | hm
        · obtain ⟨q0, hq0, e⟩ := List.mem_map.mp hm
          have := h.fresh q0 hq0
          omega
        · omega
    · exact h.frames
    · exact h.tables
    · refine ⟨_, (h3f f).trans (if_pos rfl), hfid, ?_, ?_⟩
      · simp
      · exact (hfb.append_right [n]).trans hidsP.symm
    · intro g gr hg hgf blk hblk'
      rw [h3f, if_neg hgf] at hg
      have ho := h.others g gr hg hgf blk hblk'
      rw [hmemid, h3n, hnx.symm]
      rw [hnx] at ho ⊢
      exact ⟨fun hm => hm.elim ho.1 (by omega), by omega⟩
    · intro q hq
      have : q.id ∈ (L ++ { p with chars := a } :: ⟨n, b, p.shape⟩ :: R).map SPara.id :=
        List.mem_map_of_mem hq
      rcases (hmemid q.id).mp this with hm | hm
      · obtain ⟨q0, hq0, e⟩ := List.mem_map.mp hm
        rw [← e]; exact h.positive q0 hq0
      · have h1 := h.positive p hpm
        have h2 := h.fresh p hpm
        omega
    · simp
    · intro gr hg
      rw [h3f, if_pos rfl, Option.some.injEq] at hg
      have := h.plain _ hfr
      rw [← hg]; exact this
  have hdrop : ∀ x ∈ (s.getBlocks ((L ++ p :: R).map SPara.id)).drop (i + 1),
      ∃ q ∈ L ++ { p with chars := a } :: ⟨n, b, p.shape⟩ :: R, IsBlock q x := by
    intro x hx
    obtain ⟨q, hq, hqx⟩ := hE.all x (List.mem_of_mem_drop hx)
    simp only [List.mem_append, List.mem_cons] at hq
    rcases hq with hq | rfl | hq
    · exact ⟨q, by simp [hq], hqx⟩
    · exact ⟨{ q with chars := a }, by simp, hqx⟩
    · exact ⟨q, by simp [hq], hqx⟩
  obtain ⟨hs4, hsh4, hc4, hd4⟩ := hF.toShows.shiftStored 1 hdrop
  have hs5 := hs4.updateDocument (d' := { d with blockCount := d.blockCount + 1 }) rfl
  have hpos : (p.entity (charsBefore (paras L))).documentPosition +
      ((a.map Prod.fst).length : Int) + (((splitImagesAt ([] : List (Img CharFormat))
        (utf8Len (a.map Prod.fst))).1.length : Nat) : Int) + 1 =
      ((charsBefore (paras L) + a.length + 1 : Nat) : Int) := by
    simp [SPara.entity, splitImagesAt]
  rw [hpos]
  have hcnt : ((s3.shiftStored ((s.getBlocks ((L ++ p :: R).map SPara.id)).drop (i + 1)) 1).updateDocument
      { d with blockCount := d.blockCount + 1 }).counters = s3.counters := hc4
  refine ⟨_, rfl, hF.of_shell hs5 ?_ hcnt rfl rfl rfl, hcnt.trans (h3c.trans h2c)⟩
  exact hsh4.trans ⟨rfl, rfl, rfl, rfl, rfl, rfl⟩

end Verif
