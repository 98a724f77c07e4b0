import Verif.Lemmas.ReplaceScan
import Verif.Lemmas.Import
import Verif.Props.RopeStore
/- Search and replace when the stored positions are right. -/
namespace Verif
variable {s : Store} {d : Document} {f : Nat} {ps L R M : List SPara} {p : SPara}
open Store

/-- Two arrangements of the same list, one increasing and one strictly increasing, are equal. -/
theorem eq_of_sorted {α : Type} (key : α → Int) {l m : List α} (hp : l.Perm m)
    (hl : l.Pairwise fun x y => key x ≤ key y) (hm : m.Pairwise fun x y => key x < key y) : l = m := by
  induction l generalizing m with
  | nil => exact hp.nil_eq
  | cons x l ih =>
    cases m with
    | nil => exact absurd hp.symm.nil_eq (by simp)
    | cons y m =>
      rw [List.pairwise_cons] at hl hm
      have hxy : x = y := by
        rcases List.mem_cons.mp (hp.mem_iff.mp (List.mem_cons_self)) with e | e
        · exact e
        · rcases List.mem_cons.mp (hp.mem_iff.mpr (List.mem_cons_self)) with e' | e'
          · exact e'.symm
          · have h1 := hl.1 y e'; have h2 := hm.1 x e; omega
      subst hxy
      rw [ih hp.cons_inv hl.2 hm.2]

theorem placed_strict (r : Int) (qs : List SPara) :
    (placed r qs).Pairwise fun x y => x.documentPosition < y.documentPosition := by
  induction qs generalizing r with
  | nil => exact .nil
  | cons q qs ih =>
    refine .cons ?_ (ih _)
    intro x hx
    have := (placed_mem hx).1
    simp [SPara.entity]; omega

theorem map_entity_placed (g : SPara → Int) (r : Int) (qs : List SPara)
    (hg : ∀ L p R, qs = L ++ p :: R → g p = r + charsBefore (paras L)) :
    (qs.map fun p => p.entity (g p)) = placed r qs := by
  induction qs generalizing r with
  | nil => rfl
  | cons q qs ih =>
    rw [List.map_cons, placed]
    have h0 := hg [] q qs rfl
    rw [charsBefore_paras_nil] at h0
    rw [h0, show r + ((0 : Nat) : Int) = r by omega, ih]
    intro L p R e
    have := hg (q :: L) p R (by simp [e])
    rw [this, charsBefore_paras_cons]
    simp only [SPara.text, List.length_map]
    push_cast; omega

/-- With right positions, the sorted blocks are the paragraphs in order. -/
theorem Flat.sortedBlocks_placed (h : Flat s d f ps) (hp : Placed s ps) : s.sortedBlocks d.id = placed 0 ps := by
  have e : (ps.map fun p => p.entity (s.storedPos p)) = placed 0 ps := by
    apply map_entity_placed
    intro L p R e
    obtain ⟨b, h1, h2⟩ := hp L p R e
    simp [Store.storedPos, h1, h2]
  refine eq_of_sorted Block.documentPosition ?_ (sortByKey_sorted _ _) (placed_strict 0 ps)
  rw [← e]; exact h.sortedBlocks_perm

/-- The text that is searched is the text of the document. -/
theorem Flat.searchText (h : Flat s d f ps) : s.searchText d.id = some (docText ps) := by
  unfold Store.searchText
  have : (s.docFrames d.id).length = 1 := by rw [h.docFrames]; rfl
  rw [this, (C14_reading h.text).2.1 (paras_isTable ps), paras_snd]
  rfl

theorem Shows.blockFor_placed (h : Shows s d ps) (A B : List SPara) (r i o : Nat) (hA : ∀ q ∈ A ++ p :: B, q ∈ ps)
    (ho : o < p.chars.length) :
    Store.blockForPosition s.text (r + charsBefore (paras A) + o) i (placed (r : Int) (A ++ p :: B)) =
      some (some (i + A.length, o, p.chars.length)) := by
  induction A generalizing r i with
  | nil =>
    simp only [List.nil_append, placed, Store.blockForPosition, charsBefore_paras_nil]
    have hid : (p.entity (r : Int)).id = p.id := rfl
    have hdp : (p.entity (r : Int)).documentPosition = r := rfl
    have hpl : p.text.length = p.chars.length := by simp [SPara.text]
    rw [hid, hdp, h.charLength (hA p (by simp)), Option.bind_some, hpl, if_pos (by push_cast; omega)]
    congr 4 <;> omega
  | cons q A ih =>
    simp only [List.cons_append, placed, Store.blockForPosition]
    have hid : (q.entity (r : Int)).id = q.id := rfl
    have hdp : (q.entity (r : Int)).documentPosition = r := rfl
    have hpl : q.text.length = q.chars.length := by simp [SPara.text]
    rw [hid, hdp, h.charLength (hA q (by simp)), Option.bind_some, hpl, charsBefore_paras_cons, if_neg (by push_cast; omega)]
    have := ih (r + (q.chars.length + 1)) (i + 1) fun x hx => hA x (by simp at hx ⊢; right; exact hx)
    have e1 : ((r + (q.chars.length + 1) : Nat) : Int) = (r : Int) + ((q.chars.length : Int) + 1) := by push_cast; omega
    rw [e1] at this
    rw [show r + (q.chars.length + 1 + charsBefore (paras A)) + o =
      r + (q.chars.length + 1) + charsBefore (paras A) + o by omega, this]
    simp only [List.length_cons]
    congr 3; omega

/-- The matches of one paragraph are those that lie in it. -/
theorem Flat.mine_placed (h : Flat s d f (L ++ p :: R)) (hp : Placed s (L ++ p :: R)) (ms : List (Nat × Nat))
    (hpos : ∀ m ∈ ms, 0 < m.2) :
    minePairs (s.sortedBlocks d.id) (ms.filterMap (placeMatch s (s.sortedBlocks d.id))) p.id =
      within (charsBefore (paras L)) p.chars.length ms := by
  have hl := h.listed
  rw [h.sortedBlocks_placed hp] at hl ⊢
  obtain ⟨x0, hx0, hx0p⟩ := hp L p R rfl
  have hpm : p ∈ L ++ p :: R := by simp
  have hkey : ∀ m ∈ ms, (∃ v, placeMatch s (placed 0 (L ++ p :: R)) m = some v ∧
        v.pid (placed 0 (L ++ p :: R)) = p.id ∧ v = ⟨m.2, L.length, m.1 - charsBefore (paras L)⟩ ∧
        (charsBefore (paras L) ≤ m.1 ∧ m.1 + m.2 ≤ charsBefore (paras L) + p.chars.length)) ∨
      ((∀ v, placeMatch s (placed 0 (L ++ p :: R)) m = some v → v.pid (placed 0 (L ++ p :: R)) ≠ p.id) ∧
        ¬ (charsBefore (paras L) ≤ m.1 ∧ m.1 + m.2 ≤ charsBefore (paras L) + p.chars.length)) := by
    intro m hm
    have hm2 := hpos m hm
    by_cases hw : charsBefore (paras L) ≤ m.1 ∧ m.1 + m.2 ≤ charsBefore (paras L) + p.chars.length
    · left
      have hb := h.toShows.blockFor_placed (p := p) L R 0 0 (m.1 - charsBefore (paras L)) (fun q hq => hq) (by omega)
      rw [show 0 + charsBefore (paras L) + (m.1 - charsBefore (paras L)) = m.1 by omega, Nat.zero_add] at hb
      refine ⟨⟨m.2, L.length, m.1 - charsBefore (paras L)⟩, ?_, ?_, rfl, hw⟩
      · unfold placeMatch Store.matchInBlock
        rw [show (0 : Int) = ((0 : Nat) : Int) from rfl, hb]
        simp only [Option.map_some, Option.join_some]
        rw [if_pos (by omega)]; rfl
      · simp only [Store.ValidMatch.pid]
        rw [placed_append, List.getElem?_append_right (by rw [placed_length]; omega), placed_length]
        simp [placed, SPara.entity]
    · right
      refine ⟨?_, hw⟩
      intro v hv he
      obtain ⟨h1, x, q, h2, h3, h4, h5, h6⟩ := (h.toShows.matchInBlock _ hl.entities.all m).choose_spec.2 v hv
      have hx : x.id = p.id := by rw [← he]; simp [Store.ValidMatch.pid, h2]
      have hq : q = p := (h.toShows.unique hpm h3 (by rw [← hx, h4])).symm ▸ rfl
      subst hq
      have hst := hl.stored x (List.mem_of_getElem? h2)
      rw [hx, hx0] at hst
      cases hst
      omega
  unfold minePairs within
  clear hpos
  induction ms with
  | nil => rfl
  | cons m ms ih =>
    have hi := ih fun x hx => hkey x (by simp [hx])
    rcases hkey m (by simp) with ⟨v, h1, h2, h3, h4⟩ | ⟨h1, h2⟩
    · rw [List.filterMap_cons_some h1, List.filter_cons, if_pos (by simpa using h2), List.map_cons, hi,
        List.filter_cons, if_pos (by simpa using h4), List.map_cons, h3]
    · rw [List.filter_cons (x := m), if_neg (by rw [decide_eq_true_eq]; exact h2)]
      cases hv : placeMatch s (placed 0 (L ++ p :: R)) m with
      | none => rw [List.filterMap_cons_none hv]; exact hi
      | some v =>
        rw [List.filterMap_cons_some hv, List.filter_cons, if_neg (by simpa using h1 v hv)]
        exact hi

theorem rewriteDoc_eq (rep : List Char) (ms : List (Nat × Nat)) (g : SPara → List (Nat × Nat)) (start : Nat)
    (qs : List SPara) (hg : ∀ L p R, qs = L ++ p :: R → g p = within (start + charsBefore (paras L)) p.chars.length ms) :
    (qs.map fun p => { p with chars := rewriteAll rep (g p) p.chars }) = rewriteDoc rep ms start qs := by
  induction qs generalizing start with
  | nil => rfl
  | cons q qs ih =>
    rw [List.map_cons, rewriteDoc]
    have h0 := hg [] q qs rfl
    rw [charsBefore_paras_nil, Nat.add_zero] at h0
    rw [h0, ih]
    intro L p R e
    have := hg (q :: L) p R (by simp [e])
    rw [this, charsBefore_paras_cons]
    congr 1; omega

theorem Flat.rewrite_placed (h : Flat s d f ps) (hp : Placed s ps) (rep : List Char) (ms : List (Nat × Nat))
    (hpos : ∀ m ∈ ms, 0 < m.2) :
    rewriteMatches rep (s.sortedBlocks d.id) (ms.filterMap (placeMatch s (s.sortedBlocks d.id))) ps =
      rewriteDoc rep ms 0 ps := by
  rw [rewriteMatches_eq]
  apply rewriteDoc_eq rep ms
    (fun p => minePairs (s.sortedBlocks d.id) (ms.filterMap (placeMatch s (s.sortedBlocks d.id))) p.id)
  intro L p R e
  subst e
  rw [h.mine_placed hp ms hpos, Nat.zero_add]

/-! ### The stored positions afterwards -/

/-- How far the end of a block moves. -/
def blockDelta (n : Nat) (vs : List ValidMatch) (blocks : List Block) (b : Block) : Int :=
  ((blocks.findIdx? fun x => x.id == b.id).bind (deltaOf n vs)).getD 0

theorem deltaOf_getD (n : Nat) (vs : List ValidMatch) (i : Nat) :
    (deltaOf n vs i).getD 0 = ((vs.filter fun v => v.block == i).map fun v => (n : Int) - (v.len : Int)).sum := by
  unfold deltaOf
  dsimp only
  split
  · next h => rw [h]; rfl
  · rfl

theorem updateBlocks_absent (s : Store) (bs : List Block) (i : Nat) (h : i ∉ bs.map Block.id) :
    (s.updateBlocks bs).blocks i = s.blocks i := by
  induction bs generalizing s with
  | nil => rfl
  | cons x bs ih =>
    simp only [List.map_cons, List.mem_cons, not_or] at h
    have : s.updateBlocks (x :: bs) = (s.updateBlock x).updateBlocks bs := rfl
    rw [this, ih _ h.2]
    show (s.blocks.insert x.id (Store.keepBlock x (s.blocks x.id))) i = s.blocks i
    rw [IdMap.insert_get, if_neg]
    intro e; exact h.1 (by first | exact e | exact e.symm)

theorem shiftedBlocks_ids {n : Nat} {vs : List ValidMatch} {blocks bs : List Block} {x : Int} {i : Nat}
    (h : i ∈ (shiftedBlocks n vs blocks x bs).map Block.id) : i ∈ bs.map Block.id := by
  obtain ⟨y, hy, rfl⟩ := List.mem_map.mp h
  obtain ⟨z, hz, k, rfl⟩ := shiftedBlocks_mem hy
  exact List.mem_map.mpr ⟨z, hz, rfl⟩

theorem shifted_position (n : Nat) (vs : List ValidMatch) (blocks : List Block) (A B : List Block) (x : Block) (sh : Int)
    (s : Store) (hx : s.blocks x.id = some x) (hnd : ((A ++ x :: B).map Block.id).Nodup) :
    ∃ y, (s.updateBlocks (shiftedBlocks n vs blocks sh (A ++ x :: B))).blocks x.id = some y ∧
      y.documentPosition = x.documentPosition + sh + (A.map (blockDelta n vs blocks)).sum := by
  induction A generalizing sh s with
  | nil =>
    simp only [List.nil_append, List.map_cons, List.nodup_cons] at hnd
    have hnot : x.id ∉ (shiftedBlocks n vs blocks (sh + blockDelta n vs blocks x) B).map Block.id :=
      fun hh => hnd.1 (shiftedBlocks_ids hh)
    simp only [List.nil_append, shiftedBlocks, List.map_nil, List.sum_nil]
    change ∃ y, (s.updateBlocks (if sh ≠ 0 then _ :: shiftedBlocks n vs blocks (sh + blockDelta n vs blocks x) B
      else shiftedBlocks n vs blocks (sh + blockDelta n vs blocks x) B)).blocks x.id = some y ∧ _
    by_cases h0 : sh = 0
    · rw [if_neg (by simpa using h0), updateBlocks_absent _ _ _ hnot]
      exact ⟨x, hx, by omega⟩
    · rw [if_pos h0]
      have : ∀ z bs, s.updateBlocks (z :: bs) = (s.updateBlock z).updateBlocks bs := fun _ _ => rfl
      rw [this, updateBlocks_absent _ _ _ hnot]
      refine ⟨Store.keepBlock { x with documentPosition := x.documentPosition + sh } (s.blocks x.id), ?_, ?_⟩
      · show (s.blocks.insert x.id _) x.id = _
        rw [IdMap.insert_get, if_pos rfl]
      · rw [hx]; simp [Store.keepBlock]
  | cons a A ih =>
    simp only [List.cons_append, List.map_cons, List.nodup_cons] at hnd
    have hax : a.id ≠ x.id := fun e => hnd.1 (by simp [e])
    simp only [List.cons_append, shiftedBlocks, List.map_cons, List.sum_cons]
    change ∃ y, (s.updateBlocks (if sh ≠ 0 then _ :: shiftedBlocks n vs blocks (sh + blockDelta n vs blocks a) (A ++ x :: B)
      else shiftedBlocks n vs blocks (sh + blockDelta n vs blocks a) (A ++ x :: B))).blocks x.id = some y ∧ _
    by_cases h0 : sh = 0
    · rw [if_neg (by simpa using h0)]
      obtain ⟨y, h1, h2⟩ := ih (sh + blockDelta n vs blocks a) s hx hnd.2
      exact ⟨y, h1, by omega⟩
    · rw [if_pos h0]
      have : ∀ z bs, s.updateBlocks (z :: bs) = (s.updateBlock z).updateBlocks bs := fun _ _ => rfl
      rw [this]
      have hx' : (s.updateBlock { a with documentPosition := a.documentPosition + sh }).blocks x.id = some x := by
        show (s.blocks.insert a.id _) x.id = _
        rw [IdMap.insert_get, if_neg (by first | exact hax | exact fun e => hax e.symm)]; exact hx
      obtain ⟨y, h1, h2⟩ := ih (sh + blockDelta n vs blocks a) _ hx' hnd.2
      exact ⟨y, h1, by omega⟩

theorem blockDelta_placed (n : Nat) (vs : List ValidMatch)
    (hnd : ((L ++ p :: R).map SPara.id).Nodup) (hvs : ∀ v ∈ vs, v.block < (L ++ p :: R).length) (pos : Int) :
    blockDelta n vs (placed 0 (L ++ p :: R)) (p.entity pos) =
      ((minePairs (placed 0 (L ++ p :: R)) vs p.id).map fun m => (n : Int) - (m.2 : Int)).sum := by
  unfold blockDelta
  have hid : (p.entity pos).id = p.id := rfl
  rw [hid, placed_find 0 L R p hnd, Option.bind_some, deltaOf_getD, minePairs, List.map_map]
  have : vs.filter (fun v => v.block == L.length) = vs.filter (fun v => v.pid (placed 0 (L ++ p :: R)) == p.id) := by
    apply List.filter_congr
    intro v hv
    have hlt := hvs v hv
    have hids : (placed 0 (L ++ p :: R)).map Block.id = (L ++ p :: R).map SPara.id := placed_ids _ _
    have hpid : some (v.pid (placed 0 (L ++ p :: R))) = ((L ++ p :: R).map SPara.id)[v.block]? := by
      rw [← hids, List.getElem?_map]
      have : v.block < (placed 0 (L ++ p :: R)).length := by rw [placed_length]; exact hlt
      rw [List.getElem?_eq_getElem this]
      simp [Store.ValidMatch.pid, List.getElem?_eq_getElem this]
    have hp : ((L ++ p :: R).map SPara.id)[L.length]? = some p.id := by simp
    by_cases e : v.block = L.length
    · rw [e, hp] at hpid
      simp only [Option.some.injEq] at hpid
      simp [e, hpid]
    · have : v.pid (placed 0 (L ++ p :: R)) ≠ p.id := by
        intro e2
        rw [e2, ← hp] at hpid
        have := (List.getElem?_inj (by simp) hnd).mp hpid
        exact e this.symm
      rw [beq_false_of_ne e, beq_false_of_ne this]
  rw [this]; rfl

/-- After the rewriting the stored positions are right again. -/
theorem Flat.placed_after (h : Flat s d f ps) (hp : Placed s ps) (rep : List Char) (vs : List ValidMatch)
    (hvs : ∀ v ∈ vs, v.block < ps.length)
    (hm : ∀ p ∈ ps, Apart (minePairs (s.sortedBlocks d.id) vs p.id) ∧
      ∀ m ∈ minePairs (s.sortedBlocks d.id) vs p.id, m.1 + m.2 ≤ p.chars.length)
    {s' : Store} (hb : ∀ i, s'.blocks i = (s.updateBlocks (shiftedBlocks rep.length vs (s.sortedBlocks d.id) 0
        (s.sortedBlocks d.id))).blocks i) :
    Placed s' (rewriteMatches rep (s.sortedBlocks d.id) vs ps) := by
  have hl := h.listed
  rw [h.sortedBlocks_placed hp] at hb hm hl ⊢
  intro L' p' R' e
  rw [rewriteMatches_eq] at e
  obtain ⟨L, Q, rfl, rfl, e2⟩ := List.map_eq_append_iff.mp e
  obtain ⟨p, R, rfl, rfl, rfl⟩ := List.map_eq_cons_iff.mp e2
  have hnd := h.ids_nodup
  have hsplit : placed 0 (L ++ p :: R) = placed 0 L ++ p.entity (0 + charsBefore (paras L)) ::
      placed (0 + charsBefore (paras L) + (p.text.length + 1)) R := by rw [placed_append]; rfl
  have hx := hl.stored (p.entity (0 + charsBefore (paras L))) (by rw [hsplit]; simp)
  have hnd' := hl.nodup
  have := shifted_position rep.length vs (placed 0 (L ++ p :: R)) (placed 0 L)
    (placed (0 + charsBefore (paras L) + (p.text.length + 1)) R) (p.entity (0 + charsBefore (paras L))) 0 s hx
    (by rw [← hsplit]; exact hnd')
  rw [← hsplit] at this
  obtain ⟨y, h1, h2⟩ := this
  refine ⟨y, ?_, ?_⟩
  · show s'.blocks p.id = some y
    rw [hb]; exact h1
  · rw [h2]
    have hsum : ∀ A B : List SPara, ∀ r : Int, A ++ B = L →
        ((placed r B).map (blockDelta rep.length vs (placed 0 (L ++ p :: R)))).sum =
        (charsBefore (paras (B.map fun q => { q with
          chars := rewriteAll rep (minePairs (placed 0 (L ++ p :: R)) vs q.id) q.chars })) : Int) -
          charsBefore (paras B) := by
      intro A B
      induction B generalizing A with
      | nil => intro r _; simp [placed]
      | cons q B ih =>
        intro r hAB
        have hi := ih (A ++ [q]) (r + (q.text.length + 1)) (by simpa using hAB)
        simp only [placed, List.map_cons, List.sum_cons, charsBefore_paras_cons]
        rw [hi]
        have hsp : L ++ p :: R = A ++ q :: (B ++ p :: R) := by rw [← hAB]; simp
        have hd := blockDelta_placed (L := A) (p := q) (R := B ++ p :: R) rep.length vs (by rw [← hsp]; exact hnd)
          (by rw [← hsp]; exact hvs) r
        rw [← hsp] at hd
        rw [hd]
        obtain ⟨hm1, hm2⟩ := hm q (by rw [hsp]; simp)
        have := rewriteAll_length rep _ q.chars hm1 hm2
        push_cast
        omega
    have := hsum [] L 0 rfl
    rw [this]
    show (0 + (charsBefore (paras L) : Int)) + 0 + _ = _
    omega

end Verif
