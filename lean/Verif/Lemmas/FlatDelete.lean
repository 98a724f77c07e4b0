import Verif.Lemmas.FlatBlock
/- `delete_text` on a document of one frame. -/
namespace Verif

variable {s : Store} {d : Document} {f : Nat} {ps L R M : List SPara} {p : SPara} {a b m : List SChar}

/-- The entities of consecutive paragraphs at their true positions. -/
def placed : Int → List SPara → List Block
  | _, [] => []
  | r, q :: qs => q.entity r :: placed (r + (q.text.length + 1)) qs

theorem placed_append (r : Int) (L R : List SPara) :
    placed r (L ++ R) = placed r L ++ placed (r + charsBefore (paras L)) R := by
  induction L generalizing r with
  | nil => simp [placed, charsBefore, paras]
  | cons q L ih =>
    simp only [List.cons_append, placed, ih, paras_cons, charsBefore, List.map_cons, List.sum_cons]
    congr 3
    push_cast; omega

theorem placed_length (r : Int) (qs : List SPara) : (placed r qs).length = qs.length := by
  induction qs generalizing r with
  | nil => rfl
  | cons q qs ih => simp [placed, ih]

theorem placed_ids (r : Int) (qs : List SPara) : (placed r qs).map Block.id = qs.map SPara.id := by
  induction qs generalizing r with
  | nil => rfl
  | cons q qs ih => simp [placed, ih, SPara.entity]

theorem placed_mem {r : Int} {qs : List SPara} {x : Block} (hx : x ∈ placed r qs) :
    r ≤ x.documentPosition ∧ ∃ q ∈ qs, IsBlock q x := by
  induction qs generalizing r with
  | nil => simp [placed] at hx
  | cons q qs ih =>
    simp only [placed, List.mem_cons] at hx
    rcases hx with rfl | hx
    · exact ⟨by simp [SPara.entity], q, by simp, isBlock_entity _ _⟩
    · obtain ⟨h1, q', h2, h3⟩ := ih hx
      exact ⟨by omega, q', by simp [h2], h3⟩

theorem placed_sorted (r : Int) (qs : List SPara) :
    (placed r qs).Pairwise fun x y => x.documentPosition ≤ y.documentPosition := by
  induction qs generalizing r with
  | nil => exact .nil
  | cons q qs ih =>
    refine .cons ?_ (ih _)
    intro x hx
    have := (placed_mem hx).1
    simp [SPara.entity]; omega

theorem placed_entities (r : Int) (qs : List SPara) : Entities qs (placed r qs) := by
  constructor
  · intro x hx; exact (placed_mem hx).2
  · intro q hq
    have : q.id ∈ (placed r qs).map Block.id := by rw [placed_ids]; exact List.mem_map_of_mem hq
    obtain ⟨x, hx, e⟩ := List.mem_map.mp this
    exact ⟨x, hx, e⟩

theorem placed_find (r : Int) (L R : List SPara) (p : SPara)
    (hn : ((L ++ p :: R).map SPara.id).Nodup) :
    (placed r (L ++ p :: R)).findIdx? (fun x => x.id == p.id) = some L.length := by
  rw [List.findIdx?_eq_some_iff_getElem]
  have hg : ∀ j (hj : j < (placed r (L ++ p :: R)).length),
      (placed r (L ++ p :: R))[j].id = ((L ++ p :: R).map SPara.id)[j]'(by
        rw [placed_length] at hj; simpa using hj) := by
    intro j hj
    have := placed_ids r (L ++ p :: R)
    simp only [← this, List.getElem_map]
  refine ⟨by rw [placed_length]; simp, ?_, ?_⟩
  · rw [hg]; simp
  · intro j hj
    rw [hg]
    have hjl : j < L.length := by omega
    simp only [List.getElem_map, List.getElem_append_left hjl]
    have : L[j].id ≠ p.id := by
      rw [List.map_append, List.nodup_append] at hn
      exact hn.2.2 L[j].id (List.mem_map_of_mem (List.getElem_mem hjl)) p.id (by simp)
    simp [this]

theorem setPosition_here {A B : List Block} {x : Block} {r : Int} (hA : ∀ y ∈ A, y.id ≠ x.id) :
    Store.setPosition x.id r (A ++ x :: B) = A ++ { x with documentPosition := r } :: B := by
  induction A with
  | nil => simp [Store.setPosition]
  | cons y A ih =>
    simp only [List.cons_append, Store.setPosition]
    rw [if_neg (hA y (by simp)), ih fun z hz => hA z (by simp [hz])]

theorem find_here {A B : List Block} {x : Block} (hA : ∀ y ∈ A, y.id ≠ x.id) :
    (A ++ x :: B).find? (fun b => b.id == x.id) = some x := by
  induction A with
  | nil => simp
  | cons y A ih =>
    rw [List.cons_append, List.find?_cons_of_neg (by simp [hA y (by simp)])]
    exact ih fun z hz => hA z (by simp [hz])

theorem Shows.refresh (h : Shows s d ps) (hpos : ∀ q ∈ ps, 0 < q.id) (g : SPara → Int)
    (qs : List SPara) (A : List Block) (r : Int) (hq : ∀ q ∈ qs, q ∈ ps)
    (hn : (qs.map SPara.id).Nodup) (hA : ∀ y ∈ A, ∀ q ∈ qs, y.id ≠ q.id) :
    ∃ changed, Store.refreshPositions s.text (qs.map fun q => (q.id : Int)) r
        (A ++ qs.map fun q => q.entity (g q)) = some (A ++ placed r qs, changed) ∧
      ∀ x ∈ changed, ∃ q ∈ qs, IsBlock q x := by
  induction qs generalizing A r with
  | nil => exact ⟨[], by simp [Store.refreshPositions, placed], by simp⟩
  | cons q qs ih =>
    have hqp := hq q (by simp)
    have hqpos := hpos q hqp
    simp only [List.map_cons, List.nodup_cons] at hn
    have hA' : ∀ y ∈ A ++ [q.entity r], ∀ q' ∈ qs, y.id ≠ q'.id := by
      intro y hy q' hq' e
      rcases List.mem_append.mp hy with hy | hy
      · exact hA y hy q' (by simp [hq']) e
      · simp only [List.mem_singleton] at hy
        subst hy
        exact hn.1 (by
          have e' : q.id = q'.id := e
          rw [e']; exact List.mem_map_of_mem hq')
    obtain ⟨ch, h1, h2⟩ := ih (A ++ [q.entity r]) (r + (q.text.length + 1))
      (fun x hx => hq x (by simp [hx])) hn.2 hA'
    have hAq : ∀ y ∈ A, y.id ≠ (q.entity (g q)).id := fun y hy => hA y hy q (by simp)
    simp only [List.map_cons, Store.refreshPositions]
    rw [if_neg (by omega), Int.toNat_natCast]
    have hf := find_here (B := qs.map fun q => q.entity (g q)) hAq
    have hid : (q.entity (g q)).id = q.id := rfl
    rw [hid] at hf
    rw [hf]
    simp only
    rw [hid, h.charLength hqp, Option.bind_some]
    have happ : ∀ (X : List Block), A ++ q.entity r :: X = A ++ [q.entity r] ++ X := by simp
    split
    · have hs : Store.setPosition q.id r (A ++ q.entity (g q) :: qs.map fun q => q.entity (g q)) =
          A ++ q.entity r :: qs.map fun q => q.entity (g q) :=
        setPosition_here (x := q.entity (g q)) (r := r)
          (B := qs.map fun (q : SPara) => q.entity (g q)) hAq
      rw [hs, happ, h1]
      refine ⟨q.entity r :: ch, ?_, ?_⟩
      · simp only [Option.map_some, placed, List.append_assoc, List.cons_append, List.nil_append]
        rfl
      · intro x hx
        simp only [List.mem_cons] at hx
        rcases hx with rfl | hx
        · exact ⟨q, by simp, isBlock_entity q r⟩
        · obtain ⟨q', h3, h4⟩ := h2 x hx
          exact ⟨q', by simp [h3], h4⟩
    · rename_i heq
      have heq' : g q = r := by
        have : (q.entity (g q)).documentPosition = g q := rfl
        rw [this] at heq; omega
      rw [heq', happ, h1]
      refine ⟨ch, by simp [placed], ?_⟩
      intro x hx
      obtain ⟨q', h3, h4⟩ := h2 x hx
      exact ⟨q', by simp [h3], h4⟩

theorem cellFrameOf_none {x : Nat} (did : Nat) (h : s.docTables did = []) :
    s.cellFrameOf did x = none := by
  simp [Store.cellFrameOf, h]

theorem Shows.notCross {blocks : List Block} (did : Nat) (h : Shows s d ps)
    (ht : s.docTables did = []) (hE : ∀ x ∈ blocks, ∃ q ∈ ps, IsBlock q x) (start stop : Int) :
    s.isCrossCell did blocks start stop = some false := by
  unfold Store.isCrossCell
  have key : ∃ l, mapOpt (fun b : Block => (blockCharLength s.text b.id).map fun (len : Nat) =>
      if b.documentPosition + len < start ∨ b.documentPosition > stop then []
      else [s.cellFrameOf did b.id]) blocks = some l ∧ ∀ c ∈ l.flatten, c = none := by
    induction blocks with
    | nil => exact ⟨[], rfl, by simp⟩
    | cons x xs ih =>
      obtain ⟨l, h1, h2⟩ := ih fun y hy => hE y (by simp [hy])
      obtain ⟨q, hq, hqx⟩ := hE x (by simp)
      have hid : x.id = q.id := by rw [hqx]
      simp only [mapOpt]
      rw [h1, hid, h.charLength hq]
      simp only [Option.map_some, Option.bind_some]
      refine ⟨_, rfl, ?_⟩
      intro c hc
      rw [List.flatten_cons, List.mem_append] at hc
      rcases hc with hc | hc
      · split at hc
        · simp at hc
        · rw [cellFrameOf_none did ht] at hc; simpa using hc
      · exact h2 c hc
  obtain ⟨l, h1, h2⟩ := key
  rw [h1]
  simp only [Option.map_some]
  congr 1
  split
  · rfl
  · rename_i c cs heq
    have hc := h2 c (by rw [heq]; simp)
    rw [List.any_eq_false]
    intro x hx
    have := h2 x (by rw [heq]; simp [hx])
    simp [this, hc]

theorem Shows.deleteSame {blocks : List Block} {i : Nat} {blk : Block} (h : Shows s d (L ++ p :: R))
    (hc : p.chars = a ++ m ++ b) (hb : IsBlock p blk) {start stop : Int}
    (hlen : stop - start = m.length) :
    ∃ s', s.deleteSame d blocks blk i (a.length : Int) ((a.length + m.length : Nat) : Int) start stop =
        some (s', ⟨start, m.map Prod.fst⟩) ∧
      Shows s' { d with characterCount := d.characterCount - m.length }
        (L ++ { p with chars := a ++ b } :: R) ∧
      SameShell s s' ∧ s'.counters = s.counters := by
  have hpm : p ∈ L ++ p :: R := by simp
  have hid : blk.id = p.id := by rw [hb]
  obtain ⟨r, hr, hs1⟩ := h.cut hc hb
  obtain ⟨o1, o2⟩ := h.offsets hpm hc
  unfold Store.deleteSame
  dsimp only
  rw [hid, h.content hpm, Option.bind_some]
  rw [o1, o2, slice_mid hc, Option.bind_some]
  rw [hr, Option.bind_some, if_pos hs1.matchFlow, hlen]
  have hs2 := hs1.updateDocument (d' := { d with characterCount := d.characterCount - m.length }) rfl
  exact ⟨_, rfl, hs2, ⟨rfl, rfl, rfl, rfl, rfl, rfl⟩, rfl⟩

/-- A store in which the paragraphs `L ++ p :: R` remain and the blocks `K`, already gone from the
text, are still to be removed. -/
structure Dropping (s : Store) (d : Document) (f : Nat) (L : List SPara) (p : SPara) (R : List SPara)
    (K : List Nat) : Prop where
  root : ∃ r r', s.roots 1 = some r ∧ s.roots r.id = some r' ∧ r'.document = d.id ∧ d.id ≠ 0
  document : s.documents d.id = some d
  text : Repr s.text (paras (L ++ p :: R))
  keys : s.blocks.keys.Perm ((L ++ p :: R).map SPara.id ++ K)
  nodup : ((L ++ p :: R).map SPara.id ++ K).Nodup
  block : ∀ q ∈ L ++ p :: R, ∃ b, s.blocks q.id = some b ∧ IsBlock q b
  left : ∀ k ∈ K, (s.blocks k).isSome
  absent : ∀ i, i ∉ (L ++ p :: R).map SPara.id → i ∉ K → s.blocks i = none
  formats : ∀ q ∈ L ++ p :: R, StyledOk ((s.formatRuns q.id).getD []) q.chars
  images : ∀ q ∈ L ++ p :: R, (s.blockImages q.id).getD [] = []
  fresh : ∀ i ∈ (L ++ p :: R).map SPara.id ++ K, i < s.next "block"
  frames : d.frames = [f]
  tables : d.tables = []
  frame : ∃ fr, s.frames f = some fr ∧ fr.id = f ∧
    fr.childOrder = (L.map SPara.id ++ p.id :: (K ++ R.map SPara.id)).map (fun i : Nat => (i : Int)) ∧
    fr.blocks.Perm ((L ++ p :: R).map SPara.id ++ K)
  others : ∀ g fr, s.frames g = some fr → g ≠ f → ∀ b ∈ fr.blocks,
    b ∉ (L ++ p :: R).map SPara.id ++ K ∧ b < s.next "block"
  positive : ∀ i ∈ (L ++ p :: R).map SPara.id ++ K, 0 < i
  plain : ∀ fr, s.frames f = some fr → fr.table = none ∧ fr.fmtIsBlockquote = none

theorem Dropping.flat (h : Dropping s d f L p R []) : Flat s d f (L ++ p :: R) := by
  constructor
  · refine ⟨h.root, h.document, h.text, by simpa using h.keys, h.block, ?_, h.formats, h.images, ?_⟩
    · intro i hi; exact h.absent i hi (by simp)
    · intro q hq; exact h.fresh q.id (by simp only [List.append_nil]; exact List.mem_map_of_mem hq)
  · exact h.frames
  · exact h.tables
  · obtain ⟨fr, h1, h2, h3, h4⟩ := h.frame
    refine ⟨fr, h1, h2, ?_, by simpa using h4⟩
    rw [h3]; simp [Function.comp_def]
  · intro g fr hg hgf b hb
    have := h.others g fr hg hgf b hb
    simpa using this
  · intro q hq; exact h.positive q.id (by simp only [List.append_nil]; exact List.mem_map_of_mem hq)
  · simp
  · exact h.plain

theorem ropeRemove_absent {st : RopeSt} {qs : List Para} {id : Nat} (h : Repr st qs)
    (hm : .block id ∉ qs.map Prod.fst) : ropeRemoveBlock st id = some st := by
  simp [ropeRemoveBlock, Index.rangeOf, h.pos_none hm]

theorem filter_one {l l' : List Nat} {k : Nat} (hp : l.Perm (l' ++ [k])) (hk : k ∉ l') :
    (l.filter fun i => !([k] : List Nat).contains i).Perm l' := by
  refine (hp.filter _).trans ?_
  rw [List.filter_append]
  have e1 : l'.filter (fun i => !([k] : List Nat).contains i) = l' := by
    rw [List.filter_eq_self]
    intro x hx
    have : x ≠ k := fun e => hk (e ▸ hx)
    simp [this]
  rw [e1]; simp

theorem rewriteOwners_same {fr : Frame} (k : Nat) (os : List (Nat × List Nat)) (s : Store)
    (hfr : s.frames f = some fr) (hex : ∀ i ∈ fr.blocks, (s.blocks i).isSome)
    (hos : ∀ o ∈ os, o.1 = f ∧ (o.2.filter fun b => !([k] : List Nat).contains b) = fr.blocks) :
    ∃ s', Store.rewriteOwners [k] os s = some s' ∧
      s' = { s with frames := s'.frames } ∧ ∀ g, s'.frames g = s.frames g := by
  induction os generalizing s with
  | nil => exact ⟨s, rfl, rfl, fun _ => rfl⟩
  | cons o os ih =>
    obtain ⟨g, l⟩ := o
    obtain ⟨hg, hl⟩ := hos (g, l) (by simp)
    dsimp only at hg hl
    subst hg
    simp only [Store.rewriteOwners]
    rw [hl]
    unfold Store.setFrameBlocks
    rw [if_pos (by rw [List.all_eq_true]; exact hex), hfr]
    simp only [Option.bind_some]
    obtain ⟨s', h1, h2, h3⟩ := ih { s with frames := s.frames.insert g { fr with blocks := fr.blocks } }
      (by simp) hex fun o ho => hos o (by simp [ho])
    refine ⟨s', h1, ?_, ?_⟩
    · rw [h2]
    · intro g'
      rw [h3 g', IdMap.insert_get]
      split
      · rename_i e; subst e; exact hfr.symm
      · rfl

theorem Dropping.step {k : Nat} {K : List Nat} (h : Dropping s d f L p R (k :: K)) :
    ∃ s', Store.dropBlocks [k] s = some s' ∧ Dropping s' d f L p R K ∧ s'.counters = s.counters := by
  have hk : k ∉ (L ++ p :: R).map SPara.id := by
    have := h.nodup
    rw [List.nodup_append] at this
    intro hm
    exact this.2.2 k hm k (by simp) rfl
  have hkK : k ∉ K := by
    have := h.nodup
    rw [List.nodup_append, List.nodup_cons] at this
    exact this.2.1.1
  have hnd' : ((L ++ p :: R).map SPara.id ++ K).Nodup := by
    have := h.nodup
    rw [List.nodup_append, List.nodup_cons] at this
    rw [List.nodup_append]
    exact ⟨this.1, this.2.1.2, fun a ha b hb => this.2.2 a ha b (by simp [hb])⟩
  have hkA : k ∉ (L ++ p :: R).map SPara.id ++ K := by simp only [List.mem_append, not_or]; exact ⟨hk, hkK⟩
  have hperm : ((L ++ p :: R).map SPara.id ++ k :: K).Perm ((L ++ p :: R).map SPara.id ++ K ++ [k]) := by
    rw [List.append_assoc]
    exact List.Perm.append_left _ (List.perm_append_singleton k K).symm
  have hsub : ∀ i ∈ (L ++ p :: R).map SPara.id ++ K, i ∈ (L ++ p :: R).map SPara.id ++ k :: K := by
    intro i hi; rw [hperm.mem_iff]; simp only [List.mem_append] at hi ⊢; exact .inl hi
  obtain ⟨fr, hfr, hfid, hfc, hfb⟩ := h.frame
  unfold Store.dropBlocks
  dsimp only
  generalize hs1 : ({ s with formatRuns := s.formatRuns.erase k, blockImages := s.blockImages.erase k } : Store) = s1
  have h1t : s1.text = s.text := by subst hs1; rfl
  rw [h1t, ropeRemove_absent h.text (by
    rw [paras_fst]
    intro hm
    obtain ⟨q, hq, e⟩ := List.mem_map.mp hm
    apply hk
    have e' : q.id = k := by simpa using e
    rw [← e']; exact List.mem_map_of_mem hq), Option.bind_some]
  have h1w : s1.withText s.text = s1 := by subst hs1; rfl
  rw [h1w]
  have hkb : (s1.blocks k).isSome := by subst hs1; exact h.left k (by simp)
  have hrest : ∀ i ∈ fr.blocks, ¬ i = k → (s.blocks i).isSome := by
    intro i hi hik
    have := hfb.mem_iff.mp hi
    simp only [List.mem_append, List.mem_cons] at this
    rcases this with hm | e | hm
    · obtain ⟨q, hq, rfl⟩ := List.mem_map.mp hm
      obtain ⟨blk, hb, _⟩ := h.block q hq
      rw [hb]; rfl
    · exact absurd e hik
    · exact h.left i (by simp [hm])
  have hcontains : fr.blocks.any (fun b => ([k] : List Nat).contains b) = true := by
    rw [List.any_eq_true]
    exact ⟨k, hfb.mem_iff.mpr (by simp), by simp⟩
  generalize hs2 : s1.tableRemoveBlocks [k] = s2
  have h2f : ∀ g, s2.frames g = (s.frames g).map (Store.stripFrame [k]) := by
    intro g; subst hs2; subst hs1; rfl
  have h2b : s2.blocks = s.blocks.erase k := by subst hs2; subst hs1; rfl
  have h2fr : s2.frames f = some (Store.stripFrame [k] fr) := by rw [h2f, hfr]; rfl
  have hstrip : Store.stripFrame [k] fr = { fr with
      blocks := fr.blocks.filter fun b => !([k] : List Nat).contains b
      childOrder := fr.childOrder.filter fun e => !(decide (e > 0) && ([k] : List Nat).contains e.toNat) } := by
    unfold Store.stripFrame; rw [if_pos hcontains]
  obtain ⟨s3, h3e, h3s, h3f⟩ := rewriteOwners_same (f := f) k (s1.blockOwners [k]) s2 h2fr (by
    intro i hi
    rw [hstrip] at hi
    simp only [List.mem_filter] at hi
    have hik : ¬ i = k := by simpa using hi.2
    rw [h2b]; simp only [IdMap.erase_get, hik, if_false]
    exact hrest i hi.1 hik) (by
    intro o ho
    unfold Store.blockOwners at ho
    obtain ⟨g, hg, rfl⟩ := List.mem_map.mp ho
    have hg2 := (List.mem_filter.mp hg).2
    have e1 : s1.frameBlocks g = s.frameBlocks g := by subst hs1; rfl
    rw [e1] at hg2 ⊢
    rw [List.any_eq_true] at hg2
    obtain ⟨i, hi, hik⟩ := hg2
    have hik' : i = k := by simpa using hik
    subst hik'
    have hgf : g = f := by
      by_cases e : g = f
      · exact e
      · exfalso
        unfold Store.frameBlocks at hi
        cases hgr : s.frames g with
        | none => rw [hgr] at hi; simp at hi
        | some gr =>
          rw [hgr] at hi
          simp only [Option.map_some, Option.getD_some] at hi
          exact (h.others g gr hgr e i hi).1 (by simp)
    refine ⟨hgf, ?_⟩
    subst hgf
    rw [hstrip]
    simp [Store.frameBlocks, hfr])
  unfold Store.removeBlocks
  have hrm : ¬ (([k] : List Nat).all fun i => (s1.blocks i).isNone) = true := by
    cases hb : s1.blocks k with
    | none => rw [hb] at hkb; simp at hkb
    | some _ => simp [hb]
  rw [if_neg hrm, hs2, h3e]
  simp only [Option.bind_some, Store.dropBlocks]
  have h3b : s3.blocks = s.blocks.erase k := by rw [h3s, ← h2b]
  have h3c : s3.counters = s.counters := by rw [h3s]; subst hs2; subst hs1; rfl
  have h3t : s3.text = s.text := by rw [h3s]; subst hs2; subst hs1; rfl
  have h3r : ∀ i, i ≠ k → s3.formatRuns i = s.formatRuns i := by
    intro i hi; rw [h3s]; subst hs2; subst hs1; simp [Store.tableRemoveBlocks, hi]
  have h3i : ∀ i, i ≠ k → s3.blockImages i = s.blockImages i := by
    intro i hi; rw [h3s]; subst hs2; subst hs1; simp [Store.tableRemoveBlocks, hi]
  have h3o : s3.roots = s.roots := by rw [h3s]; subst hs2; subst hs1; rfl
  have h3d : s3.documents = s.documents := by rw [h3s]; subst hs2; subst hs1; rfl
  have h3n : s3.next "block" = s.next "block" := by simp [Store.next, h3c]
  have hqk : ∀ q ∈ L ++ p :: R, q.id ≠ k := fun q hq e => hk (e ▸ List.mem_map_of_mem hq)
  refine ⟨s3, rfl, ?_, h3c⟩
  constructor
  · rw [h3o]; exact h.root
  · rw [h3d]; exact h.document
  · rw [h3t]; exact h.text
  · rw [h3b]
    show (s.blocks.keys.filter _).Perm _
    have := filter_one (h.keys.trans hperm) hkA
    refine List.Perm.trans (List.Perm.of_eq ?_) this
    congr 1; funext i; simp
  · exact hnd'
  · intro q hq
    rw [h3b]
    simp only [IdMap.erase_get, hqk q hq, if_false]
    exact h.block q hq
  · intro i hi
    rw [h3b]
    have : i ≠ k := fun e => hkK (e ▸ hi)
    simp only [IdMap.erase_get, this, if_false]
    exact h.left i (by simp [hi])
  · intro i hi hiK
    rw [h3b]
    simp only [IdMap.erase_get]
    split
    · rfl
    · rename_i hne
      exact h.absent i hi (by simp [hne, hiK])
  · intro q hq; rw [h3r _ (hqk q hq)]; exact h.formats q hq
  · intro q hq; rw [h3i _ (hqk q hq)]; exact h.images q hq
  · intro i hi; rw [h3n]; exact h.fresh i (hsub i hi)
  · exact h.frames
  · exact h.tables
  · refine ⟨_, (h3f f).trans h2fr, ?_, ?_, ?_⟩
    · rw [hstrip]; exact hfid
    · rw [hstrip]
      dsimp only
      rw [hfc, List.filter_map]
      congr 1
      have hfl : ∀ l : List Nat, k ∉ l → l.filter ((fun e : Int => !(decide (e > 0) &&
          ([k] : List Nat).contains e.toNat)) ∘ fun i : Nat => (i : Int)) = l := by
        intro l hl
        rw [List.filter_eq_self]
        intro x hx
        have : x ≠ k := fun e => hl (e ▸ hx)
        simp [this]
      have hkpos := h.positive k (by simp)
      simp only [List.map_append, List.map_cons, List.mem_append, List.mem_cons, not_or] at hk
      rw [List.filter_append, hfl _ hk.1, List.filter_cons_of_pos (by
        have : p.id ≠ k := fun e => hk.2.1 e.symm
        simp [this]), List.cons_append, List.filter_cons_of_neg (by simp; omega), List.filter_append,
        hfl _ hkK, hfl _ hk.2.2]
    · rw [hstrip]
      exact filter_one (hfb.trans hperm) hkA
  · intro g gr hg hgf blk hblk
    rw [h3f, h2f] at hg
    rw [h3n]
    cases hgr : s.frames g with
    | none => rw [hgr] at hg; simp at hg
    | some gr0 =>
      rw [hgr] at hg
      simp only [Option.map_some, Option.some.injEq] at hg
      have hbl : blk ∈ gr0.blocks := by
        subst hg
        unfold Store.stripFrame at hblk
        split at hblk
        · exact (List.mem_filter.mp hblk).1
        · exact hblk
      have := h.others g gr0 hgr hgf blk hbl
      exact ⟨fun hm => this.1 (hsub blk hm), this.2⟩
  · intro i hi; exact h.positive i (hsub i hi)
  · intro gr hg
    rw [h3f, h2fr, hstrip, Option.some.injEq] at hg
    rw [← hg]; exact h.plain fr hfr

theorem dropBlocks_cons (k : Nat) (K : List Nat) (s : Store) :
    Store.dropBlocks (k :: K) s = (Store.dropBlocks [k] s).bind fun s => Store.dropBlocks K s := by
  simp only [Store.dropBlocks, Option.bind_assoc]
  congr 1

theorem Dropping.all {K : List Nat} (h : Dropping s d f L p R K) :
    ∃ s', Store.dropBlocks K s = some s' ∧ Flat s' d f (L ++ p :: R) ∧ s'.counters = s.counters := by
  induction K generalizing s with
  | nil => exact ⟨s, rfl, h.flat, rfl⟩
  | cons k K ih =>
    obtain ⟨s1, e1, h1, c1⟩ := h.step
    obtain ⟨s2, e2, h2, c2⟩ := ih h1
    exact ⟨s2, by rw [dropBlocks_cons, e1, Option.bind_some, e2], h2, c2.trans c1⟩

theorem charsBefore_append (A B : List Para) : charsBefore (A ++ B) = charsBefore A + charsBefore B := by
  simp [charsBefore]

theorem mids_length (M : List SPara) : (M.map fun q => q.text).map List.length = M.map fun q => q.text.length := by
  simp [Function.comp_def]

/-- The paragraphs after a deletion across paragraphs `p1` and `p2`. -/
theorem Flat.deleteAcross {p1 p2 : SPara} {a1 b1 a2 b2 : List SChar} {start stop : Int}
    (h : Flat s d f (L ++ p1 :: (M ++ p2 :: R))) (hc1 : p1.chars = a1 ++ b1) (hc2 : p2.chars = a2 ++ b2) :
    ∃ s', s.deleteAcross d.id f d (placed 0 (L ++ p1 :: (M ++ p2 :: R)))
        (p1.entity (charsBefore (paras L))) L.length (a1.length : Int)
        (p2.entity (charsBefore (paras (L ++ p1 :: M)))) (L ++ p1 :: M).length (a2.length : Int) start stop =
        some (s', ⟨start, b1.map Prod.fst ++ M.flatMap (fun q => '\n' :: q.text) ++
          '\n' :: a2.map Prod.fst⟩) ∧
      Flat s' { d with
          characterCount := d.characterCount - ((b1.length : Int) + (M.map fun q => q.text.length).sum + a2.length)
          blockCount := d.blockCount - (M.length + 1 : Nat) } f
        (L ++ { p1 with chars := a1 ++ b2 } :: R) ∧
      s'.counters = s.counters := by
  have hm1 : p1 ∈ L ++ p1 :: (M ++ p2 :: R) := by simp
  have hm2 : p2 ∈ L ++ p1 :: (M ++ p2 :: R) := by simp
  have hnd := h.ids_nodup
  have t1 : p1.text = a1.map Prod.fst ++ b1.map Prod.fst := by simp [SPara.text, hc1]
  have t2 : p2.text = a2.map Prod.fst ++ b2.map Prod.fst := by simp [SPara.text, hc2]
  have o1 : logicalOffsetToByte p1.text (s.imagesOf p1.id) (a1.length : Int) = utf8Len (a1.map Prod.fst) := by
    rw [h.offset hm1, text_take hc1]
  have o2 : logicalOffsetToByte p2.text (s.imagesOf p2.id) (a2.length : Int) = utf8Len (a2.map Prod.fst) := by
    rw [h.offset hm2, text_take hc2]
  have hmid : ((placed 0 (L ++ p1 :: (M ++ p2 :: R))).take (L ++ p1 :: M).length).drop (L.length + 1) =
      placed (0 + charsBefore (paras (L ++ [p1]))) M := by
    have e : L ++ p1 :: (M ++ p2 :: R) = (L ++ [p1]) ++ (M ++ p2 :: R) := by simp
    rw [e, placed_append 0 (L ++ [p1]), placed_append _ M]
    rw [← List.append_assoc, List.take_append_of_le_length (by simp [placed_length]; omega),
      List.take_of_length_le (by simp [placed_length]; omega),
      List.drop_append_of_le_length (by simp [placed_length]), List.drop_of_length_le (by simp [placed_length])]
    rfl
  have hrem : (((placed 0 (L ++ p1 :: (M ++ p2 :: R))).take ((L ++ p1 :: M).length + 1)).drop
      (L.length + 1)).map Block.id = M.map SPara.id ++ [p2.id] := by
    rw [List.map_drop, List.map_take, placed_ids]
    have e : (L ++ p1 :: (M ++ p2 :: R)).map SPara.id =
      (L ++ [p1]).map SPara.id ++ ((M ++ [p2]).map SPara.id ++ R.map SPara.id) := by simp
    rw [e, ← List.append_assoc, List.take_append_of_le_length (by simp; omega),
      List.take_of_length_le (by simp; omega),
      List.drop_append_of_le_length (by simp), List.drop_of_length_le (by simp)]
    simp
  have hmids : mapOpt (fun b : Block => blockContent s.text b.id) (placed (0 + charsBefore (paras (L ++ [p1]))) M) =
      some (M.map fun q => q.text) := by
    have : ∀ (r : Int) (Q : List SPara), (∀ q ∈ Q, q ∈ M) →
        mapOpt (fun b : Block => blockContent s.text b.id) (placed r Q) = some (Q.map fun q => q.text) := by
      intro r Q
      induction Q generalizing r with
      | nil => intro _; rfl
      | cons q Q ih =>
        intro hQ
        simp only [placed, mapOpt]
        rw [show (q.entity r).id = q.id from rfl, h.content (by
          have := hQ q (by simp); simp [this]), ih _ fun x hx => hQ x (by simp [hx])]
        rfl
    exact this _ M fun q hq => hq
  -- the rope
  have ht := h.text
  rw [paras_append, paras_cons, paras_append, paras_cons, t1, t2] at ht
  obtain ⟨r, hr, hrep⟩ := mergeBlockRange_repr ht
  have hsh1 := h.toShows.updateBlock hm1 (isBlock_entity p1 (charsBefore (paras L)))
  unfold Store.deleteAcross
  rw [if_neg (by simp), show (p1.entity (charsBefore (paras L))).id = p1.id from rfl,
    show (p2.entity (charsBefore (paras (L ++ p1 :: M)))).id = p2.id from rfl,
    h.content hm1, Option.bind_some, h.content hm2, Option.bind_some]
  dsimp only
  rw [hmid, hmids, Option.bind_some, o1, o2]
  have sp1 : splitAtByte p1.text (utf8Len (a1.map Prod.fst)) = some (a1.map Prod.fst, b1.map Prod.fst) := by
    rw [t1, splitAtByte_append]
  have sp2 : splitAtByte p2.text (utf8Len (a2.map Prod.fst)) = some (a2.map Prod.fst, b2.map Prod.fst) := by
    rw [t2, splitAtByte_append]
  rw [sp1, Option.bind_some, sp2, Option.bind_some, hrem]
  dsimp only
  generalize hs1 : ({ s.updateBlock (p1.entity (charsBefore (paras L))) with
    formatRuns := (s.updateBlock (p1.entity (charsBefore (paras L)))).formatRuns.insert p1.id
      (mergeRunsForJoin (s.runsOf p1.id) (utf8Len (a1.map Prod.fst)) (s.runsOf p2.id) (utf8Len (a2.map Prod.fst)))
    blockImages := (s.updateBlock (p1.entity (charsBefore (paras L)))).blockImages.insert p1.id
      (mergeImagesForJoin (s.imagesOf p1.id) (utf8Len (a1.map Prod.fst)) (s.imagesOf p2.id)
        (utf8Len (a2.map Prod.fst))) } : Store) = s1
  have h1t : s1.text = s.text := by subst hs1; rfl
  rw [h1t, hr, Option.bind_some]
  have him1 : s.imagesOf p1.id = [] := h.images p1 hm1
  have him2 : s.imagesOf p2.id = [] := h.images p2 hm2
  have hne : ∀ q, q ∈ L ∨ q ∈ R → q.id ≠ p1.id := by
    intro q hq e
    simp only [List.map_append, List.map_cons] at hnd
    rw [List.nodup_append, List.nodup_cons] at hnd
    rcases hq with hq | hq
    · exact hnd.2.2 q.id (List.mem_map_of_mem hq) p1.id (by simp) e
    · exact hnd.2.1.1 (by rw [← e]; simp only [List.mem_append, List.mem_cons]; exact .inr (.inr (List.mem_map_of_mem hq)))
  have hperm : ((L ++ p1 :: (M ++ p2 :: R)).map SPara.id).Perm
      ((L ++ { p1 with chars := a1 ++ b2 } :: R).map SPara.id ++ (M.map SPara.id ++ [p2.id])) := by
    simp only [List.map_append, List.map_cons, List.append_assoc, List.cons_append]
    refine List.Perm.append_left _ (List.Perm.cons _ ?_)
    have : M.map SPara.id ++ p2.id :: R.map SPara.id = (M.map SPara.id ++ [p2.id]) ++ R.map SPara.id := by simp
    rw [this]
    exact List.perm_append_comm
  have hmem : ∀ q ∈ L ++ { p1 with chars := a1 ++ b2 } :: R,
      (q = { p1 with chars := a1 ++ b2 }) ∨ ((q ∈ L ∨ q ∈ R) ∧ q ∈ L ++ p1 :: (M ++ p2 :: R)) := by
    intro q hq
    simp only [List.mem_append, List.mem_cons] at hq
    rcases hq with hq | rfl | hq
    · exact .inr ⟨.inl hq, by simp [hq]⟩
    · exact .inl rfl
    · exact .inr ⟨.inr hq, by simp [hq]⟩
  obtain ⟨fr, hfr, hfid, hfc, hfb⟩ := h.frame
  have hD : Dropping (s1.withText r) d f L { p1 with chars := a1 ++ b2 } R (M.map SPara.id ++ [p2.id]) := by
    constructor
    · subst hs1; exact h.root
    · subst hs1; exact h.document
    · show Repr r _
      have : ({ p1 with chars := a1 ++ b2 } : SPara).text = a1.map Prod.fst ++ b2.map Prod.fst := by
        simp [SPara.text]
      rw [paras_append, paras_cons, this]
      exact hrep
    · subst hs1
      exact hsh1.keys.trans hperm
    · exact hperm.nodup_iff.mp hnd
    · intro q hq
      have hb : (s1.withText r).blocks = (s.updateBlock (p1.entity (charsBefore (paras L)))).blocks := by
        subst hs1; rfl
      rw [hb]
      rcases hmem q hq with rfl | ⟨_, hq'⟩
      · exact hsh1.block p1 hm1
      · exact hsh1.block q hq'
    · intro i hi
      have hb : (s1.withText r).blocks = (s.updateBlock (p1.entity (charsBefore (paras L)))).blocks := by
        subst hs1; rfl
      rw [hb]
      have : i ∈ (L ++ p1 :: (M ++ p2 :: R)).map SPara.id := by
        rw [hperm.mem_iff]; exact List.mem_append.mpr (.inr hi)
      obtain ⟨q, hq, rfl⟩ := List.mem_map.mp this
      obtain ⟨blk, hb1, _⟩ := hsh1.block q hq
      rw [hb1]; rfl
    · intro i hi hiK
      have hb : (s1.withText r).blocks = (s.updateBlock (p1.entity (charsBefore (paras L)))).blocks := by
        subst hs1; rfl
      rw [hb]
      apply hsh1.absent
      rw [hperm.mem_iff, List.mem_append, not_or]
      exact ⟨hi, hiK⟩
    · intro q hq
      have hb : ∀ i, (s1.withText r).formatRuns i = if i = p1.id then
          some (mergeRunsForJoin (s.runsOf p1.id) (utf8Len (a1.map Prod.fst)) (s.runsOf p2.id)
            (utf8Len (a2.map Prod.fst))) else s.formatRuns i := by
        intro i; subst hs1; rfl
      rw [hb]
      rcases hmem q hq with rfl | ⟨hq1, hq'⟩
      · rw [if_pos rfl]
        have s1' := h.formats p1 hm1
        have s2' := h.formats p2 hm2
        rw [hc1] at s1'; rw [hc2] at s2'
        exact s1'.join s2'
      · rw [if_neg (hne q hq1)]
        exact h.formats q hq'
    · intro q hq
      have hb : ∀ i, (s1.withText r).blockImages i = if i = p1.id then
          some (mergeImagesForJoin (s.imagesOf p1.id) (utf8Len (a1.map Prod.fst)) (s.imagesOf p2.id)
            (utf8Len (a2.map Prod.fst))) else s.blockImages i := by
        intro i; subst hs1; rfl
      rw [hb]
      rcases hmem q hq with rfl | ⟨hq1, hq'⟩
      · rw [if_pos rfl, him1, him2]; rfl
      · rw [if_neg (hne q hq1)]
        exact h.images q hq'
    · intro i hi
      have hi' := hperm.mem_iff.mpr hi
      obtain ⟨q, hq, rfl⟩ := List.mem_map.mp hi'
      have := h.fresh q hq
      subst hs1; exact this
    · exact h.frames
    · exact h.tables
    · refine ⟨fr, by subst hs1; exact hfr, hfid, ?_, hfb.trans hperm⟩
      rw [hfc]; simp [Function.comp_def]
    · intro g gr hg hgf blk hblk
      have hg' : s.frames g = some gr := by subst hs1; exact hg
      have hn : (s1.withText r).next "block" = s.next "block" := by subst hs1; rfl
      have := h.others g gr hg' hgf blk hblk
      rw [hn, ← hperm.mem_iff]
      exact this
    · intro i hi
      have hi' := hperm.mem_iff.mpr hi
      obtain ⟨q, hq, rfl⟩ := List.mem_map.mp hi'
      exact h.positive q hq
    · subst hs1; exact h.plain
  obtain ⟨s2, e2, hF2, c2⟩ := hD.all
  rw [e2, Option.bind_some]
  obtain ⟨fr2, hfr2, hfid2, hfc2, hfb2⟩ := hF2.frame
  rw [cellFrameOf_none d.id hF2.docTables, Option.getD_none, hfr2, Option.bind_some]
  have hfilt : fr2.childOrder.filter (fun e => !(decide (0 ≤ e) && (M.map SPara.id ++ [p2.id]).contains e.toNat)) =
      fr2.childOrder := by
    rw [List.filter_eq_self]
    intro e he
    rw [hfc2] at he
    obtain ⟨q, hq, rfl⟩ := List.mem_map.mp he
    have hnd2 := hperm.nodup_iff.mp hnd
    rw [List.nodup_append] at hnd2
    have : q.id ∉ M.map SPara.id ++ [p2.id] := fun hm =>
      hnd2.2.2 q.id (List.mem_map_of_mem hq) q.id hm rfl
    simp only [Int.toNat_natCast, Bool.not_eq_true', Bool.and_eq_false_iff]
    right
    rw [List.contains_eq_mem, decide_eq_false_iff_not]
    exact this
  rw [hfilt]
  have hupd : ∀ g, (s2.updateFrame fr2).frames g = s2.frames g := by
    intro g
    simp only [Store.updateFrame, IdMap.insert_get, hfid2, hfr2]
    split
    · rename_i e; rw [e, hfr2]; rfl
    · rfl
  have hF3 : Flat (s2.updateFrame fr2) d f (L ++ { p1 with chars := a1 ++ b2 } :: R) := by
    constructor
    · exact ⟨hF2.root, hF2.document, hF2.text, hF2.keys, hF2.block, hF2.absent, hF2.formats, hF2.images, hF2.fresh⟩
    · exact hF2.frames
    · exact hF2.tables
    · exact ⟨fr2, by rw [hupd]; exact hfr2, hfid2, hfc2, hfb2⟩
    · intro g gr hg hgf
      rw [hupd] at hg
      exact hF2.others g gr hg hgf
    · exact hF2.positive
    · exact hF2.nonempty
    · intro gr hg
      rw [hupd] at hg
      exact hF2.plain gr hg
  rw [if_pos hF3.matchFlow]
  have hcount : ((p1.text.length : Int) - a1.length) + (((M.map fun q => q.text).map List.length).sum : Nat) + a2.length =
      (b1.length : Int) + (M.map fun q => q.text.length).sum + a2.length := by
    rw [mids_length]
    have : p1.text.length = a1.length + b1.length := by rw [t1]; simp
    rw [this]; push_cast; omega
  rw [hcount]
  have hs5 := hF3.toShows.updateDocument (d' := { d with
    characterCount := d.characterCount - ((b1.length : Int) + (M.map fun q => q.text.length).sum + a2.length)
    blockCount := d.blockCount - (M.length + 1 : Nat) }) rfl
  refine ⟨_, ?_, hF3.of_shell hs5 ⟨rfl, rfl, rfl, rfl, rfl, rfl⟩ rfl rfl rfl rfl, ?_⟩
  · congr 2
    · simp
    · simp [List.flatMap_map]
  · exact c2.trans (by subst hs1; rfl)

/-- What `delete_text` finds before it looks at the two ends. -/
theorem Flat.deletePrefix (h : Flat s d f ps) {position anchor : Int} (hne : position ≠ anchor) :
    ∃ s', Flat s' d f ps ∧ s'.counters = s.counters ∧
      s.deleteText position anchor =
        (s'.findBlockAtPosition (placed 0 ps) (min position anchor)).bind fun (b1, i1, so) =>
        (s'.findBlockAtPosition (placed 0 ps) (max position anchor)).bind fun (b2, i2, eo) =>
          (if i1 = i2 then s'.deleteSame d (placed 0 ps) b1 i1 so eo (min position anchor) (max position anchor)
            else s'.deleteAcross d.id f d (placed 0 ps) b1 i1 so b2 i2 eo (min position anchor)
              (max position anchor)).map fun r => (r.1, r.2, s.snapshot) := by
  obtain ⟨fr, hfr, hfid, hfc, hfb⟩ := h.frame
  obtain ⟨changed, hch, hchb⟩ := h.toShows.refresh h.positive s.storedPos ps [] 0 (fun q hq => hq)
    h.ids_nodup (by simp)
  simp only [List.nil_append] at hch
  have hs1 := h.toShows.updateBlocks hchb
  have hsh := updateBlocks_shell s changed
  have hF1 : Flat (s.updateBlocks changed) d f ps := h.of_shell hs1 hsh.1 hsh.2.2 rfl rfl rfl
  refine ⟨s.updateBlocks changed, hF1, hsh.2.2, ?_⟩
  unfold Store.deleteText
  rw [h.docId, Option.bind_some, if_neg hne]
  dsimp only
  rw [h.document, Option.bind_some, h.docFrames, List.head?_cons, Option.bind_some, h.flowIds,
    Option.bind_some, hfr, Option.bind_some, hfc, h.getBlocks, hch, Option.bind_some]
  dsimp only
  rw [sortByKey_of_sorted _ (placed_sorted 0 ps)]
  congr 1
  funext x
  rw [hF1.notCross d.id hF1.docTables (fun x hx => (placed_mem hx).2)]
  rfl

theorem Flat.deleteWithin (h : Flat s d f (L ++ p :: R)) {position anchor : Int}
    (hc : p.chars = a ++ m ++ b) (hm : m ≠ [])
    (hstart : min position anchor = ((charsBefore (paras L) + a.length : Nat) : Int))
    (hstop : max position anchor = ((charsBefore (paras L) + (a.length + m.length) : Nat) : Int)) :
    ∃ s', s.deleteText position anchor =
        some (s', ⟨min position anchor, m.map Prod.fst⟩, s.snapshot) ∧
      Flat s' { d with characterCount := d.characterCount - m.length } f
        (L ++ { p with chars := a ++ b } :: R) ∧ s'.counters = s.counters := by
  have hlen : 0 < m.length := List.length_pos_iff.mpr hm
  obtain ⟨s1, hF, hcn, e⟩ := h.deletePrefix (position := position) (anchor := anchor) (by omega)
  rw [e]
  have hE := placed_entities 0 (L ++ p :: R)
  have hi := placed_find 0 L R p h.ids_nodup
  have hf1 := hF.toShows.findIn (a := a) (b := m ++ b) (by simp [hc]) hE hi
  have hf2 := hF.toShows.findIn (a := a ++ m) (b := b) (by simp [hc]) hE hi
  rw [List.length_append] at hf2
  rw [hstart, hf1, Option.bind_some]
  dsimp only
  rw [hstop, hf2, Option.bind_some]
  dsimp only
  rw [if_pos rfl]
  obtain ⟨s2, e2, hs2, hsh2, hc2⟩ := hF.toShows.deleteSame (blocks := placed 0 (L ++ p :: R))
    (i := L.length) hc (isBlock_entity p (charsBefore (paras L)))
    (start := ((charsBefore (paras L) + a.length : Nat) : Int))
    (stop := ((charsBefore (paras L) + (a.length + m.length) : Nat) : Int)) (by push_cast; omega)
  rw [e2]
  refine ⟨s2, rfl, hF.of_shell hs2 hsh2 hc2 (by simp) rfl rfl, hc2.trans hcn⟩

theorem Flat.deleteOver {p1 p2 : SPara} {a1 b1 a2 b2 : List SChar} {position anchor : Int}
    (h : Flat s d f (L ++ p1 :: (M ++ p2 :: R))) (hc1 : p1.chars = a1 ++ b1) (hc2 : p2.chars = a2 ++ b2)
    (hstart : min position anchor = ((charsBefore (paras L) + a1.length : Nat) : Int))
    (hstop : max position anchor = ((charsBefore (paras (L ++ p1 :: M)) + a2.length : Nat) : Int)) :
    ∃ s', s.deleteText position anchor =
        some (s', ⟨min position anchor, b1.map Prod.fst ++ M.flatMap (fun q => '\n' :: q.text) ++
          '\n' :: a2.map Prod.fst⟩, s.snapshot) ∧
      Flat s' { d with
          characterCount := d.characterCount - ((b1.length : Int) + (M.map fun q => q.text.length).sum + a2.length)
          blockCount := d.blockCount - (M.length + 1 : Nat) } f
        (L ++ { p1 with chars := a1 ++ b2 } :: R) ∧
      s'.counters = s.counters := by
  have hlt : position ≠ anchor := by
    rw [paras_append, paras_cons, charsBefore_append] at hstop
    simp only [charsBefore, List.map_cons, List.sum_cons] at hstart hstop
    have : p1.text.length = a1.length + b1.length := by simp [SPara.text, hc1]
    rw [this] at hstop
    omega
  obtain ⟨s1, hF, hcn, e⟩ := h.deletePrefix hlt
  rw [e]
  have hE := placed_entities 0 (L ++ p1 :: (M ++ p2 :: R))
  have hi1 := placed_find 0 L (M ++ p2 :: R) p1 h.ids_nodup
  have hf1 := hF.toShows.findIn hc1 hE hi1
  have hre : L ++ p1 :: (M ++ p2 :: R) = (L ++ p1 :: M) ++ p2 :: R := by simp
  have hi2 := placed_find 0 (L ++ p1 :: M) R p2 (by rw [← hre]; exact h.ids_nodup)
  rw [← hre] at hi2
  have hF' := hF
  rw [hre] at hF'
  have hf2 := hF'.toShows.findIn hc2 (by rw [← hre]; exact hE) hi2
  rw [hstart, hf1, Option.bind_some]
  dsimp only
  rw [hstop, hf2, Option.bind_some]
  dsimp only
  rw [if_neg (by simp)]
  obtain ⟨s2, e2, hs2, hc2'⟩ := hF.deleteAcross (start := ((charsBefore (paras L) + a1.length : Nat) : Int))
    (stop := ((charsBefore (paras (L ++ p1 :: M)) + a2.length : Nat) : Int)) hc1 hc2
  rw [e2]
  exact ⟨s2, rfl, hs2, hc2'.trans hcn⟩

end Verif
