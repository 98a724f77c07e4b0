import Verif.Lemmas.Formatting
import Verif.Lemmas.TableReads
import Verif.Lemmas.BlockFormat
/- Formatting a stretch of a document with tables. -/
namespace Verif

variable {s s' : Store} {d : Document} {f : Nat} {ps L R : List SPara} {p : SPara} {ts : List Nat} {K : List Para}
  {items : List SItem} {m : CharFormat → CharFormat}
open Store

theorem OnlyFormats.next {s1 s2 : Store} (h : OnlyFormats s1 s2) (k : String) : s2.next k = s1.next k := by
  unfold Store.next; rw [h.counters]

theorem reformatAt_fst (sel : Nat → Bool) (cs : List SChar) : (reformatAt m sel cs).map Prod.fst = cs.map Prod.fst := by
  apply List.ext_getElem
  · simp [reformatAt]
  · intro i h1 h2
    simp only [reformatAt, List.getElem_map, List.getElem_mapIdx]
    split <;> rfl

/-- Other formats for the characters of one paragraph. -/
theorem Carries.restyle {cs : List SChar} (h : Carries s K (L ++ p :: R) ts) (o : OnlyFormats s s')
    (hr : ∀ i, i ≠ p.id → s'.formatRuns i = s.formatRuns i) (hi : ∀ i, i ≠ p.id → s'.blockImages i = s.blockImages i)
    (hst : StyledOk ((s'.formatRuns p.id).getD []) cs) (himg : (s'.blockImages p.id).getD [] = [])
    (ht : cs.map Prod.fst = p.chars.map Prod.fst) : Carries s' K (L ++ { p with chars := cs } :: R) ts := by
  have hids := h.ids_nodup
  have hne : ∀ q, q ∈ L ∨ q ∈ R → q.id ≠ p.id := by
    intro q hq
    simp only [List.map_append, List.map_cons, List.nodup_append, List.nodup_cons] at hids
    rcases hq with hq | hq
    · exact hids.2.2 q.id (List.mem_map_of_mem hq) p.id (by simp)
    · intro e; exact hids.2.1.1 (e ▸ List.mem_map_of_mem hq)
  have hpar : paras (L ++ { p with chars := cs } :: R) = paras (L ++ p :: R) := by simp [paras, SPara.text, ht]
  have hcase : ∀ {P : SPara → Prop}, (∀ q, (q ∈ L ∨ q ∈ R) → P q) → P { p with chars := cs } →
      ∀ q ∈ L ++ { p with chars := cs } :: R, P q := by
    intro P h1 h2 q hq
    rw [List.mem_append, List.mem_cons] at hq
    rcases hq with hq | rfl | hq
    · exact h1 q (.inl hq)
    · exact h2
    · exact h1 q (.inr hq)
  have hold : ∀ q, (q ∈ L ∨ q ∈ R) → q ∈ L ++ p :: R := by
    intro q hq; rw [List.mem_append, List.mem_cons]; rcases hq with hq | hq <;> simp [hq]
  have hp : p ∈ L ++ p :: R := by simp
  constructor
  · rw [o.text]; exact h.text
  · rw [hpar]; exact h.perm
  · rw [o.blocks]; simpa using h.keys
  · apply hcase
    · intro q hq; rw [o.blocks]; exact h.block q (hold q hq)
    · rw [o.blocks]; exact h.block p hp
  · apply hcase
    · intro q hq; rw [hr _ (hne q hq)]; exact h.formats q (hold q hq)
    · exact hst
  · apply hcase
    · intro q hq; rw [hi _ (hne q hq)]; exact h.images q (hold q hq)
    · exact himg
  · apply hcase
    · intro q hq; rw [o.next]; exact h.fresh q (hold q hq)
    · rw [o.next]; exact h.fresh p hp
  · intro i hlt
    rw [o.next] at hlt
    have : i ≠ p.id := by have := h.fresh p hp; omega
    rw [hr i this, hi i this]; exact h.clean i hlt

theorem Carries.charToByte (h : Carries s K ps ts) (hp : p ∈ ps) (n : Nat) (hn : n ≤ p.chars.length) :
    ∃ k, blockCharToByteInBlock s.text p.id n = some (utf8Len ((p.chars.take n).map Prod.fst), k) := by
  have hm := h.mem hp
  have hsplit : p.text = (p.chars.take n).map Prod.fst ++ (p.chars.drop n).map Prod.fst := by
    rw [← List.map_append, List.take_append_drop]; rfl
  rw [hsplit] at hm
  have := blockCharToByte_repr h.text hm
  rw [show ((p.chars.take n).map Prod.fst).length = n by simp; omega] at this
  exact ⟨_, this⟩

/-- One block of the loop, on a paragraph. -/
theorem Carries.formatOne {x : Block} {lo hi : Int} (h : Carries s K (L ++ p :: R) ts) (hlh : lo < hi) (hx : x.id = p.id) :
    ∃ s' inv, s.formatOne m lo hi x = some (s', inv) ∧ OnlyFormats s s' ∧
      Carries s' K (L ++ { p with chars := reformatAt m (storedSel lo hi x.documentPosition) p.chars } :: R) ts := by
  have hpm : p ∈ L ++ p :: R := by simp
  have hfst : (reformatAt m (storedSel lo hi x.documentPosition) p.chars).map Prod.fst = p.chars.map Prod.fst :=
    reformatAt_fst _ _
  unfold Store.formatOne
  rw [hx, h.charLength hpm, Option.bind_some]
  have htl : p.text.length = p.chars.length := by simp [SPara.text]
  rw [htl]
  by_cases hskip : x.documentPosition + (p.chars.length : Nat) ≤ lo ∨ x.documentPosition ≥ hi
  · simp only [if_pos hskip]
    refine ⟨s, [], rfl, .refl s, ?_⟩
    rw [reformatAt_none]
    · exact h
    · intro i hi; simp only [storedSel, decide_eq_false_iff_not]; omega
  · simp only [if_neg hskip]
    generalize hso : (max 0 (lo - x.documentPosition)).toNat = so
    generalize heo : (min ((p.chars.length : Nat) : Int) (hi - x.documentPosition)).toNat = eo
    have hle : so ≤ eo := by omega
    have hel : eo ≤ p.chars.length := by omega
    obtain ⟨k1, h1⟩ := h.charToByte hpm so (by omega)
    obtain ⟨k2, h2⟩ := h.charToByte hpm eo hel
    rw [h1, Option.bind_some, h2, Option.map_some]
    dsimp only
    have hch : p.chars = p.chars.take so ++ (p.chars.drop so).take (eo - so) ++ p.chars.drop eo := by
      have e1 : (p.chars.drop so).take (eo - so) ++ p.chars.drop eo = p.chars.drop so := by
        have := List.take_append_drop (eo - so) (p.chars.drop so)
        rwa [List.drop_drop, show so + (eo - so) = eo by omega] at this
      rw [List.append_assoc, e1, List.take_append_drop]
    have hbe : utf8Len ((p.chars.take eo).map Prod.fst) = utf8Len ((p.chars.take so).map Prod.fst) +
        utf8Len (((p.chars.drop so).take (eo - so)).map Prod.fst) := by
      rw [← utf8Len_append, ← List.map_append, ← List.take_add, show so + (eo - so) = eo by omega]
    have hrun : StyledOk (s.runsOf p.id) p.chars := h.formats p hpm
    rw [hch] at hrun
    have hst := hrun.format (m := m) (im := s.imagesOf p.id)
    rw [← hbe] at hst
    have hsel := reformatAt_range (m := m) (sel := storedSel lo hi x.documentPosition) (cs := p.chars) hle (by
      intro i hi
      simp only [storedSel, decide_eq_decide]; omega)
    generalize hfb : formatBlock m {} ⟨s.runsOf p.id, s.imagesOf p.id⟩
      (utf8Len ((p.chars.take so).map Prod.fst)) (utf8Len ((p.chars.take eo).map Prod.fst)) = fb at hst
    obtain ⟨g, inv⟩ := fb
    have himg0 : s.imagesOf p.id = [] := h.images p hpm
    cases inv with
    | none =>
      refine ⟨s, [], rfl, .refl s, ?_⟩
      have hg := C06_no_inverse_no_change _ _ _ _ _ _ hfb
      refine h.restyle (.refl s) (fun _ _ => rfl) (fun _ _ => rfl) ?_ himg0 hfst
      rw [hsel]
      rw [hg] at hst; exact hst
    | some inv =>
      have ho := putFormats_only s p.id g
      refine ⟨_, _, rfl, ho, ?_⟩
      refine h.restyle ho ?_ ?_ ?_ ?_ hfst
      · intro i hi; rw [putFormats_runs, if_neg hi]
      · intro i hi; rw [putFormats_images, if_neg (by simp [hi])]
      · rw [putFormats_runs, if_pos rfl, hsel]; exact hst
      · have hgi : g.imgs = [] := by
          unfold formatBlock at hfb
          split at hfb
          · simp at hfb
          · have := congrArg (fun y => y.1.imgs) hfb
            simpa [himg0] using this.symm
        rw [putFormats_images]
        split
        · exact hgi
        · exact himg0

theorem Carries.formatLoop {lo hi : Int} (hlh : lo < hi) (bs : List Block) :
    ∀ {s : Store} {ps : List SPara}, Carries s K ps ts → (bs.map Block.id).Nodup →
    (∀ x ∈ bs, s.blocks x.id = some x ∧ x.id ∈ ps.map SPara.id) →
    ∃ s' inv, Store.formatLoop m lo hi bs s = some (s', inv) ∧ OnlyFormats s s' ∧
      Carries s' K (reformatStored s m lo hi (bs.map Block.id) ps) ts := by
  induction bs with
  | nil =>
    intro s ps h _ _
    refine ⟨s, [], rfl, .refl s, ?_⟩
    simpa [reformatStored] using h
  | cons x bs ih =>
    intro s ps h hnd hx
    obtain ⟨hxs, hxid⟩ := hx x (by simp)
    obtain ⟨p, hp, hpx⟩ := List.mem_map.mp hxid
    have hids := h.ids_nodup
    obtain ⟨L, R, rfl⟩ := List.append_of_mem hp
    obtain ⟨s1, i1, e1, o1, h1⟩ := h.formatOne (m := m) hlh (x := x) hpx.symm
    rw [List.map_cons, List.nodup_cons] at hnd
    obtain ⟨s2, i2, e2, o2, h2⟩ := ih h1 hnd.2 (by
      intro y hy
      have := hx y (by simp [hy])
      rw [o1.blocks]
      refine ⟨this.1, ?_⟩
      simpa using this.2)
    refine ⟨s2, i1 ++ i2, ?_, o1.trans o2, ?_⟩
    · simp only [Store.formatLoop]
      rw [e1, Option.bind_some, e2, Option.map_some]
    · have hsp : ∀ q, s1.storedPos q = s.storedPos q := by
        intro q; unfold Store.storedPos; rw [o1.blocks]
      have hpos : s.storedPos p = x.documentPosition := by
        unfold Store.storedPos; rw [hpx, hxs]; rfl
      have hne : ∀ q, q ∈ L ∨ q ∈ R → q.id ≠ p.id := by
        intro q hq
        simp only [List.map_append, List.map_cons, List.nodup_append, List.nodup_cons] at hids
        rcases hq with hq | hq
        · exact hids.2.2 q.id (List.mem_map_of_mem hq) p.id (by simp)
        · intro e; exact hids.2.1.1 (e ▸ List.mem_map_of_mem hq)
      have : reformatStored s1 m lo hi (bs.map Block.id)
          (L ++ { p with chars := reformatAt m (storedSel lo hi x.documentPosition) p.chars } :: R) =
          reformatStored s m lo hi ((x :: bs).map Block.id) (L ++ p :: R) := by
        unfold reformatStored
        simp only [List.map_append, List.map_cons, hsp]
        have hpn : p.id ∉ bs.map Block.id := by rw [hpx]; exact hnd.1
        have hside : ∀ l : List SPara, (∀ q ∈ l, q.id ≠ p.id) →
            l.map (fun q => if q.id ∈ bs.map Block.id then
              ({ q with chars := reformatAt m (storedSel lo hi (s.storedPos q)) q.chars } : SPara) else q) =
            l.map (fun q => if q.id ∈ x.id :: bs.map Block.id then
              ({ q with chars := reformatAt m (storedSel lo hi (s.storedPos q)) q.chars } : SPara) else q) := by
          intro l hl
          apply List.map_congr_left
          intro q hq
          have : q.id ≠ x.id := by rw [← hpx]; exact hl q hq
          simp [this]
        rw [hside L fun q hq => hne q (.inl hq), hside R fun q hq => hne q (.inr hq)]
        congr 2
        rw [if_neg hpn, if_pos (by simp [hpx]), hpos]
      rw [← this]; exact h2

/-- What formatting makes of a paragraph, at its stored position. -/
def restyled (s : Store) (m : CharFormat → CharFormat) (lo hi : Int) (p : SPara) : SPara :=
  { p with chars := reformatAt m (storedSel lo hi (s.storedPos p)) p.chars }

theorem paras_restyled (lo hi : Int) (ps : List SPara) : paras (ps.map (restyled s m lo hi)) = paras ps := by
  simp only [paras, List.map_map]
  apply List.map_congr_left
  intro q _
  simp only [Function.comp_apply, restyled, SPara.text, reformatAt_fst]

/-- The blocks of a document with tables, sorted. -/
theorem Tabled.sorted_mem (h : Tabled s d f items) :
    (∀ x ∈ s.sortedBlocks d.id, ∃ p ∈ flowParas items, x = p.entity (s.storedPos p)) ∧
    (∀ p ∈ flowParas items, p.entity (s.storedPos p) ∈ s.sortedBlocks d.id) ∧
    ((s.sortedBlocks d.id).map Block.id).Nodup := by
  obtain ⟨L, hH, hsub⟩ := h.content
  have hperm : (s.sortedBlocks d.id).Perm ((flowParas items).map fun p => p.entity (s.storedPos p)) :=
    (sortByKey_perm _ _).trans (by
      have := h.blocksOf
      unfold Store.getBlocks at this ⊢
      rw [List.filterMap_flatMap]; exact this)
  refine ⟨?_, ?_, ?_⟩
  · intro x hx
    obtain ⟨p, hp, e⟩ := List.mem_map.mp (hperm.mem_iff.mp hx)
    exact ⟨p, hp, e.symm⟩
  · intro p hp; exact hperm.mem_iff.mpr (List.mem_map_of_mem hp)
  · rw [(hperm.map Block.id).nodup_iff, List.map_map]
    exact hH.ids_nodup

/-- Formatting a stretch of a document with tables, wherever its stored positions are. -/
theorem Tabled.formatText (h : Tabled s d f items) (x y : Int) :
    ∃ s' inv, s.formatText m x y = some (s', inv) ∧ OnlyFormats s s' ∧
      Tabled s' d f (items.map (SItem.on (restyled s m (min x y) (max x y)))) := by
  obtain ⟨K, hH, hsub⟩ := h.content
  obtain ⟨hm1, hm2, hm3⟩ := h.sorted_mem
  have hdone : ∀ {s'}, OnlyFormats s s' →
      Carries s' K ((flowParas items).map (restyled s m (min x y) (max x y))) ((tablesOf items).map fun t => t.table.id) →
      Tabled s' d f (items.map (SItem.on (restyled s m (min x y) (max x y)))) := by
    intro s' o hc
    refine h.on (fun _ => rfl) hc ?_ ?_ (by rw [o.documents]; exact h.document) rfl rfl rfl o.roots o.frames o.tables o.tableCells o.next
    · rw [paras_restyled]; exact hsub
    · intro ht n p hp
      rw [List.getElem?_map, Option.map_eq_some_iff] at hp
      obtain ⟨q, hq, rfl⟩ := hp
      obtain ⟨b, h1, h2⟩ := h.seated ht n q hq
      refine ⟨b, by rw [o.blocks]; exact h1, ?_⟩
      rw [h2]
      congr 1
      unfold paraStart
      rw [← List.map_take, List.map_map]
      congr 1
      apply List.map_congr_left
      intro q _
      simp [restyled, reformatAt]
  have hdoc : s.docId = some d.id := h.docIdOf
  unfold Store.formatText
  rw [hdoc, Option.bind_some, h.document, Option.bind_some]
  by_cases e : min x y = max x y
  · rw [if_pos e]
    refine ⟨s, [], rfl, .refl s, hdone (.refl s) ?_⟩
    have : (flowParas items).map (restyled s m (min x y) (max x y)) = flowParas items := by
      conv => rhs; rw [← List.map_id (flowParas items)]
      apply List.map_congr_left
      intro p _
      unfold restyled
      rw [reformatAt_none]
      · rfl
      · intro i _; simp only [storedSel, decide_eq_false_iff_not]; omega
    rw [this]; exact hH
  · rw [if_neg e]
    obtain ⟨s', inv, e1, o, h1⟩ := hH.formatLoop (m := m) (lo := min x y) (hi := max x y) (by omega)
      (s.sortedBlocks d.id) hm3 (by
        intro z hz
        obtain ⟨q, hq, rfl⟩ := hm1 z hz
        exact ⟨hH.stored hq, List.mem_map.mpr ⟨q, hq, rfl⟩⟩)
    refine ⟨s', inv, e1, o, hdone o ?_⟩
    have : reformatStored s m (min x y) (max x y) ((s.sortedBlocks d.id).map Block.id) (flowParas items) =
        (flowParas items).map (restyled s m (min x y) (max x y)) := by
      apply List.map_congr_left
      intro p hp
      rw [if_pos (show p.id ∈ (s.sortedBlocks d.id).map Block.id from List.mem_map.mpr ⟨_, hm2 p hp, rfl⟩)]; rfl
    rw [← this]; exact h1

/-! ### Paragraph formats -/

/-- Other formats for some paragraphs. -/
theorem Carries.reshaped {g : SPara → SPara} (h : Carries s K ps ts) (hid : ∀ q, (g q).id = q.id) (hch : ∀ q, (g q).chars = q.chars)
    (ht : s'.text = s.text) (hr : s'.formatRuns = s.formatRuns) (hi : s'.blockImages = s.blockImages) (hn : ∀ k, s'.next k = s.next k)
    (hb : ∀ q ∈ ps, ∃ b, s'.blocks q.id = some b ∧ IsBlock (g q) b) (hb' : ∀ i, i ∉ ps.map SPara.id → s'.blocks i = none) :
    Carries s' K (ps.map g) ts := by
  have hpar : paras (ps.map g) = paras ps := by
    simp only [paras, List.map_map]
    apply List.map_congr_left
    intro q _
    simp only [Function.comp_apply, SPara.text, hid, hch]
  constructor
  · rw [ht]; exact h.text
  · rw [hpar]; exact h.perm
  · rw [ids_on hid]
    refine IdMap.keys_perm h.ids_nodup fun i => ?_
    constructor
    · intro hs
      refine Decidable.byContradiction fun hc => ?_
      rw [hb' i hc] at hs; cases hs
    · intro hm
      obtain ⟨q, hq, rfl⟩ := List.mem_map.mp hm
      obtain ⟨b, h1, _⟩ := hb q hq
      rw [h1]; rfl
  · intro q0 hq0
    obtain ⟨q, hq, rfl⟩ := List.mem_map.mp hq0
    rw [hid]; exact hb q hq
  · intro q0 hq0
    obtain ⟨q, hq, rfl⟩ := List.mem_map.mp hq0
    rw [hid, hch, hr]; exact h.formats q hq
  · intro q0 hq0
    obtain ⟨q, hq, rfl⟩ := List.mem_map.mp hq0
    rw [hid, hi]; exact h.images q hq
  · intro q0 hq0
    obtain ⟨q, hq, rfl⟩ := List.mem_map.mp hq0
    rw [hid, hn]; exact h.fresh q hq
  · rw [hn, hr, hi]; exact h.clean

/-- The blocks the command changes. -/
theorem Carries.blocksToFormat (h : Carries s K ps ts) (dto : BlockFormatDto) (lo hi : Int) (bs : List Block)
    (hb : ∀ x ∈ bs, ∃ p ∈ ps, x = p.entity (s.storedPos p)) :
    ∃ keep : List Block, Store.blocksToFormat s.text dto lo hi bs = some (keep.map (applyBlockFormat dto)) ∧
      keep.Sublist bs ∧
      ∀ p ∈ ps, (p.id ∈ keep.map Block.id ↔ p.id ∈ bs.map Block.id ∧
        blockOverlaps lo hi (p.entity (s.storedPos p)) p.chars.length = true) := by
  induction bs with
  | nil => exact ⟨[], rfl, .slnil, by simp⟩
  | cons x bs ih =>
    obtain ⟨keep, e, hs, hk⟩ := ih fun y hy => hb y (by simp [hy])
    obtain ⟨q, hq, hqx⟩ := hb x (by simp)
    have hxid : x.id = q.id := by rw [hqx]; rfl
    simp only [Store.blocksToFormat]
    rw [hxid, h.charLength hq, Option.bind_some, e, Option.map_some]
    have hlen : q.text.length = q.chars.length := by simp [SPara.text]
    rw [hlen]
    by_cases ho : blockOverlaps lo hi x q.chars.length = true
    · rw [if_pos ho]
      refine ⟨x :: keep, rfl, hs.cons_cons _, ?_⟩
      intro p hp
      simp only [List.map_cons, List.mem_cons, hk p hp, hxid]
      by_cases ep : p.id = q.id
      · have : p = q := h.unique hq hp ep
        subst this; rw [← hqx]; simp [ho]
      · simp [ep]
    · rw [if_neg ho]
      refine ⟨keep, rfl, hs.cons _, ?_⟩
      intro p hp
      simp only [List.map_cons, List.mem_cons, hk p hp, hxid]
      by_cases ep : p.id = q.id
      · have : p = q := h.unique hq hp ep
        subst this; rw [← hqx]; simp [ho]
      · simp [ep]

/-- What `set_block_format` makes of a paragraph, at its stored position. -/
def reshapedAt (s : Store) (dto : BlockFormatDto) (lo hi : Int) (p : SPara) : SPara :=
  if blockOverlaps lo hi (p.entity (s.storedPos p)) p.chars.length then { p with shape := applyBlockFormat dto p.shape } else p

theorem reshapedAt_id (dto : BlockFormatDto) (lo hi : Int) (p : SPara) : (reshapedAt s dto lo hi p).id = p.id := by
  unfold reshapedAt; split <;> rfl

theorem reshapedAt_chars (dto : BlockFormatDto) (lo hi : Int) (p : SPara) : (reshapedAt s dto lo hi p).chars = p.chars := by
  unfold reshapedAt; split <;> rfl

/-- `set_block_format` in a document with tables, wherever its stored positions are. -/
theorem Tabled.setBlockFormat (h : Tabled s d f items) (dto : BlockFormatDto) (x y : Int) :
    ∃ s', s.setBlockFormat dto x y = some (s', s.snapshot) ∧
      Tabled s' d f (items.map (SItem.on (reshapedAt s dto (min x y) (max x y)))) ∧
      (∀ i, (s'.blocks i).map Block.documentPosition = (s.blocks i).map Block.documentPosition) ∧
      s'.text = s.text ∧ s'.lists = s.lists := by
  obtain ⟨K, hH, hsub⟩ := h.content
  obtain ⟨hm1, hm2, hm3⟩ := h.sorted_mem
  obtain ⟨keep, e, hks, hk⟩ := hH.blocksToFormat dto (min x y) (max x y) _ hm1
  have hkn : (keep.map Block.id).Nodup := (hks.map Block.id).nodup hm3
  have hid : (keep.map (applyBlockFormat dto)).map Block.id = keep.map Block.id := by
    rw [List.map_map]; rfl
  obtain ⟨u1, u2, u3⟩ := updateBlocks_get (s := s) (keep.map (applyBlockFormat dto)) (by rw [hid]; exact hkn)
  obtain ⟨h3, h4, h5⟩ := updateBlocks_shell s (keep.map (applyBlockFormat dto))
  have hget : ∀ q ∈ flowParas items, (s.updateBlocks (keep.map (applyBlockFormat dto))).blocks q.id =
      some ((reshapedAt s dto (min x y) (max x y) q).entity (s.storedPos q)) := by
    intro q hq
    have hin : q.id ∈ (s.sortedBlocks d.id).map Block.id := List.mem_map.mpr ⟨_, hm2 q hq, rfl⟩
    have hkq := hk q hq
    simp only [hin, true_and] at hkq
    unfold reshapedAt
    by_cases ho : blockOverlaps (min x y) (max x y) (q.entity (s.storedPos q)) q.chars.length = true
    · rw [if_pos ho]
      obtain ⟨z, hz, hzq⟩ := List.mem_map.mp (hkq.mpr ho)
      obtain ⟨r, hr, hzr⟩ := hm1 z (hks.subset hz)
      have hrq : r = q := hH.unique hq hr (by rw [hzr] at hzq; exact hzq)
      subst hrq
      have := u1 _ (List.mem_map_of_mem hz)
      rw [show (applyBlockFormat dto z).id = r.id from hzq] at this
      rw [this, hH.stored hr, hzr]
      rfl
    · rw [if_neg ho, u2 _ (by rw [hid]; exact mt hkq.mp ho), hH.stored hq]
  have hout : ∀ i, i ∉ (flowParas items).map SPara.id → (s.updateBlocks (keep.map (applyBlockFormat dto))).blocks i = s.blocks i := by
    intro i hi
    apply u2
    rw [hid]
    intro hm
    obtain ⟨z, hz, rfl⟩ := List.mem_map.mp hm
    obtain ⟨r, hr, hzr⟩ := hm1 z (hks.subset hz)
    exact hi (List.mem_map.mpr ⟨r, hr, by rw [hzr]; rfl⟩)
  have hpos : ∀ i, ((s.updateBlocks (keep.map (applyBlockFormat dto))).blocks i).map Block.documentPosition =
      (s.blocks i).map Block.documentPosition := by
    intro i
    by_cases hi : i ∈ (flowParas items).map SPara.id
    · obtain ⟨q, hq, rfl⟩ := List.mem_map.mp hi
      rw [hget q hq, hH.stored hq]; rfl
    · rw [hout i hi]
  have hnext : ∀ k, (s.updateBlocks (keep.map (applyBlockFormat dto))).next k = s.next k := by
    intro k; unfold Store.next; rw [h5]
  obtain ⟨mm, u3⟩ := u3
  refine ⟨s.updateBlocks (keep.map (applyBlockFormat dto)), ?_, ?_, hpos, updateBlocks_text _ _, h3.lists⟩
  · unfold Store.setBlockFormat
    rw [h.docIdOf, Option.bind_some, h.document, Option.bind_some]
    dsimp only
    rw [e, Option.map_some]
  · refine h.on (reshapedAt_id dto _ _) (hH.reshaped (reshapedAt_id dto _ _) (reshapedAt_chars dto _ _) (updateBlocks_text _ _)
      (by rw [u3]) (by rw [u3]) hnext ?_ ?_) ?_ ?_ (by rw [h4]; exact h.document) rfl rfl rfl h3.roots h3.frames h3.tables h3.tableCells hnext
    · intro q hq; exact ⟨_, hget q hq, isBlock_entity _ _⟩
    · intro i hi; rw [hout i hi]; exact hH.absent hi
    · have : paras ((topParas items).map (reshapedAt s dto (min x y) (max x y))) = paras (topParas items) := by
        simp only [paras, List.map_map]
        apply List.map_congr_left
        intro q _
        simp only [Function.comp_apply, SPara.text, reshapedAt_id, reshapedAt_chars]
      rw [this]; exact hsub
    · intro ht n p hp
      rw [List.getElem?_map, Option.map_eq_some_iff] at hp
      obtain ⟨q, hq, rfl⟩ := hp
      obtain ⟨b, h1, h2⟩ := h.seated ht n q hq
      have hqm : q ∈ flowParas items := List.mem_of_getElem? hq
      refine ⟨_, by rw [reshapedAt_id]; exact hget q hqm, ?_⟩
      have hs := hH.stored hqm
      rw [h1] at hs
      have hp2 : s.storedPos q = b.documentPosition := by rw [Option.some.inj hs]; rfl
      show s.storedPos q = _
      rw [hp2, h2]
      congr 1
      unfold paraStart
      rw [← List.map_take, List.map_map]
      congr 1
      apply List.map_congr_left
      intro q _
      simp [reshapedAt_chars]

end Verif
