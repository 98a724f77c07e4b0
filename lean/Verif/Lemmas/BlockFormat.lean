import Verif.Lemmas.Formatting
/- Changing paragraph formats. -/
namespace Verif

variable {s : Store} {d : Document} {f : Nat} {ps : List SPara} {p : SPara}
open Store

/-- Change the format of the paragraph with a given identity. -/
def reshapeIn (g : Block → Block) (id : Nat) (ps : List SPara) : List SPara :=
  ps.map fun p => if p.id = id then { p with shape := g p.shape } else p

theorem reshapeIn_ids (g : Block → Block) (id : Nat) (ps : List SPara) :
    (reshapeIn g id ps).map SPara.id = ps.map SPara.id := by
  unfold reshapeIn
  rw [List.map_map]
  apply List.map_congr_left
  intro p _
  simp only [Function.comp_apply]
  split <;> rfl

theorem reshapeIn_paras (g : Block → Block) (id : Nat) (ps : List SPara) : paras (reshapeIn g id ps) = paras ps := by
  unfold reshapeIn paras
  rw [List.map_map]
  apply List.map_congr_left
  intro p _
  simp only [Function.comp_apply]
  split <;> rfl

/-- A change of format leaves the identity, the position and the list alone. -/
structure OnlyShape (g : Block → Block) : Prop where
  entity : ∀ (p : SPara) (x : Int), g (p.entity x) = ({ p with shape := g p.shape } : SPara).entity x
  list : ∀ b, (g b).list = b.list

theorem applyBlockFormat_shape (dto : BlockFormatDto) : OnlyShape (applyBlockFormat dto) :=
  ⟨fun _ _ => rfl, fun _ => rfl⟩

theorem Shows.reshape {g : Block → Block} (hg : OnlyShape g) (h : Shows s d ps) (hp : p ∈ ps) (x : Int) :
    Shows (s.updateBlock (g (p.entity x))) d (reshapeIn g p.id ps) := by
  obtain ⟨e, he, hbe⟩ := h.block p hp
  have hid : (g (p.entity x)).id = p.id := by rw [hg.entity]; rfl
  have hkeep : Store.keepBlock (g (p.entity x)) (some e) = g (p.entity x) := by
    show { g (p.entity x) with list := e.list } = g (p.entity x)
    have h1 : e.list = p.shape.list := by rw [hbe]
    have h2 : (g (p.entity x)).list = p.shape.list := by rw [hg.list]; rfl
    rw [h1, ← h2]
  have hmem : ∀ q ∈ reshapeIn g p.id ps, q = { p with shape := g p.shape } ∨ (q ∈ ps ∧ q.id ≠ p.id) := by
    intro q hq
    obtain ⟨q0, hq0, rfl⟩ := List.mem_map.mp hq
    by_cases e : q0.id = p.id
    · have : q0 = p := h.unique hp hq0 e
      subst this; left; rw [if_pos rfl]
    · right; rw [if_neg e]; exact ⟨hq0, e⟩
  constructor
  · exact h.root
  · exact h.document
  · rw [reshapeIn_paras]; exact h.text
  · rw [reshapeIn_ids]
    show (s.blocks.insert _ _).keys.Perm _
    simp only [IdMap.insert, hid, he, Option.isSome_some, if_true]
    exact h.keys
  · intro q hq
    rcases hmem q hq with rfl | ⟨hq1, hne⟩
    · refine ⟨g (p.entity x), ?_, ?_⟩
      · show (s.blocks.insert _ _).get p.id = _
        simp only [IdMap.insert, hid, if_true, he, hkeep]
      · rw [hg.entity]; exact isBlock_entity _ _
    · obtain ⟨b', h1, h2⟩ := h.block q hq1
      refine ⟨b', ?_, h2⟩
      show (s.blocks.insert _ _).get q.id = some b'
      simp only [IdMap.insert, hid, hne, if_false, h1]
  · intro i hi
    rw [reshapeIn_ids] at hi
    show (s.blocks.insert _ _).get i = none
    have : i ≠ p.id := by
      rintro rfl; exact hi (List.mem_map_of_mem hp)
    simp only [IdMap.insert, hid, this, if_false]
    exact h.absent i hi
  · intro q hq
    rcases hmem q hq with rfl | ⟨hq1, hne⟩
    · exact h.formats p hp
    · exact h.formats q hq1
  · intro q hq
    rcases hmem q hq with rfl | ⟨hq1, hne⟩
    · exact h.images p hp
    · exact h.images q hq1
  · intro q hq
    rcases hmem q hq with rfl | ⟨hq1, hne⟩
    · exact h.fresh p hp
    · exact h.fresh q hq1

/-- Change the format of the paragraphs listed in `ids`. -/
def reshapeIds (g : Block → Block) (ids : List Nat) (ps : List SPara) : List SPara :=
  ps.map fun p => if p.id ∈ ids then { p with shape := g p.shape } else p

theorem reshapeIds_ids (g : Block → Block) (ids : List Nat) (ps : List SPara) :
    (reshapeIds g ids ps).map SPara.id = ps.map SPara.id := by
  unfold reshapeIds
  rw [List.map_map]
  apply List.map_congr_left
  intro p _
  simp only [Function.comp_apply]
  split <;> rfl

theorem Shows.reshapes {g : Block → Block} (hg : OnlyShape g) (bs : List Block) :
    ∀ {s : Store} {ps : List SPara}, Shows s d ps → (bs.map Block.id).Nodup →
    (∀ x ∈ bs, ∃ p ∈ ps, x = p.entity (s.storedPos p)) →
    Shows (s.updateBlocks (bs.map g)) d (reshapeIds g (bs.map Block.id) ps) ∧
    ∀ i, ((s.updateBlocks (bs.map g)).blocks i).map Block.documentPosition =
      (s.blocks i).map Block.documentPosition := by
  induction bs with
  | nil =>
    intro s ps h _ _
    refine ⟨?_, fun _ => rfl⟩
    simpa [reshapeIds, Store.updateBlocks] using h
  | cons x bs ih =>
    intro s ps h hnd hx
    rw [List.map_cons, List.nodup_cons] at hnd
    obtain ⟨p, hp, hpx⟩ := hx x (by simp)
    have hxid : x.id = p.id := by rw [hpx]; rfl
    have h1 := h.reshape hg hp (s.storedPos p)
    rw [← hpx] at h1
    have hgid : (g x).id = p.id := by rw [hpx, hg.entity]; rfl
    have hgpos : (g x).documentPosition = s.storedPos p := by rw [hpx, hg.entity]; rfl
    have hpos : ∀ i, ((s.updateBlock (g x)).blocks i).map Block.documentPosition =
        (s.blocks i).map Block.documentPosition := by
      intro i
      show ((s.blocks.insert (g x).id _).get i).map _ = _
      simp only [IdMap.insert, hgid]
      by_cases e : i = p.id
      · subst e
        rw [if_pos rfl, h.stored hp]
        show some (g x).documentPosition = _
        rw [hgpos]; rfl
      · rw [if_neg e]
    have hsp : ∀ q : SPara, (s.updateBlock (g x)).storedPos q = s.storedPos q := by
      intro q; unfold Store.storedPos; rw [hpos]
    obtain ⟨h2, h3⟩ := ih h1 hnd.2 (by
      intro y hy
      obtain ⟨q, hq, hqy⟩ := hx y (by simp [hy])
      have hne : q.id ≠ p.id := by
        intro e
        apply hnd.1
        rw [hxid, ← e]
        exact List.mem_map.mpr ⟨y, hy, by rw [hqy]; rfl⟩
      refine ⟨q, List.mem_map.mpr ⟨q, hq, if_neg hne⟩, ?_⟩
      rw [hsp]; exact hqy)
    have hstep : s.updateBlocks ((x :: bs).map g) = (s.updateBlock (g x)).updateBlocks (bs.map g) := rfl
    rw [hstep]
    refine ⟨?_, fun i => (h3 i).trans (hpos i)⟩
    have : reshapeIds g (bs.map Block.id) (reshapeIn g p.id ps) = reshapeIds g ((x :: bs).map Block.id) ps := by
      unfold reshapeIds reshapeIn
      rw [List.map_map]
      apply List.map_congr_left
      intro q hq
      simp only [Function.comp_apply, List.map_cons, List.mem_cons]
      by_cases e : q.id = p.id
      · rw [if_pos e]
        have hn : q.id ∉ bs.map Block.id := by rw [e, ← hxid]; exact hnd.1
        simp only
        rw [if_neg hn, if_pos (.inl (e.trans hxid.symm))]
      · rw [if_neg e]
        have : q.id ≠ x.id := by rw [hxid]; exact e
        simp only [this, false_or]
    rw [← this]; exact h2

theorem updateBlocks_text (s : Store) (bs : List Block) : (s.updateBlocks bs).text = s.text := by
  induction bs generalizing s with
  | nil => rfl
  | cons b bs ih => exact (ih (s.updateBlock b)).trans rfl

/-- The blocks the command changes, on a document. -/
theorem Shows.blocksToFormat (h : Shows s d ps) (dto : BlockFormatDto) (lo hi : Int) (bs : List Block)
    (hb : ∀ x ∈ bs, ∃ p ∈ ps, x = p.entity (s.storedPos p)) :
    ∃ keep : List Block, Store.blocksToFormat s.text dto lo hi bs = some (keep.map (applyBlockFormat dto)) ∧
      keep.Sublist bs ∧
      ∀ p ∈ ps, (p.id ∈ keep.map Block.id ↔ p.id ∈ bs.map Block.id ∧
        blockOverlaps lo hi (p.entity (s.storedPos p)) p.chars.length = true) := by
  induction bs with
  | nil => exact ⟨[], rfl, .slnil, by simp⟩
  | cons x bs ih =>
    obtain ⟨keep, e, hs, hk⟩ := ih fun y hy => hb y (by simp [hy])
    obtain ⟨q, hq, hqx⟩ := hb x (by simp)
    have hxid : x.id = q.id := by rw [hqx]; rfl
    simp only [Store.blocksToFormat]
    rw [hxid, h.charLength hq, Option.bind_some, e, Option.map_some]
    have hlen : q.text.length = q.chars.length := by simp [SPara.text]
    rw [hlen]
    by_cases ho : blockOverlaps lo hi x q.chars.length = true
    · rw [if_pos ho]
      refine ⟨x :: keep, rfl, hs.cons₂ _, ?_⟩
      intro p hp
      simp only [List.map_cons, List.mem_cons, hk p hp, hxid]
      by_cases ep : p.id = q.id
      · have : p = q := h.unique hq hp ep
        subst this; rw [← hqx]; simp [ho]
      · simp [ep]
    · rw [if_neg ho]
      refine ⟨keep, rfl, hs.cons _, ?_⟩
      intro p hp
      simp only [List.map_cons, List.mem_cons, hk p hp, hxid]
      by_cases ep : p.id = q.id
      · have : p = q := h.unique hq hp ep
        subst this; rw [← hqx]; simp [ho]
      · simp [ep]

/-- `set_block_format` on a flat document, wherever its stored positions are. -/
theorem Flat.setBlockFormat (h : Flat s d f ps) (dto : BlockFormatDto) (x y : Int) :
    ∃ s', s.setBlockFormat dto x y = some (s', s.snapshot) ∧
      Flat s' d f (ps.map fun p =>
        if blockOverlaps (min x y) (max x y) (p.entity (s.storedPos p)) p.chars.length then
          { p with shape := applyBlockFormat dto p.shape } else p) ∧
      (∀ i, (s'.blocks i).map Block.documentPosition = (s.blocks i).map Block.documentPosition) ∧
      s'.counters = s.counters ∧ s'.text = s.text ∧ SameShell s s' := by
  have hl := h.listed
  have hb : ∀ z ∈ s.sortedBlocks d.id, ∃ p ∈ ps, z = p.entity (s.storedPos p) := by
    intro z hz
    obtain ⟨q, hq, hqz⟩ := hl.entities.all z hz
    have hs := hl.stored z hz
    have hzid : z.id = q.id := by rw [hqz]
    rw [hzid, h.stored hq] at hs
    exact ⟨q, hq, (Option.some.inj hs).symm⟩
  obtain ⟨keep, e, hsub, hk⟩ := h.toShows.blocksToFormat dto (min x y) (max x y) _ hb
  obtain ⟨h1, h2⟩ := h.toShows.reshapes (applyBlockFormat_shape dto) keep ((hsub.map Block.id).nodup hl.nodup)
    fun z hz => hb z (hsub.subset hz)
  obtain ⟨h3, h4, h5⟩ := updateBlocks_shell s (keep.map (applyBlockFormat dto))
  unfold Store.setBlockFormat
  rw [h.docId, Option.bind_some, h.document, Option.bind_some]
  dsimp only
  rw [e, Option.map_some]
  refine ⟨_, rfl, ?_, h2, h5, updateBlocks_text _ _, h3⟩
  have : reshapeIds (applyBlockFormat dto) (keep.map Block.id) ps = ps.map fun p =>
        if blockOverlaps (min x y) (max x y) (p.entity (s.storedPos p)) p.chars.length then
          { p with shape := applyBlockFormat dto p.shape } else p := by
    apply List.map_congr_left
    intro p hp
    have hin : p.id ∈ (s.sortedBlocks d.id).map Block.id := by
      obtain ⟨z, hz, hzp⟩ := hl.entities.has p hp
      exact List.mem_map.mpr ⟨z, hz, hzp⟩
    have := hk p hp
    simp only [hin, true_and] at this
    by_cases ho : blockOverlaps (min x y) (max x y) (p.entity (s.storedPos p)) p.chars.length = true
    · rw [if_pos ho, if_pos (this.mpr ho)]
    · rw [if_neg ho, if_neg (mt this.mp ho)]
  rw [← this]
  exact h.of_shell h1 h3 h5 (reshapeIds_ids _ _ _) rfl rfl

end Verif
