import Verif.Lemmas.Formatting
import Verif.Spec.Store
/- Undo and redo of formatting, for any store. -/
namespace Verif

variable {s s' : Store} {m : CharFormat → CharFormat}
open Store

/-- What the loop over the blocks did. -/
structure Formatted (m : CharFormat → CharFormat) (s s' : Store) (invs : List BlockInverse) : Prop where
  only : OnlyFormats s s'
  rest : ∀ i, i ∉ invs.map BlockInverse.block →
    s'.formatRuns i = s.formatRuns i ∧ s'.blockImages i = s.blockImages i
  each : ∀ v ∈ invs, ∃ x y g,
    formatBlock m {} ⟨s.runsOf v.block, s.imagesOf v.block⟩ x y = (g, some v.inv) ∧
    s'.runsOf v.block = g.runs ∧ s'.imagesOf v.block = g.imgs

theorem formatBlock_imgs_nil {x y : Nat} {b g : BlockFmt CharFormat} {o} (hb : b.imgs = [])
    (h : formatBlock m {} b x y = (g, o)) : g.imgs = [] := by
  unfold formatBlock at h
  split at h
  · cases h; exact hb
  · have := congrArg (fun y => y.1.imgs) h
    simpa [hb] using this.symm

theorem putFormats_runsOf (s : Store) (id : Nat) (x : BlockFmt CharFormat) (i : Nat) :
    (s.putFormats id x).runsOf i = if i = id then x.runs else s.runsOf i := by
  unfold Store.runsOf
  rw [putFormats_runs]
  split <;> rfl

theorem putFormats_imagesOf (s : Store) (id : Nat) (x : BlockFmt CharFormat) (i : Nat)
    (h : s.imagesOf id = [] → x.imgs = []) :
    (s.putFormats id x).imagesOf i = if i = id then x.imgs else s.imagesOf i := by
  unfold Store.imagesOf at h ⊢
  rw [putFormats_images]
  by_cases e : i = id
  · subst e
    rw [if_pos rfl]
    cases hi : s.blockImages i with
    | none => rw [if_neg (by simp)]; rw [h (by rw [hi]; rfl)]; rfl
    | some l => rw [if_pos ⟨rfl, rfl⟩]; rfl
  · rw [if_neg (by simp [e]), if_neg e]

theorem formatOne_formatted {lo hi : Int} {b : Block} {invs : List BlockInverse}
    (h : s.formatOne m lo hi b = some (s', invs)) :
    Formatted m s s' invs ∧ (invs = [] ∨ ∃ v, invs = [v] ∧ v.block = b.id) := by
  have hrefl : Formatted m s s [] := ⟨.refl s, fun _ _ => ⟨rfl, rfl⟩, by simp⟩
  unfold Store.formatOne at h
  simp only [Option.bind_eq_some_iff] at h
  obtain ⟨len, _, h⟩ := h
  split at h
  · cases h; exact ⟨hrefl, .inl rfl⟩
  · simp only [Option.bind_eq_some_iff, Option.map_eq_some_iff] at h
    obtain ⟨⟨bs, k1⟩, _, ⟨be, k2⟩, _, h⟩ := h
    simp only at h
    split at h
    · cases h; exact ⟨hrefl, .inl rfl⟩
    · next g inv hfb =>
      cases h
      refine ⟨⟨putFormats_only _ _ _, ?_, ?_⟩, .inr ⟨_, rfl, rfl⟩⟩
      · intro i hi
        simp only [List.map_cons, List.map_nil, List.mem_singleton] at hi
        rw [putFormats_runs, if_neg hi, putFormats_images, if_neg (by simp [hi])]
        exact ⟨rfl, rfl⟩
      · intro v hv
        simp only [List.mem_singleton] at hv
        subst hv
        refine ⟨bs, be, g, hfb, ?_, ?_⟩
        · rw [putFormats_runsOf, if_pos rfl]
        · rw [putFormats_imagesOf, if_pos rfl]
          intro e; exact formatBlock_imgs_nil e hfb

theorem formatLoop_formatted {lo hi : Int} (bs : List Block) : ∀ {s s' : Store} {invs : List BlockInverse},
    (bs.map Block.id).Nodup → Store.formatLoop m lo hi bs s = some (s', invs) →
    Formatted m s s' invs ∧ (invs.map BlockInverse.block).Sublist (bs.map Block.id) := by
  induction bs with
  | nil =>
    intro s s' invs _ h
    simp only [Store.formatLoop, Option.some.injEq, Prod.mk.injEq] at h
    obtain ⟨rfl, rfl⟩ := h
    exact ⟨⟨.refl _, fun _ _ => ⟨rfl, rfl⟩, by simp⟩, .slnil⟩
  | cons b bs ih =>
    intro s s2 invs hnd h
    simp only [Store.formatLoop, Option.bind_eq_some_iff, Option.map_eq_some_iff] at h
    obtain ⟨⟨s1, i1⟩, h1, ⟨s2', i2⟩, h2, h⟩ := h
    simp only [Prod.mk.injEq] at h
    obtain ⟨rfl, rfl⟩ := h
    rw [List.map_cons, List.nodup_cons] at hnd
    obtain ⟨f1, hs1⟩ := formatOne_formatted h1
    obtain ⟨f2, hs2⟩ := ih hnd.2 h2
    have hsub1 : ∀ i ∈ i1.map BlockInverse.block, i = b.id := by
      intro i hi
      rcases hs1 with rfl | ⟨v, rfl, hv⟩
      · simp at hi
      · simp only [List.map_cons, List.map_nil, List.mem_singleton] at hi; rw [hi, hv]
    have hdis : ∀ i ∈ i1.map BlockInverse.block, i ∉ i2.map BlockInverse.block := by
      intro i hi hi2
      rw [hsub1 i hi] at hi2
      exact hnd.1 (hs2.subset hi2)
    refine ⟨⟨f1.only.trans f2.only, ?_, ?_⟩, ?_⟩
    · intro i hi
      simp only [List.map_append, List.mem_append, not_or] at hi
      obtain ⟨a1, a2⟩ := f1.rest i hi.1
      obtain ⟨b1, b2⟩ := f2.rest i hi.2
      exact ⟨b1.trans a1, b2.trans a2⟩
    · intro v hv
      rcases List.mem_append.mp hv with hv | hv
      · have hvm := List.mem_map_of_mem (f := BlockInverse.block) hv
        obtain ⟨b1, b2⟩ := f2.rest _ (hdis _ hvm)
        obtain ⟨x, y, g, e1, e2, e3⟩ := f1.each v hv
        refine ⟨x, y, g, e1, ?_, ?_⟩
        · rw [← e2]; unfold Store.runsOf; rw [b1]
        · rw [← e3]; unfold Store.imagesOf; rw [b2]
      · have hvm := List.mem_map_of_mem (f := BlockInverse.block) hv
        obtain ⟨b1, b2⟩ := f1.rest v.block fun hi => hdis _ hi hvm
        obtain ⟨x, y, g, e1, e2, e3⟩ := f2.each v hv
        refine ⟨x, y, g, ?_, e2, e3⟩
        have r1 : s1.runsOf v.block = s.runsOf v.block := by unfold Store.runsOf; rw [b1]
        have r2 : s1.imagesOf v.block = s.imagesOf v.block := by unfold Store.imagesOf; rw [b2]
        rw [← r1, ← r2]; exact e1
    · rw [List.map_append, List.map_cons]
      rcases hs1 with rfl | ⟨v, rfl, hv⟩
      · exact hs2.cons _
      · simp only [List.map_cons, List.map_nil, List.singleton_append]; rw [hv]; exact hs2.cons₂ _

theorem setFirstImageFormat_nil (l : List (Nat × CharFormat)) :
    l.foldl (fun is p => setFirstImageFormat p.1 p.2 is) ([] : List (Img CharFormat)) = [] := by
  induction l with
  | nil => rfl
  | cons a l ih => exact ih

/-- `apply_inverse`, pointwise. -/
theorem undoFormat_spec (invs : List BlockInverse) : ∀ {s : Store}, (invs.map BlockInverse.block).Nodup →
    OnlyFormats s (s.undoFormat invs) ∧
    (∀ i, i ∉ invs.map BlockInverse.block →
      (s.undoFormat invs).runsOf i = s.runsOf i ∧ (s.undoFormat invs).imagesOf i = s.imagesOf i) ∧
    (∀ v ∈ invs, (⟨(s.undoFormat invs).runsOf v.block, (s.undoFormat invs).imagesOf v.block⟩ : BlockFmt CharFormat) =
      applyInverse ⟨s.runsOf v.block, s.imagesOf v.block⟩ v.inv) := by
  induction invs with
  | nil => intro s _; exact ⟨.refl s, fun _ _ => ⟨rfl, rfl⟩, by simp⟩
  | cons v invs ih =>
    intro s hnd
    rw [List.map_cons, List.nodup_cons] at hnd
    have hstep : s.undoFormat (v :: invs) = Store.undoFormat
      (s.putFormats v.block (applyInverse ⟨s.runsOf v.block, s.imagesOf v.block⟩ v.inv)) invs := rfl
    rw [hstep]
    generalize hs1 : s.putFormats v.block (applyInverse ⟨s.runsOf v.block, s.imagesOf v.block⟩ v.inv) = s1
    have o1 : OnlyFormats s s1 := by rw [← hs1]; exact putFormats_only _ _ _
    have hrow : ∀ i, s1.runsOf i = (if i = v.block then (applyInverse ⟨s.runsOf v.block, s.imagesOf v.block⟩ v.inv).runs
        else s.runsOf i) ∧ s1.imagesOf i = (if i = v.block then
          (applyInverse ⟨s.runsOf v.block, s.imagesOf v.block⟩ v.inv).imgs else s.imagesOf i) := by
      intro i
      rw [← hs1]
      refine ⟨putFormats_runsOf _ _ _ _, putFormats_imagesOf _ _ _ _ ?_⟩
      intro e
      simp only [applyInverse, e]
      exact setFirstImageFormat_nil _
    obtain ⟨o2, r2, e2⟩ := ih (s := s1) hnd.2
    refine ⟨o1.trans o2, ?_, ?_⟩
    · intro i hi
      simp only [List.map_cons, List.mem_cons, not_or] at hi
      obtain ⟨a, b⟩ := r2 i hi.2
      obtain ⟨c, d⟩ := hrow i
      rw [if_neg hi.1] at c d
      exact ⟨a.trans c, b.trans d⟩
    · intro w hw
      rcases List.mem_cons.mp hw with rfl | hw
      · obtain ⟨a, b⟩ := r2 w.block hnd.1
        obtain ⟨c, d⟩ := hrow w.block
        rw [if_pos rfl] at c d
        rw [a, b, c, d]
      · rw [e2 w hw]
        have hne : w.block ≠ v.block := by
          intro e; exact hnd.1 (e ▸ List.mem_map_of_mem hw)
        obtain ⟨c, d⟩ := hrow w.block
        rw [if_neg hne] at c d
        rw [c, d]

/-! ### Missing rows read as empty ones -/

theorem SameReading.symm {a b : Store} (h : SameReading a b) : SameReading b a :=
  ⟨h.rope.symm, h.roots.symm, h.documents.symm, h.frames.symm, h.blocks.symm, h.lists.symm, h.resources.symm,
    h.tables.symm, h.tableCells.symm, h.blockOffsets.symm, h.counters.symm, fun i => (h.formatRuns i).symm,
    fun i => (h.blockImages i).symm⟩

theorem SameReading.of_only {a b : Store} (h : OnlyFormats a b)
    (hr : ∀ i, b.runsOf i = a.runsOf i ∧ b.imagesOf i = a.imagesOf i) : SameReading b a :=
  ⟨h.rope, h.roots, h.documents, h.frames, h.blocks, h.lists, h.resources, h.tables, h.tableCells,
    h.blockOffsets, h.counters, fun i => (hr i).1, fun i => (hr i).2⟩

theorem SameReading.putFormats {a b : Store} (h : SameReading a b) (id : Nat) (x : BlockFmt CharFormat)
    (hx : a.imagesOf id = [] → x.imgs = []) : SameReading (a.putFormats id x) (b.putFormats id x) := by
  have oa := putFormats_only a id x
  have ob := putFormats_only b id x
  refine ⟨?_, ?_, ?_, ?_, ?_, ?_, ?_, ?_, ?_, ?_, ?_, ?_, ?_⟩
  · rw [oa.rope, ob.rope, h.rope]
  · rw [oa.roots, ob.roots, h.roots]
  · rw [oa.documents, ob.documents, h.documents]
  · rw [oa.frames, ob.frames, h.frames]
  · rw [oa.blocks, ob.blocks, h.blocks]
  · rw [oa.lists, ob.lists, h.lists]
  · rw [oa.resources, ob.resources, h.resources]
  · rw [oa.tables, ob.tables, h.tables]
  · rw [oa.tableCells, ob.tableCells, h.tableCells]
  · rw [oa.blockOffsets, ob.blockOffsets, h.blockOffsets]
  · rw [oa.counters, ob.counters, h.counters]
  · intro i
    have e1 := putFormats_runsOf a id x i
    have e2 := putFormats_runsOf b id x i
    unfold Store.runsOf at e1 e2
    rw [e1, e2, h.formatRuns i]
  · intro i
    have e1 := putFormats_imagesOf a id x i hx
    have e2 := putFormats_imagesOf b id x i (by
      intro e; apply hx; unfold Store.imagesOf at e ⊢; rw [h.blockImages, e])
    unfold Store.imagesOf at e1 e2
    rw [e1, e2, h.blockImages i]

theorem SameReading.text {a b : Store} (h : SameReading a b) : a.text = b.text := by
  unfold Store.text; rw [h.rope, h.blockOffsets]

theorem SameReading.formatOne {a b : Store} (h : SameReading a b) (lo hi : Int) (x : Block) {a' : Store}
    {i : List BlockInverse} (e : a.formatOne m lo hi x = some (a', i)) :
    ∃ b', b.formatOne m lo hi x = some (b', i) ∧ SameReading a' b' := by
  have hr : ∀ i, b.runsOf i = a.runsOf i := fun i => (h.formatRuns i).symm
  have hi' : ∀ i, b.imagesOf i = a.imagesOf i := fun i => (h.blockImages i).symm
  unfold Store.formatOne at e ⊢
  rw [← h.text, hr, hi']
  simp only [Option.bind_eq_some_iff] at e
  obtain ⟨len, e1, e⟩ := e
  rw [e1, Option.bind_some]
  split at e
  · next hc => cases e; exact ⟨b, by rw [if_pos hc], h⟩
  · next hc =>
    simp only [Option.bind_eq_some_iff, Option.map_eq_some_iff] at e
    obtain ⟨⟨bs, k1⟩, e2, ⟨be, k2⟩, e3, e⟩ := e
    simp only at e
    simp only [if_neg hc, e2, e3, Option.bind_some, Option.map_some]
    split at e
    · cases e; exact ⟨b, rfl, h⟩
    · next g inv hfb =>
      cases e
      exact ⟨_, rfl, h.putFormats _ _ fun e => formatBlock_imgs_nil e hfb⟩

theorem SameReading.formatLoop (lo hi : Int) (bs : List Block) : ∀ {a b a' : Store} {i : List BlockInverse},
    SameReading a b → Store.formatLoop m lo hi bs a = some (a', i) →
    ∃ b', Store.formatLoop m lo hi bs b = some (b', i) ∧ SameReading a' b' := by
  induction bs with
  | nil =>
    intro a b a' i h e
    simp only [Store.formatLoop, Option.some.injEq, Prod.mk.injEq] at e
    obtain ⟨rfl, rfl⟩ := e
    exact ⟨b, rfl, h⟩
  | cons x bs ih =>
    intro a b a' i h e
    simp only [Store.formatLoop, Option.bind_eq_some_iff, Option.map_eq_some_iff] at e
    obtain ⟨⟨a1, i1⟩, e1, ⟨a2, i2⟩, e2, e⟩ := e
    simp only [Prod.mk.injEq] at e
    obtain ⟨rfl, rfl⟩ := e
    obtain ⟨b1, g1, h1⟩ := h.formatOne lo hi x e1
    obtain ⟨b2, g2, h2⟩ := ih h1 e2
    refine ⟨b2, ?_, h2⟩
    simp only [Store.formatLoop]
    rw [g1, Option.bind_some, g2, Option.map_some]

theorem SameReading.formatText {a b a' : Store} (h : SameReading a b) {x y : Int} {i : List BlockInverse}
    (e : a.formatText m x y = some (a', i)) :
    ∃ b', b.formatText m x y = some (b', i) ∧ SameReading a' b' := by
  have h1 : b.docId = a.docId := by unfold Store.docId; rw [h.roots]
  have h2 : ∀ did, b.sortedBlocks did = a.sortedBlocks did := by
    intro did
    unfold Store.sortedBlocks Store.getBlocks Store.docFrames Store.frameBlocks
    rw [h.documents, h.frames, h.blocks]
  unfold Store.formatText at e ⊢
  rw [h1, ← h.documents]
  simp only [Option.bind_eq_some_iff] at e
  obtain ⟨did, e1, doc, e2, e⟩ := e
  rw [e1, Option.bind_some, e2, Option.bind_some, h2]
  split at e
  · next hc => cases e; exact ⟨b, by rw [if_pos hc], h⟩
  · next hc => rw [if_neg hc]; exact h.formatLoop _ _ _ e

/-! ### Stores with the same content -/

theorem SameContent.updateBlock {a b : Store} (h : SameContent a b) (x : Block) :
    SameContent (a.updateBlock x) (b.updateBlock x) := by
  refine ⟨h.rope, h.roots, h.documents, h.frames, ?_, h.lists, h.resources, h.tables, h.tableCells, h.formatRuns,
    h.blockImages, h.blockOffsets⟩
  simp only [Store.updateBlock, h.blocks]

theorem SameContent.updateBlocks (bs : List Block) : ∀ {a b : Store}, SameContent a b →
    SameContent (a.updateBlocks bs) (b.updateBlocks bs) := by
  induction bs with
  | nil => intro a b h; exact h
  | cons x bs ih => intro a b h; exact ih (h.updateBlock x)

/-- A store with the same content shows the same document, if no id was taken back. -/
theorem Flat.same_content {a b : Store} {d : Document} {f : Nat} {ps : List SPara} (h : Flat b d f ps)
    (hs : SameContent a b) (hn : b.next "block" ≤ a.next "block") : Flat a d f ps := by
  have ht : a.text = b.text := by unfold Store.text; rw [hs.rope, hs.blockOffsets]
  refine { root := ?_, document := ?_, text := ?_, keys := ?_, block := ?_, absent := ?_, formats := ?_,
           images := ?_, fresh := ?_, frames := h.frames, tables := h.tables, frame := ?_, others := ?_,
           positive := h.positive, nonempty := h.nonempty, plain := ?_ }
  · rw [hs.roots]; exact h.root
  · rw [hs.documents]; exact h.document
  · rw [ht]; exact h.text
  · rw [hs.blocks]; exact h.keys
  · rw [hs.blocks]; exact h.block
  · rw [hs.blocks]; exact h.absent
  · rw [hs.formatRuns]; exact h.formats
  · rw [hs.blockImages]; exact h.images
  · intro p hp; exact Nat.lt_of_lt_of_le (h.fresh p hp) hn
  · rw [hs.frames]; exact h.frame
  · rw [hs.frames]; intro g fr hg hne b hb
    obtain ⟨h1, h2⟩ := h.others g fr hg hne b hb
    exact ⟨h1, Nat.lt_of_lt_of_le h2 hn⟩
  · rw [hs.frames]; exact h.plain

end Verif
