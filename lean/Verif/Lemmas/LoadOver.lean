import Verif.Lemmas.Import
/- Loading a plain text over any document: what becomes of the document entity and of the text. -/
namespace Verif
open Store
variable {s s' : Store} {D f : Nat}

/-- Roots and documents are the same, and the same frames exist. -/
structure KeepsDocs (s s' : Store) : Prop where
  roots : s'.roots = s.roots
  documents : s'.documents = s.documents
  frames : ∀ g, (s.frames g).isSome → (s'.frames g).isSome

theorem KeepsDocs.refl (s : Store) : KeepsDocs s s := ⟨rfl, rfl, fun _ h => h⟩
theorem KeepsDocs.trans {a b c : Store} (h : KeepsDocs a b) (h' : KeepsDocs b c) : KeepsDocs a c :=
  ⟨h'.1.trans h.1, h'.2.trans h.2, fun g hg => h'.3 g (h.3 g hg)⟩

theorem keeps_setFrameBlocks {ids : List Nat} (h : s.setFrameBlocks f ids = some s') : KeepsDocs s s' := by
  unfold Store.setFrameBlocks at h
  split at h
  · split at h
    · cases h
      refine ⟨rfl, rfl, fun g hg => ?_⟩
      simp only [IdMap.insert_get]
      split
      · rfl
      · exact hg
    · cases h; exact .refl _
  · cases h

theorem keeps_rewriteOwners {ids : List Nat} (l : List (Nat × List Nat)) : ∀ {s : Store},
    Store.rewriteOwners ids l s = some s' → KeepsDocs s s' := by
  induction l with
  | nil => intro s h; cases h; exact .refl _
  | cons x l ih =>
    intro s h
    simp only [Store.rewriteOwners, Option.bind_eq_some_iff] at h
    obtain ⟨s1, h1, h2⟩ := h
    exact (keeps_setFrameBlocks h1).trans (ih h2)

theorem keeps_removeBlocks {ids : List Nat} (h : s.removeBlocks ids = some s') : KeepsDocs s s' := by
  unfold Store.removeBlocks at h
  split at h
  · cases h; exact .refl _
  · refine KeepsDocs.trans (b := s.tableRemoveBlocks ids) ⟨rfl, rfl, fun g hg => ?_⟩ (keeps_rewriteOwners _ h)
    show ((s.frames.mapValues (stripFrame ids)) g).isSome
    rw [IdMap.mapValues_get, Option.isSome_map]; exact hg

theorem rewriteDocs_doc {id : Nat} {d : Document} (l : List (Nat × List Nat)) : ∀ {s : Store}, s.documents D = some d →
    (∀ x ∈ l, x.1 = D → (x.2.filter fun b => b ≠ id) = d.frames) → Store.rewriteDocs id l s = some s' →
    s'.documents D = some d ∧ s'.roots = s.roots ∧ s'.frames = s.frames := by
  induction l with
  | nil => intro s hd _ h; cases h; exact ⟨hd, rfl, rfl⟩
  | cons x l ih =>
    intro s hd hl h
    simp only [Store.rewriteDocs, Option.bind_eq_some_iff] at h
    obtain ⟨s1, h1, h2⟩ := h
    have key : s1.documents D = some d ∧ s1.roots = s.roots ∧ s1.frames = s.frames := by
      unfold Store.setDocFrames at h1
      split at h1
      · split at h1
        · rename_i y hy
          cases h1
          refine ⟨?_, rfl, rfl⟩
          simp only [IdMap.insert_get]
          split
          · rename_i e
            subst e
            rw [hd] at hy
            cases hy
            rw [hl x (by simp) rfl]
          · exact hd
        · cases h1; exact ⟨hd, rfl, rfl⟩
      · cases h1
    obtain ⟨k1, k2, k3⟩ := ih key.1 (fun y hy => hl y (List.mem_cons_of_mem _ hy)) h2
    exact ⟨k1, k2.trans key.2.1, k3.trans key.2.2⟩

theorem removeFrame_doc {id : Nat} {d : Document} (hd : s.documents D = some d) (hf : (s.frames id).isSome)
    (h : s.removeFrame id = some s') :
    s'.documents D = some { d with frames := d.frames.filter fun i => i ≠ id } ∧ s'.roots = s.roots ∧
      ∀ g, g ≠ id → (s.frames g).isSome → (s'.frames g).isSome := by
  unfold Store.removeFrame at h
  split at h
  · rename_i e; rw [e] at hf; cases hf
  · simp only [Option.bind_eq_some_iff] at h
    obtain ⟨s1, h1, h2⟩ := h
    have k := keeps_removeBlocks h1
    have hd1 : s1.documents D = some d := by rw [k.documents]; exact hd
    obtain ⟨r1, r2, r3⟩ := rewriteDocs_doc (s := s1.tableRemoveFrame id) (D := D) (d := { d with frames := d.frames.filter fun i => i ≠ id }) _
      (by show (s1.documents.mapValues _) D = _; rw [IdMap.mapValues_get, hd1]; rfl)
      (by
        intro x hx e
        rw [List.mem_map] at hx
        obtain ⟨y, _, rfl⟩ := hx
        dsimp only at e ⊢
        subst e
        simp [Store.docFrames, hd1]) h2
    refine ⟨r1, r2.trans k.roots, fun g hg hs => ?_⟩
    rw [r3]
    show (((s1.frames.erase id).mapValues _) g).isSome
    rw [IdMap.mapValues_get, Option.isSome_map, IdMap.erase_get, if_neg hg]
    exact k.frames g hs

theorem removeFrames_doc (l : List Nat) : ∀ {s : Store} {d : Document}, s.documents D = some d → l.Nodup → (∀ g ∈ l, (s.frames g).isSome) →
    Store.removeFrames l s = some s' →
    s'.documents D = some { d with frames := d.frames.filter fun i => i ∉ l } ∧ s'.roots = s.roots := by
  induction l with
  | nil => intro s d hd _ _ h; cases h; exact ⟨by rw [hd, List.filter_eq_self.mpr (by simp)], rfl⟩
  | cons x l ih =>
    intro s d hd hn hl h
    simp only [Store.removeFrames, Option.bind_eq_some_iff] at h
    obtain ⟨s1, h1, h2⟩ := h
    obtain ⟨a1, a2, a3⟩ := removeFrame_doc hd (hl x (by simp)) h1
    have hn' := List.nodup_cons.mp hn
    obtain ⟨b1, b2⟩ := ih a1 hn'.2 (fun g hg => a3 g (fun e => hn'.1 (e ▸ hg)) (hl g (by simp [hg]))) h2
    refine ⟨?_, b2.trans a2⟩
    rw [b1]
    congr 2
    rw [List.filter_filter]
    apply List.filter_congr
    intro i _
    simp [Bool.and_comm]

theorem keeps_createBlock {b : Block} {i : Nat} {n : Int} (hb : b.id = 0) (h : s.createBlock b f n = some (i, s')) :
    KeepsDocs s s' ∧ s'.text = s.text := by
  unfold Store.createBlock Store.insertNewBlock at h
  rw [if_pos hb] at h
  simp only [Option.bind_some, Option.map_eq_some_iff, Prod.mk.injEq] at h
  obtain ⟨s1, h1, _, rfl⟩ := h
  have k := keeps_setFrameBlocks h1
  refine ⟨⟨k.roots, k.documents, k.frames⟩, ?_⟩
  unfold Store.setFrameBlocks at h1
  split at h1
  · split at h1 <;> cases h1 <;> rfl
  · cases h1

/-- Lines behind a text. -/
def behind (first : Bool) (ls : List (List Char)) : List Char := if first then joinLines ls else ls.flatMap fun l => '\n' :: l

theorem importLines_text (ls : List (List Char)) : ∀ {s : Store} {first : Bool} {pos : Int} {ids n},
    Store.importLines f first pos ls s = some (ids, n, s') →
    s'.roots = s.roots ∧ s'.documents = s.documents ∧ s'.rope = s.rope ++ behind first ls ∧ n = (ls.map List.length).sum ∧
      ((s.blockOffsets.entries.any fun e => e.1.isTable) = false → (s'.blockOffsets.entries.any fun e => e.1.isTable) = false) := by
  induction ls with
  | nil => intro s first pos ids n h; cases h; cases first <;> simp [behind, joinLines]
  | cons l ls ih =>
    intro s first pos ids n h
    simp only [Store.importLines, Option.bind_eq_some_iff, Option.map_eq_some_iff] at h
    obtain ⟨⟨i, s1⟩, h1, ⟨ids', n', s2⟩, h2, h3⟩ := h
    cases h3
    obtain ⟨k, kt⟩ := keeps_createBlock rfl h1
    have hr : s1.rope = s.rope := congrArg RopeSt.rope kt
    have ho : s1.blockOffsets = s.blockOffsets := congrArg RopeSt.idx kt
    obtain ⟨r1, r2, r3, r4, r5⟩ := ih h2
    refine ⟨r1.trans k.roots, r2.trans k.documents, ?_, ?_, fun hb => r5 ?_⟩
    · rw [r3]
      cases first <;> simp [behind, joinLines, Store.withText, ropeAppendBlock, ropeInsertBlockBoundary, Store.text, hr]
    · simp [r4]
    · cases first <;> simpa [Store.withText, ropeAppendBlock, ropeInsertBlockBoundary, Store.text, ho, Index.push, Index.setTotal, Marker.isTable, or_imp, forall_and] using hb

/-- Everything the documents and frames list exists. -/
structure ListsExist (s : Store) : Prop where
  blocks : ∀ g fr, s.frames g = some fr → ∀ b ∈ fr.blocks, (s.blocks b).isSome
  frames : ∀ i d, s.documents i = some d → ∀ g ∈ d.frames, (s.frames g).isSome

theorem setFrameBlocks_runs (h : ListsExist s) {ids : List Nat} (hi : ∀ i ∈ ids, (s.blocks i).isSome) :
    ∃ s', s.setFrameBlocks f ids = some s' ∧ ListsExist s' ∧ s'.blocks = s.blocks := by
  unfold Store.setFrameBlocks
  rw [if_pos (List.all_eq_true.mpr hi)]
  cases hf : s.frames f with
  | none => exact ⟨s, rfl, h, rfl⟩
  | some fr =>
    refine ⟨_, rfl, ⟨?_, ?_⟩, rfl⟩
    · intro g x hx b hb
      simp only [IdMap.insert_get] at hx
      split at hx
      · cases hx; exact hi b hb
      · exact h.blocks g x hx b hb
    · intro i d hd g hg
      simp only [IdMap.insert_get]
      split
      · rfl
      · exact h.frames i d hd g hg

theorem rewriteOwners_runs {ids : List Nat} (l : List (Nat × List Nat)) : ∀ {s : Store}, ListsExist s →
    (∀ x ∈ l, ∀ b ∈ x.2, b ∉ ids → (s.blocks b).isSome) → ∃ s', Store.rewriteOwners ids l s = some s' ∧ ListsExist s' := by
  induction l with
  | nil => intro s h _; exact ⟨s, rfl, h⟩
  | cons x l ih =>
    intro s h hl
    obtain ⟨s1, h1, h2, h3⟩ := setFrameBlocks_runs (f := x.1) (ids := x.2.filter fun b => !ids.contains b) h (by
      intro b hb
      rw [List.mem_filter] at hb
      exact hl x (by simp) b hb.1 (by simpa using hb.2))
    obtain ⟨s2, h4, h5⟩ := ih h2 (by rw [h3]; exact fun y hy => hl y (by simp [hy]))
    exact ⟨s2, by rw [Store.rewriteOwners, h1, Option.bind_some, h4], h5⟩

theorem erased_get {α : Type} (ids : List Nat) (m : IdMap α) (i : Nat) (hi : i ∉ ids) : (ids.foldl IdMap.erase m) i = m i := by
  induction ids generalizing m with
  | nil => rfl
  | cons x ids ih =>
    simp only [List.mem_cons, not_or] at hi
    rw [List.foldl_cons, ih _ hi.2, IdMap.erase_get, if_neg hi.1]

theorem removeBlocks_runs (h : ListsExist s) (ids : List Nat) : ∃ s', s.removeBlocks ids = some s' ∧ ListsExist s' := by
  unfold Store.removeBlocks
  split
  · exact ⟨s, rfl, h⟩
  · apply rewriteOwners_runs
    · refine ⟨?_, ?_⟩
      · intro g x hx b hb
        have hx : (s.frames.mapValues (stripFrame ids)) g = some x := hx
        rw [IdMap.mapValues_get, Option.map_eq_some_iff] at hx
        obtain ⟨y, hy, rfl⟩ := hx
        have hb' : b ∈ y.blocks ∧ b ∉ ids := by
          unfold stripFrame at hb
          split at hb
          · simpa using hb
          · rename_i hc
            refine ⟨hb, fun hc' => hc ?_⟩
            exact List.any_eq_true.mpr ⟨b, hb, by simpa using hc'⟩
        show ((ids.foldl IdMap.erase s.blocks) b).isSome
        rw [erased_get _ _ _ hb'.2]
        exact h.blocks g y hy b hb'.1
      · intro i d hd g hg
        show ((s.frames.mapValues (stripFrame ids)) g).isSome
        rw [IdMap.mapValues_get, Option.isSome_map]
        exact h.frames i d hd g hg
    · intro x hx b hb hn
      unfold Store.blockOwners at hx
      obtain ⟨g, _, rfl⟩ := List.mem_map.mp hx
      show ((ids.foldl IdMap.erase s.blocks) b).isSome
      rw [erased_get _ _ _ hn]
      unfold Store.frameBlocks at hb
      cases hg : s.frames g with
      | none => rw [hg] at hb; simp at hb
      | some y => rw [hg] at hb; exact h.blocks g y hg b (by simpa using hb)

theorem setDocFrames_runs (h : ListsExist s) {ids : List Nat} (hi : ∀ i ∈ ids, (s.frames i).isSome) :
    ∃ s', s.setDocFrames f ids = some s' ∧ ListsExist s' ∧ s'.frames = s.frames := by
  unfold Store.setDocFrames
  rw [if_pos (List.all_eq_true.mpr hi)]
  cases hf : s.documents f with
  | none => exact ⟨s, rfl, h, rfl⟩
  | some d =>
    refine ⟨_, rfl, ⟨h.blocks, ?_⟩, rfl⟩
    intro i x hx g hg
    simp only [IdMap.insert_get] at hx
    split at hx
    · cases hx; exact hi g hg
    · exact h.frames i x hx g hg

theorem rewriteDocs_runs {id : Nat} (l : List (Nat × List Nat)) : ∀ {s : Store}, ListsExist s →
    (∀ x ∈ l, ∀ b ∈ x.2, b ≠ id → (s.frames b).isSome) → ∃ s', Store.rewriteDocs id l s = some s' ∧ ListsExist s' := by
  induction l with
  | nil => intro s h _; exact ⟨s, rfl, h⟩
  | cons x l ih =>
    intro s h hl
    obtain ⟨s1, h1, h2, h3⟩ := setDocFrames_runs (f := x.1) (ids := x.2.filter fun b => b ≠ id) h (by
      intro b hb
      rw [List.mem_filter] at hb
      exact hl x (by simp) b hb.1 (by simpa using hb.2))
    obtain ⟨s2, h4, h5⟩ := ih h2 (by rw [h3]; exact fun y hy => hl y (by simp [hy]))
    exact ⟨s2, by rw [Store.rewriteDocs, h1, Option.bind_some, h4], h5⟩

theorem removeFrame_runs (h : ListsExist s) (id : Nat) : ∃ s', s.removeFrame id = some s' ∧ ListsExist s' := by
  unfold Store.removeFrame
  split
  · exact ⟨s, rfl, h⟩
  · rename_i fr _
    obtain ⟨s1, h1, h2⟩ := removeBlocks_runs h fr.blocks
    rw [h1, Option.bind_some]
    have key : ∀ g, g ≠ id → (s1.frames g).isSome → ((s1.tableRemoveFrame id).frames g).isSome := by
      intro g hg hs
      show (((s1.frames.erase id).mapValues _) g).isSome
      rw [IdMap.mapValues_get, Option.isSome_map, IdMap.erase_get, if_neg hg]
      exact hs
    apply rewriteDocs_runs
    · refine ⟨?_, ?_⟩
      · intro g x hx b hb
        have hx : ((s1.frames.erase id).mapValues fun f => if f.parentFrame = some id then { f with parentFrame := none } else f) g = some x := hx
        rw [IdMap.mapValues_get, Option.map_eq_some_iff, IdMap.erase_get] at hx
        obtain ⟨y, hy, rfl⟩ := hx
        split at hy
        · cases hy
        · exact h2.blocks g y hy b (by split at hb <;> exact hb)
      · intro i d hd g hg
        have hd : (s1.documents.mapValues fun d => { d with frames := d.frames.filter fun i => i ≠ id }) i = some d := hd
        rw [IdMap.mapValues_get, Option.map_eq_some_iff] at hd
        obtain ⟨y, hy, rfl⟩ := hd
        have hg := List.mem_filter.mp hg
        exact key g (by simpa using hg.2) (h2.frames i y hy g hg.1)
    · intro x hx b hb hn
      obtain ⟨i, _, rfl⟩ := List.mem_map.mp hx
      unfold Store.docFrames at hb
      cases hi : s1.documents i with
      | none => rw [hi] at hb; simp at hb
      | some y => rw [hi] at hb; exact key b hn (h2.frames i y hi b (by simpa using hb))

theorem removeFrames_runs (l : List Nat) : ∀ {s : Store}, ListsExist s → ∃ s', Store.removeFrames l s = some s' ∧ ListsExist s' := by
  induction l with
  | nil => intro s h; exact ⟨s, rfl, h⟩
  | cons x l ih =>
    intro s h
    obtain ⟨s1, h1, h2⟩ := removeFrame_runs h x
    obtain ⟨s2, h3, h4⟩ := ih h2
    exact ⟨s2, by rw [Store.removeFrames, h1, Option.bind_some, h3], h4⟩

theorem insertAtIndex_last (l : List Nat) (x : Nat) : insertAtIndex l (-1) x = l ++ [x] := by
  unfold insertAtIndex; rw [if_neg (by omega)]

theorem createFrame_runs (h : ListsExist s) (D : Nat) :
    ∃ g s', s.createFrame {} D (-1) = some (g, s') ∧ ListsExist s' ∧ (s'.frames g).isSome := by
  unfold Store.createFrame Store.insertNewFrame
  rw [if_pos rfl, Option.bind_some]
  dsimp only
  have hL : ListsExist { (s.nextId "frame").2 with frames := (s.nextId "frame").2.frames.insert (s.nextId "frame").1 { id := (s.nextId "frame").1 } } := by
    refine ⟨?_, ?_⟩
    · intro g x hx b hb
      simp only [IdMap.insert_get] at hx
      split at hx
      · cases hx; cases hb
      · exact h.blocks g x hx b hb
    · intro i d hd g hg
      simp only [IdMap.insert_get]
      split
      · rfl
      · exact h.frames i d hd g hg
  obtain ⟨s1, h1, h2, h3⟩ := setDocFrames_runs (f := D) hL (ids := insertAtIndex (Store.docFrames _ D) (-1) (s.nextId "frame").1) (by
    intro i hi
    rw [insertAtIndex_last] at hi
    rcases List.mem_append.mp hi with hi | hi
    · unfold Store.docFrames at hi
      cases hd : s.documents D with
      | none => rw [show Store.documents _ D = none from hd] at hi; simp at hi
      | some y => rw [show Store.documents _ D = some y from hd] at hi; exact hL.frames D y hd i (by simpa using hi)
    · rw [List.mem_singleton.mp hi]; simp)
  exact ⟨(s.nextId "frame").1, s1, congrArg (Option.map fun x => ((s.nextId "frame").1, x)) h1, h2, by rw [h3]; simp⟩

theorem createBlock_runs (h : ListsExist s) (pos : Int) :
    ∃ i s', s.createBlock { documentPosition := pos } f (-1) = some (i, s') ∧ ListsExist s' := by
  unfold Store.createBlock Store.insertNewBlock
  rw [if_pos rfl, Option.bind_some]
  dsimp only
  have hkeep : ∀ b, (s.blocks b).isSome →
      (((s.nextId "block").2.blocks.insert (s.nextId "block").1 { documentPosition := pos, id := (s.nextId "block").1 }) b).isSome := by
    intro b hb
    simp only [IdMap.insert_get]
    split
    · rfl
    · exact hb
  have hL : ListsExist { (s.nextId "block").2 with
      blocks := (s.nextId "block").2.blocks.insert (s.nextId "block").1 { documentPosition := pos, id := (s.nextId "block").1 } } :=
    ⟨fun g x hx b hb => hkeep b (h.blocks g x hx b hb), h.frames⟩
  obtain ⟨s1, h1, h2, _⟩ := setFrameBlocks_runs (f := f) hL (ids := insertAtIndex (Store.frameBlocks _ f) (-1) (s.nextId "block").1) (by
    intro i hi
    rw [insertAtIndex_last] at hi
    rcases List.mem_append.mp hi with hi | hi
    · unfold Store.frameBlocks at hi
      cases hd : s.frames f with
      | none => rw [show Store.frames _ f = none from hd] at hi; simp at hi
      | some y => rw [show Store.frames _ f = some y from hd] at hi; exact hL.blocks f y hd i (by simpa using hi)
    · rw [List.mem_singleton.mp hi]; simp)
  exact ⟨(s.nextId "block").1, s1, congrArg (Option.map fun x => ((s.nextId "block").1, x)) h1, h2⟩

theorem importLines_runs (ls : List (List Char)) : ∀ {s : Store} {first : Bool} {pos : Int}, ListsExist s →
    ∃ r, Store.importLines f first pos ls s = some r ∧ ListsExist r.2.2 ∧ ∀ g, (s.frames g).isSome → (r.2.2.frames g).isSome := by
  induction ls with
  | nil => intro s first pos h; exact ⟨_, rfl, h, fun _ h => h⟩
  | cons l ls ih =>
    intro s first pos h
    obtain ⟨i, s1, h1, h2⟩ := createBlock_runs (f := f) h pos
    have hk := (keeps_createBlock rfl h1).1
    obtain ⟨r, h3, h4, h5⟩ := ih (first := false) (pos := pos + l.length + (if ls.isEmpty then 0 else 1))
      (s := s1.withText (ropeAppendBlock (if first then s1.text else ropeInsertBlockBoundary s1.text) i l)) ⟨h2.blocks, h2.frames⟩
    refine ⟨(i :: r.1, l.length + r.2.1, r.2.2), ?_, h4, fun g hg => h5 g (hk.frames g hg)⟩
    rw [Store.importLines, h1, Option.bind_some]
    dsimp only
    rw [h3]; rfl

end Verif
