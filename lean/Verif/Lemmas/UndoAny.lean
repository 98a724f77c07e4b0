import Verif.Spec.Undoing
import Verif.Lemmas.OrderHistory
import Verif.Props.Fragments
import Verif.Props.Formatting
import Verif.Lemmas.FormattedText
/-
Undo in any document.
-/
namespace Verif
open Store

/-! ### The text -/

theorem lowerBound_at {x : Index} {A B : List (Marker × Nat)} {t : Nat} (he : x.entries = A ++ B)
    (hA : ∀ e ∈ A, e.2 < t) (hB : ∀ e, B.head? = some e → t ≤ e.2) : x.lowerBound t = A.length := by
  unfold Index.lowerBound
  rw [he, List.takeWhile_append_of_pos (by simpa using hA)]
  have : (B.takeWhile fun e => decide (e.2 < t)) = [] := by
    cases B with
    | nil => rfl
    | cons b B =>
      have := hB b rfl
      rw [List.takeWhile_cons_of_neg (by simpa using this)]
  rw [this, List.append_nil]

theorem takeWhile_lt {t : Nat} (l : List (Marker × Nat)) : ∀ e ∈ l.takeWhile fun e => decide (e.2 < t), e.2 < t := by
  induction l with
  | nil => simp
  | cons a l ih =>
    rw [List.takeWhile_cons]
    split
    · rename_i h
      intro e he
      rcases List.mem_cons.mp he with rfl | he
      · simpa using h
      · exact ih e he
    · simp

theorem mapM_shift_up (l : List (Marker × Nat)) (n : Nat) :
    (l.mapM fun e => (applyDelta e.2 (n : Int)).map fun v => (e.1, v)) = some (l.map fun e => (e.1, e.2 + n)) := by
  induction l with
  | nil => rfl
  | cons e l ih =>
    rw [List.mapM_cons, ih]
    have : applyDelta e.2 (n : Int) = some (e.2 + n) := by
      unfold applyDelta
      rw [if_pos (by omega)]
      congr 1
    rw [this]; rfl

theorem mapM_shift_down (l : List (Marker × Nat)) (n : Nat) :
    ((l.map fun e => (e.1, e.2 + n)).mapM fun e => (applyDelta e.2 (-(n : Int))).map fun v => (e.1, v)) = some l := by
  induction l with
  | nil => rfl
  | cons e l ih =>
    rw [List.map_cons, List.mapM_cons, ih]
    have : applyDelta (e.2 + n) (-(n : Int)) = some e.2 := by
      unfold applyDelta
      rw [if_pos (by omega)]
      congr 1
      omega
    rw [this]; rfl

/-- Shifting the index up and down again. -/
theorem shiftAfter_back (x : Index) (t n : Nat) : ∃ y, x.shiftAfter t (n : Int) = some y ∧ y.pos = x.pos ∧
    y.shiftAfter t (-(n : Int)) = some x ∧
    (x.entries.Pairwise (fun a b => a.2 < b.2) → ∀ (i : Nat) (e : Marker × Nat), x.entries[i]? = some e → e.2 < t → y.entries[i]? = some e) := by
  let A := x.entries.take (x.lowerBound t)
  let B := x.entries.drop (x.lowerBound t)
  have hAB : x.entries = A ++ B := (List.take_append_drop _ _).symm
  have hAl : A = x.entries.takeWhile fun e => decide (e.2 < t) := by
    show x.entries.take (List.takeWhile _ _).length = _
    exact (List.prefix_iff_eq_take.mp (List.takeWhile_prefix _)).symm
  have hBl : B = x.entries.dropWhile fun e => decide (e.2 < t) := by
    have := List.takeWhile_append_dropWhile (p := fun e : Marker × Nat => decide (e.2 < t)) (l := x.entries)
    rw [← hAl] at this
    exact (List.append_cancel_left (this.trans hAB)).symm
  have hA : ∀ e ∈ A, e.2 < t := fun e he => by
    rw [hAl] at he
    exact takeWhile_lt _ e he
  have hB : ∀ e, B.head? = some e → t ≤ e.2 := fun e he => by
    rw [hBl] at he
    have := List.head?_dropWhile_not (fun e : Marker × Nat => decide (e.2 < t)) x.entries
    rw [he] at this
    simpa using this
  have hl : x.lowerBound t = A.length := lowerBound_at hAB hA hB
  let y : Index := { x with entries := A ++ B.map (fun e => (e.1, e.2 + n)), total := x.total + n }
  have hx : x.shiftAfter t (n : Int) = some y := by
    unfold Index.shiftAfter
    dsimp only
    rw [show x.entries.drop (x.lowerBound t) = B from rfl, mapM_shift_up, Option.bind_some]
    have : applyDelta x.total (n : Int) = some (x.total + n) := by
      unfold applyDelta
      rw [if_pos (by omega)]
      congr 1
    rw [this]; rfl
  refine ⟨y, hx, rfl, ?_, ?_⟩
  · have hyl : y.lowerBound t = A.length := by
      refine lowerBound_at (B := B.map fun e => (e.1, e.2 + n)) rfl hA fun e he => ?_
      rw [List.head?_map, Option.map_eq_some_iff] at he
      obtain ⟨e', he', rfl⟩ := he
      exact Nat.le_trans (hB e' he') (Nat.le_add_right _ _)
    unfold Index.shiftAfter
    have hd : y.entries.drop (y.lowerBound t) = B.map fun e => (e.1, e.2 + n) := by
      rw [hyl]; exact List.drop_left
    have ht : y.entries.take (y.lowerBound t) = A := by
      rw [hyl]; exact List.take_left
    dsimp only
    rw [hd, ht, mapM_shift_down, Option.bind_some]
    have : applyDelta y.total (-(n : Int)) = some x.total := by
      show applyDelta (x.total + n) _ = _
      unfold applyDelta
      rw [if_pos (by omega)]
      congr 1
      omega
    rw [this, Option.map_some]
    congr 1
    show ({ x with entries := A ++ B, total := x.total } : Index) = x
    rw [← hAB]
  · intro hs i e hi he
    have hlt : i < A.length := by
      apply Nat.lt_of_not_le
      intro hle
      rw [hAB, List.getElem?_append_right hle] at hi
      rw [hAB] at hs
      cases hB' : B with
      | nil => rw [hB'] at hi; simp at hi
      | cons b B' =>
        have hb := hB b (by rw [hB']; rfl)
        rw [hB'] at hi hs
        have hmem := List.mem_of_getElem? hi
        rcases List.mem_cons.mp hmem with rfl | hm
        · omega
        · have := (List.pairwise_cons.mp (List.pairwise_append.mp hs).2.1).1 e hm
          omega
    show (A ++ _)[i]? = _
    rw [List.getElem?_append_left hlt]
    rw [hAB, List.getElem?_append_left hlt] at hi
    exact hi

/-- Deleting what was inserted into a paragraph. -/
theorem ropeInsert_back {st r : RopeSt} {id off : Nat} {content text : List Char} (hx : IndexOrdered st.idx)
    (hc : blockContent st id = some content) (ho : IsBoundary content off)
    (hi : ropeInsertInBlock st id off text = some r) :
    (if utf8Len text > 0 then ropeDeleteInBlock r id off (off + utf8Len text) else some r) = some st := by
  unfold ropeInsertInBlock at hi
  by_cases hz : utf8Len text = 0
  · rw [if_pos hz] at hi
    cases hi
    rw [if_neg (by omega)]
  rw [if_neg hz] at hi
  rw [if_pos (by omega)]
  unfold ropeDeleteInBlock
  rw [if_neg (by omega)]
  unfold blockContent Index.rangeWithSuccessor at hc
  unfold Index.rangeOf at hi
  cases hp : st.idx.pos (.block id) with
  | none =>
    rw [hp] at hi
    simp only [Option.bind_some] at hi
    cases hi
    unfold Index.rangeOf
    rw [hp]
    rfl
  | some i =>
    rw [hp] at hi hc
    simp only [Option.bind_eq_some_iff, Option.map_eq_some_iff] at hi hc
    obtain ⟨o, ⟨e, he, rfl⟩, hi⟩ := hi
    obtain ⟨o', ⟨e', he', ho'⟩, hc⟩ := hc
    rw [he] at he'
    cases he'
    simp only [Option.bind_eq_some_iff, Option.map_eq_some_iff] at hi
    obtain ⟨rope, hr, idx, hidx, rfl⟩ := hi
    obtain ⟨y, h1, h2, h3, h4⟩ := shiftAfter_back st.idx (e.2 + 1) (utf8Len text)
    rw [h1] at hidx
    cases hidx
    have hcut : ∃ a b, st.rope = a ++ b ∧ utf8Len a = e.2 + off := by
      obtain ⟨c1, c2, hcc, hcl⟩ := ho
      have key : ∀ be, sliceBytes st.rope e.2 be = some content → ∃ a b, st.rope = a ++ b ∧ utf8Len a = e.2 + off := by
        intro be hs
        obtain ⟨a, b, h1, h2, _⟩ := sliceBytes_eq_some_iff.mp hs
        refine ⟨a ++ c1, c2 ++ b, by rw [h1, hcc]; simp, by rw [utf8Len_append, h2, hcl]⟩
      split at ho'
      · cases ho'; exact key _ hc
      · cases ho'; exact key _ hc
    obtain ⟨a, b, hab, hal⟩ := hcut
    rw [hab, ← hal, insertAtByte_append] at hr
    cases hr
    unfold Index.rangeOf
    rw [h2, hp]
    dsimp only
    rw [h4 hx.sorted i e he (Nat.lt_succ_self _)]
    simp only [Option.map_some, Option.bind_some]
    rw [show e.2 + off = utf8Len a from hal.symm, show e.2 + (off + utf8Len text) = utf8Len a + utf8Len text by omega]
    rw [removeBytes_append, Option.bind_some, show off + utf8Len text - off = utf8Len text by omega, h3, ← hab]
    rfl

/-! ### The same document -/

theorem AsBefore.refl (s : Store) : AsBefore s s :=
  ⟨rfl, rfl, rfl, rfl, rfl, fun _ => rfl, rfl, rfl, rfl, rfl, rfl, fun _ => rfl, fun _ => rfl⟩

theorem AsBefore.symm {s t : Store} (h : AsBefore s t) : AsBefore t s :=
  ⟨h.rope.symm, h.offsets.symm, h.roots.symm, h.documents.symm, h.frames.symm, fun i => (h.blocks i).symm,
    h.blockKeys.symm, h.lists.symm, h.resources.symm, h.tables.symm, h.tableCells.symm, fun i => (h.runs i).symm,
    fun i => (h.images i).symm⟩

theorem AsBefore.trans {s t u : Store} (h : AsBefore s t) (g : AsBefore t u) : AsBefore s u :=
  ⟨g.rope.trans h.rope, g.offsets.trans h.offsets, g.roots.trans h.roots, g.documents.trans h.documents,
    g.frames.trans h.frames, fun i => (g.blocks i).trans (h.blocks i), g.blockKeys.trans h.blockKeys,
    g.lists.trans h.lists, g.resources.trans h.resources, g.tables.trans h.tables, g.tableCells.trans h.tableCells,
    fun i => (g.runs i).trans (h.runs i), fun i => (g.images i).trans (h.images i)⟩

theorem AsBefore.restore (s t : Store) : AsBefore s (t.restoreUndo s.snapshot) := by
  have h : (t.restoreUndo s.snapshot).content = s.content := restoreUndo_content _ _
  refine ⟨?_, ?_, ?_, ?_, ?_, ?_, ?_, ?_, ?_, ?_, ?_, ?_, ?_⟩ <;> intros <;> rfl

theorem AsBefore.text {s t : Store} (h : AsBefore s t) : t.text = s.text := by
  unfold Store.text
  rw [h.rope, h.offsets]

theorem AsBefore.here {s t : Store} (h : AsBefore s t) (i : Nat) : (t.blocks i).isSome = (s.blocks i).isSome := by
  have := congrArg Option.isSome (h.blocks i)
  simpa using this

/-- Writing a block back, up to its position. -/
theorem insert_unplaced {s : Store} {b c : Block} (h : s.blocks b.id = some c) (hu : c.unplaced = b.unplaced) :
    (∀ i, ((s.updateBlock b).blocks i).map Block.unplaced = (s.blocks i).map Block.unplaced) ∧
    (s.updateBlock b).blocks.keys = s.blocks.keys := by
  refine ⟨fun i => ?_, ?_⟩
  · simp only [Store.updateBlock, IdMap.insert]
    split
    · rename_i e
      rw [e, h]
      have hl : c.list = b.list := (congrArg Block.list hu : c.unplaced.list = b.unplaced.list)
      show some (Block.unplaced { b with list := c.list }) = some c.unplaced
      rw [hl]
      exact congrArg some hu.symm
    · rfl
  · simp only [Store.updateBlock, IdMap.insert, h, Option.isSome_some, if_true]

theorem insert_twice {α : Type} {m : IdMap α} {i : Nat} {v w : α} (h : m i = some v) :
    (m.insert i w).insert i v = m := by
  refine IdMap.same ?_ fun j => ?_
  · simp only [IdMap.insert, h, Option.isSome_some, if_true]
  · simp only [IdMap.insert]
    split
    · rename_i e; rw [e, h]
    · rfl

/-! ### Typing -/

/-- What typing `d` did: `s` before, `t` after. -/
structure TypedIn (s t : Store) (d : Store.InsertUndoData) : Prop where
  docId : s.docId = some d.docId
  block : s.blocks d.blockId = some d.originalBlock
  id : d.originalBlock.id = d.blockId
  runs : d.originalRuns = (s.formatRuns d.blockId).getD []
  images : d.originalImages = (s.blockImages d.blockId).getD []
  doc : ∃ doc x, s.documents d.docId = some doc ∧ doc.id = d.docId ∧ d.originalCharacterCount = doc.characterCount ∧
    t.documents = s.documents.insert d.docId { doc with characterCount := x }
  text : ∃ content tx, IndexOrdered s.blockOffsets ∧ blockContent s.text d.blockId = some content ∧
    IsBoundary content d.byteOffset ∧ utf8Len tx = d.byteLen ∧
    ropeInsertInBlock s.text d.blockId d.byteOffset tx = some t.text
  roots : t.roots = s.roots
  frames : t.frames = s.frames
  blocks : ∀ i, (t.blocks i).map Block.unplaced = (s.blocks i).map Block.unplaced
  blockKeys : t.blocks.keys = s.blocks.keys
  lists : t.lists = s.lists
  resources : t.resources = s.resources
  tables : t.tables = s.tables
  tableCells : t.tableCells = s.tableCells
  otherRuns : ∀ i, i ≠ d.blockId → (t.formatRuns i).getD [] = (s.formatRuns i).getD []
  otherImages : ∀ i, i ≠ d.blockId → (t.blockImages i).getD [] = (s.blockImages i).getD []

theorem TypedIn.later {s t t' : Store} {d : Store.InsertUndoData} (h : TypedIn s t d) (g : AsBefore t t') :
    TypedIn s t' d := by
  obtain ⟨doc, x, d1, d2, d3, d4⟩ := h.doc
  obtain ⟨c, tx, t1, t2, t3, t4, t5⟩ := h.text
  exact { h with
    doc := ⟨doc, x, d1, d2, d3, g.documents.trans d4⟩
    text := ⟨c, tx, t1, t2, t3, t4, by rw [g.text]; exact t5⟩
    roots := g.roots.trans h.roots
    frames := g.frames.trans h.frames
    blocks := fun i => (g.blocks i).trans (h.blocks i)
    blockKeys := g.blockKeys.trans h.blockKeys
    lists := g.lists.trans h.lists
    resources := g.resources.trans h.resources
    tables := g.tables.trans h.tables
    tableCells := g.tableCells.trans h.tableCells
    otherRuns := fun i hi => (g.runs i).trans (h.otherRuns i hi)
    otherImages := fun i hi => (g.images i).trans (h.otherImages i hi) }

theorem TypedIn.undo {s t : Store} {d : Store.InsertUndoData} (h : TypedIn s t d) :
    ∃ s', t.undoInsert (.simple d) = some s' ∧ AsBefore s s' := by
  obtain ⟨doc, x, d1, d2, d3, d4⟩ := h.doc
  obtain ⟨c, tx, t1, t2, t3, t4, t5⟩ := h.text
  have hr := ropeInsert_back t1 t2 t3 t5
  rw [t4] at hr
  have hdoc : t.documents d.docId = some { doc with characterCount := x } := by
    rw [d4]; simp [IdMap.insert]
  obtain ⟨c', hc', hu⟩ : ∃ c', t.blocks d.originalBlock.id = some c' ∧ c'.unplaced = d.originalBlock.unplaced := by
    have := h.blocks d.blockId
    rw [h.block, Option.map_some, Option.map_eq_some_iff] at this
    obtain ⟨c', e1, e2⟩ := this
    exact ⟨c', by rw [h.id]; exact e1, e2⟩
  obtain ⟨b1, b2⟩ := insert_unplaced hc' hu
  simp only [Store.undoInsert]
  refine ⟨_, (Option.bind_eq_some_iff.mpr ⟨s.text, hr, Option.map_eq_some_iff.mpr ⟨_, hdoc, rfl⟩⟩), ?_⟩
  refine ⟨rfl, rfl, h.roots, ?_, h.frames, fun i => (b1 i).trans (h.blocks i), b2.trans h.blockKeys, h.lists,
    h.resources, h.tables, h.tableCells, fun i => ?_, fun i => ?_⟩
  · show t.documents.insert doc.id (keepDoc { doc with characterCount := d.originalCharacterCount }
      (t.documents doc.id)) = s.documents
    have e : t.documents doc.id = some { doc with characterCount := x } :=
      (congrArg t.documents.get d2).trans hdoc
    rw [e, d3, d4, ← d2]
    exact insert_twice (v := doc) ((congrArg s.documents.get d2).trans d1)
  · show ((t.formatRuns.insert d.blockId d.originalRuns) i).getD [] = _
    simp only [IdMap.insert]
    split
    · rename_i e; rw [e, h.runs]; rfl
    · rename_i e; exact h.otherRuns i e
  · show ((t.blockImages.insert d.blockId d.originalImages) i).getD [] = _
    simp only [IdMap.insert]
    split
    · rename_i e; rw [e, h.images]; rfl
    · rename_i e; exact h.otherImages i e

theorem updateBlocks_unplaced {s : Store} {bs : List Block}
    (h : ∀ b ∈ bs, ∃ c, s.blocks b.id = some c ∧ c.unplaced = b.unplaced) :
    (∀ i, ((s.updateBlocks bs).blocks i).map Block.unplaced = (s.blocks i).map Block.unplaced) ∧
    (s.updateBlocks bs).blocks.keys = s.blocks.keys := by
  induction bs generalizing s with
  | nil => exact ⟨fun _ => rfl, rfl⟩
  | cons b bs ih =>
    obtain ⟨c, hc, hu⟩ := h b (.head _)
    obtain ⟨a1, a2⟩ := insert_unplaced hc hu
    have := ih (s := s.updateBlock b) fun b' hb' => by
      obtain ⟨c', hc', hu'⟩ := h b' (.tail _ hb')
      have e := a1 b'.id
      rw [hc', Option.map_some, Option.map_eq_some_iff] at e
      obtain ⟨x, e1, e2⟩ := e
      exact ⟨x, e1, e2.trans hu'⟩
    exact ⟨fun i => (this.1 i).trans (a1 i), this.2.trans a2⟩

theorem updateBlocks_rest (s : Store) (bs : List Block) : s.updateBlocks bs = { s with blocks := (s.updateBlocks bs).blocks } := by
  induction bs generalizing s with
  | nil => rfl
  | cons b bs ih => exact ih (s.updateBlock b)

theorem updateDocument_docs {s : Store} {doc : Document} {i : Nat} {n : Int} (h : s.documents i = some doc) (hi : doc.id = i) :
    (s.updateDocument { doc with characterCount := n }).documents = s.documents.insert i { doc with characterCount := n } := by
  show s.documents.insert doc.id (keepDoc _ (s.documents doc.id)) = _
  rw [hi, h]
  rfl

/-- What writing into a paragraph leaves alone. -/
structure WroteInto (s : Store) (b : Block) (r : RopeSt) (t : Store) : Prop where
  text : t.text = r
  documents : t.documents = s.documents
  roots : t.roots = s.roots
  frames : t.frames = s.frames
  blocks : t.blocks = (s.updateBlock b).blocks
  lists : t.lists = s.lists
  resources : t.resources = s.resources
  tables : t.tables = s.tables
  tableCells : t.tableCells = s.tableCells
  otherRuns : ∀ i, i ≠ b.id → (t.formatRuns i).getD [] = (s.formatRuns i).getD []
  otherImages : ∀ i, i ≠ b.id → (t.blockImages i).getD [] = (s.blockImages i).getD []

theorem WroteInto.of (s : Store) (b : Block) (r : RopeSt) (fr : List (Run CharFormat) → List (Run CharFormat))
    (fi : List (Img CharFormat) → List (Img CharFormat)) :
    WroteInto s b r ((if (((s.updateBlock b).editRuns b.id fr).blockImages b.id).isSome = true
      then ((s.updateBlock b).editRuns b.id fr).editImages b.id fi else (s.updateBlock b).editRuns b.id fr).withText r) := by
  split
  · refine ⟨rfl, rfl, rfl, rfl, rfl, rfl, rfl, rfl, rfl, fun i hi => ?_, fun i hi => ?_⟩
    · show ((s.formatRuns.insert b.id _) i).getD [] = _
      simp [IdMap.insert, hi]
    · show ((s.blockImages.insert b.id _) i).getD [] = _
      simp [IdMap.insert, hi]
  · refine ⟨rfl, rfl, rfl, rfl, rfl, rfl, rfl, rfl, rfl, fun i hi => ?_, fun i hi => rfl⟩
    show ((s.formatRuns.insert b.id _) i).getD [] = _
    simp [IdMap.insert, hi]

/-- Text written into a paragraph, later paragraphs moved, the count of characters raised. -/
theorem WroteInto.typed {s s1 s2 : Store} (h : Fine s) (hx : IndexOrdered s.blockOffsets) {b : Block} {bi : Nat}
    (hbi : s.blocks bi = some b) {r : RopeSt} (w : WroteInto s b r s1) {content text : List Char}
    (hcont : blockContent s.text b.id = some content) {o : Int}
    (hr : ropeInsertInBlock s.text b.id (logicalOffsetToByte content (s.imagesOf b.id) o) text = some r)
    {did : Nat} (hdid : s.docId = some did) {doc : Document} (hdoc : s.documents did = some doc) {n : Int}
    (h2 : s2 = { s1 with blocks := s2.blocks })
    (hbl : ∀ i, (s2.blocks i).map Block.unplaced = (s1.blocks i).map Block.unplaced) (hk : s2.blocks.keys = s1.blocks.keys) :
    TypedIn s (s2.updateDocument { doc with characterCount := n })
      ⟨b.id, b, s.runsOf b.id, s.imagesOf b.id, did, doc.characterCount,
        logicalOffsetToByte content (s.imagesOf b.id) o, utf8Len text⟩ := by
  have hbb : s.blocks b.id = some b := by rw [block_id h hbi]; exact hbi
  obtain ⟨u1, u2⟩ := insert_unplaced (s := s) (b := b) hbb rfl
  have hd : doc.id = did := doc_id h hdoc
  have hd2 : s2.documents = s.documents := by rw [h2]; exact w.documents
  refine ⟨hdid, hbb, rfl, rfl, rfl, ⟨doc, n, hdoc, hd, rfl, ?_⟩, ⟨content, text, hx, hcont, ?_, rfl, ?_⟩, ?_, ?_, ?_, ?_, ?_, ?_, ?_, ?_, ?_, ?_⟩
  · rw [updateDocument_docs (i := did) (by rw [hd2]; exact hdoc) hd, hd2]
  · letI : Inhabited CharFormat := ⟨{}⟩
    exact C08_offset_is_boundary _ _ _
  · show _ = some s2.text
    rw [hr, h2, show Store.text { s1 with blocks := s2.blocks } = s1.text from rfl, w.text]
  · show s2.roots = _; rw [h2]; exact w.roots
  · show s2.frames = _; rw [h2]; exact w.frames
  · intro i
    show (s2.blocks i).map _ = _
    rw [hbl i, w.blocks]; exact u1 i
  · show s2.blocks.keys = _
    rw [hk, w.blocks]; exact u2
  · show s2.lists = _; rw [h2]; exact w.lists
  · show s2.resources = _; rw [h2]; exact w.resources
  · show s2.tables = _; rw [h2]; exact w.tables
  · show s2.tableCells = _; rw [h2]; exact w.tableCells
  · intro i hi
    show (s2.formatRuns i).getD [] = _
    rw [h2]; exact w.otherRuns i hi
  · intro i hi
    show (s2.blockImages i).getD [] = _
    rw [h2]; exact w.otherImages i hi

theorem Fine.typedSimple {s t : Store} (h : Fine s) (hx : IndexOrdered s.blockOffsets) {dto : Store.InsertTextDto}
    {res : Store.InsertTextResult} {d : Store.InsertUndoData}
    (hi : s.insertSimple dto = some (t, res, .simple d)) : TypedIn s t d := by
  simp only [Store.insertSimple, Option.bind_eq_some_iff] at hi
  obtain ⟨did, hdid, doc, hdoc, ⟨b, pos, o⟩, hb, ⟨off, s1⟩, hs1, he⟩ := hi
  obtain ⟨bi, hbi⟩ := locate_some hb
  have g1 := h.insertInto (.of h hbi) hs1
  simp only [Store.insertInto, Option.bind_eq_some_iff, Option.map_eq_some_iff] at hs1
  obtain ⟨content, hcont, r, hr, hs1⟩ := hs1
  have hr' : ropeInsertInBlock s.text b.id (logicalOffsetToByte content (s.imagesOf b.id) o) dto.text = some r := by
    rw [← hr]
    congr 1
    split <;> rfl
  have w := WroteInto.of s b r (fun runs => shiftRunsForInsert runs (logicalOffsetToByte content (s.imagesOf b.id) o) (utf8Len dto.text))
    (fun im => shiftImagesForInsert im (logicalOffsetToByte content (s.imagesOf b.id) o) (utf8Len dto.text))
  obtain ⟨e1, e2⟩ := Prod.mk.inj hs1
  rw [e2] at w
  subst e1
  clear hs1 e2
  cases he
  refine WroteInto.typed h hx hbi w hcont hr' hdid hdoc ?_ ?_ ?_
  · split
    · rfl
    · exact updateBlocks_rest _ _
  all_goals
    split
    · first | exact fun _ => rfl | rfl
    · have key := updateBlocks_unplaced (s := s1)
        (bs := (s1.staleAfter did b).map fun b => { b with documentPosition := b.documentPosition + dto.text.length }) ?_
      · first | exact key.1 | exact key.2
      · intro c hc
        obtain ⟨c', hc', rfl⟩ := List.mem_map.mp hc
        simp only [Store.staleAfter, List.mem_filter, List.mem_flatMap] at hc'
        obtain ⟨⟨f, _, hc'⟩, _⟩ := hc'
        obtain ⟨i, _, hi⟩ := List.mem_filterMap.mp hc'
        exact ⟨c', (congrArg s1.blocks.get (block_id g1.fine hi)).trans hi, rfl⟩

theorem Fine.typedFormatted {s t : Store} (h : Fine s) (hx : IndexOrdered s.blockOffsets) {dto : FormattedDto}
    {n : Int} {d : Store.InsertUndoData} (hi : s.formattedSimple dto = some (t, n, .simple d)) : TypedIn s t d := by
  simp only [Store.formattedSimple, Option.bind_eq_some_iff] at hi
  obtain ⟨did, hdid, doc, hdoc, ids, hids, hi⟩ := hi
  split at hi
  · cases hi
  simp only [Option.bind_eq_some_iff] at hi
  obtain ⟨⟨b, j, pos⟩, hb, len, _, ⟨off, s1⟩, hs1, he⟩ := hi
  obtain ⟨bi, hbi⟩ := findSequential_some hb
  simp only [Store.insertFormattedAt, Option.bind_eq_some_iff, Option.map_eq_some_iff] at hs1
  obtain ⟨content, hcont, r, hr, hs1⟩ := hs1
  have hr' : ropeInsertInBlock s.text b.id
      (logicalOffsetToByte content (s.imagesOf b.id) (max 0 (min (dto.position - pos) (len : Int)))) dto.text = some r := by
    rw [← hr]
    congr 1
    split <;> rfl
  obtain ⟨e1, e2⟩ := Prod.mk.inj hs1
  have w : WroteInto s b r s1 := by
    rw [← e2]
    exact WroteInto.of s b r _ _
  subst e1
  clear hs1 e2
  cases he
  exact WroteInto.typed h hx hbi w hcont hr' hdid hdoc rfl (fun _ => rfl) rfl

/-! ### Merging two insertions -/

/-- Shifting up twice. -/
theorem shiftAfter_twice (x y : Index) (t n k : Nat) (h : x.shiftAfter t (n : Int) = some y) :
    y.shiftAfter t (k : Int) = x.shiftAfter t ((n + k : Nat) : Int) := by
  let A := x.entries.take (x.lowerBound t)
  let B := x.entries.drop (x.lowerBound t)
  have hAB : x.entries = A ++ B := (List.take_append_drop _ _).symm
  have hAl : A = x.entries.takeWhile fun e => decide (e.2 < t) := by
    show x.entries.take (List.takeWhile _ _).length = _
    exact (List.prefix_iff_eq_take.mp (List.takeWhile_prefix _)).symm
  have hBl : B = x.entries.dropWhile fun e => decide (e.2 < t) := by
    have := List.takeWhile_append_dropWhile (p := fun e : Marker × Nat => decide (e.2 < t)) (l := x.entries)
    rw [← hAl] at this
    exact (List.append_cancel_left (this.trans hAB)).symm
  have hA : ∀ e ∈ A, e.2 < t := fun e he => by
    rw [hAl] at he
    exact takeWhile_lt _ e he
  have hB : ∀ e, B.head? = some e → t ≤ e.2 := fun e he => by
    rw [hBl] at he
    have := List.head?_dropWhile_not (fun e : Marker × Nat => decide (e.2 < t)) x.entries
    rw [he] at this
    simpa using this
  have up : ∀ (z : Index) (C : List (Marker × Nat)) (m : Nat), z.entries = A ++ C →
      (∀ e, C.head? = some e → t ≤ e.2) →
      z.shiftAfter t (m : Int) = some { z with entries := A ++ C.map (fun e => (e.1, e.2 + m)), total := z.total + m } := by
    intro z C m hz hC
    have hl := lowerBound_at hz hA hC
    unfold Index.shiftAfter
    dsimp only
    rw [hl, hz, List.drop_left, List.take_left, mapM_shift_up, Option.bind_some]
    have : applyDelta z.total (m : Int) = some (z.total + m) := by
      unfold applyDelta
      rw [if_pos (by omega)]
      congr 1
    rw [this]; rfl
  rw [up x B n hAB hB] at h
  cases h
  rw [up x B (n + k) hAB hB, up _ (B.map fun e => (e.1, e.2 + n)) k rfl]
  · simp [Nat.add_assoc, Function.comp_def]
  · intro e he
    rw [List.head?_map, Option.map_eq_some_iff] at he
    obtain ⟨e', he', rfl⟩ := he
    exact Nat.le_trans (hB e' he') (Nat.le_add_right _ _)

theorem ropeInsert_twice {st r1 r2 : RopeSt} {id off : Nat} {content t1 t2 : List Char} (hx : IndexOrdered st.idx)
    (hc : blockContent st id = some content) (ho : IsBoundary content off)
    (h1 : ropeInsertInBlock st id off t1 = some r1) (h2 : ropeInsertInBlock r1 id (off + utf8Len t1) t2 = some r2) :
    ropeInsertInBlock st id off (t1 ++ t2) = some r2 := by
  by_cases z1 : utf8Len t1 = 0
  · have e := utf8Len_eq_zero.mp z1
    subst e
    unfold ropeInsertInBlock at h1
    rw [if_pos z1] at h1
    cases h1
    simpa [z1] using h2
  by_cases z2 : utf8Len t2 = 0
  · have e := utf8Len_eq_zero.mp z2
    subst e
    unfold ropeInsertInBlock at h2
    rw [if_pos z2] at h2
    cases h2
    simpa using h1
  unfold ropeInsertInBlock at h1 h2 ⊢
  rw [if_neg z1] at h1
  rw [if_neg z2] at h2
  rw [if_neg (by rw [utf8Len_append]; omega)]
  unfold blockContent Index.rangeWithSuccessor at hc
  unfold Index.rangeOf at h1 ⊢
  cases hp : st.idx.pos (.block id) with
  | none =>
    rw [hp] at h1
    simp only [Option.bind_some] at h1
    cases h1
    unfold Index.rangeOf at h2
    rw [hp] at h2
    exact h2
  | some i =>
    rw [hp] at h1 hc
    simp only [Option.bind_eq_some_iff, Option.map_eq_some_iff] at h1 hc
    obtain ⟨o, ⟨e, he, rfl⟩, h1⟩ := h1
    obtain ⟨o', ⟨e', he', ho'⟩, hc⟩ := hc
    rw [he] at he'
    cases he'
    simp only [Option.bind_eq_some_iff, Option.map_eq_some_iff] at h1
    obtain ⟨rope, hr, idx, hidx, rfl⟩ := h1
    obtain ⟨y, k1, k2, k3, k4⟩ := shiftAfter_back st.idx (e.2 + 1) (utf8Len t1)
    rw [k1] at hidx
    cases hidx
    have hcut : ∃ a b, st.rope = a ++ b ∧ utf8Len a = e.2 + off := by
      obtain ⟨c1, c2, hcc, hcl⟩ := ho
      have key : ∀ be, sliceBytes st.rope e.2 be = some content → ∃ a b, st.rope = a ++ b ∧ utf8Len a = e.2 + off := by
        intro be hs
        obtain ⟨a, b, h1, h2, _⟩ := sliceBytes_eq_some_iff.mp hs
        refine ⟨a ++ c1, c2 ++ b, by rw [h1, hcc]; simp, by rw [utf8Len_append, h2, hcl]⟩
      split at ho'
      · cases ho'; exact key _ hc
      · cases ho'; exact key _ hc
    obtain ⟨a, b, hab, hal⟩ := hcut
    rw [hab, ← hal, insertAtByte_append] at hr
    cases hr
    unfold Index.rangeOf at h2
    rw [k2, hp] at h2
    dsimp only at h2
    rw [k4 hx.sorted i e he (Nat.lt_succ_self _)] at h2
    simp only [Option.map_some, Option.bind_some] at h2
    rw [show e.2 + (off + utf8Len t1) = utf8Len (a ++ t1) by rw [utf8Len_append]; omega, insertAtByte_append,
      Option.bind_some, shiftAfter_twice _ _ _ _ _ k1] at h2
    dsimp only
    rw [he]
    simp only [Option.map_some, Option.bind_some]
    rw [show e.2 + off = utf8Len a from hal.symm, hab, insertAtByte_append, Option.bind_some, utf8Len_append]
    simpa using h2

theorem TypedIn.merge {p q s : Store} {d d' : Store.InsertUndoData} (h : TypedIn p q d) (g : TypedIn q s d')
    (hb : d'.blockId = d.blockId) (ho : d'.byteOffset = d.byteOffset + d.byteLen) :
    TypedIn p s { d with byteLen := d.byteLen + d'.byteLen } := by
  obtain ⟨doc, x, d1, d2, d3, d4⟩ := h.doc
  obtain ⟨c, tx, t1, t2, t3, t4, t5⟩ := h.text
  obtain ⟨doc', x', d1', d2', d3', d4'⟩ := g.doc
  obtain ⟨c', tx', t1', t2', t3', t4', t5'⟩ := g.text
  have hid : d'.docId = d.docId := by
    have e1 := g.docId
    have e2 := h.docId
    unfold Store.docId at e1 e2
    rw [h.roots, e2] at e1
    exact (Option.some.inj e1).symm
  rw [hid] at d1' d4'
  rw [d4] at d1' d4'
  have e : doc' = { doc with characterCount := x } := by simpa [IdMap.insert] using d1'.symm
  refine ⟨h.docId, h.block, h.id, h.runs, h.images, ⟨doc, x', d1, d2, d3, ?_⟩, ⟨c, tx ++ tx', t1, t2, t3, ?_, ?_⟩,
    g.roots.trans h.roots, g.frames.trans h.frames, fun i => (g.blocks i).trans (h.blocks i), g.blockKeys.trans h.blockKeys,
    g.lists.trans h.lists, g.resources.trans h.resources, g.tables.trans h.tables, g.tableCells.trans h.tableCells,
    fun i hi => ?_, fun i hi => ?_⟩
  · rw [d4', e]
    refine IdMap.same ?_ fun j => ?_
    · simp [IdMap.insert, d1]
    · simp only [IdMap.insert]
      split <;> rfl
  · rw [utf8Len_append, t4, t4']
  · rw [hb, ho, ← t4] at t5'
    exact ropeInsert_twice t1 t2 t3 t5 t5'
  · exact (g.otherRuns i (by rw [hb]; exact hi)).trans (h.otherRuns i hi)
  · exact (g.otherImages i (by rw [hb]; exact hi)).trans (h.otherImages i hi)

/-! ### Character formats -/

theorem AsBefore.ofReading {s t : Store} (h : SameReading t s) : AsBefore s t :=
  ⟨h.rope, h.blockOffsets, h.roots, h.documents, h.frames, fun i => by rw [h.blocks], by rw [h.blocks], h.lists,
    h.resources, h.tables, h.tableCells, h.formatRuns, h.blockImages⟩

theorem AsBefore.putFormats {s t : Store} (h : AsBefore s t) (id : Nat) (x : BlockFmt CharFormat)
    (hx : s.imagesOf id = [] → x.imgs = []) : AsBefore (s.putFormats id x) (t.putFormats id x) := by
  have oa := putFormats_only s id x
  have ob := putFormats_only t id x
  refine ⟨?_, ?_, ?_, ?_, ?_, fun i => ?_, ?_, ?_, ?_, ?_, ?_, fun i => ?_, fun i => ?_⟩
  · rw [oa.rope, ob.rope, h.rope]
  · rw [oa.blockOffsets, ob.blockOffsets, h.offsets]
  · rw [oa.roots, ob.roots, h.roots]
  · rw [oa.documents, ob.documents, h.documents]
  · rw [oa.frames, ob.frames, h.frames]
  · rw [oa.blocks, ob.blocks, h.blocks]
  · rw [oa.blocks, ob.blocks, h.blockKeys]
  · rw [oa.lists, ob.lists, h.lists]
  · rw [oa.resources, ob.resources, h.resources]
  · rw [oa.tables, ob.tables, h.tables]
  · rw [oa.tableCells, ob.tableCells, h.tableCells]
  · show (t.putFormats id x).runsOf i = (s.putFormats id x).runsOf i
    rw [putFormats_runsOf, putFormats_runsOf]
    split
    · rfl
    · exact h.runs i
  · show (t.putFormats id x).imagesOf i = (s.putFormats id x).imagesOf i
    rw [putFormats_imagesOf _ _ _ _ hx, putFormats_imagesOf _ _ _ _ (fun e => hx ((h.images id).symm.trans e))]
    split
    · rfl
    · exact h.images i

theorem AsBefore.undoFormat {s t : Store} (h : AsBefore s t) (is : List Store.BlockInverse) :
    AsBefore (s.undoFormat is) (t.undoFormat is) := by
  unfold Store.undoFormat
  induction is generalizing s t with
  | nil => exact h
  | cons i is ih =>
    refine ih ?_
    dsimp only
    rw [show t.runsOf i.block = s.runsOf i.block from h.runs _, show t.imagesOf i.block = s.imagesOf i.block from h.images _]
    refine h.putFormats _ _ fun e => ?_
    simp only [applyInverse, e]
    exact setFirstImageFormat_nil _

/-! ### Histories -/

/-- `u`, kept by a step from `p` to `s`, brings `p` back. -/
def Undoes (p : Store) (u : UndoData) (s : Store) : Prop :=
  match u with
  | .snapshot x | .typed (.selection x) | .typedFormatted (.selection x) => x = p.snapshot
  | .typed (.simple d) | .typedFormatted (.simple d) => TypedIn p s d
  | .formats is => AsBefore p (s.undoFormat is)

theorem Undoes.later {p s t : Store} {u : UndoData} (h : Undoes p u s) (g : AsBefore s t) : Undoes p u t := by
  unfold Undoes at *
  split at h
  · exact h
  · exact h
  · exact h
  · exact TypedIn.later h g
  · exact TypedIn.later h g
  · exact AsBefore.trans h (g.undoFormat _)

theorem Undoes.undo {p s : Store} {u : UndoData} (h : Undoes p u s) : ∃ t, u.undo s = some t ∧ AsBefore p t := by
  unfold Undoes at h
  split at h
  · subst h; exact ⟨_, rfl, .restore _ _⟩
  · subst h; exact ⟨_, rfl, .restore _ _⟩
  · subst h; exact ⟨_, rfl, .restore _ _⟩
  · exact TypedIn.undo h
  · obtain ⟨t, h1, h2⟩ := TypedIn.undo h
    exact ⟨t, (undoFormatted_eq _ _).trans h1, h2⟩
  · exact ⟨_, rfl, h⟩

/-- The exact content comes back when everything was kept. -/
theorem Undoes.call {s t : Store} (h : Fine s) {c : EditCall} {u : UndoData} (hc : c.Careful s)
    (hr : c.run s = some (t, u)) : Undoes s u t := by
  have hb := (h.call hr).2.2
  cases c
  case typeText dto =>
    simp only [EditCall.run, Option.map_eq_some_iff] at hr
    obtain ⟨⟨t', res, u'⟩, hr, he⟩ := hr
    cases he
    cases u' with
    | selection x => exact hb
    | simple d =>
      simp only [Store.insertText] at hr
      split at hr
      · have := (h.insertWithSelection hr).2
        cases this
      · rename_i hp
        exact h.typedSimple (hc (Decidable.not_not.mp hp)) hr
  case typeFormatted dto =>
    simp only [EditCall.run, Option.map_eq_some_iff] at hr
    obtain ⟨⟨t', res, u'⟩, hr, he⟩ := hr
    cases he
    cases u' with
    | selection x => exact hb
    | simple d =>
      simp only [Store.insertFormatted] at hr
      split at hr
      · have := (h.formattedSelection hr).2
        cases this
      · rename_i hp
        exact h.typedFormatted (hc (Decidable.not_not.mp hp)) hr
  case format m p a =>
    simp only [EditCall.run, Option.map_eq_some_iff] at hr
    obtain ⟨⟨t', is⟩, hr, he⟩ := hr
    cases he
    obtain ⟨h1, h2, h3⟩ := hc
    exact .ofReading (C20_format_text_partial hr h1 h2 h3).1
  all_goals
    simp only [EditCall.run, Option.map_eq_some_iff] at hr
    obtain ⟨r, hr, he⟩ := hr
    cases he
    exact hb

/-- The stores before each step that can be undone. -/
inductive Line : Store → List UndoData → List Store → Prop where
  | nil {s : Store} : Line s [] []
  | cons {p s : Store} {u : UndoData} {us : List UndoData} {ps : List Store} (h : Undoes p u s) (l : Line p us ps) :
      Line s (u :: us) (p :: ps)

theorem Line.later {s t : Store} {us : List UndoData} {ps : List Store} (h : Line s us ps) (g : AsBefore s t) :
    Line t us ps := by
  cases h with
  | nil => exact .nil
  | cons h l => exact .cons (h.later g) l

theorem Line.done {s : Store} {us : List UndoData} {ps : List Store} (h : Line s us ps) : us = [] ↔ ps = [] := by
  cases h <;> simp

theorem Line.merge {s : Store} {c c' : EditCall} {u u' : UndoData} {us : List UndoData} {q : Store} {ps : List Store}
    (h : Line s (u' :: u :: us) (q :: ps)) {m : EditCall × UndoData} (hm : mergeDone (c, u) (c', u') = some m)
    (hf : Follows u u') : Line s (m.2 :: us) ps := by
  cases h with
  | cons h1 l =>
  cases l with
  | cons h0 l =>
  refine .cons ?_ l
  unfold mergeDone at hm
  split at hm
  · rename_i d u d' u' e1 e2
    cases e1; cases e2; cases hm
    cases u with
    | selection x => exact h0
    | simple x => exact TypedIn.merge h0 h1 hf.1 hf.2
  · rename_i e1 e2
    cases e1; cases e2; cases hm
    exact h0
  · cases hm

theorem Work.step_line {w w' : Work} {past : List Store} (h : Trail w.store (w.done.map Prod.snd))
    (l : Line w.store (w.done.map Prod.snd) past) {o : WorkOp} (hc : CarefulOp w o) (hs : w.step o = some w') :
    Line w'.store (w'.done.map Prod.snd) (nextPast w w' past o) ∧
    (o = .undo → ∀ p ∈ past.head?, AsBefore p w'.store) ∧ (o = .undo → past = [] → w' = w) := by
  cases o with
  | call c merge =>
    simp only [Work.step, Option.map_eq_some_iff] at hs
    obtain ⟨⟨s, u⟩, hr, he⟩ := hs
    have h1 := Line.cons (Undoes.call h.fine hc.1 hr) l
    refine ⟨?_, by simp, by simp⟩
    dsimp only at he
    split at he
    · rename_i d ds hd
      rw [hd] at h1
      split at he
      · rename_i m hm
        cases he
        dsimp only [nextPast]
        rw [if_pos (by rw [hd]; rfl)]
        exact h1.merge (c := d.1) (u := d.2) hm (hc.2 rfl _ _ hr d (by rw [hd]; rfl))
      · cases he
        dsimp only [nextPast]
        rw [if_neg (by rw [hd]; simp)]
        exact h1
    · cases he
      dsimp only [nextPast]
      rw [if_neg (by simp)]
      exact h1
  | undo =>
    simp only [Work.step] at hs
    split at hs
    · rename_i hd
      cases hs
      rw [hd] at l
      cases l
      rw [hd]
      exact ⟨.nil, by simp, fun _ _ => rfl⟩
    · rename_i c u ds hd
      simp only [Option.map_eq_some_iff] at hs
      obtain ⟨s, hu, he⟩ := hs
      rw [hd] at l
      cases l with
      | cons hu' l =>
      obtain ⟨t, k1, k2⟩ := hu'.undo
      rw [show u.undo w.store = some s from hu] at k1
      cases k1
      cases he
      exact ⟨l.later k2, fun _ p hp => by cases hp; exact k2, by simp⟩
  | redo =>
    refine ⟨?_, by simp, by simp⟩
    simp only [Work.step] at hs
    split at hs
    · rename_i hd
      cases hs
      simp only [nextPast, hd]
      exact l
    · rename_i c cs hd
      simp only [Option.map_eq_some_iff] at hs
      obtain ⟨⟨s, u⟩, hr, he⟩ := hs
      have h1 := Line.cons (Undoes.call h.fine (hc c (by rw [hd]; rfl)) hr) l
      cases he
      simp only [nextPast, hd]
      exact h1
  | setPlainText t =>
    refine ⟨?_, by simp, by simp⟩
    simp only [Work.step, Option.map_eq_some_iff] at hs
    obtain ⟨s, hr, he⟩ := hs
    cases he
    exact .nil
  | load html es =>
    refine ⟨?_, by simp, by simp⟩
    simp only [Work.step, Option.map_eq_some_iff] at hs
    obtain ⟨⟨n, s⟩, hr, he⟩ := hs
    cases he
    have hd : w.done = [] := hc
    rw [hd] at l
    cases l
    dsimp only [nextPast]
    rw [hd]
    exact .nil

theorem Work.undo_some {w : Work} {past : List Store} (l : Line w.store (w.done.map Prod.snd) past) :
    ∃ w', w.step .undo = some w' := by
  simp only [Work.step]
  split
  · exact ⟨w, rfl⟩
  · rename_i c u ds hd
    rw [hd] at l
    cases l with
    | cons hu l =>
    obtain ⟨t, k1, k2⟩ := hu.undo
    rw [show u.undo w.store = some t from k1]
    exact ⟨_, rfl⟩

theorem Work.run_line {ops : List WorkOp} {w : Work} {past : List Store} (h : Trail w.store (w.done.map Prod.snd))
    (l : Line w.store (w.done.map Prod.snd) past) (hc : CarefulRun w ops) : UndoWorks w past ops := by
  induction ops generalizing w past with
  | nil => trivial
  | cons o os ih =>
    refine ⟨fun e => ?_, fun w' hs => ?_⟩
    · subst e
      obtain ⟨w', hs⟩ := Work.undo_some l
      obtain ⟨k1, k2, k3⟩ := Work.step_line h l hc.1 hs
      exact ⟨w', hs, k2 rfl, k3 rfl⟩
    · refine ih (Work.step_trail h (fun html es e => ?_) hs) (Work.step_line h l hc.1 hs).1 (hc.2 w' hs)
      have := hc.1
      rw [e] at this
      exact this

end Verif
