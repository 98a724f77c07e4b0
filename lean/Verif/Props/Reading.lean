import Verif.Lemmas.Handles
import Verif.Model.Frames
/-
C66: block handles, the flow and snapshots show the document.
-/
namespace Verif
variable {s s' : Store} {d : Document} {f : Nat} {ps : List SPara} {p : SPara}
open Store

theorem refreshBlock_eq (h : Flat s d f ps) {b : Block} (hb : s.blocks b.id = some b) :
    s.refreshBlock b = { b with documentPosition := (s.blockPosition b.id : Int) } := by
  have hm : b.id ∈ ps.map SPara.id := by
    apply Classical.byContradiction
    intro hn; rw [h.absent _ hn] at hb; cases hb
  obtain ⟨p, hp, hid⟩ := List.mem_map.mp hm
  obtain ⟨L, R, rfl⟩ := List.append_of_mem hp
  have hf : Focus s.text (paras L) (.block p.id) p.text (paras R) := by
    apply Repr.focus
    have := h.text
    simpa [paras] using this
  have hn : (L ++ p :: R)[L.length]? = some p := by simp
  have hbp := blockPosition_flat h hn
  unfold Store.refreshBlock
  rw [if_pos h.matchFlow, ← hid, hf.rangeOf]
  dsimp only
  rw [show s.rope = s.text.rope from rfl, hf.charStart, hbp, paraStart_at]
  rfl

theorem parentFrame_flat (h : Flat s d f ps) (hp : p ∈ ps) : s.parentFrame p.id = some f := by
  obtain ⟨fr, e1, e2, e3, e4⟩ := h.frame
  have hf : f ∈ s.frames.keys := (s.frames.mem f).mpr (by rw [e1]; rfl)
  unfold Store.parentFrame
  cases hk : s.frames.keys.find? fun k => ((s.frames k).map fun fr => fr.blocks.contains p.id).getD false with
  | none =>
    rw [List.find?_eq_none] at hk
    have := hk f hf
    rw [e1] at this
    simp at this
    exact absurd (e4.symm.subset (List.mem_map_of_mem hp)) this
  | some g =>
    have h1 := List.find?_some hk
    cases hgf : s.frames g with
    | none => simp [hgf] at h1
    | some fr =>
      simp only [hgf, Option.map_some, Option.getD_some, List.contains_iff_mem] at h1
      by_cases e : g = f
      · rw [e]
      · exact absurd (List.mem_map_of_mem hp) (h.others g fr hgf e p.id h1).1

theorem mainFrame_flat (h : Flat s d f ps) : s.mainFrame = f := by
  unfold Store.mainFrame Store.docFrames
  rw [h.docId, Option.bind_some, h.document, Option.map_some, Option.getD_some, h.frames]; rfl

theorem collect_flat (h : Flat s d f ps) (n : Nat) : s.collectFrameIds (n + 1) f = some (ps.map SPara.id) := by
  obtain ⟨fr, e1, e2, e3, e4⟩ := h.frame
  rw [Store.collectFrameIds, e1, Option.map_some, e3, if_neg (by simpa using h.nonempty)]
  congr 1
  rw [List.flatMap_map]
  have : ∀ qs : List SPara, (∀ q ∈ qs, 0 < q.id) → ∀ g : Int → List Nat, (∀ e : Int, e > 0 → g e = [e.toNat]) →
      (qs.flatMap fun q => g (q.id : Int)) = qs.map SPara.id := by
    intro qs
    induction qs with
    | nil => intro _ _ _; rfl
    | cons q qs ih =>
      intro hq g hg
      rw [List.flatMap_cons, hg _ (by have := hq q (by simp); omega), ih (fun x hx => hq x (by simp [hx])) g hg]
      simp
  exact this ps h.positive _ fun e he => if_pos he

theorem noCell_flat (h : Flat s d f ps) (hc : NoCells s f) (hp : p ∈ ps) :
    (if s.tables.keys = [] then none else s.tableCellOf p.id) = none := by
  rw [tableCellOf_none h hc (List.mem_map_of_mem hp)]; simp

theorem Flat.visible (h : Flat s d f ps) : Visible s ps where
  toReads := h.reads
  ids_nodup := h.ids_nodup
  keys := h.keys
  refresh := by
    intro n p b hn hb
    have hs := h.stored (List.mem_of_getElem? hn)
    rw [hs] at hb; cases hb
    rw [refreshBlock_eq h hs]
    show { p.entity _ with documentPosition := (s.blockPosition p.id : Int) } = _
    rw [blockPosition_flat h hn]; rfl
  main := by rw [mainFrame_flat h, collect_flat h]

/-- **C66 (paragraphs).** `blocks`, `block_by_number` and `block_count`-many handles: the paragraphs of the document
in their order. -/
theorem C66_blocks (h : Flat s d f ps) :
    s.blockIds = ps.map SPara.id ∧ ∀ n, s.blockByNumber n = ps[n]?.map SPara.id :=
  h.visible.blocks

/-- **C66 (handle).** What the handle of paragraph number `n` shows: it is valid, its number is `n`, the handles
before and after it are those of the neighbours, its text, length, emptiness, start and format are those of the
paragraph, it is in the main frame and in no table. -/
theorem C66_handle (h : Flat s d f ps) (hc : NoCells s f) {n : Nat} (hn : ps[n]? = some p) :
    s.blockValid p.id = true ∧ s.numberOf p.id = n ∧
      s.blockAfter p.id = ps[n + 1]?.map SPara.id ∧
      s.blockBefore p.id = (if n = 0 then none else ps[n - 1]?.map SPara.id) ∧
      s.blockText p.id = some (p.chars.map Prod.fst) ∧ s.blockLength p.id = p.chars.length ∧
      s.blockIsEmpty p.id = some (decide (p.chars = [])) ∧ s.blockPosition p.id = paraStart ps n ∧
      s.blockFormatOf p.id = .ofBlock p.shape ∧ s.parentFrame p.id = some f ∧ s.tableCellOf p.id = none := by
  have hp := List.mem_of_getElem? hn
  obtain ⟨h1, h2, h3, h4, h5, h6, h7, h8, h9⟩ := h.visible.handle hn
  exact ⟨h1, h2, h3, h4, h5, h6, h7, h8, h9, parentFrame_flat h hp, tableCellOf_none h hc (List.mem_map_of_mem hp)⟩

/-- A handle whose paragraph is gone: not valid, no neighbours, no text. -/
theorem C66_absent (h : Flat s d f ps) {id : Nat} (hn : id ∉ ps.map SPara.id) :
    s.blockValid id = false ∧ s.numberOf id = 0 ∧ s.blockAfter id = none ∧ s.blockBefore id = none ∧
      s.blockText id = some [] ∧ s.blockLength id = 0 ∧ s.blockIsEmpty id = some true ∧ s.blockPosition id = 0 ∧
      s.blockFormatOf id = {} :=
  h.visible.no_handle hn

/-- **C66 (snapshot).** `TextBlock::snapshot` shows the paragraph. -/
theorem C66_snapshot (h : Flat s d f ps) (hc : NoCells s f) {n : Nat} (hn : ps[n]? = some p) :
    ∃ snap, s.blockSnapshot p.id = some snap ∧ SnapShows s f none ps n p snap :=
  h.visible.blockSnapshot hn (parentFrame_flat h (List.mem_of_getElem? hn)) (noCell_flat h hc (List.mem_of_getElem? hn))

theorem walk_flat (h : Flat s d f ps) (hc : NoCells s f) (step : Int → Nat → Option (Option FlowSnap × Nat))
    (hstep : ∀ (id : Nat) pos, 0 < id → step (id : Int) pos = (s.blockSnap id (some pos) (some f)).map fun
          | none => (none, pos)
          | some snap => (some (.block snap), pos + snap.length + 1)) (L R : List SPara) (e : ps = L ++ R) :
    ∃ snaps : List BlockSnap, walkOrder step (R.map fun p => (p.id : Int)) (paraStart ps L.length) =
        some (snaps.map .block, paraStart ps ps.length) ∧ snaps.length = R.length ∧
      ∀ (i : Nat) p, R[i]? = some p → ∃ snap, snaps[i]? = some snap ∧ SnapShows s f none ps (L.length + i) p snap ∧
        s.blockSnapshot p.id = some snap := by
  induction R generalizing L with
  | nil =>
    refine ⟨[], ?_, rfl, by intro i p hi; simp at hi⟩
    subst e; simp [walkOrder]
  | cons q R ih =>
    have hn : ps[L.length]? = some q := by rw [e]; simp
    obtain ⟨snap, h1, h2, _⟩ := h.visible.blockSnap hn (parentFrame_flat h (List.mem_of_getElem? hn)) (noCell_flat h hc (List.mem_of_getElem? hn))
    obtain ⟨snaps, g1, g2, g3⟩ := ih (L ++ [q]) (by simp [e])
    refine ⟨snap :: snaps, ?_, by simp [g2], ?_⟩
    · rw [List.map_cons, walkOrder, hstep q.id _ (h.positive q (List.mem_of_getElem? hn)),
        h2 _ _ (.inr rfl) (.inr rfl), Option.map_some, Option.bind_some]
      dsimp only
      rw [h1.length]
      have hz : paraStart ps (L ++ [q]).length = paraStart ps L.length + q.chars.length + 1 := by
        rw [List.length_append]; exact paraStart_succ hn
      rw [← hz, g1]
      rfl
    · intro i p hi
      cases i with
      | zero =>
        simp only [List.getElem?_cons_zero, Option.some.injEq] at hi
        subst hi
        refine ⟨snap, rfl, h1, ?_⟩
        unfold Store.blockSnapshot
        rw [h2 none none (.inl rfl) (.inl rfl)]; rfl
      | succ i =>
        obtain ⟨sn, k1, k2, k3⟩ := g3 i p (by simpa using hi)
        refine ⟨sn, by simpa using k1, ?_, k3⟩
        have : (L ++ [q]).length + i = L.length + (i + 1) := by simp; omega
        rw [← this]; exact k2

/-- **C66 (flow).** `flow` lists the paragraphs in order; `snapshot_flow` is one entry for every paragraph, in
order, and that entry shows the paragraph and is the snapshot its handle gives. -/
theorem C66_flow (h : Flat s d f ps) (hc : NoCells s f) :
    s.flow = (ps.map fun p => FlowItem.block p.id) ∧
    ∃ snaps : List BlockSnap, s.snapshotFlow = some (snaps.map .block) ∧ snaps.length = ps.length ∧
      ∀ (n : Nat) p, ps[n]? = some p → ∃ snap, snaps[n]? = some snap ∧ SnapShows s f none ps n p snap ∧
        s.blockSnapshot p.id = some snap := by
  obtain ⟨fr, e1, e2, e3, e4⟩ := h.frame
  constructor
  · unfold Store.flow
    rw [mainFrame_flat h, e1, Option.map_some, Option.getD_some, e3]
    unfold Store.flowItems
    rw [List.filterMap_map]
    have : ∀ qs : List SPara, (∀ q ∈ qs, 0 < q.id) → qs.filterMap ((fun (e : Int) =>
        if e > 0 then some (FlowItem.block e.toNat)
        else if e < 0 then
          (s.frames (-e).toNat).map fun fr =>
            match fr.table with
            | some t => .table t
            | none => .frame (-e).toNat
        else none) ∘ fun p => (p.id : Int)) = qs.map fun p => FlowItem.block p.id := by
      intro qs
      induction qs with
      | nil => intro _; rfl
      | cons q qs ih =>
        intro hq
        rw [List.filterMap_cons, List.map_cons, Function.comp_apply,
          if_pos (by have := hq q (by simp); omega), ih fun x hx => hq x (by simp [hx])]
        simp
    exact this ps h.positive
  · unfold Store.snapshotFlow Store.flowSnapshot
    rw [mainFrame_flat h, e1]
    dsimp only
    rw [e3]
    unfold Store.snapOrder
    have hx : ∀ step : Int → Nat → Option (Option FlowSnap × Nat), (∀ (id : Nat) pos, 0 < id → step (id : Int) pos =
          (s.blockSnap id (some pos) (some f)).map fun
          | none => (none, pos)
          | some snap => (some (.block snap), pos + snap.length + 1)) →
        ∃ snaps : List BlockSnap, (walkOrder step (ps.map fun p => (p.id : Int)) 0).map Prod.fst = some (snaps.map .block) ∧
          snaps.length = ps.length ∧
          ∀ (n : Nat) p, ps[n]? = some p → ∃ snap, snaps[n]? = some snap ∧ SnapShows s f none ps n p snap ∧
            s.blockSnapshot p.id = some snap := by
      intro step hs
      obtain ⟨snaps, g1, g2, g3⟩ := walk_flat h hc step hs [] ps rfl
      refine ⟨snaps, ?_, g2, ?_⟩
      · rw [show paraStart ps ([] : List SPara).length = 0 from rfl] at g1
        rw [g1]; rfl
      · intro n p hn
        obtain ⟨sn, k1, k2, k3⟩ := g3 n p hn
        exact ⟨sn, k1, by simpa using k2, k3⟩
    refine hx _ ?_
    intro id pos hid
    rw [if_pos (by omega), Int.toNat_natCast]
    rfl

/-- **C66 (position).** `snapshot_block_at_position` of the `k`-th position of paragraph `n`, `k` up to its length,
shows that paragraph; beyond the end of the document it shows the last one. -/
theorem C66_at_position (h : Flat s d f ps) (hc : NoCells s f) :
    (∀ n p k, ps[n]? = some p → k ≤ p.chars.length →
      ∃ snap, s.snapshotBlockAt (paraStart ps n + k) = some (some snap) ∧ SnapShows s f none ps n p snap) ∧
    ∀ pos, (docText ps).length < pos → ∃ p snap, ps.getLast? = some p ∧
      s.snapshotBlockAt pos = some (some snap) ∧ SnapShows s f none ps (ps.length - 1) p snap := by
  constructor
  · intro n p k hn hk
    exact h.visible.at_position hn hk (parentFrame_flat h (List.mem_of_getElem? hn)) (noCell_flat h hc (List.mem_of_getElem? hn))
  · intro pos hpos
    have hl := List.getLast?_eq_some_getLast h.nonempty
    have hm := List.mem_of_getLast? hl
    obtain ⟨snap, h1, h2⟩ := h.visible.at_beyond hpos hl (parentFrame_flat h hm) (noCell_flat h hc hm)
    exact ⟨_, snap, hl, h1, h2⟩

/-! ### Ranges -/

/-- **C66 (range).** `blocks_in_range` returns, in document order, exactly the paragraphs whose half-open range of
characters meets the given one; for an empty range those that contain the position. -/
theorem C66_in_range (h : Flat s d f ps) (position length : Nat) :
    ∃ ids, s.blocksInRange position length = some ids ∧ ids.Sublist (ps.map SPara.id) ∧
      ∀ n p, ps[n]? = some p → (p.id ∈ ids ↔
        (length = 0 ∧ paraStart ps n ≤ position ∧ position < paraStart ps n + p.chars.length) ∨
        (0 < length ∧ paraStart ps n < position + length ∧ position < paraStart ps n + p.chars.length)) :=
  h.visible.in_range position length

/-! ### Formats and elements -/

/-- **C66 (character format).** `char_format_at` of a paragraph and an offset: the format of the character there,
the default format if none was set; nothing at the end of the paragraph and beyond. -/
theorem C66_char_format (h : Flat s d f ps) (hp : p ∈ ps) (k : Nat) :
    s.blockCharFormat p.id k = some (p.chars[k]?.map fun c => c.2.getD {}) :=
  h.visible.char_at hp k

/-- **C66 (element).** `find_element_at_position`, at a position in a paragraph that has text and, if it is the
end of the paragraph, at the end of the last paragraph: a run of text of that paragraph that holds the
position, with the start of the run in the document and the offset in it.  Full statement, after the documentation:
the same at the end of every paragraph, and at the boundary of two runs the run before the position; both are
false, see `C66_element_fails`. -/
theorem C66_element_partial (h : Flat s d f ps) {pos n k : Nat} (hi : InParagraph ps pos n k p) (hne : p.chars ≠ []) :
    ∃ fs cs fmt o len byte, s.fragmentsOf p.id = some fs ∧ .text cs fmt o len byte ∈ fs ∧ cs.length = len ∧
      cs = ((p.chars.drop o).take len).map Prod.fst ∧
      o ≤ k ∧ (k < o + len ∨ k = p.chars.length ∧ k = o + len) ∧
      s.elementAt pos = some (synthElementId p.id byte, paraStart ps n + o, k - o) :=
  h.visible.element hi hne

/-- The documentation of `find_element_at_position` promises an element at every position of the document and, at the
boundary of two elements, the one before.  In "ab", "cd" there is none at position 2, the end of "ab".  With the
"a" bold, position 1 gives the element that starts there, not the one that ends there. -/
theorem C66_element_fails : ∃ (s s' : Store),
    (Store.newStore.bind fun s => s.importPlainText "ab\ncd".toList) = some s ∧
    (s.setTextFormat { fontBold := some true } 0 1).map (fun r => r.1) = some s' ∧
    s.exportPlainText = some "ab\ncd".toList ∧ s.elementAt 2 = none ∧
    s'.elementAt 0 = some (synthElementId 2 0, 0, 0) ∧ s'.elementAt 1 = some (synthElementId 2 1, 1, 0) := by
  refine ⟨_, _, rfl, rfl, ?_, ?_, ?_, ?_⟩ <;> decide +kernel

/-- The paragraphs of the frames of a snapshot, with their positions. -/
def framedBlocks (l : List FlowSnap) : List (Nat × Nat) := l.flatMap fun
  | .frame _ _ els => els.flatMap fun
    | .block b => [(b.blockId, b.position)]
    | _ => []
  | _ => []

/-- The paragraphs of a snapshot, with their positions. -/
def ownBlocks (l : List FlowSnap) : List (Nat × Nat) := l.flatMap fun
  | .block b => [(b.blockId, b.position)]
  | _ => []

/-- `TextFrame::snapshot` counts from the start of the frame, `snapshot_flow` from the start of the document: a
paragraph in a frame behind "ab" is at position 3 in one and at 0 in the other. -/
theorem C66_frame_positions_fails : ∃ (s s' : Store),
    (Store.newStore.bind fun s => s.importPlainText "ab\ncd".toList) = some s ∧
    (s.insertFrame 2).map (fun r => r.1) = some s' ∧
    (s.insertFrame 2).map (fun r => r.2.1) = some 3 ∧
    s'.snapshotFlow.map framedBlocks = some [(4, 3)] ∧ (s'.flowSnapshot 3).map ownBlocks = some [(4, 0)] := by
  refine ⟨_, _, rfl, rfl, ?_, ?_, ?_⟩ <;> decide +kernel

/-- The document "ab", "cd", "" meets the hypotheses of the theorems above, and what they say of it. -/
example : ∃ (s : Store) (d : Document) (f : Nat) (ps : List SPara), Flat s d f ps ∧ NoCells s f ∧
    docText ps = "ab\ncd\n".toList ∧ s.blockIds = [2, 3, 4] ∧ s.blockAfter 3 = some 4 ∧ s.blockBefore 2 = none ∧
    s.blocksInRange 1 3 = some [2, 3] ∧ (s.snapshotBlockAt 4).map (fun o => o.map BlockSnap.text) = some (some "cd".toList) := by
  obtain ⟨s0, e1, e2, e3, e4⟩ := newStore_flat
  obtain ⟨s1, g1, g2, g3, g4⟩ := e2.import e3 "ab\ncd\n".toList
  have hs : (Store.newStore.bind fun s => s.importPlainText "ab\ncd\n".toList) = some s1 := by rw [e1]; exact g1
  refine ⟨s1, _, _, _, g2, noCells_of_sole g3, ?_, ?_⟩
  · have := export_flat g2
    have hx : ((Store.newStore.bind fun s => s.importPlainText "ab\ncd\n".toList).bind Store.exportPlainText) =
      some "ab\ncd\n".toList := by decide +kernel
    rw [hs, Option.bind_some, this] at hx
    exact Option.some.inj hx
  · have hq : ∀ {α : Type} (g : Store → α) (x : α),
        (Store.newStore.bind fun s => s.importPlainText "ab\ncd\n".toList).map g = some x → g s1 = x := by
      intro α g x hx
      rw [hs, Option.map_some] at hx
      exact Option.some.inj hx
    refine ⟨hq _ _ ?_, hq (fun s => s.blockAfter 3) _ ?_, hq (fun s => s.blockBefore 2) _ ?_,
      hq (fun s => s.blocksInRange 1 3) _ ?_, hq (fun s => (s.snapshotBlockAt 4).map (fun o => o.map BlockSnap.text)) _ ?_⟩ <;>
      decide +kernel

end Verif
