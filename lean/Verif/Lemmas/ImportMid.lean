import Verif.Lemmas.ImportLists
/- A document half loaded: blocks and block quotes. -/
namespace Verif
variable {s s' : Store} {d : Document} {L : List Para} {ps : List SPara} {ts : List Nat} {past : Imported} {x : ImportSt}
open Store

/-- The document keeps its title and settings. -/
def SameDoc (d d' : Document) : Prop :=
  { d' with frames := [], lists := [], tables := [], characterCount := 0, blockCount := 0 } =
    { d with frames := [], lists := [], tables := [], characterCount := 0, blockCount := 0 }

theorem SameDoc.id {d d' : Document} (h : SameDoc d d') : d'.id = d.id := by
  unfold SameDoc at h
  have := congrArg Document.id h
  exact this

theorem SameDoc.trans {a b c : Document} (h : SameDoc a b) (h' : SameDoc b c) : SameDoc a c := Eq.trans h' h

/-- The state of the loop: what is written so far, and what the next steps need to succeed. -/
structure Mid (s : Store) (d : Document) (L : List Para) (ps : List SPara) (ts : List Nat) (x : ImportSt)
    (past : Imported) : Prop where
  penned : Penned s L ps ts
  document : s.documents d.id = some d
  docs : ∀ i y, s.documents i = some y → i = d.id ∧ y.id = d.id
  docFrames : ∀ i ∈ d.frames, (s.frames i).isSome
  docTables : ∀ i ∈ d.tables, (s.tables i).isSome
  frameBlocks : ∀ g fr, s.frames g = some fr → fr.id = g ∧ ∀ i ∈ fr.blocks, (s.blocks i).isSome
  lists : ListsOk s d ps
  knows : GrouperKnows x.grouper past
  past : PastLists s past
  depth : x.stack.length = x.depth + 1
  stack : ∀ q ∈ x.stack, (s.frames q.1).isSome
  emitted : x.emitted = decide (L ≠ [])
  chars : x.chars = charTotal ps
  count : x.count = ps.length

/-- What writing a paragraph at the end of the frame `g` does to the other entities. -/
structure Wrote (s s' : Store) (d : Document) (g : Nat) (c : Option Nat) : Prop where
  frames : ∀ i, s'.frames i = if i = g then (s.frames g).map fun fr => { fr with blocks := fr.blocks ++ [s.next "block"] } else s.frames i
  documents : ∀ i, s'.documents i = if i = d.id then
    some { d with lists := d.lists ++ if c = some (s.next "list") then [s.next "list"] else [] } else s.documents i
  tables : s'.tables = s.tables
  tableCells : s'.tableCells = s.tableCells
  roots : s'.roots = s.roots
  next : ∀ k, k ≠ "list" → k ≠ "block" → s'.next k = s.next k
  nextList : s'.next "list" = if c = some (s.next "list") then s.next "list" + 1 else s.next "list"
  nextBlock : s'.next "block" = s.next "block" + 1
  blocks : ∀ i, (s'.blocks i).isSome ↔ i = s.next "block" ∨ (s.blocks i).isSome
  lists : ListsGrow s s'

/-- The paragraph a parsed block becomes. -/
def paraOf (html : Bool) (id : Nat) (b : ParsedBlock) (c : Option Nat) : SPara :=
  ⟨id, spansChars b.isCodeBlock b.spans, parsedShape html b c⟩

theorem placeBlock_spec (h : Mid s d L ps ts x past) {g : Nat} {order : List Int} {rest : List (Nat × List Int)}
    (hx : x.stack = (g, order) :: rest) (hpos : x.position = charsBefore (paras ps)) (html last : Bool) (b : ParsedBlock)
    {c : Option Nat} (hc : listChoice past (s.next "list") b = c) :
    ∃ x' s' d', placeBlock html d.id last x b s = some (x', s') ∧ SameDoc d d' ∧ Wrote s s' d g c ∧
      d' = { d with lists := d.lists ++ if c = some (s.next "list") then [s.next "list"] else [] } ∧
      Mid s' d' (L ++ paras [paraOf html (s.next "block") b c]) (ps ++ [paraOf html (s.next "block") b c]) ts x' (pastAfter past b c) ∧
      x'.stack = (g, order ++ [((s.next "block" : Nat) : Int)]) :: rest ∧ x'.depth = x.depth ∧
      (last = false → x'.position = charsBefore (paras (ps ++ [paraOf html (s.next "block") b c]))) := by
  have hgf := h.stack (g, order) (by rw [hx]; simp)
  obtain ⟨fr, hfr⟩ := Option.isSome_iff_exists.mp hgf
  obtain ⟨ht, hr⟩ := formatRuns_styled b.isCodeBlock b.spans
  unfold placeBlock
  rw [hx]
  simp only [List.head?_cons, Option.bind_some]
  obtain ⟨s1, e1, h1, ha⟩ := h.penned.add hfr (h.frameBlocks g fr hfr).2 (blk := parsedBlockEntity html x.position b) rfl hpos ht hr h.emitted
  rw [e1, Option.bind_some]
  have hnl : s1.next "list" = s.next "list" := ha.next _ (by decide)
  have hd1 : s1.documents d.id = some d := by rw [ha.documents]; exact h.document
  have hl1 : ListsOk s1 d ps := by
    obtain ⟨k1, k2, k3, k4, k5⟩ := h.lists
    exact ⟨by rw [ha.lists]; exact k1, by rw [ha.lists]; exact k2, k3, k4, by rw [ha.lists, hnl]; exact k5⟩
  obtain ⟨g2, s2, e2, h2, hk2, hp2, hgr, hch, hl2⟩ := joinList_spec h1 hd1 hl1 rfl h.knows
    (show PastLists s1 past by unfold PastLists; rw [ha.lists]; exact h.past) b (c := c) (by rw [hnl]; exact hc)
  dsimp only
  rw [e2, Option.map_some]
  have hpo : (⟨s.next "block", spansChars b.isCodeBlock b.spans,
      { ({ parsedBlockEntity html x.position b with documentPosition := 0 } : Block) with list := c }⟩ : SPara) =
      paraOf html (s.next "block") b c := rfl
  rw [hnl] at hl2
  have hbl1 : ∀ i, (s1.blocks i).isSome ↔ i = s.next "block" ∨ (s.blocks i).isSome := by
    intro i
    by_cases e : i = s.next "block"
    · subst e
      obtain ⟨b1, hb1, _⟩ := h1.block _ (List.mem_append_right ps (List.mem_singleton.mpr rfl))
      simp only at hb1
      rw [hb1]; simp
    · rw [ha.blocks i e]; simp [e]
  have hw : Wrote s s2 d g c := by
    refine ⟨?_, ?_, hch.tables.trans ha.tables, hch.tableCells.trans ha.tableCells, hch.roots.trans ha.roots,
      fun k hk hk' => (hch.next k hk).trans (ha.next k hk'), ?_, (hch.next _ (by decide)).trans ha.nextBlock, ?_, ?_⟩
    · intro i
      rw [hch.frames, ha.frames, IdMap.insert_get]
      split
      · rw [hfr]; rfl
      · rfl
    · intro i
      rw [hch.documents, ha.documents, hnl]
    · rw [hch.nextList, hnl]
    · intro i; rw [hch.blocks]; exact hbl1 i
    · intro l e he; exact hgr l e (by rw [ha.lists]; exact he)
  have hlen : (formatRunsFromSpans b.isCodeBlock b.spans).1.length = (spansChars b.isCodeBlock b.spans).length := by
    rw [ht, List.length_map]
  refine ⟨_, s2, { d with lists := d.lists ++ if c = some (s.next "list") then [s.next "list"] else [] }, rfl, rfl, hw, rfl, ?_, ?_, ?_, ?_⟩
  · have hpush : ∀ y : ImportSt, (y.push ((s.next "block" : Nat) : Int)).grouper = y.grouper ∧
        (y.push ((s.next "block" : Nat) : Int)).emitted = y.emitted ∧ (y.push ((s.next "block" : Nat) : Int)).chars = y.chars ∧
        (y.push ((s.next "block" : Nat) : Int)).count = y.count := by
      intro y
      unfold ImportSt.push
      cases y.stack with
      | nil => exact ⟨rfl, rfl, rfl, rfl⟩
      | cons q r => exact ⟨rfl, rfl, rfl, rfl⟩
    refine ⟨?_, ?_, ?_, ?_, ?_, ?_, hl2, ?_, hp2, ?_, ?_, ?_, ?_, ?_⟩
    · exact h2
    · show s2.documents d.id = _
      rw [hw.documents, if_pos rfl]
    · intro i y hy
      rw [hw.documents] at hy
      split at hy
      · rename_i e; cases hy; exact ⟨e, rfl⟩
      · exact h.docs i y hy
    · intro i hi
      rw [hw.frames]
      split
      · rename_i e; subst e; rw [hfr]; rfl
      · exact h.docFrames i hi
    · intro i hi; rw [hw.tables]; exact h.docTables i hi
    · intro i gr hgr'
      rw [hw.frames] at hgr'
      split at hgr'
      · rename_i e
        rw [hfr] at hgr'
        cases hgr'
        refine ⟨by rw [e]; exact (h.frameBlocks g fr hfr).1, ?_⟩
        intro j hj
        rw [hw.blocks]
        rcases List.mem_append.mp hj with hj | hj
        · exact .inr ((h.frameBlocks g fr hfr).2 j hj)
        · exact .inl (by simpa using hj)
      · obtain ⟨k1, k2⟩ := h.frameBlocks i gr hgr'
        exact ⟨k1, fun j hj => (hw.blocks j).mpr (.inr (k2 j hj))⟩
    · rw [(hpush _).1]; exact hk2
    · show ((g, order ++ [((s.next "block" : Nat) : Int)]) :: rest).length = x.depth + 1
      have := h.depth
      rw [hx] at this
      simpa using this
    · intro q hq
      have hq : q ∈ (g, order ++ [((s.next "block" : Nat) : Int)]) :: rest := hq
      have hq1 : q.1 = g ∨ q ∈ rest := by
        rcases List.mem_cons.mp hq with e | hq
        · exact .inl (by rw [e])
        · exact .inr hq
      rw [hw.frames]
      split
      · rw [hfr]; rfl
      · rcases hq1 with e | e
        · contradiction
        · exact h.stack q (by rw [hx]; exact List.mem_cons_of_mem _ e)
    · rw [(hpush _).2.1]
      simp [paras]
    · rw [(hpush _).2.2.1]
      show x.chars + _ = _
      rw [h.chars, hlen, charTotal_append]
      simp [charTotal, paraOf]
    · rw [(hpush _).2.2.2]
      show x.count + 1 = _
      rw [h.count]; simp
  · unfold ImportSt.push
    simp only [hx]
  · unfold ImportSt.push
    simp only [hx]
  · intro hlast
    unfold ImportSt.push
    simp only [hx, hlast, hpos, hlen, charsBefore_paras_append]
    simp [paraOf]
    omega

/-! ### Block quotes -/

theorem closeFrame_spec (h : Mid s d L ps ts x past) {g : Nat} {order : List Int} (hg : (s.frames g).isSome) :
    ∃ s', s.closeFrame g order = some s' ∧ Mid s' d L ps ts x past ∧ s'.next = s.next ∧ s'.roots = s.roots ∧
      ListsGrow s s' := by
  obtain ⟨fr, hfr⟩ := Option.isSome_iff_exists.mp hg
  obtain ⟨hid, hbl⟩ := h.frameBlocks g fr hfr
  unfold Store.closeFrame
  rw [hfr, Option.map_some]
  have hF : ∀ i, (s.updateFrame { fr with childOrder := order }).frames i = if i = g then some (keepFrame { fr with childOrder := order } (some fr)) else s.frames i := by
    intro i
    unfold Store.updateFrame
    simp only [IdMap.insert_get, hid]
    rw [hfr]
  have hk : (keepFrame { fr with childOrder := order } (some fr)).id = g ∧ (keepFrame { fr with childOrder := order } (some fr)).blocks = fr.blocks := by
    unfold keepFrame
    exact ⟨hid, rfl⟩
  have hsome : ∀ i, (s.frames i).isSome → ((s.updateFrame { fr with childOrder := order }).frames i).isSome := by
    intro i hi
    rw [hF]
    split
    · rfl
    · exact hi
  refine ⟨_, rfl, ⟨h.penned.of_same rfl rfl rfl rfl rfl (Nat.le_refl _), h.document, h.docs, ?_, h.docTables, ?_,
    ⟨h.lists.known, h.lists.only, h.lists.items, h.lists.nodup, h.lists.fresh⟩,
    h.knows, h.past, h.depth, ?_, h.emitted, h.chars, h.count⟩, rfl, rfl, fun _ _ h => h⟩
  · intro i hi; exact hsome i (h.docFrames i hi)
  · intro i y hy
    rw [hF] at hy
    split at hy
    · rename_i e
      cases hy
      rw [hk.1, hk.2]
      exact ⟨e.symm, hbl⟩
    · exact h.frameBlocks i y hy
  · intro q hq; exact hsome _ (h.stack q hq)

/-- A new frame while loading. -/
theorem openFrame_spec (h : Mid s d L ps ts x past) {fr : Frame} (h0 : fr.id = 0) (hb : fr.blocks = []) :
    ∃ s', s.createFrame fr d.id (-1) = some (s.next "frame", s') ∧
      s'.frames = s.frames.insert (s.next "frame") { fr with id := s.next "frame" } ∧
      (∀ i, s'.documents i = if i = d.id then some { d with frames := d.frames ++ [s.next "frame"] } else s.documents i) ∧
      s'.tables = s.tables ∧ s'.tableCells = s.tableCells ∧ s'.roots = s.roots ∧ s'.lists = s.lists ∧ s'.blocks = s.blocks ∧
      (∀ k, k ≠ "frame" → s'.next k = s.next k) ∧ s'.next "frame" = s.next "frame" + 1 ∧
      Mid s' { d with frames := d.frames ++ [s.next "frame"] } L ps ts x past := by
  rw [createFrame_new h.document h0 h.docFrames]
  generalize hs1 : ({ s with
      counters := (s.nextId "frame").2.counters
      frames := s.frames.insert (s.next "frame") { fr with id := s.next "frame" }
      documents := s.documents.insert d.id { d with frames := d.frames ++ [s.next "frame"] } } : Store) = s1
  have hn2 : ∀ k, k ≠ "frame" → s1.next k = s.next k := by
    intro k hk; rw [← hs1]; exact next_other (a := "frame") (b := k) (Ne.symm hk) s
  have hns : s1.next "frame" = s.next "frame" + 1 := by rw [← hs1]; exact next_self "frame" s
  have hF : s1.frames = s.frames.insert (s.next "frame") { fr with id := s.next "frame" } := by rw [← hs1]
  have hD : ∀ i, s1.documents i = if i = d.id then some { d with frames := d.frames ++ [s.next "frame"] } else s.documents i := by
    intro i; rw [← hs1]; simp only [IdMap.insert_get]
  have hL : s1.lists = s.lists := by rw [← hs1]
  have hB : s1.blocks = s.blocks := by rw [← hs1]
  have hsome : ∀ i, (s.frames i).isSome → (s1.frames i).isSome := by
    intro i hi
    rw [hF, IdMap.insert_get]
    split
    · rfl
    · exact hi
  refine ⟨s1, rfl, hF, hD, by rw [← hs1], by rw [← hs1], by rw [← hs1], hL, hB, hn2, hns, ?_⟩
  refine ⟨h.penned.of_same (by rw [← hs1]; rfl) hB (by rw [← hs1]) (by rw [← hs1]) (hn2 _ (by decide)) (by rw [hn2 _ (by decide)]; omega),
    ?_, ?_, ?_, ?_, ?_, ?_, h.knows, ?_, h.depth, ?_, h.emitted, h.chars, h.count⟩
  · rw [hD]; simp
  · intro i y hy
    rw [hD] at hy
    split at hy
    · rename_i e; cases hy; exact ⟨e, rfl⟩
    · exact h.docs i y hy
  · intro i hi
    rcases List.mem_append.mp hi with hi | hi
    · exact hsome i (h.docFrames i hi)
    · simp only [List.mem_singleton] at hi
      subst hi
      rw [hF]; simp
  · intro i hi; rw [show s1.tables = s.tables by rw [← hs1]]; exact h.docTables i hi
  · intro i y hy
    rw [hF, IdMap.insert_get] at hy
    rw [hB]
    split at hy
    · rename_i e; cases hy; exact ⟨e.symm, by simp [hb]⟩
    · exact h.frameBlocks i y hy
  · obtain ⟨k1, k2, k3, k4, k5⟩ := h.lists
    exact ⟨by rw [hL]; exact k1, by rw [hL]; exact k2, k3, k4, by rw [hL, hn2 _ (by decide)]; exact k5⟩
  · unfold PastLists; rw [hL]; exact h.past
  · intro q hq; exact hsome _ (h.stack q hq)

theorem knows_reset (past : Imported) (g : ListGrouper) : GrouperKnows g.reset (none :: past) := fun _ => rfl

theorem closeQuotes_spec (bq : Nat) : ∀ (stack : List (Nat × List Int)) {s : Store} {x : ImportSt} {past : Imported},
    Mid s d L ps ts x past → x.stack = stack →
    ∃ stack' g' s', closeQuotes bq stack x.depth x.grouper s = some (stack', min x.depth bq, g', s') ∧
      Mid s' d L ps ts { x with stack := stack', depth := min x.depth bq, grouper := g' }
        (if bq < x.depth then none :: past else past) ∧ s'.next = s.next ∧ s'.roots = s.roots ∧ ListsGrow s s' := by
  intro stack
  induction stack with
  | nil => intro s x past h hx; have := h.depth; rw [hx] at this; simp at this
  | cons q rest ih =>
    intro s x past h hx
    obtain ⟨fid, order⟩ := q
    have hdep := h.depth
    rw [hx] at hdep
    cases rest with
    | nil =>
      have h0 : x.depth = 0 := by simpa using hdep.symm
      refine ⟨[(fid, order)], x.grouper, s, by rw [h0, Nat.zero_min]; rfl, ?_, rfl, rfl, fun _ _ h => h⟩
      rw [if_neg (by omega)]
      have : ({ x with stack := [(fid, order)], depth := min x.depth bq, grouper := x.grouper } : ImportSt) = x := by
        rw [h0, Nat.zero_min, ← h0, ← hx]
      rw [this]; exact h
    | cons p rest =>
      by_cases hlt : bq < x.depth
      · obtain ⟨s1, e1, h1, hn1, hr1, hg1⟩ := closeFrame_spec h (g := fid) (order := order) (h.stack (fid, order) (by rw [hx]; simp))
        have hM : Mid s1 d L ps ts { x with stack := p :: rest, depth := x.depth - 1, grouper := x.grouper.reset } (none :: past) := by
          refine ⟨h1.penned, h1.document, h1.docs, h1.docFrames, h1.docTables, h1.frameBlocks, h1.lists, knows_reset _ x.grouper, h1.past.none,
            ?_, ?_, h1.emitted, h1.chars, h1.count⟩
          · simp only [List.length_cons] at hdep ⊢; omega
          · intro q hq; exact h1.stack q (by rw [hx]; exact List.mem_cons_of_mem _ hq)
        obtain ⟨st, g', s', e2, h2, hn2, hr2, hg2⟩ := ih hM rfl
        refine ⟨st, g', s', ?_, ?_, hn2.trans hn1, hr2.trans hr1, fun l e he => hg2 l e (hg1 l e he)⟩
        · rw [closeQuotes, if_pos hlt, e1, Option.bind_some]
          simp only at e2
          rw [e2, show min (x.depth - 1) bq = min x.depth bq by omega]
        · rw [if_pos hlt]
          simp only at h2
          rw [show min (x.depth - 1) bq = min x.depth bq by omega] at h2
          by_cases hlt2 : bq < x.depth - 1
          · rw [if_pos hlt2] at h2
            exact { h2 with
              knows := by
                have hk := h2.knows
                intro i; have := hk i; simp only [openList] at this ⊢; exact this
              past := h1.past.none.grow hg2 }
          · rw [if_neg hlt2] at h2; exact h2
      · refine ⟨(fid, order) :: p :: rest, x.grouper, s, ?_, ?_, rfl, rfl, fun _ _ h => h⟩
        · rw [closeQuotes, if_neg hlt, show min x.depth bq = x.depth by omega]
        · rw [if_neg hlt, show min x.depth bq = x.depth by omega, ← hx]; exact h

theorem openQuotes_spec (n : Nat) : ∀ {s : Store} {d : Document} {x : ImportSt} {past : Imported}, Mid s d L ps ts x past →
    ∃ stack' g' s' d', openQuotes d.id n x.stack x.depth x.grouper s = some (stack', x.depth + n, g', s') ∧ SameDoc d d' ∧
      Mid s' d' L ps ts { x with stack := stack', depth := x.depth + n, grouper := g' }
        (if 0 < n then none :: past else past) ∧ s'.next "list" = s.next "list" ∧ s'.roots = s.roots ∧ ListsGrow s s' := by
  induction n with
  | zero => intro s d x past h; exact ⟨_, _, s, d, rfl, rfl, h, rfl, rfl, fun _ _ h => h⟩
  | succ n ih =>
    intro s d x past h
    cases hx : x.stack with
    | nil => have := h.depth; rw [hx] at this; simp at this
    | cons q rest =>
      obtain ⟨fid, order⟩ := q
      obtain ⟨s1, e1, hF, hD, _, _, hr1, hl1, hb1, hn1, hn1', h1⟩ := openFrame_spec h
        (fr := { fmtIsBlockquote := some true, fmtPosition := some .inFlow, parentFrame := some fid }) rfl rfl
      have hM : Mid s1 { d with frames := d.frames ++ [s.next "frame"] } L ps ts
          { x with stack := (s.next "frame", []) :: (fid, order ++ [-((s.next "frame" : Nat) : Int)]) :: rest
                   depth := x.depth + 1, grouper := x.grouper.reset } (none :: past) := by
        refine ⟨h1.penned, h1.document, h1.docs, h1.docFrames, h1.docTables, h1.frameBlocks, h1.lists, knows_reset _ x.grouper, h1.past.none,
          ?_, ?_, h1.emitted, h1.chars, h1.count⟩
        · have := h.depth; rw [hx] at this; simp only [List.length_cons] at this ⊢; omega
        · intro q hq
          rcases List.mem_cons.mp hq with e | hq
          · rw [e, hF]; simp
          · rcases List.mem_cons.mp hq with e | hq
            · have := h1.stack (fid, order) (by rw [hx]; simp)
              rw [e]; exact this
            · exact h1.stack q (by rw [hx]; exact List.mem_cons_of_mem _ hq)
      obtain ⟨st, g', s', d', e2, hs2, h2, hn2, hr2, hg2⟩ := ih hM
      refine ⟨st, g', s', d', ?_, SameDoc.trans (b := { d with frames := d.frames ++ [s.next "frame"] }) rfl hs2, ?_, ?_, hr2.trans hr1, ?_⟩
      · rw [openQuotes, e1, Option.bind_some]
        simp only at e2
        rw [show x.depth + (n + 1) = x.depth + 1 + n by omega]
        exact e2
      · rw [if_pos (by omega), show x.depth + (n + 1) = x.depth + 1 + n by omega]
        by_cases h0 : 0 < n
        · rw [if_pos h0] at h2
          exact { h2 with
            knows := by
              have hk := h2.knows
              intro i; have := hk i; simp only [openList] at this ⊢; exact this
            past := h1.past.none.grow hg2 }
        · rw [if_neg h0] at h2; exact h2
      · rw [hn2, hn1 _ (by decide)]
      · intro l e he; exact hg2 l e (by rw [hl1]; exact he)

/-- Closing and opening block quotes. -/
theorem quotes_spec (h : Mid s d L ps ts x past) (b : ParsedBlock) :
    ∃ st1 g1 s1 st2 g2 s2 d2, closeQuotes b.quoteDepth x.stack x.depth x.grouper s = some (st1, min x.depth b.quoteDepth, g1, s1) ∧
      openQuotes d.id (b.quoteDepth - min x.depth b.quoteDepth) st1 (min x.depth b.quoteDepth) g1 s1 = some (st2, b.quoteDepth, g2, s2) ∧
      SameDoc d d2 ∧ Mid s2 d2 L ps ts { x with stack := st2, depth := b.quoteDepth, grouper := g2 } (pastQuote past x.depth b) ∧
      s2.next "list" = s.next "list" ∧ s2.roots = s.roots ∧ ListsGrow s s2 := by
  obtain ⟨st1, g1, s1, e1, h1, hn1, hr1, hg1⟩ := closeQuotes_spec b.quoteDepth x.stack h rfl
  obtain ⟨st2, g2, s2, d2, e2, hs2, h2, hn2, hr2, hg2⟩ := openQuotes_spec (b.quoteDepth - min x.depth b.quoteDepth) h1
  have hd : min x.depth b.quoteDepth + (b.quoteDepth - min x.depth b.quoteDepth) = b.quoteDepth := by omega
  simp only [hd] at e2 h2
  refine ⟨st1, g1, s1, st2, g2, s2, d2, e1, e2, hs2, ?_, by rw [hn2, hn1], hr2.trans hr1, fun l e he => hg2 l e (hg1 l e he)⟩
  unfold pastQuote
  by_cases c1 : b.quoteDepth < x.depth
  · rw [if_pos c1, if_neg (by omega)] at h2
    rw [if_neg (by omega)]; exact h2
  · rw [if_neg c1] at h2
    by_cases c2 : b.quoteDepth = x.depth
    · rw [if_neg (by omega)] at h2; rw [if_pos c2]; exact h2
    · rw [if_pos (by omega)] at h2; rw [if_neg c2]; exact h2

theorem importBlock_spec (h : Mid s d L ps ts x past) (hpos : x.position = charsBefore (paras ps)) (html last : Bool) (b : ParsedBlock)
    {c : Option Nat} (hc : listChoice (pastQuote past x.depth b) (s.next "list") b = c) :
    ∃ x' s' d' i, importBlock html d.id last x b s = some (x', s') ∧ SameDoc d d' ∧ s'.roots = s.roots ∧
      Mid s' d' (L ++ paras [paraOf html i b c]) (ps ++ [paraOf html i b c]) ts x' (pastAfter (pastQuote past x.depth b) b c) ∧
      x'.depth = b.quoteDepth ∧ s'.next "list" = (if c = some (s.next "list") then s.next "list" + 1 else s.next "list") ∧
      (last = false → x'.position = charsBefore (paras (ps ++ [paraOf html i b c]))) ∧ ListsGrow s s' ∧
      (∀ f order, x.stack = [(f, order)] → b.quoteDepth = 0 → i = s.next "block" ∧ Wrote s s' d f c ∧
        d' = { d with lists := d.lists ++ if c = some (s.next "list") then [s.next "list"] else [] } ∧
        x'.stack = [(f, order ++ [((s.next "block" : Nat) : Int)])]) := by
  by_cases hz : b.quoteDepth = 0 ∧ x.depth = 0
  · have hst : ∃ f order, x.stack = [(f, order)] := by
      have := h.depth
      rw [hz.2] at this
      cases hx : x.stack with
      | nil => rw [hx] at this; cases this
      | cons q r =>
        rw [hx] at this
        cases r with
        | nil => exact ⟨q.1, q.2, rfl⟩
        | cons => simp at this
    obtain ⟨f, order, hx⟩ := hst
    have hpq : pastQuote past x.depth b = past := by unfold pastQuote; rw [if_pos (by omega)]
    rw [hpq] at hc ⊢
    obtain ⟨x', s', d', e, h1, h2, h3, h4, h5, h6, h7⟩ := placeBlock_spec h hx hpos html last b hc
    refine ⟨x', s', d', _, ?_, h1, h2.roots, h4, by omega, h2.nextList, h7, h2.lists, ?_⟩
    · unfold importBlock
      rw [hx, hz.1, hz.2, closeQuotes]
      · rw [Option.bind_some]
        show (openQuotes d.id (0 - 0) [(f, order)] 0 x.grouper s).bind _ = _
        rw [Nat.sub_zero, openQuotes, Option.bind_some]
        show placeBlock html d.id last { x with stack := [(f, order)], depth := 0, grouper := x.grouper } b s = _
        have : ({ x with stack := [(f, order)], depth := 0, grouper := x.grouper } : ImportSt) = x := by
          rw [← hx, ← hz.2]
        rw [this]; exact e
      · intro _ _ _ _ h; cases h
    · intro f' o' hx' _
      rw [hx] at hx'
      cases hx'
      exact ⟨rfl, h2, h3, h5⟩
  · obtain ⟨st1, g1, s1, st2, g2, s2, d2, e1, e2, hs2, h2, hn2, hr2, hg2⟩ := quotes_spec h b
    have : ∃ g order rest, st2 = (g, order) :: rest := by
      have := h2.depth
      cases st2 with
      | nil => simp at this
      | cons q r => exact ⟨q.1, q.2, r, rfl⟩
    obtain ⟨g, order, rest, rfl⟩ := this
    obtain ⟨x', s', d', e, k1, k2, k3, k4, k5, k6, k7⟩ := placeBlock_spec h2 rfl hpos html last b (c := c) (by rw [hn2]; exact hc)
    refine ⟨x', s', d', _, ?_, hs2.trans k1, k2.roots.trans hr2, k4, k6, by rw [k2.nextList, hn2], k7,
      fun l e he => k2.lists l e (hg2 l e he), ?_⟩
    · unfold importBlock
      rw [e1, Option.bind_some]
      show (openQuotes d.id (b.quoteDepth - min x.depth b.quoteDepth) st1 (min x.depth b.quoteDepth) g1 s1).bind _ = _
      rw [e2, Option.bind_some]
      rw [← hs2.id]; exact e
    · intro f o hx h0
      exfalso
      apply hz
      refine ⟨h0, ?_⟩
      have := h.depth
      rw [hx] at this
      simpa using this.symm

end Verif
