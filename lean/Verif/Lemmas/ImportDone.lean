import Verif.Lemmas.ImportLoop
import Verif.Lemmas.TableFree
import Verif.Lemmas.TableReads
/- Loading elements into a document. -/
namespace Verif
variable {s s' : Store} {d d' : Document} {f : Nat} {items : List SItem} {L : List Para} {ps : List SPara} {ts : List Nat} {past : Imported}
  {x : ImportSt}
open Store

theorem lists_setFrameBlocks {ids : List Nat} (h : s.setFrameBlocks f ids = some s') : s'.lists = s.lists := by
  unfold Store.setFrameBlocks at h
  split at h
  · split at h <;> (cases h; rfl)
  · cases h

theorem lists_setDocFrames {ids : List Nat} (h : s.setDocFrames f ids = some s') : s'.lists = s.lists := by
  unfold Store.setDocFrames at h
  split at h
  · split at h <;> (cases h; rfl)
  · cases h

theorem lists_rewriteOwners {ids : List Nat} (l : List (Nat × List Nat)) : ∀ {s : Store},
    Store.rewriteOwners ids l s = some s' → s'.lists = s.lists := by
  induction l with
  | nil => intro s h; cases h; rfl
  | cons x l ih =>
    intro s h
    simp only [Store.rewriteOwners, Option.bind_eq_some_iff] at h
    obtain ⟨s1, h1, h2⟩ := h
    exact (ih h2).trans (lists_setFrameBlocks h1)

theorem lists_rewriteDocs {id : Nat} (l : List (Nat × List Nat)) : ∀ {s : Store},
    Store.rewriteDocs id l s = some s' → s'.lists = s.lists := by
  induction l with
  | nil => intro s h; cases h; rfl
  | cons x l ih =>
    intro s h
    simp only [Store.rewriteDocs, Option.bind_eq_some_iff] at h
    obtain ⟨s1, h1, h2⟩ := h
    exact (ih h2).trans (lists_setDocFrames h1)

theorem lists_removeFrames (l : List Nat) : ∀ {s : Store}, Store.removeFrames l s = some s' → s'.lists = s.lists := by
  induction l with
  | nil => intro s h; cases h; rfl
  | cons x l ih =>
    intro s h
    simp only [Store.removeFrames, Option.bind_eq_some_iff] at h
    obtain ⟨s1, h1, h2⟩ := h
    refine (ih h2).trans ?_
    unfold Store.removeFrame at h1
    split at h1
    · cases h1; rfl
    · simp only [Option.bind_eq_some_iff] at h1
      obtain ⟨s2, g1, g2⟩ := h1
      refine (lists_rewriteDocs _ g2).trans ?_
      show s2.lists = s.lists
      unfold Store.removeBlocks at g1
      split at g1
      · cases g1; rfl
      · exact (lists_rewriteOwners _ g1).trans rfl

theorem closeAll_spec : ∀ (l : List (Nat × List Int)) {s : Store}, Mid s d L ps ts x past → (∀ q ∈ l, q ∈ x.stack) →
    ∃ s', closeAll l s = some s' ∧ Mid s' d L ps ts x past ∧ s'.lists = s.lists ∧ s'.roots = s.roots := by
  intro l
  induction l with
  | nil => intro s h _; exact ⟨s, rfl, h, rfl, rfl⟩
  | cons q l ih =>
    intro s h hl
    obtain ⟨g, order⟩ := q
    obtain ⟨s1, e1, h1, _, r1, _⟩ := closeFrame_spec h (g := g) (order := order) (h.stack _ (hl (g, order) (by simp)))
    have hl1 : s1.lists = s.lists := by
      unfold Store.closeFrame at e1
      obtain ⟨fr, _, rfl⟩ := Option.map_eq_some_iff.mp e1
      rfl
    obtain ⟨s2, e2, h2, l2, r2⟩ := ih h1 (fun q hq => hl q (List.mem_cons_of_mem _ hq))
    refine ⟨s2, ?_, h2, l2.trans hl1, r2.trans r1⟩
    rw [closeAll, e1, Option.bind_some]; exact e2

/-- The paragraphs outside the tables are in the text in order. -/
theorem top_sublist (items : List SItem) : (paras (topParas items)).Sublist (flowText items) := by
  induction items with
  | nil => exact List.Sublist.refl _
  | cons a items ih =>
    cases a with
    | para p =>
      show (paras (p :: topParas items)).Sublist (paras [p] ++ flowText items)
      exact List.Sublist.append (List.Sublist.refl (paras [p])) ih
    | table t =>
      show (paras (topParas items)).Sublist (_ ++ flowText items)
      exact ih.trans (List.sublist_append_right _ _)

/-- The store of a new document with its frame. -/
theorem Bare.mid {s0 s : Store} (hb : Bare s0 s d) (hroot0 : 0 < s0.next "block") (hl : ListsOk s0 d ps) (hls : s.lists = s0.lists)
    (hdt : d.tables = []) :
    Mid (Store.withText { s with
        counters := (s.nextId "frame").2.counters
        frames := s.frames.insert (s0.next "frame") { id := s0.next "frame" }
        documents := s.documents.insert d.id { d with frames := [s0.next "frame"] } } ropeReset)
      { d with frames := [s0.next "frame"] } [] [] [] { stack := [(s0.next "frame", [])] } [] := by
  have hnx : ∀ k, k ≠ "frame" → (Store.withText { s with
        counters := (s.nextId "frame").2.counters
        frames := s.frames.insert (s0.next "frame") { id := s0.next "frame" }
        documents := s.documents.insert d.id { d with frames := [s0.next "frame"] } } ropeReset).next k = s0.next k := by
    intro k hk
    refine Eq.trans (b := s.next k) ?_ ?_
    · exact next_other (a := "frame") (b := k) (Ne.symm hk) s
    · simp [Store.next, hb.counters]
  have hnone : ∀ i, s.blocks i = none := hb.blocks
  refine ⟨⟨⟨reset_repr, .refl _, ?_, ?_, ?_, ?_, ?_, ?_⟩, ?_, ?_, ?_, ?_, ?_, ?_⟩, ?_, ?_, ?_, ?_, ?_, ?_, ?_, ?_, ?_, ?_, ?_, ?_, ?_⟩
  · have hk : s.blocks.keys = [] := by
      rw [List.eq_nil_iff_forall_not_mem]
      intro i hi
      have := (s.blocks.mem i).mp hi
      rw [hb.blocks i] at this; simp at this
    show s.blocks.keys.Perm _
    rw [hk]; exact .refl _
  · simp
  · simp
  · simp
  · simp
  · intro i _; exact ⟨hb.runs i, hb.images i⟩
  · intro n p hp; simp at hp
  · simp
  · rw [hnx _ (by decide)]; exact hroot0
  · simp
  · intro i hi
    have hi : (s.formatRuns i).isSome := hi
    rw [hb.runs i] at hi; cases hi
  · intro i hi
    have hi : (s.blockImages i).isSome := hi
    rw [hb.images i] at hi; cases hi
  · simp [Store.withText]
  · intro i y hy
    simp only [Store.withText, IdMap.insert_get] at hy
    split at hy
    · rename_i e; cases hy; exact ⟨e, rfl⟩
    · exact hb.docs i y hy
  · intro i hi
    simp only [List.mem_singleton] at hi
    simp [Store.withText, hi]
  · show ∀ i ∈ d.tables, _
    rw [hdt]; simp
  · intro g fr hg
    simp only [Store.withText, IdMap.insert_get, hb.frames g] at hg
    split at hg
    · rename_i e; cases hg; exact ⟨e.symm, by simp⟩
    · cases hg
  · obtain ⟨k1, k2, k3, k4, k5⟩ := hl
    refine ⟨?_, ?_, by simp, k4, ?_⟩
    · show ∀ l ∈ d.lists, ∃ e, s.lists l = some e ∧ e.id = l
      rw [hls]; exact k1
    · show ∀ l, (s.lists l).isSome → l ∈ d.lists
      rw [hls]; exact k2
    · intro l hl'
      have hl' : (s.lists l).isSome := hl'
      rw [hnx _ (by decide)]
      rw [hls] at hl'; exact k5 l hl'
  · intro i; rfl
  · intro i id st hm; simp at hm
  · rfl
  · intro q hq
    simp only [List.mem_singleton] at hq
    subst hq
    simp [Store.withText]
  · simp
  · simp [charTotal]
  · simp

/-- Loading elements into a document of one frame without tables. -/
theorem Flat.importElements (h : Flat s d f ps) (hs : Sole d.id f s) (hl : ListsOk s d ps) (ht : ∀ i, s.tables i = none)
    (hf : 0 < s.next "frame") (html : Bool) (es : List ParsedElement)
    (hrect : ∀ rows, ParsedElement.table rows ∈ es → Rectangular rows) (hopen : OpensWell es) :
    ∃ s' d' items, s.importElements html es = some (((flowParas items).length : Int), s') ∧ SameDoc d d' ∧
      items.map SItem.face = facesOf html es (listsOf [] 0 (s.next "list") es) ∧
      ItemsFit s' es (listsOf [] 0 (s.next "list") es) ∧
      Carries s' (flowText items) (flowParas items) ((tablesOf items).map fun t => t.table.id) ∧
      Seated s' (flowParas items) ∧ s'.documents d.id = some d' ∧ Counted d' (flowParas items) ∧
      ListsOk s' d' (flowParas items) ∧
      ((∀ b, ParsedElement.block b ∈ es → b.quoteDepth = 0) → topParas items ≠ [] → Tabled s' d' (s.next "frame") items ∧
        (tablesOf items = [] → Sole d.id (s.next "frame") s' ∧ (∀ i, s'.tables i = none) ∧ 0 < s'.next "frame")) := by
  obtain ⟨s1, e1, hb⟩ := h.removeFrames hs
  have e2 := createFrame_bare hb
  have hnf : s1.next "frame" = s.next "frame" := by simp [Store.next, hb.counters]
  have hnl : s1.next "list" = s.next "list" := by simp [Store.next, hb.counters]
  rw [hnf] at e2
  have hdid : s.docId = some d.id := h.docId
  have hdf : s.docFrames d.id = [f] := by simp [Store.docFrames, h.document, h.frames]
  have hpos : 0 < s.next "block" := by
    obtain ⟨p, hp⟩ := List.exists_mem_of_ne_nil _ h.nonempty
    have := h.fresh p hp
    omega
  have hls1 := lists_removeFrames _ e1
  have htt := (tame_removeFrames _ e1).1
  have hM := Bare.mid hb hpos hl hls1 h.tables
  generalize hs2 : (Store.withText { s1 with
      counters := (s1.nextId "frame").2.counters
      frames := s1.frames.insert (s.next "frame") { id := s.next "frame" }
      documents := s1.documents.insert d.id { d with frames := [s.next "frame"] } } ropeReset) = s2 at hM
  have hnl2 : s2.next "list" = s.next "list" := by
    rw [← hs2, ← hnl]; exact next_other (a := "frame") (b := "list") (by decide) s1
  have hnf2 : s2.next "frame" = s.next "frame" + 1 := by
    rw [← hs2, ← hnf]; exact next_self "frame" s1
  have hF2 : ∀ g, s2.frames g = if g = s.next "frame" then some { id := s.next "frame" } else none := by
    intro g
    rw [← hs2]
    simp only [Store.withText, IdMap.insert_get, hb.frames g]
  have hT2 : ∀ i, s2.tables i = none := by
    intro i; rw [← hs2]; show s1.tables i = none; rw [htt]; exact ht i
  have hC2 : ∀ i, s2.tableCells i = none := by intro i; rw [← hs2]; exact hb.cells i
  have hr2 : s2.roots = s.roots := by rw [← hs2]; exact hb.roots
  obtain ⟨x3, s3, d3, items, past3, e3, q1, q2, q3, q4, q5, q6, q7⟩ := importLoop_spec html es hM hrect (fun _ => hopen)
    (by intro e; simp at e) (by intro _; simp [charsBefore, paras])
  have hB2 : Built s2 { d with frames := [s.next "frame"] } (s.next "frame") [] := by
    have hsome : ∀ g, (s2.frames g).isSome → g = s.next "frame" := by
      intro g hg
      rw [hF2] at hg
      split at hg
      · assumption
      · cases hg
    refine ⟨⟨{ id := s.next "frame" }, by rw [hF2, if_pos rfl], rfl, rfl, rfl, rfl, .refl _⟩, by simp [tablesOf], ⟨[], rfl, .refl _⟩,
      ⟨by simp [tableFrames, tablesOf], by simp [cellsOf, tablesOf]⟩, ?_, ?_, ?_, ?_, ?_, ?_, ?_⟩
    · intro g hg; rw [hsome g hg]; simp
    · show d.tables.Perm _
      rw [h.tables]; exact .refl _
    · intro g hg; rw [hsome g hg, hnf2]; omega
    · intro t h'; rw [hT2 t] at h'; cases h'
    · intro t h'; rw [hC2 t] at h'; cases h'
    · intro t h'; rw [hT2 t] at h'; cases h'
    · intro t h'; rw [hC2 t] at h'; cases h'
  rw [hnl2] at q4 q5
  simp only [List.nil_append] at q6 q7
  obtain ⟨s4, e4, h4, hl4, hr4⟩ := closeAll_spec x3.stack q6 (fun _ h => h)
  have hid3 : d3.id = d.id := q1.id
  have hdoc4 : s4.documents d.id = some d3 := by rw [← hid3]; exact h4.document
  generalize hd5 : ({ d3 with characterCount := (charTotal (flowParas items) : Nat), blockCount := ((flowParas items).length : Nat) } : Document) = d5
  have hd5i : d5.id = d.id := by rw [← hd5]; exact hid3
  have hcc : ({ d3 with characterCount := x3.chars, blockCount := x3.count } : Document) = d5 := by
    rw [← hd5, h4.chars, h4.count]
  have hD5 : ∀ i, (s4.updateDocument d5).documents i = if i = d.id then some d5 else s4.documents i := by
    intro i
    unfold Store.updateDocument
    simp only [IdMap.insert_get, hd5i]
    rw [hdoc4]
    split
    · rw [← hd5]; rfl
    · rfl
  refine ⟨s4.updateDocument d5, d5, items, ?_, ?_, q4, ?_, ?_, ?_, ?_, ?_, ?_, ?_⟩
  · unfold Store.importElements
    rw [hdid, Option.bind_some, hdf, e1, Option.bind_some, e2, Option.bind_some]
    dsimp only
    rw [hs2]
    have e3' : importLoop html d.id { stack := [(s.next "frame", [])] } es s2 = some (x3, s3) := e3
    rw [e3', Option.bind_some]
    dsimp only
    rw [e4, Option.bind_some, hdoc4, Option.map_some, hcc, h4.count]
  · rw [← hd5]
    exact SameDoc.trans (b := { d with frames := [s.next "frame"] }) rfl (SameDoc.trans q1 rfl)
  · intro b l hm st hst
    obtain ⟨i, a1, a2⟩ := q5 b l hm st hst
    refine ⟨i, a1, ?_⟩
    show s4.lists i = _
    rw [hl4]; exact a2
  · exact h4.penned.toCarries.of_same rfl rfl rfl rfl rfl
  · exact h4.penned.seated
  · rw [hD5, if_pos rfl]
  · rw [← hd5]; exact ⟨rfl, rfl⟩
  · obtain ⟨k1, k2, k3, k4, k5⟩ := h4.lists
    rw [← hd5]
    exact ⟨k1, k2, k3, k4, k5⟩
  · intro hq hne
    obtain ⟨hB3, hst3⟩ := q7 (s.next "frame") [] hq rfl (by rw [hnf2]; omega) hB2
    simp only [List.nil_append] at hB3 hst3
    obtain ⟨fr, f1, f2, f3, f4, f5, f6⟩ := hB3.frame
    have hF4 : ∀ g, s4.frames g = if g = s.next "frame" then some { fr with childOrder := items.map SItem.entry } else s3.frames g := by
      intro g
      rw [hst3] at e4
      simp only [closeAll, closeFrame, f1, Option.map_some, Option.bind_some, Option.some.injEq] at e4
      rw [← e4]
      unfold Store.updateFrame
      simp only [IdMap.insert_get, f2, f1]
      split
      · rfl
      · rfl
    have hE4 : s4.tables = s3.tables ∧ s4.tableCells = s3.tableCells ∧ s4.next = s3.next := by
      rw [hst3] at e4
      simp only [closeAll, closeFrame, f1, Option.map_some, Option.bind_some, Option.some.injEq] at e4
      rw [← e4]
      exact ⟨rfl, rfl, rfl⟩
    have hsome : ∀ g, (s4.frames g).isSome → (s3.frames g).isSome := by
      intro g hg
      rw [hF4] at hg
      split at hg
      · rename_i e; rw [e, f1]; rfl
      · exact hg
    have hfn := hB3.distinct.1
    rw [List.nodup_cons] at hfn
    have hold : ∀ i ∈ tableFrames items, s4.frames i = s3.frames i := by
      intro i hi
      rw [hF4, if_neg]
      intro e; subst e; exact hfn.1 hi
    have hTab : Tabled (s4.updateDocument d5) d5 (s.next "frame") items := by
      refine ⟨?_, ?_, ⟨flowText items, ?_, top_sublist items⟩, ?_, ?_, ?_, hB3.distinct, ?_, ?_, ?_, ?_, ?_, ?_, ?_, h4.penned.positive, hne, fun _ => h4.penned.seated⟩
      · show ∃ r r', s4.roots 1 = some r ∧ s4.roots r.id = some r' ∧ r'.document = d5.id ∧ d5.id ≠ 0
        rw [hr4, q2, hr2, hd5i]; exact h.root
      · rw [hD5, if_pos hd5i]
      · exact h4.penned.toCarries.of_same rfl rfl rfl rfl rfl
      · refine ⟨{ fr with childOrder := items.map SItem.entry }, ?_, f2, f3, f4, f5, rfl, f6⟩
        show s4.frames _ = _
        rw [hF4, if_pos rfl]
      · intro t ht'
        have hmem := mem_tableFrames ht'
        refine (hB3.table t ht').same ?_ ?_ ?_ ?_
        · show s4.tables _ = _; rw [hE4.1]
        · exact hold _ hmem.1
        · intro c hc; exact hold _ (hmem.2 c hc)
        · intro c _; show s4.tableCells _ = _; rw [hE4.2.1]
      · rw [← hd5]; exact hB3.frames
      · intro g hg; exact hB3.onlyFrames g (hsome g hg)
      · rw [← hd5]; exact hB3.tables
      · intro g hg
        show 0 < g ∧ g < s4.next "frame"
        rw [hE4.2.2]; exact hB3.freshFrames g (hsome g hg)
      · show ∀ t, (s4.tables t).isSome → t < s4.next "table"
        rw [hE4.1, hE4.2.2]; exact hB3.freshTables
      · show ∀ t, (s4.tableCells t).isSome → t < s4.next "table_cell"
        rw [hE4.2.1, hE4.2.2]; exact hB3.freshCells
      · show ∀ t, (s4.tables t).isSome → _
        rw [hE4.1]; exact hB3.onlyTables
      · show ∀ t, (s4.tableCells t).isSome → _
        rw [hE4.2.1]; exact hB3.onlyCells
    refine ⟨hTab, ?_⟩
    intro hnt
    have hcl : cellsOf items = [] := by unfold cellsOf; rw [hnt]; rfl
    have htf : tableFrames items = [] := by unfold tableFrames; rw [hnt]; rfl
    refine ⟨⟨?_, ?_, ?_, ?_, ?_, ?_⟩, ?_, ?_⟩
    · intro i b hb'
      have hi : i ∈ s4.blocks.keys := (s4.blocks.mem i).mpr (by
        have hb'' : s4.blocks i = some b := hb'
        rw [hb'']; rfl)
      rw [h4.penned.keys.mem_iff] at hi
      obtain ⟨p, hp, rfl⟩ := List.mem_map.mp hi
      obtain ⟨b', hb'', hib⟩ := h4.penned.block p hp
      have hb' : s4.blocks p.id = some b := hb'
      rw [hb''] at hb'
      cases hb'
      have : b = { p.shape with id := p.id, documentPosition := b.documentPosition } := hib
      rw [this]
    · intro i y hy
      rw [hD5] at hy
      split at hy
      · rename_i e; cases hy; exact ⟨e, hd5i⟩
      · obtain ⟨a1, a2⟩ := h4.docs i y hy
        rw [hid3] at a1 a2
        exact ⟨a1, a2⟩
    · intro g fr' hg
      have hg' : s4.frames g = some fr' := hg
      have hm := hB3.onlyFrames g (hsome g (by rw [hg']; rfl))
      rw [htf, List.mem_singleton] at hm
      subst hm
      rw [hF4, if_pos rfl] at hg'
      cases hg'
      exact ⟨rfl, f2⟩
    · exact h4.penned.runsOf
    · exact h4.penned.imagesOf
    · intro i
      cases e : (s4.updateDocument d5).tableCells i with
      | none => rfl
      | some c => have := hTab.onlyCells i (by rw [e]; rfl); rw [hcl] at this; simp at this
    · intro i
      cases e : (s4.updateDocument d5).tables i with
      | none => rfl
      | some c => have := hTab.onlyTables i (by rw [e]; rfl); rw [hnt] at this; simp at this
    · have := (hTab.freshFrames (s.next "frame") (by
        show (s4.frames _).isSome
        rw [hF4, if_pos rfl]; rfl)).2
      omega

end Verif
