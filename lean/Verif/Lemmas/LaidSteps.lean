import Verif.Lemmas.Laid
/-
Steps that add lists and paragraphs at the end of a document.
-/
namespace Verif
open Store
variable {s s' : Store} {d d' : Document} {f : Nat} {items items' order order' : List SItem}

/-- Nothing but the lists changed. -/
structure Relisted (s s' : Store) (d : Document) (ls : List Nat) : Prop where
  roots : s'.roots = s.roots
  document : s'.documents d.id = some { d with lists := ls }
  frames : s'.frames = s.frames
  blocks : s'.blocks = s.blocks
  runs : s'.formatRuns = s.formatRuns
  images : s'.blockImages = s.blockImages
  tables : s'.tables = s.tables
  cells : s'.tableCells = s.tableCells
  text : s'.text = s.text
  next : ∀ k, k ≠ "list" → s'.next k = s.next k
  mono : ∀ i e, s.lists i = some e → s'.lists i = some e

theorem Relisted.refl (h : s.documents d.id = some d) : Relisted s s d d.lists :=
  ⟨rfl, h, rfl, rfl, rfl, rfl, rfl, rfl, rfl, fun _ _ => rfl, fun _ _ h => h⟩

theorem listEntity_new {ps : List SPara} (hdoc : s.documents d.id = some d) (hl : ListsOk s d ps) (l : TList) (h0 : l.id = 0) :
    ∃ s', s.createListEntity l d.id (-1) = some (s.next "list", s') ∧ Relisted s s' d (d.lists ++ [s.next "list"]) ∧
      ListsOk s' { d with lists := d.lists ++ [s.next "list"] } ps ∧
      (∀ i, s'.lists i = if i = s.next "list" then some { l with id := s.next "list" } else s.lists i) := by
  have hn : (s.counters "list").getD 1 = s.next "list" := rfl
  unfold Store.createListEntity Store.insertNewList
  simp only [h0, if_true, Option.bind_some, Store.nextId, hn]
  unfold Store.setDocLists Store.docLists
  simp only [hdoc, Option.map_some, Option.getD_some]
  have hi : insertAtIndex d.lists (-1) (s.next "list") = d.lists ++ [s.next "list"] := by
    unfold insertAtIndex; rw [if_neg (by omega)]
  rw [hi, if_pos (by
    rw [List.all_eq_true]
    intro i hi
    simp only [IdMap.insert_get]
    split
    · rfl
    · rcases List.mem_append.mp hi with h1 | h1
      · obtain ⟨e, h2, _⟩ := hl.known i h1
        rw [h2]; rfl
      · rename_i hne; exact absurd (List.mem_singleton.mp h1) hne)]
  refine ⟨_, rfl, ?_, ?_, fun i => by simp⟩
  · constructor <;> try rfl
    · simp
    · intro k hk
      simp [Store.next, hk]
    · intro i e hi
      have := hl.fresh i (by rw [hi]; rfl)
      simp only [IdMap.insert_get]
      rw [if_neg (by omega)]; exact hi
  · constructor
    · intro k hk
      simp only [IdMap.insert_get]
      by_cases hkn : k = s.next "list"
      · exact ⟨_, if_pos hkn, hkn.symm⟩
      · rcases List.mem_append.mp hk with h1 | h1
        · obtain ⟨e, h2, h3⟩ := hl.known k h1
          exact ⟨e, by rw [if_neg hkn]; exact h2, h3⟩
        · exact absurd (List.mem_singleton.mp h1) hkn
    · intro k hk
      simp only [IdMap.insert_get] at hk
      simp only [List.mem_append, List.mem_singleton]
      by_cases hkn : k = s.next "list"
      · exact .inr hkn
      · rw [if_neg hkn] at hk; exact .inl (hl.only k hk)
    · intro p hp k hk
      exact List.mem_append_left _ (hl.items p hp k hk)
    · rw [List.nodup_append]
      refine ⟨hl.nodup, by simp, ?_⟩
      intro a ha b hb
      rw [List.mem_singleton] at hb
      obtain ⟨e, h2, _⟩ := hl.known a ha
      have := hl.fresh a (by rw [h2]; rfl)
      omega
    · intro k hk
      simp only [IdMap.insert_get] at hk
      have hgoal : k < s.next "list" + 1 := by
        by_cases hkn : k = s.next "list"
        · omega
        · rw [if_neg hkn] at hk
          have := hl.fresh k hk
          omega
      simp only [Store.next, if_true, Option.getD_some]
      exact hgoal

/-- The list a pasted paragraph joins. -/
theorem chooseList_new {ps : List SPara} (hdoc : s.documents d.id = some d) (hl : ListsOk s d ps) {g : ListGrouper} (hg : GrouperOk s g)
    (fl : Option FragList) :
    ∃ s' g' l ls, s.chooseList d.id g fl = some (s', g', l) ∧ Relisted s s' d ls ∧
      ListsOk s' { d with lists := ls } ps ∧ GrouperOk s' g' ∧ ListLike s' fl l ∧ (∀ i, l = some i → i ∈ ls) := by
  cases fl with
  | none =>
    exact ⟨s, [], none, d.lists, rfl, .refl hdoc, hl, .nil s, rfl, by simp⟩
  | some fl =>
    unfold Store.chooseList
    have hg1 : GrouperOk s (g.tryReuse fl.style (toU32 fl.indent)).1 := by
      have : (g.tryReuse fl.style (toU32 fl.indent)).1 = g.take (toU32 fl.indent + 1) := by
        unfold ListGrouper.tryReuse
        simp only []
        split
        · split <;> rfl
        · rfl
      rw [this]; exact hg.take _
    have hfound : ∀ i, (g.tryReuse fl.style (toU32 fl.indent)).2 = some i →
        ∃ e, s.lists i = some e ∧ e.style = fl.style ∧ toU32 e.indent = toU32 fl.indent := by
      intro i hi
      unfold ListGrouper.tryReuse at hi
      simp only [] at hi
      split at hi
      · rename_i id sty hk
        split at hi
        · rename_i hsty
          simp only [Option.some.injEq] at hi
          subst hi
          obtain ⟨e, h1, h2, h3⟩ := (hg.take (toU32 fl.indent + 1)) _ _ _ hk
          exact ⟨e, h1, h2.trans hsty, h3⟩
        · simp at hi
      · simp at hi
    cases hf : (g.tryReuse fl.style (toU32 fl.indent)).2 with
    | some i =>
      obtain ⟨e, h1, h2, h3⟩ := hfound i hf
      refine ⟨s, _, some i, d.lists, by simp only [hf], .refl hdoc, hl, hg1, ⟨i, e, rfl, h1, h2, h3⟩, ?_⟩
      intro j hj
      cases hj
      exact hl.only i (by rw [h1]; rfl)
    | none =>
      obtain ⟨s', e1, e2, e3, e7⟩ := listEntity_new hdoc hl fl.toEntity rfl
      have hnew : s'.lists (s.next "list") = some { fl.toEntity with id := s.next "list" } := by rw [e7, if_pos rfl]
      refine ⟨s', _, some (s.next "list"), d.lists ++ [s.next "list"], by simp only [hf, e1]; rfl, e2, e3, ?_,
        ⟨_, _, rfl, hnew, rfl, rfl⟩, by simp⟩
      exact (hg1.mono e2.mono).register hnew

/-- A list of its own. -/
theorem newList_new {ps : List SPara} (hdoc : s.documents d.id = some d) (hl : ListsOk s d ps) (fl : Option FragList) :
    ∃ s' l ls, s.newList d.id fl = some (s', l) ∧ Relisted s s' d ls ∧
      ListsOk s' { d with lists := ls } ps ∧ ListLike s' fl l ∧ (∀ i, l = some i → i ∈ ls) := by
  cases fl with
  | none => exact ⟨s, none, d.lists, rfl, .refl hdoc, hl, rfl, by simp⟩
  | some fl =>
    obtain ⟨s', e1, e2, e3, e7⟩ := listEntity_new hdoc hl fl.toEntity rfl
    have hnew : s'.lists (s.next "list") = some { fl.toEntity with id := s.next "list" } := by rw [e7, if_pos rfl]
    refine ⟨s', some (s.next "list"), d.lists ++ [s.next "list"], by simp only [Store.newList, e1]; rfl, e2, e3,
      ⟨_, _, rfl, hnew, rfl, rfl⟩, by simp⟩

theorem Laid.relist {ls : List Nat} (h : Laid s d f items order) (r : Relisted s s' d ls) : Laid s' { d with lists := ls } f items order := by
  obtain ⟨fr, g1, g2, g3, g4, g5, g6, g7⟩ := h.main
  obtain ⟨L, l1, l2⟩ := h.content
  refine h.change (bs := fr.blocks) g1 r.roots r.document rfl rfl rfl
    ⟨L, l1.of_same r.text r.blocks r.runs r.images (r.next _ (by decide)), l2⟩ ?_ g7 (fun g _ => by rw [r.frames]) r.tables r.cells
    (r.next _ (by decide)) (r.next _ (by decide)) (r.next _ (by decide)) rfl h.same h.arranged.positive h.arranged.nonempty
  rw [r.frames, g1, ← g6]

/-- One more paragraph in the text. -/
theorem Carries.add {L : List Para} {ps : List SPara} {ts : List Nat} {n : Nat} {cs : List SChar} {shape blk : Block} {runs : List (Run CharFormat)}
    (h : Carries s L ps ts) (hn : s.next "block" = n) (hb : IsBlock ⟨n, cs, shape⟩ blk) (hst : StyledOk runs cs)
    (ht : Repr s'.text (L ++ [(.block n, cs.map Prod.fst)])) (hk : s'.blocks.keys = s.blocks.keys ++ [n])
    (h2b : ∀ i, s'.blocks i = if i = n then some blk else s.blocks i)
    (h2r : (s'.formatRuns n).getD [] = runs) (h2i : (s'.blockImages n).getD [] = [])
    (h3 : ∀ i, i ≠ n → s'.formatRuns i = s.formatRuns i ∧ s'.blockImages i = s.blockImages i)
    (hn' : s'.next "block" = n + 1) : Carries s' (L ++ [(.block n, cs.map Prod.fst)]) (ps ++ [⟨n, cs, shape⟩]) ts := by
  have hne : ∀ q ∈ ps, q.id ≠ n := fun q hq => by have := h.fresh q hq; omega
  have hmem : ∀ q ∈ ps ++ [(⟨n, cs, shape⟩ : SPara)], q = ⟨n, cs, shape⟩ ∨ (q.id ≠ n ∧ q ∈ ps) := by
    intro q hq
    rcases List.mem_append.mp hq with hq | hq
    · exact .inr ⟨hne q hq, hq⟩
    · exact .inl (List.mem_singleton.mp hq)
  constructor
  · exact ht
  · rw [paras_append]
    refine (h.perm.append_right _).trans ?_
    rw [List.append_assoc, List.append_assoc]
    exact .append_left _ List.perm_append_comm
  · rw [hk, List.map_append]
    exact h.keys.append_right _
  · intro q hq
    rw [h2b]
    rcases hmem q hq with rfl | ⟨hn, hq⟩
    · exact ⟨blk, if_pos rfl, hb⟩
    · rw [if_neg hn]; exact h.block q hq
  · intro q hq
    rcases hmem q hq with rfl | ⟨hn, hq⟩
    · rw [h2r]; exact hst
    · rw [(h3 _ hn).1]; exact h.formats q hq
  · intro q hq
    rcases hmem q hq with rfl | ⟨hn, hq⟩
    · exact h2i
    · rw [(h3 _ hn).2]; exact h.images q hq
  · intro q hq
    rw [hn']
    rcases hmem q hq with rfl | ⟨hn, hq⟩
    · exact Nat.lt_succ_self n
    · have := h.fresh q hq; omega
  · intro i hi
    rw [(h3 i (by omega)).1, (h3 i (by omega)).2]
    exact h.clean i (by omega)

theorem Laid.text_nonempty (h : Laid s d f items order) {L : List Para}
    (hL : Carries s L (flowParas items) ((tablesOf items).map fun t => t.table.id)) : L ≠ [] := by
  intro e
  have := hL.perm.length_eq
  rw [e, List.length_append] at this
  have h1 := h.arranged.nonempty
  have h2 : topParas items = [] := by
    cases hx : topParas items with
    | nil => rfl
    | cons q l =>
      have : q ∈ flowParas items := mem_flowParas.mpr (.inl (by rw [hx]; simp))
      have := List.length_pos_of_mem this
      simp [paras] at *
      omega
  exact h1 h2

/-- One more paragraph at the end. -/
theorem Laid.addPara (h : Laid s d f items order) {blk : Block} (h0 : blk.id = 0) {runs : List (Run CharFormat)} {cs : List SChar}
    (hst : StyledOk runs cs) (shape : Block) (hshape : ∀ n, IsBlock ⟨n, cs, shape⟩ { blk with id := n }) :
    ∃ s1 st', s.createBlock blk f (-1) = some (s.next "block", s1) ∧
      ropeInsertBlockAt (s1.writeState (s.next "block") runs []).text s.text.idx.total (s.next "block") (cs.map Prod.fst) = some st' ∧
      Laid ((s1.writeState (s.next "block") runs []).withText st') d f (items ++ [.para ⟨s.next "block", cs, shape⟩]) order ∧
      st'.idx.total = s.text.idx.total + 1 + utf8Len (cs.map Prod.fst) ∧
      (∀ i, ((s1.writeState (s.next "block") runs []).withText st').blocks i =
        if i = s.next "block" then some { blk with id := s.next "block" } else s.blocks i) ∧
      ((s1.writeState (s.next "block") runs []).withText st').lists = s.lists ∧
      ((s1.writeState (s.next "block") runs []).withText st').next "list" = s.next "list" ∧
      ((s1.writeState (s.next "block") runs []).withText st').next "block" = s.next "block" + 1 := by
  obtain ⟨fr, g1, g2, g3, g4, g5, g6, g7⟩ := h.main
  obtain ⟨L, l1, l2⟩ := h.content
  have hcr := createBlock_at (blk := blk) g1 h0 (-1) (by
    intro i hi
    obtain ⟨q, hq, rfl⟩ := List.mem_map.mp (g7.mem_iff.mp hi)
    obtain ⟨b, hb, _⟩ := l1.block q (mem_flowParas.mpr (.inl hq))
    rw [hb]; rfl)
  have hia : insertAtIndex fr.blocks (-1) (s.next "block") = fr.blocks ++ [s.next "block"] := by
    unfold insertAtIndex; rw [if_neg (by omega)]
  rw [hia] at hcr
  generalize hn : s.next "block" = n at *
  have hnotin : Marker.block n ∉ L.map Prod.fst := by
    intro hm
    have := (l1.perm.map Prod.fst).mem_iff.mp hm
    rw [List.map_append, List.mem_append, paras_fst] at this
    rcases this with hm | hm
    · obtain ⟨q, hq, e⟩ := List.mem_map.mp hm
      simp only [Marker.block.injEq] at e
      have := l1.fresh q hq
      omega
    · simp at hm
  have habs : s.blocks n = none := by
    cases hx : s.blocks n with
    | none => rfl
    | some b =>
      have hk : n ∈ s.blocks.keys := (s.blocks.mem n).mpr (by rw [hx]; rfl)
      obtain ⟨q, hq, e⟩ := List.mem_map.mp (l1.keys.mem_iff.mp hk)
      have := l1.fresh q hq
      omega
  obtain ⟨st', t1, t2, t3⟩ := insertEnd_repr (cs.map Prod.fst) l1.text (h.text_nonempty l1) hnotin
  refine ⟨_, st', hcr, t1, ?_⟩
  generalize hs2 : Store.withText (Store.writeState ({ s with
      counters := (s.nextId "block").2.counters
      blocks := s.blocks.insert n { blk with id := n }
      frames := s.frames.insert f { fr with blocks := fr.blocks ++ [n] } } : Store) n runs []) st' = s2
  have h2f : ∀ g, s2.frames g = if g = f then some { fr with blocks := fr.blocks ++ [n] } else s.frames g := by
    intro g; subst hs2; simp [Store.writeState, Store.withText]
  have h2b : ∀ i, s2.blocks i = if i = n then some { blk with id := n } else s.blocks i := by
    intro i; subst hs2; simp [Store.writeState, Store.withText]
  have h2k : s2.blocks.keys = s.blocks.keys ++ [n] := by
    subst hs2
    simp [Store.writeState, Store.withText, IdMap.insert, habs]
  have h2r : (s2.formatRuns n).getD [] = runs := by
    subst hs2
    simp only [Store.writeState, Store.withText]
    by_cases hr : runs = []
    · rw [if_pos hr, hr]; simp
    · rw [if_neg hr]; simp
  have h2i : (s2.blockImages n).getD [] = [] := by
    subst hs2
    simp [Store.writeState, Store.withText]
  have h3 : ∀ i, i ≠ n → s2.formatRuns i = s.formatRuns i ∧ s2.blockImages i = s.blockImages i := by
    intro i hi
    subst hs2
    simp only [Store.writeState, Store.withText, if_true]
    refine ⟨?_, by simp [hi]⟩
    by_cases hr : runs = []
    · rw [if_pos hr]; simp [hi]
    · rw [if_neg hr]; simp [hi]
  have h2n : s2.next "block" = n + 1 := by
    subst hs2
    simp [Store.next, Store.writeState, Store.withText, Store.nextId] at hn ⊢
    omega
  have h2o : ∀ k, k ≠ "block" → s2.next k = s.next k := by
    intro k hk
    subst hs2
    simp [Store.next, Store.writeState, Store.withText, Store.nextId, hk]
  have hrest : s2.roots = s.roots ∧ s2.documents = s.documents ∧ s2.tables = s.tables ∧ s2.tableCells = s.tableCells ∧ s2.lists = s.lists ∧ s2.text = st' := by
    subst hs2; exact ⟨rfl, rfl, rfl, rfl, rfl, rfl⟩
  have htop : topParas (items ++ [.para ⟨n, cs, shape⟩]) = topParas items ++ [⟨n, cs, shape⟩] := by
    rw [topParas_append]; rfl
  have hflow : flowParas (items ++ [.para ⟨n, cs, shape⟩]) = flowParas items ++ [⟨n, cs, shape⟩] := by
    rw [flowParas_append]; rfl
  have htab : tablesOf (items ++ [.para ⟨n, cs, shape⟩]) = tablesOf items := by
    rw [tablesOf_append]; simp [tablesOf]
  refine ⟨?_, t3, h2b, hrest.2.2.2.2.1, h2o _ (by decide), h2n⟩
  refine h.change (bs := fr.blocks ++ [n]) g1 hrest.1 (by rw [hrest.2.1]; exact h.document) rfl rfl rfl
    ⟨L ++ [(.block n, cs.map Prod.fst)], ?_, ?_⟩ ?_ ?_ ?_ hrest.2.2.1 hrest.2.2.2.1 (h2o _ (by decide)) (h2o _ (by decide)) (h2o _ (by decide))
    htab (by rw [htab]; exact h.same) ?_ (by rw [htop]; simp)
  · rw [htab, hflow]
    exact l1.add hn (hshape n) hst (by rw [hrest.2.2.2.2.2]; exact t2) h2k h2b h2r h2i h3 h2n
  · rw [htop, paras_append]
    exact l2.append (List.Sublist.refl _)
  · rw [h2f, if_pos rfl, ← g6]
  · rw [htop, List.map_append]
    exact g7.append_right _
  · intro g hg; rw [h2f, if_neg hg]
  · intro q hq
    rw [hflow] at hq
    rcases List.mem_append.mp hq with hq | hq
    · exact h.arranged.positive q hq
    · rw [List.mem_singleton.mp hq]
      show 0 < n
      obtain ⟨q0, hq0⟩ := List.exists_mem_of_ne_nil _ h.arranged.nonempty
      have a1 := mem_flowParas.mpr (.inl hq0 : _ ∨ ∃ t ∈ tablesOf items, q0 ∈ t.cells.flatMap SCell.paras)
      have := h.arranged.positive q0 a1
      have := l1.fresh q0 a1
      omega

end Verif
