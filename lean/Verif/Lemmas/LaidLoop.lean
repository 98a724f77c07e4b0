import Verif.Lemmas.LaidTable
import Verif.Lemmas.Editing
import Verif.Lemmas.PasteMany
import Verif.Lemmas.InsertMarkup
import Verif.Lemmas.InsertRuns
import Verif.Spec.PasteMixed
/-
The paragraphs and tables of a fragment, one after the other, at the end of a document.
-/
namespace Verif
open Store
variable {s s' : Store} {d d' : Document} {f : Nat} {items items' order order' : List SItem}

theorem ItemLike.mono (hl : ∀ i e, s.lists i = some e → s'.lists i = some e) (x : MixItem) (y : SItem) (h : ItemLike s x y) : ItemLike s' x y := by
  cases x with
  | para fb =>
    cases y with
    | para q => exact PastedOne.mono (show PastedOne s fb q from h) hl
    | table _ => exact False.elim h
  | table t =>
    cases y with
    | para _ => exact False.elim h
    | table _ => exact h

theorem Placed.keep {ps : List SPara} (h : Placed s ps) (hb : ∀ q ∈ ps, s'.blocks q.id = s.blocks q.id) : Placed s' ps := by
  intro L p R e
  obtain ⟨b, h1, h2⟩ := h L p R e
  exact ⟨b, by rw [hb p (by rw [e]; simp)]; exact h1, h2⟩

theorem Placed.then {ps qs : List SPara} (h : Placed s ps)
    (hq : ∀ X q Y, qs = X ++ q :: Y → ∃ b, s.blocks q.id = some b ∧ b.documentPosition = charsBefore (paras ps) + charsBefore (paras X)) :
    Placed s (ps ++ qs) := by
  intro L p R e
  rcases split_at e with ⟨B', e'⟩ | ⟨A', e', e''⟩
  · exact h L p B' e'
  · obtain ⟨b, h1, h2⟩ := hq A' p R e''
    refine ⟨b, h1, ?_⟩
    rw [h2, e', charsBefore_paras_two]
    push_cast; rfl

theorem ListsOk.more {ps qs : List SPara} (h : ListsOk s d ps) (hl : s'.lists = s.lists) (hn : s'.next "list" = s.next "list")
    (hd : d'.lists = d.lists) (hq : ∀ q ∈ qs, ∀ i, q.shape.list = some i → i ∈ d.lists) : ListsOk s' d' (ps ++ qs) := by
  refine ⟨?_, ?_, ?_, by rw [hd]; exact h.nodup, ?_⟩
  · rw [hl, hd]; exact h.known
  · rw [hl, hd]; exact h.only
  · intro x hx
    rw [hd]
    rcases List.mem_append.mp hx with hx | hx
    · exact h.items x hx
    · exact hq x hx
  · rw [hl, hn]; exact h.fresh

/-- A paragraph of the fragment. -/
theorem Laid.mixBlock (h : Laid s d f items order) (hl : ListsOk s d (flowParas items)) {m : MixAt} (hg : GrouperOk s m.grouper)
    {fb : FragBlock} (hfb : fb.IsText) (hnext : m.next = some s.text.idx.total) :
    ∃ s' d' g q, Store.mixBlock d.id f fb m s = some (s', ⟨g, m.running + q.chars.length + 1, some s'.text.idx.total, q.id, !decide (q.text = [])⟩,
        [(q.id : Int)]) ∧
      d' = { d with lists := d'.lists } ∧ Laid s' d' f (items ++ [.para q]) order ∧ ListsOk s' d' (flowParas items ++ [q]) ∧
      GrouperOk s' g ∧ PastedOne s' fb q ∧ (∀ i e, s.lists i = some e → s'.lists i = some e) ∧
      (∀ r ∈ flowParas items, s'.blocks r.id = s.blocks r.id) ∧
      ∃ b, s'.blocks q.id = some b ∧ b.documentPosition = m.running := by
  obtain ⟨s1, g, l, ls, e1, r1, l1, g1, like1, in1⟩ := chooseList_new h.document hl hg fb.list
  have h1 := h.relist r1
  have hst := (fragState_styled hfb).1
  obtain ⟨s2, st, c1, c2, c3, c4, c5, c6, c7, c8⟩ := h1.addPara (blk := { fb.format with id := 0, list := l, documentPosition := m.running }) rfl hst
    { fb.format with id := 0, list := l, documentPosition := 0 } (fun _ => rfl)
  generalize hn : s1.next "block" = n at *
  generalize hs3 : (s2.writeState n (fragState fb).1 []).withText st = s3 at *
  have hx3 : s3.text = st := by rw [← hs3]; rfl
  refine ⟨s3, { d with lists := ls }, g, ⟨n, fb.chars, { fb.format with id := 0, list := l, documentPosition := 0 }⟩, ?_, rfl, c3, ?_,
    g1.mono (by rw [c6]; exact fun _ _ h => h), ⟨rfl, rfl, like1.mono (by rw [c6]; exact fun _ _ h => h)⟩, ?_, ?_, ?_⟩
  · unfold Store.mixBlock
    rw [e1, Option.bind_some]
    dsimp only
    rw [c1, Option.bind_some]
    dsimp only
    rw [hnext, (fragState_styled hfb).2]
    dsimp only
    rw [hfb.text, ← r1.text, c2, Option.map_some, hs3, hx3, c4, state_len hfb]
    rfl
  · exact l1.more c6 c7 rfl (by
      intro q hq
      rw [List.mem_singleton.mp hq]
      exact in1)
  · intro i e hi
    rw [c6]; exact r1.mono i e hi
  · intro r hr
    obtain ⟨L, hL, _⟩ := h.content
    have := hL.fresh r hr
    rw [r1.next _ (by decide)] at hn
    rw [c5, if_neg (by omega), r1.blocks]
  · exact ⟨_, (c5 n).trans (if_pos rfl), rfl⟩

/-! ### Counts -/

theorem tablesSize_cons {t : FragTable} (ts : List FragTable) (h : t.void = false) (hs : ∀ c ∈ t.cells, c.Simple) :
    tablesSize (t :: ts) = (t.cells.length + (tablesSize ts).1, (t.cells.map fun c => c.chars.length).sum + (tablesSize ts).2) := by
  have h1 := tablesSize_one h hs
  unfold tablesSize at h1 ⊢
  simp only [h, Bool.not_false, List.filter_cons_of_pos, List.filter_nil, List.flatMap_cons, List.flatMap_nil, List.append_nil,
    Prod.mk.injEq] at h1
  simp only [h, Bool.not_false, List.filter_cons_of_pos, List.flatMap_cons, List.map_append, List.sum_append, h1.1, h1.2]

theorem pastedCells_count (F B C : Nat) (l : List FragCell) : ((pastedCells F B C l).flatMap SCell.paras).length = l.length ∧
    charTotal ((pastedCells F B C l).flatMap SCell.paras) = (l.map fun c => c.chars.length).sum := by
  induction l generalizing F B C with
  | nil => exact ⟨rfl, rfl⟩
  | cons c l ih =>
    obtain ⟨i1, i2⟩ := ih (F + 1) (B + 1) (C + 1)
    simp only [pastedCells, List.flatMap_cons, List.length_append, i1, charTotal_append, i2, List.map_cons, List.sum_cons]
    simp [charTotal]; omega

/-- The loop. -/
theorem Laid.mixLoop {cur : Nat} (l : List MixItem) : (∀ fb, MixItem.para fb ∈ l → fb.IsText) →
    (∀ t, MixItem.table t ∈ l → t.void = false ∧ (∀ c ∈ t.cells, c.Simple) ∧ t.InOrder) →
    (∀ A fb t B, l = A ++ .para fb :: .table t :: B → fb.text ≠ []) →
    ∀ {s : Store} {d : Document} {items order : List SItem} {m : MixAt} {p : SPara}, Laid s d f items order → ListsOk s d (flowParas items) →
    GrouperOk s m.grouper → m.next = some s.text.idx.total → p ∈ topParas items → m.last = p.id → m.filled = !decide (p.text = []) →
    (p.id = cur ∨ p.text ≠ [] ∨ ∀ t l', l ≠ .table t :: l') → m.running = charsBefore (paras (flowParas items)) → Placed s (flowParas items) →
    ∃ s' d' new order' m', Store.mixLoop d.id f cur l m s = some (s', m', new.map SItem.entry) ∧
      d' = { d with frames := d'.frames, tables := d'.tables, lists := d'.lists } ∧ Laid s' d' f (items ++ new) order' ∧
      ListsOk s' d' (flowParas (items ++ new)) ∧ m'.next = some s'.text.idx.total ∧
      m'.running = charsBefore (paras (flowParas (items ++ new))) ∧ Placed s' (flowParas (items ++ new)) ∧ InTurn (ItemLike s') l new ∧
      (∀ i e, s.lists i = some e → s'.lists i = some e) ∧ (∀ i ∈ d.lists, i ∈ d'.lists) ∧
      (flowParas new).length = (mixBlocks l).length + (tablesSize (mixTables l)).1 ∧
      charTotal (flowParas new) = ((mixBlocks l).map fun fb => fb.state.len).sum + (tablesSize (mixTables l)).2 := by
  induction l with
  | nil =>
    intro _ _ _ s d items order m p h hl hg hnext hp hlast hfill hok hrun hpl
    exact ⟨s, d, [], order, m, rfl, rfl, by simpa using h, by simpa using hl, hnext, by simpa using hrun, by simpa using hpl, trivial,
      fun _ _ h => h, fun _ h => h, rfl, rfl⟩
  | cons x l ih =>
    intro htx htb hgap s d items order m p h hl hg hnext hp hlast hfill hok hrun hpl
    have htx' : ∀ fb, MixItem.para fb ∈ l → fb.IsText := fun fb hfb => htx fb (by simp [hfb])
    have htb' : ∀ t, MixItem.table t ∈ l → t.void = false ∧ (∀ c ∈ t.cells, c.Simple) ∧ t.InOrder := fun t ht => htb t (by simp [ht])
    have hgap' : ∀ A fb t B, l = A ++ .para fb :: .table t :: B → fb.text ≠ [] := fun A fb t B e => hgap (x :: A) fb t B (by rw [e]; rfl)
    cases x with
    | para fb =>
      have hfb := htx fb (by simp)
      obtain ⟨s1, d1, g, q, e1, hd1, h1, l1, g1, p1, mono1, old1, bq⟩ := h.mixBlock hl hg hfb hnext
      have hflow : flowParas (items ++ [.para q]) = flowParas items ++ [q] := by rw [flowParas_append]; rfl
      have hqt : q.text = fb.text := by rw [hfb.text, ← p1.chars]; rfl
      have hd1id : d1.id = d.id := by rw [hd1]
      obtain ⟨s', d', new, order', m', e2, hd2, h2, l2, n2, r2, p2, t2, mono2, ml2, c2, c3⟩ := ih htx' htb' hgap' h1 (by rw [hflow]; exact l1)
        (m := ⟨g, m.running + q.chars.length + 1, some s1.text.idx.total, q.id, !decide (q.text = [])⟩) g1 rfl
        (p := q) (mem_topParas.mpr (by simp)) rfl rfl (by
          by_cases hl0 : ∃ t l', l = .table t :: l'
          · obtain ⟨t, l', rfl⟩ := hl0
            exact .inr (.inl (by rw [hqt]; exact hgap [] fb t l' rfl))
          · exact .inr (.inr fun t l' e => hl0 ⟨t, l', e⟩)) (by
          rw [hflow, charsBefore_paras_append]; show m.running + (q.chars.length : Int) + 1 = _; rw [hrun]; push_cast; omega) (by
          rw [hflow]
          refine (hpl.keep old1).then ?_
          intro X y Y e
          obtain ⟨rfl, rfl, rfl⟩ : X = [] ∧ y = q ∧ Y = [] := by
            cases X with
            | nil => simp at e; exact ⟨rfl, e.1.symm, e.2⟩
            | cons z X => simp at e
          obtain ⟨b, b1, b2⟩ := bq
          exact ⟨b, b1, by rw [b2, hrun]; simp⟩)
      rw [hd1id] at e2
      refine ⟨s', d', .para q :: new, order', m', ?_, ?_, ?_, ?_, n2, ?_, ?_, ⟨p1.mono mono2, t2⟩,
        fun i e hi => mono2 i e (mono1 i e hi), ?_, ?_, ?_⟩
      · simp only [Store.mixLoop, e1, Option.bind_some, e2, Option.map_some]; rfl
      · rw [hd2, hd1]
      · simpa using h2
      · simpa using l2
      · simpa using r2
      · simpa using p2
      · intro i hi
        refine ml2 i (l1.only i ?_)
        obtain ⟨e, y1, _⟩ := hl.known i hi
        rw [mono1 i e y1]; rfl
      · rw [flowParas_para]
        simp only [List.length_cons, c2, mixBlocks, MixItem.block?, List.filterMap_cons, mixTables]; omega
      · rw [flowParas_para]
        have : charTotal (q :: flowParas new) = q.chars.length + charTotal (flowParas new) := by simp [charTotal]
        rw [this, c3]
        simp only [mixBlocks, MixItem.block?, List.filterMap_cons, mixTables, List.map_cons, List.sum_cons, state_len hfb, p1.chars]; omega
    | table t =>
      obtain ⟨hv, hsim, hord⟩ := htb t (by simp)
      have hok' : p.id = cur ∨ p.text ≠ [] := by
        rcases hok with hok | hok | hok
        · exact .inl hok
        · exact .inr hok
        · exact absurd rfl (hok t l)
      obtain ⟨s1, d1, e1, hd1, h1, ls1, nl1, old1, pos1⟩ := h.addTable (cur := cur) hv hsim hord hnext hp hlast hfill hok'
      have hT := pastedTable_like s t
      have hcnt := pastedCells_count (s.next "frame") (s.next "block") (s.next "table_cell") t.cells
      have hsh : ∀ q ∈ (pastedTable s t).cells.flatMap SCell.paras, q.shape = {} := by
        intro q hq
        obtain ⟨c, hc', hqc⟩ := List.mem_flatMap.mp hq
        obtain ⟨_, _, k, k1, _⟩ := pastedCells_mem hc'
        rw [k1] at hqc
        rw [List.mem_singleton.mp hqc]
      have hcnt' : ((pastedTable s t).cells.flatMap SCell.paras).length = t.cells.length ∧
        charTotal ((pastedTable s t).cells.flatMap SCell.paras) = (t.cells.map fun c => c.chars.length).sum := hcnt
      generalize pastedTable s t = T at *
      have hflow : flowParas (items ++ [.table T]) = flowParas items ++ T.cells.flatMap SCell.paras := by
        rw [flowParas_append, flowParas_table]; simp [flowParas]
      have htop : topParas (items ++ [.table T]) = topParas items := by
        rw [topParas_append, topParas_table]; simp [topParas]
      have hd1id : d1.id = d.id := by rw [hd1]
      obtain ⟨s', d', new, order', m', e2, hd2, h2, l2, n2, r2, p2, t2, mono2, ml2, c2, c3⟩ := ih htx' htb' hgap' h1 (by
          rw [hflow]
          exact hl.more ls1 nl1 (by rw [hd1]) (by
            intro q hq i hi
            rw [hsh q hq] at hi; simp at hi)) (m := { m with
          running := m.running + charsBefore (paras (T.cells.flatMap SCell.paras)), next := some s1.text.idx.total })
        (hg.mono (by rw [ls1]; exact fun _ _ h => h)) rfl
        (p := p) (by rw [htop]; exact hp) hlast hfill (by rcases hok' with hok | hok; exact .inl hok; exact .inr (.inl hok)) (by
          rw [hflow, charsBefore_paras_two]; show m.running + _ = _; rw [hrun]; push_cast; rfl) (by
          rw [hflow]
          refine (hpl.keep old1).then ?_
          intro X y Y e
          rw [← hrun]; exact pos1 X y Y e)
      rw [hd1id] at e2
      refine ⟨s', d', .table T :: new, order', m', ?_, ?_, ?_, ?_, n2, ?_, ?_, ⟨hT, t2⟩,
        fun i e hi => mono2 i e (by rw [ls1]; exact hi), ?_, ?_, ?_⟩
      · simp only [Store.mixLoop, e1, Option.bind_some, e2, Option.map_some]; rfl
      · rw [hd2, hd1]
      · simpa using h2
      · simpa using l2
      · simpa using r2
      · simpa using p2
      · intro i hi
        exact ml2 i (by rw [hd1]; exact hi)
      · rw [flowParas_table]
        simp only [List.length_append, c2, mixBlocks, MixItem.block?, List.filterMap_cons, mixTables, hcnt'.1, tablesSize_cons _ hv hsim]; omega
      · rw [flowParas_table, charTotal_append, c3, hcnt'.2]
        simp only [mixBlocks, MixItem.block?, List.filterMap_cons, mixTables, tablesSize_cons _ hv hsim]; omega

end Verif
