import Verif.Lemmas.LaidLoop
import Verif.Lemmas.TableDelete
/-
The beginning of a paste of paragraphs mixed with tables: the order of the fragment, and the paragraph with the caret.
-/
namespace Verif
open Store
variable {s s' : Store} {d d' : Document} {f : Nat}

/-! ### The order of the fragment -/

theorem fragParas_append (A B : List MixItem) : fragParas (A ++ B) = fragParas A ++ fragParas B := by
  induction A with
  | nil => rfl
  | cons x A ih => cases x <;> simp [fragParas, ih]

theorem mem_fragParas {items : List MixItem} {fb : FragBlock} : fb ∈ fragParas items ↔ MixItem.para fb ∈ items := by
  induction items with
  | nil => simp [fragParas]
  | cons x A ih => cases x <;> simp [fragParas, ih]

theorem numbered_order (items : List MixItem) : ∀ n, (∀ A t B, items = A ++ .table t :: B → t.index = n + (fragParas A).length) →
    mixOrder (fragTables items) n (fragParas items) = items ∧ (∀ t ∈ fragTables items, n ≤ t.index) ∧
      (fragTables items).Pairwise fun x y => (x.index : Int) ≤ y.index := by
  induction items with
  | nil => intro n _; exact ⟨rfl, by simp [fragTables], .nil⟩
  | cons x l ih =>
    intro n h
    cases x with
    | para fb =>
      obtain ⟨i1, i2, i3⟩ := ih (n + 1) (by
        intro A t B e
        rw [h (.para fb :: A) t B (by rw [e]; rfl)]
        simp [fragParas]; omega)
      refine ⟨?_, fun t ht => by have := i2 t ht; omega, i3⟩
      simp only [fragTables, fragParas]
      cases hT : fragTables l with
      | nil =>
        rw [hT] at i1
        simp only [mixOrder] at i1 ⊢
        rw [List.map_cons, i1]
      | cons t ts =>
        rw [hT] at i1
        have ht := i2 t (by rw [hT]; simp)
        obtain ⟨k, hk⟩ : ∃ k, t.index - n = k + 1 := ⟨t.index - n - 1, by omega⟩
        have hk' : t.index - (n + 1) = k := by omega
        simp only [mixOrder, hk, hk', List.take_succ_cons, List.drop_succ_cons, List.map_cons, List.cons_append, List.length_cons] at i1 ⊢
        rw [show n + ((List.take k (fragParas l)).length + 1) = n + 1 + (List.take k (fragParas l)).length by omega, i1]
    | table t =>
      have ht := h [] t l rfl
      simp only [fragParas, List.length_nil, Nat.add_zero] at ht
      obtain ⟨i1, i2, i3⟩ := ih n (by
        intro A t' B e
        rw [h (.table t :: A) t' B (by rw [e]; rfl)]
        simp [fragParas])
      refine ⟨?_, ?_, ?_⟩
      · simp only [fragTables, fragParas, mixOrder, ht, Nat.sub_self, List.take_zero, List.drop_zero, List.map_nil, List.nil_append,
          List.length_nil, Nat.add_zero, i1]
      · intro x hx
        simp only [fragTables, List.mem_cons] at hx
        rcases hx with rfl | hx
        · omega
        · exact i2 x hx
      · simp only [fragTables, List.pairwise_cons]
        refine ⟨?_, i3⟩
        intro y hy
        have := i2 y hy
        omega

theorem mixItems_numbered {items : List MixItem} (h : Numbered items) : mixItems (fragParas items) (fragTables items) = items := by
  obtain ⟨h1, _, h3⟩ := numbered_order items 0 (by intro A t B e; rw [h A t B e]; omega)
  unfold mixItems
  rw [sortByKey_of_sorted _ h3, h1]

/-- The last paragraph of a fragment that ends with an inline one is still there behind the first. -/
theorem mix_last {items rest : List MixItem} {last : FragBlock} (hr : rest = items ∨ ∃ fb, items = .para fb :: rest)
    (h2 : 2 ≤ (fragParas items).length) (hl : (items.getLast?.map MixItem.inline).getD false = true)
    (hlast : (fragParas items).getLast? = some last) : ∃ mids, rest = mids ++ [.para last] ∧ last.inlineOnly = true := by
  cases hg : items.getLast? with
  | none => rw [hg] at hl; simp at hl
  | some x =>
    rw [hg] at hl
    obtain ⟨X, hX⟩ := List.getLast?_eq_some_iff.mp hg
    cases x with
    | table t => simp [MixItem.inline] at hl
    | para fb =>
      have hfb : fb.inlineOnly = true := by simpa [MixItem.inline] using hl
      have e : fb = last := by
        rw [hX, fragParas_append] at hlast
        simpa [fragParas] using hlast
      subst e
      rcases hr with rfl | ⟨y, hy⟩
      · exact ⟨X, hX, hfb⟩
      · cases X with
        | nil => rw [hX] at h2; simp [fragParas] at h2
        | cons z X =>
          rw [hX, List.cons_append, List.cons.injEq] at hy
          exact ⟨X, hy.2.symm, hfb⟩

/-! ### The paragraph with the caret -/

theorem topParas_map (ps : List SPara) : topParas (ps.map SItem.para) = ps := by
  have := topParas_trailing (P := ps) (T := []); simpa using this

theorem flowParas_map (ps : List SPara) : flowParas (ps.map SItem.para) = ps := by
  have := flowParas_trailing (P := ps) (T := []); simpa using this

theorem tablesOf_paras (ps : List SPara) : tablesOf (ps.map SItem.para) = [] := by
  have := tablesOf_trailing (P := ps) (T := []); simpa using this

/-- The text of paragraphs only. -/
theorem Laid.text_paras {ps : List SPara} {order : List SItem} (h : Laid s d f (ps.map SItem.para) order) : Carries s (paras ps) ps [] := by
  obtain ⟨L, h1, h2⟩ := h.content
  rw [flowParas_map, tablesOf_paras] at h1
  rw [topParas_map] at h2
  have : paras ps = L := h2.eq_of_length (by have := h1.perm.length_eq; simpa using this.symm)
  rw [this]; exact h1

/-- The last paragraph gets other characters and another paragraph format. -/
theorem Laid.set {P : List SPara} {p : SPara} {order : List SItem} (h : Laid s d f ((P ++ [p]).map SItem.para) order) {blk : Block}
    {cs : List SChar} {shape : Block} {runs : List (Run CharFormat)} (hb : IsBlock ⟨p.id, cs, shape⟩ blk) (hst : StyledOk runs cs) :
    ∃ st', ropeHeadText ((s.putBlock blk).writeState p.id runs []).text p.id (cs.map Prod.fst) = some (st', some st'.idx.total) ∧
      blockCharLength st' p.id = some cs.length ∧
      Laid (((s.putBlock blk).writeState p.id runs []).withText st') d f ((P ++ [(⟨p.id, cs, shape⟩ : SPara)]).map SItem.para) order := by
  have hC := h.text_paras
  have hid : blk.id = p.id := by rw [hb]
  have hrep : Repr s.text (paras P ++ (.block p.id, p.text) :: []) := by
    have := hC.text
    rw [paras_append, paras_cons] at this
    exact this
  obtain ⟨st', t1, t2⟩ := ropeHeadText_repr hrep (by simp [span]) (cs.map Prod.fst)
  have htot : st'.idx.total = span (paras P) + utf8Len (cs.map Prod.fst) := by rw [t2.focus.total]; simp
  refine ⟨st', by rw [htot]; exact t1, ?_, ?_⟩
  · have := blockCharLength_repr t2 (id := p.id) (c := cs.map Prod.fst) (by simp)
    simpa using this
  obtain ⟨fr, g1, g2, g3, g4, g5, g6, g7⟩ := h.main
  rw [topParas_map] at g7
  have hmap : (P ++ [(⟨p.id, cs, shape⟩ : SPara)]).map SPara.id = (P ++ [p]).map SPara.id := by simp
  have hnd : ((P ++ [p]).map SPara.id).Nodup := hC.keys.nodup_iff.mp s.blocks.nodup
  have hmem : ∀ q ∈ P ++ [(⟨p.id, cs, shape⟩ : SPara)], q = ⟨p.id, cs, shape⟩ ∨ (q.id ≠ p.id ∧ q ∈ P ++ [p]) := by
    intro q hq
    rw [List.map_append, List.nodup_append] at hnd
    rcases List.mem_append.mp hq with hq | hq
    · exact .inr ⟨hnd.2.2 _ (List.mem_map_of_mem hq) _ (by simp), by simp [hq]⟩
    · exact .inl (List.mem_singleton.mp hq)
  generalize hs2 : ((s.putBlock blk).writeState p.id runs []).withText st' = s2
  have h2b : ∀ i, s2.blocks i = if i = p.id then some blk else s.blocks i := by
    intro i; subst hs2; simp [Store.writeState, Store.putBlock, Store.withText, hid]
  have h2k : s2.blocks.keys = s.blocks.keys := by
    obtain ⟨x, hx, _⟩ := hC.block p (by simp)
    have : s.blocks p.id = some x := hx
    subst hs2
    simp [Store.writeState, Store.putBlock, Store.withText, IdMap.insert, hid, this]
  have h2r : (s2.formatRuns p.id).getD [] = runs := by
    subst hs2
    simp only [Store.writeState, Store.putBlock, Store.withText]
    by_cases hr : runs = []
    · rw [if_pos hr, hr]; simp
    · rw [if_neg hr]; simp
  have h2i : (s2.blockImages p.id).getD [] = [] := by
    subst hs2
    simp [Store.writeState, Store.putBlock, Store.withText]
  have h3 : ∀ i, i ≠ p.id → s2.formatRuns i = s.formatRuns i ∧ s2.blockImages i = s.blockImages i := by
    intro i hi
    subst hs2
    simp only [Store.writeState, Store.putBlock, Store.withText, if_true]
    refine ⟨?_, by simp [hi]⟩
    by_cases hr : runs = []
    · rw [if_pos hr]; simp [hi]
    · rw [if_neg hr]; simp [hi]
  have hrest : s2.roots = s.roots ∧ s2.documents = s.documents ∧ s2.frames = s.frames ∧ s2.tables = s.tables ∧ s2.tableCells = s.tableCells ∧
      s2.counters = s.counters ∧ s2.text = st' := by
    subst hs2; exact ⟨rfl, rfl, rfl, rfl, rfl, rfl, rfl⟩
  have hnx : ∀ k, s2.next k = s.next k := by intro k; unfold Store.next; rw [hrest.2.2.2.2.2.1]
  refine h.change (bs := fr.blocks) g1 hrest.1 (by rw [hrest.2.1]; exact h.document) rfl rfl rfl
    ⟨paras (P ++ [⟨p.id, cs, shape⟩]), ?_, ?_⟩ ?_ ?_ (fun g _ => by rw [hrest.2.2.1]) hrest.2.2.2.1 hrest.2.2.2.2.1 (hnx _) (hnx _) (hnx _)
    (by rw [tablesOf_paras, tablesOf_paras]) (by rw [tablesOf_paras, h.same, tablesOf_paras]) ?_ (by rw [topParas_map]; simp)
  · rw [flowParas_map, tablesOf_paras]
    constructor
    · rw [hrest.2.2.2.2.2.2, paras_append, paras_cons]
      exact t2
    · simp
    · rw [h2k, hmap]; exact hC.keys
    · intro q hq
      rw [h2b]
      rcases hmem q hq with rfl | ⟨hne, hq⟩
      · exact ⟨blk, if_pos rfl, hb⟩
      · rw [if_neg hne]; exact hC.block q hq
    · intro q hq
      rcases hmem q hq with rfl | ⟨hne, hq⟩
      · rw [h2r]; exact hst
      · rw [(h3 _ hne).1]; exact hC.formats q hq
    · intro q hq
      rcases hmem q hq with rfl | ⟨hne, hq⟩
      · exact h2i
      · rw [(h3 _ hne).2]; exact hC.images q hq
    · intro q hq
      rw [hnx]
      rcases hmem q hq with rfl | ⟨hne, hq⟩
      · exact hC.fresh p (by simp)
      · exact hC.fresh q hq
    · intro i hi
      rw [hnx] at hi
      have := hC.fresh p (by simp)
      rw [(h3 i (by omega)).1, (h3 i (by omega)).2]
      exact hC.clean i hi
  · rw [topParas_map]; exact List.Sublist.refl _
  · rw [hrest.2.2.1, g1, ← g6]
  · rw [topParas_map, hmap]; exact g7
  · intro q hq
    rw [flowParas_map] at hq
    have hpos := h.arranged.positive
    rw [flowParas_map] at hpos
    rcases hmem q hq with rfl | ⟨hne, hq⟩
    · exact hpos p (by simp)
    · exact hpos q hq

end Verif
