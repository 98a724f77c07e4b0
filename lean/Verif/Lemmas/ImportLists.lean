import Verif.Lemmas.ImportWrite
import Verif.Spec.ListCommands
import Verif.Props.Lists
/- The lists of imported paragraphs. -/
namespace Verif
variable {s s' : Store} {d : Document} {L : List Para} {ps : List SPara} {ts : List Nat} {p : SPara} {past : Imported}
open Store

/-- A new list at the end of the document. -/
theorem createList_new {l : TList} (hd : s.documents d.id = some d) (h0 : l.id = 0)
    (hall : ∀ i ∈ d.lists, (s.lists i).isSome) :
    s.createListEntity l d.id (-1) = some (s.next "list", { s with
      counters := (s.nextId "list").2.counters
      lists := s.lists.insert (s.next "list") { l with id := s.next "list" }
      documents := s.documents.insert d.id { d with lists := d.lists ++ [s.next "list"] } }) := by
  unfold Store.createListEntity Store.insertNewList
  rw [if_pos h0]
  simp only [Option.bind_some]
  have e1 : (s.nextId "list").1 = s.next "list" := rfl
  have hdf : Store.docLists { (s.nextId "list").2 with
      lists := (s.nextId "list").2.lists.insert (s.nextId "list").1
        { l with id := (s.nextId "list").1 } } d.id = d.lists := by
    simp [Store.docLists, Store.nextId, hd]
  rw [hdf, insertAtIndex_end, e1]
  unfold Store.setDocLists
  rw [if_pos]
  · simp only [Store.nextId, hd, Option.map_some]
  · rw [List.all_eq_true]
    intro i hi
    simp only [Store.nextId, IdMap.insert_get]
    split
    · rfl
    · rename_i hne
      rcases List.mem_append.mp hi with hi | hi
      · exact hall i hi
      · simp only [List.mem_singleton] at hi; exact absurd hi hne

/-- The lists met so far are stored with their style and indent. -/
def PastLists (s : Store) (past : Imported) : Prop :=
  ∀ i id st, some (i, id, st) ∈ past → s.lists id = some { id := id, style := st, indent := (i : Int) }

theorem openList_mem {i id : Nat} {st : ListStyle} : ∀ {past : Imported}, openList i past = some (id, st) →
    some (i, id, st) ∈ past
  | [], h => by simp [openList] at h
  | none :: _, h => by simp [openList] at h
  | some (j, l, t) :: past, h => by
    unfold openList at h
    split at h
    · rename_i e; cases h; subst e; simp
    · split at h
      · cases h
      · exact List.mem_cons_of_mem _ (openList_mem h)

/-- Lists only grow. -/
def ListsGrow (s s' : Store) : Prop := ∀ l e, s.lists l = some e → s'.lists l = some e

theorem PastLists.grow (h : PastLists s past) (hg : ListsGrow s s') : PastLists s' past := fun i id st hm => hg _ _ (h i id st hm)

theorem PastLists.none (h : PastLists s past) : PastLists s (none :: past) := by
  intro i id st hm
  rcases List.mem_cons.mp hm with e | hm
  · cases e
  · exact h i id st hm

theorem ListsOk.snoc {p : SPara} (h : ListsOk s d ps) (hp : ∀ l, p.shape.list = some l → l ∈ d.lists) : ListsOk s d (ps ++ [p]) := by
  refine ⟨h.known, h.only, ?_, h.nodup, h.fresh⟩
  intro q hq
  rcases List.mem_append.mp hq with hq | hq
  · exact h.items q hq
  · simp only [List.mem_singleton] at hq; subst hq; exact hp

/-- What choosing the list of a paragraph changes. -/
structure ListChosen (s s' : Store) (d : Document) (l : Option Nat) : Prop where
  documents : ∀ i, s'.documents i = if i = d.id then
    some { d with lists := d.lists ++ if l = some (s.next "list") then [s.next "list"] else [] } else s.documents i
  frames : s'.frames = s.frames
  tables : s'.tables = s.tables
  tableCells : s'.tableCells = s.tableCells
  roots : s'.roots = s.roots
  next : ∀ k, k ≠ "list" → s'.next k = s.next k
  nextList : s'.next "list" = if l = some (s.next "list") then s.next "list" + 1 else s.next "list"
  blocks : ∀ i, (s'.blocks i).isSome = (s.blocks i).isSome

theorem joinList_spec (h : Penned s L (ps ++ [p]) ts) (hd : s.documents d.id = some d) (hl : ListsOk s d ps)
    (hp : p.shape.list = none) {g : ListGrouper} (hg : GrouperKnows g past) (hpast : PastLists s past) (b : ParsedBlock)
    {c : Option Nat} (hc : listChoice past (s.next "list") b = c) :
    ∃ g' s', s.joinList d.id p.id g b.listStyle b.listIndent = some (g', s') ∧
      Penned s' L (ps ++ [{ p with shape := { p.shape with list := c } }]) ts ∧
      GrouperKnows g' (pastAfter past b c) ∧ PastLists s' (pastAfter past b c) ∧ ListsGrow s s' ∧ ListChosen s s' d c ∧
      ListsOk s' { d with lists := d.lists ++ if c = some (s.next "list") then [s.next "list"] else [] }
        (ps ++ [{ p with shape := { p.shape with list := c } }]) := by
  have hnew : s.lists (s.next "list") = none := by
    cases e : s.lists (s.next "list") with
    | none => rfl
    | some x => have := hl.fresh _ (by rw [e]; rfl); omega
  have hall : ∀ i ∈ d.lists, (s.lists i).isSome := by
    intro i hi; obtain ⟨e, he, _⟩ := hl.known i hi; rw [he]; rfl
  unfold Store.joinList pastAfter
  unfold listChoice at hc
  cases hst : b.listStyle with
  | none =>
    rw [hst] at hc; simp only [Option.map_none] at hc; subst hc
    refine ⟨_, _, rfl, ?_, fun _ => rfl, hpast.none, fun _ _ h => h, ⟨?_, rfl, rfl, rfl, rfl, fun _ _ => rfl, by simp, fun _ => rfl⟩, ?_⟩
    · have : ({ p with shape := { p.shape with list := none } } : SPara) = p := by
        obtain ⟨i, c, sh⟩ := p
        obtain ⟨x1, x2, x3, x4, x5, x6, x7, x8, x9, x10, x11, x12⟩ := sh
        simp only at hp; subst hp; rfl
      rw [this]; exact h
    · intro i
      split
      · rename_i e; subst e; simpa using hd
      · rfl
    · simp only [reduceCtorEq, if_false, List.append_nil]
      exact hl.snoc (by intro l e; cases e)
  | some style =>
    rw [hst] at hc; simp only [Option.map_some] at hc
    obtain ⟨k1, k2⟩ := step_item hg style b.listIndent (s.next "list")
    unfold ListGrouper.step at k1 k2
    dsimp only at k1 k2 ⊢
    cases ht : g.tryReuse style b.listIndent with
    | mk g1 found =>
      rw [ht] at k1 k2
      cases found with
      | some lid =>
        dsimp only at k1 k2 ⊢
        simp only [Option.some.injEq] at k1
        rw [← k1] at k2 hc
        subst hc
        -- the open list
        have hin : some (b.listIndent, lid, style) ∈ past := by
          rw [tryReuse_eq, hg b.listIndent] at ht
          cases ho : openList b.listIndent past with
          | none => rw [ho] at ht; simp at ht
          | some q =>
            obtain ⟨id, st⟩ := q
            rw [ho] at ht
            simp only [Prod.mk.injEq, Option.bind_some] at ht
            obtain ⟨_, ht⟩ := ht
            by_cases e : st = style
            · rw [if_pos e] at ht
              cases ht
              subst e
              exact openList_mem ho
            · rw [if_neg e] at ht; cases ht
        have hlid := hpast _ _ _ hin
        have hne : lid ≠ s.next "list" := by
          intro e; rw [e, hnew] at hlid; cases hlid
        obtain ⟨s1, e1, h1, c, hcc, rfl⟩ := h.setList (l := lid) (by rw [hlid]; rfl)
        rw [e1]
        refine ⟨_, _, rfl, h1, k2, ?_, fun _ _ h => h, ?_, ?_⟩
        · intro i id st hm
          rcases List.mem_cons.mp hm with e | hm
          · cases e; exact hlid
          · exact hpast _ _ _ hm
        · refine ⟨?_, rfl, rfl, rfl, rfl, fun _ _ => rfl, by simp [hne]; rfl, ?_⟩
          · intro i
            split
            · rename_i e; subst e; simpa [hne] using hd
            · rfl
          · intro i
            simp only [IdMap.insert_get]
            split
            · rename_i e; subst e; rw [hcc]; rfl
            · rfl
        · simp only [Option.some.injEq, hne, if_false, List.append_nil]
          have := ListsOk.snoc (p := { p with shape := { p.shape with list := some lid } }) hl
            (by intro l e; cases e; exact hl.only _ (by rw [hlid]; rfl))
          exact ⟨this.known, this.only, this.items, this.nodup, this.fresh⟩
      | none =>
        dsimp only at k1 k2 ⊢
        simp only [Option.some.injEq] at k1
        rw [← k1] at k2 hc
        subst hc
        rw [createList_new hd rfl hall, Option.bind_some]
        dsimp only
        generalize hs1 : ({ s with
          counters := (s.nextId "list").2.counters
          lists := s.lists.insert (s.next "list")
            { ({ style := style, indent := (b.listIndent : Int) } : TList) with id := s.next "list" }
          documents := s.documents.insert d.id { d with lists := d.lists ++ [s.next "list"] } } : Store) = s1
        have hn2 : ∀ k, k ≠ "list" → s1.next k = s.next k := by
          intro k hk; rw [← hs1]; exact next_other (a := "list") (b := k) (Ne.symm hk) s
        have hnl : s1.next "list" = s.next "list" + 1 := by rw [← hs1]; exact next_self "list" s
        have hls : ∀ i, s1.lists i = if i = s.next "list" then
            some { id := s.next "list", style := style, indent := (b.listIndent : Int) } else s.lists i := by
          intro i; rw [← hs1]; simp only [IdMap.insert_get]
        have hb1 : s1.blocks = s.blocks := by rw [← hs1]
        have h1 : Penned s1 L (ps ++ [p]) ts :=
          h.of_same (by rw [← hs1]; rfl) hb1 (by rw [← hs1]) (by rw [← hs1]) (hn2 _ (by decide))
            (by rw [hn2 _ (by decide)]; omega)
        obtain ⟨s2, e2, h2, c, hcc, rfl⟩ := h1.setList (l := s.next "list") (by rw [hls, if_pos rfl]; rfl)
        rw [e2]
        have hgrow : ListsGrow s s1 := by
          intro l e he
          rw [hls, if_neg]
          · exact he
          · intro e'; rw [e', hnew] at he; cases he
        refine ⟨_, _, rfl, h2, k2, ?_, hgrow, ?_, ?_⟩
        · intro i id st hm
          rcases List.mem_cons.mp hm with e | hm
          · cases e
            show s1.lists _ = _
            rw [hls, if_pos rfl]
          · exact hgrow _ _ (hpast _ _ _ hm)
        · refine ⟨?_, by rw [← hs1], by rw [← hs1], by rw [← hs1], by rw [← hs1], fun k hk => hn2 k hk, ?_, ?_⟩
          · intro i
            show s1.documents i = _
            rw [← hs1]
            simp only [IdMap.insert_get, if_true]
          · simp only [if_true]; exact hnl
          · intro i
            simp only [IdMap.insert_get]
            split
            · rename_i e; subst e; rw [← hb1, hcc]; rfl
            · rw [hb1]
        · simp only [if_true]
          refine ⟨?_, ?_, ?_, ?_, ?_⟩
          · intro l hm
            rcases List.mem_append.mp hm with hm | hm
            · obtain ⟨e, he, hid⟩ := hl.known l hm
              exact ⟨e, hgrow _ _ he, hid⟩
            · simp only [List.mem_singleton] at hm
              subst hm
              exact ⟨_, by show s1.lists _ = _; rw [hls, if_pos rfl], rfl⟩
          · intro l hm
            have hm' : (s1.lists l).isSome := hm
            rw [hls] at hm'
            split at hm'
            · rename_i e; simp [e]
            · exact List.mem_append_left _ (hl.only l hm')
          · intro q hq l e
            rcases List.mem_append.mp hq with hq | hq
            · exact List.mem_append_left _ (hl.items q hq l e)
            · simp only [List.mem_singleton] at hq
              subst hq
              cases e
              simp
          · show (d.lists ++ [s.next "list"]).Nodup
            rw [List.nodup_append]
            refine ⟨hl.nodup, by simp, ?_⟩
            intro x hx y hy e
            simp only [List.mem_singleton] at hy
            subst hy; subst e
            have := hall _ hx
            rw [hnew] at this; cases this
          · intro l hm
            have hm' : (s1.lists l).isSome := hm
            show l < s1.next "list"
            rw [hnl]
            rw [hls] at hm'
            split at hm'
            · omega
            · have := hl.fresh l hm'; omega

end Verif
