import Verif.Lemmas.TableFormat
import Verif.Lemmas.ListCommands
import Verif.Props.Formatting
/- What the steps of the list commands do to a document with tables. -/
namespace Verif
variable {s s' : Store} {d : Document} {f : Nat} {ps : List SPara} {p : SPara} {K : List Para} {ts : List Nat} {items : List SItem}
open Store

/-- A paragraph put into a list, or out of all, when it is the one with the id. -/
def listedAt (l : Option Nat) (i : Nat) (q : SPara) : SPara := if q.id = i then q.inList l else q

theorem listedAt_id (l : Option Nat) (i : Nat) (q : SPara) : (listedAt l i q).id = q.id := by
  unfold listedAt; split <;> rfl

theorem listedAt_chars (l : Option Nat) (i : Nat) (q : SPara) : (listedAt l i q).chars = q.chars := by
  unfold listedAt; split <;> rfl

/-- The stores differ in blocks only. -/
def OnlyBlocks (s s' : Store) : Prop := ∃ B, s' = { s with blocks := B }

theorem OnlyBlocks.refl (s : Store) : OnlyBlocks s s := ⟨s.blocks, rfl⟩

theorem OnlyBlocks.trans {s'' : Store} (h : OnlyBlocks s s') (h' : OnlyBlocks s' s'') : OnlyBlocks s s'' := by
  obtain ⟨B, rfl⟩ := h
  obtain ⟨B', rfl⟩ := h'
  exact ⟨B', rfl⟩

theorem Carries.setBlockList (h : Carries s K ps ts) (hp : p ∈ ps) (l : Option Nat) (hl : ∀ i, l = some i → (s.lists i).isSome) :
    ∃ s', s.setBlockList p.id l = some s' ∧ Carries s' K (ps.map (listedAt l p.id)) ts ∧ OnlyBlocks s s' ∧
      (∀ i, (s'.blocks i).map Block.documentPosition = (s.blocks i).map Block.documentPosition) := by
  have hst := h.stored hp
  have hall : (l.all fun i => (s.lists i).isSome) = true := by
    cases l with
    | none => rfl
    | some i => exact hl i rfl
  unfold Store.setBlockList
  rw [if_pos hall, hst]
  refine ⟨_, rfl, ?_, ⟨_, rfl⟩, ?_⟩
  · refine h.reshaped (listedAt_id _ _) (listedAt_chars _ _) rfl rfl rfl (fun _ => rfl) ?_ ?_
    · intro q hq
      simp only [IdMap.insert_get]
      by_cases e : q.id = p.id
      · have : q = p := h.unique hp hq e
        subst this
        rw [if_pos rfl]
        refine ⟨_, rfl, ?_⟩
        unfold listedAt
        rw [if_pos rfl]
        rfl
      · rw [if_neg e]
        unfold listedAt
        rw [if_neg e]
        exact h.block q hq
    · intro i hi
      simp only [IdMap.insert_get]
      rw [if_neg (by rintro rfl; exact hi (List.mem_map_of_mem hp))]
      exact h.absent hi
  · intro i
    simp only [IdMap.insert_get]
    by_cases e : i = p.id
    · subst e; rw [if_pos rfl, hst]; rfl
    · rw [if_neg e]

/-- What the loop of `create_list` makes of a paragraph, at its stored position. -/
def enlisted (s : Store) (lid : Nat) (lo hi : Int) (ids : List Nat) (p : SPara) : SPara :=
  if p.id ∈ ids ∧ takes lo hi (s.storedPos p) p.chars.length = true then p.inList (some lid) else p

theorem enlisted_id (lid : Nat) (lo hi : Int) (ids : List Nat) (p : SPara) : (enlisted s lid lo hi ids p).id = p.id := by
  unfold enlisted; split <;> rfl

theorem enlisted_chars (lid : Nat) (lo hi : Int) (ids : List Nat) (p : SPara) : (enlisted s lid lo hi ids p).chars = p.chars := by
  unfold enlisted; split <;> rfl

theorem Carries.assignList (lid : Nat) (lo hi : Int) (bs : List Block) :
    ∀ {s : Store} {ps : List SPara}, Carries s K ps ts → (s.lists lid).isSome → (bs.map Block.id).Nodup →
    (∀ x ∈ bs, ∃ p ∈ ps, x = p.entity (s.storedPos p)) →
    ∃ s', Store.assignList lid lo hi bs s = some s' ∧
      Carries s' K (ps.map (enlisted s lid lo hi (bs.map Block.id))) ts ∧ OnlyBlocks s s' ∧
      (∀ i, (s'.blocks i).map Block.documentPosition = (s.blocks i).map Block.documentPosition) := by
  induction bs with
  | nil =>
    intro s ps h _ _ _
    refine ⟨s, rfl, ?_, .refl s, fun _ => rfl⟩
    have : ps.map (enlisted s lid lo hi []) = ps := by
      conv => rhs; rw [← List.map_id ps]
      apply List.map_congr_left
      intro q _
      unfold enlisted
      rw [if_neg (by simp)]; rfl
    rw [List.map_nil, this]; exact h
  | cons x bs ih =>
    intro s ps h hlid hnd hx
    rw [List.map_cons, List.nodup_cons] at hnd
    obtain ⟨p, hp, hpx⟩ := hx x (by simp)
    have hxid : x.id = p.id := by rw [hpx]; rfl
    have hlen : p.text.length = p.chars.length := by simp [SPara.text]
    have hxp : x.documentPosition = s.storedPos p := by rw [hpx]; rfl
    rw [Store.assignList, hxid, h.charLength hp, Option.bind_some, hlen, hxp]
    by_cases ht : s.storedPos p + (p.chars.length : Int) ≥ lo ∧ s.storedPos p ≤ hi
    · rw [if_pos ht]
      obtain ⟨s1, e1, h1, ho, hpos⟩ := h.setBlockList hp (some lid) (by intro i e; cases e; exact hlid)
      rw [e1, Option.bind_some]
      have hsp : ∀ q : SPara, s1.storedPos q = s.storedPos q := by
        intro q; unfold Store.storedPos; rw [hpos]
      obtain ⟨s2, e2, h2, ho2, hpos2⟩ := ih h1 (by obtain ⟨B, rfl⟩ := ho; exact hlid) hnd.2 (by
        intro y hy
        obtain ⟨q, hq, hqy⟩ := hx y (by simp [hy])
        have hne : q.id ≠ p.id := by
          intro e
          apply hnd.1
          rw [hxid, ← e]
          exact List.mem_map.mpr ⟨y, hy, by rw [hqy]; rfl⟩
        refine ⟨q, List.mem_map.mpr ⟨q, hq, if_neg hne⟩, ?_⟩
        rw [hsp]; exact hqy)
      refine ⟨s2, e2, ?_, ho.trans ho2, fun i => (hpos2 i).trans (hpos i)⟩
      have : ps.map (enlisted s lid lo hi ((x :: bs).map Block.id)) =
          (ps.map (listedAt (some lid) p.id)).map (enlisted s1 lid lo hi (bs.map Block.id)) := by
        rw [List.map_map]
        apply List.map_congr_left
        intro q hq
        have hsq : s1.storedPos (listedAt (some lid) p.id q) = s.storedPos q := by
          rw [hsp]; unfold Store.storedPos; rw [listedAt_id]
        simp only [Function.comp_apply, enlisted, List.map_cons, List.mem_cons, listedAt_id, listedAt_chars, hsq]
        by_cases e : q.id = p.id
        · have : q = p := h.unique hp hq e
          subst this
          have hn : q.id ∉ bs.map Block.id := by rw [← hxid]; exact hnd.1
          have htk : takes lo hi (s.storedPos q) q.chars.length = true := decide_eq_true ht
          rw [if_pos ⟨.inl hxid.symm, htk⟩, if_neg (fun h => hn h.1)]
          unfold listedAt; rw [if_pos rfl]
        · have : q.id ≠ x.id := by rw [hxid]; exact e
          simp only [this, false_or]
          unfold listedAt; rw [if_neg e]
      rw [this]; exact h2
    · rw [if_neg ht]
      obtain ⟨s2, e2, h2, hrest⟩ := ih h hlid hnd.2 fun y hy => hx y (by simp [hy])
      refine ⟨s2, e2, ?_, hrest⟩
      have : ps.map (enlisted s lid lo hi ((x :: bs).map Block.id)) = ps.map (enlisted s lid lo hi (bs.map Block.id)) := by
        apply List.map_congr_left
        intro q hq
        simp only [enlisted, List.map_cons, List.mem_cons]
        by_cases e : q.id = p.id
        · have : q = p := h.unique hp hq e
          subst this
          have htk : takes lo hi (s.storedPos q) q.chars.length ≠ true := by
            intro k; exact ht (of_decide_eq_true k)
          rw [if_neg (fun h => htk h.2), if_neg (fun h => htk h.2)]
        · have : q.id ≠ x.id := by rw [hxid]; exact e
          simp only [this, false_or]
      rw [this]; exact h2

/-- Another table of lists and other list ids in the document do not change what is shown. -/
theorem Tabled.withLists (h : Tabled s d f items) (ls : List Nat) (hr : s'.rope = s.rope) (hro : s'.roots = s.roots)
    (hd : s'.documents d.id = some { d with lists := ls }) (hf : s'.frames = s.frames) (hb : s'.blocks = s.blocks)
    (hfr : s'.formatRuns = s.formatRuns) (him : s'.blockImages = s.blockImages)
    (ho : s'.blockOffsets = s.blockOffsets) (ht : s'.tables = s.tables) (hc : s'.tableCells = s.tableCells)
    (hn : ∀ k, k ≠ "list" → s'.next k = s.next k) :
    Tabled s' { d with lists := ls } f items := by
  have htx : s'.text = s.text := by unfold Store.text; rw [hr, ho]
  obtain ⟨K, hH, hsub⟩ := h.content
  refine { root := ?_, document := hd, content := ⟨K, ?_, hsub⟩, frame := ?_, table := ?_, frames := h.frames, distinct := h.distinct,
           onlyFrames := ?_, tables := h.tables, freshFrames := ?_, freshTables := ?_, freshCells := ?_, onlyTables := ?_,
           onlyCells := ?_, positive := h.positive, nonempty := h.nonempty, seated := ?_ }
  · rw [hro]; exact h.root
  · constructor
    · rw [htx]; exact hH.text
    · exact hH.perm
    · rw [hb]; exact hH.keys
    · rw [hb]; exact hH.block
    · rw [hfr]; exact hH.formats
    · rw [him]; exact hH.images
    · rw [hn _ (by decide)]; exact hH.fresh
    · rw [hn _ (by decide), hfr, him]; exact hH.clean
  · rw [hf]; exact h.frame
  · intro t htm
    have := h.table t htm
    have hid : ∀ t : STable, STable.on (fun q => q) t = t := by
      intro t; cases t; simp [STable.on]
    have := this.on (g := fun q => q) (fun _ => rfl) hf ht hc
    rw [hid] at this
    exact this
  · rw [hf]; exact h.onlyFrames
  · rw [hf, hn _ (by decide)]; exact h.freshFrames
  · rw [ht, hn _ (by decide)]; exact h.freshTables
  · rw [hc, hn _ (by decide)]; exact h.freshCells
  · rw [ht]; exact h.onlyTables
  · rw [hc]; exact h.onlyCells
  · intro hne n p hp
    rw [hb]; exact h.seated hne n p hp

/-- Creating a list entity in the document. -/
theorem Tabled.createListEntity (h : Tabled s d f items) (hl : ListsOk s d (flowParas items)) (style : ListStyle) :
    ∃ s', s.createListEntity { style := style } d.id (-1) = some (s.next "list", s') ∧
      Tabled s' { d with lists := d.lists ++ [s.next "list"] } f items ∧ s'.blocks = s.blocks ∧
      (∀ i, s'.lists i = if i = s.next "list" then some { id := s.next "list", style := style } else s.lists i) ∧
      s'.next "list" = s.next "list" + 1 ∧ s'.frames = s.frames ∧
      (∀ i e, s'.documents i = some e → i = d.id ∨ s.documents i = some e) := by
  have hn : (s.counters "list").getD 1 = s.next "list" := rfl
  unfold Store.createListEntity Store.insertNewList
  simp only [if_true, Option.bind_some, Store.nextId, hn]
  unfold Store.setDocLists Store.docLists
  simp only [h.document, Option.map_some, Option.getD_some]
  have hi : insertAtIndex d.lists (-1) (s.next "list") = d.lists ++ [s.next "list"] := by
    unfold insertAtIndex; rw [if_neg (by omega)]
  rw [hi, if_pos (by
    rw [List.all_eq_true]
    intro i hi
    simp only [IdMap.insert_get]
    split
    · rfl
    · rcases List.mem_append.mp hi with h1 | h1
      · obtain ⟨e, h2, _⟩ := hl.known i h1
        rw [h2]; rfl
      · rename_i hne; exact absurd (List.mem_singleton.mp h1) hne)]
  refine ⟨_, rfl, ?_, rfl, fun i => ?_, ?_, rfl, ?_⟩
  · refine h.withLists (d.lists ++ [s.next "list"]) rfl rfl ?_ rfl rfl rfl rfl rfl rfl rfl ?_
    · simp
    · intro k hk; simp [Store.next, hk]
  · simp
  · simp [Store.next]
  · intro i e he
    simp only [IdMap.insert_get] at he
    split at he
    · rename_i e'; exact .inl e'
    · exact .inr he

/-- The lists of the document are still in order when nothing about them changed but who is in which. -/
theorem ListsOk.same {qs : List SPara} (hl : ListsOk s d ps) (he : s'.lists = s.lists) (hn : s'.next "list" = s.next "list")
    (hq : ∀ q ∈ qs, ∀ l, q.shape.list = some l → l ∈ d.lists) : ListsOk s' d qs := by
  refine ⟨?_, ?_, hq, hl.nodup, ?_⟩
  · rw [he]; exact hl.known
  · rw [he]; exact hl.only
  · rw [he, hn]; exact hl.fresh

/-- Changing the lists some paragraphs are in. -/
theorem Tabled.enlist {g : SPara → SPara} (h : Tabled s d f items) (hid : ∀ q, (g q).id = q.id) (hch : ∀ q, (g q).chars = q.chars)
    (hH : Carries s K (flowParas items) ((tablesOf items).map fun t => t.table.id)) (hsub : (paras (topParas items)).Sublist K)
    (hH' : Carries s' K ((flowParas items).map g) ((tablesOf items).map fun t => t.table.id)) (ho : OnlyBlocks s s')
    (hpos : ∀ i, (s'.blocks i).map Block.documentPosition = (s.blocks i).map Block.documentPosition) :
    Tabled s' d f (items.map (SItem.on g)) := by
  have hpar : ∀ ps : List SPara, paras (ps.map g) = paras ps := by
    intro ps
    simp only [paras, List.map_map]
    apply List.map_congr_left
    intro q _
    simp only [Function.comp_apply, SPara.text, hid, hch]
  have hseat : tablesOf items ≠ [] → Seated s' ((flowParas items).map g) := by
    intro ht
    exact seated_of_placed (placed_of_blocks (placed_of_seated (h.seated ht)) (hpar _) hpos)
  obtain ⟨B, rfl⟩ := ho
  exact h.on hid hH' (by rw [hpar]; exact hsub) hseat h.document rfl rfl rfl rfl rfl rfl rfl fun _ => rfl

theorem top_in_flow (items : List SItem) : (topParas items).Sublist (flowParas items) := by
  induction items with
  | nil => exact .slnil
  | cons i items ih =>
    cases i with
    | para p => rw [topParas_para, flowParas_para]; exact ih.cons_cons _
    | table t => rw [topParas_table, flowParas_table]; exact ih.trans (List.sublist_append_right _ _)

/-- The blocks outside the tables. -/
theorem Tabled.main_blocks (h : Tabled s d f items) :
    (s.docFrames d.id).head? = some f ∧
    (s.getBlocks (s.frameBlocks f)).Perm ((topParas items).map fun p => p.entity (s.storedPos p)) := by
  obtain ⟨rest, h1, _⟩ := h.frames
  obtain ⟨fr, f1, f2, f3, f4, f5, f6, f7⟩ := h.frame
  obtain ⟨K, hH, hsub⟩ := h.content
  have hf : s.frameBlocks f = fr.blocks := by unfold Store.frameBlocks; rw [f1]; rfl
  constructor
  · unfold Store.docFrames; rw [h.document]
    show d.frames.head? = _
    rw [h1]; rfl
  · rw [hf, ← hH.getBlocks (topParas items) fun q hq => (top_in_flow items).subset hq]
    unfold Store.getBlocks
    exact f7.filterMap _

/-- `create_list` in a document with tables, wherever its stored positions are. -/
theorem Tabled.createList (h : Tabled s d f items) (hl : ListsOk s d (flowParas items)) (style : ListStyle) (x y : Int) :
    ∃ s' items', s.createList style x y = some (s', s.next "list", s.snapshot) ∧
      items' = items.map (SItem.on (enlisted s (s.next "list") (min x y) (max x y) ((topParas items).map SPara.id))) ∧
      Tabled s' { d with lists := d.lists ++ [s.next "list"] } f items' ∧
      ListsOk s' { d with lists := d.lists ++ [s.next "list"] } (flowParas items') ∧
      (∀ i, (s'.blocks i).map Block.documentPosition = (s.blocks i).map Block.documentPosition) ∧
      (∀ i, s'.lists i = if i = s.next "list" then some { id := s.next "list", style := style } else s.lists i) := by
  obtain ⟨s1, e1, h1, hb1, hl1, hn1, hf1, _⟩ := h.createListEntity hl style
  obtain ⟨hhead, hperm⟩ := h.main_blocks
  obtain ⟨K, hH1, hsub⟩ := h1.content
  have hsp : ∀ q : SPara, s1.storedPos q = s.storedPos q := by intro q; unfold Store.storedPos; rw [hb1]
  have hp2 := (sortByKey_perm Block.documentPosition (s.getBlocks (s.frameBlocks f))).trans hperm
  have hidp : ((sortByKey Block.documentPosition (s.getBlocks (s.frameBlocks f))).map Block.id).Perm ((topParas items).map SPara.id) := by
    refine (hp2.map Block.id).trans ?_
    rw [List.map_map]; exact .refl _
  obtain ⟨s2, e2, h2, ho, hpos⟩ := hH1.assignList (s.next "list") (min x y) (max x y)
    (sortByKey Block.documentPosition (s.getBlocks (s.frameBlocks f))) (by rw [hl1, if_pos rfl]; rfl)
    (by rw [hidp.nodup_iff]; exact ((top_in_flow items).map SPara.id).nodup hH1.ids_nodup) (by
      intro z hz
      obtain ⟨q, hq, rfl⟩ := List.mem_map.mp (hp2.mem_iff.mp hz)
      exact ⟨q, (top_in_flow items).subset hq, by rw [hsp]⟩)
  have hfun : enlisted s1 (s.next "list") (min x y) (max x y)
      ((sortByKey Block.documentPosition (s.getBlocks (s.frameBlocks f))).map Block.id) =
      enlisted s (s.next "list") (min x y) (max x y) ((topParas items).map SPara.id) := by
    funext q
    unfold enlisted
    simp only [hsp, hidp.mem_iff]
  rw [hfun] at h2
  refine ⟨s2, _, ?_, rfl, h1.enlist (enlisted_id _ _ _ _) (enlisted_chars _ _ _ _) hH1 hsub h2 ho hpos, ?_, ?_, ?_⟩
  · unfold Store.createList
    rw [h.docIdOf, Option.bind_some, h.document, Option.bind_some, hhead, Option.bind_some]
    dsimp only
    rw [e1, Option.bind_some]
    dsimp only
    rw [e2, Option.map_some]
  · have hfresh : s.lists (s.next "list") = none := by
      cases hs : s.lists (s.next "list") with
      | none => rfl
      | some v => exact absurd (hl.fresh _ (by rw [hs]; rfl)) (by omega)
    have hnew : s.next "list" ∉ d.lists := by
      intro hm
      obtain ⟨e, he, _⟩ := hl.known _ hm
      rw [hfresh] at he; cases he
    have hok1 : ListsOk s1 { d with lists := d.lists ++ [s.next "list"] } (flowParas items) := by
      constructor
      · intro l hm
        rcases List.mem_append.mp hm with hm1 | hm1
        · obtain ⟨e, he, hid⟩ := hl.known l hm1
          refine ⟨e, ?_, hid⟩
          rw [hl1, if_neg (by rintro rfl; exact hnew hm1), he]
        · rw [List.mem_singleton.mp hm1]
          exact ⟨_, by rw [hl1, if_pos rfl], rfl⟩
      · intro l hs
        rw [hl1] at hs
        split at hs
        · rename_i e; subst e; exact List.mem_append_right _ (by simp)
        · exact List.mem_append_left _ (hl.only l hs)
      · intro q hq l hql
        exact List.mem_append_left _ (hl.items q hq l hql)
      · refine List.nodup_append.mpr ⟨hl.nodup, by simp, ?_⟩
        intro a ha b hb e
        rw [List.mem_singleton.mp hb] at e
        subst e; exact hnew ha
      · intro l hs
        rw [hn1]
        rw [hl1] at hs
        split at hs
        · omega
        · have := hl.fresh l hs; omega
    obtain ⟨B, rfl⟩ := ho
    refine hok1.same rfl rfl ?_
    intro q hq l hql
    rw [flowParas_on] at hq
    obtain ⟨q0, hq0, rfl⟩ := List.mem_map.mp hq
    unfold enlisted at hql
    split at hql
    · cases hql; exact List.mem_append_right _ (by simp)
    · exact List.mem_append_left _ (hl.items q0 hq0 l hql)
  · intro i; rw [hpos, hb1]
  · obtain ⟨B, rfl⟩ := ho
    exact hl1

/-- `add_block_to_list`. -/
theorem Tabled.addBlockToList (h : Tabled s d f items) (hl : ListsOk s d (flowParas items)) (hp : p ∈ flowParas items) {l : Nat}
    (hm : l ∈ d.lists) :
    ∃ s', s.addBlockToList p.id l = some (s', s.snapshot) ∧ Tabled s' d f (items.map (SItem.on (listedAt (some l) p.id))) ∧
      ListsOk s' d (flowParas (items.map (SItem.on (listedAt (some l) p.id)))) ∧ s'.lists = s.lists ∧
      (∀ i, (s'.blocks i).map Block.documentPosition = (s.blocks i).map Block.documentPosition) := by
  obtain ⟨e, he, hid⟩ := hl.known l hm
  obtain ⟨K, hH, hsub⟩ := h.content
  obtain ⟨s1, e1, h1, ho, hpos⟩ := hH.setBlockList hp (some l) (by intro i e'; cases e'; rw [he]; rfl)
  refine ⟨s1, ?_, h.enlist (listedAt_id _ _) (listedAt_chars _ _) hH hsub h1 ho hpos, ?_, ?_, hpos⟩
  · unfold Store.addBlockToList
    rw [h.docIdOf, Option.bind_some, h.document, Option.bind_some, hH.stored hp, Option.bind_some, he, Option.bind_some,
      e1, Option.map_some]
  · obtain ⟨B, rfl⟩ := ho
    refine hl.same rfl rfl ?_
    intro q hq k hk
    rw [flowParas_on] at hq
    obtain ⟨q0, hq0, rfl⟩ := List.mem_map.mp hq
    unfold listedAt at hk
    split at hk
    · cases hk; exact hm
    · exact hl.items q0 hq0 k hk
  · obtain ⟨B, rfl⟩ := ho; rfl

/-- Some paragraph is in the list, as the code asks. -/
theorem Carries.any_listed (h : Carries s K ps ts) (l : Nat) :
    ((s.getBlocks s.blocks.keys).any fun x => decide (x.list = some l)) =
      ps.any fun p => decide (p.shape.list = some l) := by
  rw [Bool.eq_iff_iff, List.any_eq_true, List.any_eq_true]
  constructor
  · rintro ⟨x, hx, hxl⟩
    obtain ⟨i, hi, hxi⟩ := List.mem_filterMap.mp hx
    obtain ⟨p, hp, rfl⟩ := List.mem_map.mp (h.keys.mem_iff.mp hi)
    refine ⟨p, hp, ?_⟩
    rw [h.stored hp] at hxi
    cases hxi; exact hxl
  · rintro ⟨p, hp, hpl⟩
    refine ⟨p.entity (s.storedPos p), List.mem_filterMap.mpr ⟨p.id, ?_, h.stored hp⟩, hpl⟩
    exact h.keys.mem_iff.mpr (List.mem_map_of_mem hp)

/-- Removing a list no paragraph is in. -/
theorem Tabled.removeListEntity (h : Tabled s d f items) (hS : ∀ i, (s.documents i).isSome → i = d.id)
    (hl : ListsOk s d (flowParas items)) {l : Nat} (hm : l ∈ d.lists) (hno : ∀ p ∈ flowParas items, p.shape.list ≠ some l) :
    ∃ s', s.removeListEntity l = some s' ∧ Tabled s' { d with lists := d.lists.filter fun i => i ≠ l } f items ∧
      ListsOk s' { d with lists := d.lists.filter fun i => i ≠ l } (flowParas items) ∧
      (∀ i, s'.lists i = if i = l then none else s.lists i) ∧ (∀ i, s'.blocks i = s.blocks i) := by
  obtain ⟨e, he, hid⟩ := hl.known l hm
  obtain ⟨K, hH, hsub⟩ := h.content
  have hown : (s.documents.keys.filter fun d => (s.docLists d).contains l).map (fun d => (d, s.docLists d)) =
      [(d.id, d.lists)] := by
    have hk : s.documents.keys = [d.id] := by
      have h1 : d.id ∈ s.documents.keys := (s.documents.mem d.id).mpr (by rw [h.document]; rfl)
      have hkeys : ∀ i ∈ s.documents.keys, i = d.id := fun i hi => hS i ((s.documents.mem i).mp hi)
      have hnd := s.documents.nodup
      cases hks : s.documents.keys with
      | nil => rw [hks] at h1; simp at h1
      | cons a t =>
        rw [hks] at hnd hkeys
        have ha := hkeys a (by simp)
        cases t with
        | nil => rw [ha]
        | cons b t =>
          have hb := hkeys b (by simp)
          rw [List.nodup_cons] at hnd
          exact absurd (by rw [ha, hb]; simp) hnd.1
    have hdl : s.docLists d.id = d.lists := by simp [Store.docLists, h.document]
    rw [hk]
    simp [hdl, hm]
  unfold Store.removeListEntity
  rw [he]
  simp only [Option.isNone_some, Bool.false_eq_true, if_false, hown, Store.rewriteDocLists]
  have hdoc : (s.tableRemoveList l).documents d.id = some { d with lists := d.lists.filter fun i => i ≠ l } := by
    show (s.documents d.id).map _ = _
    rw [h.document]; rfl
  have hbl : (s.tableRemoveList l).blocks = s.blocks := by
    have hg : ∀ i, ((s.tableRemoveList l).blocks i) = s.blocks i := by
      intro i
      show (s.blocks i).map _ = _
      cases hi : s.blocks i with
      | none => rfl
      | some b =>
        have hin : i ∈ (flowParas items).map SPara.id := by
          apply Classical.byContradiction
          intro hn
          rw [hH.absent hn] at hi; cases hi
        obtain ⟨p, hp, rfl⟩ := List.mem_map.mp hin
        obtain ⟨b', g1, g2⟩ := hH.block p hp
        rw [hi] at g1
        cases g1
        have : b.list = p.shape.list := by rw [g2]
        rw [Option.map_some, if_neg (by rw [this]; exact hno p hp)]
    have hk : (s.tableRemoveList l).blocks.keys = s.blocks.keys := rfl
    generalize (s.tableRemoveList l).blocks = m at *
    cases m; cases hb2 : s.blocks
    rw [hb2] at hg hk
    simp only at hk
    congr 1
    funext i; exact hg i
  unfold Store.setDocLists
  rw [if_pos (by
    rw [List.all_eq_true]
    intro i hi
    obtain ⟨h1, h2⟩ := List.mem_filter.mp hi
    obtain ⟨e', he', _⟩ := hl.known i h1
    show ((s.lists.erase l) i).isSome
    simp only [IdMap.erase_get]
    rw [if_neg (by simpa using h2), he']; rfl), hdoc]
  refine ⟨_, rfl, ?_, ?_, fun i => ?_, fun i => ?_⟩
  · refine h.withLists _ rfl rfl ?_ rfl hbl rfl rfl rfl rfl rfl fun _ _ => rfl
    simp
  · constructor
    · intro k hk
      obtain ⟨h1, h2⟩ := List.mem_filter.mp hk
      obtain ⟨e', he', hid'⟩ := hl.known k h1
      refine ⟨e', ?_, hid'⟩
      show (s.lists.erase l) k = _
      simp only [IdMap.erase_get]
      rw [if_neg (by simpa using h2), he']
    · intro k hk
      have : ((s.lists.erase l) k).isSome := hk
      simp only [IdMap.erase_get] at this
      split at this
      · cases this
      · rename_i hne
        exact List.mem_filter.mpr ⟨hl.only k this, by simpa using hne⟩
    · intro q hq k hk
      refine List.mem_filter.mpr ⟨hl.items q hq k hk, ?_⟩
      simp only [decide_eq_true_eq]
      rintro rfl
      exact hno q hq hk
    · exact hl.nodup.filter _
    · intro k hk
      have : ((s.lists.erase l) k).isSome := hk
      simp only [IdMap.erase_get] at this
      split at this
      · cases this
      · exact hl.fresh k this
  · rfl
  · show (s.tableRemoveList l).blocks i = _
    rw [hbl]

/-- `remove_block_from_list`. -/
theorem Tabled.removeBlockFromList (h : Tabled s d f items) (hS : ∀ i, (s.documents i).isSome → i = d.id)
    (hl : ListsOk s d (flowParas items)) (hp : p ∈ flowParas items) {l : Nat} (hpl : p.shape.list = some l) :
    ∃ s', s.removeBlockFromList p.id = some (s', s.snapshot) ∧
      (∀ i, (s'.blocks i).map Block.documentPosition = (s.blocks i).map Block.documentPosition) ∧
      ((∃ q ∈ flowParas items, q.id ≠ p.id ∧ q.shape.list = some l) →
        Tabled s' d f (items.map (SItem.on (listedAt none p.id))) ∧
        ListsOk s' d (flowParas (items.map (SItem.on (listedAt none p.id)))) ∧ s'.lists = s.lists) ∧
      ((∀ q ∈ flowParas items, q.id ≠ p.id → q.shape.list ≠ some l) →
        Tabled s' { d with lists := d.lists.filter fun i => i ≠ l } f (items.map (SItem.on (listedAt none p.id))) ∧
        ListsOk s' { d with lists := d.lists.filter fun i => i ≠ l } (flowParas (items.map (SItem.on (listedAt none p.id)))) ∧
        ∀ i, s'.lists i = if i = l then none else s.lists i) := by
  obtain ⟨K, hH, hsub⟩ := h.content
  obtain ⟨s1, e1, h1, ho, hpos⟩ := hH.setBlockList hp none (by intro i e; cases e)
  have hF := h.enlist (listedAt_id _ _) (listedAt_chars _ _) hH hsub h1 ho hpos
  have hls : s1.lists = s.lists := by obtain ⟨B, rfl⟩ := ho; rfl
  have hds : s1.documents = s.documents := by obtain ⟨B, rfl⟩ := ho; rfl
  have hLk : ListsOk s1 d (flowParas (items.map (SItem.on (listedAt none p.id)))) := by
    refine hl.same hls (by obtain ⟨B, rfl⟩ := ho; rfl) ?_
    intro q hq k hk
    rw [flowParas_on] at hq
    obtain ⟨q0, hq0, rfl⟩ := List.mem_map.mp hq
    unfold listedAt at hk
    split at hk
    · cases hk
    · exact hl.items q0 hq0 k hk
  have hlist : (p.entity (s.storedPos p)).list = some l := hpl
  have hany : ((s1.getBlocks s1.blocks.keys).any fun x => decide (x.list = some l)) =
      (flowParas items).any fun q => decide (q.id ≠ p.id ∧ q.shape.list = some l) := by
    rw [h1.any_listed, List.any_map]
    congr 1
    funext q
    simp only [Function.comp_apply]
    by_cases e : q.id = p.id
    · have : listedAt none p.id q = q.inList none := if_pos e
      rw [this]; simp [SPara.inList, e]
    · have : listedAt none p.id q = q := if_neg e
      rw [this]; simp [e]
  have hstep : s.removeBlockFromList p.id =
      if ((flowParas items).any fun q => decide (q.id ≠ p.id ∧ q.shape.list = some l)) then some (s1, s.snapshot)
      else (s1.removeListEntity l).map fun t => (t, s.snapshot) := by
    unfold Store.removeBlockFromList
    rw [h.docIdOf, Option.bind_some, h.document, Option.bind_some, hH.stored hp, Option.bind_some, hlist, Option.bind_some,
      e1, Option.bind_some, hany]
  by_cases ha : ∃ q ∈ flowParas items, q.id ≠ p.id ∧ q.shape.list = some l
  · have : ((flowParas items).any fun q => decide (q.id ≠ p.id ∧ q.shape.list = some l)) = true := by
      rw [List.any_eq_true]
      obtain ⟨q, h1, h2⟩ := ha
      exact ⟨q, h1, decide_eq_true h2⟩
    rw [this, if_pos rfl] at hstep
    refine ⟨s1, hstep, hpos, fun _ => ⟨hF, hLk, hls⟩, ?_⟩
    intro hn
    obtain ⟨q, h1, h2, h3⟩ := ha
    exact absurd h3 (hn q h1 h2)
  · have : ((flowParas items).any fun q => decide (q.id ≠ p.id ∧ q.shape.list = some l)) = false := by
      rw [List.any_eq_false]
      intro q hq hd
      exact ha ⟨q, hq, of_decide_eq_true hd⟩
    rw [this] at hstep
    obtain ⟨s2, e2, h2, hL2, hl2, hb2⟩ := hF.removeListEntity (by rw [hds]; exact hS) hLk (hl.items p hp l hpl) (by
      intro q hq hql
      rw [flowParas_on] at hq
      obtain ⟨q0, hq0, rfl⟩ := List.mem_map.mp hq
      unfold listedAt at hql
      by_cases e : q0.id = p.id
      · rw [if_pos e] at hql; cases hql
      · rw [if_neg e] at hql; exact ha ⟨q0, hq0, e, hql⟩)
    rw [e2] at hstep
    refine ⟨s2, hstep, fun i => ?_, fun h => absurd h ha, fun _ => ⟨h2, hL2, ?_⟩⟩
    · rw [hb2]; exact hpos i
    · intro i; rw [hl2, hls]

end Verif
