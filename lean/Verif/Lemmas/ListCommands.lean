import Verif.Lemmas.BlockFormat
import Verif.Lemmas.Sole
import Verif.Model.ListCommands
import Verif.Spec.ListCommands
/- What the steps of the list commands do to a document. -/
namespace Verif
variable {s s' : Store} {d : Document} {f : Nat} {ps L R : List SPara} {p : SPara}
open Store

/-- Being an item of a list. -/
def putList (l : Option Nat) (b : Block) : Block := { b with list := l }

theorem Shows.setBlockList (h : Shows s d ps) (hp : p ∈ ps) (l : Option Nat) (hl : ∀ i, l = some i → (s.lists i).isSome) :
    ∃ s', s.setBlockList p.id l = some s' ∧ Shows s' d (reshapeIn (putList l) p.id ps) ∧
      (∀ i, (s'.blocks i).map Block.documentPosition = (s.blocks i).map Block.documentPosition) ∧
      s'.counters = s.counters ∧ s'.text = s.text ∧ SameShell s s' ∧ s'.documents = s.documents ∧
      (Sole d.id f s → Sole d.id f s') := by
  have hst := h.stored hp
  have hall : (l.all fun i => (s.lists i).isSome) = true := by
    cases l with
    | none => rfl
    | some i => exact hl i rfl
  unfold Store.setBlockList
  rw [if_pos hall, hst]
  refine ⟨_, rfl, ?_, ?_, rfl, rfl, ⟨rfl, rfl, rfl, rfl, rfl, rfl⟩, rfl, ?_⟩
  · have hmem : ∀ q ∈ reshapeIn (putList l) p.id ps,
        q = { p with shape := putList l p.shape } ∨ (q ∈ ps ∧ q.id ≠ p.id) := by
      intro q hq
      obtain ⟨q0, hq0, rfl⟩ := List.mem_map.mp hq
      by_cases e : q0.id = p.id
      · have : q0 = p := h.unique hp hq0 e
        subst this; left; rw [if_pos rfl]
      · right; rw [if_neg e]; exact ⟨hq0, e⟩
    constructor
    · exact h.root
    · exact h.document
    · rw [reshapeIn_paras]; exact h.text
    · rw [reshapeIn_ids]
      show (s.blocks.insert _ _).keys.Perm _
      simp only [IdMap.insert, hst, Option.isSome_some, if_true]
      exact h.keys
    · intro q hq
      rcases hmem q hq with rfl | ⟨hq1, hne⟩
      · refine ⟨{ p.entity (s.storedPos p) with list := l }, ?_, rfl⟩
        show (s.blocks.insert _ _).get p.id = _
        simp only [IdMap.insert, if_true]
      · obtain ⟨b', h1, h2⟩ := h.block q hq1
        refine ⟨b', ?_, h2⟩
        show (s.blocks.insert _ _).get q.id = some b'
        simp only [IdMap.insert, hne, if_false, h1]
    · intro i hi
      rw [reshapeIn_ids] at hi
      show (s.blocks.insert _ _).get i = none
      have : i ≠ p.id := by
        rintro rfl; exact hi (List.mem_map_of_mem hp)
      simp only [IdMap.insert, this, if_false]
      exact h.absent i hi
    · intro q hq
      rcases hmem q hq with rfl | ⟨hq1, hne⟩
      · exact h.formats p hp
      · exact h.formats q hq1
    · intro q hq
      rcases hmem q hq with rfl | ⟨hq1, hne⟩
      · exact h.images p hp
      · exact h.images q hq1
    · intro q hq
      rcases hmem q hq with rfl | ⟨hq1, hne⟩
      · exact h.fresh p hp
      · exact h.fresh q hq1
  · intro i
    show ((s.blocks.insert _ _).get i).map _ = _
    simp only [IdMap.insert]
    by_cases e : i = p.id
    · subst e; rw [if_pos rfl, hst]; rfl
    · rw [if_neg e]
  · intro hS
    refine ⟨?_, hS.docs, hS.frames, ?_, ?_, hS.cells⟩
    · intro i b hb
      simp only [IdMap.insert_get] at hb
      split at hb
      · rename_i e; subst e; cases hb; rfl
      · exact hS.block i b hb
    · intro i hi
      have := hS.runs i hi
      simp only [IdMap.insert_get]
      split <;> simp [this]
    · intro i hi
      have := hS.images i hi
      simp only [IdMap.insert_get]
      split <;> simp [this]

/-- The stretch `[lo, hi]` reaches the paragraph, as the code tests it on the stored position. -/
def takes (lo hi pos : Int) (len : Nat) : Bool := decide (pos + len ≥ lo ∧ pos ≤ hi)

theorem Shows.assignList (lid : Nat) (lo hi : Int) (bs : List Block) :
    ∀ {s : Store} {ps : List SPara}, Shows s d ps → (s.lists lid).isSome → (bs.map Block.id).Nodup →
    (∀ x ∈ bs, ∃ p ∈ ps, x = p.entity (s.storedPos p)) →
    ∃ s', Store.assignList lid lo hi bs s = some s' ∧
      Shows s' d (ps.map fun p => if p.id ∈ bs.map Block.id ∧ takes lo hi (s.storedPos p) p.chars.length = true then
        p.inList (some lid) else p) ∧
      (∀ i, (s'.blocks i).map Block.documentPosition = (s.blocks i).map Block.documentPosition) ∧
      s'.counters = s.counters ∧ s'.text = s.text ∧ SameShell s s' ∧ s'.documents = s.documents ∧
      (Sole d.id f s → Sole d.id f s') := by
  induction bs with
  | nil =>
    intro s ps h _ _ _
    refine ⟨s, rfl, ?_, fun _ => rfl, rfl, rfl, .refl s, rfl, id⟩
    simpa using h
  | cons x bs ih =>
    intro s ps h hlid hnd hx
    rw [List.map_cons, List.nodup_cons] at hnd
    obtain ⟨p, hp, hpx⟩ := hx x (by simp)
    have hxid : x.id = p.id := by rw [hpx]; rfl
    have hlen : p.text.length = p.chars.length := by simp [SPara.text]
    have hxp : x.documentPosition = s.storedPos p := by rw [hpx]; rfl
    rw [Store.assignList, hxid, h.charLength hp, Option.bind_some, hlen, hxp]
    by_cases ht : s.storedPos p + (p.chars.length : Int) ≥ lo ∧ s.storedPos p ≤ hi
    · rw [if_pos ht]
      obtain ⟨s1, e1, h1, hpos, hc, htx, hsh, hdc, hso⟩ := h.setBlockList (f := f) hp (some lid)
        (by intro i e; cases e; exact hlid)
      rw [e1, Option.bind_some]
      have hsp : ∀ q : SPara, s1.storedPos q = s.storedPos q := by
        intro q; unfold Store.storedPos; rw [hpos]
      obtain ⟨s2, e2, h2, hpos2, hc2, htx2, hsh2, hdc2, hso2⟩ := ih h1 (by rw [hsh.lists]; exact hlid) hnd.2 (by
        intro y hy
        obtain ⟨q, hq, hqy⟩ := hx y (by simp [hy])
        have hne : q.id ≠ p.id := by
          intro e
          apply hnd.1
          rw [hxid, ← e]
          exact List.mem_map.mpr ⟨y, hy, by rw [hqy]; rfl⟩
        refine ⟨q, List.mem_map.mpr ⟨q, hq, if_neg hne⟩, ?_⟩
        rw [hsp]; exact hqy)
      refine ⟨s2, e2, ?_, fun i => (hpos2 i).trans (hpos i), hc2.trans hc, htx2.trans htx, hsh.trans hsh2,
        hdc2.trans hdc, fun g => hso2 (hso g)⟩
      have : (ps.map fun p => if p.id ∈ (x :: bs).map Block.id ∧ takes lo hi (s.storedPos p) p.chars.length = true then
          p.inList (some lid) else p) = (reshapeIn (putList (some lid)) p.id ps).map fun p =>
          if p.id ∈ bs.map Block.id ∧ takes lo hi (s1.storedPos p) p.chars.length = true then p.inList (some lid) else p := by
        unfold reshapeIn
        rw [List.map_map]
        apply List.map_congr_left
        intro q hq
        simp only [Function.comp_apply, List.map_cons, List.mem_cons, hsp]
        by_cases e : q.id = p.id
        · have : q = p := h.unique hp hq e
          subst this
          have hn : q.id ∉ bs.map Block.id := by rw [← hxid]; exact hnd.1
          have htk : takes lo hi (s.storedPos q) q.chars.length = true := decide_eq_true ht
          rw [if_pos ⟨.inl hxid.symm, htk⟩, if_pos rfl, if_neg (fun h => hn h.1)]
          rfl
        · have : q.id ≠ x.id := by rw [hxid]; exact e
          simp only [this, false_or, if_neg e]
      rw [this]; exact h2
    · rw [if_neg ht]
      obtain ⟨s2, e2, h2, hrest⟩ := ih h hlid hnd.2 fun y hy => hx y (by simp [hy])
      refine ⟨s2, e2, ?_, hrest⟩
      have : (ps.map fun p => if p.id ∈ (x :: bs).map Block.id ∧ takes lo hi (s.storedPos p) p.chars.length = true then
          p.inList (some lid) else p) = ps.map fun p =>
          if p.id ∈ bs.map Block.id ∧ takes lo hi (s.storedPos p) p.chars.length = true then p.inList (some lid) else p := by
        apply List.map_congr_left
        intro q hq
        simp only [List.map_cons, List.mem_cons]
        by_cases e : q.id = p.id
        · have : q = p := h.unique hp hq e
          subst this
          have htk : takes lo hi (s.storedPos q) q.chars.length ≠ true := by
            intro k; exact ht (of_decide_eq_true k)
          rw [if_neg (fun h => htk h.2), if_neg (fun h => htk h.2)]
        · have : q.id ≠ x.id := by rw [hxid]; exact e
          simp only [this, false_or]
      rw [this]; exact h2

/-- Another table of lists and other list ids in the document do not change what is shown. -/
theorem Flat.withLists (h : Flat s d f ps) (ls : List Nat) (hr : s'.rope = s.rope) (hro : s'.roots = s.roots)
    (hd : s'.documents d.id = some { d with lists := ls }) (hf : s'.frames = s.frames) (hb : s'.blocks = s.blocks)
    (hfr : s'.formatRuns = s.formatRuns) (him : s'.blockImages = s.blockImages)
    (ho : s'.blockOffsets = s.blockOffsets) (hn : s'.next "block" = s.next "block") :
    Flat s' { d with lists := ls } f ps := by
  have ht : s'.text = s.text := by unfold Store.text; rw [hr, ho]
  refine { root := ?_, document := hd, text := ?_, keys := ?_, block := ?_, absent := ?_, formats := ?_,
           images := ?_, fresh := ?_, frames := h.frames, tables := h.tables, frame := ?_, others := ?_,
           positive := h.positive, nonempty := h.nonempty, plain := ?_ }
  · rw [hro]; exact h.root
  · rw [ht]; exact h.text
  · rw [hb]; exact h.keys
  · rw [hb]; exact h.block
  · rw [hb]; exact h.absent
  · rw [hfr]; exact h.formats
  · rw [him]; exact h.images
  · rw [hn]; exact h.fresh
  · rw [hf]; exact h.frame
  · rw [hf, hn]; exact h.others
  · rw [hf]; exact h.plain

/-- Creating a list entity in the document. -/
theorem Flat.createListEntity (h : Flat s d f ps) (hl : ListsOk s d ps) (style : ListStyle) :
    ∃ s', s.createListEntity { style := style } d.id (-1) = some (s.next "list", s') ∧
      Flat s' { d with lists := d.lists ++ [s.next "list"] } f ps ∧ s'.blocks = s.blocks ∧ s'.text = s.text ∧
      (∀ i, s'.lists i = if i = s.next "list" then some { id := s.next "list", style := style } else s.lists i) ∧
      s'.next "list" = s.next "list" + 1 ∧ s'.next "block" = s.next "block" ∧
      s'.frames = s.frames ∧ (Sole d.id f s → Sole d.id f s') := by
  have hn : (s.counters "list").getD 1 = s.next "list" := rfl
  unfold Store.createListEntity Store.insertNewList
  simp only [if_true, Option.bind_some, Store.nextId, hn]
  unfold Store.setDocLists Store.docLists
  simp only [h.document, Option.map_some, Option.getD_some]
  have hi : insertAtIndex d.lists (-1) (s.next "list") = d.lists ++ [s.next "list"] := by
    unfold insertAtIndex; rw [if_neg (by omega)]
  rw [hi, if_pos (by
    rw [List.all_eq_true]
    intro i hi
    simp only [IdMap.insert_get]
    split
    · rfl
    · rcases List.mem_append.mp hi with h1 | h1
      · obtain ⟨e, h2, _⟩ := hl.known i h1
        rw [h2]; rfl
      · rename_i hne; exact absurd (List.mem_singleton.mp h1) hne)]
  refine ⟨_, rfl, ?_, rfl, rfl, fun i => ?_, ?_, ?_, rfl, ?_⟩
  · refine h.withLists (d.lists ++ [s.next "list"]) ?_ ?_ ?_ ?_ ?_ ?_ ?_ ?_ ?_
    · rfl
    · rfl
    · simp
    · rfl
    · rfl
    · rfl
    · rfl
    · rfl
    · simp [Store.next]
  · simp
  · simp [Store.next]
  · simp [Store.next]
  · intro hS
    refine ⟨hS.block, ?_, hS.frames, hS.runs, hS.images, hS.cells⟩
    intro i e he
    simp only [IdMap.insert_get] at he
    split at he
    · rename_i e'; cases he; exact ⟨e', rfl⟩
    · exact hS.docs i e he

/-- `create_list` on a flat document, wherever its stored positions are. -/
theorem Flat.createList (h : Flat s d f ps) (hl : ListsOk s d ps) (style : ListStyle) (x y : Int) :
    ∃ s' ps', s.createList style x y = some (s', s.next "list", s.snapshot) ∧
      ps' = (ps.map fun p => if takes (min x y) (max x y) (s.storedPos p) p.chars.length = true then
        p.inList (some (s.next "list")) else p) ∧
      Flat s' { d with lists := d.lists ++ [s.next "list"] } f ps' ∧
      ListsOk s' { d with lists := d.lists ++ [s.next "list"] } ps' ∧
      (∀ i, (s'.blocks i).map Block.documentPosition = (s.blocks i).map Block.documentPosition) ∧
      (∀ i, s'.lists i = if i = s.next "list" then some { id := s.next "list", style := style } else s.lists i) ∧
      s'.text = s.text ∧ s'.next "list" = s.next "list" + 1 ∧ s'.next "block" = s.next "block" ∧
      (Sole d.id f s → Sole d.id f s') := by
  obtain ⟨s1, e1, h1, hb1, ht1, hl1, hn1, hn1', hf1, hso1⟩ := h.createListEntity hl style
  generalize hlid : s.next "list" = lid at *
  have hL := h.listed
  have hsb : s.sortedBlocks d.id = sortByKey Block.documentPosition (s.getBlocks (s.frameBlocks f)) := by
    unfold Store.sortedBlocks
    rw [h.docFrames]
    simp
  have hsp : ∀ q : SPara, s1.storedPos q = s.storedPos q := by intro q; unfold Store.storedPos; rw [hb1]
  have hb : ∀ z ∈ s.sortedBlocks d.id, ∃ p ∈ ps, z = p.entity (s1.storedPos p) := by
    intro z hz
    obtain ⟨q, hq, hqz⟩ := hL.entities.all z hz
    have hs := hL.stored z hz
    have hzid : z.id = q.id := by rw [hqz]
    rw [hzid, h.stored hq] at hs
    rw [← hsp] at hs
    exact ⟨q, hq, (Option.some.inj hs).symm⟩
  obtain ⟨s2, e2, h2, hpos2, hc2, ht2, hsh2, hd2, hso2⟩ := h1.toShows.assignList (f := f) lid (min x y) (max x y) _
    (by rw [hl1, if_pos rfl]; rfl) hL.nodup hb
  have hmap : (ps.map fun p => if p.id ∈ (s.sortedBlocks d.id).map Block.id ∧
        takes (min x y) (max x y) (s1.storedPos p) p.chars.length = true then p.inList (some lid) else p) =
      ps.map fun p => if takes (min x y) (max x y) (s.storedPos p) p.chars.length = true then p.inList (some lid) else p := by
    apply List.map_congr_left
    intro p hp
    have hin : p.id ∈ (s.sortedBlocks d.id).map Block.id := by
      obtain ⟨z, hz, hzp⟩ := hL.entities.has p hp
      exact List.mem_map.mpr ⟨z, hz, hzp⟩
    simp only [hin, true_and, hsp]
  rw [hmap] at h2
  have hids : (ps.map fun p => if takes (min x y) (max x y) (s.storedPos p) p.chars.length = true then
      p.inList (some lid) else p).map SPara.id = ps.map SPara.id := by
    rw [List.map_map]; apply List.map_congr_left; intro p _; simp only [Function.comp_apply]; split <;> rfl
  have hnl : s2.next "list" = s1.next "list" := by simp [Store.next, hc2]
  have hnb : s2.next "block" = s1.next "block" := by simp [Store.next, hc2]
  refine ⟨s2, _, ?_, rfl, h1.of_shell h2 hsh2 hc2 hids rfl rfl, ?_, ?_, ?_, ht2.trans ht1, by rw [hnl, hn1],
    by rw [hnb, hn1'], fun g => hso2 (hso1 g)⟩
  · unfold Store.createList
    rw [h.docId, Option.bind_some, h.document, Option.bind_some, h.docFrames, List.head?_cons, Option.bind_some]
    dsimp only
    rw [e1, Option.bind_some]
    dsimp only
    rw [← hsb, e2, Option.map_some]
  · have hfresh : s.lists lid = none := by
      cases hs : s.lists lid with
      | none => rfl
      | some v => exact absurd (hl.fresh lid (by rw [hs]; rfl)) (by rw [hlid]; omega)
    have hlt : ∀ i, s2.lists i = if i = lid then some { id := lid, style := style } else s.lists i := by
      intro i; rw [hsh2.lists]; exact hl1 i
    have hnew : lid ∉ d.lists := by
      intro hm
      obtain ⟨e, he, _⟩ := hl.known lid hm
      rw [hfresh] at he; cases he
    constructor
    · intro l hm
      rcases List.mem_append.mp hm with hm1 | hm1
      · obtain ⟨e, he, hid⟩ := hl.known l hm1
        refine ⟨e, ?_, hid⟩
        rw [hlt, if_neg (by rintro rfl; exact hnew hm1), he]
      · rw [List.mem_singleton.mp hm1]
        exact ⟨_, by rw [hlt, if_pos rfl], rfl⟩
    · intro l hs
      rw [hlt] at hs
      split at hs
      · rename_i e; subst e; exact List.mem_append_right _ (by simp)
      · exact List.mem_append_left _ (hl.only l hs)
    · intro q hq l hql
      obtain ⟨q0, hq0, rfl⟩ := List.mem_map.mp hq
      split at hql
      · cases hql; exact List.mem_append_right _ (by simp)
      · exact List.mem_append_left _ (hl.items q0 hq0 l hql)
    · refine List.nodup_append.mpr ⟨hl.nodup, by simp, ?_⟩
      intro a ha b hb e
      rw [List.mem_singleton.mp hb] at e
      subst e; exact hnew ha
    · intro l hs
      rw [hnl, hn1]
      rw [hlt] at hs
      split at hs
      · omega
      · have := hl.fresh l hs; omega
  · intro i; rw [hpos2, hb1]
  · intro i; rw [hsh2.lists]; exact hl1 i

/-- `add_block_to_list`. -/
theorem Flat.addBlockToList (h : Flat s d f ps) (hl : ListsOk s d ps) (hp : p ∈ ps) {l : Nat} (hm : l ∈ d.lists) :
    ∃ s', s.addBlockToList p.id l = some (s', s.snapshot) ∧ Flat s' d f (reshapeIn (putList (some l)) p.id ps) ∧
      ListsOk s' d (reshapeIn (putList (some l)) p.id ps) ∧
      (∀ i, (s'.blocks i).map Block.documentPosition = (s.blocks i).map Block.documentPosition) ∧
      s'.counters = s.counters ∧ s'.text = s.text ∧ s'.lists = s.lists ∧ (Sole d.id f s → Sole d.id f s') := by
  obtain ⟨e, he, hid⟩ := hl.known l hm
  obtain ⟨s1, e1, h1, hpos, hc, htx, hsh, hdc, hso⟩ := h.toShows.setBlockList (f := f) hp (some l)
    (by intro i e'; cases e'; rw [he]; rfl)
  refine ⟨s1, ?_, h.of_shell h1 hsh hc (reshapeIn_ids _ _ _) rfl rfl, ?_, hpos, hc, htx, hsh.lists, hso⟩
  · unfold Store.addBlockToList
    rw [h.docId, Option.bind_some, h.document, Option.bind_some, h.stored hp, Option.bind_some, he, Option.bind_some,
      e1, Option.map_some]
  · refine ⟨?_, ?_, ?_, hl.nodup, ?_⟩
    · intro l hm; rw [hsh.lists]; exact hl.known l hm
    · rw [hsh.lists]; exact hl.only
    · intro q hq k hk
      obtain ⟨q0, hq0, rfl⟩ := List.mem_map.mp hq
      split at hk
      · cases hk; exact hm
      · exact hl.items q0 hq0 k hk
    · rw [hsh.lists]
      have : s1.next "list" = s.next "list" := by simp [Store.next, hc]
      rw [this]; exact hl.fresh

/-- Some paragraph is in the list, as the code asks. -/
theorem Shows.any_listed (h : Shows s d ps) (l : Nat) :
    ((s.getBlocks s.blocks.keys).any fun x => decide (x.list = some l)) =
      ps.any fun p => decide (p.shape.list = some l) := by
  rw [Bool.eq_iff_iff, List.any_eq_true, List.any_eq_true]
  constructor
  · rintro ⟨x, hx, hxl⟩
    obtain ⟨i, hi, hxi⟩ := List.mem_filterMap.mp hx
    obtain ⟨p, hp, rfl⟩ := List.mem_map.mp (h.keys.mem_iff.mp hi)
    refine ⟨p, hp, ?_⟩
    rw [h.stored hp] at hxi
    cases hxi; exact hxl
  · rintro ⟨p, hp, hpl⟩
    refine ⟨p.entity (s.storedPos p), List.mem_filterMap.mpr ⟨p.id, ?_, h.stored hp⟩, hpl⟩
    exact h.keys.mem_iff.mpr (List.mem_map_of_mem hp)

/-- Removing a list no paragraph is in. -/
theorem Flat.removeListEntity (h : Flat s d f ps) (hS : Sole d.id f s) (hl : ListsOk s d ps) {l : Nat} (hm : l ∈ d.lists)
    (hno : ∀ p ∈ ps, p.shape.list ≠ some l) :
    ∃ s', s.removeListEntity l = some s' ∧ Flat s' { d with lists := d.lists.filter fun i => i ≠ l } f ps ∧
      ListsOk s' { d with lists := d.lists.filter fun i => i ≠ l } ps ∧
      (∀ i, s'.lists i = if i = l then none else s.lists i) ∧ (∀ i, s'.blocks i = s.blocks i) ∧ s'.text = s.text ∧
      s'.counters = s.counters ∧ Sole d.id f s' := by
  obtain ⟨e, he, hid⟩ := hl.known l hm
  have hkeys : ∀ i ∈ s.documents.keys, i = d.id := by
    intro i hi
    have := (s.documents.mem i).mp hi
    obtain ⟨d', hd'⟩ := Option.isSome_iff_exists.mp this
    exact (hS.docs i d' hd').1
  have hown : (s.documents.keys.filter fun d => (s.docLists d).contains l).map (fun d => (d, s.docLists d)) =
      [(d.id, d.lists)] := by
    have hk : s.documents.keys = [d.id] := by
      have h1 : d.id ∈ s.documents.keys := (s.documents.mem d.id).mpr (by rw [h.document]; rfl)
      have hnd := s.documents.nodup
      cases hks : s.documents.keys with
      | nil => rw [hks] at h1; simp at h1
      | cons a t =>
        rw [hks] at hnd hkeys
        have ha := hkeys a (by simp)
        cases t with
        | nil => rw [ha]
        | cons b t =>
          have hb := hkeys b (by simp)
          rw [List.nodup_cons] at hnd
          exact absurd (by rw [ha, hb]; simp) hnd.1
    have hdl : s.docLists d.id = d.lists := by simp [Store.docLists, h.document]
    rw [hk]
    simp [hdl, hm]
  unfold Store.removeListEntity
  rw [he]
  simp only [Option.isNone_some, Bool.false_eq_true, if_false, hown, Store.rewriteDocLists]
  have hdoc : (s.tableRemoveList l).documents d.id = some { d with lists := d.lists.filter fun i => i ≠ l } := by
    show (s.documents d.id).map _ = _
    rw [h.document]; rfl
  have hbl : (s.tableRemoveList l).blocks = s.blocks := by
    have hg : ∀ i, ((s.tableRemoveList l).blocks i) = s.blocks i := by
      intro i
      show (s.blocks i).map _ = _
      cases hi : s.blocks i with
      | none => rfl
      | some b =>
        have hin : i ∈ ps.map SPara.id := by
          apply Classical.byContradiction
          intro hn
          rw [h.absent i hn] at hi; cases hi
        obtain ⟨p, hp, rfl⟩ := List.mem_map.mp hin
        obtain ⟨b', g1, g2⟩ := h.block p hp
        rw [hi] at g1
        cases g1
        have : b.list = p.shape.list := by rw [g2]
        rw [Option.map_some, if_neg (by rw [this]; exact hno p hp)]
    have hk : (s.tableRemoveList l).blocks.keys = s.blocks.keys := rfl
    generalize (s.tableRemoveList l).blocks = m at *
    cases m; cases hb2 : s.blocks
    rw [hb2] at hg hk
    simp only at hk
    congr 1
    funext i; exact hg i
  unfold Store.setDocLists
  rw [if_pos (by
    rw [List.all_eq_true]
    intro i hi
    obtain ⟨h1, h2⟩ := List.mem_filter.mp hi
    obtain ⟨e', he', _⟩ := hl.known i h1
    show ((s.lists.erase l) i).isSome
    simp only [IdMap.erase_get]
    rw [if_neg (by simpa using h2), he']; rfl), hdoc]
  refine ⟨_, rfl, ?_, ?_, fun i => ?_, fun i => ?_, ?_, ?_, ?_⟩
  · refine h.withLists _ ?_ ?_ ?_ ?_ ?_ ?_ ?_ ?_ ?_
    · rfl
    · rfl
    · simp
    · rfl
    · exact hbl
    · rfl
    · rfl
    · rfl
    · rfl
  · constructor
    · intro k hk
      obtain ⟨h1, h2⟩ := List.mem_filter.mp hk
      obtain ⟨e', he', hid'⟩ := hl.known k h1
      refine ⟨e', ?_, hid'⟩
      show (s.lists.erase l) k = _
      simp only [IdMap.erase_get]
      rw [if_neg (by simpa using h2), he']
    · intro k hk
      have : ((s.lists.erase l) k).isSome := hk
      simp only [IdMap.erase_get] at this
      split at this
      · cases this
      · rename_i hne
        exact List.mem_filter.mpr ⟨hl.only k this, by simpa using hne⟩
    · intro q hq k hk
      refine List.mem_filter.mpr ⟨hl.items q hq k hk, ?_⟩
      simp only [decide_eq_true_eq]
      rintro rfl
      exact hno q hq hk
    · exact hl.nodup.filter _
    · intro k hk
      have : ((s.lists.erase l) k).isSome := hk
      simp only [IdMap.erase_get] at this
      split at this
      · cases this
      · exact hl.fresh k this
  · rfl
  · show (s.tableRemoveList l).blocks i = _
    rw [hbl]
  · rfl
  · rfl
  · refine ⟨?_, ?_, hS.frames, ?_, ?_, hS.cells⟩
    · show ∀ i b, (s.tableRemoveList l).blocks i = some b → _
      rw [hbl]; exact hS.block
    · intro i e' he'
      simp only [IdMap.insert_get] at he'
      split at he'
      · rename_i e''; cases he'; exact ⟨e'', rfl⟩
      · have : (s.documents i).map _ = some e' := he'
        obtain ⟨e0, h0, rfl⟩ := Option.map_eq_some_iff.mp this
        exact hS.docs i e0 h0
    · show ∀ i, _ → ((s.tableRemoveList l).blocks i).isSome
      rw [hbl]; exact hS.runs
    · show ∀ i, _ → ((s.tableRemoveList l).blocks i).isSome
      rw [hbl]; exact hS.images

/-- `remove_block_from_list`. -/
theorem Flat.removeBlockFromList (h : Flat s d f ps) (hS : Sole d.id f s) (hl : ListsOk s d ps) (hp : p ∈ ps) {l : Nat}
    (hpl : p.shape.list = some l) :
    ∃ s' ps', s.removeBlockFromList p.id = some (s', s.snapshot) ∧ ps' = reshapeIn (putList none) p.id ps ∧
      (∀ i, (s'.blocks i).map Block.documentPosition = (s.blocks i).map Block.documentPosition) ∧
      s'.counters = s.counters ∧ s'.text = s.text ∧ Sole d.id f s' ∧
      ((∃ q ∈ ps, q.id ≠ p.id ∧ q.shape.list = some l) → Flat s' d f ps' ∧ ListsOk s' d ps' ∧ s'.lists = s.lists) ∧
      ((∀ q ∈ ps, q.id ≠ p.id → q.shape.list ≠ some l) →
        Flat s' { d with lists := d.lists.filter fun i => i ≠ l } f ps' ∧
        ListsOk s' { d with lists := d.lists.filter fun i => i ≠ l } ps' ∧
        ∀ i, s'.lists i = if i = l then none else s.lists i) := by
  obtain ⟨s1, e1, h1, hpos, hc, htx, hsh, hdc, hso⟩ := h.toShows.setBlockList (f := f) hp none (by intro i e; cases e)
  have hF := h.of_shell h1 hsh hc (reshapeIn_ids _ _ _) rfl rfl
  have hLk : ListsOk s1 d (reshapeIn (putList none) p.id ps) := by
    refine ⟨?_, ?_, ?_, hl.nodup, ?_⟩
    · intro l hm; rw [hsh.lists]; exact hl.known l hm
    · rw [hsh.lists]; exact hl.only
    · intro q hq k hk
      obtain ⟨q0, hq0, rfl⟩ := List.mem_map.mp hq
      split at hk
      · cases hk
      · exact hl.items q0 hq0 k hk
    · rw [hsh.lists]
      have : s1.next "list" = s.next "list" := by simp [Store.next, hc]
      rw [this]; exact hl.fresh
  have hlist : (p.entity (s.storedPos p)).list = some l := hpl
  have hany : ((s1.getBlocks s1.blocks.keys).any fun x => decide (x.list = some l)) =
      ps.any fun q => decide (q.id ≠ p.id ∧ q.shape.list = some l) := by
    rw [h1.any_listed]
    unfold reshapeIn
    rw [List.any_map]
    congr 1
    funext q
    simp only [Function.comp_apply]
    by_cases e : q.id = p.id
    · rw [if_pos e]; simp [putList, e]
    · rw [if_neg e]; simp [e]
  have hstep : s.removeBlockFromList p.id =
      if (ps.any fun q => decide (q.id ≠ p.id ∧ q.shape.list = some l)) then some (s1, s.snapshot)
      else (s1.removeListEntity l).map fun t => (t, s.snapshot) := by
    unfold Store.removeBlockFromList
    rw [h.docId, Option.bind_some, h.document, Option.bind_some, h.stored hp, Option.bind_some, hlist, Option.bind_some,
      e1, Option.bind_some, hany]
  by_cases ha : ∃ q ∈ ps, q.id ≠ p.id ∧ q.shape.list = some l
  · have : (ps.any fun q => decide (q.id ≠ p.id ∧ q.shape.list = some l)) = true := by
      rw [List.any_eq_true]
      obtain ⟨q, h1, h2⟩ := ha
      exact ⟨q, h1, decide_eq_true h2⟩
    rw [this, if_pos rfl] at hstep
    refine ⟨s1, _, hstep, rfl, hpos, hc, htx, hso hS, fun _ => ⟨hF, hLk, hsh.lists⟩, ?_⟩
    intro hn
    obtain ⟨q, h1, h2, h3⟩ := ha
    exact absurd h3 (hn q h1 h2)
  · have : (ps.any fun q => decide (q.id ≠ p.id ∧ q.shape.list = some l)) = false := by
      rw [List.any_eq_false]
      intro q hq hd
      exact ha ⟨q, hq, of_decide_eq_true hd⟩
    rw [this] at hstep
    obtain ⟨s2, e2, h2, hL2, hl2, hb2, ht2, hc2, hS2⟩ := hF.removeListEntity (hso hS) hLk (hl.items p hp l hpl) (by
      intro q hq hql
      obtain ⟨q0, hq0, rfl⟩ := List.mem_map.mp hq
      by_cases e : q0.id = p.id
      · rw [if_pos e] at hql; cases hql
      · rw [if_neg e] at hql; exact ha ⟨q0, hq0, e, hql⟩)
    rw [e2] at hstep
    refine ⟨s2, _, hstep, rfl, fun i => ?_, hc2.trans hc, ht2.trans htx, hS2, fun h => absurd h ha, fun _ => ⟨h2, hL2, ?_⟩⟩
    · rw [hb2]; exact hpos i
    · intro i; rw [hl2, hsh.lists]

end Verif
