import Verif.Lemmas.ListCommands
import Verif.Props.CursorMoves
import Verif.Props.Lists
import Verif.Props.Formatting
/-
C57: making, joining, leaving, reading and formatting lists; with C20 for their undo.
-/
namespace Verif
variable {s s' : Store} {d : Document} {f : Nat} {ps : List SPara} {p : SPara}
open Store

/-- **C57 (create).** `create_list` for a selection, in a document without tables whose stored paragraph
positions are right: a new list of the given style, with an id not used before, is added to the document; exactly
the paragraphs the selection touches become its items; everything else stays.  Full statement: the same without
the hypothesis on stored positions, with tables; it is false, see `C57_stale_positions_fails`. -/
theorem C57_create_list_partial (h : Flat s d f ps) (hp : Placed s ps) (hl : ListsOk s d ps) (style : ListStyle) (x y : Nat) :
    ∃ s' l ps', s.createList style x y = some (s', l, s.snapshot) ∧ l ∉ d.lists ∧ s.lists l = none ∧
      ps' = reshapeDoc (fun b => { b with list := some l }) (touches (min x y) (max x y)) 0 ps ∧
      Flat s' { d with lists := d.lists ++ [l] } f ps' ∧ Placed s' ps' ∧
      ListsOk s' { d with lists := d.lists ++ [l] } ps' ∧
      (∀ i, s'.lists i = if i = l then some { id := l, style := style } else s.lists i) ∧
      s'.exportPlainText = s.exportPlainText := by
  obtain ⟨s', ps', e, hps, hF, hL, hpos, hls, ht, _⟩ := h.createList hl style x y
  generalize hlid : s.next "list" = l at *
  have hnone : s.lists l = none := by
    cases hs : s.lists l with
    | none => rfl
    | some v => exact absurd (hl.fresh l (by rw [hs]; rfl)) (by rw [hlid]; omega)
  have hmap : ps' = reshapeDoc (fun b => { b with list := some l }) (touches (min x y) (max x y)) 0 ps := by
    rw [hps]
    apply map_reshape (fun b => { b with list := some l })
      (fun p => takes (min (x : Int) y) (max (x : Int) y) (s.storedPos p) p.chars.length)
    intro L p R e
    rw [placed_storedPos hp L p R e]
    unfold takes touches
    apply decide_eq_decide.mpr
    omega
  refine ⟨s', l, ps', e, ?_, hnone, hmap, hF, ?_, hL, hls, ?_⟩
  · intro hm
    obtain ⟨v, hv, _⟩ := hl.known l hm
    rw [hnone] at hv; cases hv
  · rw [hmap]
    exact placed_of_blocks hp (reshapeDoc_text _ _ _ _) hpos
  · rw [export_flat hF, export_flat h, hmap]
    have := congrArg (List.map Prod.snd) (reshapeDoc_text (fun b => { b with list := some l })
      (touches (min x y) (max x y)) 0 ps)
    have : (reshapeDoc (fun b => { b with list := some l }) (touches (min x y) (max x y)) 0 ps).map SPara.text =
        ps.map SPara.text := by simpa [paras, Function.comp_def] using this
    unfold docText; rw [this]

/-- **C57 (join).** `add_block_to_list` of a paragraph of the document and a list of the document: that paragraph
becomes an item of that list, nothing else changes. -/
theorem C57_add_to_list (h : Flat s d f ps) (hl : ListsOk s d ps) (hp : p ∈ ps) {l : Nat} (hm : l ∈ d.lists) :
    ∃ s' ps', s.addBlockToList p.id l = some (s', s.snapshot) ∧
      ps' = (ps.map fun q => if q.id = p.id then q.inList (some l) else q) ∧
      Flat s' d f ps' ∧ ListsOk s' d ps' ∧ s'.lists = s.lists := by
  obtain ⟨s', h1, h2, h3, _, _, _, h4, _⟩ := h.addBlockToList hl hp hm
  exact ⟨s', _, h1, rfl, h2, h3, h4⟩

/-- A paragraph or a list that is not there is an error. -/
theorem C57_add_absent (h : Flat s d f ps) (hl : ListsOk s d ps) (b l : Nat)
    (ha : b ∉ ps.map SPara.id ∨ l ∉ d.lists) : s.addBlockToList b l = none := by
  unfold Store.addBlockToList
  rw [h.docId, Option.bind_some, h.document, Option.bind_some]
  dsimp only
  cases hb : s.blocks b with
  | none => rfl
  | some v =>
    rw [Option.bind_some]
    have hlm : l ∉ d.lists := by
      rcases ha with ha | ha
      · rw [h.absent b ha] at hb; cases hb
      · exact ha
    cases hs : s.lists l with
    | none => rfl
    | some v => exact absurd (hl.only l (by rw [hs]; rfl)) hlm

/-- **C57 (leave).** `remove_block_from_list` of an item: that paragraph is in no list any more, nothing else about
the paragraphs changes; the list stays if another paragraph is in it, and otherwise disappears from the
document. -/
theorem C57_remove_from_list (h : Flat s d f ps) (hS : Sole d.id f s) (hl : ListsOk s d ps) (hp : p ∈ ps) {l : Nat}
    (hpl : p.shape.list = some l) :
    ∃ s' ps' d', s.removeBlockFromList p.id = some (s', s.snapshot) ∧
      ps' = (ps.map fun q => if q.id = p.id then q.inList none else q) ∧
      Flat s' d' f ps' ∧ Sole d'.id f s' ∧ ListsOk s' d' ps' ∧
      ((∃ q ∈ ps, q.id ≠ p.id ∧ q.shape.list = some l) → d' = d ∧ s'.lists = s.lists) ∧
      ((∀ q ∈ ps, q.id ≠ p.id → q.shape.list ≠ some l) →
        d' = { d with lists := d.lists.filter fun i => i ≠ l } ∧ ∀ i, s'.lists i = if i = l then none else s.lists i) := by
  obtain ⟨s', ps', h1, h2, _, _, _, h3, h4, h5⟩ := h.removeBlockFromList hS hl hp hpl
  by_cases ha : ∃ q ∈ ps, q.id ≠ p.id ∧ q.shape.list = some l
  · obtain ⟨g1, g2, g3⟩ := h4 ha
    refine ⟨s', ps', d, h1, h2, g1, h3, g2, fun _ => ⟨rfl, g3⟩, fun hn => ?_⟩
    obtain ⟨q, k1, k2, k3⟩ := ha
    exact absurd k3 (hn q k1 k2)
  · have hn : ∀ q ∈ ps, q.id ≠ p.id → q.shape.list ≠ some l := fun q k1 k2 k3 => ha ⟨q, k1, k2, k3⟩
    obtain ⟨g1, g2, g3⟩ := h5 hn
    exact ⟨s', ps', _, h1, h2, g1, h3, g2, fun k => absurd k ha, fun _ => ⟨rfl, g3⟩⟩

/-- A paragraph that is in no list cannot leave one. -/
theorem C57_remove_absent (h : Flat s d f ps) (b : Nat) (ha : ∀ p ∈ ps, p.id = b → p.shape.list = none) :
    s.removeBlockFromList b = none := by
  unfold Store.removeBlockFromList
  rw [h.docId, Option.bind_some, h.document, Option.bind_some]
  dsimp only
  by_cases hb : b ∈ ps.map SPara.id
  · obtain ⟨p, hp, rfl⟩ := List.mem_map.mp hb
    rw [h.stored hp, Option.bind_some]
    have : (p.entity (s.storedPos p)).list = none := ha p hp rfl
    rw [this]; rfl
  · rw [h.absent b hb]; rfl

/-- **C57 (format).** `set_list_format` changes exactly the given fields of the given list. -/
theorem C57_set_list_format (h : Flat s d f ps) (hl : ListsOk s d ps) {l : Nat} {e : TList} (he : s.lists l = some e)
    (dto : ListFormatDto) :
    ∃ s', s.setListFormat l dto = some (s', s.snapshot) ∧ Flat s' d f ps ∧ ListsOk s' d ps ∧
      ∀ i, s'.lists i = if i = l then some
          { id := l
            style := match dto.style with | some v => v | none => e.style
            indent := match dto.indent with | some v => v | none => e.indent
            pre := match dto.pre with | some v => v | none => e.pre
            suffix := match dto.suffix with | some v => v | none => e.suffix }
        else s.lists i := by
  have hid : e.id = l := by
    obtain ⟨e', h1, h2⟩ := hl.known l (hl.only l (by rw [he]; rfl))
    rw [he] at h1; cases h1; exact h2
  have hls : ∀ i, (s.lists.insert e.id (applyListFormat dto e)) i = if i = l then some
          { id := l
            style := match dto.style with | some v => v | none => e.style
            indent := match dto.indent with | some v => v | none => e.indent
            pre := match dto.pre with | some v => v | none => e.pre
            suffix := match dto.suffix with | some v => v | none => e.suffix }
        else s.lists i := by
    intro i
    rw [IdMap.insert_get, hid]
    split
    · subst hid
      obtain ⟨a, b, c, g⟩ := dto
      cases a <;> cases b <;> cases c <;> cases g <;> rfl
    · rfl
  unfold Store.setListFormat
  rw [h.docId, Option.bind_some, h.document, Option.bind_some, he, Option.map_some]
  refine ⟨_, rfl, ?_, ⟨?_, ?_, hl.items, hl.nodup, ?_⟩, hls⟩
  · refine h.withLists d.lists ?_ ?_ ?_ ?_ ?_ ?_ ?_ ?_ ?_ <;> first | rfl | exact h.document
  · intro k hk
    show ∃ e', (s.lists.insert e.id (applyListFormat dto e)) k = some e' ∧ _
    rw [hls]
    split
    · exact ⟨_, rfl, by rename_i e; exact e.symm⟩
    · exact hl.known k hk
  · intro k hk
    have hk : ((s.lists.insert e.id (applyListFormat dto e)) k).isSome := hk
    rw [hls] at hk
    split at hk
    · rename_i e'; subst e'; exact hl.only _ (by rw [he]; rfl)
    · exact hl.only k hk
  · intro k hk
    have hk : ((s.lists.insert e.id (applyListFormat dto e)) k).isSome := hk
    rw [hls] at hk
    split at hk
    · rename_i e'; subst e'; exact hl.fresh _ (by rw [he]; rfl)
    · exact hl.fresh k hk

/-! ## Reading -/

theorem filter_placed (l : Nat) (r : Int) (qs : List SPara) :
    ((placed r qs).filter fun b => decide (b.list = some l)).map Block.id = itemsOf qs l := by
  induction qs generalizing r with
  | nil => rfl
  | cons q qs ih =>
    have ih := ih (r + (q.text.length + 1))
    unfold itemsOf at ih ⊢
    rw [placed]
    have hq : (q.entity r).list = q.shape.list := rfl
    by_cases e : q.shape.list = some l
    · rw [List.filter_cons_of_pos (by simp [hq, e]), List.filter_cons_of_pos (by simp [e]), List.map_cons, List.map_cons]
      rw [ih]; rfl
    · rw [List.filter_cons_of_neg (by simp [hq, e]), List.filter_cons_of_neg (by simp [e])]
      exact ih

theorem refreshed_perm (h : Flat s d f ps) :
    ((s.getBlocks s.blocks.keys).map fun b => ({ b with documentPosition := (s.blockPosition b.id : Int) } : Block)).Perm
      (placed 0 ps) := by
  have h1 : (s.getBlocks s.blocks.keys).Perm (ps.map fun p => p.entity (s.storedPos p)) := by
    have := h.keys.filterMap fun i => s.blocks i
    unfold Store.getBlocks
    refine this.trans ?_
    rw [← h.getBlocks]
    exact .refl _
  have h2 := h1.map fun b => ({ b with documentPosition := (s.blockPosition b.id : Int) } : Block)
  refine h2.trans ?_
  rw [List.map_map]
  have : (ps.map fun p => p.entity (s.blockPosition p.id : Int)) = placed 0 ps := by
    apply map_entity_placed
    intro L p R e
    have hn : ps[L.length]? = some p := by rw [e]; simp
    rw [blockPosition_flat h hn, e, paraStart_at]
    simp
  rw [← this]
  exact .refl _

/-- **C57 (read).** `TextList::item` and `TextList::count` of any list: its items are the paragraphs in it, in
the order of the document. -/
theorem C57_items (h : Flat s d f ps) (l : Nat) :
    s.listItems l = itemsOf ps l ∧ s.listCount l = (itemsOf ps l).length := by
  have hf := (refreshed_perm h).filter fun b => decide (b.list = some l)
  constructor
  · unfold Store.listItems
    rw [eq_of_sorted Block.documentPosition ((sortByKey_perm _ _).trans hf) (sortByKey_sorted _ _)
      ((placed_strict 0 ps).filter _)]
    exact filter_placed l 0 ps
  · unfold Store.listCount
    rw [← filter_placed l 0 ps, List.length_map, ← hf.length_eq, List.filter_map, List.length_map]
    rfl

theorem item_number {bs : List Block} (hperm : bs.Perm (placed 0 ps)) (hnd : (ps.map SPara.id).Nodup) {n l : Nat}
    (hn : ps[n]? = some p) (hl : p.shape.list = some l) : listItemIndex bs l p.id = (itemsOf (ps.take n) l).length := by
  have hf := hperm.filter fun b => decide (b.list = some l)
  unfold listItemIndex
  rw [eq_of_sorted Block.documentPosition ((sortByKey_perm _ _).trans hf) (sortByKey_sorted _ _)
      ((placed_strict 0 ps).filter _)]
  have hlt : n < ps.length := (List.getElem?_eq_some_iff.mp hn).1
  have hps : ps = ps.take n ++ p :: ps.drop (n + 1) := by
    rw [← (List.getElem?_eq_some_iff.mp hn).2]; simp
  have hidx : ∀ (bs : List Block) (k : Nat), (bs.findIdx? fun b => decide (b.id = k)) = (bs.map Block.id).findIdx? (fun i => decide (i = k)) := by
    intro bs k; rw [List.findIdx?_map]; rfl
  rw [hidx, filter_placed]
  have hsplit : itemsOf ps l = itemsOf (ps.take n) l ++ p.id :: itemsOf (ps.drop (n + 1)) l := by
    conv => lhs; rw [hps]
    unfold itemsOf
    rw [List.filter_append, List.filter_cons_of_pos (by simp [hl]), List.map_append, List.map_cons]
  have hnot : p.id ∉ itemsOf (ps.take n) l := by
    intro hm
    obtain ⟨q, hq, hqi⟩ := List.mem_map.mp hm
    rw [hps, List.map_append, List.nodup_append] at hnd
    exact hnd.2.2 q.id (List.mem_map_of_mem (List.mem_filter.mp hq).1) p.id (by simp) hqi
  rw [hsplit, List.findIdx?_append]
  have h0 : (itemsOf (ps.take n) l).findIdx? (fun i => decide (i = p.id)) = none := by
    rw [List.findIdx?_eq_none_iff]
    intro i hi
    simp only [decide_eq_false_iff_not]
    rintro rfl; exact hnot hi
  rw [h0]
  simp [List.findIdx?_cons]

/-- **C57 (numbers).** The number of an item is the number of items of its list before it. -/
theorem C57_number (h : Flat s d f ps) {n l : Nat} (hn : ps[n]? = some p) (hl : p.shape.list = some l) :
    listItemIndex ((s.getBlocks s.blocks.keys).map fun b =>
        ({ b with documentPosition := (s.blockPosition b.id : Int) } : Block)) l p.id = (itemsOf (ps.take n) l).length :=
  item_number (refreshed_perm h) h.ids_nodup hn hl

/-! ## Histories, undo and redo -/

/-- The list commands. -/
inductive ListCmd where
  | create (style : ListStyle) (x y : Int)
  | add (block list : Nat)
  | remove (block : Nat)
  | format (list : Nat) (dto : ListFormatDto)

/-- One command; `none` is an error. -/
def ListCmd.run (s : Store) : ListCmd → Option (Store × Snapshot)
  | .create style x y => (s.createList style x y).map fun r => (r.1, r.2.2)
  | .add b l => s.addBlockToList b l
  | .remove b => s.removeBlockFromList b
  | .format l dto => s.setListFormat l dto

/-- Several commands, one after the other, each one followed by its undo when marked so. -/
def runLists (s : Store) : List (ListCmd × Bool) → Option Store
  | [] => some s
  | (c, undone) :: cs =>
    (c.run s).bind fun r => runLists (if undone then r.1.undoList r.2 else r.1) cs

/-- A paragraph without the list it is in. -/
def SPara.unlisted (p : SPara) : SPara := p.inList none

theorem ListsOk.same_content {a b : Store} (h : ListsOk b d ps) (hs : SameContent a b)
    (hn : b.next "list" ≤ a.next "list") : ListsOk a d ps := by
  refine ⟨?_, ?_, h.items, h.nodup, ?_⟩
  · rw [hs.lists]; exact h.known
  · rw [hs.lists]; exact h.only
  · rw [hs.lists]; intro l hl; exact Nat.lt_of_lt_of_le (h.fresh l hl) hn

theorem Sole.same_content {a b : Store} {D : Nat} (h : Sole D f b) (hs : SameContent a b) : Sole D f a := by
  refine ⟨?_, ?_, ?_, ?_, ?_, ?_⟩
  · rw [hs.blocks]; exact h.block
  · rw [hs.documents]; exact h.docs
  · rw [hs.frames]; exact h.frames
  · rw [hs.blocks, hs.formatRuns]; exact h.runs
  · rw [hs.blocks, hs.blockImages]; exact h.images
  · rw [hs.tableCells]; exact h.cells

theorem run_list (h : Flat s d f ps) (hS : Sole d.id f s) (hl : ListsOk s d ps) {c : ListCmd} {snap : Snapshot}
    (e : c.run s = some (s', snap)) :
    ∃ d' ps', Flat s' d' f ps' ∧ Sole d'.id f s' ∧ ListsOk s' d' ps' ∧ ps'.map SPara.unlisted = ps.map SPara.unlisted ∧
      snap = s.snapshot ∧ s.next "list" ≤ s'.next "list" ∧ s.next "block" ≤ s'.next "block" ∧ d'.id = d.id := by
  have hmap : ∀ (l : Option Nat) (b : Nat), (ps.map fun q => if q.id = b then q.inList l else q).map SPara.unlisted =
      ps.map SPara.unlisted := by
    intro l b
    rw [List.map_map]
    apply List.map_congr_left
    intro q _
    simp only [Function.comp_apply]
    split <;> rfl
  cases c with
  | create style x y =>
    obtain ⟨s1, ps1, e1, hps, h1, hL1, _, _, _, hn1, hn2, hS1⟩ := h.createList hl style x y
    simp only [ListCmd.run, e1, Option.map_some, Option.some.injEq, Prod.mk.injEq] at e
    obtain ⟨rfl, rfl⟩ := e
    refine ⟨_, _, h1, hS1 hS, hL1, ?_, rfl, by omega, by omega, rfl⟩
    rw [hps, List.map_map]
    apply List.map_congr_left
    intro q _
    simp only [Function.comp_apply]
    split <;> rfl
  | add b l =>
    have hin : b ∈ ps.map SPara.id ∧ l ∈ d.lists := by
      apply Classical.byContradiction
      intro hn
      have ha : b ∉ ps.map SPara.id ∨ l ∉ d.lists := by
        by_cases hb : b ∈ ps.map SPara.id
        · exact .inr fun hm => hn ⟨hb, hm⟩
        · exact .inl hb
      simp only [ListCmd.run] at e
      rw [C57_add_absent h hl b l ha] at e
      cases e
    obtain ⟨p, hp, rfl⟩ := List.mem_map.mp hin.1
    obtain ⟨s1, e1, h1, hL1, _, hc, _, _, hS1⟩ := h.addBlockToList hl hp hin.2
    simp only [ListCmd.run, e1, Option.some.injEq, Prod.mk.injEq] at e
    obtain ⟨rfl, rfl⟩ := e
    exact ⟨d, _, h1, hS1 hS, hL1, hmap (some l) p.id, rfl, by simp [Store.next, hc], by simp [Store.next, hc], rfl⟩
  | remove b =>
    have hin : ∃ p ∈ ps, p.id = b ∧ p.shape.list ≠ none := by
      apply Classical.byContradiction
      intro hn
      have ha : ∀ p ∈ ps, p.id = b → p.shape.list = none := fun p hp he =>
        Classical.byContradiction fun k => hn ⟨p, hp, he, k⟩
      simp only [ListCmd.run] at e
      rw [C57_remove_absent h b ha] at e
      cases e
    obtain ⟨p, hp, rfl, hpl⟩ := hin
    obtain ⟨l, hpl⟩ := Option.ne_none_iff_exists'.mp hpl
    obtain ⟨s1, ps1, e1, hps, _, hc, _, hS1, g1, g2⟩ := h.removeBlockFromList hS hl hp hpl
    simp only [ListCmd.run, e1, Option.some.injEq, Prod.mk.injEq] at e
    obtain ⟨rfl, rfl⟩ := e
    have hm : ps1.map SPara.unlisted = ps.map SPara.unlisted := by rw [hps]; exact hmap none p.id
    by_cases ha : ∃ q ∈ ps, q.id ≠ p.id ∧ q.shape.list = some l
    · obtain ⟨k1, k2, _⟩ := g1 ha
      exact ⟨d, _, k1, hS1, k2, hm, rfl, by simp [Store.next, hc], by simp [Store.next, hc], rfl⟩
    · obtain ⟨k1, k2, _⟩ := g2 fun q k1 k2 k3 => ha ⟨q, k1, k2, k3⟩
      exact ⟨_, _, k1, hS1, k2, hm, rfl, by simp [Store.next, hc], by simp [Store.next, hc], rfl⟩
  | format l dto =>
    simp only [ListCmd.run] at e
    cases he : s.lists l with
    | none =>
      unfold Store.setListFormat at e
      rw [h.docId, Option.bind_some, h.document, Option.bind_some, he] at e
      cases e
    | some v =>
      obtain ⟨s1, e1, h1, hL1, _⟩ := C57_set_list_format h hl he dto
      rw [e1] at e
      obtain ⟨rfl, rfl⟩ : s1 = s' ∧ s.snapshot = snap := by
        simpa using e
      unfold Store.setListFormat at e1
      rw [h.docId, Option.bind_some, h.document, Option.bind_some, he, Option.map_some] at e1
      have e1 := (Prod.mk.injEq .. ▸ Option.some.inj e1 : _ ∧ _).1
      subst e1
      exact ⟨d, ps, h1, ⟨hS.block, hS.docs, hS.frames, hS.runs, hS.images, hS.cells⟩, hL1, rfl, rfl, Nat.le_refl _,
        Nat.le_refl _, rfl⟩

/-- **C57 (histories).** Whatever list commands are run, whichever of them are undone at once, the lists stay in
order and the paragraphs stay the same but for the lists they are in. -/
theorem C57_history (h : Flat s d f ps) (hS : Sole d.id f s) (hl : ListsOk s d ps) (cs : List (ListCmd × Bool))
    (e : runLists s cs = some s') :
    ∃ d' ps', Flat s' d' f ps' ∧ Sole d'.id f s' ∧ ListsOk s' d' ps' ∧ ps'.map SPara.unlisted = ps.map SPara.unlisted ∧
      s'.exportPlainText = s.exportPlainText := by
  suffices hk : ∃ d' ps', Flat s' d' f ps' ∧ Sole d'.id f s' ∧ ListsOk s' d' ps' ∧
      ps'.map SPara.unlisted = ps.map SPara.unlisted by
    obtain ⟨d', ps', h1, h2, h3, h4⟩ := hk
    refine ⟨d', ps', h1, h2, h3, h4, ?_⟩
    rw [export_flat h1, export_flat h]
    have := congrArg (List.map SPara.text) h4
    rw [List.map_map, List.map_map] at this
    have ht : (SPara.text ∘ SPara.unlisted) = SPara.text := rfl
    rw [ht] at this
    unfold docText; rw [this]
  induction cs generalizing s d ps with
  | nil => cases e; exact ⟨d, ps, h, hS, hl, rfl⟩
  | cons c cs ih =>
    obtain ⟨c, undone⟩ := c
    rw [runLists] at e
    obtain ⟨⟨s1, snap⟩, e1, e2⟩ := Option.bind_eq_some_iff.mp e
    obtain ⟨d1, ps1, h1, hS1, hL1, hm, rfl, hn1, hn2, hid⟩ := run_list h hS hl e1
    cases undone with
    | false =>
      obtain ⟨d', ps', g1, g2, g3, g4⟩ := ih h1 hS1 hL1 e2
      exact ⟨d', ps', g1, g2, g3, g4.trans hm⟩
    | true =>
      have hsame : SameContent (s1.undoList s.snapshot) s := (C27_undo_snapshot s s1).1
      exact ih (h.same_content hsame hn2) (hS.same_content hsame) (hl.same_content hsame hn1) e2

/-- The store with other counters and savepoints. -/
def reMeta (s : Store) (c : String → Option Nat) (sp : IdMap Snapshot) (n : Nat) : Store :=
  { s with counters := c, savepoints := sp, nextSavepoint := n }

theorem SameContent.eq_reMeta {a b : Store} (h : SameContent a b) : a = reMeta b a.counters a.savepoints a.nextSavepoint := by
  obtain ⟨h1, h2, h3, h4, h5, h6, h7, h8, h9, h10, h11, h12⟩ := h
  cases a; cases b
  simp only at h1 h2 h3 h4 h5 h6 h7 h8 h9 h10 h11 h12
  subst h1 h2 h3 h4 h5 h6 h7 h8 h9 h10 h11 h12
  rfl

theorem reMeta_same (s : Store) (c : String → Option Nat) (sp : IdMap Snapshot) (n : Nat) : SameContent (reMeta s c sp n) s :=
  ⟨rfl, rfl, rfl, rfl, rfl, rfl, rfl, rfl, rfl, rfl, rfl, rfl⟩

section
variable (c : String → Option Nat) (sp : IdMap Snapshot) (n : Nat)

theorem setBlockList_meta (s : Store) (b : Nat) (l : Option Nat) :
    (reMeta s c sp n).setBlockList b l = (s.setBlockList b l).map fun t => reMeta t c sp n := by
  unfold Store.setBlockList
  rw [show (reMeta s c sp n).blocks = s.blocks from rfl, show (reMeta s c sp n).lists = s.lists from rfl]
  by_cases h : (l.all fun l => (s.lists l).isSome) = true
  · rw [if_pos h, if_pos h]; cases s.blocks b <;> rfl
  · rw [if_neg h, if_neg h]; rfl

theorem setDocLists_meta (s : Store) (b : Nat) (l : List Nat) :
    (reMeta s c sp n).setDocLists b l = (s.setDocLists b l).map fun t => reMeta t c sp n := by
  unfold Store.setDocLists
  rw [show (reMeta s c sp n).documents = s.documents from rfl, show (reMeta s c sp n).lists = s.lists from rfl]
  by_cases h : (l.all fun i => (s.lists i).isSome) = true
  · rw [if_pos h, if_pos h]; cases s.documents b <;> rfl
  · rw [if_neg h, if_neg h]; rfl

theorem rewriteDocLists_meta (id : Nat) (os : List (Nat × List Nat)) : ∀ (s : Store),
    rewriteDocLists id os (reMeta s c sp n) = (rewriteDocLists id os s).map fun t => reMeta t c sp n := by
  induction os with
  | nil => intro s; rfl
  | cons o os ih =>
    intro s
    obtain ⟨o, l⟩ := o
    simp only [rewriteDocLists, setDocLists_meta]
    cases s.setDocLists o (l.filter fun b => b ≠ id) with
    | none => rfl
    | some t => simp only [Option.map_some, Option.bind_some, ih]

theorem removeListEntity_meta (s : Store) (l : Nat) :
    (reMeta s c sp n).removeListEntity l = (s.removeListEntity l).map fun t => reMeta t c sp n := by
  unfold Store.removeListEntity
  have h1 : (reMeta s c sp n).tableRemoveList l = reMeta (s.tableRemoveList l) c sp n := rfl
  rw [h1, show (reMeta s c sp n).lists = s.lists from rfl]
  by_cases h : (s.lists l).isNone = true
  · rw [if_pos h, if_pos h]; rfl
  · rw [if_neg h, if_neg h]; exact rewriteDocLists_meta c sp n l _ _

end

/-- The commands that create no list do the same in a store with the same content. -/
theorem run_same {a b : Store} (h : SameContent a b) {c : ListCmd} (hc : ∀ st x y, c ≠ .create st x y) {b' : Store}
    {snap : Snapshot} (e : c.run b = some (b', snap)) : ∃ a' snap', c.run a = some (a', snap') ∧ SameContent a' b' := by
  have ha := h.eq_reMeta
  generalize a.counters = cn at ha
  generalize a.savepoints = sp at ha
  generalize a.nextSavepoint = n at ha
  subst ha
  cases c with
  | create st x y => exact absurd rfl (hc st x y)
  | add k l =>
    simp only [ListCmd.run, Store.addBlockToList, Option.bind_eq_some_iff] at e
    obtain ⟨did, e1, dd, e2, bb, e3, ll, e4, e5⟩ := e
    obtain ⟨t, e7, e6⟩ := Option.map_eq_some_iff.mp e5
    cases e6
    refine ⟨reMeta b' cn sp n, (reMeta b cn sp n).snapshot, ?_, reMeta_same _ _ _ _⟩
    simp only [ListCmd.run, Store.addBlockToList]
    rw [show (reMeta b cn sp n).docId = b.docId from rfl, e1, Option.bind_some,
      show (reMeta b cn sp n).documents did = b.documents did from rfl, e2, Option.bind_some,
      show (reMeta b cn sp n).blocks k = b.blocks k from rfl, e3, Option.bind_some,
      show (reMeta b cn sp n).lists l = b.lists l from rfl, e4, Option.bind_some, setBlockList_meta, e7]
    rfl
  | remove k =>
    simp only [ListCmd.run, Store.removeBlockFromList, Option.bind_eq_some_iff] at e
    obtain ⟨did, e1, dd, e2, bb, e3, ll, e4, t, e5, e6⟩ := e
    have hr : (ListCmd.remove k).run (reMeta b cn sp n) =
        if (t.getBlocks t.blocks.keys).any fun x => decide (x.list = some ll) then
          some (reMeta t cn sp n, (reMeta b cn sp n).snapshot)
        else ((reMeta t cn sp n).removeListEntity ll).map fun s => (s, (reMeta b cn sp n).snapshot) := by
      simp only [ListCmd.run, Store.removeBlockFromList]
      rw [show (reMeta b cn sp n).docId = b.docId from rfl, e1, Option.bind_some,
        show (reMeta b cn sp n).documents did = b.documents did from rfl, e2, Option.bind_some,
        show (reMeta b cn sp n).blocks k = b.blocks k from rfl, e3, Option.bind_some, e4, Option.bind_some,
        setBlockList_meta, e5]
      rfl
    rw [hr]
    split at e6
    · rename_i hany
      cases e6
      rw [if_pos hany]
      exact ⟨_, _, rfl, reMeta_same _ _ _ _⟩
    · rename_i hany
      rw [if_neg hany, removeListEntity_meta]
      obtain ⟨t', e7, e8⟩ := Option.map_eq_some_iff.mp e6
      cases e8
      rw [e7]
      exact ⟨_, _, rfl, reMeta_same _ _ _ _⟩
  | format l dto =>
    simp only [ListCmd.run, Store.setListFormat, Option.bind_eq_some_iff] at e
    obtain ⟨did, e1, dd, e2, e3⟩ := e
    obtain ⟨ll, e4, e5⟩ := Option.map_eq_some_iff.mp e3
    cases e5
    simp only [ListCmd.run, Store.setListFormat]
    rw [show (reMeta b cn sp n).docId = b.docId from rfl, e1, Option.bind_some,
      show (reMeta b cn sp n).documents did = b.documents did from rfl, e2, Option.bind_some,
      show (reMeta b cn sp n).lists l = b.lists l from rfl, e4]
    exact ⟨_, _, rfl, reMeta_same { b with lists := b.lists.insert ll.id (applyListFormat dto ll) } cn sp n⟩

/-- **C20 (lists).** Undo of a list command gives back exactly the document of before.  Redo of joining, leaving
or formatting a list gives what the first execution gave; redo of making one gives the same list under a new id. -/
theorem C20_list_commands_partial (h : Flat s d f ps) (hS : Sole d.id f s) (hl : ListsOk s d ps) {c : ListCmd}
    {snap : Snapshot} (e : c.run s = some (s', snap)) :
    SameContent (s'.undoList snap) s ∧ Flat (s'.undoList snap) d f ps ∧ ListsOk (s'.undoList snap) d ps ∧
    ((∀ st x y, c ≠ .create st x y) →
      ∃ s'' snap', c.run (s'.undoList snap) = some (s'', snap') ∧ SameContent s'' s' ∧ SameContent (s''.undoList snap') s) ∧
    (∀ st x y, c = .create st x y →
      ∃ s'' l l', s.createList st x y = some (s', l, snap) ∧
        (s'.undoList snap).createList st x y = some (s'', l', (s'.undoList snap).snapshot) ∧
        l ≠ l' ∧ ∃ ps1 ps2, Flat s' { d with lists := d.lists ++ [l] } f ps1 ∧ Flat s'' { d with lists := d.lists ++ [l'] } f ps2 ∧
          (∀ i, i ≠ l → s'.lists i = s.lists i) ∧ (∀ i, i ≠ l' → s''.lists i = s.lists i) ∧
          (s''.lists l').map (fun v => { v with id := l }) = s'.lists l ∧
          ps2 = ps1.map fun p => if p.shape.list = some l then p.inList (some l') else p) := by
  obtain ⟨d1, ps1, h1, hS1, hL1, hm, rfl, hn1, hn2, hid⟩ := run_list h hS hl e
  have hsame : SameContent (s'.undoList s.snapshot) s := (C27_undo_snapshot s s').1
  have hF := h.same_content hsame hn2
  have hL := hl.same_content hsame hn1
  refine ⟨hsame, hF, hL, ?_, ?_⟩
  · intro hc
    obtain ⟨s'', snap', e2, h2⟩ := run_same hsame hc e
    refine ⟨s'', snap', e2, h2, ?_⟩
    obtain ⟨_, _, _, _, _, _, rfl, _⟩ := run_list hF (hS.same_content hsame) hL e2
    have := (C27_undo_snapshot (s'.undoList s.snapshot) s'').1
    exact ⟨this.rope.trans hsame.rope, this.roots.trans hsame.roots, this.documents.trans hsame.documents,
      this.frames.trans hsame.frames, this.blocks.trans hsame.blocks, this.lists.trans hsame.lists,
      this.resources.trans hsame.resources, this.tables.trans hsame.tables, this.tableCells.trans hsame.tableCells,
      this.formatRuns.trans hsame.formatRuns, this.blockImages.trans hsame.blockImages,
      this.blockOffsets.trans hsame.blockOffsets⟩
  · rintro st x y rfl
    obtain ⟨s1, qs1, e1, hps1, g1, _, _, gl1, _, gn1, _, _⟩ := h.createList hl st x y
    simp only [ListCmd.run, e1, Option.map_some, Option.some.injEq, Prod.mk.injEq] at e
    obtain ⟨rfl, _⟩ := e
    obtain ⟨s2, qs2, e2, hps2, g2, _, _, gl2, _⟩ := hF.createList hL st x y
    have hnx : (s1.undoList s.snapshot).next "list" = s1.next "list" := rfl
    refine ⟨s2, _, _, e1, e2, by rw [hnx]; omega, qs1, qs2, g1, g2, ?_, ?_, ?_, ?_⟩
    · intro i hi; rw [gl1, if_neg hi]
    · intro i hi; rw [gl2, if_neg hi, hsame.lists]
    · rw [gl1, gl2, if_pos rfl, if_pos rfl]; rfl
    · rw [hps1, hps2, List.map_map]
      apply List.map_congr_left
      intro q hq
      have hsp : (s1.undoList s.snapshot).storedPos q = s.storedPos q := by
        unfold Store.storedPos; rw [hsame.blocks]
      simp only [Function.comp_apply, hsp]
      by_cases ht : takes (min x y) (max x y) (s.storedPos q) q.chars.length = true
      · rw [if_pos ht, if_pos ht]
        exact (if_pos (c := (q.inList (some (s.next "list"))).shape.list = some (s.next "list")) rfl).symm
      · rw [if_neg ht, if_neg ht, if_neg]
        intro hk
        have := hl.fresh _ (by
          obtain ⟨v, hv, _⟩ := hl.known _ (hl.items q hq _ hk)
          rw [hv]; rfl)
        omega

/-! ## What goes wrong -/

/-- Typing in an earlier paragraph leaves stored positions behind, and `create_list` then takes a paragraph the
selection does not touch: in "ab", "cd" type "xyz" at the start and make a list of the first paragraph only. -/
theorem C57_stale_positions_fails : ∃ (s s' : Store) (l : Nat) (snap : Snapshot),
    ((Store.newStore.bind fun s => s.importPlainText "ab\ncd".toList).bind fun s =>
      (s.insertText ⟨0, 0, "xyz".toList⟩).map fun r => r.1) = some s ∧
    s.exportPlainText = some "xyzab\ncd".toList ∧
    s.createList .disc 5 5 = some (s', l, snap) ∧ s'.listItems l = [2, 3] := by
  refine ⟨_, _, _, _, rfl, ?_, rfl, ?_⟩ <;> decide +kernel

/-- `insert_list` adds a paragraph that is not in the text: the document counts two paragraphs, its text shows one,
and text typed into the new paragraph is lost, though it is counted. -/
theorem C57_insert_list_fails : ∃ (s s' : Store) (l : Nat) (pos : Int) (snap : Snapshot),
    (Store.newStore.bind fun s => s.importPlainText "ab".toList) = some s ∧
    s.insertList .disc 1 = some (s', l, pos, snap) ∧ pos = 3 ∧
    s'.exportPlainText = some "ab".toList ∧ (s'.documents 1).map Document.blockCount = some 2 ∧
    s'.listItems l = [3] ∧
    (s'.insertText ⟨pos, pos, ['x']⟩).map (fun r => (r.1.exportPlainText, (r.1.documents 1).map Document.characterCount)) =
      some (some "ab".toList, some 3) := by
  refine ⟨_, _, _, _, _, rfl, rfl, ?_, ?_, ?_, ?_, ?_⟩ <;> decide +kernel

/-- Moving the last item of a list to another list leaves an empty list behind, unlike leaving it. -/
theorem C57_move_leaves_empty_list_fails : ∃ (s s1 s2 s3 : Store) (snap : Snapshot),
    (Store.newStore.bind fun s => s.importPlainText "ab".toList) = some s ∧
    (s.createList .disc 0 0).map (fun r => r.1) = some s1 ∧ (s1.createList .disc 0 0).map (fun r => r.1) = some s2 ∧
    (s2.documents 1).map Document.lists = some [1, 2] ∧ s2.listItems 1 = [] ∧ s2.listItems 2 = [2] ∧
    s2.addBlockToList 2 1 = some (s3, snap) ∧
    (s3.documents 1).map Document.lists = some [1, 2] ∧ s3.listItems 2 = [] := by
  refine ⟨_, _, _, _, _, rfl, rfl, rfl, ?_, ?_, ?_, rfl, ?_, ?_⟩ <;> decide +kernel

theorem linesFrom_shape {n : Nat} {ls : List (List Char)} (hp : p ∈ linesFrom n ls) : p.shape = {} := by
  induction ls generalizing n with
  | nil => cases hp
  | cons l ls ih =>
    rcases List.mem_cons.mp hp with rfl | hp
    · rfl
    · exact ih hp

/-- The hypotheses are met by a freshly loaded text, and the commands can be run on it. -/
example : ∃ (s s' : Store) (d : Document) (f : Nat) (ps : List SPara),
    (Store.newStore.bind fun s => s.importPlainText "ab\ncd\nef".toList) = some s ∧ Flat s d f ps ∧ Placed s ps ∧
    Sole d.id f s ∧ ListsOk s d ps ∧
    runLists s [(.create .disc 4 1, false), (.remove 2, false), (.create .decimal 7 7, false), (.add 2 2, false),
      (.remove 3, false), (.format 2 { suffix := some ")" }, false)] = some s' ∧
    (s'.documents d.id).map Document.lists = some [2] ∧ s'.listItems 2 = [2, 4] := by
  obtain ⟨s, e1, e2, e3, _⟩ := newStore_flat
  obtain ⟨s1, e4, e5, eS, e6⟩ := e2.import e3 "ab\ncd\nef".toList
  have e : (Store.newStore.bind fun s => s.importPlainText "ab\ncd\nef".toList) = some s1 := by
    rw [e1, Option.bind_some, e4]
  have hls : (∀ l, s1.lists l = none) ∧ s1.next "list" = 1 ∧ (s1.documents 1).map Document.lists = some [] := by
    have e' := e
    cases e'
    exact ⟨fun l => rfl, rfl, rfl⟩
  have hk : ((Store.newStore.bind fun s => s.importPlainText "ab\ncd\nef".toList).bind fun s =>
      (runLists s [(.create .disc 4 1, false), (.remove 2, false), (.create .decimal 7 7, false), (.add 2 2, false),
        (.remove 3, false), (.format 2 { suffix := some ")" }, false)]).map fun r =>
        ((r.documents 1).map Document.lists, r.listItems 2)) = some (some [2], [2, 4]) := by decide +kernel
  rw [e, Option.bind_some] at hk
  obtain ⟨s', h1, h2⟩ := Option.map_eq_some_iff.mp hk
  simp only [Prod.mk.injEq] at h2
  have hd := e5.document
  have hlists : ∀ v, s1.documents 1 = some v → v.lists = [] := by
    intro v hv
    have := hls.2.2
    rw [hv] at this; simpa using this
  refine ⟨s1, s', _, _, _, e, e5, e6, eS, ⟨?_, ?_, ?_, ?_, ?_⟩, h1, h2.1, h2.2⟩
  · intro l hl; rw [hlists _ hd] at hl; cases hl
  · intro l hl; rw [hls.1] at hl; cases hl
  · intro p hp l hpl
    rw [linesFrom_shape hp] at hpl; cases hpl
  · rw [hlists _ hd]; exact .nil
  · intro l hl; rw [hls.1] at hl; cases hl

end Verif
