import Verif.Lemmas.TableLists
import Verif.Props.TableFormats
import Verif.Props.ListCommands
import Verif.Props.ImportMarkup
import Verif.Lemmas.TableReads
/-
C99: lists in documents with tables.
-/
namespace Verif
variable {s s' : Store} {d : Document} {f : Nat} {items : List SItem} {p : SPara}
open Store

theorem stored_of_seated {ps : List SPara} (hp : Seated s ps) {n : Nat} (hn : ps[n]? = some p) : s.storedPos p = (paraStart ps n : Int) := by
  obtain ⟨b, h1, h2⟩ := hp n p hn
  unfold Store.storedPos
  rw [h1, ← h2]; rfl

theorem unshaped_on {g : SPara → SPara} (hg : ∀ q : SPara, ({ g q with shape := {} } : SPara) = { q with shape := {} }) :
    unshaped (items.map (SItem.on g)) = unshaped items := by
  unfold unshaped
  rw [List.map_map]
  apply List.map_congr_left
  intro z _
  simp only [Function.comp_apply, SItem.on_on, hg]

/-- **C99 (create).** `create_list` for a selection in a document with tables: a new list of the given style, with an id not used
before, is added to the document; exactly the paragraphs outside the tables which the selection touches become its items;
characters, formats, tables, cells, other lists and stored positions stay.  Full statement: the paragraphs of cells which the
selection touches become items too; it is false, see `C99_list_in_cell_fails`. -/
theorem C99_create_list_partial (h : Tabled s d f items) (hp : Seated s (flowParas items)) (hl : ListsOk s d (flowParas items))
    (style : ListStyle) (x y : Nat) :
    ∃ s' l items', s.createList style x y = some (s', l, s.snapshot) ∧ l ∉ d.lists ∧ s.lists l = none ∧
      (flowParas items').length = (flowParas items).length ∧
      (∀ n p, (flowParas items)[n]? = some p → (flowParas items')[n]? = some
        (if p ∈ topParas items ∧ touches (min x y) (max x y) (paraStart (flowParas items) n) p.chars.length = true
          then p.inList (some l) else p)) ∧
      unshaped items' = unshaped items ∧
      Tabled s' { d with lists := d.lists ++ [l] } f items' ∧ Seated s' (flowParas items') ∧
      ListsOk s' { d with lists := d.lists ++ [l] } (flowParas items') ∧
      (∀ i, s'.lists i = if i = l then some { id := l, style := style } else s.lists i) := by
  obtain ⟨s', items', e, hit, hT, hL, hpos, hls⟩ := h.createList hl style x y
  obtain ⟨K, hH, hsub⟩ := h.content
  generalize hlid : s.next "list" = l at *
  have hnone : s.lists l = none := by
    cases hs : s.lists l with
    | none => rfl
    | some v => exact absurd (hl.fresh l (by rw [hs]; rfl)) (by rw [hlid]; omega)
  have hflow : flowParas items' = (flowParas items).map (enlisted s l (min (x : Int) y) (max (x : Int) y) ((topParas items).map SPara.id)) := by
    rw [hit, flowParas_on]
  refine ⟨s', l, items', e, ?_, hnone, by rw [hflow, List.length_map], ?_, ?_, hT, ?_, hL, hls⟩
  · intro hm
    obtain ⟨v, hv, _⟩ := hl.known l hm
    rw [hnone] at hv; cases hv
  · intro n p hn
    rw [hflow, List.getElem?_map, hn, Option.map_some]
    congr 1
    unfold enlisted
    rw [stored_of_seated hp hn]
    have hmem : p.id ∈ (topParas items).map SPara.id ↔ p ∈ topParas items := by
      constructor
      · intro hm
        obtain ⟨q, hq, e⟩ := List.mem_map.mp hm
        rw [← hH.unique (List.mem_of_getElem? hn) ((top_in_flow items).subset hq) e]
        exact hq
      · exact List.mem_map_of_mem
    have htk : takes (min (x : Int) y) (max (x : Int) y) (paraStart (flowParas items) n : Int) p.chars.length =
        touches (min x y) (max x y) (paraStart (flowParas items) n) p.chars.length := by
      unfold takes touches
      apply decide_eq_decide.mpr
      omega
    simp only [hmem, htk]
  · rw [hit]
    apply unshaped_on
    intro q; unfold enlisted; split <;> rfl
  · rw [hflow]
    refine seated_of_placed (placed_of_blocks (placed_of_seated hp) ?_ hpos)
    simp only [paras, List.map_map]
    apply List.map_congr_left
    intro q _
    simp only [Function.comp_apply, SPara.text, enlisted_id, enlisted_chars]

/-- **C99 (join).** `add_block_to_list` of a paragraph of the document, in a cell or not, and a list of the document: that
paragraph becomes an item of that list, nothing else changes. -/
theorem C99_add_to_list (h : Tabled s d f items) (hl : ListsOk s d (flowParas items)) (hp : p ∈ flowParas items) {l : Nat}
    (hm : l ∈ d.lists) :
    ∃ s' items', s.addBlockToList p.id l = some (s', s.snapshot) ∧ Tabled s' d f items' ∧ ListsOk s' d (flowParas items') ∧
      items' = items.map (SItem.on fun q => if q.id = p.id then q.inList (some l) else q) ∧ s'.lists = s.lists ∧
      (∀ i, (s'.blocks i).map Block.documentPosition = (s.blocks i).map Block.documentPosition) := by
  obtain ⟨s', h1, h2, h3, h4, h5⟩ := h.addBlockToList hl hp hm
  exact ⟨s', _, h1, h2, h3, rfl, h4, h5⟩

/-- **C99 (leave).** `remove_block_from_list` of an item, in a cell or not: that paragraph is in no list any more, nothing else about
the paragraphs and tables changes; the list stays if another paragraph is in it, and otherwise disappears from the document. -/
theorem C99_remove_from_list (h : Tabled s d f items) (hS : ∀ i, (s.documents i).isSome → i = d.id)
    (hl : ListsOk s d (flowParas items)) (hp : p ∈ flowParas items) {l : Nat} (hpl : p.shape.list = some l) :
    ∃ s' items' d', s.removeBlockFromList p.id = some (s', s.snapshot) ∧ Tabled s' d' f items' ∧ ListsOk s' d' (flowParas items') ∧
      items' = items.map (SItem.on fun q => if q.id = p.id then q.inList none else q) ∧
      (∀ i, (s'.blocks i).map Block.documentPosition = (s.blocks i).map Block.documentPosition) ∧
      ((∃ q ∈ flowParas items, q.id ≠ p.id ∧ q.shape.list = some l) → d' = d ∧ s'.lists = s.lists) ∧
      ((∀ q ∈ flowParas items, q.id ≠ p.id → q.shape.list ≠ some l) →
        d' = { d with lists := d.lists.filter fun i => i ≠ l } ∧ ∀ i, s'.lists i = if i = l then none else s.lists i) := by
  obtain ⟨s', h1, h2, h3, h4⟩ := h.removeBlockFromList hS hl hp hpl
  by_cases ha : ∃ q ∈ flowParas items, q.id ≠ p.id ∧ q.shape.list = some l
  · obtain ⟨g1, g2, g3⟩ := h3 ha
    refine ⟨s', _, d, h1, g1, g2, rfl, h2, fun _ => ⟨rfl, g3⟩, fun hn => ?_⟩
    obtain ⟨q, k1, k2, k3⟩ := ha
    exact absurd k3 (hn q k1 k2)
  · have hn : ∀ q ∈ flowParas items, q.id ≠ p.id → q.shape.list ≠ some l := fun q k1 k2 k3 => ha ⟨q, k1, k2, k3⟩
    obtain ⟨g1, g2, g3⟩ := h4 hn
    exact ⟨s', _, _, h1, g1, g2, rfl, h2, fun k => absurd k ha, fun _ => ⟨rfl, g3⟩⟩

/-- Errors: a paragraph or a list that is not there cannot be joined, a paragraph in no list cannot leave one. -/
theorem C99_absent (h : Tabled s d f items) (hl : ListsOk s d (flowParas items)) (b l : Nat) :
    (b ∉ (flowParas items).map SPara.id ∨ l ∉ d.lists → s.addBlockToList b l = none) ∧
    ((∀ p ∈ flowParas items, p.id = b → p.shape.list = none) → s.removeBlockFromList b = none) := by
  obtain ⟨K, hH, _⟩ := h.content
  constructor
  · intro ha
    unfold Store.addBlockToList
    rw [h.docIdOf, Option.bind_some, h.document, Option.bind_some]
    dsimp only
    cases hb : s.blocks b with
    | none => rfl
    | some v =>
      rw [Option.bind_some]
      have hlm : l ∉ d.lists := by
        rcases ha with ha | ha
        · rw [hH.absent ha] at hb; cases hb
        · exact ha
      cases hs : s.lists l with
      | none => rfl
      | some v => exact absurd (hl.only l (by rw [hs]; rfl)) hlm
  · intro ha
    unfold Store.removeBlockFromList
    rw [h.docIdOf, Option.bind_some, h.document, Option.bind_some]
    dsimp only
    by_cases hb : b ∈ (flowParas items).map SPara.id
    · obtain ⟨p, hp, rfl⟩ := List.mem_map.mp hb
      rw [hH.stored hp, Option.bind_some]
      have : (p.entity (s.storedPos p)).list = none := ha p hp rfl
      rw [this]; rfl
    · rw [hH.absent hb]; rfl

theorem refreshed_tabled (h : Tabled s d f items) :
    ((s.getBlocks s.blocks.keys).map fun b => ({ b with documentPosition := (s.blockPosition b.id : Int) } : Block)).Perm
      (placed 0 (flowParas items)) := by
  obtain ⟨K, hH, _⟩ := h.content
  have h1 : (s.getBlocks s.blocks.keys).Perm ((flowParas items).map fun p => p.entity (s.storedPos p)) := by
    have := hH.keys.filterMap fun i => s.blocks i
    unfold Store.getBlocks
    refine this.trans ?_
    rw [← hH.getBlocks _ fun q hq => hq]
    exact .refl _
  refine (h1.map fun b => ({ b with documentPosition := (s.blockPosition b.id : Int) } : Block)).trans ?_
  rw [List.map_map]
  have : ((flowParas items).map fun p => p.entity (s.blockPosition p.id : Int)) = placed 0 (flowParas items) := by
    apply map_entity_placed
    intro L p R e
    have hn : (flowParas items)[L.length]? = some p := by rw [e]; simp
    rw [h.reads.position hn, e, paraStart_at]
    simp
  rw [← this]
  exact .refl _

/-- **C99 (read).** `TextList::item` and `TextList::count` of any list: its items are the paragraphs in it, in cells or not, in the
order in which the document is read; and the number of an item is the number of items of its list before it. -/
theorem C99_items (h : Tabled s d f items) (l : Nat) :
    s.listItems l = itemsOf (flowParas items) l ∧ s.listCount l = (itemsOf (flowParas items) l).length ∧
    ∀ n p, (flowParas items)[n]? = some p → p.shape.list = some l →
      listItemIndex ((s.getBlocks s.blocks.keys).map fun b =>
        ({ b with documentPosition := (s.blockPosition b.id : Int) } : Block)) l p.id = (itemsOf ((flowParas items).take n) l).length := by
  have hf := (refreshed_tabled h).filter fun b => decide (b.list = some l)
  obtain ⟨K, hH, _⟩ := h.content
  refine ⟨?_, ?_, fun n p hn hl => item_number (refreshed_tabled h) hH.ids_nodup hn hl⟩
  · unfold Store.listItems
    rw [eq_of_sorted Block.documentPosition ((sortByKey_perm _ _).trans hf) (sortByKey_sorted _ _)
      ((placed_strict 0 _).filter _)]
    exact filter_placed l 0 _
  · unfold Store.listCount
    rw [← filter_placed l 0 (flowParas items), List.length_map, ← hf.length_eq, List.filter_map, List.length_map]
    rfl

/-- **C99 (format).** `set_list_format` changes exactly the given fields of the given list. -/
theorem C99_set_list_format (h : Tabled s d f items) (hl : ListsOk s d (flowParas items)) {l : Nat} {e : TList} (he : s.lists l = some e)
    (dto : ListFormatDto) :
    ∃ s', s.setListFormat l dto = some (s', s.snapshot) ∧ Tabled s' d f items ∧ ListsOk s' d (flowParas items) ∧ s'.blocks = s.blocks ∧
      ∀ i, s'.lists i = if i = l then some
          { id := l
            style := match dto.style with | some v => v | none => e.style
            indent := match dto.indent with | some v => v | none => e.indent
            pre := match dto.pre with | some v => v | none => e.pre
            suffix := match dto.suffix with | some v => v | none => e.suffix }
        else s.lists i := by
  have hid : e.id = l := by
    obtain ⟨e', h1, h2⟩ := hl.known l (hl.only l (by rw [he]; rfl))
    rw [he] at h1; cases h1; exact h2
  have hls : ∀ i, (s.lists.insert e.id (applyListFormat dto e)) i = if i = l then some
          { id := l
            style := match dto.style with | some v => v | none => e.style
            indent := match dto.indent with | some v => v | none => e.indent
            pre := match dto.pre with | some v => v | none => e.pre
            suffix := match dto.suffix with | some v => v | none => e.suffix }
        else s.lists i := by
    intro i
    rw [IdMap.insert_get, hid]
    split
    · subst hid
      obtain ⟨a, b, c, g⟩ := dto
      cases a <;> cases b <;> cases c <;> cases g <;> rfl
    · rfl
  unfold Store.setListFormat
  rw [h.docIdOf, Option.bind_some, h.document, Option.bind_some, he, Option.map_some]
  refine ⟨_, rfl, h.withLists d.lists rfl rfl h.document rfl rfl rfl rfl rfl rfl rfl fun _ _ => rfl, ⟨?_, ?_, hl.items, hl.nodup, ?_⟩, rfl, hls⟩
  · intro k hk
    show ∃ e', (s.lists.insert e.id (applyListFormat dto e)) k = some e' ∧ _
    rw [hls]
    split
    · exact ⟨_, rfl, by rename_i e; exact e.symm⟩
    · exact hl.known k hk
  · intro k hk
    have hk : ((s.lists.insert e.id (applyListFormat dto e)) k).isSome := hk
    rw [hls] at hk
    split at hk
    · rename_i e'; subst e'; exact hl.only _ (by rw [he]; rfl)
    · exact hl.only k hk
  · intro k hk
    have hk : ((s.lists.insert e.id (applyListFormat dto e)) k).isSome := hk
    rw [hls] at hk
    split at hk
    · rename_i e'; subst e'; exact hl.fresh _ (by rw [he]; rfl)
    · exact hl.fresh k hk

/-- **C99, negative.** With the caret in a cell, `create_list` makes a list without items; `insert_list` puts its new item out of the
table, before the paragraph after it by the order of the frame and after that paragraph by the stored positions. -/
theorem C99_list_in_cell_fails : ∃ (s s1 s2 : Store) (a snap r u : _),
    (Store.newStore.bind fun s => s.importPlainText "ab\ncd".toList) = some s ∧
    s.insertTable 2 2 1 2 = some (s1, a, 2, snap) ∧ s1.insertText ⟨4, 4, ['x', 'y']⟩ = some (s2, r, u) ∧
    (s2.blocks 5).map Block.documentPosition = some 4 ∧ blockContent s2.text 5 = some ['x', 'y'] ∧
    (s2.createList .disc 5 5).map (fun r => (r.2.1, r.1.lists.keys, r.1.listItems 1)) = some (1, [1], []) ∧
    (s2.insertList .disc 5).map (fun r => (r.1.listItems 1, (r.1.frames 2).map Frame.childOrder,
      (r.1.blocks 6).map Block.documentPosition, (r.1.blocks 3).map Block.documentPosition)) =
      some ([6], some [2, -5, 6, 3], some 10, some 7) := by
  refine ⟨_, _, _, _, _, _, _, rfl, rfl, rfl, ?_, ?_, ?_, ?_⟩ <;> decide +kernel

/-- The elements of "- a", a table with the cells "x" and "y", and "b". -/
def listedElements : List ParsedElement :=
  [.block { spans := [{ text := ['a'] }], listStyle := some .disc }, .table [[[{ text := ['x'] }], [{ text := ['y'] }]]],
   .block { spans := [{ text := ['b'] }] }]

/-- A document with an item, a table and a paragraph, as loaded from Markdown. -/
theorem listed_tables : ∃ (s : Store) (d : Document) (f : Nat) (items : List SItem),
    Tabled s d f items ∧ Seated s (flowParas items) ∧ ListsOk s d (flowParas items) ∧ tablesOf items ≠ [] ∧
    (∀ i, (s.documents i).isSome → i = d.id) ∧ (flowParas items).map SPara.text = [['a'], ['x'], ['y'], ['b']] ∧
    (flowParas items).map (fun p => p.shape.list) = [some 1, none, none, none] := by
  obtain ⟨s, e, h⟩ := C75_new_ready
  obtain ⟨s', d', items, a1, a2, a3, a4, a5, a6, a7, a8⟩ := C75_import_tabled h false listedElements (by
      intro rows hr
      simp [listedElements] at hr
      subst hr
      unfold Rectangular
      decide) (by simp [listedElements, OpensWell]) (by intro b hb; simp [listedElements] at hb; rcases hb with rfl | rfl <;> rfl)
      ⟨{ spans := [{ text := ['b'] }] }, by simp [listedElements]⟩
  have hkeys : s'.documents.keys = [1] := by
    have : (Store.newStore.bind fun s => s.importElements false listedElements).map (fun r => r.2.documents.keys) = some [1] := by
      decide +kernel
    rw [e, Option.bind_some, a1] at this
    exact Option.some.inj this
  have hnext : s.next "list" = 1 := by
    have : Store.newStore.map (fun s => s.next "list") = some 1 := by decide +kernel
    rw [e] at this
    exact Option.some.inj this
  have hd1 : d'.id = 1 := by
    have := (s'.documents.mem d'.id).mpr (by rw [a5.document]; rfl)
    rw [hkeys] at this
    exact List.mem_singleton.mp this
  rw [hnext] at a3
  have hfaces : (∀ items : List SItem, items.map SItem.face = facesOf false listedElements (listsOf [] 0 1 listedElements) →
      tablesOf items ≠ [] ∧ (flowParas items).map SPara.text = [['a'], ['x'], ['y'], ['b']] ∧
        (flowParas items).map (fun p => p.shape.list) = [some 1, none, none, none]) := by
    intro items hi
    have hf : facesOf false listedElements (listsOf [] 0 1 listedElements) =
        [.para ([('a', none)], parsedShape false { spans := [{ text := ['a'] }], listStyle := some .disc } (some 1)),
         .table { rows := 1, columns := 2 } (cellFaces [[[{ text := ['x'] }], [{ text := ['y'] }]]]),
         .para ([('b', none)], parsedShape false { spans := [{ text := ['b'] }] } none)] := rfl
    rw [hf] at hi
    rcases items with _ | ⟨p | t, _ | ⟨q | t, _ | ⟨r | t, _ | ⟨z, items⟩⟩⟩⟩
    all_goals simp [SItem.face] at hi
    obtain ⟨h1, ⟨h2, h3⟩, h4⟩ := hi
    have hc : (t.cells.flatMap SCell.paras).map SPara.face = [([('x', none)], {}), ([('y', none)], {})] := by
      have : (t.cells.flatMap SCell.paras).map SPara.face = (t.cells.map SCell.face).flatMap Prod.snd := by
        rw [List.map_flatMap, List.flatMap_map]; rfl
      rw [this, h3]; rfl
    have hff : (flowParas [.para p, .table t, .para r]).map SPara.face =
        [([('a', none)], parsedShape false { spans := [{ text := ['a'] }], listStyle := some .disc } (some 1)), ([('x', none)], {}),
         ([('y', none)], {}), ([('b', none)], parsedShape false { spans := [{ text := ['b'] }] } none)] := by
      rw [flowParas_para, flowParas_table, flowParas_para, List.map_cons, List.map_append, List.map_cons, hc, h1, h4]; rfl
    refine ⟨by simp [tablesOf_para, tablesOf_table], ?_, ?_⟩
    · have := congrArg (List.map fun x : ParaFace => x.1.map Prod.fst) hff
      rw [List.map_map] at this
      exact this
    · have := congrArg (List.map fun x : ParaFace => x.2.list) hff
      rw [List.map_map] at this
      exact this
  obtain ⟨k1, k2, k3⟩ := hfaces items a3
  refine ⟨s', d', _, items, a5, a6, a8, k1, ?_, k2, k3⟩
  intro i hi
  have := (s'.documents.mem i).mpr hi
  rw [hkeys] at this
  rw [hd1]; exact List.mem_singleton.mp this

/-- In this document: a list of the first and the last paragraph, made with everything selected; and the paragraph of the first cell
joining the list of the first one. -/
example : ∃ (s : Store) (d : Document) (f : Nat) (items : List SItem) (p : SPara),
    Tabled s d f items ∧ Seated s (flowParas items) ∧ ListsOk s d (flowParas items) ∧ tablesOf items ≠ [] ∧ p ∈ flowParas items ∧
    p.text = ['x'] ∧ 1 ∈ d.lists ∧ (∃ e, s.lists 1 = some e) ∧ (∃ s' l, s.createList .square 0 7 = some (s', l, s.snapshot)) ∧
    ∃ s', s.addBlockToList p.id 1 = some (s', s.snapshot) := by
  obtain ⟨s, d, f, items, h1, h2, h3, h4, _, h5, h6⟩ := listed_tables
  have hm : ['x'] ∈ (flowParas items).map SPara.text := by rw [h5]; simp
  obtain ⟨p, hp, hpt⟩ := List.mem_map.mp hm
  have hl : some 1 ∈ (flowParas items).map (fun p => p.shape.list) := by rw [h6]; simp
  obtain ⟨q, hq, hql⟩ := List.mem_map.mp hl
  have h1l := h3.items q hq 1 hql
  obtain ⟨s1, l, _, k, _⟩ := C99_create_list_partial h1 h2 h3 .square 0 7
  obtain ⟨s2, _, k2, _⟩ := C99_add_to_list h1 h3 hp h1l
  exact ⟨s, d, f, items, p, h1, h2, h3, h4, hp, hpt, h1l, (h3.known 1 h1l).imp fun _ k => k.1, ⟨s1, l, k⟩, s2, k2⟩

/-- The only item of a list leaves it. -/
example : ∃ (s s' : Store) (d : Document) (f : Nat) (items : List SItem) (p : SPara),
    Tabled s d f items ∧ (∀ i, (s.documents i).isSome → i = d.id) ∧ ListsOk s d (flowParas items) ∧ tablesOf items ≠ [] ∧
    p ∈ flowParas items ∧ p.shape.list = some 1 ∧ s.listItems 1 = [p.id] ∧ s.removeBlockFromList p.id = some (s', s.snapshot) := by
  obtain ⟨s, d, f, items, h1, h2, h3, h4, h5, _, h6⟩ := listed_tables
  have hlen : (flowParas items).length = 4 := by have := congrArg List.length h6; simpa using this
  obtain ⟨a, b, c, e, hfl⟩ : ∃ a b c e, flowParas items = [a, b, c, e] := by
    rcases hx : flowParas items with _ | ⟨a, _ | ⟨b, _ | ⟨c, _ | ⟨e, _ | ⟨z, l⟩⟩⟩⟩⟩
    all_goals rw [hx] at hlen
    all_goals simp at hlen
    exact ⟨a, b, c, e, rfl⟩
  have ha : a ∈ flowParas items := by rw [hfl]; simp
  rw [hfl] at h6
  simp at h6
  obtain ⟨s', _, _, k, _⟩ := C99_remove_from_list h1 h5 h3 ha h6.1
  refine ⟨s, s', d, f, items, a, h1, h5, h3, h4, ha, h6.1, ?_, k⟩
  rw [(C99_items h1 1).1, hfl]
  simp [itemsOf, h6]

end Verif
