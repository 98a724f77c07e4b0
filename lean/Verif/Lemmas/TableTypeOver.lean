import Verif.Lemmas.TableDelete
import Verif.Lemmas.TableClear
/- Typing over a selection inside a paragraph of a document with tables. -/
namespace Verif
open Store
variable {s s1 : Store} {d : Document} {f : Nat} {items : List SItem} {X Y : List SPara} {p : SPara} {L : List Para} {cs : List SChar}

theorem updateBlocks_document (D : Document) (bs : List Block) : ∀ s : Store,
    (s.updateDocument D).updateBlocks bs = (s.updateBlocks bs).updateDocument D := by
  induction bs with
  | nil => intro s; rfl
  | cons b bs ih => intro s; exact ih (s.updateBlock b)

/-- The later blocks follow a paragraph whose length has changed. -/
theorem Tabled.resized (h : Tabled s d f items) (ht : tablesOf items ≠ []) (e : flowParas items = X ++ p :: Y)
    (hsub : (paras (topParas items)).Sublist L)
    (hs1 : Carries s1 (L.map (retext p.id (cs.map Prod.fst))) (X ++ { p with chars := cs } :: Y) ((tablesOf items).map fun t => t.table.id))
    (hb1 : ∀ i, s1.blocks i = s.blocks i) (hsh : SameShell s s1) (hcnt : s1.counters = s.counters) (hdoc : s1.documents = s.documents)
    {n cc : Int} (hn' : (cs.length : Int) = p.chars.length + n) :
    Tabled ((s1.shiftStored (placed ((charsBefore (paras X) : Int) + (p.text.length + 1)) Y) n).updateDocument { d with characterCount := cc })
        { d with characterCount := cc } f (items.map (SItem.on fun q => if q.id = p.id then { q with chars := cs } else q)) ∧
      SameShell s ((s1.shiftStored (placed ((charsBefore (paras X) : Int) + (p.text.length + 1)) Y) n).updateDocument { d with characterCount := cc }) ∧
      ((s1.shiftStored (placed ((charsBefore (paras X) : Int) + (p.text.length + 1)) Y) n).updateDocument { d with characterCount := cc }).counters = s.counters := by
  obtain ⟨L0, hH, _⟩ := h.content
  have hpl : Placed s (flowParas items) := placed_of_seated (h.seated ht)
  have hpm : p ∈ flowParas items := by rw [e]; simp
  have hn := hH.ids_nodup
  have hplX := hpl
  rw [e] at hplX
  obtain ⟨blk0, q1, q2⟩ := hplX X p Y rfl
  have hsp : s.storedPos p = (charsBefore (paras X) : Int) := by simp [Store.storedPos, q1, q2]
  have hg : ∀ q : SPara, (if q.id = p.id then { q with chars := cs } else q).id = q.id := by
    intro q; split <;> rfl
  have hmap : (flowParas items).map (fun q => if q.id = p.id then { q with chars := cs } else q) =
      X ++ { p with chars := cs } :: Y := by
    rw [← map_replace (p := p) (by rw [← e]; exact hn), ← e]
    apply List.map_congr_left
    intro q hq
    by_cases hq' : q.id = p.id
    · rw [if_pos hq', if_pos hq', hH.unique hpm hq hq']
    · rw [if_neg hq', if_neg hq']
  have hmem : ∀ x ∈ placed ((charsBefore (paras X) : Int) + (p.text.length + 1)) Y, ∃ q ∈ Y, x = q.entity (s.storedPos q) ∧
      s1.blocks x.id = some x := by
    intro x hx
    obtain ⟨A, q, B, eY, ex⟩ := mem_placed hx
    obtain ⟨bq, k1, k2⟩ := hplX (X ++ p :: A) q B (by rw [eY]; simp)
    have hq : q ∈ flowParas items := by rw [e, eY]; simp
    have hpos : s.storedPos q = (charsBefore (paras X) : Int) + (p.text.length + 1) + charsBefore (paras A) := by
      simp only [Store.storedPos, k1, Option.map_some, Option.getD_some, k2]
      rw [charsBefore_paras_two, charsBefore_paras_cons, SPara.text_len]; push_cast; omega
    refine ⟨q, by rw [eY]; simp, by rw [ex, hpos], ?_⟩
    rw [hb1, ex, ← hpos]
    exact hH.stored hq
  have hYids : ((placed ((charsBefore (paras X) : Int) + (p.text.length + 1)) Y).map Block.id).Nodup := by
    rw [placed_ids]
    rw [e, List.map_append, List.nodup_append] at hn
    exact (List.nodup_cons.mp hn.2.1).2
  obtain ⟨k1, k2, mm, k3⟩ := shiftStored_get (s := s1) (n := n) hYids fun x hx => (hmem x hx).choose_spec.2.2
  have hshift : ∀ q ∈ Y, (s1.shiftStored (placed ((charsBefore (paras X) : Int) + (p.text.length + 1)) Y) n).blocks q.id =
      some (q.entity (s.storedPos q + n)) := by
    intro q hq
    have : q.id ∈ (placed ((charsBefore (paras X) : Int) + (p.text.length + 1)) Y).map Block.id := by
      rw [placed_ids]; exact List.mem_map_of_mem hq
    obtain ⟨x, hx, hxid⟩ := List.mem_map.mp this
    obtain ⟨q', hq', ex, _⟩ := hmem x hx
    have hqq : q' = q := hH.unique (by rw [e]; simp [hq]) (by rw [e]; simp [hq']) (by rw [← hxid, ex]; rfl)
    subst hqq
    have := k1 x hx
    rw [ex] at this
    rw [show q'.id = (q'.entity (s.storedPos q')).id from rfl, this]
    simp only [SPara.entity]
  have hkeep : ∀ q ∈ X ++ [p], (s1.shiftStored (placed ((charsBefore (paras X) : Int) + (p.text.length + 1)) Y) n).blocks q.id = s.blocks q.id := by
    intro q hq
    rw [k2, hb1]
    rw [placed_ids]
    intro hm'
    rw [show X ++ p :: Y = (X ++ [p]) ++ Y by simp] at e
    rw [e, List.map_append, List.nodup_append] at hn
    exact hn.2.2 _ (List.mem_map_of_mem hq) _ hm' rfl
  generalize hS2 : s1.shiftStored (placed ((charsBefore (paras X) : Int) + (p.text.length + 1)) Y) n = s2 at *
  have hs2 : Carries s2 (L.map (retext p.id (cs.map Prod.fst))) (X ++ { p with chars := cs } :: Y)
      ((tablesOf items).map fun t => t.table.id) := by
    rw [← hS2]
    unfold Store.shiftStored
    apply hs1.updateBlocks
    intro x hx
    obtain ⟨y, hy, rfl⟩ := List.mem_map.mp hx
    obtain ⟨q, hq, rfl, _⟩ := hmem y hy
    exact ⟨q, by simp [hq], rfl⟩
  refine ⟨?_, ?_, ?_⟩
  · refine h.on hg (d' := { d with characterCount := cc }) (L := L.map (retext p.id (cs.map Prod.fst)))
      ?_ ?_ ?_ ?_ rfl rfl rfl ?_ ?_ ?_ ?_ ?_
    · rw [hmap]; exact hs2.of_same rfl rfl rfl rfl rfl
    · rw [← paras_retext]; exact hsub.map _
    · intro _
      rw [hmap]
      apply seated_of_placed
      refine placed_resized (n := n) hplX rfl hn' ?_
      intro q hq bq hbq
      have hqm : q ∈ flowParas items := by rw [e]; exact hq
      have hbq' := hbq
      rw [hH.stored hqm] at hbq'
      cases hbq'
      rcases List.mem_append.mp hq with hq1 | hq1
      · obtain ⟨A, B, eX⟩ := List.append_of_mem hq1
        obtain ⟨b2, w1, w2⟩ := hplX A q (B ++ p :: Y) (by rw [eX]; simp)
        refine ⟨_, (hkeep q (by simp [hq1])).trans (hH.stored hqm), ?_⟩
        rw [if_neg]
        simp only [SPara.entity, Store.storedPos, w1, Option.map_some, Option.getD_some, w2]
        rw [eX, charsBefore_paras_two, charsBefore_paras_cons]; push_cast; omega
      · rcases List.mem_cons.mp hq1 with rfl | hq1
        · refine ⟨_, (hkeep q (by simp)).trans (hH.stored hqm), ?_⟩
          rw [if_neg]
          simp only [SPara.entity, hsp]; omega
        · obtain ⟨A, B, eY⟩ := List.append_of_mem hq1
          obtain ⟨b2, w1, w2⟩ := hplX (X ++ p :: A) q B (by rw [eY]; simp)
          refine ⟨_, hshift q hq1, ?_⟩
          rw [if_pos]
          · rfl
          · simp only [SPara.entity, Store.storedPos, w1, Option.map_some, Option.getD_some, w2]
            rw [charsBefore_paras_two, charsBefore_paras_cons]; push_cast; omega
    · rw [k3]
      simp only [Store.updateDocument, IdMap.insert_get, if_true]
      rw [hdoc, h.document]
      rfl
    · rw [k3]; exact hsh.roots
    · rw [k3]; exact hsh.frames
    · rw [k3]; exact hsh.tables
    · rw [k3]; exact hsh.tableCells
    · intro k
      rw [k3]
      show s1.next k = s.next k
      unfold Store.next; rw [hcnt]
  · rw [k3]
    exact ⟨hsh.roots, hsh.frames, hsh.lists, hsh.resources, hsh.tables, hsh.tableCells⟩
  · rw [k3]; exact hcnt

theorem drop_placed (e : flowParas items = X ++ p :: Y) : (placed 0 (flowParas items)).drop (X.length + 1) =
    placed ((charsBefore (paras X) : Int) + (p.text.length + 1)) Y := by
  rw [e, placed_append, List.drop_append, placed_length]
  simp [placed, placed_length]

theorem entity_kept (h : Tabled s d f items) (ht : tablesOf items ≠ []) (e : flowParas items = X ++ p :: Y) (i : Nat) :
    (s.updateBlock (p.entity (charsBefore (paras X)))).blocks i = s.blocks i := by
  obtain ⟨L0, hH, _⟩ := h.content
  have hpl : Placed s (flowParas items) := placed_of_seated (h.seated ht)
  rw [e] at hpl
  obtain ⟨blk0, q1, q2⟩ := hpl X p Y rfl
  have hsp : s.storedPos p = (charsBefore (paras X) : Int) := by simp [Store.storedPos, q1, q2]
  have hst := hH.stored (show p ∈ flowParas items by rw [e]; simp)
  rw [hsp] at hst
  by_cases hi : i = p.id
  · subst hi
    simp only [Store.updateBlock, SPara.entity, IdMap.insert_get, if_true]
    rw [hst]
    simp [keepBlock, SPara.entity]
  · simp only [Store.updateBlock, SPara.entity, IdMap.insert_get, if_neg hi]

/-- The deletion proper. -/
theorem Tabled.deleteRange {a m b : List SChar} (h : Tabled s d f items) (ht : tablesOf items ≠ []) (e : flowParas items = X ++ p :: Y)
    (hc : p.chars = a ++ m ++ b) (hm : m ≠ []) :
    ∃ s1 s', s.deleteRange (p.entity (charsBefore (paras X))) (a.length : Int) ((a.length + m.length : Nat) : Int) = some ((m.length : Int), s1) ∧
      s' = (s1.updateDocument { d with characterCount := d.characterCount - m.length }).shiftStored
        ((placed 0 (flowParas items)).drop (X.length + 1)) (-(m.length : Int)) ∧
      Tabled s' { d with characterCount := d.characterCount - m.length } f
        (items.map (SItem.on fun q => if q.id = p.id then { q with chars := a ++ b } else q)) ∧
      SameShell s s' ∧ s'.counters = s.counters := by
  obtain ⟨L, hH, hsub⟩ := h.content
  have hml : 0 < m.length := List.length_pos_iff.mpr hm
  have hpm : p ∈ flowParas items := by rw [e]; simp
  have hH' := hH
  rw [e] at hH'
  obtain ⟨r, hr, hs1⟩ := hH'.cut hc (isBlock_entity p (charsBefore (paras X)))
  have o1 : logicalOffsetToByte p.text (s.imagesOf p.id) (a.length : Int) = utf8Len (a.map Prod.fst) := by
    rw [hH.offset hpm, text_take (a := a) (b := m ++ b) (by simp [hc])]
  have o2 : logicalOffsetToByte p.text (s.imagesOf p.id) ((a.length + m.length : Nat) : Int) =
      utf8Len (a.map Prod.fst) + utf8Len (m.map Prod.fst) := by
    rw [hH.offset hpm, take_two hc]; simp
  have him : s.imagesOf p.id = [] := by
    exact hH.images p hpm
  obtain ⟨k1, k2, k3⟩ := h.resized ht e hsub hs1 (n := -(m.length : Int)) (cc := d.characterCount - m.length)
    (by intro i; exact entity_kept h ht e i) ⟨rfl, rfl, rfl, rfl, rfl, rfl⟩ rfl rfl (by rw [hc]; simp; omega)
  refine ⟨(((s.editRuns p.id fun runs => shiftRunsForDelete runs
        (utf8Len (a.map Prod.fst)) (utf8Len (a.map Prod.fst) + utf8Len (m.map Prod.fst))).editImages
        p.id fun im => (shiftImagesForDelete im (utf8Len (a.map Prod.fst))
          (utf8Len (a.map Prod.fst) + utf8Len (m.map Prod.fst))).1).withText r).updateBlock (p.entity (charsBefore (paras X))), _, ?_, rfl, ?_⟩
  · unfold Store.deleteRange
    rw [if_neg (by omega)]
    rw [show (p.entity (charsBefore (paras X))).id = p.id from rfl, hH.content hpm, Option.bind_some]
    dsimp only
    rw [o1, o2, slice_mid hc, Option.bind_some, hr, Option.map_some, him, List.length_map]
    have h0 : ((m.length : Int) + ((shiftImagesForDelete ([] : List (Img CharFormat)) (utf8Len (a.map Prod.fst))
        (utf8Len (a.map Prod.fst) + utf8Len (m.map Prod.fst))).2 : Nat)) = m.length := by
      unfold shiftImagesForDelete; split <;> simp
    rw [h0]
  · rw [drop_placed e, show ∀ (t : Store) bs D n, (t.updateDocument D).shiftStored bs n = (t.shiftStored bs n).updateDocument D from
      fun t bs D n => updateBlocks_document D _ t]
    exact ⟨k1, k2, k3⟩

/-- Typing over a selection inside a paragraph. -/
theorem Tabled.insertWithSelection {a m b : List SChar} {dto : InsertTextDto} (h : Tabled s d f items) (ht : tablesOf items ≠ [])
    (e : flowParas items = X ++ p :: Y) (hc : p.chars = a ++ m ++ b) (hm : m ≠ [])
    (hmin : min dto.position dto.anchor = ((charsBefore (paras X) + a.length : Nat) : Int))
    (hmax : max dto.position dto.anchor = ((charsBefore (paras X) + (a.length + m.length) : Nat) : Int)) :
    ∃ s', s.insertWithSelection dto = some (s', ⟨min dto.position dto.anchor + dto.text.length, 1⟩, .selection s.snapshot) ∧
      Tabled s' { d with characterCount := d.characterCount - m.length + dto.text.length } f
        (items.map (SItem.on fun q => if q.id = p.id then { q with chars := a ++ styled dto.text (inheritFmt a) ++ b } else q)) ∧
      SameShell s s' ∧ s'.counters = s.counters := by
  obtain ⟨s1, s2, g1, g2, g3, g4, g5⟩ := h.deleteRange ht e hc hm
  have hpl : Placed s (flowParas items) := placed_of_seated (h.seated ht)
  obtain ⟨L0, hH, _⟩ := h.content
  have hn := hH.ids_nodup
  have hpm : p ∈ flowParas items := by rw [e]; simp
  generalize hit : items.map (SItem.on fun q => if q.id = p.id then { q with chars := a ++ b } else q) = items2 at g3
  have hmap : flowParas items2 = X ++ { p with chars := a ++ b } :: Y := by
    rw [← hit, flowParas_on, ← map_replace (p := p) (by rw [← e]; exact hn), ← e]
    apply List.map_congr_left
    intro q hq
    by_cases hq' : q.id = p.id
    · rw [if_pos hq', if_pos hq', hH.unique hpm hq hq']
    · rw [if_neg hq', if_neg hq']
  have ht2 : tablesOf items2 ≠ [] := by rw [← hit, tablesOf_on]; simpa using ht
  have hpl2 : Placed s2 (flowParas items2) := placed_of_seated (g3.seated ht2)
  have hids : (flowParas items2).map SPara.id = (flowParas items).map SPara.id := by
    rw [hmap, e]; simp
  obtain ⟨L, hH2, hsub2⟩ := g3.content
  have hH2' := hH2
  rw [hmap] at hH2'
  obtain ⟨s3, e3, hs3, hd3, hb3, hc3, hsh3⟩ := hH2'.insertInto (p := { p with chars := a ++ b }) (a := a) (b := b) dto.text rfl
    (isBlock_entity _ (charsBefore (paras X)))
  obtain ⟨k1, k2, k3⟩ := g3.resized (p := { p with chars := a ++ b }) (cs := a ++ styled dto.text (inheritFmt a) ++ b) ht2 hmap hsub2
    (n := (dto.text.length : Int)) (cc := d.characterCount - m.length + dto.text.length) (by simpa using hs3)
    (by intro i; rw [hb3]; exact entity_kept g3 ht2 hmap i) hsh3 hc3 hd3 (by simp [styled]; omega)
  refine ⟨_, ?_, ?_, ⟨k2.roots.trans g4.roots, k2.frames.trans g4.frames, k2.lists.trans g4.lists, k2.resources.trans g4.resources,
    k2.tables.trans g4.tables, k2.tableCells.trans g4.tableCells⟩, k3.trans g5⟩
  · unfold Store.insertWithSelection
    rw [h.docIdOf, Option.bind_some, h.document, Option.bind_some]
    dsimp only
    rw [h.flowBlocks, Option.bind_some, h.placedEntities hpl, sortByKey_of_sorted _ (placed_sorted 0 _)]
    rw [hmin, h.find e (b := m ++ b) (by rw [hc]; simp), Option.bind_some]
    have hfind := h.find e (a := a ++ m) (b := b) hc
    rw [List.length_append] at hfind
    dsimp only
    rw [hmax, hfind, Option.bind_some]
    dsimp only
    rw [if_neg (by simp), g1, Option.bind_some]
    dsimp only
    rw [← g2, ← hids, g3.placedEntities hpl2, sortByKey_of_sorted _ (placed_sorted 0 _)]
    rw [show d.id = ({ d with characterCount := d.characterCount - m.length } : Document).id from rfl, g3.document, Option.bind_some]
    rw [g3.find hmap (a := a) (b := b) rfl, Option.bind_some]
    dsimp only
    rw [e3, Option.bind_some]
    dsimp only
    rw [drop_placed hmap]
    simp only [SPara.entity]
    push_cast
    rfl
  · have : items2.map (SItem.on fun q => if q.id = p.id then { q with chars := a ++ styled dto.text (inheritFmt a) ++ b } else q) =
        items.map (SItem.on fun q => if q.id = p.id then { q with chars := a ++ styled dto.text (inheritFmt a) ++ b } else q) := by
      rw [← hit, List.map_map]
      apply List.map_congr_left
      intro z _
      rw [Function.comp_apply, SItem.on_on]
      congr 1
      funext q
      by_cases hq : q.id = p.id
      · simp [hq]
      · simp [hq]
    rw [← this]
    exact k1

end Verif
