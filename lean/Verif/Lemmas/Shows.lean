import Verif.Lemmas.Styled
import Verif.Lemmas.RopeOps
import Verif.Lemmas.RopeRead
import Verif.Model.Editing
import Verif.Props.Fragments
/- What the steps of the editing commands do to the document shown by a store. -/
namespace Verif

theorem paras_append (L R : List SPara) : paras (L ++ R) = paras L ++ paras R := by simp [paras]
theorem paras_cons (p : SPara) (R : List SPara) : paras (p :: R) = (.block p.id, p.text) :: paras R := rfl
theorem paras_length (ps : List SPara) : (paras ps).length = ps.length := by simp [paras]
theorem paras_fst (ps : List SPara) : (paras ps).map Prod.fst = ps.map fun p => Marker.block p.id := by
  simp [paras, Function.comp_def]
theorem paras_snd (ps : List SPara) : (paras ps).map Prod.snd = ps.map SPara.text := by
  simp [paras, Function.comp_def]
theorem paras_isTable (ps : List SPara) : ∀ p ∈ paras ps, p.1.isTable = false := by
  intro p hp
  simp only [paras, List.mem_map] at hp
  obtain ⟨q, _, rfl⟩ := hp
  rfl

namespace Shows
variable {s : Store} {d : Document} {ps L R : List SPara} {p : SPara}

theorem docId (h : Shows s d ps) : s.docId = some d.id := by
  obtain ⟨r, r', h1, h2, h3, h4⟩ := h.root
  unfold Store.docId
  rw [h1, Option.bind_some, h2, Option.bind_some, h3, if_neg h4]

theorem ids_nodup (h : Shows s d ps) : (ps.map SPara.id).Nodup := by
  have h1 := h.text.nodup
  rw [paras_fst] at h1
  rw [List.Nodup, List.pairwise_map] at h1 ⊢
  exact h1.imp fun hne e => hne (by rw [e])

theorem len (h : Shows s d ps) : s.blocks.len = (paras ps).length := by
  rw [paras_length, Store_len_eq h.keys]
where
  Store_len_eq {m : IdMap Block} {l : List SPara} (hk : m.keys.Perm (l.map SPara.id)) :
      m.len = l.length := by
    unfold IdMap.len; rw [hk.length_eq]; simp

theorem matchFlow (h : Shows s d ps) : ropePositionsMatchFlow s.text s.blocks.len = true := by
  unfold ropePositionsMatchFlow
  have ha : s.text.idx.anchors = 0 := by
    have := h.text.cache.anchors
    rw [this, h.text.starts]
    rw [List.filter_eq_nil_iff.mpr]
    · rfl
    · intro e he
      have : e.1 ∈ (layout 0 (paras ps)).map Prod.fst := List.mem_map_of_mem he
      rw [layout_keys, paras_fst] at this
      obtain ⟨q, _, hq⟩ := List.mem_map.mp this
      rw [← hq]; simp [Marker.isTable]
  rw [if_neg (by omega), h.text.starts, h.len]
  simp [layout_length]

theorem unique (h : Shows s d ps) {q : SPara} (hp : p ∈ ps) (hq : q ∈ ps) (e : q.id = p.id) :
    q = p := by
  have := h.ids_nodup
  obtain ⟨i, hi, rfl⟩ := List.getElem_of_mem hp
  obtain ⟨j, hj, rfl⟩ := List.getElem_of_mem hq
  have hij : (ps.map SPara.id)[j]'(by simpa using hj) = (ps.map SPara.id)[i]'(by simpa using hi) := by
    simpa using e
  have := (List.getElem_inj this).mp hij
  subst this; rfl

/-- Rewriting the entity of a paragraph changes nothing that shows. -/
theorem updateBlock (h : Shows s d ps) (hp : p ∈ ps) {b : Block} (hb : IsBlock p b) :
    Shows (s.updateBlock b) d ps := by
  have hid : b.id = p.id := by rw [hb]
  obtain ⟨e, he, hbe⟩ := h.block p hp
  have hlist : e.list = p.shape.list := by rw [hbe]
  have hlist' : b.list = p.shape.list := by rw [hb]
  have hkeep : Store.keepBlock b (some e) = b := by
    show { b with list := e.list } = b
    rw [hlist, ← hlist']
  constructor
  · exact h.root
  · exact h.document
  · exact h.text
  · show (s.blocks.insert b.id _).keys.Perm _
    simp only [IdMap.insert, hid, he, Option.isSome_some, if_true]
    exact h.keys
  · intro q hq
    by_cases e' : q.id = p.id
    · have : q = p := h.unique hp hq e'
      subst this
      refine ⟨b, ?_, hb⟩
      show (s.blocks.insert b.id _).get q.id = some b
      simp only [IdMap.insert, hid, if_true, he, hkeep]
    · obtain ⟨b', h1, h2⟩ := h.block q hq
      refine ⟨b', ?_, h2⟩
      show (s.blocks.insert b.id _).get q.id = some b'
      simp only [IdMap.insert, hid, e', if_false, h1]
  · intro i hi
    show (s.blocks.insert b.id _).get i = none
    have : i ≠ p.id := by
      rintro rfl; exact hi (List.mem_map_of_mem hp)
    simp only [IdMap.insert, hid, this, if_false]
    exact h.absent i hi
  · exact h.formats
  · exact h.images
  · exact h.fresh

theorem updateBlocks (h : Shows s d ps) {bs : List Block}
    (hb : ∀ b ∈ bs, ∃ p ∈ ps, IsBlock p b) : Shows (s.updateBlocks bs) d ps := by
  induction bs generalizing s with
  | nil => exact h
  | cons b bs ih =>
    obtain ⟨p, hp, hpb⟩ := hb b (by simp)
    exact ih (h.updateBlock hp hpb) fun b' hb' => hb b' (by simp [hb'])

theorem updateDocument (h : Shows s d ps) {d' : Document} (hid : d'.id = d.id) :
    Shows (s.updateDocument d') (Store.keepDoc d' (some d)) ps := by
  have hid' : (Store.keepDoc d' (some d)).id = d.id := hid
  constructor
  · rw [hid']; exact h.root
  · rw [hid']
    show (s.documents.insert d'.id _).get d.id = _
    simp only [IdMap.insert, hid, if_true, h.document]
  · exact h.text
  · exact h.keys
  · exact h.block
  · exact h.absent
  · exact h.formats
  · exact h.images
  · exact h.fresh

/-- Replacing the characters of one paragraph. -/
theorem replace {s' : Store} (h : Shows s d (L ++ p :: R)) (cs : List SChar)
    (hroots : s'.roots = s.roots) (hdocs : s'.documents = s.documents)
    (hblocks : s'.blocks = s.blocks) (hcnt : s'.counters = s.counters)
    (htext : Repr s'.text (paras (L ++ { p with chars := cs } :: R)))
    (hruns : ∀ i, i ≠ p.id → s'.formatRuns i = s.formatRuns i)
    (hr : StyledOk ((s'.formatRuns p.id).getD []) cs)
    (himgs : ∀ i, i ≠ p.id → s'.blockImages i = s.blockImages i)
    (hi : (s'.blockImages p.id).getD [] = []) :
    Shows s' d (L ++ { p with chars := cs } :: R) := by
  have hmap : (L ++ { p with chars := cs } :: R).map SPara.id = (L ++ p :: R).map SPara.id := by simp
  have hmem : ∀ q ∈ L ++ { p with chars := cs } :: R,
      q = { p with chars := cs } ∨ (q ∈ L ++ p :: R ∧ q.id ≠ p.id) := by
    intro q hq
    have hnd := h.ids_nodup
    simp only [List.map_append, List.map_cons, List.nodup_append, List.nodup_cons] at hnd
    simp only [List.mem_append, List.mem_cons] at hq
    rcases hq with hq | hq | hq
    · refine .inr ⟨by simp [hq], ?_⟩
      exact hnd.2.2 q.id (List.mem_map_of_mem hq) p.id (by simp)
    · exact .inl hq
    · refine .inr ⟨by simp [hq], ?_⟩
      intro e
      exact hnd.2.1.1 (e ▸ List.mem_map_of_mem hq)
  have hpm : p ∈ L ++ p :: R := by simp
  constructor
  · rw [hroots]; exact h.root
  · rw [hdocs]; exact h.document
  · exact htext
  · rw [hmap, hblocks]; exact h.keys
  · intro q hq
    rw [hblocks]
    rcases hmem q hq with rfl | ⟨hq, _⟩
    · obtain ⟨b, h1, h2⟩ := h.block p hpm
      exact ⟨b, h1, h2⟩
    · exact h.block q hq
  · intro i hi
    rw [hmap] at hi
    rw [hblocks]; exact h.absent i hi
  · intro q hq
    rcases hmem q hq with rfl | ⟨hq, hne⟩
    · exact hr
    · rw [hruns _ hne]; exact h.formats q hq
  · intro q hq
    rcases hmem q hq with rfl | ⟨hq, hne⟩
    · exact hi
    · rw [himgs _ hne]; exact h.images q hq
  · intro q hq
    have : s'.next "block" = s.next "block" := by simp [Store.next, hcnt]
    rw [this]
    rcases hmem q hq with rfl | ⟨hq, _⟩
    · exact h.fresh p hpm
    · exact h.fresh q hq

theorem offset {k : Nat} (h : Shows s d ps) (hp : p ∈ ps) :
    logicalOffsetToByte p.text (s.imagesOf p.id) (k : Int) = utf8Len (p.text.take k) := by
  unfold Store.imagesOf
  rw [h.images p hp, C08_offset_plain]

theorem content (h : Shows s d ps) (hp : p ∈ ps) : blockContent s.text p.id = some p.text :=
  blockContent_repr h.text (List.mem_map_of_mem (f := fun p : SPara => (Marker.block p.id, p.text)) hp)

theorem charLength (h : Shows s d ps) (hp : p ∈ ps) :
    blockCharLength s.text p.id = some p.text.length :=
  blockCharLength_repr h.text
    (List.mem_map_of_mem (f := fun p : SPara => (Marker.block p.id, p.text)) hp)

/-- The characters before paragraph `p`, each earlier paragraph counting its newline. -/
theorem find {a b : List SChar} (h : Shows s d (L ++ p :: R)) (hc : p.chars = a ++ b) :
    findBlockAtCharPosition s.text s.blocks.len ((charsBefore (paras L) + a.length : Nat) : Int) =
      some (some (p.id, (a.length : Int), (charsBefore (paras L) : Int))) := by
  have ht := h.text
  rw [h.len]
  have hp : p.text = a.map Prod.fst ++ b.map Prod.fst := by simp [SPara.text, hc]
  rw [paras_append, paras_cons, hp] at ht ⊢
  have := findBlock_repr ht (by
    have := paras_isTable (L ++ p :: R)
    rwa [paras_append, paras_cons, hp] at this)
  simpa using this

end Shows

theorem text_take {p : SPara} {a b : List SChar} (hc : p.chars = a ++ b) :
    p.text.take a.length = a.map Prod.fst := by
  simp only [SPara.text, hc, List.map_append]
  rw [List.take_append_of_le_length (by simp), List.take_of_length_le (by simp)]

/-- Typing into a paragraph. -/
theorem Shows.insertInto {s : Store} {d : Document} {L R : List SPara} {p : SPara} {a b : List SChar}
    {blk : Block} (t : List Char) (h : Shows s d (L ++ p :: R)) (hc : p.chars = a ++ b)
    (hb : IsBlock p blk) :
    ∃ s', s.insertInto blk (a.length : Int) t = some (utf8Len (a.map Prod.fst), s') ∧
      Shows s' d (L ++ { p with chars := a ++ styled t (inheritFmt a) ++ b } :: R) ∧
      s'.documents = s.documents ∧ s'.blocks = (s.updateBlock blk).blocks ∧
      s'.counters = s.counters ∧ SameShell s s' := by
  have hpm : p ∈ L ++ p :: R := by simp
  have hid : blk.id = p.id := by rw [hb]
  have hoff : logicalOffsetToByte p.text (s.imagesOf p.id) (a.length : Int) =
      utf8Len (a.map Prod.fst) := by rw [h.offset hpm, text_take hc]
  have h1 := h.updateBlock hpm hb
  have ht := h1.text
  have hpt : p.text = a.map Prod.fst ++ b.map Prod.fst := by simp [SPara.text, hc]
  rw [paras_append, paras_cons, hpt] at ht
  obtain ⟨st', hst, hrep⟩ := insertInBlock_repr t ht
  have hs1 : ((s.updateBlock blk).blockImages p.id) = s.blockImages p.id := rfl
  have himg := h.images p hpm
  have hf := h.formats p hpm
  rw [hc] at hf
  have key : ∀ s2 : Store, s2.text = (s.updateBlock blk).text → s2.roots = s.roots →
      s2.documents = s.documents → s2.blocks = (s.updateBlock blk).blocks →
      s2.counters = s.counters → SameShell s s2 →
      s2.formatRuns = s.formatRuns.insert p.id
        (shiftRunsForInsert ((s.formatRuns p.id).getD []) (utf8Len (a.map Prod.fst)) (utf8Len t)) →
      (∀ i, i ≠ p.id → s2.blockImages i = s.blockImages i) →
      (s2.blockImages p.id).getD [] = [] →
      ∃ s', (ropeInsertInBlock s2.text p.id (utf8Len (a.map Prod.fst)) t).map
          (fun r => (utf8Len (a.map Prod.fst), s2.withText r)) = some (utf8Len (a.map Prod.fst), s') ∧
        Shows s' d (L ++ { p with chars := a ++ styled t (inheritFmt a) ++ b } :: R) ∧
        s'.documents = s.documents ∧ s'.blocks = (s.updateBlock blk).blocks ∧
        s'.counters = s.counters ∧ SameShell s s' := by
    intro s2 e1 e2 e3 e4 e5 e6 e7 e8 e9
    refine ⟨s2.withText st', by rw [e1, hst]; rfl, ?_, e3, e4, e5, ?_⟩
    · refine h1.replace _ e2 e3 e4 e5 ?_ ?_ ?_ e8 e9
      · show Repr ⟨st'.rope, st'.idx⟩ _
        rw [paras_append, paras_cons]
        simpa [SPara.text, Function.comp_def, styled] using hrep
      · intro i hi
        show s2.formatRuns i = s.formatRuns i
        rw [e7]; simp [IdMap.insert, hi]
      · show StyledOk ((s2.formatRuns p.id).getD []) _
        rw [e7]
        simp only [IdMap.insert, if_true, Option.getD_some]
        exact hf.insert t
    · exact ⟨e6.roots, e6.frames, e6.lists, e6.resources, e6.tables, e6.tableCells⟩
  unfold Store.insertInto
  rw [hid, h.content hpm]
  simp only [Option.bind_some]
  rw [hoff]
  by_cases hi : (s.blockImages p.id).isSome
  · have : (((s.updateBlock blk).editRuns p.id fun runs =>
        shiftRunsForInsert runs (utf8Len (a.map Prod.fst)) (utf8Len t)).blockImages p.id).isSome = true := hi
    rw [if_pos this]
    refine key _ rfl rfl rfl rfl rfl ⟨rfl, rfl, rfl, rfl, rfl, rfl⟩ rfl ?_ ?_
    · intro i hne
      simp only [Store.editImages, Store.editRuns, Store.updateBlock, IdMap.insert, hne, if_false]
    · simp only [Store.editImages, Store.editRuns, Store.updateBlock, IdMap.insert, if_true,
        Option.getD_some, himg]
      simp [shiftImagesForInsert]
  · have : ¬ (((s.updateBlock blk).editRuns p.id fun runs =>
        shiftRunsForInsert runs (utf8Len (a.map Prod.fst)) (utf8Len t)).blockImages p.id).isSome = true := hi
    rw [if_neg this]
    exact key _ rfl rfl rfl rfl rfl ⟨rfl, rfl, rfl, rfl, rfl, rfl⟩ rfl (fun _ _ => rfl) himg

end Verif
