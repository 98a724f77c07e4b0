import Verif.Spec.Tables
import Verif.Lemmas.Frames
import Verif.Lemmas.Inspect
/- What a store that holds paragraphs and table marks in some order says about them. -/
namespace Verif
variable {s : Store} {L : List Para} {ps : List SPara} {ts : List Nat} {p : SPara} {a b : List SChar}

/-- The marks of tables. -/
def tableMarks (ts : List Nat) : List Para := ts.map fun t => (.table t, [objChar])

/-- One paragraph with another text. -/
def retext (i : Nat) (t : List Char) (m : Para) : Para := if m.1 = .block i then (m.1, t) else m

theorem retext_fst (i : Nat) (t : List Char) (m : Para) : (retext i t m).1 = m.1 := by
  unfold retext; split <;> rfl

theorem map_retext_not {i : Nat} {t : List Char} {A : List Para} (h : Marker.block i ∉ A.map Prod.fst) :
    A.map (retext i t) = A := by
  induction A with
  | nil => rfl
  | cons m A ih =>
    simp only [List.map_cons, List.mem_cons, not_or] at h
    rw [List.map_cons, ih h.2]
    unfold retext
    rw [if_neg (fun e => h.1 e.symm)]

theorem map_retext_split {i : Nat} {t c : List Char} {A B : List Para}
    (h : ((A ++ (.block i, c) :: B).map Prod.fst).Nodup) :
    (A ++ (.block i, c) :: B).map (retext i t) = A ++ (.block i, t) :: B := by
  rw [List.map_append, List.map_cons, List.nodup_append] at h
  have h2 := List.nodup_cons.mp h.2.1
  rw [List.map_append, List.map_cons, map_retext_not, map_retext_not h2.1]
  · simp [retext]
  · intro hm
    exact h.2.2 _ hm _ (by simp) rfl

theorem paras_retext {ps : List SPara} {i : Nat} {cs : List SChar} :
    (paras ps).map (retext i (cs.map Prod.fst)) =
      paras (ps.map fun q => if q.id = i then { q with chars := cs } else q) := by
  simp only [paras, List.map_map]
  apply List.map_congr_left
  intro q _
  simp only [Function.comp, retext, Marker.block.injEq]
  split <;> simp [SPara.text]

theorem tableMarks_retext (i : Nat) (t : List Char) : (tableMarks ts).map (retext i t) = tableMarks ts := by
  apply map_retext_not
  simp [tableMarks]

namespace Carries

theorem mem (h : Carries s L ps ts) (hp : p ∈ ps) : (Marker.block p.id, p.text) ∈ L := by
  rw [h.perm.mem_iff]
  exact List.mem_append_left _ (List.mem_map_of_mem (f := fun p : SPara => (Marker.block p.id, p.text)) hp)

theorem content (h : Carries s L ps ts) (hp : p ∈ ps) : blockContent s.text p.id = some p.text :=
  blockContent_repr h.text (h.mem hp)

theorem charLength (h : Carries s L ps ts) (hp : p ∈ ps) : blockCharLength s.text p.id = some p.text.length :=
  blockCharLength_repr h.text (h.mem hp)

theorem marks_nodup (h : Carries s L ps ts) : ((paras ps ++ tableMarks ts).map Prod.fst).Nodup :=
  (h.perm.map Prod.fst).nodup_iff.mp h.text.nodup

theorem ids_nodup (h : Carries s L ps ts) : (ps.map SPara.id).Nodup := by
  have h1 := h.marks_nodup
  rw [List.map_append, List.nodup_append] at h1
  have h1 := h1.1
  rw [paras_fst] at h1
  rw [List.Nodup, List.pairwise_map] at h1 ⊢
  exact h1.imp fun hne e => hne (by rw [e])

theorem tables_nodup (h : Carries s L ps ts) : ts.Nodup := by
  have h1 := h.marks_nodup
  rw [List.map_append, List.nodup_append] at h1
  have h1 := h1.2.1
  simp only [tableMarks, List.map_map] at h1
  rw [List.Nodup, List.pairwise_map] at h1
  exact h1.imp fun hne e => hne (by rw [e])

theorem unique (h : Carries s L ps ts) {q : SPara} (hp : p ∈ ps) (hq : q ∈ ps) (e : q.id = p.id) : q = p := by
  have := h.ids_nodup
  obtain ⟨i, hi, rfl⟩ := List.getElem_of_mem hp
  obtain ⟨j, hj, rfl⟩ := List.getElem_of_mem hq
  have hij : (ps.map SPara.id)[j]'(by simpa using hj) = (ps.map SPara.id)[i]'(by simpa using hi) := by
    simpa using e
  have := (List.getElem_inj this).mp hij
  subst this; rfl

theorem absent (h : Carries s L ps ts) {i : Nat} (hi : i ∉ ps.map SPara.id) : s.blocks i = none := by
  cases e : s.blocks i with
  | none => rfl
  | some b =>
    have := (s.blocks.mem i).mpr (by rw [e]; rfl)
    exact absurd (h.keys.mem_iff.mp this) hi

theorem stored (h : Carries s L ps ts) (hp : p ∈ ps) : s.blocks p.id = some (p.entity (s.storedPos p)) := by
  obtain ⟨b, h1, h2⟩ := h.block p hp
  rw [h1, Store.storedPos, h1]
  exact congrArg some h2

theorem length_entries (h : Carries s L ps ts) : s.text.idx.entries.length = ps.length + ts.length := by
  rw [h.text.starts, layout_length, h.perm.length_eq]
  simp [paras]

theorem anchors (h : Carries s L ps ts) : s.text.idx.anchors = ts.length := by
  rw [h.text.cache.anchors, h.text.starts]
  have e : ((layout 0 L).filter fun e => e.1.isTable).length = (((layout 0 L).map Prod.fst).filter Marker.isTable).length := by
    rw [List.filter_map, List.length_map]; rfl
  rw [e, layout_keys, ((h.perm.map Prod.fst).filter _).length_eq, List.map_append, List.filter_append, paras_fst]
  have e1 : (ps.map fun p => Marker.block p.id).filter Marker.isTable = [] := by
    rw [List.filter_eq_nil_iff]
    intro m hm
    obtain ⟨q, _, rfl⟩ := List.mem_map.mp hm
    simp [Marker.isTable]
  have e2 : ((ts.map fun t => ((Marker.table t, [objChar]) : Para)).map Prod.fst).filter Marker.isTable =
      ts.map Marker.table := by
    rw [List.map_map, List.filter_eq_self.mpr]
    · rfl
    · intro m hm
      obtain ⟨q, _, rfl⟩ := List.mem_map.mp hm
      rfl
  rw [e1, e2]; simp

theorem len (h : Carries s L ps ts) : s.blocks.len = ps.length := by
  unfold IdMap.len; rw [h.keys.length_eq]; simp

theorem matchFlow (h : Carries s L ps ts) : ropePositionsMatchFlow s.text s.blocks.len = decide (ts = []) := by
  unfold ropePositionsMatchFlow
  rw [h.anchors, h.length_entries, h.len]
  cases ts <;> simp

theorem noFind (h : Carries s L ps ts) (ht : ts ≠ []) (pos : Int) :
    findBlockAtCharPosition s.text s.blocks.len pos = some none := by
  unfold findBlockAtCharPosition
  rw [h.anchors, if_pos]
  cases ts with
  | nil => exact absurd rfl ht
  | cons => simp

/-- Without tables the text is the paragraphs in order. -/
theorem plain (h : Carries s L ps []) (hl : (paras ps).Sublist L) : L = paras ps := by
  have := h.perm.length_eq
  simp at this
  exact (hl.eq_of_length this.symm).symm

theorem toShows {d : Document} (h : Carries s L ps []) (hl : (paras ps).Sublist L)
    (root : ∃ r r', s.roots 1 = some r ∧ s.roots r.id = some r' ∧ r'.document = d.id ∧ d.id ≠ 0)
    (document : s.documents d.id = some d) : Shows s d ps :=
  ⟨root, document, h.plain hl ▸ h.text, h.keys, h.block, fun _ => h.absent, h.formats, h.images, h.fresh⟩

/-- A store that differs only in what has nothing to do with paragraphs. -/
theorem of_same {s' : Store} (h : Carries s L ps ts) (h1 : s'.text = s.text) (h2 : s'.blocks = s.blocks)
    (h3 : s'.formatRuns = s.formatRuns) (h4 : s'.blockImages = s.blockImages)
    (h5 : s'.next "block" = s.next "block") : Carries s' L ps ts := by
  constructor
  · rw [h1]; exact h.text
  · exact h.perm
  · rw [h2]; exact h.keys
  · rw [h2]; exact h.block
  · rw [h3]; exact h.formats
  · rw [h4]; exact h.images
  · rw [h5]; exact h.fresh
  · rw [h5, h3, h4]; exact h.clean

theorem updateBlock (h : Carries s L ps ts) (hp : p ∈ ps) {b : Block} (hb : IsBlock p b) :
    Carries (s.updateBlock b) L ps ts := by
  have hid : b.id = p.id := by rw [hb]
  obtain ⟨e, he, hbe⟩ := h.block p hp
  have hlist : e.list = p.shape.list := by rw [hbe]
  have hlist' : b.list = p.shape.list := by rw [hb]
  have hkeep : Store.keepBlock b (some e) = b := by
    show { b with list := e.list } = b
    rw [hlist, ← hlist']
  constructor
  · exact h.text
  · exact h.perm
  · show (s.blocks.insert b.id _).keys.Perm _
    simp only [IdMap.insert, hid, he, Option.isSome_some, if_true]
    exact h.keys
  · intro q hq
    by_cases e' : q.id = p.id
    · have : q = p := h.unique hp hq e'
      subst this
      refine ⟨b, ?_, hb⟩
      show (s.blocks.insert b.id _).get q.id = some b
      simp only [IdMap.insert, hid, if_true, he, hkeep]
    · obtain ⟨b', h1, h2⟩ := h.block q hq
      refine ⟨b', ?_, h2⟩
      show (s.blocks.insert b.id _).get q.id = some b'
      simp only [IdMap.insert, hid, e', if_false, h1]
  · exact h.formats
  · exact h.images
  · exact h.fresh
  · exact h.clean

theorem updateBlocks (h : Carries s L ps ts) {bs : List Block} (hb : ∀ b ∈ bs, ∃ p ∈ ps, IsBlock p b) :
    Carries (s.updateBlocks bs) L ps ts := by
  induction bs generalizing s with
  | nil => exact h
  | cons b bs ih =>
    obtain ⟨p, hp, hpb⟩ := hb b (by simp)
    exact ih (h.updateBlock hp hpb) fun b' hb' => hb b' (by simp [hb'])

theorem getBlocks (h : Carries s L ps ts) (l : List SPara) (hl : ∀ q ∈ l, q ∈ ps) :
    s.getBlocks (l.map SPara.id) = l.map fun p => p.entity (s.storedPos p) := by
  unfold Store.getBlocks
  rw [List.filterMap_map]
  induction l with
  | nil => rfl
  | cons x l ih =>
    have hx : ((fun i => s.blocks i) ∘ SPara.id) x = some (x.entity (s.storedPos x)) := h.stored (hl x (by simp))
    rw [List.filterMap_cons_some hx, ih fun q hq => hl q (by simp [hq])]
    rfl

/-- Replacing the characters of one paragraph. -/
theorem replace {s' : Store} {A B : List SPara} (h : Carries s L (A ++ p :: B) ts) (cs : List SChar)
    (hblocks : s'.blocks = s.blocks) (hcnt : s'.counters = s.counters)
    (htext : Repr s'.text (L.map (retext p.id (cs.map Prod.fst))))
    (hruns : ∀ i, i ≠ p.id → s'.formatRuns i = s.formatRuns i)
    (hr : StyledOk ((s'.formatRuns p.id).getD []) cs)
    (himgs : ∀ i, i ≠ p.id → s'.blockImages i = s.blockImages i)
    (hi : (s'.blockImages p.id).getD [] = []) :
    Carries s' (L.map (retext p.id (cs.map Prod.fst))) (A ++ { p with chars := cs } :: B) ts := by
  have hmap : (A ++ { p with chars := cs } :: B).map SPara.id = (A ++ p :: B).map SPara.id := by simp
  have hnd := h.ids_nodup
  simp only [List.map_append, List.map_cons, List.nodup_append, List.nodup_cons] at hnd
  have hneA : ∀ q ∈ A, q.id ≠ p.id := fun q hq => hnd.2.2 q.id (List.mem_map_of_mem hq) p.id (by simp)
  have hneB : ∀ q ∈ B, q.id ≠ p.id := fun q hq e => hnd.2.1.1 (e ▸ List.mem_map_of_mem hq)
  have hmem : ∀ q ∈ A ++ { p with chars := cs } :: B,
      q = { p with chars := cs } ∨ (q ∈ A ++ p :: B ∧ q.id ≠ p.id) := by
    intro q hq
    simp only [List.mem_append, List.mem_cons] at hq
    rcases hq with hq | hq | hq
    · exact .inr ⟨by simp [hq], hneA q hq⟩
    · exact .inl hq
    · exact .inr ⟨by simp [hq], hneB q hq⟩
  have hpm : p ∈ A ++ p :: B := by simp
  have hnext : s'.next "block" = s.next "block" := by simp [Store.next, hcnt]
  constructor
  · exact htext
  · have := h.perm.map (retext p.id (cs.map Prod.fst))
    rw [List.map_append, paras_retext, show (ts.map fun t => ((Marker.table t, [objChar]) : Para)) = tableMarks ts from rfl,
      tableMarks_retext] at this
    have e : ((A ++ p :: B).map fun q => if q.id = p.id then { q with chars := cs } else q) =
        A ++ { p with chars := cs } :: B := by
      rw [List.map_append, List.map_cons, if_pos rfl]
      congr 1
      · have := List.map_congr_left (l := A) (f := fun q => if q.id = p.id then ({ q with chars := cs } : SPara) else q) (g := id)
          fun q hq => by simp [hneA q hq]
        rw [this]; simp
      · congr 1
        have := List.map_congr_left (l := B) (f := fun q => if q.id = p.id then ({ q with chars := cs } : SPara) else q) (g := id)
          fun q hq => by simp [hneB q hq]
        rw [this]; simp
    rw [e] at this
    exact this
  · rw [hmap, hblocks]; exact h.keys
  · intro q hq
    rw [hblocks]
    rcases hmem q hq with rfl | ⟨hq, _⟩
    · obtain ⟨b, h1, h2⟩ := h.block p hpm
      exact ⟨b, h1, h2⟩
    · exact h.block q hq
  · intro q hq
    rcases hmem q hq with rfl | ⟨hq, hne⟩
    · exact hr
    · rw [hruns _ hne]; exact h.formats q hq
  · intro q hq
    rcases hmem q hq with rfl | ⟨hq, hne⟩
    · exact hi
    · rw [himgs _ hne]; exact h.images q hq
  · intro q hq
    rw [hnext]
    rcases hmem q hq with rfl | ⟨hq, _⟩
    · exact h.fresh p hpm
    · exact h.fresh q hq
  · intro i hi'
    rw [hnext] at hi'
    have hlt := h.fresh p hpm
    have hne : i ≠ p.id := by omega
    rw [hruns i hne, himgs i hne]
    exact h.clean i hi'

theorem offset {k : Nat} (h : Carries s L ps ts) (hp : p ∈ ps) :
    logicalOffsetToByte p.text (s.imagesOf p.id) (k : Int) = utf8Len (p.text.take k) := by
  unfold Store.imagesOf
  rw [h.images p hp, C08_offset_plain]

theorem split (h : Carries s L ps ts) (hp : p ∈ ps) : ∃ X Y, L = X ++ (.block p.id, p.text) :: Y :=
  List.append_of_mem (h.mem hp)

/-- Typing into a paragraph. -/
theorem insertInto {A B : List SPara} {blk : Block} (t : List Char) (h : Carries s L (A ++ p :: B) ts)
    (hc : p.chars = a ++ b) (hb : IsBlock p blk) :
    ∃ s', s.insertInto blk (a.length : Int) t = some (utf8Len (a.map Prod.fst), s') ∧
      Carries s' (L.map (retext p.id ((a ++ styled t (inheritFmt a) ++ b).map Prod.fst)))
        (A ++ { p with chars := a ++ styled t (inheritFmt a) ++ b } :: B) ts ∧
      s'.documents = s.documents ∧ s'.blocks = (s.updateBlock blk).blocks ∧
      s'.counters = s.counters ∧ SameShell s s' := by
  have hpm : p ∈ A ++ p :: B := by simp
  have hid : blk.id = p.id := by rw [hb]
  have hoff : logicalOffsetToByte p.text (s.imagesOf p.id) (a.length : Int) =
      utf8Len (a.map Prod.fst) := by rw [h.offset hpm, text_take hc]
  have h1 := h.updateBlock hpm hb
  have ht := h1.text
  have hpt : p.text = a.map Prod.fst ++ b.map Prod.fst := by simp [SPara.text, hc]
  obtain ⟨X, Y, hXY⟩ := h.split hpm
  have hLmap : L.map (retext p.id ((a ++ styled t (inheritFmt a) ++ b).map Prod.fst)) =
      X ++ (.block p.id, (a ++ styled t (inheritFmt a) ++ b).map Prod.fst) :: Y := by
    rw [hXY]
    apply map_retext_split
    rw [← hXY]; exact h.text.nodup
  rw [hXY, hpt] at ht
  obtain ⟨st', hst, hrep⟩ := insertInBlock_repr t ht
  have himg := h.images p hpm
  have hf := h.formats p hpm
  rw [hc] at hf
  have key : ∀ s2 : Store, s2.text = (s.updateBlock blk).text →
      s2.documents = s.documents → s2.blocks = (s.updateBlock blk).blocks →
      s2.counters = s.counters → SameShell s s2 →
      s2.formatRuns = s.formatRuns.insert p.id
        (shiftRunsForInsert ((s.formatRuns p.id).getD []) (utf8Len (a.map Prod.fst)) (utf8Len t)) →
      (∀ i, i ≠ p.id → s2.blockImages i = s.blockImages i) →
      (s2.blockImages p.id).getD [] = [] →
      ∃ s', (ropeInsertInBlock s2.text p.id (utf8Len (a.map Prod.fst)) t).map
          (fun r => (utf8Len (a.map Prod.fst), s2.withText r)) = some (utf8Len (a.map Prod.fst), s') ∧
        Carries s' (L.map (retext p.id ((a ++ styled t (inheritFmt a) ++ b).map Prod.fst)))
          (A ++ { p with chars := a ++ styled t (inheritFmt a) ++ b } :: B) ts ∧
        s'.documents = s.documents ∧ s'.blocks = (s.updateBlock blk).blocks ∧
        s'.counters = s.counters ∧ SameShell s s' := by
    intro s2 e1 e3 e4 e5 e6 e7 e8 e9
    refine ⟨s2.withText st', by rw [e1, hst]; rfl, ?_, e3, e4, e5, ?_⟩
    · refine h1.replace _ e4 e5 ?_ ?_ ?_ e8 e9
      · show Repr ⟨st'.rope, st'.idx⟩ _
        rw [hLmap]
        simpa [Function.comp_def, styled] using hrep
      · intro i hi
        show s2.formatRuns i = s.formatRuns i
        rw [e7]; simp [IdMap.insert, hi]
      · show StyledOk ((s2.formatRuns p.id).getD []) _
        rw [e7]
        simp only [IdMap.insert, if_true, Option.getD_some]
        exact hf.insert t
    · exact ⟨e6.roots, e6.frames, e6.lists, e6.resources, e6.tables, e6.tableCells⟩
  unfold Store.insertInto
  rw [hid, h.content hpm]
  simp only [Option.bind_some]
  rw [hoff]
  by_cases hi : (s.blockImages p.id).isSome
  · have : (((s.updateBlock blk).editRuns p.id fun runs =>
        shiftRunsForInsert runs (utf8Len (a.map Prod.fst)) (utf8Len t)).blockImages p.id).isSome = true := hi
    rw [if_pos this]
    refine key _ rfl rfl rfl rfl ⟨rfl, rfl, rfl, rfl, rfl, rfl⟩ rfl ?_ ?_
    · intro i hne
      simp only [Store.editImages, Store.editRuns, Store.updateBlock, IdMap.insert, hne, if_false]
    · simp only [Store.editImages, Store.editRuns, Store.updateBlock, IdMap.insert, if_true,
        Option.getD_some, himg]
      simp [shiftImagesForInsert]
  · have : ¬ (((s.updateBlock blk).editRuns p.id fun runs =>
        shiftRunsForInsert runs (utf8Len (a.map Prod.fst)) (utf8Len t)).blockImages p.id).isSome = true := hi
    rw [if_neg this]
    exact key _ rfl rfl rfl rfl ⟨rfl, rfl, rfl, rfl, rfl, rfl⟩ rfl (fun _ _ => rfl) himg

end Carries
end Verif
