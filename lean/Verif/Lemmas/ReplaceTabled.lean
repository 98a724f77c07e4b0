import Verif.Lemmas.TableFormat
import Verif.Lemmas.TableLink
import Verif.Lemmas.TableDelete
import Verif.Lemmas.ReplaceScan
import Verif.Lemmas.DocxDoc
/- Search and replace in documents with tables. -/
namespace Verif

variable {s s' : Store} {d : Document} {f : Nat} {ps A B : List SPara} {p : SPara} {ts : List Nat} {K : List Para}
  {items : List SItem} {a b m : List SChar}
open Store

/-! ### The text -/

theorem Carries.replaceInBlock {blk : Block} {so eo : Nat} (rep : List Char) (h : Carries s K (A ++ p :: B) ts)
    (hc : p.chars = a ++ m ++ b) (hb : s.blocks p.id = some blk) (hso : p.chars.take so = a)
    (heo : p.chars.take eo = a ++ m) :
    ∃ s', s.replaceInBlock blk so eo rep = some s' ∧
      Carries s' (K.map (retext p.id ((a ++ styled rep (inheritFmt a) ++ b).map Prod.fst)))
        (A ++ { p with chars := a ++ styled rep (inheritFmt a) ++ b } :: B) ts ∧
      s'.documents = s.documents ∧ s'.counters = s.counters ∧ SameShell s s' ∧
      (∀ i, s'.blocks i = s.blocks i) := by
  have hpm : p ∈ A ++ p :: B := by simp
  have hbb : IsBlock p blk := by
    obtain ⟨b', h1, h2⟩ := h.block p hpm
    rw [hb] at h1; cases h1; exact h2
  have hid : blk.id = p.id := by rw [hbb]
  have h1 := h.updateBlock hpm hbb
  have ht := h1.text
  obtain ⟨X, Y, hXY⟩ := h.split hpm
  have hKmap : K.map (retext p.id ((a ++ styled rep (inheritFmt a) ++ b).map Prod.fst)) =
      X ++ (.block p.id, (a ++ styled rep (inheritFmt a) ++ b).map Prod.fst) :: Y := by
    rw [hXY]
    apply map_retext_split
    rw [← hXY]; exact h.text.nodup
  have hpt : p.text = a.map Prod.fst ++ m.map Prod.fst ++ b.map Prod.fst := by simp [SPara.text, hc]
  rw [hXY, hpt] at ht
  obtain ⟨st1, hst1, hrep1⟩ := deleteInBlock_repr ht
  obtain ⟨st2, hst2, hrep2⟩ := insertInBlock_repr rep hrep1
  have hf := h.formats p hpm
  rw [hc] at hf
  have himg := h.images p hpm
  unfold Store.replaceInBlock
  rw [hid, h.content hpm, Option.bind_some]
  dsimp only
  have ho1 : logicalOffsetToByte p.text (s.imagesOf p.id) (so : Int) = utf8Len (a.map Prod.fst) := by
    rw [h.offset hpm, SPara.text, ← List.map_take, hso]
  have ho2 : logicalOffsetToByte p.text (s.imagesOf p.id) (eo : Int) =
      utf8Len (a.map Prod.fst) + utf8Len (m.map Prod.fst) := by
    rw [h.offset hpm, SPara.text, ← List.map_take, heo]; simp
  rw [ho1, ho2, slice_mid hc, Option.bind_some]
  generalize hs2 : Store.updateBlock (Store.editImages (s.editRuns p.id fun runs =>
      shiftRunsForInsert (shiftRunsForDelete runs (utf8Len (a.map Prod.fst))
        (utf8Len (a.map Prod.fst) + utf8Len (m.map Prod.fst))) (utf8Len (a.map Prod.fst)) (utf8Len rep)) p.id
      fun im => shiftImagesForInsert (shiftImagesForDelete im (utf8Len (a.map Prod.fst))
        (utf8Len (a.map Prod.fst) + utf8Len (m.map Prod.fst))).1 (utf8Len (a.map Prod.fst)) (utf8Len rep))
      blk = s2
  have e1 : s2.text = (s.updateBlock blk).text := by rw [← hs2]; rfl
  have e4 : s2.blocks = (s.updateBlock blk).blocks := by rw [← hs2]; rfl
  rw [e1, hst1, Option.bind_some, hst2, Option.map_some]
  refine ⟨_, rfl, ?_, by rw [← hs2]; rfl, by rw [← hs2]; rfl, ?_, ?_⟩
  · refine h1.replace _ e4 (by rw [← hs2]; rfl) ?_ ?_ ?_ ?_ ?_
    · show Repr ⟨st2.rope, st2.idx⟩ _
      rw [hKmap]
      simpa [SPara.text, Function.comp_def, styled] using hrep2
    · intro i hi
      rw [← hs2]
      simp only [Store.withText, Store.editImages, Store.editRuns, Store.updateBlock, IdMap.insert, hi, if_false]
    · rw [← hs2]
      simp only [Store.withText, Store.editImages, Store.editRuns, Store.updateBlock, IdMap.insert, if_true,
        Option.getD_some]
      exact (hf.delete).insert rep
    · intro i hi
      rw [← hs2]
      simp only [Store.withText, Store.editImages, Store.editRuns, Store.updateBlock, IdMap.insert, hi, if_false]
    · rw [← hs2]
      simp only [Store.withText, Store.editImages, Store.editRuns, Store.updateBlock, IdMap.insert, if_true,
        Option.getD_some, himg]
      simp only [shiftImagesForDelete]
      split <;> simp [shiftImagesAfter, shiftImagesForInsert]
  · rw [← hs2]; exact ⟨rfl, rfl, rfl, rfl, rfl, rfl⟩
  · intro i
    show s2.blocks i = s.blocks i
    rw [e4]
    show (s.blocks.insert blk.id (Store.keepBlock blk (s.blocks blk.id))) i = s.blocks i
    rw [IdMap.insert_get]
    split
    · next e => rw [hid] at e ⊢; rw [e, hb]; rfl
    · rfl

/-- What holds after some of the text of paragraphs is rewritten: the store holds the new paragraphs, and those in a row in
the old text are still in a row. -/
def Rewritten (s' : Store) (K : List Para) (ts : List Nat) (ps : List SPara) (ch : List SPara → List SPara) : Prop :=
  ∃ K', Carries s' K' (ch ps) ts ∧ ∀ qs : List SPara, (∀ q ∈ qs, q ∈ ps) → (paras qs).Sublist K → (paras (ch qs)).Sublist K'

theorem Carries.replaceAt {blk : Block} (rep : List Char) (off len : Nat) (h : Carries s K ps ts) (hp : p ∈ ps)
    (hb : s.blocks p.id = some blk) :
    ∃ s', s.replaceInBlock blk off (off + len) rep = some s' ∧
      Rewritten s' K ts ps (rewriteIn rep p.id off len) ∧
      s'.documents = s.documents ∧ s'.counters = s.counters ∧ SameShell s s' ∧
      (∀ i, s'.blocks i = s.blocks i) := by
  have hnd := h.ids_nodup
  have hun := fun q hq e => h.unique (q := q) hp hq e
  obtain ⟨L, R, rfl⟩ := List.append_of_mem hp
  have hne : ∀ q ∈ L ++ R, q.id ≠ p.id := by
    intro q hq
    simp only [List.map_append, List.map_cons, List.nodup_append, List.nodup_cons] at hnd
    rcases List.mem_append.mp hq with hq | hq
    · exact hnd.2.2 q.id (List.mem_map_of_mem hq) p.id (by simp)
    · intro e; exact hnd.2.1.1 (e ▸ List.mem_map_of_mem hq)
  have hrw : rewriteIn rep p.id off len (L ++ p :: R) =
      L ++ { p with chars := rewriteAt rep off len p.chars } :: R := by
    have hm : ∀ l : List SPara, (∀ q ∈ l, q.id ≠ p.id) →
        l.map (fun x => if x.id = p.id then ({ x with chars := rewriteAt rep off len x.chars } : SPara) else x) = l := by
      intro l hl
      have : l.map (fun x => if x.id = p.id then ({ x with chars := rewriteAt rep off len x.chars } : SPara)
          else x) = l.map id := List.map_congr_left fun q hq => if_neg (hl q hq)
      rw [this, List.map_id]
    unfold rewriteIn
    rw [List.map_append, List.map_cons, if_pos rfl, hm L fun q hq => hne q (by simp [hq]),
      hm R fun q hq => hne q (by simp [hq])]
  obtain ⟨s', e1, e2, e3⟩ := h.replaceInBlock (a := p.chars.take off) (m := (p.chars.drop off).take len)
    (b := p.chars.drop (off + len)) rep
    (by rw [List.append_assoc, ← List.drop_drop, List.take_append_drop, List.take_append_drop]) hb rfl
    (by rw [List.take_add])
  refine ⟨s', e1, ⟨_, by rw [hrw]; exact e2, ?_⟩, e3⟩
  intro qs hqs hsub
  have : paras (rewriteIn rep p.id off len qs) = (paras qs).map (retext p.id ((rewriteAt rep off len p.chars).map Prod.fst)) := by
    unfold rewriteIn paras
    rw [List.map_map, List.map_map]
    apply List.map_congr_left
    intro q hq
    simp only [Function.comp_apply]
    by_cases e : q.id = p.id
    · have := hun q (hqs q hq) e
      subst this
      rw [if_pos rfl]
      simp [retext, SPara.text]
    · rw [if_neg e]
      unfold retext
      rw [if_neg (by simpa using e)]
  rw [this]
  exact hsub.map _

theorem Carries.replaceLoop {blocks : List Block} (rep : List Char) (h : Carries s K ps ts)
    (hE : Entities ps blocks) (vs : List ValidMatch) (hv : ∀ v ∈ vs, v.block < blocks.length) :
    ∃ s', Store.replaceLoop rep blocks vs s = some s' ∧ Rewritten s' K ts ps (rewriteMatches rep blocks vs) ∧
      s'.documents = s.documents ∧ s'.counters = s.counters ∧ SameShell s s' ∧
      (∀ i, s'.blocks i = s.blocks i) := by
  induction vs with
  | nil => exact ⟨s, rfl, ⟨K, h, fun qs _ hq => hq⟩, rfl, rfl, .refl s, fun _ => rfl⟩
  | cons v vs ih =>
    obtain ⟨s1, e1, ⟨K1, h1, hK1⟩, hd1, hc1, hsh1, hb1⟩ := ih fun v hv' => hv v (by simp [hv'])
    have hlt := hv v (by simp)
    obtain ⟨q, hq, hqb⟩ := hE.all blocks[v.block] (List.getElem_mem hlt)
    have hqid : blocks[v.block].id = q.id := by rw [hqb]
    have hpid : v.pid blocks = q.id := by
      simp [Store.ValidMatch.pid, List.getElem?_eq_getElem hlt, hqid]
    have hq1 : q.id ∈ (rewriteMatches rep blocks vs ps).map SPara.id := by
      rw [rewriteMatches_ids]; exact List.mem_map_of_mem hq
    obtain ⟨q', hq', hqq⟩ := List.mem_map.mp hq1
    obtain ⟨blk, hblk, _⟩ := h1.block q' hq'
    obtain ⟨s2, e2, ⟨K2, h2, hK2⟩, hd2, hc2, hsh2, hb2⟩ := h1.replaceAt rep v.off v.len hq' hblk
    refine ⟨s2, ?_, ⟨K2, ?_, ?_⟩, hd2.trans hd1, hc2.trans hc1, hsh1.trans hsh2, fun i => (hb2 i).trans (hb1 i)⟩
    · simp only [Store.replaceLoop]
      rw [e1, Option.bind_some, List.getElem?_eq_getElem hlt, Option.bind_some, hqid, ← hqq, hblk,
        Option.bind_some, e2]
    · rw [hqq] at h2
      simp only [rewriteMatches, List.foldr_cons, hpid]
      exact h2
    · intro qs hqs hsub
      have := hK2 (rewriteMatches rep blocks vs qs) (by
        intro x hx
        rw [rewriteMatches_eq] at hx ⊢
        obtain ⟨y, hy, rfl⟩ := List.mem_map.mp hx
        exact List.mem_map.mpr ⟨y, hqs y hy, rfl⟩) (hK1 qs hqs hsub)
      rw [hqq] at this
      simp only [rewriteMatches, List.foldr_cons, hpid] at this ⊢
      exact this

/-- A rope for given paragraphs. -/
theorem exists_repr (ps : List SPara) (hn : (ps.map SPara.id).Nodup) : ∃ st, Repr st (paras ps) := by
  have : ∀ (R L : List SPara) (st : RopeSt), Repr st (paras L) → ((L ++ R).map SPara.id).Nodup → ∃ st', Repr st' (paras (L ++ R)) := by
    intro R
    induction R with
    | nil => intro L st h _; exact ⟨st, by simpa using h⟩
    | cons q R ih =>
      intro L st h hn
      have hq : q.id ∉ L.map SPara.id := by
        rw [List.map_append, List.nodup_append] at hn
        intro hm
        exact hn.2.2 _ hm _ (by simp) rfl
      have hstep : ∃ st', Repr st' (paras (L ++ [q])) := by
        rw [paras_append]
        by_cases hL : L = []
        · subst hL
          exact ⟨_, appendFirst_repr q.text h⟩
        · refine ⟨_, appendNext_repr q.text h (by simpa [paras] using hL) ?_⟩
          intro hm
          rw [paras_fst] at hm
          obtain ⟨x, hx, e⟩ := List.mem_map.mp hm
          exact hq (List.mem_map.mpr ⟨x, hx, by simpa using e⟩)
      obtain ⟨st', h'⟩ := hstep
      have := ih (L ++ [q]) st' h' (by simpa using hn)
      simpa using this
  simpa using this ps [] ropeReset reset_repr (by simpa using hn)

/-! ### The same paragraphs without tables -/

/-- The store with the paragraphs `ps` alone, as one frame and as one text. -/
def plainStore (s : Store) (d : Document) (fr : Frame) (ps : List SPara) (st : RopeSt) : Store :=
  { s with
    rope := st.rope
    blockOffsets := st.idx
    frames := IdMap.empty.insert fr.id { fr with childOrder := ps.map fun p => (p.id : Int), blocks := ps.map SPara.id }
    documents := s.documents.insert d.id { d with frames := [fr.id], tables := [] } }

theorem Tabled.plain (h : Tabled s d f items) : ∃ fr st, fr.id = f ∧
    Flat (plainStore s d fr (flowParas items) st) { d with frames := [f], tables := [] } f (flowParas items) := by
  obtain ⟨L, hH, hsub⟩ := h.content
  obtain ⟨fr, f1, f2, f3, f4, f5, f6, f7⟩ := h.frame
  obtain ⟨st, hst⟩ := exists_repr _ hH.ids_nodup
  refine ⟨fr, st, f2, ?_⟩
  have hframes : ∀ g, (plainStore s d fr (flowParas items) st).frames g =
      if g = f then some { fr with childOrder := (flowParas items).map fun p => (p.id : Int), blocks := (flowParas items).map SPara.id } else none := by
    intro g
    show (IdMap.empty.insert fr.id _) g = _
    rw [IdMap.insert_get, f2]; rfl
  refine { root := h.root, document := ?_, text := hst, keys := hH.keys, block := hH.block, absent := fun i hi => hH.absent hi,
           formats := hH.formats, images := hH.images, fresh := hH.fresh, frames := rfl, tables := rfl, frame := ?_,
           others := ?_, positive := h.positive, nonempty := h.flow_nonempty, plain := ?_ }
  · show (s.documents.insert d.id _) d.id = _
    rw [IdMap.insert_get, if_pos rfl, f2]
  · exact ⟨_, (hframes f).trans (if_pos rfl), f2, rfl, .refl _⟩
  · intro g fr' hg hne
    rw [hframes, if_neg hne] at hg
    cases hg
  · intro fr' hg
    rw [hframes, if_pos rfl] at hg
    cases hg
    exact ⟨f4, f5⟩

/-! ### The searched text and the blocks -/

theorem Tabled.sortedBlocks_placed (h : Tabled s d f items) (hp : Placed s (flowParas items)) :
    s.sortedBlocks d.id = placed 0 (flowParas items) := by
  have e : ((flowParas items).map fun p => p.entity (s.storedPos p)) = placed 0 (flowParas items) := by
    apply map_entity_placed
    intro L p R e
    obtain ⟨b, h1, h2⟩ := hp L p R e
    simp [Store.storedPos, h1, h2]
  refine eq_of_sorted Block.documentPosition ?_ (sortByKey_sorted _ _) (placed_strict 0 _)
  rw [← e]
  exact (sortByKey_perm _ _).trans (by
      have := h.blocksOf
      unfold Store.getBlocks at this ⊢
      rw [List.filterMap_flatMap]; exact this)

theorem Legible.joinedText (h : Legible s ps) : ∀ (r : Int) (qs : List SPara), (∀ q ∈ qs, q ∈ ps) →
    Store.joinedText s.text (placed r qs) = some (docText qs) := by
  intro r qs
  induction qs generalizing r with
  | nil => intro _; rfl
  | cons q qs ih =>
    intro hq
    have hi := ih (r + (q.text.length + 1)) fun x hx => hq x (by simp [hx])
    cases qs with
    | nil =>
      show blockContent s.text q.id = _
      rw [h.content (hq q (by simp))]
      simp [docText, joinNl]
    | cons x qs =>
      simp only [placed] at hi ⊢
      simp only [Store.joinedText]
      have hid : ∀ r, (q.entity r).id = q.id := fun _ => rfl
      rw [hid, h.content (hq q (by simp)), Option.bind_some, hi, Option.map_some]
      simp [docText, joinNl]

/-- The searched text is the text of the document in reading order. -/
theorem Tabled.searchText (h : Tabled s d f items) (ht : tablesOf items ≠ []) :
    s.searchText d.id = some (docText (flowParas items)) := by
  obtain ⟨L, hH, hsub⟩ := h.content
  have hp := placed_of_seated (h.seated ht)
  unfold Store.searchText
  have : ropeFlatTextIfSimple s.text (s.docFrames d.id).length = none := by
    unfold ropeFlatTextIfSimple
    rw [if_pos]
    obtain ⟨rest, h1, h2⟩ := h.frames
    have hdf : s.docFrames d.id = f :: rest := by unfold Store.docFrames; rw [h.document, ← h1]; rfl
    rw [hdf]
    obtain ⟨t, T, e⟩ := List.exists_cons_of_ne_nil ht
    have : 0 < (tableFrames items).length := by
      apply List.length_pos_of_mem (a := t.anchor)
      rw [mem_tableFrames_iff]
      exact ⟨t, by rw [e]; simp, .inl rfl⟩
    have := h2.length_eq
    simp only [List.length_cons]; omega
  rw [this, h.sortedBlocks_placed hp]
  exact hH.legible.joinedText 0 _ fun q hq => hq

end Verif

namespace Verif

variable {s s' : Store} {d : Document} {f : Nat} {ps A B : List SPara} {p : SPara} {ts : List Nat} {K : List Para}
  {items : List SItem} {a b m : List SChar}
open Store

/-! ### The matches -/

theorem blockForPosition_congr {st st' : RopeSt} {bs : List Block}
    (h : ∀ x ∈ bs, blockCharLength st x.id = blockCharLength st' x.id) (pos i : Nat) :
    Store.blockForPosition st pos i bs = Store.blockForPosition st' pos i bs := by
  induction bs generalizing i with
  | nil => rfl
  | cons x bs ih =>
    simp only [Store.blockForPosition]
    rw [h x (by simp), ih fun y hy => h y (by simp [hy])]

theorem matchInBlock_congr {st st' : RopeSt} {bs : List Block}
    (h : ∀ x ∈ bs, blockCharLength st x.id = blockCharLength st' x.id) (m : Nat × Nat) :
    Store.matchInBlock st bs m = Store.matchInBlock st' bs m := by
  unfold Store.matchInBlock
  rw [blockForPosition_congr h]

theorem validMatches_congr {st st' : RopeSt} {bs : List Block}
    (h : ∀ x ∈ bs, blockCharLength st x.id = blockCharLength st' x.id) (ms : List (Nat × Nat)) :
    Store.validMatches st bs ms = Store.validMatches st' bs ms := by
  induction ms with
  | nil => rfl
  | cons m ms ih =>
    simp only [Store.validMatches]
    rw [ih, matchInBlock_congr h]

theorem updateBlocks_same (bs : List Block) : ∀ (s1 s : Store), (∀ i, s1.blocks i = s.blocks i) →
    ∀ i, (s1.updateBlocks bs).blocks i = (s.updateBlocks bs).blocks i := by
  induction bs with
  | nil => intro s1 s hh i; exact hh i
  | cons x bs ih =>
    intro s1 s hh i
    apply ih
    intro i
    show (s1.blocks.insert x.id (Store.keepBlock x (s1.blocks x.id))) i =
      (s.blocks.insert x.id (Store.keepBlock x (s.blocks x.id))) i
    rw [IdMap.insert_get, IdMap.insert_get, hh x.id, hh i]

theorem shiftedBlocks_none (n : Nat) (bl bs : List Block) : shiftedBlocks n [] bl 0 bs = [] := by
  induction bs with
  | nil => rfl
  | cons x bs ih =>
    simp only [shiftedBlocks]
    have : ((bl.findIdx? fun y => y.id == x.id).bind (deltaOf n [])).getD 0 = 0 := by
      cases bl.findIdx? fun y => y.id == x.id <;> simp [deltaOf]
    rw [this]; simpa using ih

/-- What `execute_replace` does with a list of matches, in a document with tables. -/
theorem Tabled.replaceMatches {blocks : List Block} (h : Tabled s d f items) (hH : Carries s K (flowParas items) ts)
    (hbl : s.sortedBlocks d.id = blocks) (hE : Entities (flowParas items) blocks) (rep : List Char) (all : Bool)
    (ms : List (Nat × Nat)) {vs0 vs : List ValidMatch} {sk : Nat} (hv1 : Store.validMatches s.text blocks ms = some (vs0, sk))
    (hvs : vs = if all then vs0 else vs0.take 1) (hlt : ∀ v ∈ vs, v.block < blocks.length) :
    ∃ s', s.replaceMatches d.id rep all ms = some (s', ⟨vs.length, sk⟩) ∧
      Rewritten s' K ts (flowParas items) (rewriteMatches rep blocks vs) ∧
      s'.documents d.id = some { d with characterCount := d.characterCount + (vs.map fun v => (rep.length : Int) - (v.len : Int)).sum } ∧
      SameShell s s' ∧ s'.counters = s.counters ∧
      (∀ i, s'.blocks i = (s.updateBlocks (shiftedBlocks rep.length vs blocks 0 blocks)).blocks i) := by
  have hd0 : ({ d with characterCount := d.characterCount + (([] : List ValidMatch).map
      fun v => (rep.length : Int) - (v.len : Int)).sum } : Document) = d := by simp
  unfold Store.replaceMatches
  by_cases hms : ms = []
  · subst hms
    simp only [Store.validMatches, Option.some.injEq, Prod.mk.injEq] at hv1
    obtain ⟨rfl, rfl⟩ := hv1
    have : vs = [] := by rw [hvs]; split <;> rfl
    subst this
    rw [if_pos rfl, hd0]
    exact ⟨s, rfl, ⟨K, hH, fun _ _ hq => hq⟩, h.document, .refl s, rfl, fun i => by rw [shiftedBlocks_none]; rfl⟩
  rw [if_neg hms]
  dsimp only
  rw [hbl, hv1, Option.bind_some]
  dsimp only
  rw [← hvs]
  by_cases h0 : vs = []
  · rw [if_pos h0]
    subst h0
    rw [hd0]
    exact ⟨s, rfl, ⟨K, hH, fun _ _ hq => hq⟩, h.document, .refl s, rfl, fun i => by rw [shiftedBlocks_none]; rfl⟩
  rw [if_neg h0]
  obtain ⟨s1, e1, ⟨K1, hS1, hK1⟩, hd1, hc1, hsh1, hb1⟩ := hH.replaceLoop rep hE vs hlt
  rw [e1, Option.bind_some]
  have hids := rewriteMatches_ids rep blocks vs (flowParas items)
  have hsb : s1.sortedBlocks d.id = blocks := by
    rw [← hbl]
    unfold Store.sortedBlocks Store.getBlocks Store.docFrames Store.frameBlocks
    rw [hd1, hsh1.frames]
    rw [show (fun i => s1.blocks i) = fun i => s.blocks i from funext hb1]
  rw [hsb]
  have hmem : ∀ y ∈ shiftedBlocks rep.length vs blocks 0 blocks,
      ∃ q ∈ rewriteMatches rep blocks vs (flowParas items), IsBlock q y := by
    intro y hy
    obtain ⟨z, hz, k, rfl⟩ := shiftedBlocks_mem hy
    obtain ⟨q, hq, hqz⟩ := hE.all z hz
    rw [rewriteMatches_eq]
    refine ⟨_, List.mem_map.mpr ⟨q, hq, rfl⟩, ?_⟩
    rw [hqz]; rfl
  have hS2 := hS1.updateBlocks hmem
  obtain ⟨hsh2, hd2, hc2⟩ := updateBlocks_shell s1 (shiftedBlocks rep.length vs blocks 0 blocks)
  rw [hd2, hd1, h.document, Option.map_some]
  refine ⟨_, rfl, ⟨K1, ?_, hK1⟩, ?_, (hsh1.trans hsh2).trans ⟨rfl, rfl, rfl, rfl, rfl, rfl⟩, hc2.trans hc1, ?_⟩
  · exact hS2.of_same rfl rfl rfl rfl rfl
  · simp [Store.updateDocument, Store.keepDoc, hd2, hd1, h.document, IdMap.insert_get]
  · exact updateBlocks_same _ s1 s hb1

/-! ### What the store tells about the characters -/

theorem byteFmts_inj : ∀ {cs cs' : List SChar}, cs.map Prod.fst = cs'.map Prod.fst → byteFmts cs = byteFmts cs' → cs = cs' := by
  intro cs
  induction cs with
  | nil => intro cs' h _; cases cs' with
    | nil => rfl
    | cons c cs' => simp at h
  | cons c cs ih =>
    intro cs' h hb
    cases cs' with
    | nil => simp at h
    | cons c' cs' =>
      simp only [List.map_cons, List.cons.injEq] at h
      have hpos : 0 < c.1.utf8Size := c.1.utf8Size_pos
      obtain ⟨c1, c2⟩ := c
      obtain ⟨c1', c2'⟩ := c'
      simp only at h hpos
      obtain ⟨rfl, h⟩ := h
      simp only [byteFmts, List.flatMap_cons] at hb
      have hb' := List.append_inj hb (by simp)
      have e2 : c2 = c2' := by
        obtain ⟨n, hn⟩ : ∃ n, c1.utf8Size = n + 1 := ⟨c1.utf8Size - 1, by omega⟩
        have := hb'.1
        rw [hn, List.replicate_succ, List.replicate_succ] at this
        exact (List.cons.inj this).1
      rw [e2, ih h hb'.2]

theorem StyledOk.unique {runs : List (Run CharFormat)} {cs cs' : List SChar} (h : StyledOk runs cs) (h' : StyledOk runs cs')
    (ht : cs.map Prod.fst = cs'.map Prod.fst) : cs = cs' := by
  apply byteFmts_inj ht
  have hl : ∀ l : List SChar, (byteFmts l).length = utf8Len (l.map Prod.fst) := by
    intro l; exact byteFmts_length l
  apply List.ext_getElem
  · rw [hl, hl, ht]
  · intro i h1 h2
    have e := (h.fmt i).symm.trans (h'.fmt i)
    rw [List.getElem?_eq_getElem h1, List.getElem?_eq_getElem h2] at e
    simpa using e

theorem Flat.chars_unique {d d' : Document} {f f' : Nat} {ps ps' : List SPara} (h : Flat s d f ps) (h' : Flat s d' f' ps') {p p' : SPara} (hp : p ∈ ps)
    (hp' : p' ∈ ps') (e : p'.id = p.id) : p'.chars = p.chars := by
  have h1 := h.content hp
  have h2 := h'.content hp'
  rw [e, h1] at h2
  have hf := h.formats p hp
  have hf' := h'.formats p' hp'
  rw [e] at hf'
  refine hf'.unique hf ?_
  simpa [SPara.text] using h2.symm

/-- Search and replace in a document with tables gives what it gives in the document of the same paragraphs without tables. -/
theorem Tabled.replace_plain (h : Tabled s d f items) (ht : tablesOf items ≠ []) :
    ∃ s0 d0, Flat s0 d0 f (flowParas items) ∧ Placed s0 (flowParas items) ∧ d0.characterCount = d.characterCount ∧
      ∀ env dto s1 r sn d1 g, s0.replaceText env dto = some (s1, r, sn) → Flat s1 d1 f ((flowParas items).map g) →
        Placed s1 ((flowParas items).map g) → (∀ p, (g p).id = p.id ∧ (g p).shape = p.shape) →
        ∃ s', s.replaceText env dto = some (s', r, s.snapshot) ∧
          Tabled s' { d with characterCount := d1.characterCount } f (items.map (SItem.on g)) ∧ SameShell s s' := by
  obtain ⟨K, hH, hsub⟩ := h.content
  have hpl := placed_of_seated (h.seated ht)
  obtain ⟨fr, st, hfr, F⟩ := h.plain
  generalize hs0 : plainStore s d fr (flowParas items) st = s0 at F
  have hb0 : s0.blocks = s.blocks := by rw [← hs0]; rfl
  have hp0 : Placed s0 (flowParas items) := by
    intro X p Y e
    obtain ⟨b, k1, k2⟩ := hpl X p Y e
    exact ⟨b, by rw [hb0]; exact k1, k2⟩
  refine ⟨s0, _, F, hp0, rfl, ?_⟩
  intro env dto s1 r sn d1 g hrun F1 P1 hg
  have hsb0 := F.sortedBlocks_placed hp0
  have hsb := h.sortedBlocks_placed hpl
  have hE : Entities (flowParas items) (placed 0 (flowParas items)) := by rw [← hsb0]; exact F.listed.entities
  have hcong : ∀ x ∈ placed 0 (flowParas items), blockCharLength s.text x.id = blockCharLength s0.text x.id := by
    intro x hx
    obtain ⟨q, hq, hqx⟩ := hE.all x hx
    have : x.id = q.id := by rw [hqx]
    rw [this, hH.charLength hq, F.charLength hq]
  unfold Store.replaceText at hrun ⊢
  rw [F.docId, Option.bind_some] at hrun
  dsimp only at hrun
  rw [F.searchText, Option.bind_some] at hrun
  rw [h.docIdOf, Option.bind_some]
  dsimp only
  rw [h.searchText ht, Option.bind_some]
  cases hm : findAllMatches env (docText (flowParas items)) dto.query dto.caseSensitive dto.wholeWord dto.useRegex with
  | none => rw [hm] at hrun; cases hrun
  | some ms =>
    rw [hm, Option.bind_some] at hrun
    rw [Option.bind_some]
    obtain ⟨sk, hv1, hv2⟩ := F.toShows.validMatches _ hE.all ms
    obtain ⟨s1', sk', k1, k2, k3, _, _, k4⟩ := F.replaceMatches dto.replacement dto.replaceAll ms rfl
    rw [hsb0] at k1 k2 k3 k4
    rw [k1, Option.map_some] at hrun
    simp only [Option.some.injEq, Prod.mk.injEq] at hrun
    obtain ⟨rfl, rfl, _⟩ := hrun
    have hsk : sk' = sk := by omega
    subst hsk
    generalize hvs : (if dto.replaceAll then ms.filterMap (placeMatch s0 (placed 0 (flowParas items)))
      else (ms.filterMap (placeMatch s0 (placed 0 (flowParas items)))).take 1) = vs at *
    have hlt : ∀ v ∈ vs, v.block < (placed 0 (flowParas items)).length := by
      intro v hv
      have : v ∈ ms.filterMap (placeMatch s0 (placed 0 (flowParas items))) := by
        rw [← hvs] at hv
        split at hv
        · exact hv
        · exact List.mem_of_mem_take hv
      obtain ⟨m', hm', hmv⟩ := List.mem_filterMap.mp this
      obtain ⟨_, x, q, h2, _⟩ := (F.toShows.matchInBlock _ hE.all m').choose_spec.2 v hmv
      exact (List.getElem?_eq_some_iff.mp h2).1
    obtain ⟨s', r1, ⟨K', r2, r2'⟩, r3, r4, r5, r6⟩ := h.replaceMatches hH hsb hE dto.replacement dto.replaceAll ms
      (by rw [validMatches_congr hcong]; exact hv1) hvs.symm hlt
    rw [r1, Option.map_some]
    refine ⟨s', rfl, ?_⟩
    have hgm : ∀ p ∈ flowParas items, ({ p with chars := rewriteAll dto.replacement (minePairs (placed 0 (flowParas items)) vs p.id) p.chars } : SPara) = g p := by
      intro p hp
      have := k3.chars_unique F1 (p := { p with chars := rewriteAll dto.replacement (minePairs (placed 0 (flowParas items)) vs p.id) p.chars }) (p' := g p)
        (by rw [rewriteMatches_eq]; exact List.mem_map.mpr ⟨p, hp, rfl⟩) (List.mem_map_of_mem hp) (hg p).1
      obtain ⟨e1, e2⟩ := hg p
      rcases hgp : g p with ⟨i, c, sh⟩
      rw [hgp] at this e1 e2
      simp only at this e1 e2
      rw [this, e1, e2]
    have hrw : ∀ qs : List SPara, (∀ q ∈ qs, q ∈ flowParas items) →
        rewriteMatches dto.replacement (placed 0 (flowParas items)) vs qs = qs.map g := by
      intro qs hqs
      rw [rewriteMatches_eq]
      exact List.map_congr_left fun q hq => hgm q (hqs q hq)
    have hdd : d1.characterCount = d.characterCount + (vs.map fun v => (dto.replacement.length : Int) - (v.len : Int)).sum := by
      have e1 := F1.docId
      have e2 := k3.docId
      rw [e1] at e2
      simp only [Option.some.injEq] at e2
      have e3 := F1.document
      rw [e2, k3.document] at e3
      simp only [Option.some.injEq] at e3
      rw [← e3]
    rw [hdd]
    rw [hrw _ fun q hq => hq] at r2
    refine ⟨?_, r4⟩
    refine h.on (fun p => (hg p).1) r2 ?_ ?_ r3 rfl rfl rfl r4.roots r4.frames r4.tables r4.tableCells ?_
    · rw [← hrw _ fun q hq => (topParas_sublist items).subset hq]
      exact r2' _ (fun q hq => (topParas_sublist items).subset hq) hsub
    · intro _
      apply seated_of_placed
      intro X p Y e
      obtain ⟨b, k5, k6⟩ := P1 X p Y e
      refine ⟨b, ?_, k6⟩
      rw [r6, ← updateBlocks_same _ s0 s (fun i => by rw [hb0]), ← k4]
      exact k5
    · intro k; unfold Store.next; rw [r5]

end Verif
