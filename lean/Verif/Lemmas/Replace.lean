import Verif.Lemmas.Editing
import Verif.Lemmas.FlatDelete
import Verif.Lemmas.Import
import Verif.Model.Replace
import Verif.Spec.Replace
/- Search and replace on a flat document. -/
namespace Verif

variable {s : Store} {d : Document} {f : Nat} {ps L R M : List SPara} {p : SPara} {a b m : List SChar}

/-- `replace_in_block` on a paragraph. -/
theorem Shows.replaceInBlock {blk : Block} {so eo : Nat} (rep : List Char) (h : Shows s d (L ++ p :: R))
    (hc : p.chars = a ++ m ++ b) (hb : s.blocks p.id = some blk) (hso : p.chars.take so = a)
    (heo : p.chars.take eo = a ++ m) :
    ∃ s', s.replaceInBlock blk so eo rep = some s' ∧
      Shows s' d (L ++ { p with chars := a ++ styled rep (inheritFmt a) ++ b } :: R) ∧
      s'.documents = s.documents ∧ s'.counters = s.counters ∧ SameShell s s' ∧
      (∀ i, s'.blocks i = s.blocks i) := by
  have hpm : p ∈ L ++ p :: R := by simp
  have hbb : IsBlock p blk := by
    obtain ⟨b', h1, h2⟩ := h.block p hpm
    rw [hb] at h1; cases h1; exact h2
  have hid : blk.id = p.id := by rw [hbb]
  have h1 := h.updateBlock hpm hbb
  have ht := h1.text
  rw [paras_append, paras_cons] at ht
  have hpt : p.text = a.map Prod.fst ++ m.map Prod.fst ++ b.map Prod.fst := by simp [SPara.text, hc]
  rw [hpt] at ht
  obtain ⟨st1, hst1, hrep1⟩ := deleteInBlock_repr ht
  obtain ⟨st2, hst2, hrep2⟩ := insertInBlock_repr rep hrep1
  have hf := h.formats p hpm
  rw [hc] at hf
  have himg := h.images p hpm
  unfold Store.replaceInBlock
  rw [hid, h.content hpm, Option.bind_some]
  dsimp only
  have ho1 : logicalOffsetToByte p.text (s.imagesOf p.id) (so : Int) = utf8Len (a.map Prod.fst) := by
    rw [h.offset hpm, SPara.text, ← List.map_take, hso]
  have ho2 : logicalOffsetToByte p.text (s.imagesOf p.id) (eo : Int) =
      utf8Len (a.map Prod.fst) + utf8Len (m.map Prod.fst) := by
    rw [h.offset hpm, SPara.text, ← List.map_take, heo]; simp
  rw [ho1, ho2, slice_mid hc, Option.bind_some]
  generalize hs2 : Store.updateBlock (Store.editImages (s.editRuns p.id fun runs =>
      shiftRunsForInsert (shiftRunsForDelete runs (utf8Len (a.map Prod.fst))
        (utf8Len (a.map Prod.fst) + utf8Len (m.map Prod.fst))) (utf8Len (a.map Prod.fst)) (utf8Len rep)) p.id
      fun im => shiftImagesForInsert (shiftImagesForDelete im (utf8Len (a.map Prod.fst))
        (utf8Len (a.map Prod.fst) + utf8Len (m.map Prod.fst))).1 (utf8Len (a.map Prod.fst)) (utf8Len rep))
      blk = s2
  have e1 : s2.text = (s.updateBlock blk).text := by rw [← hs2]; rfl
  have e4 : s2.blocks = (s.updateBlock blk).blocks := by rw [← hs2]; rfl
  rw [e1, hst1, Option.bind_some, hst2, Option.map_some]
  refine ⟨_, rfl, ?_, by rw [← hs2]; rfl, by rw [← hs2]; rfl, ?_, ?_⟩
  · refine h1.replace _ (by rw [← hs2]; rfl) (by rw [← hs2]; rfl) e4 (by rw [← hs2]; rfl) ?_ ?_ ?_ ?_ ?_
    · show Repr ⟨st2.rope, st2.idx⟩ _
      rw [paras_append, paras_cons]
      simpa [SPara.text, Function.comp_def, styled] using hrep2
    · intro i hi
      rw [← hs2]
      simp only [Store.withText, Store.editImages, Store.editRuns, Store.updateBlock, IdMap.insert, hi, if_false]
    · rw [← hs2]
      simp only [Store.withText, Store.editImages, Store.editRuns, Store.updateBlock, IdMap.insert, if_true,
        Option.getD_some]
      exact (hf.delete).insert rep
    · intro i hi
      rw [← hs2]
      simp only [Store.withText, Store.editImages, Store.editRuns, Store.updateBlock, IdMap.insert, hi, if_false]
    · rw [← hs2]
      simp only [Store.withText, Store.editImages, Store.editRuns, Store.updateBlock, IdMap.insert, if_true,
        Option.getD_some, himg]
      simp only [shiftImagesForDelete]
      split <;> simp [shiftImagesAfter, shiftImagesForInsert]
  · rw [← hs2]; exact ⟨rfl, rfl, rfl, rfl, rfl, rfl⟩
  · intro i
    show s2.blocks i = s.blocks i
    rw [e4]
    show (s.blocks.insert blk.id (Store.keepBlock blk (s.blocks blk.id))) i = s.blocks i
    rw [IdMap.insert_get]
    split
    · next e => rw [hid] at e ⊢; rw [e, hb]; rfl
    · rfl

/-- Rewrite one stretch of the paragraph with a given identity. -/
def rewriteIn (rep : List Char) (id off len : Nat) (ps : List SPara) : List SPara :=
  ps.map fun p => if p.id = id then { p with chars := rewriteAt rep off len p.chars } else p

theorem rewriteIn_ids (rep : List Char) (id off len : Nat) (ps : List SPara) :
    (rewriteIn rep id off len ps).map SPara.id = ps.map SPara.id := by
  unfold rewriteIn
  rw [List.map_map]
  apply List.map_congr_left
  intro p _
  simp only [Function.comp_apply]
  split <;> rfl

theorem Shows.replaceAt {blk : Block} (rep : List Char) (off len : Nat) (h : Shows s d ps) (hp : p ∈ ps)
    (hb : s.blocks p.id = some blk) :
    ∃ s', s.replaceInBlock blk off (off + len) rep = some s' ∧
      Shows s' d (rewriteIn rep p.id off len ps) ∧
      s'.documents = s.documents ∧ s'.counters = s.counters ∧ SameShell s s' ∧
      (∀ i, s'.blocks i = s.blocks i) := by
  have hnd := h.ids_nodup
  obtain ⟨L, R, rfl⟩ := List.append_of_mem hp
  have hne : ∀ q ∈ L ++ R, q.id ≠ p.id := by
    intro q hq
    simp only [List.map_append, List.map_cons, List.nodup_append, List.nodup_cons] at hnd
    rcases List.mem_append.mp hq with hq | hq
    · exact hnd.2.2 q.id (List.mem_map_of_mem hq) p.id (by simp)
    · intro e; exact hnd.2.1.1 (e ▸ List.mem_map_of_mem hq)
  have hrw : rewriteIn rep p.id off len (L ++ p :: R) =
      L ++ { p with chars := rewriteAt rep off len p.chars } :: R := by
    have hm : ∀ l : List SPara, (∀ q ∈ l, q.id ≠ p.id) →
        l.map (fun x => if x.id = p.id then ({ x with chars := rewriteAt rep off len x.chars } : SPara) else x) = l := by
      intro l hl
      have : l.map (fun x => if x.id = p.id then ({ x with chars := rewriteAt rep off len x.chars } : SPara)
          else x) = l.map id := List.map_congr_left fun q hq => if_neg (hl q hq)
      rw [this, List.map_id]
    unfold rewriteIn
    rw [List.map_append, List.map_cons, if_pos rfl, hm L fun q hq => hne q (by simp [hq]),
      hm R fun q hq => hne q (by simp [hq])]
  rw [hrw]
  refine h.replaceInBlock (a := p.chars.take off) (m := (p.chars.drop off).take len)
    (b := p.chars.drop (off + len)) rep ?_ hb rfl ?_
  · rw [List.append_assoc, ← List.drop_drop, List.take_append_drop, List.take_append_drop]
  · rw [List.take_add]

/-- The identity of the paragraph of a match. -/
def Store.ValidMatch.pid (blocks : List Block) (v : Store.ValidMatch) : Nat :=
  ((blocks[v.block]?).map Block.id).getD 0

/-- The paragraphs after the matches `vs` are rewritten. -/
def rewriteMatches (rep : List Char) (blocks : List Block) (vs : List Store.ValidMatch) (ps : List SPara) :
    List SPara :=
  vs.foldr (fun v ps => rewriteIn rep (v.pid blocks) v.off v.len ps) ps

theorem rewriteMatches_ids (rep : List Char) (blocks : List Block) (vs : List Store.ValidMatch)
    (ps : List SPara) : (rewriteMatches rep blocks vs ps).map SPara.id = ps.map SPara.id := by
  induction vs with
  | nil => rfl
  | cons v vs ih => simp only [rewriteMatches, List.foldr_cons] at ih ⊢; rw [rewriteIn_ids, ih]

theorem Shows.replaceLoop {blocks : List Block} (rep : List Char) (h : Shows s d ps)
    (hE : Entities ps blocks) (vs : List Store.ValidMatch) (hv : ∀ v ∈ vs, v.block < blocks.length) :
    ∃ s', Store.replaceLoop rep blocks vs s = some s' ∧ Shows s' d (rewriteMatches rep blocks vs ps) ∧
      s'.documents = s.documents ∧ s'.counters = s.counters ∧ SameShell s s' ∧
      (∀ i, s'.blocks i = s.blocks i) := by
  induction vs with
  | nil => exact ⟨s, rfl, h, rfl, rfl, .refl s, fun _ => rfl⟩
  | cons v vs ih =>
    obtain ⟨s1, e1, h1, hd1, hc1, hsh1, hb1⟩ := ih fun v hv' => hv v (by simp [hv'])
    have hlt := hv v (by simp)
    obtain ⟨q, hq, hqb⟩ := hE.all blocks[v.block] (List.getElem_mem hlt)
    have hqid : blocks[v.block].id = q.id := by rw [hqb]
    have hpid : v.pid blocks = q.id := by
      simp [Store.ValidMatch.pid, List.getElem?_eq_getElem hlt, hqid]
    have hq1 : q.id ∈ (rewriteMatches rep blocks vs ps).map SPara.id := by
      rw [rewriteMatches_ids]; exact List.mem_map_of_mem hq
    obtain ⟨q', hq', hqq⟩ := List.mem_map.mp hq1
    obtain ⟨blk, hblk, _⟩ := h1.block q' hq'
    obtain ⟨s2, e2, h2, hd2, hc2, hsh2, hb2⟩ := h1.replaceAt rep v.off v.len hq' hblk
    refine ⟨s2, ?_, ?_, hd2.trans hd1, hc2.trans hc1, hsh1.trans hsh2, fun i => (hb2 i).trans (hb1 i)⟩
    · simp only [Store.replaceLoop]
      rw [e1, Option.bind_some, List.getElem?_eq_getElem hlt, Option.bind_some, hqid, ← hqq, hblk,
        Option.bind_some, e2]
    · rw [hqq] at h2
      simp only [rewriteMatches, List.foldr_cons, hpid]
      exact h2

/-- The matches of one paragraph. -/
def minePairs (blocks : List Block) (vs : List Store.ValidMatch) (id : Nat) : List (Nat × Nat) :=
  (vs.filter fun v => v.pid blocks == id).map fun v => (v.off, v.len)

/-- Paragraph by paragraph. -/
theorem rewriteMatches_eq (rep : List Char) (blocks : List Block) (vs : List Store.ValidMatch)
    (ps : List SPara) :
    rewriteMatches rep blocks vs ps =
      ps.map fun p => { p with chars := rewriteAll rep (minePairs blocks vs p.id) p.chars } := by
  induction vs with
  | nil =>
    simp only [rewriteMatches, List.foldr_nil, minePairs, List.filter_nil, List.map_nil, rewriteAll]
    exact (List.map_id ps).symm
  | cons v vs ih =>
    simp only [rewriteMatches, List.foldr_cons] at ih ⊢
    rw [ih, rewriteIn, List.map_map]
    apply List.map_congr_left
    intro p _
    simp only [Function.comp_apply, minePairs, List.filter_cons]
    by_cases e : p.id = v.pid blocks
    · rw [if_pos e, if_pos (by simp [e])]; rfl
    · rw [if_neg e, if_neg (by simpa using fun h => e h.symm)]

/-! ### Rewriting stretches that do not overlap -/

theorem rewriteAll_cons (rep : List Char) (m : Nat × Nat) (ms : List (Nat × Nat)) (cs : List SChar) :
    rewriteAll rep (m :: ms) cs = rewriteAt rep m.1 m.2 (rewriteAll rep ms cs) := rfl

theorem rewriteAll_take (rep : List Char) (ms : List (Nat × Nat)) (cs : List SChar) (k : Nat)
    (hk : ∀ m ∈ ms, k ≤ m.1) (hin : ∀ m ∈ ms, m.1 ≤ cs.length) :
    (rewriteAll rep ms cs).take k = cs.take k := by
  induction ms with
  | nil => rfl
  | cons m ms ih =>
    rw [rewriteAll_cons, rewriteAt]
    have h1 := hk m (by simp)
    have hi := ih (fun x hx => hk x (by simp [hx])) (fun x hx => hin x (by simp [hx]))
    have hlen : k ≤ (rewriteAll rep ms cs).length := by
      have := congrArg List.length hi
      have := hin m (by simp)
      simp only [List.length_take] at *
      omega
    rw [List.append_assoc, List.take_append_of_le_length (by simp; omega), List.take_take,
      Nat.min_eq_left h1, hi]

theorem rewriteAll_length (rep : List Char) (ms : List (Nat × Nat)) (cs : List SChar) (ha : Apart ms)
    (hin : ∀ m ∈ ms, m.1 + m.2 ≤ cs.length) :
    ((rewriteAll rep ms cs).length : Int) =
      cs.length + (ms.map fun m => (rep.length : Int) - (m.2 : Int)).sum := by
  induction ms with
  | nil => simp [rewriteAll]
  | cons m ms ih =>
    rw [Apart, List.pairwise_cons] at ha
    have hi := ih ha.2 fun x hx => hin x (by simp [hx])
    have ht := rewriteAll_take rep ms cs (m.1 + m.2) (fun x hx => ha.1 x hx)
      (fun x hx => by have := hin x (by simp [hx]); omega)
    have hm := hin m (by simp)
    have hl := congrArg List.length ht
    simp only [List.length_take] at hl
    rw [rewriteAll_cons, rewriteAt]
    simp only [List.length_append, List.length_take, List.length_drop, styled, List.length_map,
      List.map_cons, List.sum_cons]
    omega

end Verif

namespace Verif
variable {s : Store} {d : Document} {f : Nat} {ps L R M : List SPara} {p : SPara} {a b m : List SChar}
open Store

/-! ### The blocks, the matches and the stored positions -/

/-- What the list of blocks is: the stored entities of the paragraphs, each once. -/
structure Listed (s : Store) (ps : List SPara) (blocks : List Block) : Prop where
  entities : Entities ps blocks
  stored : ∀ x ∈ blocks, s.blocks x.id = some x
  nodup : (blocks.map Block.id).Nodup

theorem Flat.frameBlocks {fr : Frame} (hf : s.frames f = some fr) : s.frameBlocks f = fr.blocks := by
  simp [Store.frameBlocks, hf]

theorem Flat.sortedBlocks_perm (h : Flat s d f ps) :
    (s.sortedBlocks d.id).Perm (ps.map fun p => p.entity (s.storedPos p)) := by
  obtain ⟨fr, h1, h2, h3, h4⟩ := h.frame
  unfold Store.sortedBlocks
  refine (sortByKey_perm _ _).trans ?_
  rw [h.docFrames]
  simp only [List.flatMap_cons, List.flatMap_nil, List.append_nil, Flat.frameBlocks h1]
  rw [← h.getBlocks]
  exact h4.filterMap _

theorem Flat.listed (h : Flat s d f ps) : Listed s ps (s.sortedBlocks d.id) := by
  have hp := h.sortedBlocks_perm
  refine ⟨⟨?_, ?_⟩, ?_, ?_⟩
  · intro x hx
    obtain ⟨q, hq, rfl⟩ := List.mem_map.mp (hp.mem_iff.mp hx)
    exact ⟨q, hq, isBlock_entity _ _⟩
  · intro q hq
    exact ⟨_, hp.mem_iff.mpr (List.mem_map_of_mem hq), rfl⟩
  · intro x hx
    obtain ⟨q, hq, rfl⟩ := List.mem_map.mp (hp.mem_iff.mp hx)
    exact h.stored hq
  · have := hp.map Block.id
    rw [this.nodup_iff, List.map_map]
    exact h.ids_nodup

/-- A match as the code places it. -/
def placeMatch (s : Store) (blocks : List Block) (m : Nat × Nat) : Option ValidMatch :=
  ((matchInBlock s.text blocks m).join).map fun r => ⟨m.2, r.1, r.2⟩

theorem Shows.blockForPosition (h : Shows s d ps) (pos : Nat) (i : Nat) (blocks : List Block)
    (hb : ∀ x ∈ blocks, ∃ q ∈ ps, IsBlock q x) :
    ∃ r, Store.blockForPosition s.text pos i blocks = some r ∧
      ∀ j off len, r = some (j, off, len) → i ≤ j ∧ ∃ x q, blocks[j - i]? = some x ∧ q ∈ ps ∧ IsBlock q x ∧
        len = q.chars.length ∧ 0 ≤ x.documentPosition ∧ (pos : Int) = x.documentPosition + off := by
  induction blocks generalizing i with
  | nil => exact ⟨none, rfl, by simp⟩
  | cons x bs ih =>
    obtain ⟨q, hq, hqx⟩ := hb x (by simp)
    have hid : x.id = q.id := by rw [hqx]
    simp only [Store.blockForPosition]
    rw [hid, h.charLength hq, Option.bind_some]
    split
    · next hin =>
      refine ⟨_, rfl, ?_⟩
      rintro j off len e
      simp only [Option.some.injEq, Prod.mk.injEq] at e
      obtain ⟨rfl, rfl, rfl⟩ := e
      refine ⟨Nat.le_refl _, x, q, by simp, hq, hqx, by simp [SPara.text], hin.2.2, by omega⟩
    · obtain ⟨r, h1, h2⟩ := ih (i + 1) fun y hy => hb y (by simp [hy])
      refine ⟨r, h1, ?_⟩
      intro j off len e
      obtain ⟨h3, y, q', h4, h5⟩ := h2 j off len e
      refine ⟨by omega, y, q', ?_, h5⟩
      rw [show j - i = (j - (i + 1)) + 1 by omega, List.getElem?_cons_succ]; exact h4

/-- A placed match lies in its paragraph. -/
structure Fits (ps : List SPara) (blocks : List Block) (m : Nat × Nat) (v : ValidMatch) : Prop where
  len : v.len = m.2
  at_ : ∃ x q, blocks[v.block]? = some x ∧ q ∈ ps ∧ IsBlock q x ∧ v.off + v.len ≤ q.chars.length ∧
    (m.1 : Int) = x.documentPosition + v.off

theorem Shows.matchInBlock (h : Shows s d ps) (blocks : List Block)
    (hb : ∀ x ∈ blocks, ∃ q ∈ ps, IsBlock q x) (m : Nat × Nat) :
    ∃ r, Store.matchInBlock s.text blocks m = some r ∧
      ∀ v, placeMatch s blocks m = some v → Fits ps blocks m v := by
  obtain ⟨r, h1, h2⟩ := h.blockForPosition m.1 0 blocks hb
  unfold placeMatch Store.matchInBlock
  rw [h1]
  refine ⟨_, rfl, ?_⟩
  intro v hv
  simp only [Option.map_some, Option.join_some] at hv
  cases r with
  | none => simp at hv
  | some x =>
    obtain ⟨j, off, len⟩ := x
    simp only at hv
    split at hv
    · next hle =>
      simp only [Option.map_some, Option.some.injEq] at hv
      subst hv
      obtain ⟨_, x, q, h3, h4, h5, h6, h7, h8⟩ := h2 j off len rfl
      exact ⟨rfl, x, q, by simpa using h3, h4, h5, by simpa [h6] using hle, h8⟩
    · simp at hv

theorem Shows.validMatches (h : Shows s d ps) (blocks : List Block)
    (hb : ∀ x ∈ blocks, ∃ q ∈ ps, IsBlock q x) (ms : List (Nat × Nat)) :
    ∃ sk, Store.validMatches s.text blocks ms = some (ms.filterMap (placeMatch s blocks), sk) ∧
      (ms.filterMap (placeMatch s blocks)).length + sk = ms.length := by
  induction ms with
  | nil => exact ⟨0, rfl, rfl⟩
  | cons m ms ih =>
    obtain ⟨sk, h1, h2⟩ := ih
    obtain ⟨r, h3, _⟩ := h.matchInBlock blocks hb m
    simp only [Store.validMatches]
    rw [h3, Option.bind_some, h1, Option.map_some]
    cases r with
    | none =>
      have : placeMatch s blocks m = none := by simp [placeMatch, h3]
      rw [List.filterMap_cons_none this]
      exact ⟨sk + 1, rfl, by simp; omega⟩
    | some x =>
      have : placeMatch s blocks m = some ⟨m.2, x.1, x.2⟩ := by simp [placeMatch, h3]
      rw [List.filterMap_cons_some this]
      exact ⟨sk, rfl, by simp; omega⟩

/-- Matches that do not overlap give stretches that do not overlap, inside each paragraph. -/
theorem mine_apart {blocks : List Block} (hl : Listed s ps blocks) {ms : List (Nat × Nat)} {vs : List ValidMatch}
    (hs : Shows s d ps) (hv : vs.Sublist (ms.filterMap (placeMatch s blocks))) (ha : Apart ms) (hp : p ∈ ps) :
    Apart (minePairs blocks vs p.id) ∧ ∀ m ∈ minePairs blocks vs p.id, m.1 + m.2 ≤ p.chars.length := by
  have hfit : ∀ m v, placeMatch s blocks m = some v → Fits ps blocks m v := fun m v hmv =>
    (hs.matchInBlock blocks hl.entities.all m).choose_spec.2 v hmv
  have hpid : ∀ m v, placeMatch s blocks m = some v → v.pid blocks = p.id →
      ∃ x, s.blocks p.id = some x ∧ v.len = m.2 ∧ v.off + v.len ≤ p.chars.length ∧
        (m.1 : Int) = x.documentPosition + v.off := by
    intro m v hmv he
    obtain ⟨h1, x, q, h2, h3, h4, h5, h6⟩ := hfit m v hmv
    have hx : x.id = p.id := by rw [← he]; simp [Store.ValidMatch.pid, h2]
    have hq : q.id = p.id := by rw [← hx, h4]
    have := hs.unique hp h3 hq
    subst this
    refine ⟨x, ?_, h1, h5, h6⟩
    rw [← hx]; exact hl.stored x (List.mem_of_getElem? h2)
  constructor
  · unfold Apart minePairs
    rw [List.pairwise_map]
    have hpw : (ms.filterMap (placeMatch s blocks)).Pairwise fun v w =>
        v.pid blocks = p.id → w.pid blocks = p.id → v.off + v.len ≤ w.off := by
      refine List.Pairwise.filterMap _ ?_ ha
      intro m m' hmm v hv' w hw e1 e2
      obtain ⟨x, h1, h2, h3, h4⟩ := hpid m v hv' e1
      obtain ⟨y, h1', h2', h3', h4'⟩ := hpid m' w hw e2
      rw [h1] at h1'; cases h1'
      omega
    have h2 := (hpw.sublist hv).filter (fun v => v.pid blocks == p.id)
    refine List.Pairwise.imp_of_mem ?_ h2
    intro v w hv' hw hvw
    simp only [List.mem_filter, beq_iff_eq] at hv' hw
    exact hvw hv'.2 hw.2
  · intro m hm
    unfold minePairs at hm
    obtain ⟨v, hv', rfl⟩ := List.mem_map.mp hm
    simp only [List.mem_filter, beq_iff_eq] at hv'
    obtain ⟨m', hm', hmv⟩ := List.mem_filterMap.mp (hv.subset hv'.1)
    obtain ⟨x, h1, h2, h3, h4⟩ := hpid m' v hmv hv'.2
    exact h3

/-- The number of characters after rewriting. -/
theorem charTotal_rewrite {blocks : List Block} (hl : Listed s ps blocks) {ms : List (Nat × Nat)}
    {vs : List ValidMatch} (rep : List Char) (hs : Shows s d ps)
    (hv : vs.Sublist (ms.filterMap (placeMatch s blocks)))
    (hm : ∀ p ∈ ps, Apart (minePairs blocks vs p.id) ∧
      ∀ m ∈ minePairs blocks vs p.id, m.1 + m.2 ≤ p.chars.length) :
    (charTotal (rewriteMatches rep blocks vs ps) : Int) =
      charTotal ps + (vs.map fun v => (rep.length : Int) - (v.len : Int)).sum := by
  rw [rewriteMatches_eq]
  have hsum : ∀ qs : List SPara, (∀ q ∈ qs, q ∈ ps) →
      (charTotal (qs.map fun p => { p with chars := rewriteAll rep (minePairs blocks vs p.id) p.chars }) : Int) =
      charTotal qs + (qs.map fun q => ((minePairs blocks vs q.id).map
        fun m => (rep.length : Int) - (m.2 : Int)).sum).sum := by
    intro qs
    induction qs with
    | nil => intro _; rfl
    | cons q qs ih =>
      intro hqs
      have hi := ih fun x hx => hqs x (by simp [hx])
      obtain ⟨h1, h2⟩ := hm q (hqs q (by simp))
      have := rewriteAll_length rep _ q.chars h1 h2
      simp only [List.map_cons, charTotal_cons, List.sum_cons]
      push_cast
      omega
  rw [hsum ps fun q hq => hq]
  congr 1
  have hpart : ∀ vs : List ValidMatch, (∀ v ∈ vs, v.pid blocks ∈ ps.map SPara.id) →
      (ps.map fun q => ((minePairs blocks vs q.id).map fun m => (rep.length : Int) - (m.2 : Int)).sum).sum =
      (vs.map fun v => (rep.length : Int) - (v.len : Int)).sum := by
    intro vs
    induction vs with
    | nil =>
      intro _
      simp only [minePairs, List.filter_nil, List.map_nil, List.sum_nil]
      clear hsum hl hs hv hm
      induction ps with
      | nil => rfl
      | cons q qs ih => simpa using ih
    | cons v vs ih =>
      intro hvs
      have hi := ih fun x hx => hvs x (by simp [hx])
      obtain ⟨q, hq, hqv⟩ := List.mem_map.mp (hvs v (by simp))
      rw [List.map_cons, List.sum_cons, ← hi]
      have hnd := hs.ids_nodup
      clear hsum hl hs hi ih hvs hm
      have : ∀ qs : List SPara, (qs.map SPara.id).Nodup →
          (qs.map fun q => ((minePairs blocks (v :: vs) q.id).map fun m => (rep.length : Int) - (m.2 : Int)).sum).sum =
          (if q.id ∈ qs.map SPara.id then (rep.length : Int) - (v.len : Int) else 0) +
          (qs.map fun q => ((minePairs blocks vs q.id).map fun m => (rep.length : Int) - (m.2 : Int)).sum).sum := by
        intro qs
        induction qs with
        | nil => intro _; simp
        | cons x qs ih =>
          intro hnd
          rw [List.map_cons, List.nodup_cons] at hnd
          simp only [List.map_cons, List.sum_cons]
          rw [ih hnd.2]
          by_cases e : q.id = x.id
          · have h1 : q.id ∉ qs.map SPara.id := by rw [e]; exact hnd.1
            have h2 : minePairs blocks (v :: vs) x.id = (v.off, v.len) :: minePairs blocks vs x.id := by
              unfold minePairs
              rw [List.filter_cons, if_pos (by simp [← hqv, e])]; rfl
            rw [if_neg h1, h2, if_pos (by simp [e])]
            simp only [List.map_cons, List.sum_cons]; omega
          · have h2 : minePairs blocks (v :: vs) x.id = minePairs blocks vs x.id := by
              unfold minePairs
              rw [List.filter_cons, if_neg (by simp [← hqv, e])]
            rw [h2]
            have : (q.id ∈ x.id :: List.map SPara.id qs) ↔ q.id ∈ qs.map SPara.id := by simp [e]
            simp only [this]; omega
      rw [this ps hnd, if_pos (List.mem_map_of_mem hq)]
  refine hpart vs fun v hv' => ?_
  obtain ⟨m', hm', hmv⟩ := List.mem_filterMap.mp (hv.subset hv')
  obtain ⟨h1, x, q, h2, h3, h4, h5, h6⟩ := (hs.matchInBlock blocks hl.entities.all m').choose_spec.2 v hmv
  have : v.pid blocks = q.id := by
    have : x.id = q.id := by rw [h4]
    simp [Store.ValidMatch.pid, h2, this]
  rw [this]; exact List.mem_map_of_mem h3

/-- The blocks whose position moves are entities of paragraphs. -/
theorem shiftedBlocks_mem {n : Nat} {vs : List ValidMatch} {blocks : List Block} {x : Int} {bs : List Block} {y : Block}
    (hy : y ∈ shiftedBlocks n vs blocks x bs) : ∃ z ∈ bs, ∃ k, y = { z with documentPosition := k } := by
  induction bs generalizing x with
  | nil => simp [shiftedBlocks] at hy
  | cons z bs ih =>
    simp only [shiftedBlocks] at hy
    split at hy
    · rcases List.mem_cons.mp hy with rfl | hy
      · exact ⟨z, by simp, _, rfl⟩
      · obtain ⟨w, hw, k⟩ := ih hy; exact ⟨w, by simp [hw], k⟩
    · obtain ⟨w, hw, k⟩ := ih hy; exact ⟨w, by simp [hw], k⟩

/-- What `execute_replace` does with a list of matches: the matches it places are rewritten. -/
theorem Flat.replaceMatches (h : Flat s d f ps) (rep : List Char) (all : Bool) (ms : List (Nat × Nat))
    {vs : List ValidMatch}
    (hvs : vs = if all then ms.filterMap (placeMatch s (s.sortedBlocks d.id))
      else (ms.filterMap (placeMatch s (s.sortedBlocks d.id))).take 1) :
    ∃ s' sk, s.replaceMatches d.id rep all ms = some (s', ⟨vs.length, sk⟩) ∧
      (ms.filterMap (placeMatch s (s.sortedBlocks d.id))).length + sk = ms.length ∧
      Flat s' { d with characterCount := d.characterCount + (vs.map fun v => (rep.length : Int) - (v.len : Int)).sum }
        f (rewriteMatches rep (s.sortedBlocks d.id) vs ps) ∧
      SameShell s s' ∧ s'.counters = s.counters ∧
      (∀ i, s'.blocks i = (s.updateBlocks (shiftedBlocks rep.length vs (s.sortedBlocks d.id) 0
        (s.sortedBlocks d.id))).blocks i) := by
  have hl := h.listed
  obtain ⟨sk, hv1, hv2⟩ := h.toShows.validMatches _ hl.entities.all ms
  have hd0 : ∀ d : Document, ({ d with characterCount := d.characterCount + (([] : List ValidMatch).map
      fun v => (rep.length : Int) - (v.len : Int)).sum } : Document) = d := by
    intro d; simp
  have hub0 : ∀ bl bs : List Block, shiftedBlocks rep.length [] bl 0 bs = [] := by
    intro bl bs
    induction bs with
    | nil => rfl
    | cons x bs ih =>
      simp only [shiftedBlocks]
      have : ((bl.findIdx? fun y => y.id == x.id).bind (deltaOf rep.length [])).getD 0 = 0 := by
        cases bl.findIdx? fun y => y.id == x.id <;> simp [deltaOf]
      rw [this]; simpa using ih
  unfold Store.replaceMatches
  by_cases hms : ms = []
  · subst hms
    have : vs = [] := by rw [hvs]; split <;> rfl
    subst this
    rw [if_pos rfl, hd0]
    exact ⟨s, 0, rfl, rfl, h, .refl s, rfl, fun i => by rw [hub0]; rfl⟩
  rw [if_neg hms]
  dsimp only
  rw [hv1, Option.bind_some]
  dsimp only
  rw [← hvs]
  by_cases h0 : vs = []
  · rw [if_pos h0]
    subst h0
    rw [hd0]
    exact ⟨s, sk, rfl, hv2, h, .refl s, rfl, fun i => by rw [hub0]; rfl⟩
  rw [if_neg h0]
  have hsub : vs.Sublist (ms.filterMap (placeMatch s (s.sortedBlocks d.id))) := by
    rw [hvs]; split
    · exact .refl _
    · exact List.take_sublist _ _
  have hlt : ∀ v ∈ vs, v.block < (s.sortedBlocks d.id).length := by
    intro v hv
    obtain ⟨m', hm', hmv⟩ := List.mem_filterMap.mp (hsub.subset hv)
    obtain ⟨_, x, q, h2, _⟩ := (h.toShows.matchInBlock _ hl.entities.all m').choose_spec.2 v hmv
    exact (List.getElem?_eq_some_iff.mp h2).1
  obtain ⟨s1, e1, hS1, hd1, hc1, hsh1, hb1⟩ := h.toShows.replaceLoop rep hl.entities vs hlt
  rw [e1, Option.bind_some]
  have hids := rewriteMatches_ids rep (s.sortedBlocks d.id) vs ps
  have hF1 : Flat s1 d f (rewriteMatches rep (s.sortedBlocks d.id) vs ps) :=
    h.of_shell hS1 hsh1 hc1 hids rfl rfl
  have hsb : s1.sortedBlocks d.id = s.sortedBlocks d.id := by
    unfold Store.sortedBlocks Store.getBlocks Store.docFrames Store.frameBlocks
    rw [hd1, hsh1.frames]
    rw [show (fun i => s1.blocks i) = fun i => s.blocks i from funext hb1]
  rw [hsb]
  have hmem : ∀ y ∈ shiftedBlocks rep.length vs (s.sortedBlocks d.id) 0 (s.sortedBlocks d.id),
      ∃ q ∈ rewriteMatches rep (s.sortedBlocks d.id) vs ps, IsBlock q y := by
    intro y hy
    obtain ⟨z, hz, k, rfl⟩ := shiftedBlocks_mem hy
    have hz' : z ∈ s1.sortedBlocks d.id := by rw [hsb]; exact hz
    obtain ⟨q, hq, hqz⟩ := hF1.listed.entities.all z hz'
    exact ⟨q, hq, by rw [hqz]; rfl⟩
  have hS2 := hF1.toShows.updateBlocks hmem
  have hsh2 := updateBlocks_shell s1 (shiftedBlocks rep.length vs (s.sortedBlocks d.id) 0 (s.sortedBlocks d.id))
  rw [hS2.document, Option.map_some]
  have hS3 := hS2.updateDocument (d' := { d with
    characterCount := d.characterCount + (vs.map fun v => (rep.length : Int) - (v.len : Int)).sum }) rfl
  have hsh3 : SameShell s ((s1.updateBlocks (shiftedBlocks rep.length vs (s.sortedBlocks d.id) 0
      (s.sortedBlocks d.id))).updateDocument { d with
    characterCount := d.characterCount + (vs.map fun v => (rep.length : Int) - (v.len : Int)).sum }) :=
    (hsh1.trans hsh2.1).trans ⟨rfl, rfl, rfl, rfl, rfl, rfl⟩
  refine ⟨_, sk, rfl, hv2, ?_, hsh3, hsh2.2.2.trans hc1, ?_⟩
  · refine h.of_shell (d' := { d with
      characterCount := d.characterCount + (vs.map fun v => (rep.length : Int) - (v.len : Int)).sum })
      hS3 hsh3 (hsh2.2.2.trans hc1) hids rfl rfl
  · intro i
    show (s1.updateBlocks _).blocks i = (s.updateBlocks _).blocks i
    have : ∀ (bs : List Block) (s1 s : Store), (∀ i, s1.blocks i = s.blocks i) →
        ∀ i, (s1.updateBlocks bs).blocks i = (s.updateBlocks bs).blocks i := by
      intro bs
      induction bs with
      | nil => intro s1 s hh i; exact hh i
      | cons x bs ih =>
        intro s1 s hh i
        apply ih
        intro i
        show (s1.blocks.insert x.id (Store.keepBlock x (s1.blocks x.id))) i =
          (s.blocks.insert x.id (Store.keepBlock x (s.blocks x.id))) i
        rw [IdMap.insert_get, IdMap.insert_get, hh x.id, hh i]
    exact this _ s1 s hb1 i

end Verif
