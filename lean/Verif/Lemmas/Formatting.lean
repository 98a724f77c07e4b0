import Verif.Lemmas.ReplacePlaced
import Verif.Model.Formatting
import Verif.Spec.Formatting
import Verif.Props.FormatRuns
/- Formatting a stretch of a document. -/
namespace Verif

variable {s : Store} {d : Document} {f : Nat} {ps L R : List SPara} {p : SPara} {a b c : List SChar}
  {m : CharFormat → CharFormat}
open Store

theorem byteFmts_reformat (m : CharFormat → CharFormat) (b : List SChar) :
    byteFmts (b.map (reformat m)) = (byteFmts b).map fun x => some (m (x.getD {})) := by
  induction b with
  | nil => rfl
  | cons c b ih =>
    simp only [byteFmts, List.map_cons, List.flatMap_cons, List.map_append, List.map_replicate] at ih ⊢
    rw [ih]; rfl

theorem reformat_fst (m : CharFormat → CharFormat) (b : List SChar) :
    (b.map (reformat m)).map Prod.fst = b.map Prod.fst := by
  rw [List.map_map]; rfl

/-- Formatting the middle of a paragraph. -/
theorem StyledOk.format {runs : List (Run CharFormat)} {im : List (Img CharFormat)}
    (h : StyledOk runs (a ++ b ++ c)) :
    StyledOk (formatBlock m {} ⟨runs, im⟩ (utf8Len (a.map Prod.fst))
      (utf8Len (a.map Prod.fst) + utf8Len (b.map Prod.fst))).1.runs (a ++ b.map (reformat m) ++ c) := by
  constructor
  · have hlen : utf8Len ((a ++ b.map (reformat m) ++ c).map Prod.fst) =
        utf8Len ((a ++ b ++ c).map Prod.fst) := by
      simp only [List.map_append, reformat_fst]
    rw [hlen]
    have := C01_edit_keeps_wellFormed {} (.format m (utf8Len (a.map Prod.fst))
      (utf8Len (a.map Prod.fst) + utf8Len (b.map Prod.fst)))
      (utf8Len ((a ++ b ++ c).map Prod.fst)) runs (by
        simp only [FmtEdit.Valid, List.map_append, utf8Len_append]; omega) h.wf
    simp only [FmtEdit.apply] at this
    unfold formatBlock at this ⊢
    split at this <;> (split <;> first | exact this | omega)
  · intro i
    rw [C02_format_range_exact m {} _ ⟨runs, im⟩ _ _ (by omega) h.wf]
    simp only
    rw [h.fmt]
    simp only [byteFmts_append, byteFmts_reformat, List.getElem?_append, List.length_append,
      byteFmts_length, List.length_map, List.getElem?_map]
    by_cases h1 : i < utf8Len (a.map Prod.fst)
    · simp [h1]; intro; omega
    · by_cases h2 : i < utf8Len (a.map Prod.fst) + utf8Len (b.map Prod.fst)
      · have h3 : i - utf8Len (a.map Prod.fst) < (byteFmts b).length := by rw [byteFmts_length]; omega
        rw [if_pos ⟨by omega, h2⟩]
        simp only [h1, h2, if_true, if_false]
        rw [List.getElem?_eq_getElem h3]; rfl
      · rw [if_neg (by omega)]; simp [h1, h2]

theorem reformatAt_none {sel : Nat → Bool} {cs : List SChar} (h : ∀ i < cs.length, sel i = false) :
    reformatAt m sel cs = cs := by
  apply List.ext_getElem
  · simp [reformatAt]
  · intro i h1 h2
    simp [reformatAt, h i h2]

/-- A selected stretch. -/
theorem reformatAt_range {sel : Nat → Bool} {cs : List SChar} {so eo : Nat} (hle : so ≤ eo)
    (h : ∀ i < cs.length, sel i = decide (so ≤ i ∧ i < eo)) :
    reformatAt m sel cs = cs.take so ++ ((cs.drop so).take (eo - so)).map (reformat m) ++ cs.drop eo := by
  apply List.ext_getElem?
  intro i
  simp only [reformatAt, List.getElem?_mapIdx, List.getElem?_append, List.length_append, List.length_map,
    List.length_take, List.length_drop, List.getElem?_map, List.getElem?_take, List.getElem?_drop]
  by_cases hi : i < cs.length
  · rw [List.getElem?_eq_getElem hi, Option.map_some, h i hi]
    by_cases h1 : i < so
    · have hd : decide (so ≤ i ∧ i < eo) = false := by simp; omega
      rw [hd, if_neg Bool.false_ne_true, if_pos (by omega), if_pos (by omega), if_pos h1]
    · by_cases h2 : i < eo
      · have hd : decide (so ≤ i ∧ i < eo) = true := by simp; omega
        rw [hd, if_pos rfl, if_pos (by omega), if_neg (by omega), if_pos (by omega)]
        rw [show so + (i - min so cs.length) = i by omega, List.getElem?_eq_getElem hi]; rfl
      · have hd : decide (so ≤ i ∧ i < eo) = false := by simp; omega
        rw [hd, if_neg Bool.false_ne_true, if_neg (by omega)]
        rw [show eo + (i - (min so cs.length + min (eo - so) (cs.length - so))) = i by omega,
          List.getElem?_eq_getElem hi]
  · rw [List.getElem?_eq_none (by omega)]
    rw [if_neg (by omega)]
    rw [List.getElem?_eq_none (by omega)]; rfl

/-! ### One block -/

/-- Only the format and image tables differ. -/
structure OnlyFormats (a b : Store) : Prop extends SameShell a b where
  documents : b.documents = a.documents
  counters : b.counters = a.counters
  blocks : b.blocks = a.blocks
  rope : b.rope = a.rope
  blockOffsets : b.blockOffsets = a.blockOffsets

theorem OnlyFormats.refl (s : Store) : OnlyFormats s s := ⟨.refl s, rfl, rfl, rfl, rfl, rfl⟩

theorem OnlyFormats.trans {s1 s2 s3 : Store} (h : OnlyFormats s1 s2) (g : OnlyFormats s2 s3) :
    OnlyFormats s1 s3 :=
  ⟨h.toSameShell.trans g.toSameShell, g.documents.trans h.documents, g.counters.trans h.counters,
    g.blocks.trans h.blocks, g.rope.trans h.rope, g.blockOffsets.trans h.blockOffsets⟩

theorem OnlyFormats.text {s1 s2 : Store} (h : OnlyFormats s1 s2) : s2.text = s1.text := by
  unfold Store.text; rw [h.rope, h.blockOffsets]

theorem OnlyFormats.sortedBlocks {s1 s2 : Store} (h : OnlyFormats s1 s2) (did : Nat) :
    s2.sortedBlocks did = s1.sortedBlocks did := by
  unfold Store.sortedBlocks Store.getBlocks Store.docFrames Store.frameBlocks
  rw [h.documents, h.frames, h.blocks]

theorem OnlyFormats.docId {s1 s2 : Store} (h : OnlyFormats s1 s2) : s2.docId = s1.docId := by
  unfold Store.docId
  rw [h.roots]

theorem putFormats_only (s : Store) (id : Nat) (x : BlockFmt CharFormat) : OnlyFormats s (s.putFormats id x) := by
  unfold Store.putFormats
  dsimp only
  split <;> exact ⟨⟨rfl, rfl, rfl, rfl, rfl, rfl⟩, rfl, rfl, rfl, rfl, rfl⟩

theorem putFormats_runs (s : Store) (id : Nat) (x : BlockFmt CharFormat) (i : Nat) :
    (s.putFormats id x).formatRuns i = if i = id then some x.runs else s.formatRuns i := by
  unfold Store.putFormats
  dsimp only
  split <;> simp only [Store.editRuns, Store.editImages, IdMap.insert_get]

theorem putFormats_images (s : Store) (id : Nat) (x : BlockFmt CharFormat) (i : Nat) :
    (s.putFormats id x).blockImages i =
      if i = id ∧ (s.blockImages id).isSome then some x.imgs else s.blockImages i := by
  unfold Store.putFormats
  dsimp only
  have : (s.editRuns id fun _ => x.runs).blockImages = s.blockImages := rfl
  rw [this]
  split
  · next h =>
    simp only [Store.editRuns, Store.editImages, IdMap.insert_get, h, and_true]
  · next h => rw [if_neg (by simp [h])]; rfl

/-- Characters of a paragraph at a stored position. -/
def storedSel (lo hi pos : Int) (i : Nat) : Bool := decide (lo ≤ pos + i ∧ pos + i < hi)

theorem Shows.charToByte (h : Shows s d ps) (hp : p ∈ ps) (n : Nat) (hn : n ≤ p.chars.length) :
    ∃ k, blockCharToByteInBlock s.text p.id n = some (utf8Len ((p.chars.take n).map Prod.fst), k) := by
  have hm := List.mem_map_of_mem (f := fun p : SPara => (Marker.block p.id, p.text)) hp
  have hsplit : p.text = (p.chars.take n).map Prod.fst ++ (p.chars.drop n).map Prod.fst := by
    rw [← List.map_append, List.take_append_drop]; rfl
  rw [hsplit] at hm
  have := blockCharToByte_repr h.text hm
  rw [show ((p.chars.take n).map Prod.fst).length = n by simp; omega] at this
  exact ⟨_, this⟩

/-- One block of the loop, on a paragraph. -/
theorem Shows.formatOne {x : Block} {lo hi : Int} (h : Shows s d (L ++ p :: R)) (hlh : lo < hi) (hx : x.id = p.id) :
    ∃ s' inv, s.formatOne m lo hi x = some (s', inv) ∧ OnlyFormats s s' ∧
      Shows s' d (L ++ { p with chars := reformatAt m (storedSel lo hi x.documentPosition) p.chars } :: R) := by
  have hpm : p ∈ L ++ p :: R := by simp
  unfold Store.formatOne
  rw [hx, h.charLength hpm, Option.bind_some]
  have htl : p.text.length = p.chars.length := by simp [SPara.text]
  rw [htl]
  by_cases hskip : x.documentPosition + (p.chars.length : Nat) ≤ lo ∨ x.documentPosition ≥ hi
  · simp only [if_pos hskip]
    refine ⟨s, [], rfl, .refl s, ?_⟩
    rw [reformatAt_none]
    · exact h
    · intro i hi; simp only [storedSel, decide_eq_false_iff_not]; omega
  · simp only [if_neg hskip]
    generalize hso : (max 0 (lo - x.documentPosition)).toNat = so
    generalize heo : (min ((p.chars.length : Nat) : Int) (hi - x.documentPosition)).toNat = eo
    have hle : so ≤ eo := by omega
    have hel : eo ≤ p.chars.length := by omega
    obtain ⟨k1, h1⟩ := h.charToByte hpm so (by omega)
    obtain ⟨k2, h2⟩ := h.charToByte hpm eo hel
    rw [h1, Option.bind_some, h2, Option.map_some]
    dsimp only
    have hch : p.chars = p.chars.take so ++ (p.chars.drop so).take (eo - so) ++ p.chars.drop eo := by
      have e1 : (p.chars.drop so).take (eo - so) ++ p.chars.drop eo = p.chars.drop so := by
        have := List.take_append_drop (eo - so) (p.chars.drop so)
        rwa [List.drop_drop, show so + (eo - so) = eo by omega] at this
      rw [List.append_assoc, e1, List.take_append_drop]
    have hbe : utf8Len ((p.chars.take eo).map Prod.fst) = utf8Len ((p.chars.take so).map Prod.fst) +
        utf8Len (((p.chars.drop so).take (eo - so)).map Prod.fst) := by
      rw [← utf8Len_append, ← List.map_append, ← List.take_add, show so + (eo - so) = eo by omega]
    have hrun : StyledOk (s.runsOf p.id) p.chars := h.formats p hpm
    rw [hch] at hrun
    have hst := hrun.format (m := m) (im := s.imagesOf p.id)
    rw [← hbe] at hst
    have hsel := reformatAt_range (m := m) (sel := storedSel lo hi x.documentPosition) (cs := p.chars) hle (by
      intro i hi
      simp only [storedSel, decide_eq_decide]; omega)
    have htext : ∀ cs' : List SChar, cs'.map Prod.fst = p.chars.map Prod.fst →
        paras (L ++ { p with chars := cs' } :: R) = paras (L ++ p :: R) := by
      intro cs' e
      simp [paras, SPara.text, e]
    have hfst : (reformatAt m (storedSel lo hi x.documentPosition) p.chars).map Prod.fst = p.chars.map Prod.fst := by
      rw [hsel]
      conv => rhs; rw [hch]
      simp only [List.map_append, reformat_fst]
    generalize hfb : formatBlock m {} ⟨s.runsOf p.id, s.imagesOf p.id⟩
      (utf8Len ((p.chars.take so).map Prod.fst)) (utf8Len ((p.chars.take eo).map Prod.fst)) = fb at hst
    obtain ⟨g, inv⟩ := fb
    have himg0 : s.imagesOf p.id = [] := h.images p hpm
    cases inv with
    | none =>
      refine ⟨s, [], rfl, .refl s, ?_⟩
      have hg := C06_no_inverse_no_change _ _ _ _ _ _ hfb
      refine h.replace _ rfl rfl rfl rfl ?_ (fun _ _ => rfl) ?_ (fun _ _ => rfl) himg0
      · rw [htext _ hfst]; exact h.text
      · rw [hsel]
        rw [hg] at hst; exact hst
    | some inv =>
      have ho := putFormats_only s p.id g
      refine ⟨_, _, rfl, ho, ?_⟩
      refine h.replace _ ho.roots ho.documents ho.blocks ho.counters ?_ ?_ ?_ ?_ ?_
      · rw [htext _ hfst, ho.text]; exact h.text
      · intro i hi; rw [putFormats_runs, if_neg hi]
      · rw [putFormats_runs, if_pos rfl, hsel]; exact hst
      · intro i hi; rw [putFormats_images, if_neg (by simp [hi])]
      · have hgi : g.imgs = [] := by
          unfold formatBlock at hfb
          split at hfb
          · simp at hfb
          · have := congrArg (fun y => y.1.imgs) hfb
            simpa [himg0] using this.symm
        rw [putFormats_images]
        split
        · exact hgi
        · exact himg0

/-- The paragraphs listed in `ids` are formatted at their stored positions. -/
def reformatStored (s : Store) (m : CharFormat → CharFormat) (lo hi : Int) (ids : List Nat) (ps : List SPara) :
    List SPara :=
  ps.map fun p => if p.id ∈ ids then
    { p with chars := reformatAt m (storedSel lo hi (s.storedPos p)) p.chars } else p

theorem reformatStored_ids (lo hi : Int) (ids : List Nat) (ps : List SPara) :
    (reformatStored s m lo hi ids ps).map SPara.id = ps.map SPara.id := by
  unfold reformatStored
  rw [List.map_map]
  apply List.map_congr_left
  intro p _
  simp only [Function.comp_apply]
  split <;> rfl

theorem Shows.formatLoop {lo hi : Int} (hlh : lo < hi) (bs : List Block) :
    ∀ {s : Store} {ps : List SPara}, Shows s d ps → (bs.map Block.id).Nodup →
    (∀ x ∈ bs, s.blocks x.id = some x ∧ x.id ∈ ps.map SPara.id) →
    ∃ s' inv, Store.formatLoop m lo hi bs s = some (s', inv) ∧ OnlyFormats s s' ∧
      Shows s' d (reformatStored s m lo hi (bs.map Block.id) ps) := by
  induction bs with
  | nil =>
    intro s ps h _ _
    refine ⟨s, [], rfl, .refl s, ?_⟩
    simpa [reformatStored] using h
  | cons x bs ih =>
    intro s ps h hnd hx
    obtain ⟨hxs, hxid⟩ := hx x (by simp)
    obtain ⟨p, hp, hpx⟩ := List.mem_map.mp hxid
    have hids := h.ids_nodup
    obtain ⟨L, R, rfl⟩ := List.append_of_mem hp
    obtain ⟨s1, i1, e1, o1, h1⟩ := h.formatOne (m := m) hlh (x := x) hpx.symm
    rw [List.map_cons, List.nodup_cons] at hnd
    obtain ⟨s2, i2, e2, o2, h2⟩ := ih h1 hnd.2 (by
      intro y hy
      have := hx y (by simp [hy])
      rw [o1.blocks]
      refine ⟨this.1, ?_⟩
      simpa using this.2)
    refine ⟨s2, i1 ++ i2, ?_, o1.trans o2, ?_⟩
    · simp only [Store.formatLoop]
      rw [e1, Option.bind_some, e2, Option.map_some]
    · have hsp : ∀ q, s1.storedPos q = s.storedPos q := by
        intro q; unfold Store.storedPos; rw [o1.blocks]
      have hpos : s.storedPos p = x.documentPosition := by
        unfold Store.storedPos; rw [hpx, hxs]; rfl
      have hne : ∀ q, q ∈ L ∨ q ∈ R → q.id ≠ p.id := by
        intro q hq
        simp only [List.map_append, List.map_cons, List.nodup_append, List.nodup_cons] at hids
        rcases hq with hq | hq
        · exact hids.2.2 q.id (List.mem_map_of_mem hq) p.id (by simp)
        · intro e; exact hids.2.1.1 (e ▸ List.mem_map_of_mem hq)
      have : reformatStored s1 m lo hi (bs.map Block.id)
          (L ++ { p with chars := reformatAt m (storedSel lo hi x.documentPosition) p.chars } :: R) =
          reformatStored s m lo hi ((x :: bs).map Block.id) (L ++ p :: R) := by
        unfold reformatStored
        simp only [List.map_append, List.map_cons, hsp]
        have hpn : p.id ∉ bs.map Block.id := by rw [hpx]; exact hnd.1
        have hside : ∀ l : List SPara, (∀ q ∈ l, q.id ≠ p.id) →
            l.map (fun q => if q.id ∈ bs.map Block.id then
              ({ q with chars := reformatAt m (storedSel lo hi (s.storedPos q)) q.chars } : SPara) else q) =
            l.map (fun q => if q.id ∈ x.id :: bs.map Block.id then
              ({ q with chars := reformatAt m (storedSel lo hi (s.storedPos q)) q.chars } : SPara) else q) := by
          intro l hl
          apply List.map_congr_left
          intro q hq
          have : q.id ≠ x.id := by rw [← hpx]; exact hl q hq
          simp [this]
        rw [hside L fun q hq => hne q (.inl hq), hside R fun q hq => hne q (.inr hq)]
        congr 2
        rw [if_neg hpn, if_pos (by simp [hpx]), hpos]
      rw [← this]; exact h2

/-- Formatting a stretch of a flat document, wherever its stored positions are. -/
theorem Flat.formatText (h : Flat s d f ps) (x y : Int) :
    ∃ s' inv, s.formatText m x y = some (s', inv) ∧ OnlyFormats s s' ∧
      Flat s' d f (ps.map fun p =>
        { p with chars := reformatAt m (storedSel (min x y) (max x y) (s.storedPos p)) p.chars }) := by
  have hl := h.listed
  have hall : ∀ (lo hi : Int), reformatStored s m lo hi ((s.sortedBlocks d.id).map Block.id) ps = ps.map fun p =>
        { p with chars := reformatAt m (storedSel lo hi (s.storedPos p)) p.chars } := by
    intro lo hi
    apply List.map_congr_left
    intro p hp
    obtain ⟨z, hz, hzp⟩ := hl.entities.has p hp
    rw [if_pos (List.mem_map.mpr ⟨z, hz, hzp⟩)]
  unfold Store.formatText
  rw [h.docId, Option.bind_some, h.document, Option.bind_some]
  by_cases e : min x y = max x y
  · rw [if_pos e]
    refine ⟨s, [], rfl, .refl s, ?_⟩
    have : (ps.map fun p => ({ p with chars := reformatAt m (storedSel (min x y) (max x y) (s.storedPos p)) p.chars } :
        SPara)) = ps := by
      conv => rhs; rw [← List.map_id ps]
      apply List.map_congr_left
      intro p _
      rw [reformatAt_none]
      · rfl
      · intro i _; simp only [storedSel, decide_eq_false_iff_not]; omega
    rw [this]; exact h
  · rw [if_neg e]
    obtain ⟨s', inv, e1, o, h1⟩ := h.toShows.formatLoop (m := m) (lo := min x y) (hi := max x y) (by omega)
      (s.sortedBlocks d.id) hl.nodup (by
        intro z hz
        obtain ⟨q, hq, hqz⟩ := hl.entities.all z hz
        exact ⟨hl.stored z hz, List.mem_map.mpr ⟨q, hq, by rw [hqz]⟩⟩)
    refine ⟨s', inv, e1, o, ?_⟩
    rw [← hall]
    exact h.of_shell h1 o.toSameShell o.counters (reformatStored_ids _ _ _ _) rfl rfl

end Verif
