import Verif.Lemmas.Shows
import Verif.Lemmas.Sort
/- Typing and deleting inside one paragraph. -/
namespace Verif

variable {s : Store} {d : Document} {ps L R : List SPara} {p : SPara} {a b m : List SChar}

theorem SameShell.refl (s : Store) : SameShell s s := ⟨rfl, rfl, rfl, rfl, rfl, rfl⟩

theorem SameShell.trans {x y z : Store} (h1 : SameShell x y) (h2 : SameShell y z) : SameShell x z :=
  ⟨h2.roots.trans h1.roots, h2.frames.trans h1.frames, h2.lists.trans h1.lists,
    h2.resources.trans h1.resources, h2.tables.trans h1.tables, h2.tableCells.trans h1.tableCells⟩

theorem SameShell.symm {x y : Store} (h : SameShell x y) : SameShell y x :=
  ⟨h.roots.symm, h.frames.symm, h.lists.symm, h.resources.symm, h.tables.symm, h.tableCells.symm⟩

theorem updateBlocks_shell (s : Store) (bs : List Block) : SameShell s (s.updateBlocks bs) ∧
    (s.updateBlocks bs).documents = s.documents ∧ (s.updateBlocks bs).counters = s.counters := by
  induction bs generalizing s with
  | nil => exact ⟨.refl s, rfl, rfl⟩
  | cons b bs ih =>
    have := ih (s.updateBlock b)
    have h0 : SameShell s (s.updateBlock b) := ⟨rfl, rfl, rfl, rfl, rfl, rfl⟩
    exact ⟨h0.trans this.1, this.2.1, this.2.2⟩

/-- The stored position of a paragraph. -/
def Store.storedPos (s : Store) (p : SPara) : Int := ((s.blocks p.id).map Block.documentPosition).getD 0

/-- The entity of a paragraph at a given stored position. -/
def SPara.entity (p : SPara) (x : Int) : Block := { p.shape with id := p.id, documentPosition := x }

theorem isBlock_entity (p : SPara) (x : Int) : IsBlock p (p.entity x) := rfl

theorem IsBlock.eq {b : Block} (h : IsBlock p b) : b = p.entity b.documentPosition := h

theorem IsBlock.with_pos {b : Block} (h : IsBlock p b) (x : Int) :
    { b with documentPosition := x } = p.entity x := by rw [h]; rfl

theorem Shows.stored (h : Shows s d ps) (hp : p ∈ ps) :
    s.blocks p.id = some (p.entity (s.storedPos p)) := by
  obtain ⟨b, h1, h2⟩ := h.block p hp
  rw [h1, Store.storedPos, h1]
  exact congrArg some h2

/-- `insert_text` without a selection. -/
theorem Shows.insertSimple {dto : Store.InsertTextDto}
    (h : Shows s d (L ++ p :: R)) (hc : p.chars = a ++ b)
    (hpos : dto.position = ((charsBefore (paras L) + a.length : Nat) : Int)) :
    ∃ s', s.insertSimple dto = some (s', ⟨dto.position + dto.text.length, 1⟩,
        .simple ⟨p.id, p.entity (s.storedPos p), s.runsOf p.id, s.imagesOf p.id, d.id,
          d.characterCount, utf8Len (a.map Prod.fst), utf8Len dto.text⟩) ∧
      Shows s' { d with characterCount := d.characterCount + dto.text.length }
        (L ++ { p with chars := a ++ styled dto.text (inheritFmt a) ++ b } :: R) ∧
      SameShell s s' ∧ s'.counters = s.counters := by
  have hpm : p ∈ L ++ p :: R := by simp
  have hblk := isBlock_entity p (s.storedPos p)
  obtain ⟨s1, e1, hs1, hd1, hb1, hc1, hsh1⟩ := h.insertInto dto.text hc hblk
  have hloc : s.locateSimple d.id dto.position =
      some (p.entity (s.storedPos p), (charsBefore (paras L) : Int), (a.length : Int)) := by
    unfold Store.locateSimple
    rw [hpos, h.find hc, Option.bind_some]
    simp only [h.stored hpm, Option.bind_some]
    have : (p.entity (s.storedPos p)).id = p.id := rfl
    rw [this, h.charLength hpm]
    have hlen : p.text.length = a.length + b.length := by simp [SPara.text, hc]
    rw [hlen, Option.map_some, show max 0 (min (a.length : Int) ((a.length + b.length : Nat) : Int))
      = (a.length : Int) by omega]
  unfold Store.insertSimple
  rw [h.docId, Option.bind_some, h.document, Option.bind_some, hloc, Option.bind_some]
  dsimp only
  rw [e1, Option.bind_some]
  dsimp only
  rw [if_pos hs1.matchFlow]
  have hd2 := hs1.updateDocument (d' := { d with characterCount := d.characterCount + dto.text.length }) rfl
  refine ⟨_, ?_, hd2, ?_, ?_⟩
  · congr 2
    rw [hpos]
    simp [SPara.entity]
  · exact ⟨hsh1.roots, hsh1.frames, hsh1.lists, hsh1.resources, hsh1.tables, hsh1.tableCells⟩
  · exact hc1

/-- Undoing a simple insertion on any store that shows its result. -/
theorem Shows.undoSimple {t : List Char} {f : Option CharFormat} {u : Store.InsertUndoData}
    (h : Shows s d (L ++ { p with chars := a ++ styled t f ++ b } :: R)) (hc : p.chars = a ++ b)
    (h1 : u.blockId = p.id) (h2 : IsBlock p u.originalBlock) (h3 : StyledOk u.originalRuns p.chars)
    (h4 : u.originalImages = []) (h5 : u.docId = d.id) (h6 : u.byteOffset = utf8Len (a.map Prod.fst))
    (h7 : u.byteLen = utf8Len t) :
    ∃ s', s.undoInsert (.simple u) = some s' ∧
      Shows s' { d with characterCount := u.originalCharacterCount } (L ++ p :: R) ∧
      SameShell s s' ∧ s'.counters = s.counters := by
  have hpm : ({ p with chars := a ++ styled t f ++ b } : SPara) ∈
    L ++ { p with chars := a ++ styled t f ++ b } :: R := by simp
  have hs1 := h.updateBlock hpm (b := u.originalBlock) h2
  have ht := hs1.text
  rw [paras_append, paras_cons] at ht
  have hpt : SPara.text { p with chars := a ++ styled t f ++ b } =
      a.map Prod.fst ++ t ++ b.map Prod.fst := by
    simp [SPara.text]
  rw [hpt] at ht
  obtain ⟨st', hst, hrep⟩ := deleteInBlock_repr ht
  have hrope : (if u.byteLen > 0 then
      ropeDeleteInBlock (s.updateBlock u.originalBlock).text p.id u.byteOffset (u.byteOffset + u.byteLen)
      else some (s.updateBlock u.originalBlock).text) = some st' := by
    rw [h6, h7]
    by_cases h0 : utf8Len t > 0
    · rw [if_pos h0]; exact hst
    · rw [if_neg h0]
      have h0' : utf8Len t = 0 := by omega
      rw [h0'] at hst
      simp only [ropeDeleteInBlock, Nat.add_zero, Nat.le_refl, if_true] at hst
      exact hst
  unfold Store.undoInsert
  dsimp only
  rw [h1]
  have hrope' : (if u.byteLen > 0 then
      ropeDeleteInBlock (({ s.updateBlock u.originalBlock with
        formatRuns := (s.updateBlock u.originalBlock).formatRuns.insert p.id u.originalRuns
        blockImages := (s.updateBlock u.originalBlock).blockImages.insert p.id u.originalImages }) : Store).text
        p.id u.byteOffset (u.byteOffset + u.byteLen)
      else some (({ s.updateBlock u.originalBlock with
        formatRuns := (s.updateBlock u.originalBlock).formatRuns.insert p.id u.originalRuns
        blockImages := (s.updateBlock u.originalBlock).blockImages.insert p.id u.originalImages }) : Store).text)
      = some st' := hrope
  rw [hrope', Option.bind_some]
  have hs2 : Shows ((({ s.updateBlock u.originalBlock with
        formatRuns := (s.updateBlock u.originalBlock).formatRuns.insert p.id u.originalRuns
        blockImages := (s.updateBlock u.originalBlock).blockImages.insert p.id u.originalImages }) : Store).withText
        st') d (L ++ p :: R) := by
    have := hs1.replace (s' := (({ s.updateBlock u.originalBlock with
        formatRuns := (s.updateBlock u.originalBlock).formatRuns.insert p.id u.originalRuns
        blockImages := (s.updateBlock u.originalBlock).blockImages.insert p.id u.originalImages }) : Store).withText
        st') p.chars rfl rfl rfl rfl ?_ ?_ ?_ ?_ ?_
    · exact this
    · show Repr ⟨st'.rope, st'.idx⟩ _
      rw [paras_append, paras_cons]
      have : SPara.text p = a.map Prod.fst ++ b.map Prod.fst := by simp [SPara.text, hc]
      show Repr ⟨st'.rope, st'.idx⟩ (paras L ++ (.block p.id, SPara.text p) :: paras R)
      rw [this]; exact hrep
    · intro i hi
      have hi : i ≠ p.id := hi
      simp only [Store.withText, Store.updateBlock, IdMap.insert, hi, if_false]
    · simp only [Store.withText, Store.updateBlock, IdMap.insert, if_true, Option.getD_some]
      exact h3
    · intro i hi
      have hi : i ≠ p.id := hi
      simp only [Store.withText, Store.updateBlock, IdMap.insert, hi, if_false]
    · simp only [Store.withText, Store.updateBlock, IdMap.insert, if_true, Option.getD_some, h4]
  rw [h5, hs2.document, Option.map_some]
  have hs3 := hs2.updateDocument (d' := { d with characterCount := u.originalCharacterCount }) rfl
  exact ⟨_, rfl, hs3, ⟨rfl, rfl, rfl, rfl, rfl, rfl⟩, rfl⟩

/-- Deleting inside a paragraph. -/
theorem Shows.cut {blk : Block} (h : Shows s d (L ++ p :: R)) (hc : p.chars = a ++ m ++ b)
    (hb : IsBlock p blk) :
    ∃ r, ropeDeleteInBlock (((s.editRuns p.id fun runs => shiftRunsForDelete runs
        (utf8Len (a.map Prod.fst)) (utf8Len (a.map Prod.fst) + utf8Len (m.map Prod.fst))).editImages
        p.id fun im => (shiftImagesForDelete im (utf8Len (a.map Prod.fst))
          (utf8Len (a.map Prod.fst) + utf8Len (m.map Prod.fst))).1).text) p.id
        (utf8Len (a.map Prod.fst)) (utf8Len (a.map Prod.fst) + utf8Len (m.map Prod.fst)) = some r ∧
      Shows ((((s.editRuns p.id fun runs => shiftRunsForDelete runs
        (utf8Len (a.map Prod.fst)) (utf8Len (a.map Prod.fst) + utf8Len (m.map Prod.fst))).editImages
        p.id fun im => (shiftImagesForDelete im (utf8Len (a.map Prod.fst))
          (utf8Len (a.map Prod.fst) + utf8Len (m.map Prod.fst))).1).withText r).updateBlock blk) d
        (L ++ { p with chars := a ++ b } :: R) := by
  have hpm : p ∈ L ++ p :: R := by simp
  have ht := h.text
  rw [paras_append, paras_cons] at ht
  have hpt : p.text = a.map Prod.fst ++ m.map Prod.fst ++ b.map Prod.fst := by
    simp [SPara.text, hc]
  rw [hpt] at ht
  obtain ⟨st', hst, hrep⟩ := deleteInBlock_repr ht
  have hf := h.formats p hpm
  rw [hc] at hf
  refine ⟨st', hst, ?_⟩
  have hrepl := h.replace (s' := ((s.editRuns p.id fun runs => shiftRunsForDelete runs
        (utf8Len (a.map Prod.fst)) (utf8Len (a.map Prod.fst) + utf8Len (m.map Prod.fst))).editImages
        p.id fun im => (shiftImagesForDelete im (utf8Len (a.map Prod.fst))
          (utf8Len (a.map Prod.fst) + utf8Len (m.map Prod.fst))).1).withText st')
    (a ++ b) rfl rfl rfl rfl ?_ ?_ ?_ ?_ ?_
  · exact hrepl.updateBlock (p := { p with chars := a ++ b }) (by simp) hb
  · show Repr ⟨st'.rope, st'.idx⟩ _
    rw [paras_append, paras_cons]
    have : SPara.text { p with chars := a ++ b } = a.map Prod.fst ++ b.map Prod.fst := by
      simp [SPara.text]
    rw [this]; exact hrep
  · intro i hi
    simp only [Store.withText, Store.editImages, Store.editRuns, IdMap.insert, hi, if_false]
  · simp only [Store.withText, Store.editImages, Store.editRuns, IdMap.insert, if_true, Option.getD_some]
    exact hf.delete
  · intro i hi
    simp only [Store.withText, Store.editImages, Store.editRuns, IdMap.insert, hi, if_false]
  · simp only [Store.withText, Store.editImages, Store.editRuns, IdMap.insert, if_true,
      Option.getD_some, h.images p hpm]
    simp only [shiftImagesForDelete]
    split <;> simp [shiftImagesAfter]

theorem take_two {a m b : List SChar} (hc : p.chars = a ++ m ++ b) :
    p.text.take (a.length + m.length) = a.map Prod.fst ++ m.map Prod.fst := by
  have := text_take (p := p) (a := a ++ m) (b := b) (by simp [hc])
  simpa using this

theorem Shows.offsets (h : Shows s d ps) (hp : p ∈ ps) (hc : p.chars = a ++ m ++ b) :
    logicalOffsetToByte p.text (s.imagesOf p.id) (a.length : Int) = utf8Len (a.map Prod.fst) ∧
    logicalOffsetToByte p.text (s.imagesOf p.id) ((a.length + m.length : Nat) : Int) =
      utf8Len (a.map Prod.fst) + utf8Len (m.map Prod.fst) := by
  rw [h.offset hp, h.offset hp, text_take (a := a) (b := m ++ b) (by simp [hc]), take_two hc]
  simp

theorem slice_mid {a m b : List SChar} (hc : p.chars = a ++ m ++ b) :
    sliceBytes p.text (utf8Len (a.map Prod.fst))
      (utf8Len (a.map Prod.fst) + utf8Len (m.map Prod.fst)) = some (m.map Prod.fst) := by
  have : p.text = a.map Prod.fst ++ m.map Prod.fst ++ b.map Prod.fst := by simp [SPara.text, hc]
  rw [this, sliceBytes_append]

/-- `delete_range_in_block` of insert_text. -/
theorem Shows.deleteRange {blk : Block} (h : Shows s d (L ++ p :: R)) (hc : p.chars = a ++ m ++ b)
    (hb : IsBlock p blk) :
    ∃ s', s.deleteRange blk (a.length : Int) ((a.length + m.length : Nat) : Int) =
        some ((m.length : Int), s') ∧
      Shows s' d (L ++ { p with chars := a ++ b } :: R) ∧
      s'.documents = s.documents ∧ s'.counters = s.counters ∧ SameShell s s' := by
  have hpm : p ∈ L ++ p :: R := by simp
  have hid : blk.id = p.id := by rw [hb]
  unfold Store.deleteRange
  by_cases hm : m = []
  · subst hm
    rw [if_pos (by simp)]
    have : ({ p with chars := a ++ b } : SPara) = p := by
      cases p; simp at hc; simp [hc]
    rw [this]
    exact ⟨s, rfl, h, rfl, rfl, .refl s⟩
  · have hl : 0 < m.length := List.length_pos_iff.mpr hm
    rw [if_neg (by omega), hid, h.content hpm, Option.bind_some]
    dsimp only
    rw [(h.offsets hpm hc).1, (h.offsets hpm hc).2, slice_mid hc, Option.bind_some]
    obtain ⟨r, hr, hs⟩ := h.cut hc hb
    rw [hr, Option.map_some]
    refine ⟨_, ?_, hs, rfl, rfl, ⟨rfl, rfl, rfl, rfl, rfl, rfl⟩⟩
    have : s.imagesOf p.id = [] := h.images p hpm
    rw [this]
    simp only [shiftImagesForDelete]
    split <;> simp [shiftImagesAfter]

end Verif
