import Verif.Lemmas.Images
import Verif.Lemmas.Import
import Verif.Lemmas.FormattingUndo
import Verif.Props.Store
import Verif.Props.Stats
import Verif.Props.PlainText
import Verif.Model.Formatting
import Verif.Model.ExportHtml
/-
C62: inserting an image; with the failing case of C61.
-/
namespace Verif
variable {s : Store} {d : Document} {f : Nat} {ps L R : List SPara} {p : SPara} {a b : List SChar}
open Store

/-- **C62.** `insert_image` at the caret puts one object character into the text there, remembers the image with its
name and size at that place, and counts one character more; the caret ends up behind it.  Every other paragraph and
its images, every span table, all frames, lists and tables stay.  If no character behind the caret is formatted, the
formats of all characters stay as well.  Full statement: the same for paragraphs that have images already, and the
formats always; the latter is false, see `C62_unreadable_fails`. -/
theorem C62_insert_image_partial (h : Flat s d f (L ++ p :: R)) (hc : p.chars = a ++ b) (dto : ImageDto)
    (h1 : dto.position = ((charsBefore (paras L) + a.length : Nat) : Int)) (h2 : dto.anchor = dto.position)
    (hw : 0 < dto.width) (hh : 0 < dto.height) :
    ∃ s' el, s.insertImage dto = some (s', dto.position + 1, el, s.snapshot) ∧
      s'.exportPlainText = some (docText (L ++ { p with chars := a ++ (objChar, none) :: b } :: R)) ∧
      s'.imagesOf p.id = [⟨utf8Len (a.map Prod.fst), dto.name, dto.width, dto.height, 100, {}⟩] ∧
      (∀ i, i ≠ p.id → s'.blockImages i = s.blockImages i) ∧
      s'.formatRuns = s.formatRuns ∧ SameShell s s' ∧
      s'.documents d.id = some { d with characterCount := d.characterCount + 1 } ∧
      (∀ q ∈ L ++ p :: R, ∃ blk, s'.blocks q.id = some blk ∧ IsBlock q blk) ∧
      ((∀ c ∈ b, c.2 = none) → Flat { s' with blockImages := s.blockImages }
        { d with characterCount := d.characterCount + 1 } f
        (L ++ { p with chars := a ++ (objChar, none) :: b } :: R)) := by
  obtain ⟨fr, hf, hfid, _, hperm⟩ := h.frame
  have hpm : p ∈ L ++ p :: R := by simp
  have hE : Entities (L ++ p :: R) (s.getBlocks fr.blocks) := by
    have hp' : (s.getBlocks fr.blocks).Perm (s.getBlocks ((L ++ p :: R).map SPara.id)) := hperm.filterMap _
    rw [h.getBlocks] at hp'
    have h0 : Entities (L ++ p :: R) ((L ++ p :: R).map fun p => p.entity (s.storedPos p)) := .of_map _ _
    exact ⟨fun x hx => h0.all x (hp'.mem_iff.mp hx), fun q hq => by
      obtain ⟨x, hx, e⟩ := h0.has q hq
      exact ⟨x, hp'.mem_iff.mpr hx, e⟩⟩
  have hES := hE.sort
  obtain ⟨i, hi⟩ := hES.find hpm
  have hfind := h.toShows.findIn hc hES hi
  obtain ⟨segs, hs1, hs2⟩ := (h.formats p hpm).segments {}
  have htext : segsText segs = p.text := segsText_of_items hs2
  have hby : imageByte (a.length : Int) 0 0 segs = utf8Len (a.map Prod.fst) := by
    by_cases hne : segs = []
    · subst hne
      have : p.text.length = 0 := by rw [← htext]; rfl
      have hl : a.length = 0 := by
        rw [SPara.text, List.length_map, hc, List.length_append] at this; omega
      rw [List.length_eq_zero_iff.mp hl]; rfl
    · have := imageByte_text segs hne (segs_all_text hs2) a.length (by
        rw [htext, SPara.text, List.length_map, hc, List.length_append]; omega) 0 0
      rw [Int.zero_add] at this
      rw [this, htext, text_take hc, Nat.zero_add]
  have hpt : p.text = a.map Prod.fst ++ b.map Prod.fst := by simp [SPara.text, hc]
  have ht := h.text
  rw [paras_append, paras_cons, hpt] at ht
  obtain ⟨st, hst, hrep⟩ := insertInBlock_repr [objChar] ht
  generalize hblk : p.entity (charsBefore (paras L)) = blk at hfind
  have hb : IsBlock p blk := hblk ▸ isBlock_entity p _
  have hid : blk.id = p.id := by rw [hb]
  have himg := h.images p hpm
  generalize hbl : sortByKey Block.documentPosition (s.getBlocks fr.blocks) = blocks at hES hi hfind
  -- the store without the new image and text
  have hX1 := h.toShows.updateBlock hpm hb
  have hX2 := (hX1.shiftStored 1 (bs := blocks.drop (i + 1)) fun x hx => hES.all x (List.mem_of_mem_drop hx)).1
  have hX3 := hX2.updateDocument (d' := { d with characterCount := d.characterCount + 1 }) rfl
  have hkeep : keepDoc { d with characterCount := d.characterCount + 1 } (some d) =
      { d with characterCount := d.characterCount + 1 } := rfl
  rw [hkeep] at hX3
  generalize hS1 : s.editImages p.id (putAnchor ⟨utf8Len (a.map Prod.fst), dto.name, dto.width, dto.height, 100, {}⟩) = s1
  have hbb := updateBlocks_blocks ((blocks.drop (i + 1)).map fun b => { b with documentPosition := b.documentPosition + 1 })
    ((s1.withText st).updateBlock blk) (s.updateBlock blk) (by subst hS1; rfl)
  refine ⟨(((s1.withText st).updateBlock blk).shiftStored (blocks.drop (i + 1)) 1).updateDocument
    { d with characterCount := d.characterCount + 1 }, synthElementId p.id (utf8Len (a.map Prod.fst)), ?_, ?_⟩
  · unfold Store.insertImage
    rw [if_neg (by rw [h2]; simp), if_neg (by omega), h.docId, Option.bind_some, h.document, Option.bind_some,
      h.docFrames]
    simp only [List.head?_cons, Option.bind_some]
    rw [show s.frameBlocks f = fr.blocks by unfold Store.frameBlocks; rw [hf]; rfl, hbl, h1, hfind, Option.bind_some]
    simp only [hid]
    rw [h.content hpm, Option.bind_some]
    rw [show s.segmentsOf p.id p.text = some segs by
      unfold Store.segmentsOf Store.imagesOf Store.runsOf; rw [himg]; exact hs1, Option.bind_some, hby, hS1,
      show s1.text = s.text by subst hS1; rfl, hst, Option.map_some]
  · generalize hS' : (((s1.withText st).updateBlock blk).shiftStored (blocks.drop (i + 1)) 1).updateDocument
      { d with characterCount := d.characterCount + 1 } = s'
    have hfull := hbb.2
    have hblk' := hbb.1
    unfold Store.shiftStored at hS'
    rw [hfull] at hS'
    have hsh : SameShell s s' := by subst hS' hS1; exact ⟨rfl, rfl, rfl, rfl, rfl, rfl⟩
    have hrep' : Repr s'.text (paras (L ++ { p with chars := a ++ (objChar, none) :: b } :: R)) := by
      subst hS'
      show Repr ⟨st.rope, st.idx⟩ _
      rw [paras_append, paras_cons]
      simpa [SPara.text, Function.comp_def] using hrep
    have hcnt : s'.counters = s.counters := by subst hS' hS1; rfl
    have hruns : s'.formatRuns = s.formatRuns := by subst hS' hS1; rfl
    have hbs : s'.blocks = (((s.updateBlock blk).shiftStored (blocks.drop (i + 1)) 1).updateDocument
        { d with characterCount := d.characterCount + 1 }).blocks := by subst hS'; exact hblk'
    have hdocs : s'.documents = (((s.updateBlock blk).shiftStored (blocks.drop (i + 1)) 1).updateDocument
        { d with characterCount := d.characterCount + 1 }).documents := by
      unfold Store.shiftStored
      rw [(updateBlocks_blocks _ (s.updateBlock blk) _ rfl).2]
      subst hS' hS1; rfl
    refine ⟨?_, ?_, ?_, hruns, hsh, ?_, ?_, ?_⟩
    · unfold Store.exportPlainText
      have hid' : s'.docId = some d.id := by
        have : s'.docId = s.docId := by unfold Store.docId; rw [hsh.roots]
        rw [this, h.docId]
      have hdf : s'.docFrames d.id = [f] := by
        unfold Store.docFrames; rw [hdocs, hX3.document]; exact h.frames
      have h1 := (C14_reading hrep').2.1 (by
        intro p hp
        simp only [paras, List.mem_map] at hp
        obtain ⟨q, _, rfl⟩ := hp
        rfl)
      rw [paras_snd] at h1
      rw [hid', Option.bind_some, hdf]
      simp only [List.length_cons, List.length_nil, Nat.zero_add, h1]
      rfl
    · subst hS' hS1
      show ((s.blockImages.insert p.id _) p.id).getD [] = _
      simp only [IdMap.insert, if_true, Option.getD_some, himg]
      rfl
    · intro j hj
      subst hS' hS1
      show (s.blockImages.insert p.id _) j = _
      simp [IdMap.insert, hj]
    · rw [hdocs]; exact hX3.document
    · intro q hq
      rw [hbs]; exact hX3.block q hq
    · intro hpl
      have hshows : Shows { s' with blockImages := s.blockImages } { d with characterCount := d.characterCount + 1 }
          (L ++ { p with chars := a ++ (objChar, none) :: b } :: R) := by
        have hXs := updateBlocks_blocks ((blocks.drop (i + 1)).map fun b =>
          { b with documentPosition := b.documentPosition + 1 }) (s.updateBlock blk) _ rfl
        refine hX3.replace _ ?_ hdocs hbs ?_ hrep' ?_ ?_ ?_ ?_
        · unfold Store.shiftStored; rw [hXs.2]; exact hsh.roots
        · unfold Store.shiftStored; rw [hXs.2]; exact hcnt
        · intro j _; unfold Store.shiftStored; rw [hXs.2]; exact congrArg (fun m => IdMap.get m j) hruns
        · show StyledOk ((s'.formatRuns p.id).getD []) _
          rw [hruns]
          have := h.formats p hpm
          rw [hc] at this
          exact this.insertPlain objChar hpl
        · intro j _; unfold Store.shiftStored; rw [hXs.2]; rfl
        · exact himg
      refine h.of_shell hshows ⟨hsh.roots, hsh.frames, hsh.lists, hsh.resources, hsh.tables, hsh.tableCells⟩ hcnt ?_
        rfl rfl
      simp

/-- Undo gives back exactly the document of before, whatever happened in between. -/
theorem C62_undo_partial (h : Flat s d f ps) {dto : ImageDto} {s' : Store} {x : Int} {el : Nat} {snap : Snapshot}
    (e : s.insertImage dto = some (s', x, el, snap)) (w : Store) (hn : s.next "block" ≤ w.next "block") :
    SameContent (w.undoImage snap) s ∧ Flat (w.undoImage snap) d f ps := by
  have hs : snap = s.snapshot := by
    unfold Store.insertImage at e
    split at e
    · cases e
    · split at e
      · cases e
      · simp only [Option.bind_eq_some_iff, Option.map_eq_some_iff] at e
        obtain ⟨_, _, _, _, _, _, _, _, _, _, _, _, _, _, e⟩ := e
        simp only [Prod.mk.injEq] at e
        exact e.2.2.2.symm
  subst hs
  have hsame : SameContent (w.undoImage s.snapshot) s := (C27_undo_snapshot s w).1
  exact ⟨hsame, h.same_content hsame hn⟩

/-- A selection or a size that is not positive is refused, in every document. -/
theorem C62_refused (s : Store) (dto : ImageDto)
    (h : dto.position ≠ dto.anchor ∨ dto.width ≤ 0 ∨ dto.height ≤ 0) : s.insertImage dto = none := by
  unfold Store.insertImage
  by_cases h1 : dto.position ≠ dto.anchor
  · rw [if_pos h1]
  · rw [if_neg h1, if_pos (h.resolve_left h1)]

theorem putAnchor_split (a : Img CharFormat) (l : List (Img CharFormat)) :
    ∃ A B, l = A ++ B ∧ putAnchor a l = A ++ a :: B ∧ (∀ x ∈ A, x.off ≤ a.off) ∧ ∀ x, B.head? = some x → a.off < x.off := by
  induction l with
  | nil => exact ⟨[], [], rfl, rfl, by simp, by simp⟩
  | cons y l ih =>
    by_cases hy : a.off < y.off
    · refine ⟨[], y :: l, rfl, ?_, by simp, by intro x hx; cases hx; exact hy⟩
      unfold putAnchor
      simp [List.findIdx?_cons, hy]
    · obtain ⟨A, B, rfl, e, h1, h2⟩ := ih
      refine ⟨y :: A, B, rfl, ?_, ?_, h2⟩
      · unfold putAnchor at e ⊢
        rw [List.findIdx?_cons]
        simp only [hy, decide_false, Bool.false_eq_true, if_false]
        cases hi : (A ++ B).findIdx? fun x => decide (a.off < x.off) with
        | none => rw [hi] at e; simp at e ⊢; exact e
        | some i => rw [hi] at e; simp at e ⊢; exact e
      · intro x hx
        rcases List.mem_cons.mp hx with rfl | hx
        · omega
        · exact h1 x hx

/-- In every document, whatever images there are: the paragraph keeps its images in their order, the new one stands behind those that
are not behind its place, also behind one at the same place, and no other paragraph's images change. -/
theorem C62_order {dto : ImageDto} {s' : Store} {x : Int} {el : Nat} {snap : Snapshot} (e : s.insertImage dto = some (s', x, el, snap)) :
    ∃ id off A B, s.imagesOf id = A ++ B ∧ s'.imagesOf id = A ++ ⟨off, dto.name, dto.width, dto.height, 100, {}⟩ :: B ∧
      (∀ x ∈ A, x.off ≤ off) ∧ (∀ x, B.head? = some x → off < x.off) ∧ ∀ j, j ≠ id → s'.imagesOf j = s.imagesOf j := by
  unfold Store.insertImage at e
  split at e
  · cases e
  · split at e
    · cases e
    · simp only [Option.bind_eq_some_iff, Option.map_eq_some_iff] at e
      obtain ⟨_, _, doc, _, _, _, r, _, _, _, segs, _, st, _, e⟩ := e
      simp only [Prod.mk.injEq] at e
      obtain ⟨A, B, h1, h2, h3, h4⟩ := putAnchor_split ⟨imageByte r.2.2 0 0 segs, dto.name, dto.width, dto.height, 100, {}⟩ (s.imagesOf r.1.id)
      refine ⟨r.1.id, _, A, B, h1, ?_, h3, h4, ?_⟩
      · rw [← h2, ← e.1]
        unfold Store.shiftStored
        rw [(updateBlocks_blocks _ _ _ rfl).2]
        simp [Store.imagesOf, Store.updateDocument, Store.updateBlock, Store.withText, Store.editImages, IdMap.insert]
      · intro j hj
        rw [← e.1]
        unfold Store.shiftStored
        rw [(updateBlocks_blocks _ _ _ rfl).2]
        simp [Store.imagesOf, Store.updateDocument, Store.updateBlock, Store.withText, Store.editImages, IdMap.insert, hj]

/-- Two images at one place stand in the order they came, the first one first; but an image behind the caret does not move on with its
object character: after an image at the start of "ab", the image inserted after "a" before is still remembered there. -/
theorem C62_anchor_fails : ∃ (s s1 s2 s3 : Store),
    (Store.newStore.bind fun s => s.importPlainText "ab".toList) = some s ∧
    (s.insertImage ⟨1, 1, "one", 10, 20⟩).map (fun r => r.1) = some s1 ∧
    (s1.insertImage ⟨1, 1, "two", 10, 20⟩).map (fun r => r.1) = some s2 ∧
    (s2.imagesOf 2).map (fun i => (i.off, i.name)) = [(1, "one"), (1, "two")] ∧
    (s1.insertImage ⟨0, 0, "two", 10, 20⟩).map (fun r => r.1) = some s3 ∧
    s3.exportPlainText = some [objChar, 'a', objChar, 'b'] ∧
    (s3.imagesOf 2).map (fun i => (i.off, i.name)) = [(0, "two"), (1, "one")] := by
  refine ⟨_, _, _, _, rfl, rfl, rfl, ?_, rfl, ?_, ?_⟩ <;> decide +kernel

/-- A two-paragraph document with the caret in the middle of the first. -/
example : ∃ (s : Store) (d : Document) (f : Nat) (L R : List SPara) (p : SPara) (a b : List SChar),
    Flat s d f (L ++ p :: R) ∧ p.chars = a ++ b ∧ a ≠ [] ∧ b ≠ [] ∧ R ≠ [] ∧ (∀ c ∈ b, c.2 = none) ∧
    (∃ s', (s.insertImage ⟨1, 1, "pic", 10, 20⟩).map (fun r => r.1) = some s' ∧
      s'.exportPlainText = some ['a', objChar, 'b', '\n', 'c']) := by
  obtain ⟨s, e1, e2, e3, _⟩ := newStore_flat
  obtain ⟨s1, g1, g2, g3, g4⟩ := e2.import e3 ['a', 'b', '\n', 'c']
  refine ⟨s1, _, _, [], _, _, [('a', none)], [('b', none)], g2, rfl, List.cons_ne_nil _ _, List.cons_ne_nil _ _,
    List.cons_ne_nil _ _, by simp, ?_⟩
  cases e1; cases g1
  exact ⟨_, rfl, by decide +kernel⟩

/-- **C62 fails behind formatted text.** "abc" with "ab" bold; an image inserted after "a".  The span table is not
moved, so that the span ends inside the object character: reading the text and exporting the document panic. -/
theorem C62_unreadable_fails : ∃ (s s1 s2 : Store),
    (Store.newStore.bind fun s => s.importPlainText "abc".toList) = some s ∧
    (s.mergeTextFormat { fontBold := some true } 0 2).map (fun r => r.1) = some s1 ∧
    (s1.insertImage ⟨1, 1, "pic", 10, 20⟩).map (fun r => r.1) = some s2 ∧
    s2.exportPlainText = some ['a', objChar, 'b', 'c'] ∧
    s2.textAt 0 2 = none ∧ s2.exportHtml Store.showInt = none := by
  refine ⟨_, _, _, rfl, rfl, rfl, ?_, ?_, ?_⟩ <;> decide +kernel

/-- An inserted image is read twice, and deleting its position does not delete it: "ab" with an image at the end
reads as "ab" and two object characters; after `delete_text` of the image the image and its object character are
still there. -/
theorem C62_image_stays_fails : ∃ (s s1 s2 : Store),
    (Store.newStore.bind fun s => s.importPlainText "ab".toList) = some s ∧
    (s.insertImage ⟨2, 2, "pic", 10, 20⟩).map (fun r => r.1) = some s1 ∧
    (s1.textAt 0 9).map TextAt.text = some ['a', 'b', objChar, objChar] ∧
    (s1.deleteText 2 3).map (fun r => r.1) = some s2 ∧
    s2.exportPlainText = some ['a', 'b', objChar] ∧ (s2.imagesOf 2).length = 1 := by
  refine ⟨_, _, _, rfl, rfl, ?_, rfl, ?_, ?_⟩ <;> decide +kernel

/-- **C61 fails with images.** An image alone in its paragraph counts as a word. -/
theorem C61_image_is_a_word_fails : ∃ (s s1 : Store),
    (Store.newStore.bind fun s => s.importPlainText "ab\n".toList) = some s ∧
    s.documentStats.map DocStats.words = some 1 ∧
    (s.insertImage ⟨3, 3, "pic", 10, 20⟩).map (fun r => r.1) = some s1 ∧
    s1.documentStats.map DocStats.words = some 2 := by
  refine ⟨_, _, rfl, ?_, rfl, ?_⟩ <;> decide +kernel

end Verif
