import Verif.Model.FormattedText
import Verif.Spec.FormattedText
import Verif.Lemmas.Flat
import Verif.Lemmas.Editing
import Verif.Props.FormatRuns
/- `insert_formatted_text` on a document of one frame. -/
namespace Verif

variable {s : Store} {d : Document} {f : Nat} {ps L R : List SPara} {p : SPara} {a b m : List SChar}

theorem StyledOk.insertFormatted {runs : List (Run CharFormat)} {a b : List SChar} {t : List Char}
    (fmt : CharFormat) (ht : t ≠ []) (h : StyledOk runs (a ++ b)) :
    StyledOk (spliceRange (shiftRunsForInsert runs (utf8Len (a.map Prod.fst)) (utf8Len t))
        (utf8Len (a.map Prod.fst)) (utf8Len (a.map Prod.fst) + utf8Len t)
        [⟨utf8Len (a.map Prod.fst), utf8Len (a.map Prod.fst) + utf8Len t, fmt⟩])
      (a ++ styled t (some fmt) ++ b) := by
  have h1 := h.insert t
  have hpos : 0 < utf8Len t := by
    rcases Nat.eq_zero_or_pos (utf8Len t) with h0 | h0
    · exact absurd ((utf8Len_eq_zero).mp h0) ht
    · exact h0
  have hin : InRange (utf8Len (a.map Prod.fst)) (utf8Len (a.map Prod.fst) + utf8Len t)
      [(⟨utf8Len (a.map Prod.fst), utf8Len (a.map Prod.fst) + utf8Len t, fmt⟩ : Run CharFormat)] := by
    simp [InRange]
  constructor
  · have hlen : utf8Len ((a ++ styled t (some fmt) ++ b).map Prod.fst) =
        utf8Len ((a ++ styled t (inheritFmt a) ++ b).map Prod.fst) := by simp [styled_fst]
    rw [hlen]
    refine wellFormed_spliceRange (by omega) ?_ h1.wf.ordered h1.wf.inside ?_ hin
    · simp [styled_fst]
    · exact ⟨by simp; omega, by simp⟩
  · intro i
    rw [fmtAt_spliceRange _ _ _ _ _ (by omega)
      (fun r hr => Nat.le_of_lt (h1.wf.ordered.nonempty r hr)) (by simp) hin, h1.fmt]
    simp only [byteFmts_append, byteFmts_styled]
    by_cases hi : utf8Len (a.map Prod.fst) ≤ i ∧ i < utf8Len (a.map Prod.fst) + utf8Len t
    · rw [if_pos hi, List.append_assoc, List.getElem?_append_right (by simp; omega),
          List.getElem?_append_left (by simp; omega),
          List.getElem?_replicate_of_lt (by simp; omega)]
      simp [fmtAt, hi.1, hi.2]
    · rw [if_neg hi]
      by_cases h2 : i < utf8Len (a.map Prod.fst)
      · rw [List.append_assoc, List.append_assoc, List.getElem?_append_left (by simpa using h2),
          List.getElem?_append_left (by simpa using h2)]
      · rw [List.append_assoc, List.append_assoc, List.getElem?_append_right (by simp; omega),
          List.getElem?_append_right (by simp; omega),
          List.getElem?_append_right (by simp; omega), List.getElem?_append_right (by simp; omega)]
        simp

theorem Shows.insertFormattedAt {blk : Block} {t : List Char} (fmt : CharFormat) (ht : t ≠ [])
    (h : Shows s d (L ++ p :: R)) (hc : p.chars = a ++ b) (hb : IsBlock p blk) :
    ∃ s', s.insertFormattedAt blk (a.length : Int) t fmt = some (utf8Len (a.map Prod.fst), s') ∧
      Shows s' d (L ++ { p with chars := a ++ styled t (some fmt) ++ b } :: R) ∧
      s'.documents = s.documents ∧ s'.blocks = (s.updateBlock blk).blocks ∧
      s'.counters = s.counters ∧ SameShell s s' := by
  have hpm : p ∈ L ++ p :: R := by simp
  have hid : blk.id = p.id := by rw [hb]
  have hoff : logicalOffsetToByte p.text (s.imagesOf p.id) (a.length : Int) =
      utf8Len (a.map Prod.fst) := by rw [h.offset hpm, text_take hc]
  have h1 := h.updateBlock hpm hb
  have htx := h1.text
  have hpt : p.text = a.map Prod.fst ++ b.map Prod.fst := by simp [SPara.text, hc]
  rw [paras_append, paras_cons, hpt] at htx
  obtain ⟨st', hst, hrep⟩ := insertInBlock_repr t htx
  have himg := h.images p hpm
  have hf := h.formats p hpm
  rw [hc] at hf
  have key : ∀ s2 : Store, s2.text = (s.updateBlock blk).text → s2.roots = s.roots →
      s2.documents = s.documents → s2.blocks = (s.updateBlock blk).blocks →
      s2.counters = s.counters → SameShell s s2 →
      s2.formatRuns = s.formatRuns.insert p.id
        (spliceRange (shiftRunsForInsert ((s.formatRuns p.id).getD []) (utf8Len (a.map Prod.fst)) (utf8Len t))
          (utf8Len (a.map Prod.fst)) (utf8Len (a.map Prod.fst) + utf8Len t)
          [⟨utf8Len (a.map Prod.fst), utf8Len (a.map Prod.fst) + utf8Len t, fmt⟩]) →
      (∀ i, i ≠ p.id → s2.blockImages i = s.blockImages i) →
      (s2.blockImages p.id).getD [] = [] →
      ∃ s', (ropeInsertInBlock s2.text p.id (utf8Len (a.map Prod.fst)) t).map
          (fun r => (utf8Len (a.map Prod.fst), s2.withText r)) = some (utf8Len (a.map Prod.fst), s') ∧
        Shows s' d (L ++ { p with chars := a ++ styled t (some fmt) ++ b } :: R) ∧
        s'.documents = s.documents ∧ s'.blocks = (s.updateBlock blk).blocks ∧
        s'.counters = s.counters ∧ SameShell s s' := by
    intro s2 e1 e2 e3 e4 e5 e6 e7 e8 e9
    refine ⟨s2.withText st', by rw [e1, hst]; rfl, ?_, e3, e4, e5, ?_⟩
    · refine h1.replace _ e2 e3 e4 e5 ?_ ?_ ?_ e8 e9
      · show Repr ⟨st'.rope, st'.idx⟩ _
        rw [paras_append, paras_cons]
        simpa [SPara.text, Function.comp_def, styled] using hrep
      · intro i hi
        show s2.formatRuns i = s.formatRuns i
        rw [e7]; simp [IdMap.insert, hi]
      · show StyledOk ((s2.formatRuns p.id).getD []) _
        rw [e7]
        simp only [IdMap.insert, if_true, Option.getD_some]
        exact hf.insertFormatted fmt ht
    · exact ⟨e6.roots, e6.frames, e6.lists, e6.resources, e6.tables, e6.tableCells⟩
  unfold Store.insertFormattedAt
  rw [hid, h.content hpm]
  simp only [Option.bind_some]
  rw [hoff]
  split
  · refine key _ rfl rfl rfl rfl rfl ⟨rfl, rfl, rfl, rfl, rfl, rfl⟩ rfl ?_ ?_
    · intro i hne
      simp only [Store.editImages, Store.editRuns, Store.updateBlock, IdMap.insert, hne, if_false]
    · simp only [Store.editImages, Store.editRuns, Store.updateBlock, IdMap.insert, if_true,
        Option.getD_some, himg]
      simp [shiftImagesForInsert]
  · exact key _ rfl rfl rfl rfl rfl ⟨rfl, rfl, rfl, rfl, rfl, rfl⟩ rfl (fun _ _ => rfl) himg

/-! ### Finding the paragraph -/

theorem Shows.walkSequential (h : Shows s d ps) : ∀ (M : List SPara) (i : Nat) (n : Nat),
    (∀ q ∈ M ++ p :: R, q ∈ ps) → a.length ≤ p.chars.length →
    s.walkSequential ((n + charsBefore (paras M) + a.length : Nat) : Int) i (n : Int) ((M ++ p :: R).map SPara.id) =
      some (some (p.entity (s.storedPos p), i + M.length, ((n + charsBefore (paras M) : Nat) : Int))) := by
  intro M
  induction M with
  | nil =>
    intro i n hm hle
    have hpm := hm p (by simp)
    simp only [List.nil_append, List.map_cons, Store.walkSequential, h.stored hpm, Option.bind_some]
    have : (p.entity (s.storedPos p)).id = p.id := rfl
    rw [this, h.charLength hpm]
    have hlen : p.text.length = p.chars.length := by simp [SPara.text]
    rw [Option.bind_some, if_pos ⟨by simp [paras, charsBefore]; omega, by simp [paras, charsBefore, hlen]; omega⟩]
    simp [paras, charsBefore]
  | cons q M ih =>
    intro i n hm hle
    have hqm := hm q (by simp)
    simp only [List.cons_append, List.map_cons, Store.walkSequential, h.stored hqm, Option.bind_some]
    have : (q.entity (s.storedPos q)).id = q.id := rfl
    rw [this, h.charLength hqm]
    have hlen : q.text.length = q.chars.length := by simp [SPara.text]
    have hcb := charsBefore_paras_cons q M
    rw [Option.bind_some, if_neg (by rw [hlen]; omega)]
    have := ih (i + 1) (n + q.chars.length + 1) (fun r hr => hm r (by simp at hr ⊢; right; exact hr)) hle
    rw [hlen, show ((n : Int) + (q.chars.length : Int) + 1) = ((n + q.chars.length + 1 : Nat) : Int) by omega,
      show n + charsBefore (paras (q :: M)) + a.length =
        n + q.chars.length + 1 + charsBefore (paras M) + a.length by omega, this]
    simp only [Option.some.injEq, Prod.mk.injEq, true_and, List.length_cons]
    omega

theorem Shows.findSequential (h : Shows s d (L ++ p :: R)) (hle : a.length ≤ p.chars.length) :
    s.findSequential ((L ++ p :: R).map SPara.id) ((charsBefore (paras L) + a.length : Nat) : Int) =
      some (p.entity (s.storedPos p), L.length, (charsBefore (paras L) : Int)) := by
  unfold Store.findSequential
  rw [if_neg (by simp)]
  have := h.walkSequential (p := p) (R := R) (a := a) L 0 0 (by simp) hle
  simp only [Nat.zero_add] at this
  rw [show ((0 : Nat) : Int) = 0 from rfl] at this
  rw [this]; rfl

/-- `insert_formatted_text` without a selection. -/
theorem Flat.formattedSimple {dto : FormattedDto} (h : Flat s d f (L ++ p :: R)) (hc : p.chars = a ++ b)
    (ht : dto.text ≠ [])
    (hpos : dto.position = ((charsBefore (paras L) + a.length : Nat) : Int)) :
    ∃ s', s.formattedSimple dto = some (s', dto.position + dto.text.length,
        .simple ⟨p.id, p.entity (s.storedPos p), s.runsOf p.id, s.imagesOf p.id, d.id,
          d.characterCount, utf8Len (a.map Prod.fst), utf8Len dto.text⟩) ∧
      Flat s' { d with characterCount := d.characterCount + dto.text.length } f
        (L ++ { p with chars := a ++ styled dto.text (some dto.format.toChar) ++ b } :: R) ∧
      SameShell s s' ∧ s'.counters = s.counters := by
  have hpm : p ∈ L ++ p :: R := by simp
  obtain ⟨s1, e1, hs1, hd1, hb1, hc1, hsh1⟩ := h.toShows.insertFormattedAt dto.format.toChar ht hc
    (isBlock_entity p (s.storedPos p))
  unfold Store.formattedSimple
  rw [h.docId, Option.bind_some, h.document, Option.bind_some, h.flowBlocks, Option.bind_some,
    if_neg (by simp), hpos, h.toShows.findSequential (by simp [hc]), Option.bind_some]
  dsimp only
  have : (p.entity (s.storedPos p)).id = p.id := rfl
  rw [this, h.charLength hpm, Option.bind_some]
  have hlen : p.text.length = a.length + b.length := by simp [SPara.text, hc]
  rw [hlen, show max 0 (min (((charsBefore (paras L) + a.length : Nat) : Int) - (charsBefore (paras L) : Int))
      ((a.length + b.length : Nat) : Int)) = (a.length : Int) by omega, e1, Option.bind_some]
  dsimp only
  have hs2 := hs1.updateDocument (d' := { d with characterCount := d.characterCount + dto.text.length }) rfl
  have hshell : SameShell s (s1.updateDocument
      { d with characterCount := d.characterCount + dto.text.length }) :=
    ⟨hsh1.roots, hsh1.frames, hsh1.lists, hsh1.resources, hsh1.tables, hsh1.tableCells⟩
  exact ⟨_, rfl, h.of_shell hs2 hshell hc1 (by simp) rfl rfl, hshell, hc1⟩

/-- `insert_formatted_text` over a selection inside one paragraph. -/
theorem Flat.formattedSelection {dto : FormattedDto} (h : Flat s d f (L ++ p :: R))
    (hc : p.chars = a ++ m ++ b) (ht : dto.text ≠ [])
    (hstart : min dto.position dto.anchor = ((charsBefore (paras L) + a.length : Nat) : Int))
    (hstop : max dto.position dto.anchor =
      ((charsBefore (paras L) + (a.length + m.length) : Nat) : Int)) :
    ∃ s', s.formattedSelection dto = some (s',
        min dto.position dto.anchor + dto.text.length, .selection s.snapshot) ∧
      Flat s' { d with characterCount := d.characterCount - m.length + dto.text.length } f
        (L ++ { p with chars := a ++ styled dto.text (some dto.format.toChar) ++ b } :: R) ∧
      SameShell s s' ∧ s'.counters = s.counters := by
  have hpm : p ∈ L ++ p :: R := by simp
  obtain ⟨s1, e1, hs1, hd1, hc1, hsh1⟩ := h.toShows.deleteRange hc (isBlock_entity p (s.storedPos p))
  have hs2 := hs1.updateDocument (d' := { d with characterCount := d.characterCount - m.length }) rfl
  have hf1 := h.toShows.findSequential (a := a) (by simp [hc])
  have hf2 := h.toShows.findSequential (a := a ++ m) (by simp [hc])
  rw [List.length_append] at hf2
  unfold Store.formattedSelection
  rw [h.docId, Option.bind_some, h.document, Option.bind_some]
  dsimp only
  rw [h.flowBlocks, Option.bind_some, if_neg (by simp), hstart, hf1, Option.bind_some]
  dsimp only
  rw [hstop, hf2, Option.bind_some]
  dsimp only
  rw [if_neg (by simp), show ((charsBefore (paras L) + a.length : Nat) : Int) - (charsBefore (paras L) : Int)
      = (a.length : Int) by omega,
    show ((charsBefore (paras L) + (a.length + m.length) : Nat) : Int) - (charsBefore (paras L) : Int)
      = ((a.length + m.length : Nat) : Int) by omega, e1, Option.bind_some]
  dsimp only
  generalize hS2 : s1.updateDocument { d with characterCount := d.characterCount - m.length } = s2 at *
  have hst := hs2.stored (p := { p with chars := a ++ b }) (by simp)
  have hid : (p.entity (s.storedPos p)).id = p.id := rfl
  rw [hid, hst, Option.bind_some]
  obtain ⟨s3, e3, hs3, hd3, hb3, hc3, hsh3⟩ := hs2.insertFormattedAt (a := a) (b := b) dto.format.toChar ht rfl
    (isBlock_entity ({ p with chars := a ++ b } : SPara) (s2.storedPos { p with chars := a ++ b }))
  rw [e3, Option.bind_some]
  dsimp only
  have hdoc3 := hs3.document
  change s3.documents d.id = some _ at hdoc3
  rw [hdoc3, Option.bind_some]
  have hs4 := hs3.updateDocument (d' := { d with characterCount := d.characterCount - m.length + dto.text.length }) rfl
  have hsh2 : SameShell s s2 := by
    rw [← hS2]
    exact ⟨hsh1.roots, hsh1.frames, hsh1.lists, hsh1.resources, hsh1.tables, hsh1.tableCells⟩
  have hshell : SameShell s (s3.updateDocument
      { d with characterCount := d.characterCount - m.length + dto.text.length }) :=
    hsh2.trans (hsh3.trans ⟨rfl, rfl, rfl, rfl, rfl, rfl⟩)
  have hcnt : s3.counters = s.counters := by rw [hc3, ← hS2]; exact hc1
  exact ⟨_, rfl, h.of_shell hs4 hshell hcnt (by simp) rfl rfl, hshell, hcnt⟩

/-- The two ends of the selection lie in different paragraphs. -/
theorem Flat.formattedAcross {dto : FormattedDto} {M : List SPara} {p1 p2 : SPara} {a1 a2 : List SChar}
    (h : Flat s d f (L ++ p1 :: (M ++ p2 :: R))) (h1 : a1.length ≤ p1.chars.length)
    (h2 : a2.length ≤ p2.chars.length)
    (hstart : min dto.position dto.anchor = ((charsBefore (paras L) + a1.length : Nat) : Int))
    (hstop : max dto.position dto.anchor =
      ((charsBefore (paras (L ++ p1 :: M)) + a2.length : Nat) : Int)) :
    s.formattedSelection dto = none := by
  have hf1 := h.toShows.findSequential h1
  have h' : Flat s d f ((L ++ p1 :: M) ++ p2 :: R) := by simpa using h
  have hf2 := h'.toShows.findSequential h2
  rw [show ((L ++ p1 :: M) ++ p2 :: R) = L ++ p1 :: (M ++ p2 :: R) by simp] at hf2
  unfold Store.formattedSelection
  rw [h.docId, Option.bind_some, h.document, Option.bind_some]
  dsimp only
  rw [h.flowBlocks, Option.bind_some, if_neg (by simp), hstart, hf1, Option.bind_some]
  dsimp only
  rw [hstop, hf2, Option.bind_some]
  dsimp only
  rw [if_pos (by simp)]

/-- The two undo functions do the same. -/
theorem undoFormatted_eq (s : Store) (u : Store.InsertUndo) : s.undoFormatted u = s.undoInsert u := by
  cases u with
  | selection snap => rfl
  | simple u =>
    unfold Store.undoFormatted Store.undoInsert
    rfl

end Verif
