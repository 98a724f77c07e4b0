import Verif.Lemmas.FormattingUndo
import Verif.Lemmas.BlockFormat
import Verif.Spec.PublicFormat
import Verif.Props.PlainText
import Verif.Props.Replace
/-
C49: formatting a selection; C50: formatting paragraphs; C51: formats through the API; with C20 for undo.
-/
namespace Verif
variable {s s' : Store} {d : Document} {f : Nat} {ps : List SPara} {m : CharFormat → CharFormat}
open Store

theorem map_reformat (lo hi : Nat) (g : SPara → Int) (start : Nat) (qs : List SPara)
    (hg : ∀ L p R, qs = L ++ p :: R → g p = ((start + charsBefore (paras L) : Nat) : Int)) :
    (qs.map fun p => ({ p with chars := reformatAt m (storedSel lo hi (g p)) p.chars } : SPara)) =
      reformatDoc m lo hi start qs := by
  induction qs generalizing start with
  | nil => rfl
  | cons q qs ih =>
    rw [List.map_cons, reformatDoc]
    have h0 := hg [] q qs rfl
    congr 1
    · congr 2
      funext i
      have h1 : charsBefore (paras []) = 0 := rfl
      rw [h0, h1]
      unfold storedSel
      apply decide_eq_decide.mpr
      omega
    · apply ih
      intro L p R e
      rw [hg (q :: L) p R (by rw [e]; rfl), charsBefore_paras_cons]
      congr 1; omega

theorem placed_storedPos (hp : Placed s ps) (L : List SPara) (p : SPara) (R : List SPara) (e : ps = L ++ p :: R) :
    s.storedPos p = ((0 + charsBefore (paras L) : Nat) : Int) := by
  obtain ⟨b, h1, h2⟩ := hp L p R e
  unfold Store.storedPos
  rw [h1, Nat.zero_add, ← h2]; rfl

theorem reformatDoc_text (lo hi start : Nat) (qs : List SPara) : paras (reformatDoc m lo hi start qs) = paras qs := by
  induction qs generalizing start with
  | nil => rfl
  | cons q qs ih =>
    have e : (reformatAt m (fun i => decide (lo ≤ start + i ∧ start + i < hi)) q.chars).map Prod.fst =
        q.chars.map Prod.fst := by
      apply List.ext_getElem
      · simp [reformatAt]
      · intro i h1 h2
        simp only [reformatAt, List.getElem_map, List.getElem_mapIdx]
        split <;> rfl
    have := ih (start + q.chars.length + 1)
    simp only [paras] at this
    simp only [reformatDoc, paras, List.map_cons, this]
    simp only [SPara.text, e]

theorem placed_of_blocks {qs : List SPara} (hp : Placed s ps) (ht : paras qs = paras ps)
    (hb : ∀ i, (s'.blocks i).map Block.documentPosition = (s.blocks i).map Block.documentPosition) :
    Placed s' qs := by
  intro L p R e
  have hl : ps.map SPara.id = qs.map SPara.id := by
    have := congrArg (List.map fun x : Para => match x.1 with | .block i => i | _ => 0) ht
    simpa [paras, Function.comp_def] using this.symm
  have hlen : ps.length = qs.length := by have := congrArg List.length hl; simpa using this
  have hn : L.length < ps.length := by rw [hlen, e]; simp
  have hps : ps = ps.take L.length ++ ps[L.length] :: ps.drop (L.length + 1) := by simp
  obtain ⟨b, h1, h2⟩ := hp _ _ _ hps
  have hid : (ps[L.length]).id = p.id := by
    have h3 : (ps.map SPara.id)[L.length]? = (qs.map SPara.id)[L.length]? := by rw [hl]
    rw [e] at h3
    simpa [hn] using h3
  rw [hid] at h1
  have h4 := hb p.id
  rw [h1] at h4
  cases hs : s'.blocks p.id with
  | none => rw [hs] at h4; simp at h4
  | some b' =>
    rw [hs] at h4
    refine ⟨b', rfl, ?_⟩
    have : b'.documentPosition = b.documentPosition := by simpa using h4
    rw [this, h2]
    have h5 : paras (ps.take L.length) = paras L := by
      have : (paras qs).take L.length = (paras ps).take L.length := by rw [ht]
      simp only [paras, ← List.map_take] at this
      rw [e] at this
      simpa [paras] using this.symm
    rw [h5]

/-- `set_text_format` and `merge_text_format` with right stored positions. -/
theorem format_text (h : Flat s d f ps) (hp : Placed s ps) (x y : Nat) :
    ∃ s' inv, s.formatText m x y = some (s', inv) ∧
      Flat s' d f (reformatDoc m (min x y) (max x y) 0 ps) ∧
      Placed s' (reformatDoc m (min x y) (max x y) 0 ps) ∧ s'.exportPlainText = s.exportPlainText := by
  obtain ⟨s', inv, e, o, h1⟩ := h.formatText (m := m) x y
  have hmm : (min (x : Int) y) = ((min x y : Nat) : Int) ∧ (max (x : Int) y) = ((max x y : Nat) : Int) := by omega
  rw [hmm.1, hmm.2] at h1
  rw [map_reformat (m := m) (min x y) (max x y) s.storedPos 0 ps (placed_storedPos hp)] at h1
  refine ⟨s', inv, e, h1, ?_, ?_⟩
  · exact placed_of_blocks hp (reformatDoc_text _ _ _ _) fun i => by rw [o.blocks]
  · rw [export_flat h1, export_flat h]
    have : (reformatDoc m (min x y) (max x y) 0 ps).map SPara.text = ps.map SPara.text := by
      have := congrArg (List.map Prod.snd) (reformatDoc_text (m := m) (min x y) (max x y) 0 ps)
      simpa [paras, Function.comp_def] using this
    unfold docText; rw [this]

/-- **C49 (set).** `set_text_format` between two positions, in a document whose stored paragraph positions are
right: exactly the characters between the two get the given fields, in whichever order the positions are;
the text, the counts, the paragraphs and their formats stay.  Full statement: the same without the
hypothesis on stored positions, with tables and images; it is false, see `C49_stale_positions_fails`. -/
theorem C49_set_text_format_partial (h : Flat s d f ps) (hp : Placed s ps) (dto : SetFormatDto) (x y : Nat) :
    ∃ s' inv, s.setTextFormat dto x y = some (s', inv) ∧
      Flat s' d f (reformatDoc (mergeSet dto) (min x y) (max x y) 0 ps) ∧
      Placed s' (reformatDoc (mergeSet dto) (min x y) (max x y) 0 ps) ∧ s'.exportPlainText = s.exportPlainText :=
  format_text h hp x y

/-- **C49 (merge).** The same of `merge_text_format`. -/
theorem C49_merge_text_format_partial (h : Flat s d f ps) (hp : Placed s ps) (dto : MergeFormatDto) (x y : Nat) :
    ∃ s' inv, s.mergeTextFormat dto x y = some (s', inv) ∧
      Flat s' d f (reformatDoc (mergeMerge dto) (min x y) (max x y) 0 ps) ∧
      Placed s' (reformatDoc (mergeMerge dto) (min x y) (max x y) 0 ps) ∧ s'.exportPlainText = s.exportPlainText :=
  format_text h hp x y

/-- Whatever the stored positions are, formatting never changes the text, the counts, the paragraphs or
their formats. -/
theorem C49_format_keeps_text (h : Flat s d f ps) (m : CharFormat → CharFormat) (x y : Int) :
    ∃ s' inv ps', s.formatText m x y = some (s', inv) ∧ Flat s' d f ps' ∧
      ps'.map (fun p => (p.id, p.text, p.shape)) = ps.map (fun p => (p.id, p.text, p.shape)) ∧
      s'.exportPlainText = s.exportPlainText := by
  obtain ⟨s', inv, e, o, h1⟩ := h.formatText (m := m) x y
  have ht : ∀ (sel : Nat → Bool) (cs : List SChar), (reformatAt m sel cs).map Prod.fst = cs.map Prod.fst := by
    intro sel cs
    apply List.ext_getElem
    · simp [reformatAt]
    · intro i h1 h2
      simp only [reformatAt, List.getElem_map, List.getElem_mapIdx]
      split <;> rfl
  refine ⟨s', inv, _, e, h1, ?_, ?_⟩
  · rw [List.map_map]
    apply List.map_congr_left
    intro p _
    simp only [Function.comp_apply, SPara.text, ht]
  · rw [export_flat h1, export_flat h]
    unfold docText
    rw [List.map_map]
    congr 2
    apply List.map_congr_left
    intro p _
    simp only [Function.comp_apply, SPara.text, ht]

/-- Typing in an earlier paragraph leaves the stored positions of the later ones behind, and formatting then
changes the wrong character: in "ab", "cd" type "x" at the start and make the character at position 4, the
"c", bold: the "d" becomes bold. -/
theorem C49_stale_positions_fails : ∃ (s s' : Store) (inv : List BlockInverse),
    ((Store.newStore.bind fun s => s.importPlainText "ab\ncd".toList).bind fun s =>
      (s.insertText ⟨0, 0, ['x']⟩).map fun r => r.1) = some s ∧
    s.exportPlainText = some "xab\ncd".toList ∧
    s.setTextFormat { fontBold := some true } 4 5 = some (s', inv) ∧
    blockContent s'.text 3 = some ['c', 'd'] ∧
    fmtAt (s'.runsOf 3) 0 = none ∧ fmtAt (s'.runsOf 3) 1 = some { fontBold := some true } := by
  refine ⟨_, _, _, rfl, ?_, rfl, ?_, ?_, ?_⟩ <;> decide +kernel

/-- The hypotheses are met by every freshly loaded text. -/
example : ∃ (s s' : Store) (inv : List BlockInverse) (d : Document) (f : Nat) (ps : List SPara),
    (Store.newStore.bind fun s => s.importPlainText "ab\ncd".toList) = some s ∧ Flat s d f ps ∧ Placed s ps ∧
    s.setTextFormat { fontBold := some true } 4 1 = some (s', inv) ∧
    fmtAt (s'.runsOf 2) 0 = none ∧ fmtAt (s'.runsOf 2) 1 = some { fontBold := some true } ∧
    fmtAt (s'.runsOf 3) 0 = some { fontBold := some true } ∧ fmtAt (s'.runsOf 3) 1 = none := by
  obtain ⟨s, e1, e2, e3, _⟩ := newStore_flat
  obtain ⟨s1, e4, e5, _, e6⟩ := e2.import e3 "ab\ncd".toList
  have e : (Store.newStore.bind fun s => s.importPlainText "ab\ncd".toList) = some s1 := by
    rw [e1, Option.bind_some, e4]
  have hk : ((Store.newStore.bind fun s => s.importPlainText "ab\ncd".toList).bind fun s =>
      (s.setTextFormat { fontBold := some true } 4 1).map fun r =>
        (fmtAt (r.1.runsOf 2) 0, fmtAt (r.1.runsOf 2) 1, fmtAt (r.1.runsOf 3) 0, fmtAt (r.1.runsOf 3) 1)) =
      some (none, some { fontBold := some true }, some { fontBold := some true }, none) := by decide +kernel
  rw [e, Option.bind_some] at hk
  simp only [Option.map_eq_some_iff, Prod.mk.injEq] at hk
  obtain ⟨⟨s', inv⟩, h1, h2, h3, h4, h5⟩ := hk
  exact ⟨s1, s', inv, _, _, _, e, e5, e6, h1, h2, h3, h4, h5⟩

/-! ## Undo and redo -/

/-- **C20 (character formats).** In any store, tables and images included, in which no paragraph is listed
twice, the span tables are well formed and no two images of a paragraph sit at the same offset: undoing
`set_text_format` or `merge_text_format` gives back everything as it was, and redoing it gives what the first
execution gave, with the same undo data. -/
theorem C20_format_text_partial {x y : Int} {invs : List BlockInverse}
    (hdo : s.formatText m x y = some (s', invs))
    (hnd : ∀ did, s.docId = some did → ((s.sortedBlocks did).map Block.id).Nodup)
    (hwf : ∀ i, ∃ len, WellFormed len ((s.formatRuns i).getD []))
    (himg : ∀ i, ((s.blockImages i).getD []).Pairwise fun a b => a.off ≠ b.off) :
    SameReading (s'.undoFormat invs) s ∧
    ∃ s'', (s'.undoFormat invs).formatText m x y = some (s'', invs) ∧ SameReading s'' s' := by
  have hfm : Formatted m s s' invs ∧ (invs.map BlockInverse.block).Nodup := by
    unfold Store.formatText at hdo
    simp only [Option.bind_eq_some_iff] at hdo
    obtain ⟨did, e1, doc, e2, e⟩ := hdo
    split at e
    · cases e; exact ⟨⟨.refl s, fun _ _ => ⟨rfl, rfl⟩, by simp⟩, by simp⟩
    · obtain ⟨h1, h2⟩ := formatLoop_formatted _ (hnd did e1) e
      exact ⟨h1, h2.nodup (hnd did e1)⟩
  obtain ⟨hf, hvn⟩ := hfm
  obtain ⟨o, hr, he⟩ := undoFormat_spec invs (s := s') hvn
  have hsame : SameReading (s'.undoFormat invs) s := by
    refine SameReading.of_only (hf.only.trans o) ?_
    intro i
    by_cases hi : i ∈ invs.map BlockInverse.block
    · obtain ⟨v, hv, rfl⟩ := List.mem_map.mp hi
      obtain ⟨a, b, g, h1, h2, h3⟩ := hf.each v hv
      have h4 := he v hv
      rw [h2, h3] at h4
      have hg : (⟨g.runs, g.imgs⟩ : BlockFmt CharFormat) = g := rfl
      rw [hg] at h4
      obtain ⟨len, hl⟩ := hwf v.block
      have h5 := (C06_undo_redo_partial m {} len ⟨s.runsOf v.block, s.imagesOf v.block⟩ g v.inv a b hl
        ((himg v.block).imp fun h k => h k.1) h1).1
      rw [h5] at h4
      simp only [BlockFmt.mk.injEq] at h4
      exact h4
    · obtain ⟨h1, h2⟩ := hr i hi
      obtain ⟨h3, h4⟩ := hf.rest i hi
      rw [h1, h2]
      unfold Store.runsOf Store.imagesOf
      rw [h3, h4]; exact ⟨rfl, rfl⟩
  refine ⟨hsame, ?_⟩
  obtain ⟨s'', h1, h2⟩ := hsame.symm.formatText hdo
  exact ⟨s'', h1, h2.symm⟩

/-- The hypotheses hold of every document without tables and images. -/
example (h : Flat s d f ps) (hs : ∀ i, i ∉ ps.map SPara.id → (s.formatRuns i).getD [] = [] ∧ (s.blockImages i).getD [] = [])
    (x y : Int) : ∃ s' invs s'', s.formatText m x y = some (s', invs) ∧ SameReading (s'.undoFormat invs) s ∧
      (s'.undoFormat invs).formatText m x y = some (s'', invs) ∧ SameReading s'' s' := by
  obtain ⟨s', inv, e, _⟩ := h.formatText (m := m) x y
  have hnil : ∀ i, (s.blockImages i).getD [] = [] := by
    intro i
    by_cases hi : i ∈ ps.map SPara.id
    · obtain ⟨p, hp, rfl⟩ := List.mem_map.mp hi; exact h.images p hp
    · exact (hs i hi).2
  obtain ⟨h1, s'', h2, h3⟩ := C20_format_text_partial e
    (by intro did hd; rw [h.docId] at hd; cases hd; exact h.listed.nodup)
    (by
      intro i
      by_cases hi : i ∈ ps.map SPara.id
      · obtain ⟨p, hp, rfl⟩ := List.mem_map.mp hi; exact ⟨_, (h.formats p hp).wf⟩
      · exact ⟨0, by rw [(hs i hi).1]; exact ⟨⟨by simp, by simp⟩, trivial, by simp⟩⟩)
    (by intro i; rw [hnil]; exact .nil)
  exact ⟨s', inv, s'', e, h1, h2, h3⟩

/-! ## Paragraph formats -/

theorem map_reshape (g : Block → Block) (sel : SPara → Bool) (sel' : Nat → Nat → Bool) (start : Nat) (qs : List SPara)
    (hg : ∀ L p R, qs = L ++ p :: R → sel p = sel' (start + charsBefore (paras L)) p.chars.length) :
    (qs.map fun p => if sel p then ({ p with shape := g p.shape } : SPara) else p) = reshapeDoc g sel' start qs := by
  induction qs generalizing start with
  | nil => rfl
  | cons q qs ih =>
    rw [List.map_cons, reshapeDoc]
    have h0 := hg [] q qs rfl
    rw [charsBefore_paras_nil, Nat.add_zero] at h0
    rw [h0]
    congr 1
    apply ih
    intro L p R e
    rw [hg (q :: L) p R (by rw [e]; rfl), charsBefore_paras_cons]
    congr 1; omega

theorem reshapeDoc_text (g : Block → Block) (sel : Nat → Nat → Bool) (start : Nat) (qs : List SPara) :
    paras (reshapeDoc g sel start qs) = paras qs := by
  induction qs generalizing start with
  | nil => rfl
  | cons q qs ih =>
    have := ih (start + q.chars.length + 1)
    simp only [paras] at this
    simp only [reshapeDoc, paras, List.map_cons, this]
    split <;> rfl

/-- The paragraphs a selection touches, by their stored positions. -/
theorem map_touched {dto : BlockFormatDto} (hp : Placed s ps) (x y : Nat)
    (hend : ∀ n p, ps[n]? = some p → p.chars ≠ [] → min x y ≠ paraStart ps n + p.chars.length) :
    (ps.map fun p =>
        if blockOverlaps (min (x : Int) y) (max (x : Int) y) (p.entity (s.storedPos p)) p.chars.length then
          ({ p with shape := applyBlockFormat dto p.shape } : SPara) else p) =
      reshapeDoc (applyBlockFormat dto) (touches (min x y) (max x y)) 0 ps := by
  apply map_reshape (applyBlockFormat dto)
    (fun p => blockOverlaps (min (x : Int) y) (max (x : Int) y) (p.entity (s.storedPos p)) p.chars.length)
  intro L p R e
  have hpp := placed_storedPos hp L p R e
  have hps : paraStart ps L.length = charsBefore (paras L) := by
    rw [e]; exact paraStart_at L (p :: R)
  have hn := hend L.length p (by rw [e]; simp)
  rw [hps] at hn
  have hmm : (min (x : Int) y) = ((min x y : Nat) : Int) ∧ (max (x : Int) y) = ((max x y : Nat) : Int) := by omega
  rw [hpp, hmm.1, hmm.2]
  unfold blockOverlaps touches
  generalize min x y = lo at hn ⊢
  generalize max x y = hi
  generalize charsBefore (paras L) = c at hn ⊢
  by_cases hl : 0 < p.chars.length
  · have := hn (by intro e; rw [e] at hl; simp at hl)
    rw [if_pos hl, Bool.eq_iff_iff]
    simp only [Bool.and_eq_true, decide_eq_true_eq]
    simp only [SPara.entity]
    omega
  · rw [if_neg hl, Bool.eq_iff_iff]
    simp only [Bool.and_eq_true, decide_eq_true_eq]
    simp only [SPara.entity]
    omega

/-- **C50.** `set_block_format` for a selection, in a document whose stored paragraph positions are right,
when the selection does not start at the very end of a paragraph that has text: exactly the paragraphs the
selection touches get the given fields; the text, the characters' formats and the counts stay.  Full
statement: the same without the two hypotheses; it is false, see `C50_caret_at_end_fails`. -/
theorem C50_set_block_format_partial (h : Flat s d f ps) (hp : Placed s ps) (dto : BlockFormatDto) (x y : Nat)
    (hend : ∀ n p, ps[n]? = some p → p.chars ≠ [] → min x y ≠ paraStart ps n + p.chars.length) :
    ∃ s', s.setBlockFormat dto x y = some (s', s.snapshot) ∧
      Flat s' d f (reshapeDoc (applyBlockFormat dto) (touches (min x y) (max x y)) 0 ps) ∧
      Placed s' (reshapeDoc (applyBlockFormat dto) (touches (min x y) (max x y)) 0 ps) ∧
      s'.exportPlainText = s.exportPlainText := by
  obtain ⟨s', e, h1, hpos, _⟩ := h.setBlockFormat dto x y
  have hmap := map_touched (dto := dto) hp x y hend
  rw [hmap] at h1
  refine ⟨s', e, h1, placed_of_blocks hp (reshapeDoc_text _ _ _ _) hpos, ?_⟩
  rw [export_flat h1, export_flat h]
  have : (reshapeDoc (applyBlockFormat dto) (touches (min x y) (max x y)) 0 ps).map SPara.text = ps.map SPara.text := by
    have := congrArg (List.map Prod.snd) (reshapeDoc_text (applyBlockFormat dto) (touches (min x y) (max x y)) 0 ps)
    simpa [paras, Function.comp_def] using this
  unfold docText; rw [this]

/-- **C50 (fields).** Every given field replaces the stored one, a heading level being brought into 0..6;
nothing else of the paragraph changes. -/
theorem C50_fields (dto : BlockFormatDto) (b : Block) :
    applyBlockFormat dto b =
      { b with
        fmtAlignment := dto.alignment.or b.fmtAlignment
        fmtHeadingLevel := (dto.headingLevel.map fun v => if v < 0 then 0 else if 6 < v then 6 else v).or b.fmtHeadingLevel
        fmtIndent := dto.indent.or b.fmtIndent
        fmtMarker := dto.marker.or b.fmtMarker
        fmtLineHeight := dto.lineHeight.or b.fmtLineHeight
        fmtNonBreakableLines := dto.nonBreakableLines.or b.fmtNonBreakableLines
        fmtDirection := dto.direction.or b.fmtDirection
        fmtBackgroundColor := dto.backgroundColor.or b.fmtBackgroundColor
        fmtIsCodeBlock := dto.isCodeBlock.or b.fmtIsCodeBlock
        fmtCodeLanguage := dto.codeLanguage.or b.fmtCodeLanguage
        fmtTopMargin := dto.topMargin.or b.fmtTopMargin
        fmtBottomMargin := dto.bottomMargin.or b.fmtBottomMargin
        fmtLeftMargin := dto.leftMargin.or b.fmtLeftMargin
        fmtRightMargin := dto.rightMargin.or b.fmtRightMargin
        fmtTextIndent := dto.textIndent.or b.fmtTextIndent } := by
  have h : ∀ {α : Type} (a b : Option α), assignIfSome a b = a.or b := by
    intro α a b; cases a <;> rfl
  have hc : ∀ v : Int, min (max v 0) 6 = if v < 0 then 0 else if 6 < v then 6 else v := by
    intro v; split
    · omega
    · split <;> omega
  simp only [applyBlockFormat, h, hc]

/-- With the caret at the end of a paragraph nothing is formatted: "abc", caret after the "c", heading level 1. -/
theorem C50_caret_at_end_fails : ∃ s : Store,
    (Store.newStore.bind fun s => s.importPlainText "abc".toList) = some s ∧
    s.exportPlainText = some "abc".toList ∧
    (s.setBlockFormat { headingLevel := some 1 } 3 3).map (fun r => (r.1.blocks 2).map Block.fmtHeadingLevel) =
      some (some none) ∧
    (s.setBlockFormat { headingLevel := some 1 } 2 2).map (fun r => (r.1.blocks 2).map Block.fmtHeadingLevel) =
      some (some (some 1)) := by
  refine ⟨_, rfl, ?_, ?_, ?_⟩ <;> decide +kernel

/-- The hypotheses are met: the caret in the first of two paragraphs. -/
example : ∃ (s s' : Store) (d : Document) (f : Nat) (ps : List SPara),
    Flat s d f ps ∧ Placed s ps ∧ s.exportPlainText = some "ab\ncd".toList ∧
    s.setBlockFormat { headingLevel := some 2 } 1 1 = some (s', s.snapshot) ∧
    (s'.blocks 2).map Block.fmtHeadingLevel = some (some 2) ∧ (s'.blocks 3).map Block.fmtHeadingLevel = some none := by
  obtain ⟨s, e1, e2, e3, _⟩ := newStore_flat
  obtain ⟨s1, e4, e5, _, e6⟩ := e2.import e3 "ab\ncd".toList
  have e : (Store.newStore.bind fun s => s.importPlainText "ab\ncd".toList) = some s1 := by
    rw [e1, Option.bind_some, e4]
  have hk : ((Store.newStore.bind fun s => s.importPlainText "ab\ncd".toList).bind fun s =>
      (s.setBlockFormat { headingLevel := some 2 } 1 1).map fun r =>
        (s.exportPlainText, (r.1.blocks 2).map Block.fmtHeadingLevel, (r.1.blocks 3).map Block.fmtHeadingLevel)) =
      some (some "ab\ncd".toList, some (some 2), some none) := by decide +kernel
  rw [e, Option.bind_some] at hk
  obtain ⟨⟨s', snap⟩, h1, hk⟩ := Option.map_eq_some_iff.mp hk
  simp only [Prod.mk.injEq] at hk
  obtain ⟨h2, h3, h4⟩ := hk
  obtain ⟨s2, g1, _⟩ := e5.setBlockFormat { headingLevel := some 2 } 1 1
  rw [h1] at g1
  have : snap = s1.snapshot := by cases g1; rfl
  subst this
  exact ⟨s1, s', _, _, _, e5, e6, h2, h1, h3, h4⟩

/-- **C20 (paragraph formats).** Undo of `set_block_format` gives back exactly the document of before, in any
store; in a document without tables and images redo gives what the first execution gave. -/
theorem C20_block_format_partial (h : Flat s d f ps) (dto : BlockFormatDto) (x y : Int) :
    ∃ s' s'' snap', s.setBlockFormat dto x y = some (s', s.snapshot) ∧
      SameContent (s'.undoBlockFormat s.snapshot) s ∧ Flat (s'.undoBlockFormat s.snapshot) d f ps ∧
      (s'.undoBlockFormat s.snapshot).setBlockFormat dto x y = some (s'', snap') ∧
      SameContent s'' s' ∧ SameContent (s''.undoBlockFormat snap') s := by
  obtain ⟨s', e, h1, h2, h3, h4, h5⟩ := h.setBlockFormat dto x y
  have hsame : SameContent (s'.undoBlockFormat s.snapshot) s := (C27_undo_snapshot s s').1
  have hflat : Flat (s'.undoBlockFormat s.snapshot) d f ps := by
    have hnx : s.next "block" ≤ (s'.undoBlockFormat s.snapshot).next "block" := by
      have : s'.next "block" = s.next "block" := by simp [Store.next, h3]
      exact Nat.le_of_eq this.symm
    exact h.same_content hsame hnx
  have hk : ∃ bs, Store.blocksToFormat s.text dto (min x y) (max x y) (s.sortedBlocks d.id) = some bs ∧
      s' = s.updateBlocks bs := by
    unfold Store.setBlockFormat at e
    rw [h.docId, Option.bind_some, h.document, Option.bind_some] at e
    simp only [Option.map_eq_some_iff, Prod.mk.injEq] at e
    obtain ⟨bs, e1, e2, _⟩ := e
    exact ⟨bs, e1, e2.symm⟩
  obtain ⟨bs, hbs, hs'⟩ := hk
  generalize hu : s'.undoBlockFormat s.snapshot = u at hsame hflat
  have hsb : u.sortedBlocks d.id = s.sortedBlocks d.id := by
    unfold Store.sortedBlocks Store.getBlocks Store.docFrames Store.frameBlocks
    rw [hsame.documents, hsame.frames, hsame.blocks]
  have htx : u.text = s.text := by
    unfold Store.text; rw [hsame.rope, hsame.blockOffsets]
  have hredo : u.setBlockFormat dto x y = some (u.updateBlocks bs, u.snapshot) := by
    unfold Store.setBlockFormat
    rw [hflat.docId, Option.bind_some, hflat.document, Option.bind_some]
    dsimp only
    rw [hsb, htx, hbs, Option.map_some]
  refine ⟨s', u.updateBlocks bs, u.snapshot, e, hu ▸ hsame, hu ▸ hflat, hu ▸ hredo, ?_, ?_⟩
  · rw [hs']; exact hsame.updateBlocks bs
  · have := (C27_undo_snapshot u (u.updateBlocks bs)).1
    exact ⟨this.rope.trans hsame.rope, this.roots.trans hsame.roots, this.documents.trans hsame.documents,
      this.frames.trans hsame.frames, this.blocks.trans hsame.blocks, this.lists.trans hsame.lists,
      this.resources.trans hsame.resources, this.tables.trans hsame.tables, this.tableCells.trans hsame.tableCells,
      this.formatRuns.trans hsame.formatRuns, this.blockImages.trans hsame.blockImages,
      this.blockOffsets.trans hsame.blockOffsets⟩

/-! ## Formats through the API -/

theorem u32_round (v : UInt32) : intToU32 (u32ToInt v) = v := by
  unfold intToU32 u32ToInt
  have h : v.toNat < 4294967296 := v.toNat_lt
  have : ((v.toNat : Int) % 4294967296).toNat = v.toNat := by omega
  rw [this, UInt32.ofNat_toNat]

theorem u8_round (v : UInt8) : intToU8 (u8ToInt v) = v := by
  unfold intToU8 u8ToInt
  have h : v.toNat < 256 := v.toNat_lt
  have : ((v.toNat : Int) % 256).toNat = v.toNat := by omega
  rw [this, UInt8.ofNat_toNat]

theorem assign_or {α : Type} (a b : Option α) : assignIfSome a b = a.or b := by cases a <;> rfl

theorem map_or {α β γ : Type} (g : β → γ) (g' : α → β) (h : α → γ) (hg : ∀ a, g (g' a) = h a) (a : Option α)
    (b : Option β) : ((a.map g').or b).map g = (a.map h).or (b.map g) := by
  cases a <;> simp [hg]

theorem map_or_id {α β : Type} (g : β → α) (g' : α → β) (hg : ∀ a, g (g' a) = a) (a : Option α) (b : Option β) :
    ((a.map g').or b).map g = a.or (b.map g) := by cases a <;> simp [hg]

/-- The colours read back are none at all. -/
theorem ofCharFormat_colours (f : CharFormat) : (TextFormat.ofCharFormat f).foregroundColor = none ∧
    (TextFormat.ofCharFormat f).backgroundColor = none ∧ (TextFormat.ofCharFormat f).underlineColor = none :=
  ⟨rfl, rfl, rfl⟩

/-- **C51 (characters, set).** A `TextFormat` without anchor, tooltip and colours handed to
`set_char_format`, then read back: every field that was given reads as given, every other one as before.
Full statement: the same of every `TextFormat`; it is false, see `C51_set_drops_fields_fails`. -/
theorem C51_set_reads_back_partial (t : TextFormat) (ht : t.Settable) (f : CharFormat) :
    TextFormat.ofCharFormat (mergeSet t.toSetDto f) = overlayText t (TextFormat.ofCharFormat f) := by
  simp only [TextFormat.ofCharFormat, TextFormat.toSetDto, mergeSet, overlayText, assign_or,
    map_or_id intToU32 u32ToInt u32_round, map_or_id Int32.ofInt Int32.toInt Int32.ofInt_toInt,
    ht.anchorHref, ht.anchorNames, ht.isAnchor, ht.tooltip, ht.foregroundColor, ht.backgroundColor,
    ht.underlineColor, Option.none_or, if_true]

example : (⟨some "Mono", some 12, none, some true, none, none, none, none, some (-3), none, none, none, none, [],
    none, none, none, none, none⟩ : TextFormat).Settable := ⟨rfl, rfl, rfl, rfl, rfl, rfl, rfl⟩

/-- A link target, a tooltip or a colour handed to `set_char_format` is dropped without an error. -/
theorem C51_set_drops_fields_fails : ∃ (t : TextFormat) (f : CharFormat),
    TextFormat.ofCharFormat (mergeSet t.toSetDto f) ≠ overlayText t (TextFormat.ofCharFormat f) ∧
    t.anchorHref = some "http://x" ∧ t.isAnchor = some true ∧
    TextFormat.ofCharFormat (mergeSet t.toSetDto f) = {} :=
  ⟨{ anchorHref := some "http://x", isAnchor := some true }, {}, by decide, rfl, rfl, by decide⟩

/-- **C51 (characters, merge).** The same of `merge_char_format`, for a format with only a non-empty font
family, bold, italic, underline and strike-out. -/
theorem C51_merge_reads_back_partial (t : TextFormat) (ht : t.Mergeable) (f : CharFormat) :
    TextFormat.ofCharFormat (mergeMerge t.toMergeDto f) = overlayText t (TextFormat.ofCharFormat f) := by
  simp only [TextFormat.ofCharFormat, TextFormat.toMergeDto, mergeMerge, overlayText, assign_or,
    ht.anchorHref, ht.anchorNames, ht.isAnchor, ht.tooltip, ht.foregroundColor, ht.backgroundColor,
    ht.underlineColor, ht.fontPointSize, ht.fontWeight, ht.fontOverline, ht.letterSpacing, ht.wordSpacing,
    ht.underlineStyle, ht.verticalAlignment, Option.none_or, if_true]
  have := ht.fontFamily
  cases h : t.fontFamily with
  | none => rfl
  | some v =>
    rw [h] at this
    have hv : v ≠ "" := fun e => this (by rw [e])
    simp only [if_pos hv, Option.some_or]

example : ({ fontFamily := some "Mono", fontBold := some true } : TextFormat).Mergeable :=
  ⟨⟨rfl, rfl, rfl, rfl, rfl, rfl, rfl⟩, by decide, rfl, rfl, rfl, rfl, rfl, rfl, rfl⟩

/-- A point size handed to `merge_char_format` is dropped without an error. -/
theorem C51_merge_drops_fields_fails : ∃ (t : TextFormat) (f : CharFormat), t.Settable ∧
    TextFormat.ofCharFormat (mergeMerge t.toMergeDto f) ≠ overlayText t (TextFormat.ofCharFormat f) ∧
    t.fontPointSize = some 20 ∧ mergeMerge t.toMergeDto f = f :=
  ⟨{ fontPointSize := some 20 }, {}, ⟨rfl, rfl, rfl, rfl, rfl, rfl, rfl⟩, by decide, rfl, by decide⟩

/-- **C51 (paragraphs).** A `BlockFormat` without tab positions and with a heading level of at most 6, handed
to `set_block_format`, then read back.  Full statement: the same of every `BlockFormat` (the line height is
not modelled); it is false, see `C51_block_drops_tabs_fails`. -/
theorem C51_block_reads_back_partial (t : BlockFormat) (b : Block) (htab : t.tabPositions = [])
    (hh : ∀ v, t.headingLevel = some v → v ≤ 6) :
    BlockFormat.ofBlock (applyBlockFormat t.toSetDto b) = overlayBlock t (BlockFormat.ofBlock b) := by
  have hhead : (((t.headingLevel.map u8ToInt).map fun v => if v < 0 then (0 : Int) else if 6 < v then 6 else v).or
        b.fmtHeadingLevel).map intToU8 = t.headingLevel.or (b.fmtHeadingLevel.map intToU8) := by
    cases h : t.headingLevel with
    | none => rfl
    | some v =>
      have hv : v.toNat ≤ 6 := by have := hh v h; simpa using UInt8.le_iff_toNat_le.mp this
      have h1 : ¬ u8ToInt v < 0 := by unfold u8ToInt; omega
      have h2 : ¬ 6 < u8ToInt v := by unfold u8ToInt; omega
      simp only [Option.map_some, Option.some_or, if_neg h1, if_neg h2, u8_round]
  rw [C50_fields]
  simp only [BlockFormat.ofBlock, BlockFormat.toSetDto, overlayBlock, hhead, htab, if_true,
    map_or_id intToU8 u8ToInt u8_round, map_or_id Int32.ofInt Int32.toInt Int32.ofInt_toInt]

example : (∀ v, ({ headingLevel := some 2, leftMargin := some (-4) } : BlockFormat).headingLevel = some v → v ≤ 6) := by
  decide

/-- Tab positions handed to `set_block_format` are dropped without an error. -/
theorem C51_block_drops_tabs_fails : ∃ (t : BlockFormat), t.tabPositions = [10, 20] ∧
    ∀ b : Block, applyBlockFormat t.toSetDto b = b :=
  ⟨{ tabPositions := [10, 20] }, rfl, fun b => by rw [C50_fields]; rfl⟩

end Verif
