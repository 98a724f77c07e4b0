import Verif.Model.Stats
import Verif.Spec.Stats
import Verif.Spec.Editing
import Verif.Lemmas.Import
/-
C61: the statistics of a document.
-/
namespace Verif
variable {s : Store} {d : Document} {f : Nat} {ps : List SPara}

theorem splitWhite_ne (cs : List Char) : splitWhite cs ≠ [] := by
  cases cs with
  | nil => simp [splitWhite]
  | cons c cs =>
    unfold splitWhite
    by_cases h : isWhite c = true
    · rw [if_pos h]; simp
    · rw [if_neg h]
      cases splitWhite cs <;> simp

/-- Words are counted at their starts. -/
theorem wordCount_starts (cs : List Char) :
    wordCount cs = wordStarts false cs ∧
    wordCount cs = (if ((splitWhite cs).head?.map List.isEmpty) = some true then 0 else 1) + wordStarts true cs := by
  induction cs with
  | nil => exact ⟨rfl, rfl⟩
  | cons c cs ih =>
    unfold wordCount at ih ⊢
    unfold splitWhite wordStarts
    by_cases h : isWhite c = true
    · rw [if_pos h]
      simp only [h, Bool.not_true, Bool.false_and, Bool.false_eq_true, if_false, List.head?_cons,
        Option.map_some, List.isEmpty_nil, if_true, Nat.zero_add]
      rw [List.filter_cons_of_neg (by simp)]
      exact ⟨ih.1, ih.1⟩
    · rw [if_neg h]
      have h' : isWhite c = false := by simpa using h
      have hne := splitWhite_ne cs
      cases e : splitWhite cs with
      | nil => exact absurd e hne
      | cons w ws =>
        rw [e] at ih
        simp only [h', Bool.not_false, Bool.true_and, Bool.not_true, Bool.false_eq_true, if_false, if_true,
          List.head?_cons, Option.map_some, List.isEmpty_cons]
        rw [List.filter_cons_of_pos (by simp), List.length_cons]
        have hw := ih.2
        cases w with
        | nil =>
          rw [List.filter_cons_of_neg (by simp)] at hw
          simp only [List.head?_cons, Option.map_some, List.isEmpty_nil, if_true] at hw
          simp; omega
        | cons a w =>
          rw [List.filter_cons_of_pos (by simp), List.length_cons] at hw
          simp only [List.head?_cons, Option.map_some, List.isEmpty_cons, Option.some.injEq, Bool.false_eq_true,
            if_false] at hw
          simp; omega

theorem wordStarts_line (i : Bool) (a b : List Char) :
    wordStarts i (a ++ '\n' :: b) = wordStarts i a + wordStarts false b := by
  induction a generalizing i with
  | nil => simp [wordStarts, isWhite]
  | cons c a ih => simp only [List.cons_append, wordStarts, ih]; omega

theorem wordStarts_doc (ps : List SPara) :
    wordStarts false (docText ps) = (ps.map fun p => wordCount p.text).sum := by
  unfold docText
  induction ps with
  | nil => rfl
  | cons p ps ih =>
    cases ps with
    | nil => simp [joinNl, (wordCount_starts _).1]
    | cons q ps =>
      simp only [List.map_cons, joinNl, wordStarts_line, List.sum_cons] at ih ⊢
      rw [ih, (wordCount_starts p.text).1]

theorem Shows.countWords (h : Shows s d ps) (bs : List Block) (hb : ∀ b ∈ bs, ∃ p ∈ ps, p.id = b.id)
    (t : Nat → Nat) (ht : ∀ p ∈ ps, t p.id = wordCount p.text) :
    s.countWords bs = some ((bs.map fun b => t b.id).sum, 0) := by
  induction bs with
  | nil => rfl
  | cons b bs ih =>
    obtain ⟨p, hp, e⟩ := hb b (by simp)
    unfold Store.countWords Store.imagesOf
    rw [← e, h.content hp, h.images p hp, Option.bind_some, ih fun x hx => hb x (by simp [hx])]
    simp only [Option.map_some, List.map_cons, List.sum_cons, ← e, ht p hp, List.length_nil, Nat.add_zero]

/-- **C61.** The statistics of a document: the words are those of its plain text, counted once each wherever the
paragraphs break it; one frame, no images, no tables; the lists are the lists of the document; characters and
paragraphs are the counters of the document (whose correctness is C47). Full statement: the same with frames, tables
and images; with an image it is false, see `C61_image_is_a_word_fails`. -/
theorem C61_stats_partial (h : Flat s d f ps) :
    ∃ st, s.documentStats = some st ∧ st.words = wordStarts false (docText ps) ∧
      st.characters = d.characterCount ∧ st.blocks = d.blockCount ∧ st.frames = 1 ∧ st.images = 0 ∧
      st.lists = d.lists.length ∧ st.tables = 0 := by
  obtain ⟨fr, hf, hfid, _, hperm⟩ := h.frame
  obtain ⟨t, ht⟩ : ∃ t : Nat → Nat, ∀ p ∈ ps, t p.id = wordCount p.text := by
    refine ⟨fun i => ((ps.find? fun p => p.id == i).map fun p => wordCount p.text).getD 0, fun p hp => ?_⟩
    cases e : ps.find? fun q => q.id == p.id with
    | none =>
      have := List.find?_eq_none.mp e p hp
      simp at this
    | some q =>
      have hq := List.mem_of_find?_eq_some e
      have hi := List.find?_some e
      simp only [beq_iff_eq] at hi
      show ((ps.find? fun q => q.id == p.id).map fun p => wordCount p.text).getD 0 = _
      rw [e, h.unique hp hq hi]
      rfl
  have hfr : s.frameBlocks fr.id = fr.blocks := by unfold Store.frameBlocks; rw [hfid, hf]; rfl
  have hget : ∀ ids : List Nat, (∀ i ∈ ids, i ∈ ps.map SPara.id) →
      (s.getBlocks ids).map (fun b => b.id) = ids := by
    intro ids hi
    induction ids with
    | nil => rfl
    | cons i ids ih =>
      obtain ⟨p, hp, e⟩ := List.mem_map.mp (hi i (by simp))
      obtain ⟨b, hb, hbe⟩ := h.block p hp
      unfold Store.getBlocks at ih ⊢
      rw [List.filterMap_cons_some (e ▸ hb), List.map_cons, ih fun x hx => hi x (by simp [hx]), ← e, hbe]
  have hids := hget fr.blocks fun i hi => hperm.mem_iff.mp hi
  refine ⟨⟨d.characterCount, wordStarts false (docText ps), d.blockCount, 1, 0, d.lists.length, 0⟩, ?_, rfl, rfl,
    rfl, rfl, rfl, rfl, rfl⟩
  unfold Store.documentStats
  rw [h.docId, Option.bind_some, h.document, Option.bind_some, h.docFrames, h.docTables]
  simp only [List.filterMap_cons, hf, List.filterMap_nil, List.flatMap_cons, List.flatMap_nil, List.append_nil, hfr]
  rw [h.countWords _ (fun b hb => by
    have : b.id ∈ fr.blocks := hids ▸ List.mem_map_of_mem hb
    obtain ⟨p, hp, e⟩ := List.mem_map.mp (hperm.mem_iff.mp this)
    exact ⟨p, hp, e⟩) t ht]
  have e1 : ((s.getBlocks fr.blocks).map fun b => t b.id) = fr.blocks.map t := by
    have := congrArg (List.map t) hids
    rwa [List.map_map] at this
  have e2 : ((s.getBlocks fr.blocks).map fun b => t b.id).sum = wordStarts false (docText ps) := by
    rw [e1, (hperm.map t).sum_nat, wordStarts_doc, List.map_map]
    congr 1
    exact List.map_congr_left fun p hp => ht p hp
  have e3 : s.docLists d.id = d.lists := by unfold Store.docLists; rw [h.document]; rfl
  simp only [Option.map_some, e2, e3, List.length_cons, List.length_nil]

/-- Five words in three paragraphs, one of them blank. -/
example : ∃ (s : Store) (d : Document) (ps : List SPara), Flat s d 2 ps ∧
    s.exportPlainText = some "one  two\n \nthree four five".toList ∧
    s.documentStats.map DocStats.words = some 5 := by
  obtain ⟨s, e1, e2, e3, _⟩ := newStore_flat
  obtain ⟨s1, g1, g2, _⟩ := e2.import e3 "one  two\n \nthree four five".toList
  have hf : s.next "frame" = 2 := by cases e1; rfl
  rw [hf] at g2
  refine ⟨s1, _, _, g2, ?_, ?_⟩ <;> cases e1 <;> cases g1 <;> decide +kernel

end Verif
