import Verif.Props.PlainText
import Verif.Props.Editing
import Verif.Model.Stats
/- C108: the plain text of an edited document, loaded again. -/
namespace Verif
open Store
variable {s s2 : Store} {d d2 : Document} {f f2 : Nat} {ps qs : List SPara}

theorem splitLines_cons {l t : List Char} (h : '\n' ∉ l) : Store.splitLines (l ++ '\n' :: t) = l :: Store.splitLines t := by
  induction l with
  | nil => simp [Store.splitLines]
  | cons c l ih =>
    simp only [List.mem_cons, not_or] at h
    rw [List.cons_append, Store.splitLines, if_neg (fun e => h.1 e.symm), ih h.2]

theorem splitLines_one {l : List Char} (h : '\n' ∉ l) : Store.splitLines l = [l] := by
  induction l with
  | nil => rfl
  | cons c l ih =>
    simp only [List.mem_cons, not_or] at h
    rw [Store.splitLines, if_neg (fun e => h.1 e.symm), ih h.2]

theorem splitLines_joinNl (ls : List (List Char)) (hne : ls ≠ []) (h : ∀ l ∈ ls, '\n' ∉ l) : Store.splitLines (joinNl ls) = ls := by
  induction ls with
  | nil => exact absurd rfl hne
  | cons l ls ih =>
    cases ls with
    | nil => exact splitLines_one (h l (by simp))
    | cons m ls =>
      rw [joinNl_cons _ (by simp), splitLines_cons (h l (by simp)), ih (by simp) fun x hx => h x (List.mem_cons_of_mem _ hx)]

theorem mem_joinNl {c : Char} (ls : List (List Char)) (h : c ∈ joinNl ls) : c = '\n' ∨ ∃ l ∈ ls, c ∈ l := by
  induction ls with
  | nil => cases h
  | cons l ls ih =>
    cases ls with
    | nil => exact .inr ⟨l, by simp, h⟩
    | cons m ls =>
      rw [joinNl_cons _ (by simp)] at h
      rcases List.mem_append.mp h with h | h
      · exact .inr ⟨l, by simp, h⟩
      · rcases List.mem_cons.mp h with h | h
        · exact .inl h
        · rcases ih h with h | ⟨x, hx, h⟩
          · exact .inl h
          · exact .inr ⟨x, List.mem_cons_of_mem _ hx, h⟩

/-- **C108 (partial).** The plain text of a document of paragraphs without line ends in them, however it came about, loaded into any document of
paragraphs: the paragraphs have the same texts, in the same order, and the counts are theirs.  Full statement: with line ends in paragraphs, which
typing can put there; see `C108_typed_line_end_fails`. -/
theorem C108_save_load_partial (h : Flat s d f ps) (hn : ∀ p ∈ ps, '\n' ∉ p.text ∧ '\r' ∉ p.text) (h2 : Flat s2 d2 f2 qs) (hs2 : Sole d2.id f2 s2) :
    ∃ t s' d' f' ps', s.exportPlainText = some t ∧ s2.importPlainText t = some s' ∧ Flat s' d' f' ps' ∧
      ps'.map SPara.text = ps.map SPara.text ∧ s'.documents d2.id = some d' ∧ d'.blockCount = ps.length ∧
      d'.characterCount = (ps.map fun p => p.text.length).sum ∧ s'.exportPlainText = s.exportPlainText := by
  have hx := export_flat h
  have hcr : '\r' ∉ docText ps := by
    intro hc
    rcases mem_joinNl _ hc with hc | ⟨l, hl, hc⟩
    · exact absurd hc (by decide)
    · obtain ⟨p, hp, rfl⟩ := List.mem_map.mp hl
      exact (hn p hp).2 hc
  have hsl : Store.splitLines (docText ps) = ps.map SPara.text :=
    splitLines_joinNl _ (by simpa using h.nonempty) (by
      intro l hl
      obtain ⟨p, hp, rfl⟩ := List.mem_map.mp hl
      exact (hn p hp).1)
  obtain ⟨s', e1, e2, _, _⟩ := h2.import hs2 (docText ps)
  rw [unixText_fix hcr, hsl] at e2
  refine ⟨_, s', _, _, _, hx, e1, e2, linesFrom_text _ _, e2.document, ?_, ?_, ?_⟩
  · simp [countsOf, linesFrom_length]
  · simp [countsOf, charTotal_linesFrom, Function.comp_def]
  · rw [export_flat e2, hx, docText, linesFrom_text]; rfl

/-- The hypotheses are met. -/
example : ∃ s s2, Flat s { id := 1, frames := [2], characterCount := 4, blockCount := 2 } 2 [plainPara 2 ['a', 'b'], plainPara 3 ['c', 'd']] ∧
    (∀ p ∈ [plainPara 2 ['a', 'b'], plainPara 3 ['c', 'd']], '\n' ∉ p.text ∧ '\r' ∉ p.text) ∧
    Flat s2 { id := 1, frames := [1] } 1 [⟨1, [], {}⟩] ∧ Sole 1 1 s2 := by
  obtain ⟨s, h1, _⟩ := sample_flat
  obtain ⟨s2, _, e2, e3, _⟩ := newStore_flat
  exact ⟨s, s2, h1, by decide, e2, e3⟩

/-- **C108 with typed line ends is false.** Typing "x⏎y" into "ab" makes no new paragraph: the document has one, its plain text two lines, and
loading that gives two paragraphs. -/
theorem C108_typed_line_end_fails : ∃ s s1 s2 : Store,
    (Store.newStore.bind fun s => s.importPlainText ['a', 'b']) = some s ∧
    (s.insertText ⟨1, 1, ['x', '\n', 'y']⟩).map (fun r => r.1) = some s1 ∧ s1.exportPlainText = some ['a', 'x', '\n', 'y', 'b'] ∧
    s1.documentStats.map DocStats.blocks = some 1 ∧ s1.importPlainText ['a', 'x', '\n', 'y', 'b'] = some s2 ∧
    s2.documentStats.map DocStats.blocks = some 2 := by
  refine ⟨_, _, _, rfl, rfl, ?_, ?_, rfl, ?_⟩ <;> decide +kernel

end Verif
