import Verif.Props.Cursor
/-!
C53–C56: movement by character, paragraph and word, and what a cursor reads.
-/
namespace Verif
open Store
variable {s : Store} {d : Document} {f : Nat} {ps : List SPara} {seg : Segmenter}

/-! ### C53: characters -/

/-- Moving forward by `n` characters takes `n` steps to the next place (a place is a paragraph's start or end,
or between two grapheme clusters), or as many as there are; the anchor follows or stays. -/
theorem C53_next_character (hl : seg.Lawful) (h : Flat s d f ps) (hm : maxCursor s = some (docLen ps)) (hn : NoCells s f)
    {c : Cursor} (hc : IsStop seg ps c.position) {op : MoveOp} (hop : op = .nextCharacter ∨ op = .right) (keep : Bool)
    (n : Nat) :
    ∃ q, StepsTo (NextStop seg ps) n c.position q ∧
      s.movePosition seg c op keep n = (⟨q, if keep then c.anchor else q, false⟩, decide (q ≠ c.position)) :=
  Reads.next_character hl h.reads hm (hn.free h) hc hop n

/-- The same backward. -/
theorem C53_previous_character (hl : seg.Lawful) (h : Flat s d f ps) (hm : maxCursor s = some (docLen ps))
    (hn : NoCells s f) {c : Cursor} (hc : IsStop seg ps c.position) {op : MoveOp}
    (hop : op = .previousCharacter ∨ op = .left) (keep : Bool) (n : Nat) :
    ∃ q, StepsTo (PrevStop seg ps) n c.position q ∧
      s.movePosition seg c op keep n = (⟨q, if keep then c.anchor else q, false⟩, decide (q ≠ c.position)) :=
  Reads.previous_character hl h.reads hm (hn.free h) hc hop n

/-- One character forward and one back is where the cursor was, and the other way round. -/
theorem C53_there_and_back (hl : seg.Lawful) (h : Flat s d f ps) (hm : maxCursor s = some (docLen ps)) (hn : NoCells s f)
    {c : Cursor} (hc : IsStop seg ps c.position) :
    (c.position < docLen ps →
      (s.movePosition seg (s.movePosition seg c .nextCharacter false 1).1 .previousCharacter false 1).1.position =
        c.position) ∧
    (0 < c.position →
      (s.movePosition seg (s.movePosition seg c .previousCharacter false 1).1 .nextCharacter false 1).1.position =
        c.position) :=
  Reads.there_and_back hl h.reads hm hc

/-- The Delete key without a selection removes exactly what lies between the cursor and the next place (one
grapheme cluster, or the paragraph break); at the end of the document it does nothing. -/
theorem C53_delete_char (hl : seg.Lawful) (h0 : d.characterCount = 0) (h1 : d.blockCount = 0) {k : Desk}
    (h : DeskOk d f k ps) {i : Nat} {c : Cursor} (hc : k.cursors[i]? = some c) (hsel : c.position = c.anchor)
    (hs : IsStop seg ps c.position) (now : Nat) :
    (c.position = docLen ps → k.step seg now (.deleteChar i) = some k) ∧
    (∀ q, NextStop seg ps c.position q → ∃ k', k.step seg now (.deleteChar i) = some k' ∧
      DeskOk d f k' (deleteBetween c.position q ps) ∧
      k'.cursors = cursorsAfter k.cursors i c.position (q - c.position) 0) := by
  have hm := h.max h0 h1
  constructor
  · intro he
    simp only [Desk.step, Desk.withCursor, hc, Desk.deleteChar, hm, Option.getD_some]
    rw [if_neg (by simp [hsel]), if_pos (by omega)]
  · intro q hq
    have hle := stop_le hl hq.stop
    have hlt := hq.after
    have he : k.session.store.nextGrapheme seg c.position = q :=
      nextStop_unique (nextGrapheme_next hl h.flat.reads hm hs (by omega)) hq
    obtain ⟨k', g1, g2, g3⟩ := doDelete_ok h i c.position q now (by omega)
    rw [Nat.min_eq_left (by omega), Nat.max_eq_right (by omega)] at g2 g3
    refine ⟨k', ?_, g2, g3⟩
    simp only [Desk.step, Desk.withCursor, hc, Desk.deleteChar, hm, Option.getD_some, he]
    rw [if_neg (by simp [hsel]), if_neg (by omega), if_neg (by omega), g1]

/-- The Backspace key without a selection removes exactly what lies between the place before and the cursor;
at the start of the document it does nothing. -/
theorem C53_backspace (hl : seg.Lawful) {k : Desk}
    (h : DeskOk d f k ps) {i : Nat} {c : Cursor} (hc : k.cursors[i]? = some c) (hsel : c.position = c.anchor)
    (hs : IsStop seg ps c.position) (now : Nat) :
    (c.position = 0 → k.step seg now (.deletePrevious i) = some k) ∧
    (∀ q, PrevStop seg ps c.position q → ∃ k', k.step seg now (.deletePrevious i) = some k' ∧
      DeskOk d f k' (deleteBetween q c.position ps) ∧
      k'.cursors = cursorsAfter k.cursors i q (c.position - q) 0) := by
  constructor
  · intro he
    simp only [Desk.step, Desk.withCursor, hc, Desk.deletePrevious]
    rw [if_neg (by simp [hsel]), if_neg (by omega)]
  · intro q hq
    have hlt := hq.before
    have hin := h.inside c (List.mem_of_getElem? hc)
    have he : k.session.store.prevGrapheme seg c.position = q := by
      have hb := prevGrapheme_prev hl h.flat.reads hs (by omega)
      have := hb.last q hq.stop hq.before
      have := hq.last _ hb.stop hb.before
      omega
    obtain ⟨k', g1, g2, g3⟩ := doDelete_ok h i q c.position now (by omega)
    rw [Nat.min_eq_left (by omega), Nat.max_eq_right (by omega)] at g2 g3
    refine ⟨k', ?_, g2, g3⟩
    simp only [Desk.step, Desk.withCursor, hc, Desk.deletePrevious, he]
    rw [if_neg (by simp [hsel]), if_pos (by omega), if_neg (by omega), g1]

/-! ### C54: paragraphs -/

/-- Moving to the start and to the end of the paragraph, selecting it, and asking where the cursor is in it.
Full statement: the same at every position; false, see `C54_at_paragraph_end_fails`. -/
theorem C54_paragraph_partial (hl : seg.Lawful) (h : Flat s d f ps) (hm : maxCursor s = some (docLen ps))
    (hn : NoCells s f) {c : Cursor} {n k : Nat} {p : SPara} (hi : InParagraph ps c.position n k p) (keep : Bool)
    (count : Nat) :
    (s.movePosition seg c .startOfBlock keep count).1 =
      ⟨paraStart ps n, if keep then c.anchor else paraStart ps n, false⟩ ∧
    (s.movePosition seg c .endOfBlock keep count).1 =
      ⟨paraStart ps n + p.chars.length, if keep then c.anchor else paraStart ps n + p.chars.length, false⟩ ∧
    s.select seg c .blockUnderCursor = ⟨paraStart ps n + p.chars.length, paraStart ps n, false⟩ ∧
    s.atBlockStart c = decide (k = 0) ∧ s.atBlockEnd c = decide (k = p.chars.length) ∧
    s.blockNumber c = n ∧ s.positionInBlock c = k :=
  Reads.paragraph hl h.reads hm (hn.free h) hi count

/-- Moving to the next paragraph: to its start, or to the end of the document from the last one. -/
theorem C54_next_paragraph_partial (hl : seg.Lawful) (h : Flat s d f ps) (hm : maxCursor s = some (docLen ps))
    (hn : NoCells s f) {c : Cursor} {n k : Nat} {p : SPara} (hi : InParagraph ps c.position n k p) (keep : Bool)
    (count : Nat) {op : MoveOp} (hop : op = .nextBlock ∨ op = .down) :
    (s.movePosition seg c op keep count).1.position =
      (if n + 1 < ps.length then paraStart ps (n + 1) else docLen ps) :=
  Reads.next_paragraph hl h.reads hm (hn.free h) hi count hop

/-- Moving to the previous paragraph: to its start, or to the start of the document from the first one, unless
the two paragraphs before are both empty. -/
theorem C54_previous_paragraph_partial (hl : seg.Lawful) (h : Flat s d f ps) (hm : maxCursor s = some (docLen ps))
    (hn : NoCells s f) {c : Cursor} {n k : Nat} {p : SPara} (hi : InParagraph ps c.position n k p) (keep : Bool)
    (count : Nat) {op : MoveOp} (hop : op = .previousBlock ∨ op = .up)
    (hne : ∀ m, n = m + 2 → ∃ q, (ps[m]? = some q ∨ ps[m + 1]? = some q) ∧ q.chars ≠ []) :
    (s.movePosition seg c op keep count).1.position = paraStart ps (n - 1) :=
  Reads.previous_paragraph hl h.reads hm (hn.free h) hi count hop hne

/-- "ab\ncd", cursor after the "b": end of block goes to the end of the second paragraph, start of block goes
forward, next block goes to the end of the document, and the cursor is said to be in paragraph 1 and not at the
end of a paragraph. -/
theorem C54_at_paragraph_end_fails : ∃ s : Store,
    (Store.newStore.bind fun s => s.importPlainText "ab\ncd".toList) = some s ∧
    (s.movePosition plainSeg ⟨2, 2, false⟩ .endOfBlock false 1).1.position = 5 ∧
    (s.movePosition plainSeg ⟨2, 2, false⟩ .startOfBlock false 1).1.position = 3 ∧
    (s.movePosition plainSeg ⟨2, 2, false⟩ .nextBlock false 1).1.position = 5 ∧
    s.atBlockEnd ⟨2, 2, false⟩ = false ∧ s.blockNumber ⟨2, 2, false⟩ = 1 ∧
    s.select plainSeg ⟨2, 2, false⟩ .blockUnderCursor = ⟨5, 3, false⟩ := by
  refine ⟨_, rfl, ?_, ?_, ?_, ?_, ?_, ?_⟩ <;> decide +kernel

/-- Two empty paragraphs and "x": the previous block of the third is said to be the first. -/
theorem C54_empty_paragraphs_fails : ∃ s : Store,
    (Store.newStore.bind fun s => s.importPlainText "\n\nx".toList) = some s ∧
    (s.movePosition plainSeg ⟨2, 2, false⟩ .previousBlock false 1).1.position = 0 ∧
    s.blockNumber ⟨1, 1, false⟩ = 1 := by
  refine ⟨_, rfl, ?_, ?_⟩ <;> decide +kernel

/-! ### C55: words -/

/-- With the cursor before a character of a word, `select(WordUnderCursor)` selects the word. -/
theorem C55_select_word (hl : seg.Lawful) (h : Flat s d f ps) {c : Cursor} {a b : Nat}
    (hw : WordAt seg ps c.position a b) : s.select seg c .wordUnderCursor = ⟨b, a, false⟩ :=
  Reads.select_word hl h.reads hw

/-- Away from words it selects nothing. -/
theorem C55_select_nothing_partial (hl : seg.Lawful) (h : Flat s d f ps) {c : Cursor} {n k : Nat} {p : SPara}
    (hi : InParagraph ps c.position n k p) (hout : ∀ w ∈ seg.words p.text, k < w.1 ∨ w.1 + w.2 < k) :
    s.select seg c .wordUnderCursor = ⟨c.position, c.position, false⟩ :=
  Reads.select_nothing hl h.reads hi hout

/-- The next word from inside a word is its end, or the first place after if that is inside a cluster. -/
theorem C55_next_word_inside (hl : seg.Lawful) (h : Flat s d f ps) (hm : maxCursor s = some (docLen ps))
    (hn : NoCells s f) {c : Cursor} {a b : Nat} (hw : WordAt seg ps c.position a b) {op : MoveOp}
    (hop : op = .nextWord ∨ op = .endOfWord ∨ op = .wordRight) (keep : Bool) (count : Nat) :
    FirstStop seg ps b (s.movePosition seg c op keep count).1.position :=
  Reads.next_word_inside hl h.reads hm (hn.free h) hw hop count

/-- The next word from outside a word: with the first letter, digit or underscore of the next 64 characters in
a word, it is the end of that word. -/
theorem C55_next_word_outside_partial (hl : seg.Lawful) (h : Flat s d f ps) (hm : maxCursor s = some (docLen ps))
    (hn : NoCells s f) {c : Cursor} {n k : Nat} {p : SPara} (hi : InParagraph ps c.position n k p)
    (hout : ∀ w ∈ seg.words p.text, ¬ (w.1 ≤ k ∧ k < w.1 + w.2)) {j a b : Nat} (hj : j < 64)
    (hfirst : ((docText ps).drop c.position).findIdx? (fun x => seg.alphanumeric x || x == '_') = some j)
    (hw : WordAt seg ps (c.position + j) a b) {op : MoveOp}
    (hop : op = .nextWord ∨ op = .endOfWord ∨ op = .wordRight) (keep : Bool) (count : Nat) :
    FirstStop seg ps b (s.movePosition seg c op keep count).1.position :=
  Reads.next_word_outside hl h.reads hm (hn.free h) hi hout hj hfirst hw hop count

/-- The previous word from inside a word, not at its start, is its start. -/
theorem C55_previous_word_inside (hl : seg.Lawful) (h : Flat s d f ps) (hm : maxCursor s = some (docLen ps))
    (hn : NoCells s f) {c : Cursor} {a b : Nat} (hw : WordAt seg ps c.position a b) (ha : a < c.position) {op : MoveOp}
    (hop : op = .previousWord ∨ op = .startOfWord ∨ op = .wordLeft) (keep : Bool) (count : Nat) :
    FirstStop seg ps a (s.movePosition seg c op keep count).1.position :=
  Reads.previous_word_inside hl h.reads hm (hn.free h) hw ha hop count

/-- The previous word from outside a word, or from the start of one, is the start of the last word before it in
the paragraph. -/
theorem C55_previous_word_outside_partial (hl : seg.Lawful) (h : Flat s d f ps) (hm : maxCursor s = some (docLen ps))
    (hn : NoCells s f) {c : Cursor} {n k : Nat} {p : SPara} (hi : InParagraph ps c.position n k p) {w : Nat × Nat}
    (hw : LastWordBefore seg p k w) {op : MoveOp}
    (hop : op = .previousWord ∨ op = .startOfWord ∨ op = .wordLeft) (keep : Bool) (count : Nat) :
    FirstStop seg ps (paraStart ps n + w.1) (s.movePosition seg c op keep count).1.position :=
  Reads.previous_word_outside hl h.reads hm (hn.free h) hi hw hop count

/-- "ab\ncd": from the start of the second paragraph the previous word is where the cursor is. -/
theorem C55_previous_word_fails : ∃ s : Store,
    (Store.newStore.bind fun s => s.importPlainText "ab\ncd".toList) = some s ∧
    s.movePosition plainSeg ⟨3, 3, false⟩ .previousWord false 1 = (⟨3, 3, false⟩, false) := by
  refine ⟨_, rfl, ?_⟩
  decide +kernel

/-- "a _ b": the next word from before the underscore is where the cursor is. -/
theorem C55_next_word_fails : ∃ s : Store,
    (Store.newStore.bind fun s => s.importPlainText "a _ b".toList) = some s ∧
    s.movePosition plainSeg ⟨2, 2, false⟩ .nextWord false 1 = (⟨2, 2, false⟩, false) := by
  refine ⟨_, rfl, ?_⟩
  decide +kernel

/-- "ab cd": at the end of the first word nothing is selected, at the end of the last word it is. -/
theorem C55_select_word_end_fails : ∃ s : Store,
    (Store.newStore.bind fun s => s.importPlainText "ab cd".toList) = some s ∧
    s.select plainSeg ⟨2, 2, false⟩ .wordUnderCursor = ⟨2, 2, false⟩ ∧
    s.select plainSeg ⟨5, 5, false⟩ .wordUnderCursor = ⟨5, 3, false⟩ := by
  refine ⟨_, rfl, ?_, ?_⟩ <;> decide +kernel

/-! ### C56: what a cursor reads -/

/-- The selected text is the text between the two ends of the selection. -/
theorem C56_selected_text (h : Flat s d f ps) {c : Cursor} (h1 : c.position ≤ docLen ps) (h2 : c.anchor ≤ docLen ps) :
    s.selectedText c = some (((docText ps).drop (min c.position c.anchor)).take
      (max c.position c.anchor - min c.position c.anchor)) :=
  Reads.selected_text h.reads h1 h2

/-- Selecting the document and reading the selection gives the plain text of the document. -/
theorem C56_select_all (h : Flat s d f ps) (hm : maxCursor s = some (docLen ps)) (c : Cursor) :
    s.selectedText (s.select seg c .document) = some (docText ps) :=
  Reads.select_all h.reads hm c

/-- The paragraph format read at the cursor is that of its paragraph. -/
theorem C56_block_format_partial (h : Flat s d f ps) {c : Cursor} {n k : Nat} {p : SPara}
    (hi : InParagraph ps c.position n k p) : s.blockFormatAt c = some (.ofBlock p.shape) :=
  Reads.block_format h.reads hi

/-- The character format read at the cursor is that of the character after it, and the default format at the
end of the document or in an empty paragraph. -/
theorem C56_char_format_partial (h : Flat s d f ps) {c : Cursor} {n k : Nat} {p : SPara}
    (hi : InParagraph ps c.position n k p) :
    s.charFormatAt c = some (match p.chars[k]? with
      | some (_, some x) => .ofCharFormat x
      | _ => {}) :=
  Reads.char_format h.reads hi

/-- The hypotheses of C53–C56 are met together: the document "ab\ncd", the cursor before the "d". -/
example : ∃ (s : Store) (ps : List SPara), Flat s (countsOf { id := 1, frames := [2] } ps) 2 ps ∧
    maxCursor s = some (docLen ps) ∧ NoCells s 2 ∧ IsStop plainSeg ps 4 ∧ 4 < docLen ps ∧ docText ps = "ab\ncd".toList ∧
    InParagraph ps 4 1 1 (plainPara 3 ['c', 'd']) ∧ WordAt plainSeg ps 4 3 5 ∧
    InParagraph ps 5 1 2 (plainPara 3 ['c', 'd']) ∧ LastWordBefore plainSeg (plainPara 3 ['c', 'd']) 2 (0, 2) ∧
    (∀ m, 1 = m + 2 → ∃ q : SPara, (ps[m]? = some q ∨ ps[m + 1]? = some q) ∧ q.chars ≠ []) := by
  obtain ⟨s, e2, e3⟩ := sample_flat
  refine ⟨s, _, e2, maxCursor_eq (e2.sees e3) rfl rfl, noCells_of_sole e3, ?_, by decide, by decide, ?_, ?_, ?_, ?_, ?_⟩
  · exact ⟨1, plainPara 3 ['c', 'd'], [['c']], [['d']], rfl, rfl, rfl⟩
  · exact ⟨rfl, rfl, by decide, .inl (by decide)⟩
  · exact ⟨1, plainPara 3 ['c', 'd'], (0, 2), rfl, by decide +kernel, rfl, rfl, by decide, by decide⟩
  · exact ⟨rfl, rfl, by decide, .inr (.inr rfl)⟩
  · refine ⟨by decide +kernel, by decide, fun v hv _ => ?_⟩
    have : v ∈ plainSeg.words ['c', 'd'] := hv
    rw [show plainSeg.words ['c', 'd'] = [(0, 2)] by decide +kernel] at this
    simp at this
    rw [this]; exact Nat.le_refl _
  · intro m hm; omega

/-- And those of the next word from outside: "a, b" with the cursor behind the "a". -/
example : ((docText [plainPara 2 "a, b".toList]).drop 1).findIdx?
      (fun x => plainSeg.alphanumeric x || x == '_') = some 2 ∧
    WordAt plainSeg [plainPara 2 "a, b".toList] (1 + 2) 3 4 ∧
    InParagraph [plainPara 2 "a, b".toList] 1 0 1 (plainPara 2 "a, b".toList) := by
  refine ⟨by decide +kernel, ⟨0, plainPara 2 "a, b".toList, (3, 1), rfl, by decide +kernel, rfl, rfl, by decide, by decide⟩,
    rfl, rfl, by decide, .inl (by decide)⟩

end Verif
