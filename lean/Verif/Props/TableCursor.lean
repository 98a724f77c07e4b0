import Verif.Lemmas.TableEdge
import Verif.Props.CursorMoves
import Verif.Props.Tables
/-!
C70–C71: reading by position and cursors in documents with tables.  Positions run through the paragraphs in reading
order, those in cells included (`flowParas`).  Vocabulary: `Verif/Spec/{Tables, Cursor}.lean`.
-/
namespace Verif
open Store
variable {s : Store} {d : Document} {f : Nat} {items : List SItem} {seg : Segmenter}

/-! ### C70: reading by position and moving -/

/-- The text read from a position is that of the document from there on, the paragraphs of cells included, cut at
the end of the document, and the paragraph named is the one the position is in. -/
theorem C70_text_at (h : Tabled s d f items) (pos len : Nat) (hp : pos ≤ (docText (flowParas items)).length) :
    ∃ r, s.textAt pos len = some r ∧ r.text = ((docText (flowParas items)).drop pos).take len ∧
      ∃ n p, (flowParas items)[n]? = some p ∧ r.blockId = p.id ∧ paraStart (flowParas items) n ≤ pos ∧
        pos ≤ paraStart (flowParas items) n + p.chars.length :=
  h.reads.textAt pos len hp

/-- A negative length reads nothing, a position outside the document is refused. -/
theorem C70_text_at_limits (h : Tabled s d f items) (pos len : Int) :
    (len < 0 → s.textAt pos len = some ⟨[], 0, 0⟩) ∧
    (0 ≤ len → (pos < 0 ∨ (docText (flowParas items)).length < pos) → s.textAt pos len = none) :=
  h.reads.toLegible.textAt_limits h.docIdOf h.flowBlocks h.getBlocks_ids pos len

/-- The paragraph at a position: its start, its length and its number; at the end of a paragraph with text it is
the next one (as in C48); past the end of the document it is the last one. -/
theorem C70_block_at (h : Tabled s d f items) :
    (∀ n p k, (flowParas items)[n]? = some p → k ≤ p.chars.length →
      (k < p.chars.length ∨ p.chars = [] ∨ (flowParas items)[n + 1]? = none →
        s.blockAt ((paraStart (flowParas items) n + k : Nat) : Int) = some (infoOf (flowParas items) n p)) ∧
      (∀ q, k = p.chars.length → p.chars ≠ [] → (flowParas items)[n + 1]? = some q →
        s.blockAt ((paraStart (flowParas items) n + k : Nat) : Int) = some (infoOf (flowParas items) (n + 1) q))) ∧
    ∀ pos : Int, (docText (flowParas items)).length ≤ pos → ∃ p, (flowParas items).getLast? = some p ∧
      s.blockAt pos = some (infoOf (flowParas items) ((flowParas items).length - 1) p) :=
  ⟨h.reads.blockAt, h.reads.beyond⟩

/-- `set_position(x, MoveAnchor)`: the cursor goes to the first place at or after `x`, or to the end of the
document, and nothing is selected. -/
theorem C70_set_position (hl : seg.Lawful) (h : Tabled s d f items) (hm : Counted d (flowParas items)) (c : Cursor)
    (x : Nat) :
    FirstStop seg (flowParas items) (min x (docLen (flowParas items))) (s.placeCursor seg c x false).position ∧
    (s.placeCursor seg c x false).position ≤ docLen (flowParas items) ∧
    (s.placeCursor seg c x false).anchor = (s.placeCursor seg c x false).position := by
  obtain ⟨h1, h2, h3, _⟩ := Reads.set_position hl h.reads (hm.max h) free_false c x
  exact ⟨h1, h2, h3 rfl⟩

/-- Asking for a place of the cursor leads there. -/
theorem C70_set_position_exact (hl : seg.Lawful) (h : Tabled s d f items) (hm : Counted d (flowParas items))
    (c : Cursor) {x : Nat} (hx : IsStop seg (flowParas items) x) :
    s.placeCursor seg c x false = ⟨x, x, false⟩ :=
  Reads.set_position_exact hl h.reads (hm.max h) free_false c hx

/-- Whatever the movement, the cursor ends at a place within the document, and the call tells whether
it moved. -/
theorem C70_move_stays (hl : seg.Lawful) (h : Tabled s d f items) (hm : Counted d (flowParas items))
    (c : Cursor) (op : MoveOp) (n : Nat) :
    IsStop seg (flowParas items) (s.movePosition seg c op false n).1.position ∧
    (s.movePosition seg c op false n).1.position ≤ docLen (flowParas items) ∧
    ((s.movePosition seg c op false n).2 = true ↔ (s.movePosition seg c op false n).1.position ≠ c.position) :=
  Reads.move_stays hl h.reads (hm.max h) free_false c op n

/-- Selecting stays in the document too; selecting the document selects all of it. -/
theorem C70_select_stays (hl : seg.Lawful) (h : Tabled s d f items) (hm : Counted d (flowParas items))
    (c : Cursor) (hc : c.position ≤ docLen (flowParas items) ∧ c.anchor ≤ docLen (flowParas items)) (op : SelectOp) :
    (s.select seg c op).position ≤ docLen (flowParas items) ∧ (s.select seg c op).anchor ≤ docLen (flowParas items) ∧
    s.select seg c .document = ⟨docLen (flowParas items), 0, false⟩ :=
  Reads.select_stays hl h.reads (hm.max h) c hc op

/-- Moving forward by `n` characters takes `n` steps to the next place (a place is a paragraph's start or end,
or between two grapheme clusters), or as many as there are; the anchor follows or stays. -/
theorem C70_next_character (hl : seg.Lawful) (h : Tabled s d f items) (hm : Counted d (flowParas items))
    {c : Cursor} (hc : IsStop seg (flowParas items) c.position) {op : MoveOp} (hop : op = .nextCharacter ∨ op = .right)
    (n : Nat) :
    ∃ q, StepsTo (NextStop seg (flowParas items)) n c.position q ∧
      s.movePosition seg c op false n = (⟨q, q, false⟩, decide (q ≠ c.position)) :=
  Reads.next_character hl h.reads (hm.max h) free_false hc hop n

/-- The same backward. -/
theorem C70_previous_character (hl : seg.Lawful) (h : Tabled s d f items) (hm : Counted d (flowParas items))
    {c : Cursor} (hc : IsStop seg (flowParas items) c.position) {op : MoveOp}
    (hop : op = .previousCharacter ∨ op = .left) (n : Nat) :
    ∃ q, StepsTo (PrevStop seg (flowParas items)) n c.position q ∧
      s.movePosition seg c op false n = (⟨q, q, false⟩, decide (q ≠ c.position)) :=
  Reads.previous_character hl h.reads (hm.max h) free_false hc hop n

/-- One character forward and one back is where the cursor was, and the other way round. -/
theorem C70_there_and_back (hl : seg.Lawful) (h : Tabled s d f items) (hm : Counted d (flowParas items))
    {c : Cursor} (hc : IsStop seg (flowParas items) c.position) :
    (c.position < docLen (flowParas items) →
      (s.movePosition seg (s.movePosition seg c .nextCharacter false 1).1 .previousCharacter false 1).1.position =
        c.position) ∧
    (0 < c.position →
      (s.movePosition seg (s.movePosition seg c .previousCharacter false 1).1 .nextCharacter false 1).1.position =
        c.position) :=
  Reads.there_and_back hl h.reads (hm.max h) hc

/-- Moving to the start and to the end of the paragraph, selecting it, and asking where the cursor is in it.
Full statement: the same at every position; false, see `C54_at_paragraph_end_fails`. -/
theorem C70_paragraph_partial (hl : seg.Lawful) (h : Tabled s d f items) (hm : Counted d (flowParas items))
    {c : Cursor} {n k : Nat} {p : SPara} (hi : InParagraph (flowParas items) c.position n k p)
    (count : Nat) :
    (s.movePosition seg c .startOfBlock false count).1 =
      ⟨paraStart (flowParas items) n, paraStart (flowParas items) n, false⟩ ∧
    (s.movePosition seg c .endOfBlock false count).1 =
      ⟨paraStart (flowParas items) n + p.chars.length, paraStart (flowParas items) n + p.chars.length, false⟩ ∧
    s.select seg c .blockUnderCursor = ⟨paraStart (flowParas items) n + p.chars.length, paraStart (flowParas items) n, false⟩ ∧
    s.atBlockStart c = decide (k = 0) ∧ s.atBlockEnd c = decide (k = p.chars.length) ∧
    s.blockNumber c = n ∧ s.positionInBlock c = k :=
  Reads.paragraph hl h.reads (hm.max h) free_false hi count

/-- Moving to the next paragraph: to its start, or to the end of the document from the last one. -/
theorem C70_next_paragraph_partial (hl : seg.Lawful) (h : Tabled s d f items) (hm : Counted d (flowParas items))
    {c : Cursor} {n k : Nat} {p : SPara} (hi : InParagraph (flowParas items) c.position n k p)
    (count : Nat) {op : MoveOp} (hop : op = .nextBlock ∨ op = .down) :
    (s.movePosition seg c op false count).1.position =
      (if n + 1 < (flowParas items).length then paraStart (flowParas items) (n + 1) else docLen (flowParas items)) :=
  Reads.next_paragraph hl h.reads (hm.max h) free_false hi count hop

/-- Moving to the previous paragraph: to its start, or to the start of the document from the first one, unless
the two paragraphs before are both empty. -/
theorem C70_previous_paragraph_partial (hl : seg.Lawful) (h : Tabled s d f items) (hm : Counted d (flowParas items))
    {c : Cursor} {n k : Nat} {p : SPara} (hi : InParagraph (flowParas items) c.position n k p)
    (count : Nat) {op : MoveOp} (hop : op = .previousBlock ∨ op = .up)
    (hne : ∀ m, n = m + 2 → ∃ q, ((flowParas items)[m]? = some q ∨ (flowParas items)[m + 1]? = some q) ∧ q.chars ≠ []) :
    (s.movePosition seg c op false count).1.position = paraStart (flowParas items) (n - 1) :=
  Reads.previous_paragraph hl h.reads (hm.max h) free_false hi count hop hne

/-- With the cursor before a character of a word, `select(WordUnderCursor)` selects the word. -/
theorem C70_select_word (hl : seg.Lawful) (h : Tabled s d f items) {c : Cursor} {a b : Nat}
    (hw : WordAt seg (flowParas items) c.position a b) : s.select seg c .wordUnderCursor = ⟨b, a, false⟩ :=
  Reads.select_word hl h.reads hw

/-- Away from words it selects nothing. -/
theorem C70_select_nothing_partial (hl : seg.Lawful) (h : Tabled s d f items) {c : Cursor} {n k : Nat} {p : SPara}
    (hi : InParagraph (flowParas items) c.position n k p) (hout : ∀ w ∈ seg.words p.text, k < w.1 ∨ w.1 + w.2 < k) :
    s.select seg c .wordUnderCursor = ⟨c.position, c.position, false⟩ :=
  Reads.select_nothing hl h.reads hi hout

/-- The next word from inside a word is its end, or the first place after if that is inside a cluster. -/
theorem C70_next_word_inside (hl : seg.Lawful) (h : Tabled s d f items) (hm : Counted d (flowParas items))
    {c : Cursor} {a b : Nat} (hw : WordAt seg (flowParas items) c.position a b) {op : MoveOp}
    (hop : op = .nextWord ∨ op = .endOfWord ∨ op = .wordRight) (count : Nat) :
    FirstStop seg (flowParas items) b (s.movePosition seg c op false count).1.position :=
  Reads.next_word_inside hl h.reads (hm.max h) free_false hw hop count

/-- The next word from outside a word: with the first letter, digit or underscore of the next 64 characters in
a word, it is the end of that word. -/
theorem C70_next_word_outside_partial (hl : seg.Lawful) (h : Tabled s d f items) (hm : Counted d (flowParas items))
    {c : Cursor} {n k : Nat} {p : SPara} (hi : InParagraph (flowParas items) c.position n k p)
    (hout : ∀ w ∈ seg.words p.text, ¬ (w.1 ≤ k ∧ k < w.1 + w.2)) {j a b : Nat} (hj : j < 64)
    (hfirst : ((docText (flowParas items)).drop c.position).findIdx? (fun x => seg.alphanumeric x || x == '_') = some j)
    (hw : WordAt seg (flowParas items) (c.position + j) a b) {op : MoveOp}
    (hop : op = .nextWord ∨ op = .endOfWord ∨ op = .wordRight) (count : Nat) :
    FirstStop seg (flowParas items) b (s.movePosition seg c op false count).1.position :=
  Reads.next_word_outside hl h.reads (hm.max h) free_false hi hout hj hfirst hw hop count

/-- The previous word from inside a word, not at its start, is its start. -/
theorem C70_previous_word_inside (hl : seg.Lawful) (h : Tabled s d f items) (hm : Counted d (flowParas items))
    {c : Cursor} {a b : Nat} (hw : WordAt seg (flowParas items) c.position a b) (ha : a < c.position) {op : MoveOp}
    (hop : op = .previousWord ∨ op = .startOfWord ∨ op = .wordLeft) (count : Nat) :
    FirstStop seg (flowParas items) a (s.movePosition seg c op false count).1.position :=
  Reads.previous_word_inside hl h.reads (hm.max h) free_false hw ha hop count

/-- The previous word from outside a word, or from the start of one, is the start of the last word before it in
the paragraph. -/
theorem C70_previous_word_outside_partial (hl : seg.Lawful) (h : Tabled s d f items) (hm : Counted d (flowParas items))
    {c : Cursor} {n k : Nat} {p : SPara} (hi : InParagraph (flowParas items) c.position n k p) {w : Nat × Nat}
    (hw : LastWordBefore seg p k w) {op : MoveOp}
    (hop : op = .previousWord ∨ op = .startOfWord ∨ op = .wordLeft) (count : Nat) :
    FirstStop seg (flowParas items) (paraStart (flowParas items) n + w.1) (s.movePosition seg c op false count).1.position :=
  Reads.previous_word_outside hl h.reads (hm.max h) free_false hi hw hop count

/-- The selected text is the text between the two ends of the selection. -/
theorem C70_selected_text (h : Tabled s d f items) {c : Cursor} (h1 : c.position ≤ docLen (flowParas items))
    (h2 : c.anchor ≤ docLen (flowParas items)) :
    s.selectedText c = some (((docText (flowParas items)).drop (min c.position c.anchor)).take
      (max c.position c.anchor - min c.position c.anchor)) :=
  Reads.selected_text h.reads h1 h2

/-- Selecting the document and reading the selection gives the plain text of the document. -/
theorem C70_select_all (h : Tabled s d f items) (hm : Counted d (flowParas items)) (c : Cursor) :
    s.selectedText (s.select seg c .document) = some (docText (flowParas items)) :=
  Reads.select_all h.reads (hm.max h) c

/-- The paragraph format read at the cursor is that of its paragraph. -/
theorem C70_block_format_partial (h : Tabled s d f items) {c : Cursor} {n k : Nat} {p : SPara}
    (hi : InParagraph (flowParas items) c.position n k p) : s.blockFormatAt c = some (.ofBlock p.shape) :=
  Reads.block_format h.reads hi

/-- The character format read at the cursor is that of the character after it, and the default format at the
end of the document or in an empty paragraph. -/
theorem C70_char_format_partial (h : Tabled s d f items) {c : Cursor} {n k : Nat} {p : SPara}
    (hi : InParagraph (flowParas items) c.position n k p) :
    s.charFormatAt c = some (match p.chars[k]? with
      | some (_, some x) => .ofCharFormat x
      | _ => {}) :=
  Reads.char_format h.reads hi


/-! ### C71: selecting across the edges of tables -/

variable {t : STable} {c : SCell} {p : SPara}

/-- The cell at a position, also at the end of a paragraph: that of its paragraph; none outside the tables. -/
theorem C71_cell_at (h : Tabled s d f items) {n k : Nat} (hp : (flowParas items)[n]? = some p) (hk : k ≤ p.chars.length) :
    (t ∈ tablesOf items → c ∈ t.cells → p ∈ c.paras →
      s.tableCellAt (paraStart (flowParas items) n + k) = some (t.table.id, c.cell.row, c.cell.column)) ∧
    (p ∈ topParas items → s.tableCellAt (paraStart (flowParas items) n + k) = none) := by
  rw [h.reads.tableCellAt hp hk]
  exact ⟨fun h1 h2 h3 => h.tableCellOf_cell h1 h2 h3, fun h1 => h.tableCellOf_top h1⟩

/-- Extending a selection to a position, when both ends are in tables or both are outside: as in C52. -/
theorem C71_select_together (hl : seg.Lawful) (h : Tabled s d f items) (hm : Counted d (flowParas items)) (c : Cursor) (x : Nat)
    (hx : x ≤ docLen (flowParas items))
    (hs : (∃ t u, InTable items t c.anchor ∧ InTable items u x) ∨ OutOfTables items c.anchor ∧ OutOfTables items x) :
    FirstStop seg (flowParas items) x (s.placeCursor seg c x true).position ∧
    (c.anchor ≠ x → (s.placeCursor seg c x true).anchor = c.anchor) ∧
    (c.anchor = x → (s.placeCursor seg c x true).anchor = (s.placeCursor seg c x true).position) := by
  have hk : s.keepOutside c.anchor x = x := by
    apply keepOutside_same
    rcases hs with ⟨t, u, h1, h2⟩ | ⟨h1, h2⟩
    · obtain ⟨r, k, e1⟩ := h.cellAt_in h1
      obtain ⟨r', k', e2⟩ := h.cellAt_in h2
      rw [e1, e2]; rfl
    · rw [h.cellAt_out h1, h.cellAt_out h2]
  have hmin : min x (docLen (flowParas items)) = x := by omega
  obtain ⟨q, h1, h2⟩ := placeCursor_spec hl h.reads (hm.max h) (keep := true) c x (fun _ => by rw [hmin, hk])
  rw [hmin] at h1 h2
  rw [h2]
  refine ⟨h1, ?_, ?_⟩
  · intro hne; simp [hne]
  · intro he; simp [he]

/-- Extending a selection from outside the tables into the table `t` takes in the whole table: the cursor goes to the
start of the next paragraph outside the tables, or to the end of the previous one when selecting backward. -/
theorem C71_select_into (hl : seg.Lawful) (h : Tabled s d f items) (hm : Counted d (flowParas items)) (c : Cursor) {x y : Nat}
    (ha : OutOfTables items c.anchor) (hx : InTable items t x)
    (hy : c.anchor < x ∧ EdgeAfter items t y ∨ x < c.anchor ∧ EdgeBefore items t y) :
    s.placeCursor seg c x true = ⟨y, c.anchor, false⟩ ∧
    ∀ z, InTable items t z → min c.anchor y < z ∧ z < max c.anchor y := by
  have hxl : x ≤ docLen (flowParas items) := by
    obtain ⟨A, B, n, p, k, e, hp, hk, rfl⟩ := hx
    have hp' : (flowParas items)[(flowParas A).length + n]? = some p := by rw [e]; exact at_table hp
    have := paraEnd_le hp'
    omega
  have hy' : s.keepOutside c.anchor x = y ∧ IsStop seg (flowParas items) y ∧ c.anchor ≠ y := by
    obtain ⟨r, k, e1⟩ := h.cellAt_in hx
    unfold Store.keepOutside
    rw [e1, h.cellAt_out ha]
    dsimp only
    rcases hy with ⟨h1, h2⟩ | ⟨h1, h2⟩
    · rw [show decide (c.anchor < x) = true by simpa using h1, Bool.not_true, h.edge_after h2, Option.getD_some]
      refine ⟨rfl, ?_, ?_⟩
      · obtain ⟨A, C, q, D, e, hC, rfl⟩ := h2
        refine stop_start (p := q) hl ?_
        rw [e, show A ++ SItem.table t :: (C ++ SItem.para q :: D) = (A ++ SItem.table t :: C) ++ .para q :: D by simp]
        exact at_top
      · have := h.before_edge h2 hx; omega
    · rw [show decide (c.anchor < x) = false by simpa using Nat.le_of_lt h1, Bool.not_false, h.edge_before h2, Option.getD_some]
      refine ⟨rfl, ?_, ?_⟩
      · obtain ⟨A, q, C, B, e, hC, rfl⟩ := h2
        exact stop_end hl (by rw [e]; exact at_top)
      · have := h.after_edge h2 hx; omega
  obtain ⟨k1, k2, k3⟩ := hy'
  constructor
  · have hsnap := snapForward_first hl h.reads (hm.max h) (stop_le hl k2)
    have : s.snapForward seg y = y := firstStop_unique hsnap (firstStop_self k2)
    unfold Store.placeCursor
    simp only [hm.max h, Option.getD_some, Nat.min_eq_left hxl, if_true, k1]
    unfold Store.snapCursor
    simp [this]
  · intro z hz
    obtain ⟨b1, b2⟩ := h.before_table ha hx hz
    rcases hy with ⟨h1, h2⟩ | ⟨h1, h2⟩
    · have := h.before_edge h2 hz
      have := b1 h1
      omega
    · have := h.after_edge h2 hz
      have := b2 h1
      omega

/-- When there is no paragraph outside the tables on that side, the selection ends where it was asked to. -/
theorem C71_select_into_last (hl : seg.Lawful) (h : Tabled s d f items) (hm : Counted d (flowParas items)) (c : Cursor) {x : Nat}
    {A B : List SItem} (e : items = A ++ .table t :: B) (ha : OutOfTables items c.anchor) (hx : InTable items t x)
    (hs : c.anchor < x ∧ topParas B = [] ∨ x < c.anchor ∧ topParas A = []) :
    FirstStop seg (flowParas items) x (s.placeCursor seg c x true).position ∧
    (s.placeCursor seg c x true).anchor = c.anchor := by
  have hxl : x ≤ docLen (flowParas items) := by
    obtain ⟨A, B, n, p, k, e, hp, hk, rfl⟩ := hx
    have hp' : (flowParas items)[(flowParas A).length + n]? = some p := by rw [e]; exact at_table hp
    have := paraEnd_le hp'
    omega
  have hk : s.keepOutside c.anchor x = x := by
    obtain ⟨r, k, e1⟩ := h.cellAt_in hx
    unfold Store.keepOutside
    rw [e1, h.cellAt_out ha]
    dsimp only
    subst e
    rcases hs with ⟨h1, h2⟩ | ⟨h1, h2⟩
    · rw [show decide (c.anchor < x) = true by simpa using h1, Bool.not_true, h.no_edge_after h2]; rfl
    · rw [show decide (c.anchor < x) = false by simpa using Nat.le_of_lt h1, Bool.not_false, h.no_edge_before h2]; rfl
  have hmin : min x (docLen (flowParas items)) = x := by omega
  obtain ⟨q, h1, h2⟩ := placeCursor_spec hl h.reads (hm.max h) (keep := true) c x (fun _ => by rw [hmin, hk])
  rw [hmin] at h1 h2
  rw [h2]
  refine ⟨h1, ?_⟩
  have : c.anchor ≠ x := by omega
  simp [this]

/-- A movement that extends the selection goes where the same movement without selection goes, the anchor staying, as
long as both ends are in tables or both are outside. -/
theorem C71_move_together (hl : seg.Lawful) (h : Tabled s d f items) (hm : Counted d (flowParas items)) (c : Cursor)
    (ha : IsStop seg (flowParas items) c.anchor) (op : MoveOp) (n : Nat) {x : Nat}
    (hx : (s.movePosition seg c op false n).1.position = x)
    (hs : (∃ t u, InTable items t c.anchor ∧ InTable items u x) ∨ OutOfTables items c.anchor ∧ OutOfTables items x) :
    s.movePosition seg c op true n = (⟨x, c.anchor, false⟩, decide (x ≠ c.position)) := by
  obtain ⟨q, h1, h2⟩ := placeCursor_spec hl h.reads (hm.max h) (keep := false) c (s.resolveMove seg c.position n op) nofun
  have hq : q = x := by rw [← hx]; simp only [Store.movePosition, h2]
  subst hq
  generalize hmm : min (s.resolveMove seg c.position n op) (docLen (flowParas items)) = m at h1
  have hml : m ≤ docLen (flowParas items) := by omega
  -- the place and the position asked for are in the same paragraph
  have hsame : s.tableCellAt m = s.tableCellAt q := by
    obtain ⟨X, p, Y, a, b, e, hc, e2⟩ := locate (flowParas items) h.flow_nonempty m hml
    have hp : (flowParas items)[X.length]? = some p := by rw [e]; simp
    have hps : paraStart (flowParas items) X.length = charsBefore (paras X) := by rw [e, paraStart_at]
    have hal : a.length ≤ p.chars.length := by rw [hc]; simp
    have h3 := h1.first _ (stop_end hl hp) (by omega)
    have h4 := h1.after
    obtain ⟨k, rfl⟩ : ∃ k, q = paraStart (flowParas items) X.length + k := ⟨q - paraStart (flowParas items) X.length, by omega⟩
    rw [h.reads.tableCellAt hp (by omega), e2, ← hps, h.reads.tableCellAt hp hal]
  have hk : s.keepOutside c.anchor m = m := by
    apply keepOutside_same
    rw [hsame]
    rcases hs with ⟨t, u, h1, h2⟩ | ⟨h1, h2⟩
    · obtain ⟨r, k, e1⟩ := h.cellAt_in h1
      obtain ⟨r', k', e2⟩ := h.cellAt_in h2
      rw [e1, e2]; rfl
    · rw [h.cellAt_out h1, h.cellAt_out h2]
  obtain ⟨q', g1, g2⟩ := placeCursor_spec hl h.reads (hm.max h) (keep := true) c (s.resolveMove seg c.position n op)
    (fun _ => by rw [hmm, hk])
  rw [hmm] at g1 g2
  have := firstStop_unique g1 h1
  subst this
  simp only [Store.movePosition, g2, if_true]
  by_cases he : c.anchor = m
  · rw [if_pos he, firstStop_unique h1 (firstStop_self (he ▸ ha)), ← he]
  · rw [if_neg he]

/-- The document "ab", a table of one row and two columns, "cd". -/
theorem sample_tabled : ∃ (s : Store) (d : Document) (t : STable),
    Tabled s d 2 [.para (plainPara 2 ['a', 'b']), .table t, .para (plainPara 3 ['c', 'd'])] ∧
    Counted d (flowParas [.para (plainPara 2 ['a', 'b']), .table t, .para (plainPara 3 ['c', 'd'])]) ∧
    t.cells.flatMap SCell.paras = [plainPara 4 [], plainPara 5 []] ∧ EmptyTable t 1 2 := by
  obtain ⟨s, d, e0, hd, h, _⟩ := import_tabled "ab\ncd".toList
  have e : (linesFrom 2 (Store.splitLines (unixText "ab\ncd".toList))).map SItem.para =
      [] ++ .para (plainPara 2 ['a', 'b']) :: [.para (plainPara 3 ['c', 'd'])] := by rfl
  have hb : s.next "block" = 4 ∧ (s.documents 1).map (fun d => (d.characterCount, d.blockCount)) = some (4, 2) := by
    cases e0; decide +kernel
  rw [e] at h
  have hdoc := h.document
  rw [hd] at hdoc
  rw [hdoc] at hb
  simp only [Option.map_some, Option.some.injEq, Prod.mk.injEq] at hb
  obtain ⟨s1, h1, h2, _⟩ := h.insertTable_top (a := [('a', none), ('b', none)]) (b := []) (position := 2) (anchor := 2)
    (rows := 1) (columns := 2) rfl (by decide) (by decide) (by decide)
  have hp : (madeTable s 1 2).cells.flatMap SCell.paras = [plainPara 4 [], plainPara 5 []] := by
    have : (madeTable s 1 2).cells.flatMap SCell.paras = [plainPara (s.next "block") [], plainPara (s.next "block" + 1) []] := rfl
    rw [this, hb.1]
  refine ⟨s1, _, madeTable s 1 2, h2, ?_, hp, madeTable_empty s 1 2⟩
  constructor
  · rw [flowParas_para, flowParas_table, hp]
    show d.characterCount = _
    rw [hb.2.1]; rfl
  · rw [flowParas_para, flowParas_table, hp]
    show d.blockCount + 1 * 2 = _
    rw [hb.2.2]; rfl

/-- The hypotheses of C70 and C71 are met: in "ab", a table of two cells, "cd" the cursor stands in the second cell
(position 4) or in "cd" (position 6); selecting from "ab" (position 1) into the table ends at the start of "cd"
(position 5), selecting from "cd" into it at the end of "ab" (position 2). -/
example : ∃ (s : Store) (d : Document) (items : List SItem) (t : STable), Tabled s d 2 items ∧ Counted d (flowParas items) ∧
    InTable items t 4 ∧ OutOfTables items 1 ∧ OutOfTables items 6 ∧ EdgeAfter items t 5 ∧ EdgeBefore items t 2 ∧
    IsStop plainSeg (flowParas items) 4 ∧ IsStop plainSeg (flowParas items) 6 ∧
    InParagraph (flowParas items) 6 3 1 (plainPara 3 ['c', 'd']) ∧ WordAt plainSeg (flowParas items) 6 5 7 := by
  obtain ⟨s, d, t, h1, h2, h3, _⟩ := sample_tabled
  have hf : flowParas [.para (plainPara 2 ['a', 'b']), .table t, .para (plainPara 3 ['c', 'd'])] =
      [plainPara 2 ['a', 'b'], plainPara 4 [], plainPara 5 [], plainPara 3 ['c', 'd']] := by
    rw [flowParas_para, flowParas_table, h3]; rfl
  refine ⟨s, d, _, t, h1, h2, ?_, ?_, ?_, ?_, ?_, ?_, ?_, ?_, ?_⟩
  · exact ⟨[.para (plainPara 2 ['a', 'b'])], [.para (plainPara 3 ['c', 'd'])], 1, plainPara 5 [], 0, rfl, by rw [h3]; rfl,
      by decide, by rw [hf]; rfl⟩
  · exact ⟨[], plainPara 2 ['a', 'b'], _, 1, rfl, by decide, by rw [hf]; rfl⟩
  · refine ⟨[.para (plainPara 2 ['a', 'b']), .table t], plainPara 3 ['c', 'd'], [], 1, rfl, by decide, ?_⟩
    rw [hf, flowParas_para, flowParas_table, h3]; rfl
  · refine ⟨[.para (plainPara 2 ['a', 'b'])], [], plainPara 3 ['c', 'd'], [], rfl, rfl, ?_⟩
    rw [hf]
    have : flowParas ([.para (plainPara 2 ['a', 'b'])] ++ [.table t]) = [plainPara 2 ['a', 'b'], plainPara 4 [], plainPara 5 []] := by
      rw [flowParas_append, flowParas_table, h3]; rfl
    rw [this]; rfl
  · exact ⟨[], plainPara 2 ['a', 'b'], [], [.para (plainPara 3 ['c', 'd'])], rfl, rfl, by rw [hf]; rfl⟩
  · rw [hf]; exact ⟨2, plainPara 5 [], [], [], rfl, rfl, rfl⟩
  · rw [hf]; exact ⟨3, plainPara 3 ['c', 'd'], [['c']], [['d']], rfl, rfl, rfl⟩
  · rw [hf]; exact ⟨rfl, rfl, by decide, .inl (by decide)⟩
  · rw [hf]; exact ⟨3, plainPara 3 ['c', 'd'], (0, 2), rfl, by decide +kernel, rfl, rfl, by decide, by decide⟩

/-- **C71, negative.** From inside a table the selection does not take in the table: the cursor goes to the other
side of it.  In "ab", a table of two cells, "cd": with the anchor in the first cell (position 3), extending the
selection to the middle of "ab" (position 1) puts the cursor at the start of "cd" (position 5), and extending it to the
end of "cd" (position 7) puts it at the end of "ab" (position 2); moving up by a paragraph goes down. -/
theorem C71_select_out_fails : ∃ s s1 : Store, ∃ a snap,
    (Store.newStore.bind fun s => s.importPlainText "ab\ncd".toList) = some s ∧
    s.insertTable 2 2 1 2 = some (s1, a, 2, snap) ∧
    s1.placeCursor plainSeg ⟨3, 3, false⟩ 1 true = ⟨5, 3, false⟩ ∧
    s1.placeCursor plainSeg ⟨3, 3, false⟩ 7 true = ⟨2, 3, false⟩ ∧
    s1.movePosition plainSeg ⟨3, 3, false⟩ .up true 1 = (⟨5, 3, false⟩, true) := by
  refine ⟨_, _, _, _, rfl, rfl, ?_⟩
  decide +kernel

end Verif
