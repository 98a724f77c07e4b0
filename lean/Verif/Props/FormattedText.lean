import Verif.Lemmas.FormattedText
import Verif.Props.Editing
import Verif.Props.Session
import Verif.Props.PlainText
/-
C58: inserting text with a format, on documents of one frame without tables and images.
-/
namespace Verif
variable {s : Store} {d : Document} {f : Nat} {ps : List SPara}

theorem putAt_eq (L R : List SPara) {p : SPara} {a b : List SChar} (t : List Char) (fmt : CharFormat)
    (hc : p.chars = a ++ b) :
    putAt (charsBefore (paras L) + a.length) t fmt (L ++ p :: R) =
      L ++ { p with chars := a ++ styled t (some fmt) ++ b } :: R := by
  induction L with
  | nil => simp [putAt, paras, charsBefore, hc]
  | cons q L ih =>
    have hcb := charsBefore_paras_cons q L
    simp only [List.cons_append, putAt]
    rw [if_neg (by omega), show charsBefore (paras (q :: L)) + a.length - q.chars.length - 1 =
      charsBefore (paras L) + a.length by omega, ih]

/-- What `putAt` does: the characters before and after keep their formats, the new ones all have the
given format, every paragraph keeps its identity and its paragraph format. -/
theorem C58_characters (t : List Char) (fmt : CharFormat) {pos : Nat} (hne : ps ≠ [])
    (h : pos ≤ docLen ps) :
    docChars (putAt pos t fmt ps) =
      (docChars ps).take pos ++ styled t (some fmt) ++ (docChars ps).drop pos ∧
    (putAt pos t fmt ps).map (fun p => (p.id, p.shape)) = ps.map fun p => (p.id, p.shape) := by
  obtain ⟨L, p, R, a, b, rfl, hc, rfl⟩ := locate ps hne pos h
  rw [putAt_eq L R t fmt hc, take_docChars L R hc, drop_docChars L R hc, docChars_mid]
  exact ⟨by simp, by simp⟩

theorem countsOf_put {L R : List SPara} {p : SPara} {a b : List SChar} (t : List Char) (fmt : CharFormat)
    (hc : p.chars = a ++ b) :
    ({ countsOf d (L ++ p :: R) with
      characterCount := (countsOf d (L ++ p :: R)).characterCount + t.length } : Document) =
    countsOf d (L ++ { p with chars := a ++ styled t (some fmt) ++ b } :: R) := by
  simp only [countsOf, charTotal_append, charTotal_cons, hc, List.length_append, List.length_cons, styled,
    List.length_map]
  congr 1
  omega

theorem insertFormatted_simple (h : Flat s (countsOf d ps) f ps) (pos : Nat) (t : List Char)
    (fmt : PlainFormat) (ht : t ≠ []) (hp : pos ≤ docLen ps) :
    ∃ s' u, s.insertFormatted ⟨pos, pos, t, fmt⟩ = some (s', ((pos + t.length : Nat) : Int), .simple u) ∧
      Flat s' (countsOf d (putAt pos t fmt.toChar ps)) f (putAt pos t fmt.toChar ps) ∧
      s'.counters = s.counters ∧
      ∀ s1, Flat s1 (countsOf d (putAt pos t fmt.toChar ps)) f (putAt pos t fmt.toChar ps) →
        ∃ s0, s1.undoFormatted (.simple u) = some s0 ∧ Flat s0 (countsOf d ps) f ps ∧
          s0.counters = s1.counters := by
  obtain ⟨L, p, R, a, b, rfl, hc, rfl⟩ := locate ps h.nonempty pos hp
  have hpm : p ∈ L ++ p :: R := by simp
  obtain ⟨s', e, hs, hsh, hcn⟩ := h.formattedSimple
    (dto := ⟨(charsBefore (paras L) + a.length : Nat), (charsBefore (paras L) + a.length : Nat), t, fmt⟩) hc ht rfl
  rw [countsOf_put t fmt.toChar hc] at hs
  unfold Store.insertFormatted
  rw [if_neg (by simp), e, putAt_eq L R t _ hc]
  refine ⟨_, _, by congr 2, hs, hcn, ?_⟩
  intro s1 h1
  obtain ⟨s0, g1, g2, g3, g4⟩ := h1.toShows.undoSimple (f := some fmt.toChar) (t := t)
    (u := ⟨p.id, p.entity (s.storedPos p), s.runsOf p.id, s.imagesOf p.id, (countsOf d (L ++ p :: R)).id,
      (countsOf d (L ++ p :: R)).characterCount, utf8Len (a.map Prod.fst), utf8Len t⟩)
    hc rfl (isBlock_entity _ _) (h.formats p hpm) (h.images p hpm) rfl rfl rfl
  refine ⟨s0, by rw [undoFormatted_eq]; exact g1, ?_, g4⟩
  have hd : ({ countsOf d (L ++ { p with chars := a ++ styled t (some fmt.toChar) ++ b } :: R) with
      characterCount := (countsOf d (L ++ p :: R)).characterCount } : Document) =
      countsOf d (L ++ p :: R) := by
    simp [countsOf]
  rw [← hd]
  rw [← hd] at g2
  exact h1.of_shell g2 g3 g4 (by simp) rfl rfl

/-- Inserting formatted text at a place of the document succeeds, gives the document of `putAt` with
its counts, and returns the position after the new text. -/
theorem C58_insert_formatted (h : Flat s (countsOf d ps) f ps) (pos : Nat) (t : List Char)
    (fmt : PlainFormat) (ht : t ≠ []) (hp : pos ≤ docLen ps) :
    ∃ s' u, s.insertFormatted ⟨pos, pos, t, fmt⟩ = some (s', ((pos + t.length : Nat) : Int), u) ∧
      Flat s' (countsOf d (putAt pos t fmt.toChar ps)) f (putAt pos t fmt.toChar ps) := by
  obtain ⟨s', u, h1, h2, _⟩ := insertFormatted_simple h pos t fmt ht hp
  exact ⟨s', .simple u, h1, h2⟩

/-- Over a selection inside one paragraph it is a deletion followed by the insertion. -/
theorem insertFormatted_selection (h : Flat s (countsOf d ps) f ps) (x y : Nat) (t : List Char)
    (fmt : PlainFormat) (ht : t ≠ []) (hxy : x ≠ y) (hle : max x y ≤ docLen ps)
    (hsame : (deleteBetween (min x y) (max x y) ps).length = ps.length) :
    ∃ s', s.insertFormatted ⟨x, y, t, fmt⟩ =
        some (s', ((min x y + t.length : Nat) : Int), .selection s.snapshot) ∧
      Flat s' (countsOf d (putAt (min x y) t fmt.toChar (deleteBetween (min x y) (max x y) ps))) f
        (putAt (min x y) t fmt.toChar (deleteBetween (min x y) (max x y) ps)) ∧
      s'.counters = s.counters := by
  have hlh : min x y ≤ max x y := by omega
  have hmin : min (x : Int) (y : Int) = ((min x y : Nat) : Int) := by omega
  have hmax : max (x : Int) (y : Int) = ((max x y : Nat) : Int) := by omega
  unfold Store.insertFormatted
  rw [if_pos (by simp; omega)]
  rcases locate_two ps h.nonempty _ _ hlh hle with
    ⟨L, p, R, a, m, b, e1, hc, e2, e3⟩ | ⟨L, p1, M, p2, R, a1, b1, a2, b2, e1, hc1, hc2, e2, e3⟩
  · have hdel := deleteBetween_within L R hc
    rw [← e2, ← e3, ← e1] at hdel
    have hput := putAt_eq L R (p := { p with chars := a ++ b }) t fmt.toChar (a := a) (b := b) rfl
    rw [← e2] at hput
    have hf := h
    rw [e1] at hf
    obtain ⟨s', g1, g2, g3, g4⟩ := hf.formattedSelection (dto := ⟨x, y, t, fmt⟩) hc ht
      (by rw [hmin, e2]) (by rw [hmax, e3])
    rw [hdel, hput]
    refine ⟨s', ?_, ?_, g4⟩
    · rw [g1, hmin]; congr 2
    · have hd : ({ countsOf d (L ++ p :: R) with
          characterCount := (countsOf d (L ++ p :: R)).characterCount - m.length + t.length } : Document) =
          countsOf d (L ++ { p with chars := a ++ styled t (some fmt.toChar) ++ b } :: R) := by
        simp only [countsOf, charTotal_append, charTotal_cons, hc, List.length_append, List.length_cons,
          styled, List.length_map]
        congr 1
        omega
      rw [← hd]
      exact g2
  · exfalso
    have hdel := deleteBetween_over L M R hc1 hc2
    rw [← e2, ← e3, ← e1] at hdel
    rw [hdel, e1] at hsame
    simp at hsame
    omega

/-- A selection across paragraphs is refused, and nothing changes. -/
theorem insertFormatted_across (h : Flat s (countsOf d ps) f ps) (x y : Nat) (t : List Char)
    (fmt : PlainFormat) (hle : max x y ≤ docLen ps)
    (hd : (deleteBetween (min x y) (max x y) ps).length ≠ ps.length) :
    s.insertFormatted ⟨x, y, t, fmt⟩ = none := by
  have hxy : x ≠ y := by
    intro e; subst e; simp [deleteBetween_self] at hd
  have hlh : min x y ≤ max x y := by omega
  have hmin : min (x : Int) (y : Int) = ((min x y : Nat) : Int) := by omega
  have hmax : max (x : Int) (y : Int) = ((max x y : Nat) : Int) := by omega
  unfold Store.insertFormatted
  rw [if_pos (by simp; omega)]
  rcases locate_two ps h.nonempty _ _ hlh hle with
    ⟨L, p, R, a, m, b, e1, hc, e2, e3⟩ | ⟨L, p1, M, p2, R, a1, b1, a2, b2, e1, hc1, hc2, e2, e3⟩
  · exfalso
    have hdel := deleteBetween_within L R hc
    rw [← e2, ← e3, ← e1] at hdel
    rw [hdel, e1] at hd
    simp at hd
  · have hf := h
    rw [e1] at hf
    exact hf.formattedAcross (dto := ⟨x, y, t, fmt⟩) (a1 := a1) (a2 := a2) (by simp [hc1]) (by simp [hc2])
      (by rw [hmin, e2]) (by rw [hmax, e3])

/-- With a cursor: for every caret and anchor in the document, in one paragraph or not, the selection
is replaced by the formatted text and the caret is put after it. -/
theorem C58_cursor (h : Flat s (countsOf d ps) f ps) (x y : Nat) (t : List Char) (fmt : TextFormat)
    (ht : t ≠ []) (hle : max x y ≤ docLen ps) :
    ∃ s', s.cursorFormatted x y t fmt = some (s', ((min x y + t.length : Nat) : Int)) ∧
      Flat s' (countsOf d (putAt (min x y) t fmt.toPlain.toChar (deleteBetween (min x y) (max x y) ps))) f
        (putAt (min x y) t fmt.toPlain.toChar (deleteBetween (min x y) (max x y) ps)) := by
  have hlh : min x y ≤ max x y := by omega
  unfold Store.cursorFormatted
  by_cases hxy : x = y
  · subst hxy
    obtain ⟨s', u, h1, h2⟩ := C58_insert_formatted h x t fmt.toPlain ht (by omega)
    rw [h1]
    simp only [Nat.min_self, Nat.max_self, deleteBetween_self]
    exact ⟨s', rfl, h2⟩
  · by_cases hsame : (deleteBetween (min x y) (max x y) ps).length = ps.length
    · obtain ⟨s', h1, h2, _⟩ := insertFormatted_selection h x y t fmt.toPlain ht hxy hle hsame
      rw [h1]
      exact ⟨s', rfl, h2⟩
    · rw [insertFormatted_across h x y t fmt.toPlain hle hsame]
      dsimp only
      rw [if_neg hxy]
      obtain ⟨s1, g1, g2, _⟩ := C17_delete_text h x y _ _ rfl rfl hle
      rw [g1, Option.bind_some]
      dsimp only
      rw [if_neg (by omega)]
      have hlen := docLen_deleteBetween h.nonempty hlh hle
      obtain ⟨s2, u, k1, k2⟩ := C58_insert_formatted g2 (min x y) t fmt.toPlain ht (by omega)
      rw [k1]
      exact ⟨s2, rfl, k2⟩

/-- The plain text is spliced. -/
theorem C58_plain_text (h : Flat s (countsOf d ps) f ps) (x y : Nat) (t : List Char) (fmt : TextFormat)
    (ht : t ≠ []) (hle : max x y ≤ docLen ps) :
    ∃ s' q text, s.cursorFormatted x y t fmt = some (s', q) ∧ s.exportPlainText = some text ∧
      s'.exportPlainText = some (text.take (min x y) ++ t ++ text.drop (max x y)) := by
  obtain ⟨s', h1, h2⟩ := C58_cursor h x y t fmt ht hle
  have hlh : min x y ≤ max x y := by omega
  have hne := deleteBetween_nil (lo := min x y) (hi := max x y) h.nonempty
  have hlen := docLen_deleteBetween h.nonempty hlh hle
  refine ⟨s', _, docText ps, h1, export_flat h, ?_⟩
  rw [export_flat h2, docText_chars, docText_chars,
    (C58_characters t fmt.toPlain.toChar hne (pos := min x y) (by omega)).1,
    docChars_deleteBetween h.nonempty hlh hle]
  have hl : ((docChars ps).take (min x y)).length = min x y := by
    rw [List.length_take, docChars_length]; omega
  rw [List.take_append_of_le_length (by omega), List.take_of_length_le (by omega),
    List.drop_append_of_le_length (by omega), List.drop_of_length_le (by omega)]
  simp [styled, Function.comp_def, List.map_take, List.map_drop]

/-- Undo gives back the very paragraphs and counts; redo inserts the text again, and so on. -/
theorem C20_formatted_text_partial (h : Flat s (countsOf d ps) f ps) (hs : Sole d.id f s) (x y : Nat)
    (t : List Char) (fmt : PlainFormat) (ht : t ≠ []) (hle : max x y ≤ docLen ps) {s' : Store} {q : Int}
    {u : Store.InsertUndo} (hrun : s.insertFormatted ⟨x, y, t, fmt⟩ = some (s', q, u)) :
    ∃ ps', Flat s' (countsOf d ps') f ps' ∧
    ∃ s1, s'.undoFormatted u = some s1 ∧ Flat s1 (countsOf d ps) f ps ∧
    ∃ s2 q2 u2, s1.insertFormatted ⟨x, y, t, fmt⟩ = some (s2, q2, u2) ∧ q2 = q ∧
      Flat s2 (countsOf d ps') f ps' := by
  by_cases hxy : x = y
  · subst hxy
    obtain ⟨s'', u', h1, h2, h3, h4⟩ := insertFormatted_simple h x t fmt ht (by omega)
    rw [h1] at hrun; cases hrun
    obtain ⟨s1, g1, g2, _⟩ := h4 _ h2
    obtain ⟨s2, u2, k1, k2, _⟩ := insertFormatted_simple g2 x t fmt ht (by omega)
    exact ⟨_, h2, s1, g1, g2, s2, _, _, k1, rfl, k2⟩
  · by_cases hsame : (deleteBetween (min x y) (max x y) ps).length = ps.length
    · obtain ⟨s'', h1, h2, h3⟩ := insertFormatted_selection h x y t fmt ht hxy hle hsame
      rw [h1] at hrun; cases hrun
      have hr := (h.sees hs).restores s' (by simp [Store.next, h3])
      obtain ⟨s2, k1, k2, _⟩ := insertFormatted_selection hr.flat x y t fmt ht hxy hle hsame
      exact ⟨_, h2, _, rfl, hr.flat, s2, _, _, k1, rfl, k2⟩
    · rw [insertFormatted_across h x y t fmt hle hsame] at hrun
      cases hrun

/-- The six fields the call passes on reach the characters as given. -/
theorem C58_format_partial (fmt : TextFormat) :
    (∀ v, fmt.fontFamily = some v → fmt.toPlain.toChar.fontFamily = some v) ∧
    (∀ v, fmt.fontPointSize = some v → fmt.toPlain.toChar.fontPointSize = some (v.toNat : Int)) ∧
    (∀ v, fmt.fontBold = some v → fmt.toPlain.toChar.fontBold = some v) ∧
    (∀ v, fmt.fontItalic = some v → fmt.toPlain.toChar.fontItalic = some v) ∧
    (∀ v, fmt.fontUnderline = some v → fmt.toPlain.toChar.fontUnderline = some v) ∧
    (∀ v, fmt.fontStrikeout = some v → fmt.toPlain.toChar.fontStrikeout = some v) := by
  refine ⟨?_, ?_, ?_, ?_, ?_, ?_⟩ <;> intro v h <;>
    simp [TextFormat.toPlain, PlainFormat.toChar, h, u32ToInt]

/-- The fields left out do not stay unset: text inserted as "bold" also gets an empty font family and
the size 0; a link target is dropped. -/
theorem C58_format_fails :
    (({ fontBold := some true } : TextFormat).toPlain.toChar.fontFamily = some "" ∧
      ({ fontBold := some true } : TextFormat).toPlain.toChar.fontPointSize = some 0) ∧
    ({ anchorHref := some "http://x", isAnchor := some true } : TextFormat).toPlain.toChar.anchorHref =
      none := by decide

/-- Inserting an empty text leaves a span over no characters: the format table is no longer well formed
(C01). -/
theorem C58_empty_text_fails : ∃ s s' q u,
    (Store.newStore.bind fun s => s.importPlainText "abc".toList) = some s ∧
    s.insertFormatted ⟨1, 1, [], ⟨"", 0, true, false, false, false⟩⟩ = some (s', q, u) ∧
    ∃ r ∈ (s'.formatRuns 2).getD [], ¬ r.bs < r.be := by
  refine ⟨_, _, _, _, rfl, rfl, ?_⟩
  decide +kernel

/-- A position beyond the end inserts at the end, but the position returned is not the end of the
inserted text (`insert_text` returns the right one, C16). -/
theorem C58_beyond_end_fails : ∃ s s' u,
    (Store.newStore.bind fun s => s.importPlainText "abc".toList) = some s ∧
    s.insertFormatted ⟨100, 100, ['x'], ⟨"", 0, true, false, false, false⟩⟩ = some (s', 101, u) ∧
    s'.rope = "abcx".toList := by
  refine ⟨_, _, _, rfl, rfl, ?_⟩
  decide +kernel

example : ∃ (s s' : Store) (u : Store.InsertUndo),
    s.insertFormatted ⟨1, 1, ['x'], ⟨"Arial", 12, true, false, false, false⟩⟩ = some (s', 2, u) ∧
    s'.rope = ['a', 'x', 'b', '\n', 'c', 'd'] ∧
    docChars (putAt 1 ['x'] ⟨some "Arial", some 12, none, some true, some false, some false, none, some false,
      none, none, none, [], none, none, none, none⟩ [plainPara 2 ['a', 'b'], plainPara 3 ['c', 'd']]) ≠
    docChars [plainPara 2 ['a', 'b'], plainPara 3 ['c', 'd']] := by
  obtain ⟨s, h1, _⟩ := sample_flat
  obtain ⟨s', u, e1, e2⟩ := C58_insert_formatted h1 1 ['x'] ⟨"Arial", 12, true, false, false, false⟩
    (by simp) (by simp [docLen, plainPara, styled])
  exact ⟨s, s', u, e1, by rw [rope_eq e2.toShows]; decide, by decide⟩

end Verif
