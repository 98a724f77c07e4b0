import Verif.Lemmas.Editing
import Verif.Lemmas.Import
/-
C16–C19: typing, deleting, splitting paragraphs and typing over a selection, on documents without
tables and images (`Flat`: one frame; `Shows`: any frames).  `countsOf d ps` is the document record
whose counts are those of `d` plus the true ones of `ps`; a document whose counts are right has
`d.characterCount = d.blockCount = 0` there.
-/
namespace Verif
variable {s : Store} {d : Document} {f : Nat} {ps : List SPara}

/-! ## C16 -/

theorem insertSimple_clamp (s : Store) (t : List Char) (pos : Int) :
    s.insertSimple ⟨pos, pos, t⟩ = s.insertSimple ⟨max 0 (min pos s.text.rope.length),
      max 0 (min pos s.text.rope.length), t⟩ ∨
    findBlockAtCharPosition s.text s.blocks.len pos = some none := by
  have hf : findBlockAtCharPosition s.text s.blocks.len (max 0 (min pos s.text.rope.length)) =
      findBlockAtCharPosition s.text s.blocks.len pos := by
    have : max (0 : Int) (min (max 0 (min pos s.text.rope.length)) s.text.rope.length) =
      max 0 (min pos s.text.rope.length) := by omega
    unfold findBlockAtCharPosition
    rw [this]
  cases hr : findBlockAtCharPosition s.text s.blocks.len pos with
  | none =>
    left
    simp [Store.insertSimple, Store.locateSimple, hf, hr]
  | some r =>
    cases r with
    | none => right; rfl
    | some r =>
      left
      simp [Store.insertSimple, Store.locateSimple, hf, hr]

theorem rope_eq (h : Shows s d ps) : s.rope = docText ps := by
  have := h.text.text
  rw [paras_snd] at this
  exact this

theorem rope_length (h : Shows s d ps) : s.rope.length = docLen ps := by
  rw [rope_eq h, docText_chars, List.length_map, docChars_length]

/-- The nearest position inside the document. -/
def clampPos (ps : List SPara) (pos : Int) : Nat := (max 0 (min pos (docLen ps))).toNat

/-- Typing at a position (one outside the document counts as the nearest inside) succeeds, gives the
document of `typeAt` and returns the position after the new text.  Any arrangement of frames. -/
theorem C16_insert_text_nested (h : Shows s (countsOf d ps) ps) (hne : ps ≠ []) (pos : Int)
    (t : List Char) :
    ∃ s' u, s.insertText ⟨pos, pos, t⟩ = some (s', ⟨clampPos ps pos + t.length, 1⟩, u) ∧
      Shows s' (countsOf d (typeAt (clampPos ps pos) t ps)) (typeAt (clampPos ps pos) t ps) ∧
      SameShell s s' ∧ s'.counters = s.counters := by
  have hle : clampPos ps pos ≤ docLen ps := by unfold clampPos; omega
  have hcl : ((clampPos ps pos : Nat) : Int) = max 0 (min pos s.text.rope.length) := by
    have : s.text.rope = s.rope := rfl
    rw [this, rope_length h]; unfold clampPos; omega
  have hct := charTotal_typeAt t hne hle
  obtain ⟨L, p, R, a, b, e1, hc, e2⟩ := locate ps hne _ hle
  have h' := h
  rw [e1] at h'
  obtain ⟨s', e3, hs', hsh, hcn⟩ := h'.insertSimple (dto := ⟨clampPos ps pos, clampPos ps pos, t⟩) hc
    (by rw [e2])
  unfold Store.insertText
  rw [if_neg (by simp)]
  have heq : s.insertSimple ⟨pos, pos, t⟩ = s.insertSimple ⟨clampPos ps pos, clampPos ps pos, t⟩ := by
    rw [hcl]
    rcases insertSimple_clamp s t pos with h1 | h1
    · exact h1
    · exfalso
      have hf := h'.find hc
      have : findBlockAtCharPosition s.text s.blocks.len ((clampPos ps pos : Nat) : Int) =
          findBlockAtCharPosition s.text s.blocks.len pos := by
        rw [hcl]
        have : max (0 : Int) (min (max 0 (min pos s.text.rope.length)) s.text.rope.length) =
          max 0 (min pos s.text.rope.length) := by omega
        unfold findBlockAtCharPosition
        rw [this]
      rw [← e2, this, h1] at hf
      simp at hf
  rw [heq, e3]
  have e4 := typeAt_eq L R t hc
  rw [← e1, ← e2] at e4
  refine ⟨s', _, rfl, ?_, hsh, hcn⟩
  rw [← e4] at hs'
  have e5 : countsOf d (typeAt (clampPos ps pos) t ps) =
      { countsOf d (L ++ p :: R) with
        characterCount := (countsOf d (L ++ p :: R)).characterCount + t.length } := by
    rw [← e1]
    simp only [countsOf, hct]
    congr 1; omega
  rw [e5]; exact hs'

/-- The same for a document of one frame. -/
theorem C16_insert_text (h : Flat s (countsOf d ps) f ps) (pos : Int) (t : List Char) :
    ∃ s' u, s.insertText ⟨pos, pos, t⟩ = some (s', ⟨clampPos ps pos + t.length, 1⟩, u) ∧
      Flat s' (countsOf d (typeAt (clampPos ps pos) t ps)) f (typeAt (clampPos ps pos) t ps) := by
  obtain ⟨s', u, h1, h2, h3, h4⟩ := C16_insert_text_nested h.toShows h.nonempty pos t
  refine ⟨s', u, h1, h.of_shell h2 h3 h4 ?_ rfl rfl⟩
  have hle : clampPos ps pos ≤ docLen ps := by unfold clampPos; omega
  obtain ⟨L, p, R, a, b, e1, hc, e2⟩ := locate ps h.nonempty _ hle
  have e4 := typeAt_eq L R t hc
  rw [← e1, ← e2] at e4
  rw [e4, e1]; simp

example : ∃ (s s' : Store) (u : Store.InsertUndo), s.insertText ⟨1, 1, ['x']⟩ = some (s', ⟨2, 1⟩, u) ∧
    s'.rope = ['a', 'x', 'b', '\n', 'c', 'd'] := by
  obtain ⟨s, h1, _⟩ := sample_flat
  obtain ⟨s', u, e1, e2⟩ := C16_insert_text h1 1 ['x']
  refine ⟨s, s', u, ?_, by rw [rope_eq e2.toShows]; decide⟩
  rw [e1]; rfl

/-- `typeAt` is what the user expects: the characters before and after keep their formats, the new
ones get the format of the character before them (none at the start of a paragraph), and every
paragraph keeps its identity and its paragraph format. -/
theorem C16_characters (t : List Char) {pos : Nat} (hne : ps ≠ []) (h : pos ≤ docLen ps) :
    docChars (typeAt pos t ps) = (docChars ps).take pos ++
      styled t (inheritFmt ((docChars ps).take pos)) ++ (docChars ps).drop pos ∧
    (typeAt pos t ps).map (fun p => (p.id, p.shape)) = ps.map fun p => (p.id, p.shape) := by
  refine ⟨docChars_typeAt t hne h, ?_⟩
  obtain ⟨L, p, R, a, b, rfl, hc, rfl⟩ := locate ps hne pos h
  rw [typeAt_eq L R t hc]; simp

/-- The stored text is spliced and the counts move by the length of the text. -/
theorem C16_plain_text (h : Shows s (countsOf d ps) ps) (hne : ps ≠ []) (pos : Nat)
    (hp : pos ≤ docLen ps) (t : List Char) :
    ∃ s' u, s.insertText ⟨pos, pos, t⟩ = some (s', ⟨pos + t.length, 1⟩, u) ∧
      s'.rope = s.rope.take pos ++ t ++ s.rope.drop pos ∧
      s'.documents d.id = some { (countsOf d ps) with
        characterCount := d.characterCount + charTotal ps + t.length } := by
  have hcl : clampPos ps pos = pos := by unfold clampPos; omega
  obtain ⟨s', u, h1, h2, _⟩ := C16_insert_text_nested h hne pos t
  rw [hcl] at h1 h2
  refine ⟨s', u, h1, ?_, ?_⟩
  · rw [rope_eq h2, docText_chars, docChars_typeAt t hne hp, rope_eq h, docText_chars]
    simp [styled, Function.comp_def]
  · have := h2.document
    rw [show (countsOf d (typeAt pos t ps)).id = d.id from rfl] at this
    rw [this]
    obtain ⟨c1, c2⟩ := charTotal_typeAt t hne hp
    simp only [countsOf, c1, c2]
    congr 2
    omega

/-! ## C17 -/

theorem deletedText_within {L R : List SPara} {p : SPara} {a m b : List SChar} (hc : p.chars = a ++ m ++ b) :
    (((docChars (L ++ p :: R)).take (charsBefore (paras L) + (a.length + m.length))).drop
      (charsBefore (paras L) + a.length)) = m := by
  have e2 : p.chars = (a ++ m) ++ b := hc
  have t2 := take_docChars L R e2
  rw [List.length_append] at t2
  rw [t2, ← headChars_length, ← List.append_assoc, List.drop_left' (by simp)]

theorem deletedText_over {L M R : List SPara} {p1 p2 : SPara} {a1 b1 a2 b2 : List SChar}
    (hc1 : p1.chars = a1 ++ b1) (hc2 : p2.chars = a2 ++ b2) :
    (((docChars (L ++ p1 :: (M ++ p2 :: R))).take (charsBefore (paras (L ++ p1 :: M)) + a2.length)).drop
      (charsBefore (paras L) + a1.length)).map Prod.fst =
    b1.map Prod.fst ++ M.flatMap (fun q => '\n' :: q.text) ++ '\n' :: a2.map Prod.fst := by
  have e : L ++ p1 :: (M ++ p2 :: R) = (L ++ p1 :: M) ++ p2 :: R := by simp
  rw [e, take_docChars (L ++ p1 :: M) R hc2]
  have e2 : headChars (L ++ p1 :: M) ++ a2 =
      (headChars L ++ a1) ++ (b1 ++ ('\n', none) :: (headChars M ++ a2)) := by
    simp [headChars, hc1]
  rw [e2, ← headChars_length, List.drop_left' (by simp)]
  have e3 : ∀ M : List SPara, ('\n', none) :: (headChars M ++ a2) =
      (M.flatMap fun q => ('\n', none) :: q.chars) ++ ('\n', none) :: a2 := by
    intro M
    induction M with
    | nil => simp [headChars]
    | cons q M ih =>
      simp only [headChars, List.flatMap_cons, List.append_assoc, List.nil_append,
        List.cons_append] at ih ⊢
      rw [ih]
  rw [e3]
  simp [List.map_flatMap, SPara.text]

/-- Deleting between two positions of the document, given in either order, succeeds, gives the
document of `deleteBetween`, and returns the lower position and the removed text. -/
theorem C17_delete_text (h : Flat s (countsOf d ps) f ps) (x y lo hi : Nat) (hlo : lo = min x y)
    (hhi : hi = max x y) (hle : hi ≤ docLen ps) :
    ∃ s', s.deleteText x y = some (s', ⟨lo, ((docText ps).take hi).drop lo⟩, s.snapshot) ∧
      Flat s' (countsOf d (deleteBetween lo hi ps)) f (deleteBetween lo hi ps) ∧
      s'.counters = s.counters := by
  have hlh : lo ≤ hi := by omega
  have hmin : min (x : Int) (y : Int) = (lo : Nat) := by omega
  have hmax : max (x : Int) (y : Int) = (hi : Nat) := by omega
  have hdt : ((docText ps).take hi).drop lo = (((docChars ps).take hi).drop lo).map Prod.fst := by
    rw [docText_chars, List.map_drop, List.map_take]
  by_cases hxy : x = y
  · have e : lo = hi := by omega
    have hdel : deleteBetween lo hi ps = ps := by
      obtain ⟨L, p, R, a, b, rfl, hc, e2⟩ := locate ps h.nonempty lo (by omega)
      have := deleteBetween_within (m := []) (a := a) (b := b) L R (by simpa using hc)
      simp only [List.length_nil, Nat.add_zero, ← e2] at this
      rw [← e, this, ← hc]
    refine ⟨s, ?_, by rw [hdel]; exact h, rfl⟩
    unfold Store.deleteText
    rw [h.docId, Option.bind_some, if_pos (by omega)]
    have : ((docText ps).take hi).drop lo = [] := by
      rw [← e]; exact List.drop_of_length_le (by simp; omega)
    rw [this]
    have hx : (x : Int) = (lo : Int) := by omega
    rw [hx]
  · rcases locate_two ps h.nonempty lo hi hlh hle with
      ⟨L, p, R, a, m, b, e1, hc, e2, e3⟩ | ⟨L, p1, M, p2, R, a1, b1, a2, b2, e1, hc1, hc2, e2, e3⟩
    · have hm : m ≠ [] := by rintro rfl; simp at e3; omega
      have hdel := deleteBetween_within L R hc
      have hgone := deletedText_within (L := L) (R := R) hc
      rw [← e1, ← e2, ← e3] at hdel hgone
      have h' := h
      rw [e1] at h'
      obtain ⟨s', h1, h2, h3⟩ := h'.deleteWithin (position := x) (anchor := y) hc hm
        (by rw [hmin, e2]) (by rw [hmax, e3])
      refine ⟨s', ?_, ?_, h3⟩
      · rw [h1, hmin, hdt, hgone]
      · rw [hdel]
        have e5 : countsOf d (L ++ { p with chars := a ++ b } :: R) =
            { countsOf d (L ++ p :: R) with
              characterCount := (countsOf d (L ++ p :: R)).characterCount - m.length } := by
          simp only [countsOf, charTotal_append, charTotal_cons, hc, List.length_append, List.length_cons]
          congr 1; omega
        rw [e5]; exact h2
    · have hdel := deleteBetween_over L M R hc1 hc2
      have hgone := deletedText_over (L := L) (M := M) (R := R) hc1 hc2
      rw [← e1, ← e2, ← e3] at hdel hgone
      have h' := h
      rw [e1] at h'
      obtain ⟨s', h1, h2, h3⟩ := h'.deleteOver (position := x) (anchor := y) hc1 hc2
        (by rw [hmin, e2]) (by rw [hmax, e3])
      refine ⟨s', ?_, ?_, h3⟩
      · rw [h1, hmin, hdt, hgone]
      · rw [hdel]
        have e5 : countsOf d (L ++ { p1 with chars := a1 ++ b2 } :: R) =
            { countsOf d (L ++ p1 :: (M ++ p2 :: R)) with
              characterCount := (countsOf d (L ++ p1 :: (M ++ p2 :: R))).characterCount -
                ((b1.length : Int) + (M.map fun q => q.text.length).sum + a2.length)
              blockCount := (countsOf d (L ++ p1 :: (M ++ p2 :: R))).blockCount - (M.length + 1 : Nat) } := by
          have hM : (M.map fun q => q.text.length).sum = charTotal M := by simp [charTotal]
          rw [hM]
          simp only [countsOf, charTotal_append, charTotal_cons, hc1, hc2, List.length_append, List.length_cons]
          congr 1 <;> omega
        rw [e5]; exact h2

example : ∃ s s' : Store, s.deleteText 4 1 = some (s', ⟨1, ['b', '\n', 'c']⟩, s.snapshot) ∧ s'.rope = ['a', 'd'] := by
  obtain ⟨s, h1, _⟩ := sample_flat
  obtain ⟨s', e1, e2, _⟩ := C17_delete_text h1 4 1 1 4 rfl rfl (by decide)
  exact ⟨s, s', e1, by rw [rope_eq e2.toShows]; decide⟩

/-- `deleteBetween` is what the user expects: exactly the characters (and paragraph ends) between the
two positions disappear, and the others keep their formats. -/
theorem C17_characters {lo hi : Nat} (hne : ps ≠ []) (hlh : lo ≤ hi) (h : hi ≤ docLen ps) :
    docChars (deleteBetween lo hi ps) = (docChars ps).take lo ++ (docChars ps).drop hi :=
  docChars_deleteBetween hne hlh h

/-- The paragraphs: those before the one of `lo` and those after the one of `hi` stay, the paragraph
of `lo` keeps its identity and paragraph format, the ones between disappear. -/
theorem C17_paragraphs (L M R : List SPara) {p1 p2 : SPara} {a1 b1 a2 b2 : List SChar}
    (hc1 : p1.chars = a1 ++ b1) (hc2 : p2.chars = a2 ++ b2) :
    deleteBetween (charsBefore (paras L) + a1.length) (charsBefore (paras (L ++ p1 :: M)) + a2.length)
      (L ++ p1 :: (M ++ p2 :: R)) = L ++ { p1 with chars := a1 ++ b2 } :: R :=
  deleteBetween_over L M R hc1 hc2

/-- Nothing of a deleted paragraph is left behind: if every table of character formats and of images belonged to a
paragraph of the store before, it does after. -/
theorem C17_nothing_left (hs : Sole d.id f s) {x y : Int} {r} (e : s.deleteText x y = some r) (i : Nat) :
    ((r.1.formatRuns i).isSome → (r.1.blocks i).isSome) ∧ ((r.1.blockImages i).isSome → (r.1.blocks i).isSome) :=
  ⟨(hs.deleteText e).runs i, (hs.deleteText e).images i⟩

/-- Of a loaded text of two lines, the second one bold, the second line is deleted together with its table of formats. -/
example : ∃ (s : Store) (r : Store × Store.DeleteTextResult × Snapshot), Sole 1 2 s ∧ s.deleteText 4 1 = some r ∧
    (s.formatRuns 3).isSome = true ∧ (s.blocks 3).isSome = true ∧ (r.1.blocks 3).isSome = false := by
  obtain ⟨s, e1, e2, e3, _⟩ := newStore_flat
  obtain ⟨s1, e4, _, eS, _⟩ := e2.import e3 "ab\ncd".toList
  have e1' := e1
  cases e1'
  have e4' := e4
  cases e4'
  refine ⟨_, _, eS.editRuns (id := 3) (fun _ => [⟨0, 2, { fontBold := some true }⟩]) (by decide +kernel), rfl, by decide +kernel, by decide +kernel, by decide +kernel⟩

/-! ## C18 -/

/-- Pressing Enter at a position succeeds, gives the document of `splitPara` with a fresh identity
for the second half, and returns the position after the break. -/
theorem C18_insert_block (h : Flat s (countsOf d ps) f ps) (pos : Nat) (hp : pos ≤ docLen ps) :
    ∃ s' new, s.insertBlock pos = some (s', ⟨(pos + 1 : Nat), new⟩, s.snapshot) ∧
      Flat s' (countsOf d (splitPara pos new ps)) f (splitPara pos new ps) ∧
      new ∉ ps.map SPara.id ∧ new = s.next "block" ∧ s'.next "block" = new + 1 := by
  have hct := charTotal_splitPara (s.next "block") h.nonempty hp
  obtain ⟨L, p, R, a, b, e1, hc, e2⟩ := locate ps h.nonempty pos hp
  have h' := h
  rw [e1] at h'
  obtain ⟨s', h1, h2, h3⟩ := h'.insertBlock hc
  have e4 := splitPara_eq L R (s.next "block") hc
  rw [← e1, ← e2] at e4
  rw [← e2] at h1
  refine ⟨s', s.next "block", h1, ?_, ?_, rfl, ?_⟩
  · rw [e4]
    have e5 : countsOf d (L ++ { p with chars := a } :: ⟨s.next "block", b, p.shape⟩ :: R) =
        { countsOf d (L ++ p :: R) with
          blockCount := (countsOf d (L ++ p :: R)).blockCount + 1 } := by
      simp only [countsOf, charTotal_append, charTotal_cons, hc, List.length_append, List.length_cons]
      congr 1 <;> omega
    rw [e5]; exact h2
  · intro hm
    obtain ⟨q, hq, e⟩ := List.mem_map.mp hm
    have := h.fresh q hq
    omega
  · simp [Store.next, h3, Store.nextId]

example : ∃ (s s' : Store) (new : Nat), s.insertBlock 1 = some (s', ⟨2, new⟩, s.snapshot) ∧
    s'.rope = ['a', '\n', 'b', '\n', 'c', 'd'] := by
  obtain ⟨s, h1, _⟩ := sample_flat
  obtain ⟨s', new, e1, e2, _⟩ := C18_insert_block h1 1 (by decide)
  exact ⟨s, s', new, e1, by rw [rope_eq e2.toShows]; rfl⟩

/-- `splitPara` is what the user expects: one paragraph end more, every character keeps its format. -/
theorem C18_characters (new : Nat) {pos : Nat} (hne : ps ≠ []) (h : pos ≤ docLen ps) :
    docChars (splitPara pos new ps) = (docChars ps).take pos ++ ('\n', none) :: (docChars ps).drop pos ∧
    charTotal (splitPara pos new ps) = charTotal ps ∧ (splitPara pos new ps).length = ps.length + 1 :=
  ⟨docChars_splitPara new hne h, charTotal_splitPara new hne h⟩

/-- The new paragraph has the paragraph format of the one it was split from; the others are as
before. -/
theorem C18_paragraphs (L R : List SPara) (new : Nat) {p : SPara} {a b : List SChar} (hc : p.chars = a ++ b) :
    splitPara (charsBefore (paras L) + a.length) new (L ++ p :: R) =
      L ++ { p with chars := a } :: ⟨new, b, p.shape⟩ :: R :=
  splitPara_eq L R new hc

/-! ## C19 -/

/-- Typing over a selection inside one paragraph: the document is that of deleting the selection
and then typing, and the caret is after the new text. -/
theorem C19_same_paragraph (h : Flat s (countsOf d ps) f ps) (x y lo hi : Nat) (t : List Char)
    (hlo : lo = min x y) (hhi : hi = max x y) (hxy : x ≠ y)
    (L R : List SPara) (p : SPara) (hps : ps = L ++ p :: R) (h1 : charsBefore (paras L) ≤ lo)
    (h2 : hi ≤ charsBefore (paras L) + p.chars.length) :
    ∃ s' u, s.insertText ⟨x, y, t⟩ = some (s', ⟨(lo + t.length : Nat), 1⟩, u) ∧
      Flat s' (countsOf d (typeAt lo t (deleteBetween lo hi ps))) f
        (typeAt lo t (deleteBetween lo hi ps)) := by
  subst hps
  have hmin : min (x : Int) (y : Int) = (lo : Nat) := by omega
  have hmax : max (x : Int) (y : Int) = (hi : Nat) := by omega
  obtain ⟨a, m, b, hc, e2, e3⟩ : ∃ a m b, p.chars = a ++ m ++ b ∧
      lo = charsBefore (paras L) + a.length ∧ hi = charsBefore (paras L) + (a.length + m.length) := by
    refine ⟨p.chars.take (lo - charsBefore (paras L)),
      (p.chars.take (hi - charsBefore (paras L))).drop (lo - charsBefore (paras L)),
      p.chars.drop (hi - charsBefore (paras L)), ?_, ?_, ?_⟩
    · have : p.chars.take (lo - charsBefore (paras L)) =
          (p.chars.take (hi - charsBefore (paras L))).take (lo - charsBefore (paras L)) := by
        rw [List.take_take, Nat.min_eq_left (by omega)]
      rw [this, List.take_append_drop, List.take_append_drop]
    · simp; omega
    · simp; omega
  obtain ⟨s', e4, hs', _, _⟩ := h.insertWithSelection (dto := ⟨x, y, t⟩) hc
    (by rw [hmin, e2]) (by rw [hmax, e3])
  refine ⟨s', .selection s.snapshot, ?_, ?_⟩
  · unfold Store.insertText
    rw [if_pos (by simp; omega), e4]
    simp [hmin]
  · have hdel := deleteBetween_within L R hc
    rw [← e2, ← e3] at hdel
    have hty := typeAt_eq (p := { p with chars := a ++ b }) (a := a) (b := b) L R t rfl
    rw [← e2] at hty
    rw [hdel, hty]
    have e5 : countsOf d (L ++ { p with chars := a ++ styled t (inheritFmt a) ++ b } :: R) =
        { countsOf d (L ++ p :: R) with
          characterCount := (countsOf d (L ++ p :: R)).characterCount - m.length + t.length } := by
      simp only [countsOf, charTotal_append, charTotal_cons, hc, List.length_append, List.length_cons,
        styled, List.length_map]
      congr 1; omega
    rw [e5]; exact hs'

example : ∃ (s s' : Store) (u : Store.InsertUndo), s.insertText ⟨5, 3, ['x']⟩ = some (s', ⟨4, 1⟩, u) ∧ s'.rope = ['a', 'b', '\n', 'x'] := by
  obtain ⟨s, h1, _⟩ := sample_flat
  obtain ⟨s', u, e1, e2⟩ := C19_same_paragraph h1 5 3 3 5 ['x'] rfl rfl (by decide)
    [plainPara 2 ['a', 'b']] [] (plainPara 3 ['c', 'd']) rfl (by decide) (by decide)
  exact ⟨s, s', u, e1, by rw [rope_eq e2.toShows]; rfl⟩

end Verif
