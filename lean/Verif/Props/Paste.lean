import Verif.Lemmas.PasteOne
import Verif.Lemmas.FormattingUndo
import Verif.Props.Store
import Verif.Props.PlainText
import Verif.Props.ListCommands
import Verif.Model.Editing
/-
C64: what pasting a fragment does to a document.
-/
namespace Verif
variable {s : Store} {d : Document} {f : Nat} {ps L R : List SPara} {p : SPara} {a b : List SChar}
open Store

/-- **C64.** Pasting one paragraph of text without paragraph formatting puts its characters, with their formats, at
the caret: no paragraph is added, all paragraphs keep their formats, the caret ends up behind the text, and the
characters are counted.  Full statement: without the hypothesis that stored positions are right, with images. -/
theorem C64_inline_partial {fb : FragBlock} (h : Flat s d f (L ++ p :: R)) (hp : Placed s (L ++ p :: R))
    (hl : ListsOk s d (L ++ p :: R)) (hc : p.chars = a ++ b) (htx : fb.IsText) (hin : fb.inlineOnly = true) (pos : Nat)
    (hpos : pos = charsBefore (paras L) + a.length) :
    ∃ s', s.insertFragment pos pos [fb] = some (s', ⟨pos + fb.chars.length, 0⟩, s.snapshot) ∧
      Flat s' { d with characterCount := d.characterCount + fb.chars.length } f (L ++ { p with chars := a ++ fb.chars ++ b } :: R) ∧
      Placed s' (L ++ { p with chars := a ++ fb.chars ++ b } :: R) ∧
      docChars (L ++ { p with chars := a ++ fb.chars ++ b } :: R) =
        (docChars (L ++ p :: R)).take pos ++ fb.chars ++ (docChars (L ++ p :: R)).drop pos := by
  obtain ⟨fr, hf, _⟩ := h.frame
  obtain ⟨s', e1, e2, _, e3⟩ := h.pasteInline hp hl hf hc htx pos
  refine ⟨s', ?_, e2, e3, ?_⟩
  · subst hpos
    rw [h.insertFragment_eq hp hf hc [fb] (by simp)]
    have : s.pasteFragment (pasteAt s d f fr L p R a b) ((charsBefore (paras L) + a.length : Nat) : Int) [fb] =
      if fb.inlineOnly then s.pasteInline (pasteAt s d f fr L p R a b) ((charsBefore (paras L) + a.length : Nat) : Int) fb
      else if (pasteAt s d f fr L p R a b).before = [] then s.pasteOver (pasteAt s d f fr L p R a b) fb
      else s.pasteBetween (pasteAt s d f fr L p R a b) fb := rfl
    rw [this, if_pos hin, e1]; rfl
  · subst hpos
    rw [take_docChars L R hc, drop_docChars L R hc, docChars_mid]
    simp

theorem fragChars_cons (fb : FragBlock) (fbs : List FragBlock) :
    fragChars (fb :: fbs) = fb.chars ++ fbs.flatMap fun x => ('\n', none) :: x.chars := by
  induction fbs generalizing fb with
  | nil => simp [fragChars]
  | cons x fbs ih => simp [fragChars, ih]

theorem tailChars_append (A B : List SPara) : tailChars (A ++ B) = tailChars A ++ tailChars B := by
  simp [tailChars]

theorem PastedAs.tailChars {fbs : List FragBlock} {qs : List SPara} (h : PastedAs s fbs qs) :
    tailChars qs = fbs.flatMap fun x => ('\n', none) :: x.chars := by
  induction fbs generalizing qs with
  | nil => cases qs with
    | nil => rfl
    | cons q qs => exact h.elim
  | cons fb fbs ih => cases qs with
    | nil => exact h.elim
    | cons q qs =>
      have := ih h.2
      simp only [Verif.tailChars, List.flatMap_cons] at this ⊢
      rw [this, h.1.chars]

theorem docLen_mid (L : List SPara) (p : SPara) (R : List SPara) :
    docLen (L ++ p :: R) + 1 = charsBefore (paras (L ++ p :: R)) := by
  have key : ∀ qs : List SPara, qs ≠ [] → docLen qs + 1 = charsBefore (paras qs) := by
    intro qs
    induction qs with
    | nil => intro h; exact absurd rfl h
    | cons q qs ih =>
      intro _
      by_cases hn : qs = []
      · subst hn; simp [docLen, charsBefore_paras_cons]
      · rw [docLen_cons q hn, charsBefore_paras_cons, ← ih hn]; omega
  exact key _ (by simp)

/-- **C64.** Pasting two or more paragraphs of text: a first paragraph without paragraph formatting joins the text
before the caret, a last one the text behind it; every other paragraph of the fragment becomes a paragraph with its
text, formats and a list of the style and indent asked for (`PastedMany`).  The paragraphs added are counted, the
caret ends up before the text that was behind it, and stored positions are right.  The character count is
right if the first paragraph starts a paragraph of its own; otherwise the text behind the caret is taken off
(`C64_count_fails`).  Items join lists by C44's rule, beginning with the list of the caret's paragraph (`SharedMany`).
Full statement: without the hypothesis that stored positions are right, with images and tables. -/
theorem C64_many_partial {first last : FragBlock} {mid : List FragBlock} (h : Flat s d f (L ++ p :: R))
    (hp : Placed s (L ++ p :: R)) (hl : ListsOk s d (L ++ p :: R)) (hc : p.chars = a ++ b)
    (htx : ∀ fb ∈ first :: (mid ++ [last]), fb.IsText) (pos : Nat) (hpos : pos = charsBefore (paras L) + a.length) :
    ∃ s' ls hd new tl, s.insertFragment pos pos (first :: (mid ++ [last])) =
        some (s', ⟨pos + (docLen (L ++ hd :: (new ++ tl ++ R)) - docLen (L ++ p :: R)), new.length + tl.length⟩, s.snapshot) ∧
      PastedMany s' first mid last p a b hd new tl ∧
      Flat s' { d with
        lists := ls
        blockCount := d.blockCount + (new.length + tl.length)
        characterCount := d.characterCount + (((first :: (mid ++ [last])).map fun fb => fb.chars.length).sum : Nat) -
          (if first.inlineOnly = false ∧ a ≠ [] then 0 else (b.length : Int)) } f (L ++ hd :: (new ++ tl ++ R)) ∧
      Placed s' (L ++ hd :: (new ++ tl ++ R)) ∧
      ListsOk s' { d with lists := ls } (L ++ hd :: (new ++ tl ++ R)) ∧
      docChars (L ++ hd :: (new ++ tl ++ R)) = (docChars (L ++ p :: R)).take pos ++
        (if first.inlineOnly = false ∧ a ≠ [] then [('\n', none)] else []) ++ fragChars (first :: (mid ++ [last])) ++
        (if last.inlineOnly = false ∧ b ≠ [] then [('\n', none)] else []) ++ (docChars (L ++ p :: R)).drop pos ∧
      SharedMany s d.lists first mid last p a hd new := by
  obtain ⟨fr, hf, _⟩ := h.frame
  obtain ⟨s', ls, hd, qs, tl, e1, e2, e3, e4, e5, e6⟩ := h.pasteMany hp hl hf hc htx
  refine ⟨s', ls, hd, qs, tl, ?_, e5, ?_, e3, ⟨e4.known, e4.only, e4.items, e4.nodup, e4.fresh⟩, ?_, e6⟩
  · subst hpos
    rw [h.insertFragment_eq hp hf hc _ (by simp), pasteFragment_many, e1, Option.map_some]
    have h1 := docLen_mid L p R
    have h2 := docLen_mid L hd (qs ++ tl ++ R)
    have h3 : charsBefore (paras (L ++ p :: R)) = charsBefore (paras L) + (a.length + b.length + 1) + charsBefore (paras R) := by
      rw [charsBefore_paras_two, charsBefore_paras_cons, hc]; simp; omega
    have h4 : charsBefore (paras (L ++ hd :: (qs ++ tl ++ R))) = charsBefore (paras (L ++ hd :: (qs ++ tl))) + charsBefore (paras R) := by
      have : L ++ hd :: (qs ++ tl ++ R) = (L ++ hd :: (qs ++ tl)) ++ R := by simp
      rw [this, charsBefore_paras_two]
    have h5 : (charsBefore (paras (L ++ hd :: (qs ++ tl))) : Int) - (b.length + 1) =
        ((charsBefore (paras L) + a.length : Nat) : Int) + ((docLen (L ++ hd :: (qs ++ tl ++ R)) : Int) - docLen (L ++ p :: R)) := by
      push_cast; omega
    rw [h5]
  · have : d.characterCount + (((first :: (mid ++ [last])).map fun fb => fb.chars.length).sum : Nat) -
        (if first.inlineOnly = false ∧ a ≠ [] then 0 else (b.length : Int)) = d.characterCount + countedMany first last mid a b := by
      unfold countedMany; omega
    rw [this]; exact e2
  · subst hpos
    rw [take_docChars L R hc, drop_docChars L R hc, docChars_mid, tailChars_append, tailChars_append, e5.new.tailChars, fragChars_cons]
    obtain ⟨shape, _, t1, t2, t3⟩ := e5.tail
    have hh : hd.chars ++ ((if first.inlineOnly = false ∧ a ≠ [] then [first] else []).flatMap fun x => ('\n', none) :: x.chars) =
        a ++ (if first.inlineOnly = false ∧ a ≠ [] then [('\n', none)] else []) ++ first.chars := by
      cases hi : first.inlineOnly with
      | true => rw [e5.joined hi]; simp
      | false =>
        by_cases ha : a = []
        · rw [(e5.replaced hi ha).chars]; simp [ha]
        · rw [e5.kept hi ha]; simp [ha]
    have ht : ((if last.inlineOnly = true then [] else [last]).flatMap fun x => ('\n', none) :: x.chars) ++ tailChars tl =
        ('\n', none) :: last.chars ++ (if last.inlineOnly = false ∧ b ≠ [] then [('\n', none)] else []) ++ b := by
      cases hi : last.inlineOnly with
      | true =>
        obtain ⟨n, hn⟩ := t1 hi
        rw [hn]; simp [tailChars]
      | false =>
        by_cases hb : b = []
        · rw [t2 hi hb]; simp [hb, tailChars]
        · obtain ⟨n, hn⟩ := t3 hi hb
          rw [hn]; simp [hb, tailChars]
    have key : ∀ (hL c Y1 M Y2 T TR a x1 fc x2 b F : List SChar), c ++ Y1 = a ++ x1 ++ fc → Y2 ++ T = F ++ x2 ++ b →
        hL ++ (c ++ (Y1 ++ M ++ Y2 ++ T ++ TR)) = hL ++ a ++ x1 ++ (fc ++ (M ++ F)) ++ x2 ++ (b ++ TR) := by
      intro hL c Y1 M Y2 T TR a x1 fc x2 b F h1 h2
      have : c ++ (Y1 ++ M ++ Y2 ++ T ++ TR) = (c ++ Y1) ++ M ++ (Y2 ++ T) ++ TR := by simp
      rw [this, h1, h2]; simp
    rw [List.flatMap_append, List.flatMap_append, List.flatMap_append]
    have hF : ([last].flatMap fun x => (('\n', none) : SChar) :: x.chars) = ('\n', none) :: last.chars := by simp
    rw [hF]
    exact key _ _ _ _ _ _ _ _ _ _ _ _ _ hh ht

/-- **C64.** Pasting one paragraph of text with paragraph formatting at the start of a paragraph: the paragraph is
replaced by it, and the text behind the caret becomes a new paragraph without formatting.  The count of characters
misses the text behind the caret, and stored positions are right only if there is none (`C64_over_fails`). -/
theorem C64_over_partial {fb : FragBlock} (h : Flat s d f (L ++ p :: R)) (hp : Placed s (L ++ p :: R))
    (hl : ListsOk s d (L ++ p :: R)) (htx : fb.IsText) (hin : fb.inlineOnly = false) (pos : Nat)
    (hpos : pos = charsBefore (paras L)) :
    ∃ s' ls hd tl, s.insertFragment pos pos [fb] = some (s', ⟨pos + fb.chars.length, tl.length⟩, s.snapshot) ∧
      Flat s' { d with
        lists := ls
        blockCount := d.blockCount + tl.length
        characterCount := d.characterCount + (fb.chars.length - p.chars.length) } f (L ++ hd :: (tl ++ R)) ∧
      hd.id = p.id ∧ PastedOne s' fb hd ∧ (p.chars = [] → tl = []) ∧ (p.chars ≠ [] → ∃ n, tl = [⟨n, p.chars, {}⟩]) ∧
      (p.chars = [] → Placed s' (L ++ hd :: (tl ++ R))) := by
  obtain ⟨fr, hf, _⟩ := h.frame
  obtain ⟨s', ls, hd, tl, e1, e2, e3, e4, e5, e6, e7, e8⟩ := h.pasteOver (b := p.chars) hp hl hf rfl htx
  refine ⟨s', ls, hd, tl, ?_, e2, e5, e6, e7, e8, e4⟩
  have := h.insertFragment_eq (a := []) (b := p.chars) hp hf rfl [fb] (by simp)
  simp only [List.length_nil, Nat.add_zero] at this
  rw [hpos, this]
  have : s.pasteFragment (pasteAt s d f fr L p R [] p.chars) ((charsBefore (paras L) : Nat) : Int) [fb] =
    if fb.inlineOnly then s.pasteInline (pasteAt s d f fr L p R [] p.chars) ((charsBefore (paras L) : Nat) : Int) fb
    else if (pasteAt s d f fr L p R [] p.chars).before = [] then s.pasteOver (pasteAt s d f fr L p R [] p.chars) fb
    else s.pasteBetween (pasteAt s d f fr L p R [] p.chars) fb := rfl
  rw [this, if_neg (by rw [hin]; simp), if_pos (show (pasteAt s d f fr L p R [] p.chars).before = [] from rfl), e1]; rfl

/-- **C64.** Pasting one paragraph of text with paragraph formatting behind other text: the paragraph is split at the
caret and the fragment becomes a paragraph between the halves, which keep the format of the paragraph.  Two
paragraphs and the characters of the fragment are counted.  The caret and the stored positions are right only if
there is no text behind the caret, and one added paragraph is reported (`C64_between_fails`). -/
theorem C64_between_partial {fb : FragBlock} (h : Flat s d f (L ++ p :: R)) (hp : Placed s (L ++ p :: R))
    (hl : ListsOk s d (L ++ p :: R)) (hc : p.chars = a ++ b) (ha : a ≠ []) (htx : fb.IsText) (hin : fb.inlineOnly = false)
    (pos : Nat) (hpos : pos = charsBefore (paras L) + a.length) :
    ∃ s' ls q n, s.insertFragment pos pos [fb] = some (s', ⟨pos + b.length + 1 + fb.chars.length + 1, 1⟩, s.snapshot) ∧
      Flat s' { d with
        lists := ls
        blockCount := d.blockCount + 2
        characterCount := d.characterCount + fb.chars.length } f (L ++ { p with chars := a } :: q :: ⟨n, b, p.shape⟩ :: R) ∧
      PastedOne s' fb q ∧
      docChars (L ++ { p with chars := a } :: q :: ⟨n, b, p.shape⟩ :: R) = (docChars (L ++ p :: R)).take pos ++
        ('\n', none) :: fb.chars ++ ('\n', none) :: (docChars (L ++ p :: R)).drop pos ∧
      (b = [] → Placed s' (L ++ { p with chars := a } :: q :: ⟨n, b, p.shape⟩ :: R)) := by
  obtain ⟨fr, hf, _⟩ := h.frame
  obtain ⟨s', ls, q, n, e1, e2, e3, e4, e5⟩ := h.pasteBetween hp hl hf hc htx
  refine ⟨s', ls, q, n, ?_, e2, e4, ?_, e5⟩
  · subst hpos
    rw [h.insertFragment_eq hp hf hc [fb] (by simp)]
    have : s.pasteFragment (pasteAt s d f fr L p R a b) ((charsBefore (paras L) + a.length : Nat) : Int) [fb] =
      if fb.inlineOnly then s.pasteInline (pasteAt s d f fr L p R a b) ((charsBefore (paras L) + a.length : Nat) : Int) fb
      else if (pasteAt s d f fr L p R a b).before = [] then s.pasteOver (pasteAt s d f fr L p R a b) fb
      else s.pasteBetween (pasteAt s d f fr L p R a b) fb := rfl
    rw [this, if_neg (by rw [hin]; simp), if_neg (by show ¬ a.map Prod.fst = []; simpa using ha), e1, Option.map_some]
    have h5 : (charsBefore (paras L) : Int) + p.chars.length + 1 + fb.chars.length + 1 =
        ((charsBefore (paras L) + a.length : Nat) : Int) + b.length + 1 + fb.chars.length + 1 := by
      rw [hc]; simp; omega
    rw [h5]
  · subst hpos
    rw [take_docChars L R hc, drop_docChars L R hc, docChars_mid]
    simp only [tailChars, List.flatMap_cons, e4.chars]
    simp

/-- **C64.** Undo gives back exactly the document of before, whatever was pasted and whatever happened in between. -/
theorem C64_undo_partial (h : Flat s d f ps) {pos anchor : Int} {fbs : List FragBlock} {s' : Store} {r : PasteResult} {snap : Snapshot}
    (e : s.insertFragment pos anchor fbs = some (s', r, snap)) (w : Store) (hn : s.next "block" ≤ w.next "block") :
    SameContent (w.undoPaste snap) s ∧ Flat (w.undoPaste snap) d f ps := by
  have hs : snap = s.snapshot := by
    unfold Store.insertFragment at e
    split at e
    · cases e
    · simp only [Option.bind_eq_some_iff] at e
      obtain ⟨_, _, _, _, e⟩ := e
      split at e
      · cases e
      · simp only [Option.bind_eq_some_iff, Option.map_eq_some_iff] at e
        obtain ⟨_, _, _, _, _, _, _, _, _, _, _, _, _, _, _, _, e⟩ := e
        simp only [Prod.mk.injEq] at e
        exact e.2.2.symm
  subst hs
  have hsame : SameContent (w.undoPaste s.snapshot) s := (C27_undo_snapshot s w).1
  exact ⟨hsame, h.same_content hsame hn⟩

/-- An empty fragment, or one pasted over a selection that was not removed first, is refused in every document. -/
theorem C64_refused (s : Store) (pos anchor : Int) (fbs : List FragBlock) (h : fbs = [] ∨ pos ≠ anchor) :
    s.insertFragment pos anchor fbs = none := by
  unfold Store.insertFragment
  by_cases h1 : fbs = []
  · rw [if_pos h1]
  · rw [if_neg h1]
    cases s.docId with
    | none => rfl
    | some i =>
      simp only [Option.bind_some]
      cases s.documents i with
      | none => rfl
      | some d =>
        simp only [Option.bind_some]
        rw [if_pos (h.resolve_left h1)]

/-- A freshly loaded text of three lines meets the hypotheses, with the caret inside the second line; pasting two
plain paragraphs there can be run. -/
example : ∃ (s : Store) (d : Document) (f : Nat) (L R : List SPara) (p : SPara) (a b : List SChar) (s' : Store) (r : PasteResult) (u : Snapshot),
    Flat s d f (L ++ p :: R) ∧ Placed s (L ++ p :: R) ∧ ListsOk s d (L ++ p :: R) ∧ p.chars = a ++ b ∧ a ≠ [] ∧ b ≠ [] ∧ R ≠ [] ∧
    (4 : Nat) = charsBefore (paras L) + a.length ∧
    s.insertFragment 4 4 [⟨"X".toList, [.text "X".toList {}], {}, none⟩, ⟨"Y".toList, [.text "Y".toList {}], {}, none⟩] = some (s', r, u) ∧
    s'.exportPlainText = some "ab\ncX\nYd\nef".toList := by
  obtain ⟨s, e1, e2, e3, _⟩ := newStore_flat
  obtain ⟨s1, e4, e5, eS, e6⟩ := e2.import e3 "ab\ncd\nef".toList
  have e : (Store.newStore.bind fun s => s.importPlainText "ab\ncd\nef".toList) = some s1 := by
    rw [e1, Option.bind_some, e4]
  have hls : (∀ l, s1.lists l = none) ∧ s1.next "list" = 1 ∧ (s1.documents 1).map Document.lists = some [] := by
    have e' := e
    cases e'
    exact ⟨fun l => rfl, rfl, rfl⟩
  have hk : ((Store.newStore.bind fun s => s.importPlainText "ab\ncd\nef".toList).bind fun s =>
      (s.insertFragment 4 4 [⟨"X".toList, [.text "X".toList {}], {}, none⟩, ⟨"Y".toList, [.text "Y".toList {}], {}, none⟩]).map fun r =>
        r.1.exportPlainText) = some (some "ab\ncX\nYd\nef".toList) := by decide +kernel
  rw [e, Option.bind_some] at hk
  obtain ⟨⟨s', r, u⟩, h1, h2⟩ := Option.map_eq_some_iff.mp hk
  have hd := e5.document
  have hlists : ∀ v, s1.documents 1 = some v → v.lists = [] := by
    intro v hv
    have := hls.2.2
    rw [hv] at this; simpa using this
  have hn : s.next "block" = 2 := by cases e1; rfl
  have hlines : linesFrom (s.next "block") (splitLines (unixText "ab\ncd\nef".toList)) =
      [⟨2, [('a', none), ('b', none)], {}⟩] ++ ⟨3, [('c', none), ('d', none)], {}⟩ :: [⟨4, [('e', none), ('f', none)], {}⟩] := by
    rw [hn]; decide +kernel
  rw [hlines] at e5 e6 hd
  refine ⟨s1, _, _, [⟨2, [('a', none), ('b', none)], {}⟩], [⟨4, [('e', none), ('f', none)], {}⟩], ⟨3, [('c', none), ('d', none)], {}⟩,
    [('c', none)], [('d', none)], s', r, u, e5, e6, ⟨?_, ?_, ?_, ?_, ?_⟩, rfl, by simp, by simp, by simp, rfl, h1, h2⟩
  · intro l hl; rw [hlists _ hd] at hl; cases hl
  · intro l hl; rw [hls.1] at hl; cases hl
  · intro p hp l hpl
    simp only [List.cons_append, List.nil_append, List.mem_cons, List.not_mem_nil, or_false] at hp
    rcases hp with rfl | rfl | rfl <;> cases hpl
  · rw [hlists _ hd]; exact .nil
  · intro l hl; rw [hls.1] at hl; cases hl

/-- Paragraphs of text, without and with paragraph formatting. -/
example : (⟨"X".toList, [.text "X".toList {}], {}, none⟩ : FragBlock).IsText ∧
    (⟨"X".toList, [.text "X".toList {}], {}, none⟩ : FragBlock).inlineOnly = true ∧
    (⟨"X".toList, [.text "X".toList {}], { fmtHeadingLevel := some 1 }, none⟩ : FragBlock).IsText ∧
    (⟨"X".toList, [.text "X".toList {}], { fmtHeadingLevel := some 1 }, none⟩ : FragBlock).inlineOnly = false :=
  ⟨⟨by simp, rfl⟩, rfl, ⟨by simp, rfl⟩, rfl⟩

/-- The count of characters is wrong after pasting two plain paragraphs into a paragraph: the text behind the caret
is taken off. -/
theorem C64_count_fails : ∃ s s' : Store, ∃ r u,
    (Store.newStore.bind fun s => s.importPlainText "abc\ndef\nghi".toList) = some s ∧
    s.insertFragment 5 5 [⟨"X".toList, [.text "X".toList {}], {}, none⟩, ⟨"Y".toList, [.text "Y".toList {}], {}, none⟩] = some (s', r, u) ∧
    (s.documents 1).map Document.characterCount = some 9 ∧
    s'.exportPlainText = some "abc\ndX\nYef\nghi".toList ∧ (s'.documents 1).map Document.characterCount = some 9 := by
  refine ⟨_, _, _, _, rfl, rfl, ?_⟩ <;> decide +kernel

/-- Pasting a heading into a paragraph: two paragraphs are added and one is reported, the caret ends up one paragraph
too far, and the stored position of the heading is not where it is. -/
theorem C64_between_fails : ∃ s s' : Store, ∃ r u,
    (Store.newStore.bind fun s => s.importPlainText "abc\ndef\nghi".toList) = some s ∧
    s.insertFragment 5 5 [⟨"X".toList, [.text "X".toList {}], { fmtHeadingLevel := some 1 }, none⟩] = some (s', r, u) ∧
    s'.exportPlainText = some "abc\nd\nX\nef\nghi".toList ∧ (s'.documents 1).map Document.blockCount = some 5 ∧
    r.blocksAdded = 1 ∧ r.newPosition = 10 ∧ (s'.blocks 5).map Block.documentPosition = some 8 := by
  refine ⟨_, _, _, _, rfl, rfl, ?_⟩ <;> decide +kernel

/-- Pasting a heading at the start of a paragraph: the rest of the paragraph is not counted, and the stored position
of the paragraph after it is not where it is. -/
theorem C64_over_fails : ∃ s s' : Store, ∃ r u,
    (Store.newStore.bind fun s => s.importPlainText "abc\ndef\nghi".toList) = some s ∧
    s.insertFragment 4 4 [⟨"X".toList, [.text "X".toList {}], { fmtHeadingLevel := some 1 }, none⟩] = some (s', r, u) ∧
    s'.exportPlainText = some "abc\nX\ndef\nghi".toList ∧ (s'.documents 1).map Document.characterCount = some 7 ∧
    (s'.blocks 4).map Block.documentPosition = some 7 := by
  refine ⟨_, _, _, _, rfl, rfl, ?_⟩ <;> decide +kernel

/-- Two pasted items whose lists differ only in what stands before the number end up in one list. -/
theorem C64_prefix_fails : ∃ s s' : Store, ∃ r u,
    (Store.newStore.bind fun s => s.importPlainText "abc".toList) = some s ∧
    s.insertFragment 3 3 [⟨"X".toList, [.text "X".toList {}], {}, some ⟨.decimal, 0, "(", ")"⟩⟩,
      ⟨"Y".toList, [.text "Y".toList {}], {}, some ⟨.decimal, 0, "[", "]"⟩⟩] = some (s', r, u) ∧
    s'.exportPlainText = some "abc\nX\nY".toList ∧
    (s'.blocks 3).map Block.list = some (some 1) ∧ (s'.blocks 4).map Block.list = some (some 1) ∧
    (s'.lists 1).map TList.pre = some "(" := by
  refine ⟨_, _, _, _, rfl, rfl, ?_⟩ <;> decide +kernel

end Verif
