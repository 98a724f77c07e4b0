import Verif.Lemmas.InsertRuns
/-
C95 and C96: what inserting Markdown or HTML at a position does to a document, once it is parsed.
-/
namespace Verif
variable {s : Store} {d : Document} {f : Nat} {ps L R : List SPara} {p : SPara} {a b : List SChar}
open Store

theorem insertMarkup_one (html : Bool) (h : Flat s d f (L ++ p :: R)) (hp : Placed s (L ++ p :: R))
    (hl : ListsOk s d (L ++ p :: R)) (hc : p.chars = a ++ b) {es : List ParsedElement} {x : ParsedBlock}
    (hes : blocksOf es = [x]) (hx : textual x = true) (pos : Nat) (hpos : pos = charsBefore (paras L) + a.length) :
    ∃ s', s.insertMarkup html pos pos es = some (s', ⟨pos + x.chars.length, 0⟩, s.snapshot) ∧
      Flat s' { d with characterCount := d.characterCount + x.chars.length } f (L ++ { p with chars := a ++ x.chars ++ b } :: R) ∧
      Placed s' (L ++ { p with chars := a ++ x.chars ++ b } :: R) ∧
      docChars (L ++ { p with chars := a ++ x.chars ++ b } :: R) =
        (docChars (L ++ p :: R)).take pos ++ x.chars ++ (docChars (L ++ p :: R)).drop pos := by
  obtain ⟨fr, hf, _⟩ := h.frame
  obtain ⟨s', e1, e2, _, e3⟩ := h.insertInline (x := x) hp hl hf hc pos
  refine ⟨s', ?_, e2, e3, ?_⟩
  · subst hpos
    rw [h.insertMarkup_eq html hp hf hc es, hes, insertParsed_single, if_pos hx, e1]; rfl
  · subst hpos
    rw [take_docChars L R hc, drop_docChars L R hc, docChars_mid]
    simp

/-- **C95.** Inserting Markdown that is one block of text without paragraph formatting puts its characters, with their
formats, at the caret; nothing else changes, the caret ends up behind them, and they are counted.  Full
statement: without the hypothesis that stored positions are right, with images and with tables in the document. -/
theorem C95_inline_partial (h : Flat s d f (L ++ p :: R)) (hp : Placed s (L ++ p :: R))
    (hl : ListsOk s d (L ++ p :: R)) (hc : p.chars = a ++ b) {es : List ParsedElement} {x : ParsedBlock}
    (hes : blocksOf es = [x]) (hx : textual x = true) (pos : Nat) (hpos : pos = charsBefore (paras L) + a.length) :
    ∃ s', s.insertMarkup false pos pos es = some (s', ⟨pos + x.chars.length, 0⟩, s.snapshot) ∧
      Flat s' { d with characterCount := d.characterCount + x.chars.length } f (L ++ { p with chars := a ++ x.chars ++ b } :: R) ∧
      Placed s' (L ++ { p with chars := a ++ x.chars ++ b } :: R) ∧
      docChars (L ++ { p with chars := a ++ x.chars ++ b } :: R) =
        (docChars (L ++ p :: R)).take pos ++ x.chars ++ (docChars (L ++ p :: R)).drop pos :=
  insertMarkup_one false h hp hl hc hes hx pos hpos

/-- **C96.** The same for HTML. -/
theorem C96_inline_partial (h : Flat s d f (L ++ p :: R)) (hp : Placed s (L ++ p :: R))
    (hl : ListsOk s d (L ++ p :: R)) (hc : p.chars = a ++ b) {es : List ParsedElement} {x : ParsedBlock}
    (hes : blocksOf es = [x]) (hx : textual x = true) (pos : Nat) (hpos : pos = charsBefore (paras L) + a.length) :
    ∃ s', s.insertMarkup true pos pos es = some (s', ⟨pos + x.chars.length, 0⟩, s.snapshot) ∧
      Flat s' { d with characterCount := d.characterCount + x.chars.length } f (L ++ { p with chars := a ++ x.chars ++ b } :: R) ∧
      Placed s' (L ++ { p with chars := a ++ x.chars ++ b } :: R) ∧
      docChars (L ++ { p with chars := a ++ x.chars ++ b } :: R) =
        (docChars (L ++ p :: R)).take pos ++ x.chars ++ (docChars (L ++ p :: R)).drop pos :=
  insertMarkup_one true h hp hl hc hes hx pos hpos

/-- **C95.** Inserting any other Markdown: a first block of text joins the text before the caret, a last one the text
behind it, and every block between becomes a paragraph with its text, formats, heading level and a list like the one it
asks for; the text behind the caret keeps its paragraph format.  Paragraphs and characters are counted, stored
positions are right, the caret ends up before the text that was behind it.  One formatted block alone is
reported as one paragraph though two are added (`C95_reported_fails`).  Full statement: without the hypothesis that what
follows is not one empty paragraph (`C95_empty_end_fails`), without the loss of code blocks (`C95_code_fails`), and as
for `C95_inline_partial`.  Items join the lists of earlier items of the Markdown by C44's rule (`ListsJoined`). -/
theorem C95_blocks_partial (h : Flat s d f (L ++ p :: R)) (hp : Placed s (L ++ p :: R))
    (hl : ListsOk s d (L ++ p :: R)) (hc : p.chars = a ++ b) (hR : NotOneEmpty R) {es : List ParsedElement}
    (hes : ∀ x, blocksOf es = [x] → textual x = false) (pos : Nat) (hpos : pos = charsBefore (paras L) + a.length) :
    ∃ s' ls hd new tl, s.insertMarkup false pos pos es =
        some (s', ⟨pos + (docLen (L ++ hd :: (new ++ tl :: R)) - docLen (L ++ p :: R)),
          if (blocksOf es).length = 1 then 1 else new.length + 1⟩, s.snapshot) ∧
      hd = { p with chars := a ++ joinsHead (blocksOf es) } ∧
      InTurn (InsertedOne s' false) (standalone (blocksOf es)) new ∧
      ListsJoined d.lists [] ((standalone (blocksOf es)).map listAsked) (new.map fun q => q.shape.list) ∧
      (∃ n, tl = ⟨n, joinsTail (blocksOf es) ++ b, p.shape⟩) ∧
      Flat s' { d with
        lists := ls
        blockCount := d.blockCount + (new.length + 1)
        characterCount := d.characterCount + (((blocksOf es).map fun x => x.chars.length).sum : Nat) } f
        (L ++ hd :: (new ++ tl :: R)) ∧
      Placed s' (L ++ hd :: (new ++ tl :: R)) ∧ ListsOk s' { d with lists := ls } (L ++ hd :: (new ++ tl :: R)) := by
  obtain ⟨fr, hf, _⟩ := h.frame
  rcases two_ends (blocksOf es) (blocksOf_ne es) with ⟨x, hx⟩ | ⟨first, mid, last, hx⟩
  · have htx := hes x hx
    obtain ⟨s', ls, q, n, e1, e2, e3, e4, e5, e6⟩ := h.insertBetween (x := x) false hp hl hf hc hR
    have j1 : joinsHead [x] = [] := by simp [joinsHead, htx]
    have j2 : joinsTail [x] = [] := by simp [joinsTail, htx]
    have j3 : standalone [x] = [x] := by simp [standalone, htx]
    rw [hx, j1, j2, j3, List.append_nil]
    refine ⟨s', ls, _, [q], ⟨n, b, p.shape⟩, ?_, rfl, ⟨e5, trivial⟩, ⟨e6, trivial⟩, ⟨n, rfl⟩, by simpa using e2, e3, e4⟩
    have hcar := caret_eq (R := R) (L := L) (hd := { p with chars := a }) (qs := [q, ⟨n, b, p.shape⟩]) hc
    have hsn := charsBefore_snoc L [q] { p with chars := a } ⟨n, b, p.shape⟩
    subst hpos
    have hn : ¬ textual x = true := by rw [htx]; simp
    have hm : ¬ (false = true ∧ (pasteAt s d f fr L p R a b).before = []) := by simp
    rw [h.insertMarkup_eq false hp hf hc es, hx, insertParsed_single, if_neg hn, if_neg hm, e1, Option.map_some]
    simp only [List.cons_append, List.nil_append] at hcar hsn ⊢
    rw [← hcar]
    simp only [List.length_singleton, if_true, Option.some.injEq, Prod.mk.injEq, true_and, and_true, PasteResult.mk.injEq]
    rw [hsn]; push_cast; omega
  · obtain ⟨s', ls, qs, n, e1, e2, e3, e4, e5, e6⟩ := h.insertManyMd (first := first) (last := last) (mid := mid) hp hl hf hc hR
    rw [hx]
    have eA : ∀ (X : SPara) (t : SPara), L ++ X :: (qs ++ [t] ++ R) = L ++ X :: (qs ++ t :: R) := by simp
    rw [eA] at e2 e3 e4
    refine ⟨s', ls, _, qs, _, ?_, rfl, e5, e6, ⟨n, rfl⟩, e2, e3, e4⟩
    subst hpos
    rw [h.insertMarkup_eq false hp hf hc es, hx, insertParsed_many, if_neg (by simp), e1, Option.map_some]
    have hcar := caret_eq (R := R) (L := L) (hd := { p with chars := a ++ joinsHead (first :: (mid ++ [last])) })
      (qs := qs ++ [⟨n, joinsTail (first :: (mid ++ [last])) ++ b, p.shape⟩]) hc
    rw [eA] at hcar
    dsimp only
    rw [hcar, if_neg (by simp)]

/-- **C96.** Inserting HTML of two or more blocks works like Markdown, with these differences: a first block with paragraph
formatting at the start of a paragraph gives that paragraph its text and format (other settings of the paragraph
stay), and the text behind it becomes a plain paragraph; a last block with paragraph formatting at the end of
a paragraph leaves no empty paragraph behind it.  Line height, direction, background and breaking are taken over
from HTML.  The character count misses the text behind the caret when the first block joins or replaces
(`C96_count_fails`).  Full statement: as for `C95_blocks_partial`, with the right count.  Items join lists by C44's rule; they may also continue the
list of the caret's paragraph. -/
theorem C96_blocks_partial (h : Flat s d f (L ++ p :: R)) (hp : Placed s (L ++ p :: R))
    (hl : ListsOk s d (L ++ p :: R)) (hc : p.chars = a ++ b) (hR : NotOneEmpty R) {es : List ParsedElement}
    {first last : ParsedBlock} {mid : List ParsedBlock} (hes : blocksOf es = first :: (mid ++ [last])) (pos : Nat)
    (hpos : pos = charsBefore (paras L) + a.length) :
    ∃ s' ls hd new tl, s.insertMarkup true pos pos es =
        some (s', ⟨pos + (docLen (L ++ hd :: (new ++ tl ++ R)) - docLen (L ++ p :: R)), new.length + tl.length⟩, s.snapshot) ∧
      (¬ (a = [] ∧ textual first = false) → hd = { p with chars := a ++ joinsHead (blocksOf es) } ∧
        InTurn (InsertedOne s' true) (standalone (blocksOf es)) new ∧
        ListsJoined d.lists (caretSeen s p.shape.list) ((standalone (blocksOf es)).map listAsked)
          (new.map fun q => q.shape.list)) ∧
      (a = [] → textual first = false → hd.id = p.id ∧ hd.chars = first.chars ∧
        hd.shape = overShape p.shape first hd.shape.list ∧ ListLike s' (listAsked first) hd.shape.list ∧
        InTurn (InsertedOne s' true) (standalone (blocksOf es)).tail new ∧
        ListsJoined d.lists [] ((standalone (blocksOf es)).map listAsked) (hd.shape.list :: new.map fun q => q.shape.list)) ∧
      (b = [] → textual last = false → tl = []) ∧
      (¬ (b = [] ∧ textual last = false) → ∃ n, tl = [⟨n, joinsTail (blocksOf es) ++ b,
        if a = [] ∧ textual first = false then {} else p.shape⟩]) ∧
      Flat s' { d with
        lists := ls
        blockCount := d.blockCount + (new.length + tl.length)
        characterCount := d.characterCount + (((blocksOf es).map fun x => x.chars.length).sum : Nat) -
          (if textual first = true ∨ a = [] then (b.length : Int) else 0) } f (L ++ hd :: (new ++ tl ++ R)) ∧
      Placed s' (L ++ hd :: (new ++ tl ++ R)) ∧ ListsOk s' { d with lists := ls } (L ++ hd :: (new ++ tl ++ R)) := by
  obtain ⟨fr, hf, _⟩ := h.frame
  obtain ⟨s', ls, hd, qs, tl, e1, e2, e3, e4, e5, e6, e7, e8, e9, e10⟩ :=
    h.insertManyHtml (first := first) (last := last) (mid := mid) hp hl hf hc hR
  refine ⟨s', ls, hd, qs, tl, ?_, fun hn => ⟨hes ▸ (e5 hn).1, hes ▸ (e5 hn).2, hes ▸ e9 hn⟩, ?_, e7, hes ▸ e8, ?_, e3, e4⟩
  · subst hpos
    rw [h.insertMarkup_eq true hp hf hc es, hes, insertParsed_many, if_pos rfl, e1, Option.map_some]
    dsimp only
    rw [caret_eq (R := R) (L := L) hc]
  · intro ha ht
    obtain ⟨x1, x2, x3⟩ := e6 ha ht
    exact ⟨x1.id, x2, (x1.taken first rfl).1, (x1.taken first rfl).2, hes ▸ x3, hes ▸ e10 ha ht⟩
  · have : d.characterCount + (((blocksOf es).map fun x => x.chars.length).sum : Nat) -
        (if textual first = true ∨ a = [] then (b.length : Int) else 0) = d.characterCount + countedHtml first last mid a b := by
      rw [hes]; unfold countedHtml; omega
    rw [this]; exact e2

/-- **C96.** One block of HTML with paragraph formatting, inside or at the end of a paragraph, becomes a paragraph between the
two halves, and the caret ends up before the second half.  Two paragraphs are counted and one is reported.  Full
statement: as for `C95_blocks_partial`. -/
theorem C96_between_partial (h : Flat s d f (L ++ p :: R)) (hp : Placed s (L ++ p :: R))
    (hl : ListsOk s d (L ++ p :: R)) (hc : p.chars = a ++ b) (ha : a ≠ []) (hR : NotOneEmpty R) {es : List ParsedElement}
    {x : ParsedBlock} (hes : blocksOf es = [x]) (hx : textual x = false) (pos : Nat) (hpos : pos = charsBefore (paras L) + a.length) :
    ∃ s' ls new tl, s.insertMarkup true pos pos es =
        some (s', ⟨pos + (docLen (L ++ { p with chars := a } :: new :: tl :: R) - docLen (L ++ p :: R)), 1⟩, s.snapshot) ∧
      InsertedOne s' true x new ∧ ListRule d.lists [] (listAsked x) new.shape.list ∧ (∃ n, tl = ⟨n, b, p.shape⟩) ∧
      Flat s' { d with
        lists := ls
        blockCount := d.blockCount + 2
        characterCount := d.characterCount + x.chars.length } f (L ++ { p with chars := a } :: new :: tl :: R) ∧
      Placed s' (L ++ { p with chars := a } :: new :: tl :: R) ∧
      ListsOk s' { d with lists := ls } (L ++ { p with chars := a } :: new :: tl :: R) := by
  obtain ⟨fr, hf, _⟩ := h.frame
  obtain ⟨s', ls, q, n, e1, e2, e3, e4, e5, e6⟩ := h.insertBetween (x := x) true hp hl hf hc hR
  refine ⟨s', ls, q, ⟨n, b, p.shape⟩, ?_, e5, e6, ⟨n, rfl⟩, e2, e3, e4⟩
  have hcar := caret_eq (R := R) (L := L) (hd := { p with chars := a }) (qs := [q, ⟨n, b, p.shape⟩]) hc
  have hsn := charsBefore_snoc L [q] { p with chars := a } ⟨n, b, p.shape⟩
  subst hpos
  rw [h.insertMarkup_eq true hp hf hc es, hes]
  have hbe : ¬ (true = true ∧ (pasteAt s d f fr L p R a b).before = []) := by
    have : (pasteAt s d f fr L p R a b).before = a.map Prod.fst := rfl
    rw [this]; simpa using ha
  have hn : ¬ textual x = true := by rw [hx]; simp
  rw [insertParsed_single, if_neg hn, if_neg hbe, e1, Option.map_some]
  simp only [List.cons_append, List.nil_append] at hcar hsn ⊢
  rw [← hcar]
  simp only [Option.some.injEq, Prod.mk.injEq, true_and, and_true, PasteResult.mk.injEq]
  rw [hsn]; push_cast; omega

/-- **C96.** One block of HTML with paragraph formatting, at the start of a paragraph: the paragraph takes its text and format,
what it held becomes a plain paragraph behind it, the caret ends up behind the inserted text.  The text behind the caret
is not counted any more (`C96_count_fails`).  Full statement: as for `C95_blocks_partial`, with the right count. -/
theorem C96_over_partial (h : Flat s d f (L ++ p :: R)) (hp : Placed s (L ++ p :: R))
    (hl : ListsOk s d (L ++ p :: R)) (hR : NotOneEmpty R) {es : List ParsedElement}
    {x : ParsedBlock} (hes : blocksOf es = [x]) (hx : textual x = false) (pos : Nat) (hpos : pos = charsBefore (paras L)) :
    ∃ s' ls hd tl, s.insertMarkup true pos pos es =
        some (s', ⟨pos + x.chars.length, (tl : List SPara).length⟩, s.snapshot) ∧
      hd.id = p.id ∧ hd.chars = x.chars ∧ hd.shape = overShape p.shape x hd.shape.list ∧
      ListLike s' (listAsked x) hd.shape.list ∧ ListRule d.lists [] (listAsked x) hd.shape.list ∧
      (p.chars = [] → tl = []) ∧ (p.chars ≠ [] → ∃ n, tl = [⟨n, p.chars, {}⟩]) ∧
      Flat s' { d with
        lists := ls
        blockCount := d.blockCount + tl.length
        characterCount := d.characterCount + (x.chars.length - p.chars.length) } f (L ++ hd :: (tl ++ R)) ∧
      Placed s' (L ++ hd :: (tl ++ R)) ∧ ListsOk s' { d with lists := ls } (L ++ hd :: (tl ++ R)) := by
  obtain ⟨fr, hf, _⟩ := h.frame
  obtain ⟨s', ls, hd, tl, e1, e2, e3, e4, e5, e6, e7, e8, e9⟩ := h.insertOver (x := x) hp hl hf rfl hR
  refine ⟨s', ls, hd, tl, ?_, e5.id, e6, (e5.taken x rfl).1, (e5.taken x rfl).2, e9, e7, e8, e2, e3, e4⟩
  subst hpos
  have heq := h.insertMarkup_eq (a := []) (b := p.chars) true hp hf rfl es
  simp only [List.length_nil, Nat.add_zero] at heq
  rw [heq, hes]
  have hn : ¬ textual x = true := by rw [hx]; simp
  rw [insertParsed_single, if_neg hn, if_pos ⟨rfl, rfl⟩, e1]; rfl

/-- Undo gives back exactly the document of before, whatever was inserted and whatever happened in between. -/
theorem insertMarkup_undo (h : Flat s d f ps) {html : Bool} {pos anchor : Int} {es : List ParsedElement} {s' : Store}
    {r : PasteResult} {snap : Snapshot} (e : s.insertMarkup html pos anchor es = some (s', r, snap)) (w : Store)
    (hn : s.next "block" ≤ w.next "block") :
    SameContent (w.undoPaste snap) s ∧ Flat (w.undoPaste snap) d f ps := by
  have hs : snap = s.snapshot := by
    unfold Store.insertMarkup at e
    simp only [Option.bind_eq_some_iff] at e
    obtain ⟨_, _, _, _, e⟩ := e
    split at e
    · cases e
    · simp only [Option.bind_eq_some_iff, Option.map_eq_some_iff] at e
      obtain ⟨_, _, _, _, _, _, _, _, _, _, _, _, e⟩ := e
      simp only [Prod.mk.injEq] at e
      exact e.2.2.symm
  subst hs
  have hsame : SameContent (w.undoPaste s.snapshot) s := (C27_undo_snapshot s w).1
  exact ⟨hsame, h.same_content hsame hn⟩

/-- **C95.** Undo of an insertion of Markdown gives back exactly the document of before. -/
theorem C95_undo_partial (h : Flat s d f ps) {pos anchor : Int} {es : List ParsedElement} {s' : Store}
    {r : PasteResult} {snap : Snapshot} (e : s.insertMarkup false pos anchor es = some (s', r, snap)) (w : Store)
    (hn : s.next "block" ≤ w.next "block") :
    SameContent (w.undoPaste snap) s ∧ Flat (w.undoPaste snap) d f ps := insertMarkup_undo h e w hn

/-- **C96.** Undo of an insertion of HTML gives back exactly the document of before. -/
theorem C96_undo_partial (h : Flat s d f ps) {pos anchor : Int} {es : List ParsedElement} {s' : Store}
    {r : PasteResult} {snap : Snapshot} (e : s.insertMarkup true pos anchor es = some (s', r, snap)) (w : Store)
    (hn : s.next "block" ≤ w.next "block") :
    SameContent (w.undoPaste snap) s ∧ Flat (w.undoPaste snap) d f ps := insertMarkup_undo h e w hn

theorem insertMarkup_refused (s : Store) (html : Bool) {pos anchor : Int} (es : List ParsedElement) (h : pos ≠ anchor) :
    s.insertMarkup html pos anchor es = none := by
  unfold Store.insertMarkup
  cases s.docId with
  | none => rfl
  | some i =>
    simp only [Option.bind_some]
    cases s.documents i with
    | none => rfl
    | some d => simp only [Option.bind_some]; rw [if_pos h]

/-- **C95.** Markdown is never inserted over a selection: in any document the command is refused. -/
theorem C95_refused (s : Store) {pos anchor : Int} (es : List ParsedElement) (h : pos ≠ anchor) :
    s.insertMarkup false pos anchor es = none := insertMarkup_refused s false es h

/-- **C96.** HTML is never inserted over a selection. -/
theorem C96_refused (s : Store) {pos anchor : Int} (es : List ParsedElement) (h : pos ≠ anchor) :
    s.insertMarkup true pos anchor es = none := insertMarkup_refused s true es h

/-! ### Examples -/

/-- A block of text. -/
def mText (t : String) : ParsedElement := .block { spans := [{ text := t.toList }] }

/-- A heading. -/
def mHead (t : String) : ParsedElement := .block { spans := [{ text := t.toList }], headingLevel := some 1 }

/-- An item of a numbered list. -/
def mItem (t : String) : ParsedElement := .block { spans := [{ text := t.toList }], listStyle := some .decimal }

/-- A code block. -/
def mCode (t : String) : ParsedElement := .block { spans := [{ text := t.toList }], isCodeBlock := true }

/-- A freshly loaded text of three lines meets the hypotheses, with the caret inside the second line; a heading
between two texts can be inserted there, and also text around a table. -/
example : ∃ (s : Store) (d : Document) (f : Nat) (L R : List SPara) (p : SPara) (a b : List SChar) (s' s'' : Store) (r r' : PasteResult)
    (u u' : Snapshot),
    Flat s d f (L ++ p :: R) ∧ Placed s (L ++ p :: R) ∧ ListsOk s d (L ++ p :: R) ∧ p.chars = a ++ b ∧ a ≠ [] ∧ b ≠ [] ∧ R ≠ [] ∧
    NotOneEmpty R ∧ (4 : Nat) = charsBefore (paras L) + a.length ∧
    s.insertMarkup false 4 4 [mText "X", mHead "H", mText "Y"] = some (s', r, u) ∧
    s'.exportPlainText = some "ab\ncX\nH\nYd\nef".toList ∧
    s.insertMarkup true 4 4 [mHead "X", .table [[[{ text := ['1'] }], [{ text := ['2'] }]]], mItem "Y"] = some (s'', r', u') ∧
    s''.exportPlainText = some "ab\nc\nX\n1\n2\nY\nd\nef".toList := by
  obtain ⟨s, e1, e2, e3, _⟩ := newStore_flat
  obtain ⟨s1, e4, e5, eS, e6⟩ := e2.import e3 "ab\ncd\nef".toList
  have e : (Store.newStore.bind fun s => s.importPlainText "ab\ncd\nef".toList) = some s1 := by
    rw [e1, Option.bind_some, e4]
  have hls : (∀ l, s1.lists l = none) ∧ s1.next "list" = 1 ∧ (s1.documents 1).map Document.lists = some [] := by
    have e' := e
    cases e'
    exact ⟨fun l => rfl, rfl, rfl⟩
  have hk : ((Store.newStore.bind fun s => s.importPlainText "ab\ncd\nef".toList).bind fun s =>
      (s.insertMarkup false 4 4 [mText "X", mHead "H", mText "Y"]).map fun r =>
        r.1.exportPlainText) = some (some "ab\ncX\nH\nYd\nef".toList) := by decide +kernel
  have hk2 : ((Store.newStore.bind fun s => s.importPlainText "ab\ncd\nef".toList).bind fun s =>
      (s.insertMarkup true 4 4 [mHead "X", .table [[[{ text := ['1'] }], [{ text := ['2'] }]]], mItem "Y"]).map fun r =>
        r.1.exportPlainText) = some (some "ab\nc\nX\n1\n2\nY\nd\nef".toList) := by decide +kernel
  rw [e, Option.bind_some] at hk hk2
  obtain ⟨⟨s', r, u⟩, h1, h2⟩ := Option.map_eq_some_iff.mp hk
  obtain ⟨⟨s'', r', u'⟩, h3, h4⟩ := Option.map_eq_some_iff.mp hk2
  have hd := e5.document
  have hlists : ∀ v, s1.documents 1 = some v → v.lists = [] := by
    intro v hv
    have := hls.2.2
    rw [hv] at this; simpa using this
  have hn : s.next "block" = 2 := by cases e1; rfl
  have hlines : linesFrom (s.next "block") (splitLines (unixText "ab\ncd\nef".toList)) =
      [⟨2, [('a', none), ('b', none)], {}⟩] ++ ⟨3, [('c', none), ('d', none)], {}⟩ :: [⟨4, [('e', none), ('f', none)], {}⟩] := by
    rw [hn]; decide +kernel
  rw [hlines] at e5 e6 hd
  refine ⟨s1, _, _, [⟨2, [('a', none), ('b', none)], {}⟩], [⟨4, [('e', none), ('f', none)], {}⟩], ⟨3, [('c', none), ('d', none)], {}⟩,
    [('c', none)], [('d', none)], s', s'', r, r', u, u', e5, e6, ⟨?_, ?_, ?_, ?_, ?_⟩, rfl, by simp, by simp, by simp, ?_, rfl, h1, h2, h3, h4⟩
  · intro l hl; rw [hlists _ hd] at hl; cases hl
  · intro l hl; rw [hls.1] at hl; cases hl
  · intro p hp l hpl
    simp only [List.cons_append, List.nil_append, List.mem_cons, List.not_mem_nil, or_false] at hp
    rcases hp with rfl | rfl | rfl <;> cases hpl
  · rw [hlists _ hd]; exact .nil
  · intro l hl; rw [hls.1] at hl; cases hl
  · intro q hq
    cases hq; simp

/-- The other hypotheses hold of these inputs. -/
example : (∀ x, blocksOf [mHead "H"] = [x] → textual x = false) ∧ (∀ x, blocksOf [mText "X", mText "Y"] = [x] → textual x = false) ∧
    (∃ x, blocksOf [mText "X"] = [x] ∧ textual x = true ∧ x.chars.map Prod.fst = ['X']) ∧
    (∃ x, blocksOf [] = [x] ∧ textual x = true) ∧ standalone (blocksOf [mText "X", mHead "H", mText "Y"]) ≠ [] := by
  refine ⟨?_, ?_, ⟨_, rfl, by decide, by decide⟩, ⟨_, rfl, by decide⟩, by decide⟩
  · intro x hx; cases hx; decide
  · intro x hx; cases hx

/-! ### What goes wrong -/

/-- Two lines, the second empty: after inserting a heading of Markdown at the end of the first, the first paragraph has lost its
last character, and the stored position of the heading is one too small. -/
theorem C95_empty_end_fails : ∃ s s' : Store, ∃ r u,
    (Store.newStore.bind fun s => s.importPlainText "abc\n".toList) = some s ∧
    s.insertMarkup false 3 3 [mHead "H"] = some (s', r, u) ∧
    s'.exportPlainText = some "abc\nH\n".toList ∧ (s'.documents 1).map Document.blockCount = some 4 ∧
    (s'.blocks 4).map Block.documentPosition = some 3 ∧ blockContent s'.text 2 = some "ab".toList := by
  refine ⟨_, _, _, _, rfl, rfl, ?_⟩ <;> decide +kernel

/-- The same happens with HTML. -/
theorem C96_empty_end_fails : ∃ s s' : Store, ∃ r u,
    (Store.newStore.bind fun s => s.importPlainText "abc\n".toList) = some s ∧
    s.insertMarkup true 3 3 [mHead "H"] = some (s', r, u) ∧
    s'.exportPlainText = some "abc\nH\n".toList ∧ (s'.documents 1).map Document.blockCount = some 4 ∧
    (s'.blocks 4).map Block.documentPosition = some 3 ∧ blockContent s'.text 2 = some "ab".toList := by
  refine ⟨_, _, _, _, rfl, rfl, ?_⟩ <;> decide +kernel

/-- An inserted code block is not a code block any more; loaded, it is one. -/
theorem C95_code_fails : ∃ s s' : Store, ∃ r u,
    (Store.newStore.bind fun s => s.importPlainText "ab\ncd".toList) = some s ∧
    s.insertMarkup false 2 2 [mCode "x"] = some (s', r, u) ∧
    s'.exportPlainText = some "ab\nx\n\ncd".toList ∧ (s'.blocks 4).map Block.fmtIsCodeBlock = some none ∧
    (parsedShape false { spans := [{ text := ['x'] }], isCodeBlock := true } none).fmtIsCodeBlock = some true := by
  refine ⟨_, _, _, _, rfl, rfl, ?_⟩ <;> decide +kernel

/-- One heading is reported as one added paragraph; there are two more. -/
theorem C95_reported_fails : ∃ s s' : Store, ∃ r u,
    (Store.newStore.bind fun s => s.importPlainText "ab\ncd".toList) = some s ∧
    s.insertMarkup false 1 1 [mHead "H"] = some (s', r, u) ∧ r.blocksAdded = 1 ∧
    (s.documents 1).map Document.blockCount = some 2 ∧ (s'.documents 1).map Document.blockCount = some 4 ∧
    s'.exportPlainText = some "a\nH\nb\ncd".toList := by
  refine ⟨_, _, _, _, rfl, rfl, ?_⟩ <;> decide +kernel

/-- Markdown inserted into an empty document leaves an empty paragraph in front of a heading, and one behind it. -/
theorem C95_empty_document_fails : ∃ s s' : Store, ∃ r u,
    Store.newStore = some s ∧ s.insertMarkup false 0 0 [mHead "H"] = some (s', r, u) ∧
    s'.exportPlainText = some "\nH\n".toList := by
  refine ⟨_, _, _, _, rfl, rfl, ?_⟩ <;> decide +kernel

/-- The count of characters is wrong after inserting two texts of HTML into a paragraph, and after inserting a heading at its
start: the text behind the caret is taken off. -/
theorem C96_count_fails : ∃ s s' s'' : Store, ∃ r u r' u',
    (Store.newStore.bind fun s => s.importPlainText "abc\ndef\nghi".toList) = some s ∧
    (s.documents 1).map Document.characterCount = some 9 ∧
    s.insertMarkup true 5 5 [mText "X", mText "Y"] = some (s', r, u) ∧
    s'.exportPlainText = some "abc\ndX\nYef\nghi".toList ∧ (s'.documents 1).map Document.characterCount = some 9 ∧
    s.insertMarkup true 4 4 [mHead "H"] = some (s'', r', u') ∧
    s''.exportPlainText = some "abc\nH\ndef\nghi".toList ∧ (s''.documents 1).map Document.characterCount = some 7 := by
  refine ⟨_, _, _, _, _, _, _, rfl, ?_, rfl, ?_, ?_, rfl, ?_⟩ <;> decide +kernel

end Verif
