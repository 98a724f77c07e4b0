import Verif.Props.Copy
import Verif.Props.Paste
import Verif.Model.Images
/-
C65: copying and pasting.
-/
namespace Verif
variable {s : Store} {d : Document} {f : Nat} {ps : List SPara}
open Store

/-- A character with the format it shows. -/
def shownAs (c : SChar) : Char × CharFormat := (c.1, c.2.getD {})

/-- A paragraph without paragraph formatting. -/
def SPara.Unformatted (p : SPara) : Prop := { p.shape with id := 0, documentPosition := 0 } = ({} : Block)

theorem segItems_fragChars (l : List (Segment CharFormat)) (h : ∀ g ∈ l, ∃ t fm, g = .text t fm) :
    segItems l = ((l.flatMap fun
      | .text t fm => styled t (some fm)
      | .image _ => ([] : List SChar)).map fun c => Item.char c.1 (c.2.getD {})) := by
  induction l with
  | nil => rfl
  | cons g l ih =>
    obtain ⟨t, fm, rfl⟩ := h g (by simp)
    have := ih (fun g hg => h g (by simp [hg]))
    rw [List.flatMap_cons, List.map_append, ← this]
    simp [segItems, styled, Function.comp_def]

theorem CopyOf.shown {fb : FragBlock} {x : Piece} (h : CopyOf s fb x) :
    fb.IsText ∧ fb.chars.map shownAs = x.chars.map shownAs := by
  have hall := segs_all_text h.chars
  have h1 := segItems_fragChars fb.elements hall
  have h2 : fb.chars.map (fun c => (Item.char c.1 (c.2.getD {}) : Item CharFormat)) = x.chars.map fun c => .char c.1 (c.2.getD {}) := by
    rw [← h.chars, h1]; rfl
  have h3 : fb.chars.map shownAs = x.chars.map shownAs := by
    have : ∀ l m : List SChar, l.map (fun c => (Item.char c.1 (c.2.getD {}) : Item CharFormat)) = m.map (fun c => .char c.1 (c.2.getD {})) →
        l.map shownAs = m.map shownAs := by
      intro l
      induction l with
      | nil => intro m hm; cases m with
        | nil => rfl
        | cons c m => simp at hm
      | cons c l ih => intro m hm; cases m with
        | nil => simp at hm
        | cons c' m =>
          simp only [List.map_cons, List.cons.injEq, Item.char.injEq] at hm
          rw [List.map_cons, List.map_cons, ih m hm.2]
          simp only [shownAs, hm.1.1, hm.1.2]
    exact this _ _ h2
  refine ⟨⟨hall, ?_⟩, h3⟩
  rw [h.text]
  have := congrArg (List.map Prod.fst) h3
  simp only [List.map_map] at this
  exact this.symm

theorem CopyOf.inline {fb : FragBlock} {x : Piece} (h : CopyOf s fb x) (hu : ∀ p, x.whole = some p → p.Unformatted) :
    fb.inlineOnly = true := by
  have h1 := h.format
  have h2 := h.list
  cases hw : x.whole with
  | none =>
    rw [hw] at h1 h2
    unfold FragBlock.inlineOnly
    simp only at h1 h2
    rw [h1, h2]; rfl
  | some p =>
    rw [hw] at h1 h2
    have hp := hu p hw
    have hl : p.shape.list = none := congrArg Block.list hp
    simp only at h1 h2
    rw [hl] at h2
    have h1' : fb.format = {} := by
      rw [h1]
      have : ({ p.shape with id := 0, list := none, documentPosition := 0 } : Block) = { p.shape with id := 0, documentPosition := 0 } := by
        rw [← hl]
      rw [this]; exact hp
    unfold FragBlock.inlineOnly
    rw [h1', h2]; rfl

theorem copies_shown {fbs : List FragBlock} {xs : List Piece} (h : CopiesOf s fbs xs) :
    (∀ fb ∈ fbs, fb.IsText) ∧ (fragChars fbs).map shownAs = (pieceChars xs).map shownAs ∧
      ((∀ x ∈ xs, ∀ p, x.whole = some p → p.Unformatted) → ∀ fb ∈ fbs, fb.inlineOnly = true) := by
  induction fbs generalizing xs with
  | nil => cases xs with
    | nil => exact ⟨by simp, rfl, by simp⟩
    | cons x xs => exact h.elim
  | cons fb fbs ih => cases xs with
    | nil => exact h.elim
    | cons x xs =>
      obtain ⟨i1, i2, i3⟩ := ih h.2
      obtain ⟨t1, t2⟩ := h.1.shown
      refine ⟨?_, ?_, ?_⟩
      · intro y hy
        rcases List.mem_cons.mp hy with rfl | hy
        · exact t1
        · exact i1 y hy
      · cases fbs with
        | nil => cases xs with
          | nil => exact t2
          | cons y ys => exact h.2.elim
        | cons z zs => cases xs with
          | nil => exact h.2.elim
          | cons y ys =>
            rw [pieceChars_cons x (by simp)]
            simp only [fragChars, List.map_append, List.map_cons] at i2 ⊢
            rw [t2, i2]
      · intro hu y hy
        rcases List.mem_cons.mp hy with rfl | hy
        · exact h.1.inline (hu x (by simp))
        · exact i3 (fun x hx => hu x (by simp [hx])) y hy

/-- **C65.** Copying a selection of unformatted paragraphs and pasting it at any position of the same or another
document puts there the selected characters with the formats they show, and nothing else; the caret ends up behind
them.  An end of paragraph that closes the selection is not pasted (`C63_newline_fails`).  Full statement: without the
hypotheses that stored positions are right, with images, tables and formatted paragraphs. -/
theorem C65_copy_paste_partial (h : Flat s d f ps) (hp : Placed s ps) {lo hi : Nat} (hlt : lo < hi) (hle : hi ≤ docLen ps)
    (hu : ∀ p ∈ ps, p.Unformatted) {s2 : Store} {d2 : Document} {f2 : Nat} {qs : List SPara} (h2 : Flat s2 d2 f2 qs)
    (hp2 : Placed s2 qs) (hl2 : ListsOk s2 d2 qs) {pos : Nat} (hpos : pos ≤ docLen qs) :
    ∃ fbs t s' d' qs' r sel, s.extractFragment lo hi = some (fbs, t) ∧
      s2.insertFragment pos pos fbs = some (s', r, s2.snapshot) ∧ Flat s' d' f2 qs' ∧ Placed s' qs' ∧
      (docChars qs').map shownAs = ((docChars qs).take pos ++ sel ++ (docChars qs).drop pos).map shownAs ∧
      r.newPosition = pos + sel.length ∧
      (¬ IsStart ps hi → sel = ((docChars ps).take hi).drop lo) ∧
      (IsStart ps hi → sel ++ [('\n', none)] = ((docChars ps).take hi).drop lo) := by
  obtain ⟨fbs, t, e1, _, e2, _, _⟩ := C63_copy_partial h hp lo hi hlt
  obtain ⟨c1, c2, c3⟩ := copies_shown e2
  have hst : IsStart ps hi ↔ ∃ L p R, ps = L ++ p :: R ∧ L ≠ [] ∧ hi = 0 + charsBefore (paras L) := by
    unfold IsStart
    constructor
    · rintro ⟨L, p, R, x1, x2, x3⟩; exact ⟨L, p, R, x1, x2, by rw [charsBefore_sum]; omega⟩
    · rintro ⟨L, p, R, x1, x2, x3⟩; exact ⟨L, p, R, x1, x2, by rw [← charsBefore_sum]; omega⟩
  have hpc := pieceChars_pieces hlt ps 0 (by omega) (by omega)
  have hwhole : ∀ x ∈ pieces lo hi 0 ps, ∀ p, x.whole = some p → p.Unformatted := by
    have key : ∀ (l : List SPara) (n : Nat), (∀ p ∈ l, p.Unformatted) → ∀ x ∈ pieces lo hi n l, ∀ p, x.whole = some p → p.Unformatted := by
      intro l
      induction l with
      | nil => intro n _ x hx; simp [pieces] at hx
      | cons q l ih =>
        intro n hq x hx p hxp
        rw [pieces] at hx
        split at hx
        · exact ih _ (fun p hp => hq p (by simp [hp])) x hx p hxp
        · rcases List.mem_cons.mp hx with rfl | hx
          · simp only at hxp
            split at hxp
            · rw [← Option.some.inj hxp]; exact hq q (by simp)
            · cases hxp
          · exact ih _ (fun p hp => hq p (by simp [hp])) x hx p hxp
    exact key ps 0 hu
  have hin := c3 hwhole
  have hlen : (fragChars fbs).length = (pieceChars (pieces lo hi 0 ps)).length := by
    have := congrArg List.length c2; simpa using this
  have hne : fbs ≠ [] := by
    intro h0
    subst h0
    have : (pieceChars (pieces lo hi 0 ps)).length = 0 := by rw [← hlen]; rfl
    have hL := List.length_eq_zero_iff.mp this
    have hsz : (((docChars ps).take (hi - 0)).drop (lo - 0)).length = hi - lo := by
      simp [docChars_length]; omega
    have hemp : pieces lo hi 0 ps = [] := by
      cases hx : pieces lo hi 0 ps with
      | nil => rfl
      | cons x xs => rw [hx] at e2; exact e2.elim
    by_cases hs : ∃ L p R, ps = L ++ p :: R ∧ L ≠ [] ∧ hi = 0 + charsBefore (paras L)
    · -- the paragraph that ends at the last selected position is taken
      have hx := hpc.2 hs
      rw [hL] at hx
      obtain ⟨L, p, R, x1, x2, x3⟩ := hs
      have key : ∀ (l : List SPara) (n : Nat), n < hi → lo < hi → hi ≤ n + docLen l → pieces lo hi n l ≠ [] := by
        intro l
        induction l with
        | nil => intro n h1 h2 h3; simp [docLen] at h3; omega
        | cons q l ih =>
          intro n h1 h2 h3
          rw [pieces]
          split
          · rename_i hc
            have hln : l ≠ [] := by
              rintro rfl
              simp [docLen] at h3; omega
            rw [docLen_cons q hln] at h3
            exact ih _ (by omega) h2 (by omega)
          · simp
      exact key ps 0 (by omega) hlt (by omega) hemp
    · have hx := hpc.1 hs
      rw [← hx, hL] at hsz
      simp at hsz; omega
  obtain ⟨L, p, R, a, b, rfl, hc, hps⟩ := locate qs h2.nonempty pos hpos
  have hsel : (¬ IsStart ps hi → pieceChars (pieces lo hi 0 ps) = ((docChars ps).take hi).drop lo) ∧
      (IsStart ps hi → pieceChars (pieces lo hi 0 ps) ++ [('\n', none)] = ((docChars ps).take hi).drop lo) := by
    rw [hst]; simpa using hpc
  have hfin : ∃ s' d' qs' r, s2.insertFragment pos pos fbs = some (s', r, s2.snapshot) ∧ Flat s' d' f2 qs' ∧ Placed s' qs' ∧
      docChars qs' = (docChars (L ++ p :: R)).take pos ++ fragChars fbs ++ (docChars (L ++ p :: R)).drop pos ∧
      r.newPosition = pos + (fragChars fbs).length := by
    match fbs, hne, hin, c1 with
    | [fb], _, hin, c1 =>
      obtain ⟨s', g1, g2, g3, g4⟩ := C64_inline_partial h2 hp2 hl2 hc (c1 fb (by simp)) (hin fb (by simp)) pos hps
      exact ⟨s', _, _, _, g1, g2, g3, g4, rfl⟩
    | first :: second :: rest, _, hin, c1 =>
      obtain ⟨mid, last, hml⟩ : ∃ mid last, second :: rest = mid ++ [last] :=
        ⟨_, _, (List.dropLast_concat_getLast (by simp)).symm⟩
      rw [hml] at hin c1 ⊢
      obtain ⟨s', ls, hd, new, tl, g1, g2, g3, g4, g5, g6, _⟩ := C64_many_partial h2 hp2 hl2 hc c1 pos hps
      have h1 := hin first (by simp)
      have h3 := hin last (by simp)
      rw [if_neg (by simp [h1]), if_neg (by simp [h3]), List.append_nil, List.append_nil] at g6
      refine ⟨s', _, _, _, g1, g3, g4, g6, ?_⟩
      have := congrArg List.length g6
      simp only [List.length_append, docChars_length, List.length_take, List.length_drop] at this
      show (pos : Int) + _ = _
      omega
  obtain ⟨s', d', qs', r, g1, g2, g3, g4, g5⟩ := hfin
  refine ⟨fbs, t, s', d', qs', r, pieceChars (pieces lo hi 0 ps), e1, g1, g2, g3, ?_, ?_, hsel.1, hsel.2⟩
  · rw [g4]; simp only [List.map_append, c2]
  · rw [g5, hlen]

theorem inline_unformatted {fb : FragBlock} {p : SPara} (hb : fb.inlineOnly = true)
    (hfmt : fb.format = { p.shape with id := 0, list := none, documentPosition := 0 })
    (h0 : p.shape.fmtIndent ≠ some 0) (h1 : p.shape.fmtTextIndent ≠ some 0) :
    { p.shape with id := 0, documentPosition := 0, list := none, fmtTabPositions := [] } = ({} : Block) := by
  unfold FragBlock.inlineOnly at hb
  rw [hfmt] at hb
  simp only [Bool.and_eq_true, Option.isNone_iff_eq_none, decide_eq_true_eq] at hb
  obtain ⟨⟨⟨⟨⟨⟨⟨⟨⟨⟨⟨⟨⟨⟨⟨b1, b2⟩, b3⟩, b4⟩, b5⟩, b6⟩, b7⟩, b8⟩, b9⟩, b10⟩, b11⟩, b12⟩, b13⟩, b14⟩, b15⟩, b16⟩ := hb
  have b4' : p.shape.fmtIndent = none := by
    cases hx : p.shape.fmtIndent with
    | none => rfl
    | some v => rw [hx] at b4 h0; simp at b4; simp [b4] at h0
  have b5' : p.shape.fmtTextIndent = none := by
    cases hx : p.shape.fmtTextIndent with
    | none => rfl
    | some v => rw [hx] at b5 h1; simp at b5; simp [b5] at h1
  simp only [b1, b3, b4', b5', b6, b7, b8, b9, b10, b11, b12, b13, b14, b15, b16]

theorem copies_one {fbs : List FragBlock} {x : Piece} (h : CopiesOf s fbs [x]) : ∃ fb, fbs = [fb] ∧ CopyOf s fb x := by
  cases fbs with
  | nil => exact h.elim
  | cons fb fbs => cases fbs with
    | nil => exact ⟨fb, rfl, h.1⟩
    | cons z zs => exact h.2.elim

/-- **C65.** Copying a whole formatted paragraph, end of paragraph included, and pasting it on an empty paragraph makes
that paragraph look the same: same characters with the formats they show, same paragraph format, and a list of the
same style and indent. -/
theorem C65_whole_paragraph_partial {L R : List SPara} {p : SPara} (h : Flat s d f (L ++ p :: R)) (hp : Placed s (L ++ p :: R))
    (hl : ListsOk s d (L ++ p :: R)) (hfm : ¬ { p.shape with id := 0, documentPosition := 0, list := none, fmtTabPositions := [] } = ({} : Block))
    (h0 : p.shape.fmtIndent ≠ some 0) (h1 : p.shape.fmtTextIndent ≠ some 0)
    {s2 : Store} {d2 : Document} {f2 : Nat} {L2 R2 : List SPara} {e : SPara}
    (h2 : Flat s2 d2 f2 (L2 ++ e :: R2)) (hp2 : Placed s2 (L2 ++ e :: R2)) (hl2 : ListsOk s2 d2 (L2 ++ e :: R2)) (he : e.chars = []) :
    ∃ fbs t s' r d' q, s.extractFragment (charsBefore (paras L)) (charsBefore (paras L) + p.chars.length + 1 : Nat) = some (fbs, t) ∧
      s2.insertFragment (charsBefore (paras L2)) (charsBefore (paras L2)) fbs = some (s', r, s2.snapshot) ∧
      Flat s' d' f2 (L2 ++ q :: R2) ∧ q.id = e.id ∧ q.chars.map shownAs = p.chars.map shownAs ∧
      q.shape = { p.shape with id := 0, documentPosition := 0, list := q.shape.list } ∧
      (p.shape.list = none → q.shape.list = none) ∧
      (∀ l, p.shape.list = some l → ∃ x y m, s.lists l = some x ∧ q.shape.list = some m ∧ s'.lists m = some y ∧
        y.style = x.style ∧ toU32 y.indent = toU32 x.indent) := by
  generalize hn : charsBefore (paras L) = n
  obtain ⟨fbs, t, e1, _, e2, _, _⟩ := C63_copy_partial h hp n (n + p.chars.length + 1) (by omega)
  have hpieces : pieces n (n + p.chars.length + 1) 0 (L ++ p :: R) = [⟨p.chars, some p⟩] := by
    have key : ∀ (l : List SPara) (k : Nat), k + charsBefore (paras l) = n →
        pieces n (n + p.chars.length + 1) k (l ++ p :: R) = [⟨p.chars, some p⟩] := by
      intro l
      induction l with
      | nil =>
        intro k hk
        rw [charsBefore_paras_nil] at hk
        rw [List.nil_append, pieces, if_neg (by omega), pieces_beyond R _ (by omega), if_pos ⟨by omega, .inl (by omega)⟩]
        have : n - k = 0 := by omega
        rw [this, List.drop_zero, List.take_of_length_le (by omega)]
      | cons q l ih =>
        intro k hk
        rw [charsBefore_paras_cons] at hk
        rw [List.cons_append, pieces, if_pos (.inl (by omega))]
        exact ih _ (by omega)
    exact key L 0 (by omega)
  rw [hpieces] at e2
  obtain ⟨fb, rfl, hcopy⟩ := copies_one e2
  · clear e2 hpieces
    obtain ⟨htx, hsh⟩ := hcopy.shown
    have hfmt : fb.format = { p.shape with id := 0, list := none, documentPosition := 0 } := hcopy.format
    have hlist : fb.list = (p.shape.list.bind fun l => s.lists l).map fun e => ⟨e.style, e.indent, e.pre, e.suffix⟩ := hcopy.list
    have hin : fb.inlineOnly = false := by
      cases hb : fb.inlineOnly with
      | false => rfl
      | true => exact absurd (inline_unformatted hb hfmt h0 h1) hfm
    obtain ⟨s', ls, hd, tl, g1, g2, g3, g4, g5, g6, g7⟩ := C64_over_partial h2 hp2 hl2 htx hin _ rfl
    have htl := g5 he
    subst htl
    refine ⟨[fb], t, s', _, _, hd, by simpa using e1, g1, g2, g3, ?_, ?_, ?_, ?_⟩
    · rw [g4.chars]; exact hsh
    · have := g4.format
      rw [hfmt] at this
      exact this
    · intro hpl
      have hl3 : fb.list = none := by rw [hlist, hpl]; rfl
      have := g4.list
      rw [hl3] at this
      exact this
    · intro l hpl
      obtain ⟨x, hx1, _⟩ := hl.known l (hl.items p (by simp) l hpl)
      have hl3 : fb.list = some ⟨x.style, x.indent, x.pre, x.suffix⟩ := by
        rw [hlist, hpl, Option.bind_some, hx1]; rfl
      have := g4.list
      rw [hl3] at this
      obtain ⟨m, y, k1, k2, k3, k4⟩ := this
      exact ⟨x, y, m, hx1, k1, k2, k3, k4⟩

/-- A document made of one heading meets the hypotheses on the source, a new document those on the target. -/
example : ∃ (s s2 : Store) (d d2 : Document) (f f2 : Nat) (p e : SPara), Flat s d f ([] ++ p :: []) ∧ Placed s ([] ++ p :: []) ∧
    ListsOk s d ([] ++ p :: []) ∧ p.chars ≠ [] ∧ p.shape.fmtHeadingLevel = some 2 ∧ p.shape.fmtIndent ≠ some 0 ∧
    p.shape.fmtTextIndent ≠ some 0 ∧ Flat s2 d2 f2 ([] ++ e :: []) ∧ Placed s2 ([] ++ e :: []) ∧ ListsOk s2 d2 ([] ++ e :: []) ∧
    e.chars = [] := by
  obtain ⟨s2, e1, e2, e3, e4⟩ := newStore_flat
  have hls : (∀ l, s2.lists l = none) := by
    have e' := e1
    cases e'
    exact fun l => rfl
  have hok : ListsOk s2 { id := 1, frames := [1] } ([] ++ ⟨1, [], {}⟩ :: []) := by
    refine ⟨?_, ?_, ?_, .nil, ?_⟩
    · intro l hl; cases hl
    · intro l hl; rw [hls] at hl; cases hl
    · intro p hp l hpl
      simp only [List.nil_append, List.mem_singleton] at hp
      subst hp; cases hpl
    · intro l hl; rw [hls] at hl; cases hl
  obtain ⟨fr, hf, _⟩ := e2.frame
  obtain ⟨s, ls, hd, tl, g1, g2, g3, g4, g5, g6, g7, g8⟩ :=
    Flat.pasteOver (L := []) (R := []) (p := ⟨1, [], {}⟩) (b := []) (fb := ⟨"X".toList, [.text "X".toList {}], { fmtHeadingLevel := some 2 }, none⟩)
      e2 e4 hok hf rfl ⟨by simp, rfl⟩
  have ht := g7 rfl
  subst ht
  refine ⟨s, s2, _, _, _, _, hd, _, g2, g4 rfl, g3, ?_, ?_, ?_, ?_, e2, e4, hok, rfl⟩
  · rw [g6.chars]; decide
  · rw [g6.format]
  · rw [g6.format]; exact fun h => nomatch h
  · rw [g6.format]; exact fun h => nomatch h

/-- A copied image is pasted with one character too many: in a document `a`, image, `b`, the first three
positions hold `a`, the image, and the object character of the image, which then stays a character of its own. -/
theorem C65_image_fails : ∃ s s1 s2 : Store, ∃ x fbs t r u,
    (Store.newStore.bind fun s => s.importPlainText "ab".toList) = some s ∧
    s.insertImage ⟨1, 1, "pic", 10, 20⟩ = some (s1, x) ∧ s1.extractFragment 0 3 = some (fbs, t) ∧
    s1.insertFragment 3 3 fbs = some (s2, r, u) ∧ t = ['a', objChar, objChar] ∧
    s1.exportPlainText = some ['a', objChar, 'b'] ∧
    s2.exportPlainText = some ['a', objChar, 'a', objChar, objChar, 'b'] := by
  refine ⟨_, _, _, _, _, _, _, _, rfl, rfl, rfl, rfl, ?_⟩ <;> decide +kernel

/-- Two lines of a three-line text are copied across an end of paragraph and pasted at its end. -/
example : ∃ (s : Store) (d : Document) (f : Nat) (ps : List SPara) (fbs : List FragBlock) (t : List Char) (s' : Store) (r : PasteResult) (u : Snapshot),
    Flat s d f ps ∧ Placed s ps ∧ (∀ p ∈ ps, p.Unformatted) ∧ 4 ≤ docLen ps ∧
    s.extractFragment 1 4 = some (fbs, t) ∧ s.insertFragment 8 8 fbs = some (s', r, u) ∧
    s'.exportPlainText = some "ab\ncd\nefb\nc".toList := by
  obtain ⟨s, e1, e2, e3, _⟩ := newStore_flat
  obtain ⟨s1, e4, e5, eS, e6⟩ := e2.import e3 "ab\ncd\nef".toList
  have e : (Store.newStore.bind fun s => s.importPlainText "ab\ncd\nef".toList) = some s1 := by
    rw [e1, Option.bind_some, e4]
  have hk : ((Store.newStore.bind fun s => s.importPlainText "ab\ncd\nef".toList).bind fun s =>
      (s.extractFragment 1 4).bind fun x => (s.insertFragment 8 8 x.1).map fun r =>
        r.1.exportPlainText) = some (some "ab\ncd\nefb\nc".toList) := by decide +kernel
  rw [e, Option.bind_some] at hk
  obtain ⟨⟨fbs, t⟩, h0, h1⟩ := Option.bind_eq_some_iff.mp hk
  obtain ⟨⟨s', r, u⟩, h1, h2⟩ := Option.map_eq_some_iff.mp h1
  refine ⟨s1, _, _, _, fbs, t, s', r, u, e5, e6, ?_, ?_, h0, h1, h2⟩
  · intro p hp
    unfold SPara.Unformatted
    rw [linesFrom_shape hp]
  · have hn : s.next "block" = 2 := by cases e1; rfl
    rw [hn]; decide +kernel

end Verif
