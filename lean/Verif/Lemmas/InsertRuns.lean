import Verif.Lemmas.InsertBlocks
import Verif.Props.Paste
/- Inserting Markdown or HTML: what each branch does. -/
namespace Verif
variable {s : Store} {d : Document} {f : Nat} {ps L R : List SPara} {p : SPara} {st : RopeSt} {fr : Frame} {a b : List SChar}
open Store

theorem insertParsed_many (html : Bool) (c : PasteAt) (pos : Int) (first last : ParsedBlock) (mid : List ParsedBlock) :
    s.insertParsed html c pos (first :: (mid ++ [last])) =
      if html then s.insertManyHtml c first last (first :: (mid ++ [last]))
      else s.insertManyMd c first last (first :: (mid ++ [last])) := by
  cases mid with
  | nil => rfl
  | cons m mid =>
    have e : (m :: (mid ++ [last])).getLast (by simp) = last := by
      rw [List.getLast_cons (by simp)]; exact List.getLast_concat
    exact congrArg (fun l => if html then s.insertManyHtml c first l _ else s.insertManyMd c first l _) e

theorem insertParsed_single (html : Bool) (c : PasteAt) (pos : Int) (x : ParsedBlock) :
    s.insertParsed html c pos [x] = if textual x = true then s.insertInline c pos x
      else if html = true ∧ c.before = [] then s.insertOver c x else s.insertBetween html c x := by
  rw [← inlineOnly_eq]; rfl

theorem blocksOf_ne (es : List ParsedElement) : blocksOf es ≠ [] := by
  unfold blocksOf
  dsimp only
  split
  · simp
  · rename_i h; exact h

theorem two_ends {α : Type} (l : List α) (h : l ≠ []) : (∃ x, l = [x]) ∨ ∃ x m y, l = x :: (m ++ [y]) := by
  cases l with
  | nil => exact absurd rfl h
  | cons x l =>
    by_cases hl : l = []
    · exact .inl ⟨x, by rw [hl]⟩
    · exact .inr ⟨x, l.dropLast, l.getLast hl, by rw [List.dropLast_concat_getLast]⟩

theorem joinsHead_many (first last : ParsedBlock) (mid : List ParsedBlock) :
    joinsHead (first :: (mid ++ [last])) = if textual first then first.chars else [] := rfl

theorem joinsTail_many (first last : ParsedBlock) (mid : List ParsedBlock) :
    joinsTail (first :: (mid ++ [last])) = if textual last then last.chars else [] := by
  have : first :: (mid ++ [last]) = (first :: mid) ++ [last] := rfl
  unfold joinsTail
  rw [this, List.getLast?_concat]

theorem standalone_many (first last : ParsedBlock) (mid : List ParsedBlock) :
    standalone (first :: (mid ++ [last])) =
      (if textual first then [] else [first]) ++ mid ++ (if textual last then [] else [last]) := by
  have e : first :: (mid ++ [last]) = (first :: mid) ++ [last] := rfl
  have e1 : (first :: (mid ++ [last])).getLast? = some last := by rw [e, List.getLast?_concat]
  have e2 : (first :: (mid ++ [last])).dropLast = first :: mid := by rw [e, List.dropLast_concat]
  unfold standalone
  dsimp only
  cases hf : textual first <;> cases hl : textual last <;> simp [hf, hl, e1, e2]

theorem midsOf_many (x y : Bool) (first last : ParsedBlock) (mid : List ParsedBlock) :
    midsOf x y (first :: (mid ++ [last])) = (if x then [] else [first]) ++ mid ++ (if y then [] else [last]) := by
  have e2 : (first :: (mid ++ [last])).dropLast = first :: mid := by
    have e : first :: (mid ++ [last]) = (first :: mid) ++ [last] := rfl
    rw [e, List.dropLast_concat]
  unfold midsOf
  dsimp only
  cases x <;> cases y <;> simp [e2]

theorem sum_parsed (bs : List ParsedBlock) :
    (bs.map fun b => (parsedState b).text.length).sum = (bs.map fun b => b.chars.length).sum := by
  congr 1
  exact List.map_congr_left fun b _ => parsedState_length b

theorem append_styled {u v : ParaState} {x y : List SChar} (h1 : StyledOk u.runs x ∧ u.imgs = [] ∧ u.text = x.map Prod.fst)
    (h2 : StyledOk v.runs y ∧ v.imgs = [] ∧ v.text = y.map Prod.fst) :
    StyledOk (u.append v).runs (x ++ y) ∧ (u.append v).imgs = [] ∧ (u.append v).text = (x ++ y).map Prod.fst := by
  refine ⟨?_, ?_, ?_⟩
  · show StyledOk (coalesce (u.runs ++ moveRuns (utf8Len u.text) v.runs)) _
    rw [h1.2.2]; exact h1.1.append h2.1
  · show u.imgs ++ moveImages _ v.imgs = []
    rw [h1.2.1, h2.2.1]; rfl
  · show u.text ++ v.text = _
    rw [h1.2.2, h2.2.2]; simp

/-- The text in front of the caret, with a first block that joins it. -/
theorem left_styled (hst : StyledOk ((s.formatRuns p.id).getD []) (a ++ b)) (merge : Bool) (x : ParsedBlock) :
    StyledOk (if merge then (pasteAt s d f fr L p R a b).left.append (parsedState x) else (pasteAt s d f fr L p R a b).left).runs
      (a ++ if merge then x.chars else []) ∧
    (if merge then (pasteAt s d f fr L p R a b).left.append (parsedState x) else (pasteAt s d f fr L p R a b).left).imgs = [] ∧
    (if merge then (pasteAt s d f fr L p R a b).left.append (parsedState x) else (pasteAt s d f fr L p R a b).left).text =
      (a ++ if merge then x.chars else []).map Prod.fst := by
  have hl := pasteAt_left (d := d) (f := f) (fr := fr) (L := L) (R := R) hst
  cases merge
  · simpa using hl
  · exact append_styled hl (parsedState_styled x)

theorem right_styled (hst : StyledOk ((s.formatRuns p.id).getD []) (a ++ b)) (merge : Bool) (x : ParsedBlock) :
    StyledOk (if merge then (parsedState x).append (pasteAt s d f fr L p R a b).right else (pasteAt s d f fr L p R a b).right).runs
      ((if merge then x.chars else []) ++ b) ∧
    (if merge then (parsedState x).append (pasteAt s d f fr L p R a b).right else (pasteAt s d f fr L p R a b).right).imgs = [] ∧
    (if merge then (parsedState x).append (pasteAt s d f fr L p R a b).right else (pasteAt s d f fr L p R a b).right).text =
      ((if merge then x.chars else []) ++ b).map Prod.fst := by
  have hr := pasteAt_right (d := d) (f := f) (fr := fr) (L := L) (R := R) hst
  cases merge
  · simpa using hr
  · exact append_styled (parsedState_styled x) hr

/-- The end of the inserted paragraphs, less the text that was behind the caret. -/
theorem caret_eq {hd : SPara} {qs : List SPara} (hc : p.chars = a ++ b) :
    (charsBefore (paras (L ++ hd :: qs)) : Int) - (b.length + 1) =
      ((charsBefore (paras L) + a.length : Nat) : Int) + ((docLen (L ++ hd :: (qs ++ R)) : Int) - docLen (L ++ p :: R)) := by
  have h1 := docLen_mid L p R
  have h2 := docLen_mid L hd (qs ++ R)
  have h3 : charsBefore (paras (L ++ p :: R)) = charsBefore (paras L) + (a.length + b.length + 1) + charsBefore (paras R) := by
    rw [charsBefore_paras_two, charsBefore_paras_cons, hc]; simp; omega
  have h4 : charsBefore (paras (L ++ hd :: (qs ++ R))) = charsBefore (paras (L ++ hd :: qs)) + charsBefore (paras R) := by
    have : L ++ hd :: (qs ++ R) = (L ++ hd :: qs) ++ R := by simp
    rw [this, charsBefore_paras_two]
  push_cast; omega

theorem charsBefore_snoc (L qs : List SPara) (hd q : SPara) :
    charsBefore (paras (L ++ hd :: (qs ++ [q]))) = charsBefore (paras (L ++ hd :: qs)) + (q.chars.length + 1) := by
  have e : L ++ hd :: (qs ++ [q]) = (L ++ hd :: qs) ++ [q] := by simp
  rw [e, charsBefore_paras_append]

theorem HeadAs.eq {hd : SPara} (h : HeadAs s none p hd) : hd = { p with chars := hd.chars } := by
  have h1 := h.id
  have h2 := h.kept rfl
  cases hd; cases p
  simp only at h1 h2
  subst h1; subst h2; rfl

/-- Several blocks of Markdown. -/
theorem Flat.insertManyMd {first last : ParsedBlock} {mid : List ParsedBlock} (h : Flat s d f (L ++ p :: R))
    (hp : Placed s (L ++ p :: R)) (hl : ListsOk s d (L ++ p :: R)) (hf : s.frames f = some fr) (hc : p.chars = a ++ b)
    (hR : NotOneEmpty R) :
    ∃ s' ls qs n, s.insertManyMd (pasteAt s d f fr L p R a b) first last (first :: (mid ++ [last])) =
        some (s', ⟨charsBefore (paras (L ++ { p with chars := a ++ joinsHead (first :: (mid ++ [last])) } ::
          (qs ++ [⟨n, joinsTail (first :: (mid ++ [last])) ++ b, p.shape⟩]))) - (b.length + 1), qs.length + 1⟩) ∧
      Flat s' { d with
        lists := ls
        blockCount := d.blockCount + (qs.length + 1)
        characterCount := d.characterCount + (((first :: (mid ++ [last])).map fun x => x.chars.length).sum : Nat) } f
        (L ++ { p with chars := a ++ joinsHead (first :: (mid ++ [last])) } ::
          (qs ++ [⟨n, joinsTail (first :: (mid ++ [last])) ++ b, p.shape⟩] ++ R)) ∧
      Placed s' (L ++ { p with chars := a ++ joinsHead (first :: (mid ++ [last])) } ::
          (qs ++ [⟨n, joinsTail (first :: (mid ++ [last])) ++ b, p.shape⟩] ++ R)) ∧
      ListsOk s' { d with lists := ls } (L ++ { p with chars := a ++ joinsHead (first :: (mid ++ [last])) } ::
          (qs ++ [⟨n, joinsTail (first :: (mid ++ [last])) ++ b, p.shape⟩] ++ R)) ∧
      InTurn (InsertedOne s' false) (standalone (first :: (mid ++ [last]))) qs ∧
      ListsJoined d.lists [] ((standalone (first :: (mid ++ [last]))).map listAsked) (qs.map fun q => q.shape.list) := by
  have hst0 : StyledOk ((s.formatRuns p.id).getD []) (a ++ b) := hc ▸ h.formats p (by simp)
  obtain ⟨l1, l2, l3⟩ := left_styled (d := d) (f := f) (fr := fr) (L := L) (R := R) hst0 (textual first) first
  have hr := right_styled (d := d) (f := f) (fr := fr) (L := L) (R := R) hst0 (textual last) last
  rw [joinsHead_many, joinsTail_many, standalone_many]
  obtain ⟨s1, ls, hd, qs, tl, e1, e2, e3, e4, e5, e6, e7⟩ := h.insertBlocks false hp hl hf hc hR none (.nil s) .nil l1 l2 l3
    ((if textual first then [] else [first]) ++ mid ++ (if textual last then [] else [last]))
    (tail := some (if textual last then (parsedState last).append (pasteAt s d f fr L p R a b).right else (pasteAt s d f fr L p R a b).right))
    (tcs := (if textual last then last.chars else []) ++ b) (by intro t ht; cases ht; exact hr)
  obtain ⟨n, rfl⟩ := e5 (by simp)
  generalize hM : (if textual first then [] else [first]) ++ mid ++ (if textual last then [] else [last]) = M at *
  generalize hD : ({ d with
      blockCount := d.blockCount + (M.length + 1 : Nat)
      characterCount := d.characterCount + (((if textual first then (parsedState first).text.length else 0) +
        (M.map fun b => (parsedState b).text.length).sum + (if textual last then (parsedState last).text.length else 0) : Nat) : Int) } : Document) = D
  obtain ⟨f1, f2, f3, f4, f5⟩ := e2 D (by subst hD; rfl)
  have hq := f5.length_eq
  have hhd := f4.eq
  rw [e3] at hhd
  have hkd : keepDoc D (some { d with lists := ls }) = { d with
      lists := ls
      blockCount := d.blockCount + (qs.length + 1)
      characterCount := d.characterCount + (((first :: (mid ++ [last])).map fun x => x.chars.length).sum : Nat) } := by
    have hs : (if textual first then (parsedState first).text.length else 0) +
        (M.map fun b => (parsedState b).text.length).sum + (if textual last then (parsedState last).text.length else 0) =
        ((first :: (mid ++ [last])).map fun x => x.chars.length).sum := by
      rw [sum_parsed, parsedState_length, parsedState_length, ← hM]
      cases textual first <;> cases textual last <;> simp <;> omega
    subst hD
    rw [hs, ← hq]; rfl
  rw [hkd] at f1 f3
  subst hhd
  refine ⟨_, ls, qs, n, ?_, f1, f2, ⟨f3.known, f3.only, f3.items, f3.nodup, f3.fresh⟩, f5, e6 rfl⟩
  unfold Store.insertManyMd
  dsimp only
  rw [inlineOnly_eq, inlineOnly_eq, midsOf_many, hM, e1, Option.map_some]
  have k9 : (pasteAt s d f fr L p R a b).document = d := rfl
  dsimp only
  rw [k9, hD]
  congr 2
  congr 1
  · rw [charsBefore_snoc, parsedState_length]
    cases textual last <;> simp <;> omega
  · rw [hq]; rfl

/-- One formatted block behind the text before the caret. -/
theorem Flat.insertBetween {x : ParsedBlock} (html : Bool) (h : Flat s d f (L ++ p :: R))
    (hp : Placed s (L ++ p :: R)) (hl : ListsOk s d (L ++ p :: R)) (hf : s.frames f = some fr) (hc : p.chars = a ++ b)
    (hR : NotOneEmpty R) :
    ∃ s' ls q n, s.insertBetween html (pasteAt s d f fr L p R a b) x =
        some (s', ⟨charsBefore (paras (L ++ { p with chars := a } :: [q])), 1⟩) ∧
      Flat s' { d with
        lists := ls
        blockCount := d.blockCount + 2
        characterCount := d.characterCount + x.chars.length } f (L ++ { p with chars := a } :: q :: ⟨n, b, p.shape⟩ :: R) ∧
      Placed s' (L ++ { p with chars := a } :: q :: ⟨n, b, p.shape⟩ :: R) ∧
      ListsOk s' { d with lists := ls } (L ++ { p with chars := a } :: q :: ⟨n, b, p.shape⟩ :: R) ∧
      InsertedOne s' html x q ∧ ListRule d.lists [] (listAsked x) q.shape.list := by
  have hst0 : StyledOk ((s.formatRuns p.id).getD []) (a ++ b) := hc ▸ h.formats p (by simp)
  obtain ⟨l1, l2, l3⟩ := pasteAt_left (d := d) (f := f) (fr := fr) (L := L) (R := R) hst0
  have hr := pasteAt_right (d := d) (f := f) (fr := fr) (L := L) (R := R) hst0
  obtain ⟨s1, ls, hd, qs, tl, e1, e2, e3, e4, e5, e6, e7⟩ := h.insertBlocks html hp hl hf hc hR none (.nil s) .nil l1 l2 l3
    [x] (tail := some (pasteAt s d f fr L p R a b).right) (tcs := b) (by intro t ht; cases ht; exact hr)
  obtain ⟨n, rfl⟩ := e5 (by simp)
  generalize hD : ({ d with
      blockCount := d.blockCount + 2
      characterCount := d.characterCount + (parsedState x).text.length } : Document) = D
  obtain ⟨f1, f2, f3, f4, f5⟩ := e2 D (by subst hD; rfl)
  have hhd := f4.eq
  rw [e3] at hhd
  obtain ⟨q, rfl, hq⟩ : ∃ q, qs = [q] ∧ InsertedOne (s1.updateDocument D) html x q := by
    cases qs with
    | nil => exact f5.elim
    | cons q qs => cases qs with
      | nil => exact ⟨q, rfl, f5.1⟩
      | cons r qs => exact f5.2.elim
  have hkd : keepDoc D (some { d with lists := ls }) = { d with
      lists := ls
      blockCount := d.blockCount + 2
      characterCount := d.characterCount + x.chars.length } := by
    subst hD
    rw [parsedState_length]; rfl
  rw [hkd] at f1 f3
  subst hhd
  refine ⟨_, ls, q, n, ?_, by simpa using f1, by simpa using f2, ⟨f3.known, f3.only, by simpa using f3.items, f3.nodup, f3.fresh⟩, hq, (e6 rfl).1⟩
  unfold Store.insertBetween
  rw [e1, Option.map_some]
  have k9 : (pasteAt s d f fr L p R a b).document = d := rfl
  dsimp only
  rw [k9, hD]

/-- One formatted block of HTML at the start of a paragraph. -/
theorem Flat.insertOver {x : ParsedBlock} (h : Flat s d f (L ++ p :: R))
    (hp : Placed s (L ++ p :: R)) (hl : ListsOk s d (L ++ p :: R)) (hf : s.frames f = some fr) (hc : p.chars = b)
    (hR : NotOneEmpty R) :
    ∃ s' ls hd tl, s.insertOver (pasteAt s d f fr L p R [] b) x =
        some (s', ⟨charsBefore (paras L) + x.chars.length, (tl : List SPara).length⟩) ∧
      Flat s' { d with
        lists := ls
        blockCount := d.blockCount + tl.length
        characterCount := d.characterCount + (x.chars.length - b.length) } f (L ++ hd :: (tl ++ R)) ∧
      Placed s' (L ++ hd :: (tl ++ R)) ∧ ListsOk s' { d with lists := ls } (L ++ hd :: (tl ++ R)) ∧
      HeadAs s' (some x) p hd ∧ hd.chars = x.chars ∧ (b = [] → tl = []) ∧ (b ≠ [] → ∃ n, tl = [⟨n, b, {}⟩]) ∧
      ListRule d.lists [] (listAsked x) hd.shape.list := by
  have hc' : p.chars = [] ++ b := hc
  have hst0 : StyledOk ((s.formatRuns p.id).getD []) ([] ++ b) := hc' ▸ h.formats p (by simp)
  obtain ⟨l1, l2, l3⟩ := parsedState_styled x
  have hr := pasteAt_right (d := d) (f := f) (fr := fr) (L := L) (R := R) hst0
  have hskip : (decide ((pasteAt s d f fr L p R [] b).after = []) && decide ((pasteAt s d f fr L p R [] b).right.imgs = [])) =
      decide (b = []) := by
    rw [hr.2.1]
    have : (pasteAt s d f fr L p R [] b).after = b.map Prod.fst := rfl
    rw [this]; simp
  obtain ⟨s1, ls, hd, qs, tl, e1, e2, e3, e4, e5, e6, e7⟩ := h.insertBlocks true hp hl hf hc' hR (some x) (.nil s) .nil l1 l2 l3
    [] (tail := if decide (b = []) = true then none else some (pasteAt s d f fr L p R [] b).right) (tcs := b) (by
      intro t ht
      split at ht
      · cases ht
      · cases ht; exact hr)
  have htl : tl.length = if b = [] then 0 else 1 := by
    by_cases hb : b = []
    · rw [e4 (by simp [hb])]; simp [hb]
    · obtain ⟨n, rfl⟩ := e5 (by simp [hb]); simp [hb]
  generalize hD : ({ d with
      blockCount := d.blockCount + (if decide (b = []) = true then 0 else 1)
      characterCount := d.characterCount + ((x.chars.length : Int) - (pasteAt s d f fr L p R [] b).len) } : Document) = D
  obtain ⟨f1, f2, f3, f4, f5⟩ := e2 D (by subst hD; rfl)
  have hqs : qs = [] := by cases qs with
    | nil => rfl
    | cons q qs => exact f5.elim
  subst hqs
  have hclen : (pasteAt s d f fr L p R [] b).len = b.length := by simp [PasteAt.len, pasteAt]
  have hkd : keepDoc D (some { d with lists := ls }) = { d with
      lists := ls
      blockCount := d.blockCount + tl.length
      characterCount := d.characterCount + (x.chars.length - b.length) } := by
    subst hD
    rw [hclen, htl]
    by_cases hb : b = [] <;> simp [hb, keepDoc]
  rw [hkd] at f1 f3
  refine ⟨_, ls, hd, tl, ?_, by simpa using f1, by simpa using f2, ⟨f3.known, f3.only, by simpa using f3.items, f3.nodup, f3.fresh⟩,
    f4, e3, fun hb => e4 (by simp [hb]), fun hb => by simpa using e5 (by simp [hb]), (e7 x rfl).1⟩
  unfold Store.insertOver
  dsimp only
  rw [hskip, e1, Option.map_some]
  have k9 : (pasteAt s d f fr L p R [] b).document = d := rfl
  have k4 : (pasteAt s d f fr L p R [] b).cur.documentPosition = charsBefore (paras L) := rfl
  dsimp only
  rw [k9, k4, hD, htl]
  by_cases hb : b = [] <;> simp [hb]

theorem primedGrouper_ok (s : Store) (cur : Block) : GrouperOk s (s.primedGrouper cur) := by
  unfold Store.primedGrouper
  split
  · exact .nil _
  · split
    · exact .nil _
    · rename_i h; exact GrouperOk.register (.nil _) h

/-- The characters counted for several blocks of HTML. -/
def countedHtml (first last : ParsedBlock) (mid : List ParsedBlock) (a b : List SChar) : Int :=
  ((((first :: (mid ++ [last])).map fun x => x.chars.length).sum : Nat) : Int) -
    (if textual first = true ∨ a = [] then (b.length : Int) else 0)

/-- Several blocks of HTML. -/
theorem Flat.insertManyHtml {first last : ParsedBlock} {mid : List ParsedBlock} (h : Flat s d f (L ++ p :: R))
    (hp : Placed s (L ++ p :: R)) (hl : ListsOk s d (L ++ p :: R)) (hf : s.frames f = some fr) (hc : p.chars = a ++ b)
    (hR : NotOneEmpty R) :
    ∃ s' ls hd qs tl, s.insertManyHtml (pasteAt s d f fr L p R a b) first last (first :: (mid ++ [last])) =
        some (s', ⟨charsBefore (paras (L ++ hd :: (qs ++ tl))) - (b.length + 1), qs.length + tl.length⟩) ∧
      Flat s' { d with
        lists := ls
        blockCount := d.blockCount + (qs.length + tl.length)
        characterCount := d.characterCount + countedHtml first last mid a b } f (L ++ hd :: (qs ++ tl ++ R)) ∧
      Placed s' (L ++ hd :: (qs ++ tl ++ R)) ∧ ListsOk s' { d with lists := ls } (L ++ hd :: (qs ++ tl ++ R)) ∧
      (¬ (a = [] ∧ textual first = false) → hd = { p with chars := a ++ joinsHead (first :: (mid ++ [last])) } ∧
        InTurn (InsertedOne s' true) (standalone (first :: (mid ++ [last]))) qs) ∧
      (a = [] → textual first = false → HeadAs s' (some first) p hd ∧ hd.chars = first.chars ∧
        InTurn (InsertedOne s' true) (standalone (first :: (mid ++ [last]))).tail qs) ∧
      (b = [] → textual last = false → tl = []) ∧
      (¬ (b = [] ∧ textual last = false) → ∃ n, tl = [⟨n, joinsTail (first :: (mid ++ [last])) ++ b,
        if a = [] ∧ textual first = false then {} else p.shape⟩]) ∧
      (¬ (a = [] ∧ textual first = false) → ListsJoined d.lists (caretSeen s p.shape.list)
        ((standalone (first :: (mid ++ [last]))).map listAsked) (qs.map fun q => q.shape.list)) ∧
      (a = [] → textual first = false → ListsJoined d.lists []
        ((standalone (first :: (mid ++ [last]))).map listAsked) (hd.shape.list :: qs.map fun q => q.shape.list)) := by
  have hst0 : StyledOk ((s.formatRuns p.id).getD []) (a ++ b) := hc ▸ h.formats p (by simp)
  have hr := right_styled (d := d) (f := f) (fr := fr) (L := L) (R := R) hst0 (textual last) last
  rw [joinsHead_many, joinsTail_many, standalone_many]
  generalize hov : (decide (a = []) && !textual first) = over
  have hov' : (decide ((pasteAt s d f fr L p R a b).before = []) && !textual first) = over := by
    rw [← hov]; congr 1; simp [pasteAt]
  have ho : over = true → a = [] := by rw [← hov]; simp +contextual
  have hhead : StyledOk (if over = true then parsedState first else if textual first = true then (pasteAt s d f fr L p R a b).left.append (parsedState first) else (pasteAt s d f fr L p R a b).left).runs
        (a ++ if (textual first || over) = true then first.chars else []) ∧
      (if over = true then parsedState first else if textual first = true then (pasteAt s d f fr L p R a b).left.append (parsedState first) else (pasteAt s d f fr L p R a b).left).imgs = [] ∧
      (if over = true then parsedState first else if textual first = true then (pasteAt s d f fr L p R a b).left.append (parsedState first) else (pasteAt s d f fr L p R a b).left).text =
        (a ++ if (textual first || over) = true then first.chars else []).map Prod.fst := by
    cases over with
    | true =>
      rw [ho rfl]
      simpa using parsedState_styled first
    | false =>
      have := left_styled (d := d) (f := f) (fr := fr) (L := L) (R := R) hst0 (textual first) first
      simpa using this
  obtain ⟨l1, l2, l3⟩ := hhead
  generalize hhs : (if over = true then parsedState first else if textual first = true then (pasteAt s d f fr L p R a b).left.append (parsedState first) else (pasteAt s d f fr L p R a b).left) = hs at *
  generalize hts : (if textual last = true then (parsedState last).append (pasteAt s d f fr L p R a b).right else (pasteAt s d f fr L p R a b).right) = ts at *
  have hrim : (pasteAt s d f fr L p R a b).right.imgs = [] := (pasteAt_right (d := d) (f := f) (fr := fr) (L := L) (R := R) hst0).2.1
  have hskip : (decide (ts.text = []) && !textual last && decide ((pasteAt s d f fr L p R a b).right.imgs = [])) =
      (decide (b = []) && !textual last) := by
    rw [hr.2.2, hrim]
    cases textual last <;> simp
  generalize hsk : (decide (b = []) && !textual last) = skip at *
  obtain ⟨s1, ls, hd, qs, tl, e1, e2, e3, e4, e5, e6, e7⟩ := h.insertBlocks true hp hl hf hc hR (if over = true then some first else none)
    (primedGrouper_ok s (pasteAt s d f fr L p R a b).cur) (primed_knows s (pasteAt s d f fr L p R a b).cur) l1 l2 l3
    ((if (textual first || over) = true then [] else [first]) ++ mid ++ (if textual last = true then [] else [last]))
    (tail := if skip = true then none else some ts)
    (tcs := (if textual last = true then last.chars else []) ++ b) (by
      intro t ht
      split at ht
      · cases ht
      · cases ht; exact hr)
  generalize hM : (if (textual first || over) = true then [] else [first]) ++ mid ++ (if textual last = true then [] else [last]) = M at *
  have hover : (if over = true then some first else none : Option ParsedBlock).isSome = over := by cases over <;> rfl
  rw [hover] at e5
  have htl : (tl.length : Int) = if skip = true then 0 else 1 := by
    cases skip with
    | true => rw [e4 rfl]; rfl
    | false => obtain ⟨n, rfl⟩ := e5 (by simp); rfl
  have htc : charsBefore (paras (L ++ hd :: (qs ++ tl))) = charsBefore (paras (L ++ hd :: qs)) +
      if skip = true then 0 else ((if textual last = true then last.chars else []) ++ b).length + 1 := by
    cases skip with
    | true => rw [e4 rfl]; simp
    | false => obtain ⟨n, rfl⟩ := e5 (by simp); rw [charsBefore_snoc]; simp
  have hclen : (pasteAt s d f fr L p R a b).len = a.length + b.length := by simp [PasteAt.len, pasteAt]
  generalize hD : ({ d with
      blockCount := d.blockCount + ((M.length : Int) + (if skip = true then 0 else 1))
      characterCount := d.characterCount + ((if (textual first || over) = true then
        (((a ++ if (textual first || over) = true then first.chars else []).length : Nat) : Int) - (pasteAt s d f fr L p R a b).len else 0) +
        ((M.map fun b => (parsedState b).text.length).sum : Nat) +
        (if textual last = true then ((parsedState last).text.length : Int) else 0)) } : Document) = D
  obtain ⟨f1, f2, f3, f4, f5⟩ := e2 D (by subst hD; rfl)
  have hq := f5.length_eq
  have hkd : keepDoc D (some { d with lists := ls }) = { d with
      lists := ls
      blockCount := d.blockCount + (qs.length + tl.length)
      characterCount := d.characterCount + countedHtml first last mid a b } := by
    have hs : (if (textual first || over) = true then
        (((a ++ if (textual first || over) = true then first.chars else []).length : Nat) : Int) - (pasteAt s d f fr L p R a b).len else 0) +
        ((M.map fun b => (parsedState b).text.length).sum : Nat) +
        (if textual last = true then ((parsedState last).text.length : Int) else 0) = countedHtml first last mid a b := by
      rw [sum_parsed, parsedState_length, hclen, ← hM, ← hov]
      unfold countedHtml
      cases textual first <;> cases textual last <;> by_cases ha : a = [] <;> simp [ha] <;> omega
    subst hD
    rw [hs, hq, htl]; rfl
  rw [hkd] at f1 f3
  refine ⟨_, ls, hd, qs, tl, ?_, f1, f2, ⟨f3.known, f3.only, f3.items, f3.nodup, f3.fresh⟩, ?_, ?_, ?_, ?_, ?_, ?_⟩
  · unfold Store.insertManyHtml
    dsimp only
    rw [inlineOnly_eq, inlineOnly_eq, hov', hhs, hts, hskip, midsOf_many, hM, e1, Option.map_some]
    have k9 : (pasteAt s d f fr L p R a b).document = d := rfl
    dsimp only
    rw [k9, hD]
    congr 2
    congr 1
    · rw [htc, parsedState_length, ← hsk]
      cases textual last <;> by_cases hb : b = [] <;> simp [hb] <;> omega
    · rw [hq, htl]
  · intro hn
    have ho' : over = false := by
      rw [← hov]
      cases htf : textual first
      · by_cases ha : a = []
        · exact absurd ⟨ha, htf⟩ hn
        · simp [ha]
      · simp
    subst ho'
    simp only [Bool.or_false] at *
    rw [hM]
    refine ⟨?_, f5⟩
    have := HeadAs.eq (by simpa using f4)
    rw [e3] at this
    exact this
  · intro ha htf
    have ho' : over = true := by rw [← hov]; simp [ha, htf]
    subst ho'
    simp only [if_true, Bool.or_true] at *
    refine ⟨f4, by rw [e3, ha]; rfl, ?_⟩
    rw [htf]
    rw [← hM] at f5
    simpa using f5
  · intro hb htl
    exact e4 (by rw [← hsk]; simp [hb, htl])
  · intro hn
    have hs' : skip = false := by
      rw [← hsk]
      cases htf : textual last
      · by_cases ha : b = []
        · exact absurd ⟨ha, htf⟩ hn
        · simp [ha]
      · simp
    obtain ⟨n, hn⟩ := e5 (by rw [hs']; simp)
    refine ⟨n, ?_⟩
    rw [hn, ← hov]
    by_cases ha : a = [] <;> cases textual first <;> simp [ha]
  · intro hn
    have ho' : over = false := by
      rw [← hov]
      cases htf : textual first
      · by_cases ha : a = []
        · exact absurd ⟨ha, htf⟩ hn
        · simp [ha]
      · simp
    subst ho'
    simp only [Bool.or_false] at *
    rw [hM]
    exact e6 rfl
  · intro ha htf
    have ho' : over = true := by rw [← hov]; simp [ha, htf]
    subst ho'
    simp only [if_true, Bool.or_true] at *
    rw [htf]
    have := e7 first rfl
    rw [← hM] at this
    simpa using this

end Verif
