import Verif.Spec.Session
import Verif.Lemmas.UndoView
import Verif.Props.Editing
import Verif.Lemmas.Sole
namespace Verif

/-! ### The editing functions do not look at identities -/

theorem docLen_look (ps : List SPara) : docLen (look ps) = docLen ps := by
  induction ps with
  | nil => rfl
  | cons p ps ih =>
    cases ps with
    | nil => rfl
    | cons q ps =>
      simp only [look, List.map_cons, docLen] at ih ⊢
      rw [ih]

theorem look_length (ps : List SPara) : (look ps).length = ps.length := by simp [look]

theorem look_cons (p : SPara) (ps : List SPara) : look (p :: ps) = { p with id := 0 } :: look ps := rfl

theorem typeAt_look (pos : Nat) (t : List Char) (ps : List SPara) :
    typeAt pos t (look ps) = look (typeAt pos t ps) := by
  induction ps generalizing pos with
  | nil => rfl
  | cons p ps ih =>
    simp only [look_cons, typeAt]
    split
    · rfl
    · rw [ih]; rfl

theorem splitPara_look (pos new : Nat) (ps : List SPara) :
    splitPara pos 0 (look ps) = look (splitPara pos new ps) := by
  induction ps generalizing pos with
  | nil => rfl
  | cons p ps ih =>
    simp only [look_cons, splitPara]
    split
    · rfl
    · rw [ih]; rfl

theorem restFrom_look (pos : Nat) (ps : List SPara) :
    restFrom pos (look ps) = ((restFrom pos ps).1, look (restFrom pos ps).2) := by
  induction ps generalizing pos with
  | nil => rfl
  | cons p ps ih =>
    simp only [look_cons, restFrom]
    split
    · rfl
    · rw [ih]

theorem deleteBetween_look (lo hi : Nat) (ps : List SPara) :
    deleteBetween lo hi (look ps) = look (deleteBetween lo hi ps) := by
  induction ps generalizing lo hi with
  | nil => rfl
  | cons p ps ih =>
    have hr := restFrom_look hi (p :: ps)
    rw [look_cons] at hr
    simp only [look_cons, deleteBetween]
    split
    · rw [hr]; rfl
    · rw [ih]; rfl

/-! ### Composition of edits -/

theorem inheritFmt_styled (a : List SChar) (t : List Char) :
    inheritFmt (a ++ styled t (inheritFmt a)) = inheritFmt a := by
  rcases List.eq_nil_or_concat t with rfl | ⟨t, c, rfl⟩
  · simp [styled]
  · simp [styled, inheritFmt]

theorem typeAt_typeAt (pos : Nat) (t1 t2 : List Char) (ps : List SPara) :
    typeAt (pos + t1.length) t2 (typeAt pos t1 ps) = typeAt pos (t1 ++ t2) ps := by
  induction ps generalizing pos with
  | nil => rfl
  | cons p ps ih =>
    simp only [typeAt]
    by_cases h : pos ≤ p.chars.length
    · have hl : (p.chars.take pos ++ styled t1 (inheritFmt (p.chars.take pos))).length =
          pos + t1.length := by simp [styled]; omega
      rw [if_pos h, if_pos h]
      simp only [typeAt]
      rw [if_pos (by simp [styled]; omega), ← hl, List.take_left, List.drop_left, inheritFmt_styled]
      simp [styled]
    · rw [if_neg h, if_neg h]
      simp only [typeAt]
      rw [if_neg (by omega), ← ih]
      congr 2; omega

theorem deleteBetween_self (lo : Nat) (ps : List SPara) : deleteBetween lo lo ps = ps := by
  induction ps generalizing lo with
  | nil => rfl
  | cons p ps ih =>
    simp only [deleteBetween]
    split
    · rename_i h
      simp [restFrom, if_pos h]
    · rw [ih]

theorem restFrom_glued (a : List SChar) (k h : Nat) (x : SPara) (qs : List SPara) (hq : h ≤ docLen qs)
    (hne : qs ≠ []) :
    restFrom (a.length + k) ({ x with chars := a ++ (restFrom h qs).1 } :: (restFrom h qs).2) =
      restFrom (h + k) qs := by
  induction qs generalizing h with
  | nil => exact absurd rfl hne
  | cons q qs ih =>
    by_cases hle : h ≤ q.chars.length
    · have e : restFrom h (q :: qs) = (q.chars.drop h, qs) := by simp [restFrom, if_pos hle]
      rw [e]
      simp only [restFrom, List.length_append, List.length_drop]
      by_cases h2 : h + k ≤ q.chars.length
      · rw [if_pos (by omega), if_pos h2, List.drop_append,
          List.drop_eq_nil_of_le (show a.length ≤ a.length + k by omega), List.nil_append, List.drop_drop]
        congr 2; omega
      · rw [if_neg (by omega), if_neg h2]
        congr 1; omega
    · cases qs with
      | nil => simp [docLen] at hq; omega
      | cons r qs =>
        have e : restFrom h (q :: r :: qs) = restFrom (h - q.chars.length - 1) (r :: qs) := by
          simp only [restFrom, if_neg hle]
        rw [e, ih _ (by simp [docLen] at hq ⊢; omega) (by simp)]
        conv => rhs; unfold restFrom
        rw [if_neg (by omega)]
        congr 1; omega

/-- Deleting on after a deletion is one larger deletion. -/
theorem deleteBetween_forward (l h k : Nat) (ps : List SPara) (hlh : l ≤ h) (hh : h ≤ docLen ps) :
    deleteBetween l (l + k) (deleteBetween l h ps) = deleteBetween l (h + k) ps := by
  induction ps generalizing l h with
  | nil => rfl
  | cons p ps ih =>
    by_cases hl : l ≤ p.chars.length
    · have hal : (p.chars.take l).length = l := by simp; omega
      have hg := restFrom_glued (p.chars.take l) k h p (p :: ps) hh (by simp)
      rw [hal] at hg
      have e1 : deleteBetween l h (p :: ps) = { p with chars := p.chars.take l ++ (restFrom h (p :: ps)).1 } ::
          (restFrom h (p :: ps)).2 := by simp only [deleteBetween, if_pos hl]
      have e2 : deleteBetween l (h + k) (p :: ps) =
          { p with chars := p.chars.take l ++ (restFrom (h + k) (p :: ps)).1 } ::
          (restFrom (h + k) (p :: ps)).2 := by simp only [deleteBetween, if_pos hl]
      rw [e1, e2]
      simp only [deleteBetween]
      rw [if_pos (by simp; omega), hg, List.take_append_of_le_length (by omega), List.take_take,
        Nat.min_self]
    · cases ps with
      | nil => simp [docLen] at hh; omega
      | cons q ps =>
        simp only [deleteBetween.eq_2 _ _ p, if_neg hl]
        have := ih (l - p.chars.length - 1) (h - p.chars.length - 1) (by omega)
          (by simp [docLen] at hh ⊢; omega)
        rw [show l + k - p.chars.length - 1 = l - p.chars.length - 1 + k by omega, this]
        congr 2; omega

theorem restFrom_deleteBetween (l h : Nat) (ps : List SPara) :
    restFrom l (deleteBetween l h ps) = restFrom h ps ∨ h < l ∨ docLen ps < h := by
  induction ps generalizing l h with
  | nil => left; rfl
  | cons p ps ih =>
    by_cases hlh : h < l
    · exact Or.inr (Or.inl hlh)
    by_cases hd : docLen (p :: ps) < h
    · exact Or.inr (Or.inr hd)
    left
    by_cases hl : l ≤ p.chars.length
    · simp only [deleteBetween, if_pos hl]
      have hal : (p.chars.take l).length = l := by simp; omega
      conv => lhs; unfold restFrom
      rw [if_pos (by simp; omega)]
      simp only
      rw [List.drop_left' hal]
    · cases ps with
      | nil => simp [docLen] at hd; omega
      | cons q ps =>
        simp only [deleteBetween.eq_2 _ _ p, if_neg hl]
        have e : ∀ qs, restFrom l (p :: qs) = restFrom (l - p.chars.length - 1) qs := by
          intro qs; simp only [restFrom, if_neg hl]
        rw [e]
        rcases ih (l - p.chars.length - 1) (h - p.chars.length - 1) with h1 | h1 | h1
        · rw [h1]
          conv => rhs; unfold restFrom
          rw [if_neg (by omega)]
        · omega
        · simp [docLen] at hd h1; omega

/-- Deleting back before a deletion is one larger deletion. -/
theorem deleteBetween_backward (m l h : Nat) (ps : List SPara) (hml : m ≤ l) (hlh : l ≤ h)
    (hh : h ≤ docLen ps) :
    deleteBetween m l (deleteBetween l h ps) = deleteBetween m h ps := by
  induction ps generalizing m l h with
  | nil => rfl
  | cons p ps ih =>
    by_cases hm : m ≤ p.chars.length
    · have hr : restFrom l (deleteBetween l h (p :: ps)) = restFrom h (p :: ps) := by
        rcases restFrom_deleteBetween l h (p :: ps) with h1 | h1 | h1
        · exact h1
        · omega
        · omega
      have e2 : deleteBetween m h (p :: ps) = { p with chars := p.chars.take m ++ (restFrom h (p :: ps)).1 } ::
          (restFrom h (p :: ps)).2 := by simp only [deleteBetween, if_pos hm]
      rw [e2, ← hr]
      by_cases hl : l ≤ p.chars.length
      · have e1 : deleteBetween l h (p :: ps) = { p with chars := p.chars.take l ++ (restFrom h (p :: ps)).1 } ::
          (restFrom h (p :: ps)).2 := by simp only [deleteBetween, if_pos hl]
        rw [e1]
        conv => lhs; unfold deleteBetween
        rw [if_pos (by simp; omega)]
        simp only
        rw [List.take_append_of_le_length (by simp; omega), List.take_take, Nat.min_eq_left hml]
      · have e1 : deleteBetween l h (p :: ps) =
            p :: deleteBetween (l - p.chars.length - 1) (h - p.chars.length - 1) ps := by
          simp only [deleteBetween, if_neg hl]
        rw [e1]
        conv => lhs; unfold deleteBetween
        rw [if_pos hm]
    · cases ps with
      | nil => simp [docLen] at hh; omega
      | cons q ps =>
        simp only [deleteBetween.eq_2 _ _ p, if_neg hm, if_neg (show ¬ l ≤ p.chars.length by omega)]
        rw [ih _ _ _ (by omega) (by omega) (by simp [docLen] at hh ⊢; omega)]

theorem docLen_deleteBetween {lo hi : Nat} {ps : List SPara} (hne : ps ≠ []) (hlh : lo ≤ hi)
    (h : hi ≤ docLen ps) : docLen (deleteBetween lo hi ps) + (hi - lo) = docLen ps := by
  rw [← docChars_length, ← docChars_length, docChars_deleteBetween hne hlh h]
  rw [← docChars_length] at h
  simp; omega

theorem deleteBetween_nil {lo hi : Nat} {ps : List SPara} (hne : ps ≠ []) : deleteBetween lo hi ps ≠ [] := by
  cases ps with
  | nil => exact absurd rfl hne
  | cons p ps => simp only [deleteBetween]; split <;> simp

/-! ### The commands seen through the document -/

/-- A document and a bound of the ids used so far. -/
abbrev EState := List SPara × Nat

structure Sees (d : Document) (f : Nat) (s : Store) (x : EState) : Prop where
  flat : Flat s (countsOf d x.1) f x.1
  bound : x.2 ≤ s.next "block"
  ids : ∀ p ∈ x.1, p.id < x.2
  stale : ∀ g fr, s.frames g = some fr → g ≠ f → ∀ b ∈ fr.blocks, b < x.2
  sole : Sole d.id f s

variable {d : Document} {f : Nat} {s s' : Store} {ps : List SPara} {x x' : EState}

theorem Flat.sees (h : Flat s (countsOf d ps) f ps) (hs : Sole d.id f s) :
    Sees d f s (ps, s.next "block") :=
  ⟨h, Nat.le_refl _, h.fresh, fun g fr hg hne b hb => (h.others g fr hg hne b hb).2, hs⟩

/-- The snapshot gives the document back, whatever happened since. -/
def Restores (d : Document) (f : Nat) (snap : Snapshot) (x : EState) : Prop :=
  ∀ s : Store, x.2 ≤ s.next "block" → Sees d f (s.restoreUndo snap) x

theorem Sees.restores (h : Sees d f s x) : Restores d f s.snapshot x := by
  intro s1 hb
  obtain ⟨hf, _, h3, h4, h5⟩ := h
  refine ⟨?_, hb, h3, h4, h5.restoreUndo⟩
  refine ⟨⟨hf.root, hf.document, hf.text, hf.keys, hf.block, hf.absent, hf.formats, hf.images, ?_⟩,
    hf.frames, hf.tables, hf.frame, ?_, hf.positive, hf.nonempty, hf.plain⟩
  · intro p hp
    exact Nat.lt_of_lt_of_le (h3 p hp) hb
  · intro g fr hg hne b hbm
    exact ⟨(hf.others g fr hg hne b hbm).1, Nat.lt_of_lt_of_le (h4 g fr hg hne b hbm) hb⟩

/-- Undo data of an insertion of `t` at `pos` in `ps`. -/
def SimpleUndo (d : Document) (u : Store.InsertUndoData) (ps : List SPara) (pos : Nat) (t : List Char) :
    Prop :=
  ∃ L p R a b, ps = L ++ p :: R ∧ p.chars = a ++ b ∧ pos = charsBefore (paras L) + a.length ∧
    u.blockId = p.id ∧ IsBlock p u.originalBlock ∧ StyledOk u.originalRuns p.chars ∧
    u.originalImages = [] ∧ u.docId = d.id ∧
    u.originalCharacterCount = (countsOf d ps).characterCount ∧
    u.byteOffset = utf8Len (a.map Prod.fst) ∧ u.byteLen = utf8Len t

theorem SimpleUndo.undo {u : Store.InsertUndoData} {pos : Nat} {t : List Char}
    (hu : SimpleUndo d u x.1 pos t) (h1 : x'.1 = typeAt pos t x.1) (h2 : x'.2 = x.2)
    (hids : ∀ p ∈ x.1, p.id < x.2) (h : Sees d f s x') :
    ∃ s0, s.undoInsert (.simple u) = some s0 ∧ Sees d f s0 x := by
  obtain ⟨L, p, R, a, b, e1, hc, e2, g1, g2, g3, g4, g5, g6, g7, g8⟩ := hu
  have e3 := typeAt_eq L R t hc
  rw [← e1, ← e2, ← h1] at e3
  have hf := h.flat
  rw [e3] at hf
  obtain ⟨s0, e4, hs0, hsh, hcn⟩ := hf.toShows.undoSimple hc g1 g2 g3 g4 g5 g7 g8
  refine ⟨s0, e4, ?_⟩
  have hd : ({ countsOf d (L ++ { p with chars := a ++ styled t (inheritFmt a) ++ b } :: R) with
      characterCount := u.originalCharacterCount } : Document) = countsOf d x.1 := by
    rw [g6, e1]; simp [countsOf]
  rw [hd] at hs0
  have hfl : Flat s0 (countsOf d (L ++ p :: R)) f (L ++ p :: R) :=
    hf.of_shell (by rw [← e1] at hs0 ⊢; exact hs0) hsh hcn (by simp) rfl rfl
  rw [← e1] at hfl
  refine ⟨hfl, ?_, hids, ?_, h.sole.undoSimple (by rw [g2, g1]) e4⟩
  · have := h.bound
    have hn : s0.next "block" = s.next "block" := by simp [Store.next, hcn]
    rw [hn]; omega
  · intro g fr hg hne bb hb
    rw [hsh.frames] at hg
    have := h.stale g fr hg hne bb hb
    omega

theorem SimpleUndo.merge {u1 u2 : Store.InsertUndoData} {pos : Nat} {t1 t2 : List Char} {qs : List SPara}
    {pos2 : Nat} (h1 : SimpleUndo d u1 ps pos t1) (h2 : SimpleUndo d u2 qs pos2 t2) :
    SimpleUndo d { u1 with byteLen := u1.byteLen + u2.byteLen } ps pos (t1 ++ t2) := by
  obtain ⟨L, p, R, a, b, e1, hc, e2, g1, g2, g3, g4, g5, g6, g7, g8⟩ := h1
  obtain ⟨_, _, _, _, _, _, _, _, _, _, _, _, _, _, _, k8⟩ := h2
  exact ⟨L, p, R, a, b, e1, hc, e2, g1, g2, g3, g4, g5, g6, g7, by simp [g8, k8]⟩

def InsertDone (d : Document) (f : Nat) (c : InsertCmd) (x x' : EState) : Prop :=
  ∃ px py : Nat, c.dto.position = (px : Int) ∧ c.dto.anchor = (py : Int) ∧ max px py ≤ docLen x.1 ∧
    x'.1 = typeAt (min px py) c.dto.text (deleteBetween (min px py) (max px py) x.1) ∧
    c.result.newPosition = ((min px py + c.dto.text.length : Nat) : Int) ∧
    (deleteBetween (min px py) (max px py) x.1).length = x.1.length ∧
    c.wasSelection = decide (px ≠ py) ∧ (∀ p ∈ x.1, p.id < x.2) ∧
    (px = py → x'.2 = x.2 ∧ ∃ u, c.undo = .simple u ∧ SimpleUndo d u x.1 px c.dto.text) ∧
    (px ≠ py → x.2 ≤ x'.2 ∧ ∃ snap, c.undo = .selection snap ∧ Restores d f snap x)

def DeleteDone (d : Document) (f : Nat) (c : DeleteCmd) (x x' : EState) : Prop :=
  ∃ px py : Nat, c.position = (px : Int) ∧ c.anchor = (py : Int) ∧ max px py ≤ docLen x.1 ∧
    x'.1 = deleteBetween (min px py) (max px py) x.1 ∧ c.result.newPosition = ((min px py : Nat) : Int) ∧
    (c.single = true → px ≠ py) ∧ x.1 ≠ [] ∧ x.2 ≤ x'.2 ∧ Restores d f c.snap x

def BlockDone (d : Document) (f : Nat) (c : BlockCmd) (x x' : EState) : Prop :=
  ∃ px : Nat, c.position = (px : Int) ∧ px ≤ docLen x.1 ∧ (∃ new, x'.1 = splitPara px new x.1) ∧
    x.2 ≤ x'.2 ∧ Restores d f c.snap x

theorem execInsert (h : Sees d f s x) (px py : Nat) (t : List Char) (hle : max px py ≤ docLen x.1)
    (hsame : (deleteBetween (min px py) (max px py) x.1).length = x.1.length) :
    ∃ s' r u x', s.insertText ⟨px, py, t⟩ = some (s', r, u) ∧ Sees d f s' x' ∧
      ∀ time, InsertDone d f ⟨⟨px, py, t⟩, r, u, time, decide (px ≠ py)⟩ x x' := by
  have hf := h.flat
  by_cases hxy : px = py
  · subst hxy
    simp only [Nat.min_self, Nat.max_self] at hle hsame ⊢
    obtain ⟨L, p, R, a, b, e1, hc, e2⟩ := locate x.1 hf.nonempty px hle
    have hf' := hf
    rw [e1] at hf'
    obtain ⟨s', e3, hs', hsh, hcn⟩ := hf'.toShows.insertSimple (dto := ⟨px, px, t⟩) hc (by rw [e2])
    have e4 := typeAt_eq L R t hc
    rw [← e1, ← e2] at e4
    have hct := charTotal_typeAt t hf.nonempty hle
    have e5 : ({ countsOf d (L ++ p :: R) with
        characterCount := (countsOf d (L ++ p :: R)).characterCount + t.length } : Document) =
        countsOf d (typeAt px t x.1) := by
      rw [← e1]
      simp only [countsOf, hct]
      congr 1; omega
    have hfl : Flat s' (countsOf d (typeAt px t x.1)) f (typeAt px t x.1) := by
      refine hf.of_shell ?_ hsh hcn ?_ rfl rfl
      · rw [← e5, e4]; exact hs'
      · rw [e4, e1]; simp
    have hi : s.insertText ⟨px, px, t⟩ = s.insertSimple ⟨px, px, t⟩ := by
      unfold Store.insertText
      rw [if_neg (by simp)]
    refine ⟨s', _, _, (typeAt px t x.1, x.2), hi.trans e3, ⟨hfl, ?_, ?_, ?_, h.sole.insertText (hi.trans e3)⟩, ?_⟩
    · have hn : s'.next "block" = s.next "block" := by simp [Store.next, hcn]
      rw [hn]; exact h.bound
    · intro q hq
      simp only at hq ⊢
      rw [e4] at hq
      have hids := h.ids
      rw [e1] at hids
      simp only [List.mem_append, List.mem_cons] at hq hids
      rcases hq with hq | rfl | hq
      · exact hids q (Or.inl hq)
      · exact hids p (Or.inr (Or.inl rfl))
      · exact hids q (Or.inr (Or.inr hq))
    · intro g fr hg; rw [hsh.frames] at hg; exact h.stale g fr hg
    · intro time
      refine ⟨px, px, rfl, rfl, by simpa using hle, ?_, ?_, by simpa using hsame, rfl, h.ids, ?_, ?_⟩
      · simp [deleteBetween_self]
      · simp
      · intro _
        refine ⟨rfl, _, rfl, L, p, R, a, b, e1, hc, e2, rfl, isBlock_entity _ _, ?_, ?_, rfl, ?_, rfl, rfl⟩
        · exact hf'.formats p (by simp)
        · exact hf'.images p (by simp)
        · rw [e1]
      · intro hh; exact absurd rfl hh
  · have hlh : min px py ≤ max px py := by omega
    rcases locate_two x.1 hf.nonempty _ _ hlh hle with
      ⟨L, p, R, a, m, b, e1, hc, e2, e3⟩ | ⟨L, p1, M, p2, R, a1, b1, a2, b2, e1, hc1, hc2, e2, e3⟩
    · have hps : charsBefore (paras L) ≤ min px py := by omega
      have hpl : max px py ≤ charsBefore (paras L) + p.chars.length := by simp [hc]; omega
      have hmin : min (px : Int) (py : Int) = ((min px py : Nat) : Int) := by omega
      have hmax : max (px : Int) (py : Int) = ((max px py : Nat) : Int) := by omega
      have hf' := hf
      rw [e1] at hf'
      obtain ⟨s', g1, hs', _, hcn⟩ := hf'.insertWithSelection (dto := ⟨px, py, t⟩) hc
        (by rw [hmin, e2]) (by rw [hmax, e3])
      have hdel := deleteBetween_within L R hc
      rw [← e2, ← e3, ← e1] at hdel
      have hty := typeAt_eq (p := { p with chars := a ++ b }) (a := a) (b := b) L R t rfl
      rw [← e2] at hty
      rw [← hdel] at hty
      have e5 : ({ countsOf d (L ++ p :: R) with
          characterCount := (countsOf d (L ++ p :: R)).characterCount - m.length + t.length } : Document) =
          countsOf d (L ++ { p with chars := a ++ styled t (inheritFmt a) ++ b } :: R) := by
        simp only [countsOf, charTotal_append, charTotal_cons, hc, List.length_append, List.length_cons,
          styled, List.length_map]
        congr 1; omega
      rw [e5, ← hty] at hs'
      have hn : s'.next "block" = s.next "block" := by simp [Store.next, hcn]
      have hi : s.insertText ⟨px, py, t⟩ = s.insertWithSelection ⟨px, py, t⟩ := by
        unfold Store.insertText
        rw [if_pos (by simp; omega)]
      refine ⟨s', _, _, _, hi.trans g1, hs'.sees (h.sole.insertText (hi.trans g1)), ?_⟩
      intro time
      refine ⟨px, py, rfl, rfl, hle, rfl, ?_, hsame, rfl, h.ids, fun hh => absurd hh hxy, ?_⟩
      · simp only; rw [hmin]; omega
      · intro _
        exact ⟨by simp only [hn]; exact h.bound, _, rfl, h.restores⟩
    · exfalso
      have hdel := deleteBetween_over L M R hc1 hc2
      rw [← e2, ← e3, ← e1] at hdel
      rw [hdel, e1] at hsame
      simp at hsame
      omega

theorem execDelete (h : Sees d f s x) (px py : Nat) (hle : max px py ≤ docLen x.1) :
    ∃ s' r x', s.deleteText px py = some (s', r, s.snapshot) ∧ Sees d f s' x' ∧
      ∀ time, DeleteDone d f ⟨px, py, r, s.snapshot, time, decide (((px : Int) - py).natAbs = 1)⟩ x x' := by
  obtain ⟨s', h1, h2, h3⟩ := C17_delete_text h.flat px py _ _ rfl rfl hle
  have hn : s'.next "block" = s.next "block" := by simp [Store.next, h3]
  refine ⟨s', _, _, h1, h2.sees (h.sole.deleteText h1), ?_⟩
  intro time
  refine ⟨px, py, rfl, rfl, hle, rfl, rfl, ?_, h.flat.nonempty, ?_, h.restores⟩
  · intro hh; simp at hh; omega
  · simp only [hn]; exact h.bound

theorem execBlock (h : Sees d f s x) (px : Nat) (hle : px ≤ docLen x.1) :
    ∃ s' r x', s.insertBlock px = some (s', r, s.snapshot) ∧ Sees d f s' x' ∧
      r.newPosition = ((px + 1 : Nat) : Int) ∧ BlockDone d f ⟨px, s.snapshot⟩ x x' := by
  obtain ⟨s', new, h1, h2, _, h4, h5⟩ := C18_insert_block h.flat px hle
  refine ⟨s', _, _, h1, h2.sees (h.sole.insertBlock h1), rfl, px, rfl, hle, ⟨new, rfl⟩, ?_, h.restores⟩
  have := h.bound
  simp only; omega

/-! ### The contract -/

def EditDone (d : Document) (f : Nat) : EditCmd → EState → EState → Prop
  | .insert c => InsertDone d f c
  | .delete c => DeleteDone d f c
  | .block c => BlockDone d f c

def EditUndone : EditCmd → List SPara → List SPara → Prop
  | .insert c, v, v' => ∃ px py : Nat, c.dto.position = (px : Int) ∧ c.dto.anchor = (py : Int) ∧
      max px py ≤ docLen v ∧
      v' = typeAt (min px py) c.dto.text (deleteBetween (min px py) (max px py) v) ∧
      c.result.newPosition = ((min px py + c.dto.text.length : Nat) : Int) ∧
      (deleteBetween (min px py) (max px py) v).length = v.length ∧ c.wasSelection = decide (px ≠ py)
  | .delete c, v, v' => ∃ px py : Nat, c.position = (px : Int) ∧ c.anchor = (py : Int) ∧
      max px py ≤ docLen v ∧ v' = deleteBetween (min px py) (max px py) v ∧
      c.result.newPosition = ((min px py : Nat) : Int) ∧ (c.single = true → px ≠ py)
  | .block c, v, v' => ∃ px : Nat, c.position = (px : Int) ∧ px ≤ docLen v ∧ v' = splitPara px 0 v

def editMark : EditCmd → Option Nat
  | .insert c => if c.wasSelection then some c.time else none
  | _ => none

theorem edit_undo_ok {c : EditCmd} (hc : EditDone d f c x x') (hs : Sees d f s x') :
    ∃ c' s0, editApi.undo c s = (true, c', s0) ∧ Sees d f s0 x ∧ EditUndone c' (look x.1) (look x'.1) ∧
      editMark c' = editMark c := by
  cases c with
  | insert c =>
    obtain ⟨px, py, h1, h2, h3, h4, h5, h6, h7, h8, h9, h10⟩ := hc
    have hun : EditUndone (.insert c) (look x.1) (look x'.1) :=
      ⟨px, py, h1, h2, by rw [docLen_look]; exact h3, by rw [h4, deleteBetween_look, typeAt_look], h5,
        by rw [deleteBetween_look, look_length, look_length]; exact h6, h7⟩
    by_cases hxy : px = py
    · obtain ⟨g1, u, g2, g3⟩ := h9 hxy
      have h4' : x'.1 = typeAt px c.dto.text x.1 := by
        rw [h4, hxy]; simp [deleteBetween_self]
      obtain ⟨s0, e1, e2⟩ := g3.undo h4' g1 h8 hs
      refine ⟨.insert c, s0, ?_, e2, hun, rfl⟩
      simp [editApi, EditCmd.undo, g2, e1]
    · obtain ⟨g1, snap, g2, g3⟩ := h10 hxy
      refine ⟨.insert c, s.restoreUndo snap, ?_, g3 s ?_, hun, rfl⟩
      · simp [editApi, EditCmd.undo, g2, Store.undoInsert]
      · have := hs.bound; omega
  | delete c =>
    obtain ⟨px, py, h1, h2, h3, h4, h5, h6, h7, h8, h9⟩ := hc
    refine ⟨.delete c, s.restoreUndo c.snap, rfl, h9 s ?_, ?_, rfl⟩
    · have := hs.bound; omega
    · exact ⟨px, py, h1, h2, by rw [docLen_look]; exact h3, by rw [h4, deleteBetween_look], h5, h6⟩
  | block c =>
    obtain ⟨px, h1, h2, ⟨new, h3⟩, h4, h5⟩ := hc
    refine ⟨.block c, s.restoreUndo c.snap, rfl, h5 s ?_, ?_, rfl⟩
    · have := hs.bound; omega
    · exact ⟨px, h1, by rw [docLen_look]; exact h2, by rw [h3, splitPara_look]⟩

theorem edit_redo_ok {c : EditCmd} {v' : List SPara} (hc : EditUndone c (look x.1) v') (hs : Sees d f s x) :
    ∃ c' s' x', editApi.redo c s = (true, c', s') ∧ Sees d f s' x' ∧ look x'.1 = v' ∧
      EditDone d f c' x x' ∧ editMark c' = editMark c := by
  cases c with
  | insert c =>
    obtain ⟨px, py, h1, h2, h3, h4, h5, h6, h7⟩ := hc
    rw [docLen_look] at h3
    rw [deleteBetween_look, look_length, look_length] at h6
    obtain ⟨s', r, u, x', e1, e2, e3⟩ := execInsert hs px py c.dto.text h3 h6
    have hdto : c.dto = ⟨(px : Int), (py : Int), c.dto.text⟩ := by rw [← h1, ← h2]
    refine ⟨.insert { c with undo := u }, s', x', ?_, e2, ?_, ?_, rfl⟩
    · simp only [editApi, EditCmd.redo]
      rw [hdto, e1]
    · obtain ⟨qx, qy, k1, k2, _, k4, _⟩ := e3 0
      simp only at k1 k2 k4
      have : qx = px := by omega
      subst this
      have : qy = py := by omega
      subst this
      rw [h4, k4, deleteBetween_look, typeAt_look]
    · obtain ⟨qx, qy, k1, k2, k3, k4, k5, k6, k7, k8, k9, k10⟩ := e3 0
      simp only at k1 k2 k4 k5 k7 k9 k10
      have : qx = px := by omega
      subst this
      have : qy = py := by omega
      subst this
      exact ⟨qx, qy, h1, h2, k3, k4, h5, k6, h7, k8, k9, k10⟩
  | delete c =>
    obtain ⟨px, py, h1, h2, h3, h4, h5, h6⟩ := hc
    rw [docLen_look] at h3
    obtain ⟨s', r, x', e1, e2, e3⟩ := execDelete hs px py h3
    obtain ⟨qx, qy, k1, k2, k3, k4, k5, k6, k7, k8, k9⟩ := e3 0
    simp only at k1 k2 k4 k9
    have : qx = px := by omega
    subst this
    have : qy = py := by omega
    subst this
    refine ⟨.delete { c with snap := s.snapshot }, s', x', ?_, e2, ?_, ?_, rfl⟩
    · simp only [editApi, EditCmd.redo]
      rw [h1, h2, e1]
    · rw [h4, k4, deleteBetween_look]
    · exact ⟨qx, qy, h1, h2, k3, k4, h5, h6, k7, k8, k9⟩
  | block c =>
    obtain ⟨px, h1, h2, h3⟩ := hc
    rw [docLen_look] at h2
    obtain ⟨s', r, x', e1, e2, _, e3⟩ := execBlock hs px h2
    obtain ⟨qx, k1, k2, ⟨new, k3⟩, k4, k5⟩ := e3
    simp only at k1 k5
    have : qx = px := by omega
    subst this
    refine ⟨.block { c with snap := s.snapshot }, s', x', ?_, e2, ?_, ?_, rfl⟩
    · simp only [editApi, EditCmd.redo]
      rw [h1, e1]
    · rw [h3, k3, splitPara_look]
    · exact ⟨qx, h1, k2, ⟨new, k3⟩, k4, k5⟩

theorem insert_merge_ok {a c : InsertCmd} {x'' : EState} (ha : a.wasSelection = false)
    (h1 : InsertDone d f a x x') (h2 : InsertDone d f c x' x'') (hm : a.canMerge c = true) :
    InsertDone d f (a.merge c) x x'' := by
  obtain ⟨px, py, a1, a2, a3, a4, a5, a6, a7, a8, a9, a10⟩ := h1
  obtain ⟨qx, qy, c1, c2, c3, c4, c5, c6, c7, c8, c9, c10⟩ := h2
  have hcs : c.wasSelection = false ∧ c.dto.position = a.result.newPosition := by
    unfold InsertCmd.canMerge at hm
    split at hm
    · simp at hm
    · split at hm
      · simp at hm
      · split at hm
        · simp at hm
        · rename_i _ hw hp
          exact ⟨by simpa using hw, by simpa using hp⟩
  have hp : px = py := by rw [ha] at a7; simpa using a7.symm
  have hq : qx = qy := by rw [hcs.1] at c7; simpa using c7.symm
  subst hp hq
  have hqx : qx = px + a.dto.text.length := by
    have := hcs.2
    rw [c1, a5] at this
    simp at this; omega
  subst hqx
  obtain ⟨e1, u1, e2, e3⟩ := a9 rfl
  obtain ⟨g1, u2, g2, g3⟩ := c9 rfl
  simp only [Nat.min_self, Nat.max_self, deleteBetween_self] at *
  refine ⟨px, px, a1, a1, by simpa using a3, ?_, ?_, by simp [deleteBetween_self], by simp [InsertCmd.merge, ha],
    a8, ?_, fun hh => absurd rfl hh⟩
  · simp only [InsertCmd.merge, Nat.min_self, Nat.max_self, deleteBetween_self]
    rw [c4, a4, typeAt_typeAt]
  · simp only [InsertCmd.merge, Nat.min_self]
    rw [c5]; simp [Nat.add_assoc]
  · intro _
    refine ⟨by rw [g1, e1], { u1 with byteLen := u1.byteLen + u2.byteLen }, ?_, ?_⟩
    · simp [InsertCmd.merge, mergeUndo, e2, g2]
    · exact e3.merge g3

theorem delete_merge_ok {a c : DeleteCmd} {x'' : EState} (h1 : DeleteDone d f a x x')
    (h2 : DeleteDone d f c x' x'') (hm : a.canMerge c = true) : DeleteDone d f (a.merge c) x x'' := by
  obtain ⟨px, py, a1, a2, a3, a4, a5, a6, a7, a8, a9⟩ := h1
  obtain ⟨qx, qy, c1, c2, c3, c4, c5, c6, c7, c8, c9⟩ := h2
  have hlen := docLen_deleteBetween (lo := min px py) (hi := max px py) a7 (by omega) a3
  rw [← a4] at hlen
  unfold DeleteCmd.canMerge at hm
  split at hm
  · simp at hm
  split at hm
  · simp at hm
  rename_i hsing
  split at hm
  · simp at hm
  rename_i hone
  split at hm
  · simp at hm
  rename_i hdir
  split at hm
  · simp at hm
  rename_i hb
  split at hm
  · simp at hm
  rename_i hfw
  have hne : px ≠ py := a6 (by simpa using hsing)
  have hone' : ((qx : Int) - qy).natAbs = 1 := by rw [c1, c2] at hone; simpa using hone
  rw [a1, a2, c1, c2] at hdir
  have hdir' : (px > py) ↔ (qx > qy) := by
    simp only [bne_iff_ne, ne_eq, decide_eq_decide, Decidable.not_not] at hdir
    omega
  by_cases hbk : px > py
  · -- backspace
    have hq := hdir'.mp hbk
    rw [a1, a2, c1, c2, a5] at hb
    have hmax : qx = py := by
      have : ¬ (max (qx : Int) qy ≠ ((min px py : Nat) : Int)) := fun hh => hb ⟨by omega, hh⟩
      omega
    have hqy : qy + 1 = qx := by omega
    refine ⟨px, qy, a1, ?_, ?_, ?_, ?_, ?_, a7, by omega, a9⟩
    · simp only [DeleteCmd.merge]
      rw [a1, a2, if_pos (by omega)]; omega
    · omega
    · rw [c4, a4]
      have := deleteBetween_backward qy py px x.1 (by omega) (by omega) (by omega)
      rw [show min px py = py by omega, show max px py = px by omega, show min qx qy = qy by omega,
        show max qx qy = py by omega, show min px qy = qy by omega, show max px qy = px by omega]
      exact this
    · simp only [DeleteCmd.merge]
      rw [c5]; congr 1; omega
    · intro _; omega
  · have hq : ¬ qx > qy := fun hh => hbk (hdir'.mpr hh)
    rw [a1, a2, c1, c2, a5] at hfw
    have hmin : qx = px := by
      have : ¬ (min (qx : Int) qy ≠ ((min px py : Nat) : Int)) := fun hh => hfw ⟨by omega, hh⟩
      omega
    have hqy : qy = qx + 1 := by omega
    refine ⟨px, py + 1, a1, ?_, ?_, ?_, ?_, ?_, a7, by omega, a9⟩
    · simp only [DeleteCmd.merge]
      rw [a1, a2, if_neg (by omega)]; omega
    · omega
    · rw [c4, a4]
      have := deleteBetween_forward px py 1 x.1 (by omega) (by omega)
      rw [show min px py = px by omega, show max px py = py by omega, show min qx qy = px by omega,
        show max qx qy = px + 1 by omega, show min px (py + 1) = px by omega,
        show max px (py + 1) = py + 1 by omega]
      exact this
    · simp only [DeleteCmd.merge]
      rw [c5]; congr 1; omega
    · intro _; omega

/-- The editing commands keep the contract of the time line. -/
def editContract (d : Document) (f : Nat) : ViewContract editApi EState (List SPara) where
  Sees := Sees d f
  view x := look x.1
  Done := EditDone d f
  Undone := EditUndone
  mark := editMark
  undo_ok := edit_undo_ok
  redo_ok := edit_redo_ok
  merge_ok := by
    intro a c x x' x'' hm h1 h2 hcm
    cases a with
    | insert a =>
      cases c with
      | insert c =>
        have ha : a.wasSelection = false := by
          cases hw : a.wasSelection with
          | false => rfl
          | true => simp [editMark, hw] at hm
        exact ⟨rfl, insert_merge_ok ha h1 h2 hcm, by simp [editApi, editMark, InsertCmd.merge, ha]⟩
      | delete c => simp [editApi] at hcm
      | block c => simp [editApi] at hcm
    | delete a =>
      cases c with
      | delete c => exact ⟨rfl, delete_merge_ok h1 h2 hcm, rfl⟩
      | insert c => simp [editApi] at hcm
      | block c => simp [editApi] at hcm
    | block a => cases c <;> simp [editApi] at hcm

end Verif
