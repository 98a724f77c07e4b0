import Verif.Spec.Editing
import Verif.Lemmas.FlatDelete
/- The editing commands of Spec/Editing.lean by paragraph, and what they do to the characters. -/
namespace Verif

variable {ps L R M : List SPara} {p : SPara} {a b m : List SChar}

@[simp] theorem SPara.text_length (p : SPara) : p.text.length = p.chars.length := by simp [SPara.text]

theorem docLen_cons (p : SPara) (hne : ps ≠ []) : docLen (p :: ps) = p.chars.length + 1 + docLen ps := by
  cases ps with
  | nil => exact absurd rfl hne
  | cons q qs => rfl

theorem docChars_cons (p : SPara) (hne : ps ≠ []) :
    docChars (p :: ps) = p.chars ++ ('\n', none) :: docChars ps := by
  cases ps with
  | nil => exact absurd rfl hne
  | cons q qs => rfl

theorem docChars_length (ps : List SPara) : (docChars ps).length = docLen ps := by
  induction ps with
  | nil => rfl
  | cons p ps ih =>
    by_cases h : ps = []
    · subst h; rfl
    · rw [docChars_cons p h, docLen_cons p h]; simp [ih]; omega

theorem docText_chars (ps : List SPara) : docText ps = (docChars ps).map Prod.fst := by
  induction ps with
  | nil => rfl
  | cons p ps ih =>
    cases ps with
    | nil => rfl
    | cons q qs =>
      rw [docChars_cons p (by simp)]
      simp only [docText, List.map_cons, joinNl, List.map_append] at ih ⊢
      rw [ih]; rfl

theorem charsBefore_paras_cons (q : SPara) (L : List SPara) :
    charsBefore (paras (q :: L)) = q.chars.length + 1 + charsBefore (paras L) := by
  simp [charsBefore, paras_cons]

@[simp] theorem charsBefore_paras_nil : charsBefore (paras []) = 0 := rfl

/-- Every position of a document lies in one of its paragraphs. -/
theorem locate (ps : List SPara) (hne : ps ≠ []) (pos : Nat) (h : pos ≤ docLen ps) :
    ∃ L p R a b, ps = L ++ p :: R ∧ p.chars = a ++ b ∧ pos = charsBefore (paras L) + a.length := by
  induction ps generalizing pos with
  | nil => exact absurd rfl hne
  | cons q qs ih =>
    by_cases hq : pos ≤ q.chars.length
    · exact ⟨[], q, qs, q.chars.take pos, q.chars.drop pos, rfl, by simp, by simp; omega⟩
    · by_cases hn : qs = []
      · subst hn; simp [docLen] at h; omega
      · rw [docLen_cons q hn] at h
        obtain ⟨L, p, R, a, b, h1, h2, h3⟩ := ih hn (pos - q.chars.length - 1) (by omega)
        refine ⟨q :: L, p, R, a, b, by simp [h1], h2, ?_⟩
        rw [charsBefore_paras_cons]; omega

theorem typeAt_eq (L R : List SPara) (t : List Char) (hc : p.chars = a ++ b) :
    typeAt (charsBefore (paras L) + a.length) t (L ++ p :: R) =
      L ++ { p with chars := a ++ styled t (inheritFmt a) ++ b } :: R := by
  induction L with
  | nil =>
    simp only [charsBefore_paras_nil, List.nil_append, Nat.zero_add, typeAt, hc]
    rw [if_pos (by simp), List.take_left, List.drop_left]
  | cons q L ih =>
    simp only [List.cons_append, typeAt, charsBefore_paras_cons]
    rw [if_neg (by omega)]
    congr 1
    rw [← ih]
    congr 1; omega

theorem splitPara_eq (L R : List SPara) (new : Nat) (hc : p.chars = a ++ b) :
    splitPara (charsBefore (paras L) + a.length) new (L ++ p :: R) =
      L ++ { p with chars := a } :: ⟨new, b, p.shape⟩ :: R := by
  induction L with
  | nil =>
    simp only [charsBefore_paras_nil, List.nil_append, Nat.zero_add, splitPara, hc]
    rw [if_pos (by simp), List.take_left, List.drop_left]
  | cons q L ih =>
    simp only [List.cons_append, splitPara, charsBefore_paras_cons]
    rw [if_neg (by omega)]
    congr 1
    rw [← ih]
    congr 1; omega

theorem restFrom_eq (L R : List SPara) (hc : p.chars = a ++ b) :
    restFrom (charsBefore (paras L) + a.length) (L ++ p :: R) = (b, R) := by
  induction L with
  | nil =>
    simp only [charsBefore_paras_nil, List.nil_append, Nat.zero_add, restFrom, hc]
    rw [if_pos (by simp), List.drop_left]
  | cons q L ih =>
    simp only [List.cons_append, restFrom, charsBefore_paras_cons]
    rw [if_neg (by omega), ← ih]
    congr 1; omega

theorem deleteBetween_at (L ps : List SPara) (lo hi : Nat) :
    deleteBetween (charsBefore (paras L) + lo) (charsBefore (paras L) + hi) (L ++ ps) =
      L ++ deleteBetween lo hi ps := by
  induction L with
  | nil => simp
  | cons q L ih =>
    simp only [List.cons_append, deleteBetween, charsBefore_paras_cons]
    rw [if_neg (by omega)]
    congr 1
    rw [← ih]
    congr 1 <;> omega

theorem deleteBetween_within (L R : List SPara) (hc : p.chars = a ++ m ++ b) :
    deleteBetween (charsBefore (paras L) + a.length) (charsBefore (paras L) + (a.length + m.length))
      (L ++ p :: R) = L ++ { p with chars := a ++ b } :: R := by
  rw [deleteBetween_at]
  congr 1
  have h1 : p.chars = (a ++ m) ++ b := hc
  have := restFrom_eq [] R h1
  simp only [charsBefore_paras_nil, Nat.zero_add, List.length_append, List.nil_append] at this
  simp only [deleteBetween]
  rw [if_pos (by simp [hc]), this]
  simp [hc]

theorem deleteBetween_over (L M R : List SPara) {p1 p2 : SPara} {a1 b1 a2 b2 : List SChar}
    (hc1 : p1.chars = a1 ++ b1) (hc2 : p2.chars = a2 ++ b2) :
    deleteBetween (charsBefore (paras L) + a1.length) (charsBefore (paras (L ++ p1 :: M)) + a2.length)
      (L ++ p1 :: (M ++ p2 :: R)) = L ++ { p1 with chars := a1 ++ b2 } :: R := by
  rw [paras_append, charsBefore_append, Nat.add_assoc, deleteBetween_at]
  congr 1
  have := restFrom_eq (p1 :: M) R hc2
  simp only [List.cons_append] at this
  simp only [deleteBetween]
  rw [if_pos (by simp [hc1]), this]
  simp [hc1]

/-! ### Effect on the characters -/

theorem docChars_append (L : List SPara) (hne : ps ≠ []) :
    docChars (L ++ ps) = (L.flatMap fun q => q.chars ++ [('\n', none)]) ++ docChars ps := by
  induction L with
  | nil => rfl
  | cons q L ih =>
    rw [List.cons_append, docChars_cons q (by simp [hne]), ih]
    simp

theorem length_flat (L : List SPara) :
    (L.flatMap fun q => q.chars ++ [('\n', none)] : List SChar).length = charsBefore (paras L) := by
  induction L with
  | nil => rfl
  | cons q L ih => rw [charsBefore_paras_cons]; simp [ih]; omega

theorem docChars_head (p : SPara) (cs : List SChar) (R : List SPara) :
    docChars ({ p with chars := cs } :: R) = cs ++ (docChars (p :: R)).drop p.chars.length := by
  cases R with
  | nil => simp [docChars]
  | cons q R =>
    rw [docChars_cons (ps := q :: R) _ (by simp), docChars_cons (ps := q :: R) p (by simp)]; simp

/-- The end of a document after the paragraph `p`. -/
def tailChars (R : List SPara) : List SChar := R.flatMap fun q => ('\n', none) :: q.chars

theorem docChars_tail (p : SPara) (R : List SPara) : docChars (p :: R) = p.chars ++ tailChars R := by
  induction R generalizing p with
  | nil => simp [docChars, tailChars]
  | cons q R ih => rw [docChars_cons _ (by simp), ih]; simp [tailChars]

/-- The beginning of a document before a paragraph. -/
def headChars (L : List SPara) : List SChar := L.flatMap fun q => q.chars ++ [('\n', none)]

theorem docChars_mid (L : List SPara) (p : SPara) (R : List SPara) :
    docChars (L ++ p :: R) = headChars L ++ (p.chars ++ tailChars R) := by
  rw [docChars_append L (by simp), docChars_tail]; rfl

theorem headChars_length (L : List SPara) : (headChars L).length = charsBefore (paras L) := length_flat L

theorem inheritFmt_head (L : List SPara) (a : List SChar) : inheritFmt (headChars L ++ a) = inheritFmt a := by
  unfold inheritFmt
  rcases List.eq_nil_or_concat a with rfl | ⟨a, c, rfl⟩
  · rcases List.eq_nil_or_concat L with rfl | ⟨L, q, rfl⟩
    · simp [headChars]
    · simp [headChars]
  · simp

theorem take_docChars (L R : List SPara) (hc : p.chars = a ++ b) :
    (docChars (L ++ p :: R)).take (charsBefore (paras L) + a.length) = headChars L ++ a := by
  rw [docChars_mid, hc, ← headChars_length]
  have : headChars L ++ (a ++ b ++ tailChars R) = (headChars L ++ a) ++ (b ++ tailChars R) := by simp
  rw [this, List.take_left' (by simp)]

theorem drop_docChars (L R : List SPara) (hc : p.chars = a ++ b) :
    (docChars (L ++ p :: R)).drop (charsBefore (paras L) + a.length) = b ++ tailChars R := by
  rw [docChars_mid, hc, ← headChars_length]
  have : headChars L ++ (a ++ b ++ tailChars R) = (headChars L ++ a) ++ (b ++ tailChars R) := by simp
  rw [this, List.drop_left' (by simp)]

theorem docChars_typeAt (t : List Char) {pos : Nat} (hne : ps ≠ []) (h : pos ≤ docLen ps) :
    docChars (typeAt pos t ps) = (docChars ps).take pos ++
      styled t (inheritFmt ((docChars ps).take pos)) ++ (docChars ps).drop pos := by
  obtain ⟨L, p, R, a, b, rfl, hc, rfl⟩ := locate ps hne pos h
  rw [typeAt_eq L R t hc, take_docChars L R hc, drop_docChars L R hc, inheritFmt_head, docChars_mid]
  simp

theorem docChars_splitPara (new : Nat) {pos : Nat} (hne : ps ≠ []) (h : pos ≤ docLen ps) :
    docChars (splitPara pos new ps) = (docChars ps).take pos ++ ('\n', none) :: (docChars ps).drop pos := by
  obtain ⟨L, p, R, a, b, rfl, hc, rfl⟩ := locate ps hne pos h
  rw [splitPara_eq L R new hc, take_docChars L R hc, drop_docChars L R hc, docChars_mid]
  simp [tailChars]

/-- The two ends of a range lie in one paragraph, or in two. -/
theorem locate_two (ps : List SPara) (hne : ps ≠ []) (lo hi : Nat) (hlh : lo ≤ hi) (h : hi ≤ docLen ps) :
    (∃ L p R a m b, ps = L ++ p :: R ∧ p.chars = a ++ m ++ b ∧ lo = charsBefore (paras L) + a.length ∧
      hi = charsBefore (paras L) + (a.length + m.length)) ∨
    (∃ L p1 M p2 R a1 b1 a2 b2, ps = L ++ p1 :: (M ++ p2 :: R) ∧ p1.chars = a1 ++ b1 ∧
      p2.chars = a2 ++ b2 ∧ lo = charsBefore (paras L) + a1.length ∧
      hi = charsBefore (paras (L ++ p1 :: M)) + a2.length) := by
  induction ps generalizing lo hi with
  | nil => exact absurd rfl hne
  | cons q qs ih =>
    by_cases hq : lo ≤ q.chars.length
    · by_cases hq2 : hi ≤ q.chars.length
      · left
        refine ⟨[], q, qs, q.chars.take lo, (q.chars.take hi).drop lo, q.chars.drop hi, rfl, ?_, ?_, ?_⟩
        · have h1 : q.chars.take lo = (q.chars.take hi).take lo := by rw [List.take_take, Nat.min_eq_left hlh]
          rw [h1, List.take_append_drop, List.take_append_drop]
        · simp; omega
        · simp; omega
      · right
        have hn : qs ≠ [] := by
          rintro rfl; simp [docLen] at h; omega
        rw [docLen_cons q hn] at h
        obtain ⟨M, p2, R, a2, b2, h1, h2, h3⟩ := locate qs hn (hi - q.chars.length - 1) (by omega)
        refine ⟨[], q, M, p2, R, q.chars.take lo, q.chars.drop lo, a2, b2, by simp [h1], by simp, h2,
          by simp; omega, ?_⟩
        rw [List.nil_append, charsBefore_paras_cons]; omega
    · have hn : qs ≠ [] := by
        rintro rfl; simp [docLen] at h; omega
      rw [docLen_cons q hn] at h
      rcases ih hn (lo - q.chars.length - 1) (hi - q.chars.length - 1) (by omega) (by omega) with
        ⟨L, p, R, a, m, b, h1, h2, h3, h4⟩ | ⟨L, p1, M, p2, R, a1, b1, a2, b2, h1, h2, h3, h4, h5⟩
      · left
        refine ⟨q :: L, p, R, a, m, b, by simp [h1], h2, ?_, ?_⟩ <;>
          rw [charsBefore_paras_cons] <;> omega
      · right
        refine ⟨q :: L, p1, M, p2, R, a1, b1, a2, b2, by simp [h1], h2, h3, ?_, ?_⟩
        · rw [charsBefore_paras_cons]; omega
        · rw [List.cons_append, charsBefore_paras_cons]; omega

theorem docChars_deleteBetween {lo hi : Nat} (hne : ps ≠ []) (hlh : lo ≤ hi) (h : hi ≤ docLen ps) :
    docChars (deleteBetween lo hi ps) = (docChars ps).take lo ++ (docChars ps).drop hi := by
  rcases locate_two ps hne lo hi hlh h with
    ⟨L, p, R, a, m, b, rfl, h2, rfl, rfl⟩ | ⟨L, p1, M, p2, R, a1, b1, a2, b2, rfl, h2, h3, rfl, rfl⟩
  · rw [deleteBetween_within L R h2]
    have e1 : p.chars = a ++ (m ++ b) := by simp [h2]
    have e2 : p.chars = (a ++ m) ++ b := h2
    have d2 := drop_docChars L R e2
    rw [List.length_append] at d2
    rw [take_docChars L R e1, d2, docChars_mid]
    simp
  · rw [deleteBetween_over L M R h2 h3, take_docChars L _ h2]
    have e : L ++ p1 :: (M ++ p2 :: R) = (L ++ p1 :: M) ++ p2 :: R := by simp
    rw [e, drop_docChars (L ++ p1 :: M) R h3, docChars_mid]
    simp

theorem charTotal_append (A B : List SPara) : charTotal (A ++ B) = charTotal A + charTotal B := by
  simp [charTotal]
theorem charTotal_cons (p : SPara) (B : List SPara) : charTotal (p :: B) = p.chars.length + charTotal B := rfl

theorem charTotal_typeAt (t : List Char) {pos : Nat} (hne : ps ≠ []) (h : pos ≤ docLen ps) :
    charTotal (typeAt pos t ps) = charTotal ps + t.length ∧ (typeAt pos t ps).length = ps.length := by
  obtain ⟨L, p, R, a, b, rfl, hc, rfl⟩ := locate ps hne pos h
  rw [typeAt_eq L R t hc]
  simp only [charTotal_append, charTotal_cons, hc, List.length_append, styled, List.length_map,
    List.length_cons, and_true]
  omega

theorem charTotal_splitPara (new : Nat) {pos : Nat} (hne : ps ≠ []) (h : pos ≤ docLen ps) :
    charTotal (splitPara pos new ps) = charTotal ps ∧ (splitPara pos new ps).length = ps.length + 1 := by
  obtain ⟨L, p, R, a, b, rfl, hc, rfl⟩ := locate ps hne pos h
  rw [splitPara_eq L R new hc]
  simp only [charTotal_append, charTotal_cons, hc, List.length_append, List.length_cons]
  omega

end Verif
