import Verif.Spec.Cursor
import Verif.Lemmas.Reads
import Verif.Props.Replace
/- Positions, clusters and cursors. -/
namespace Verif
open Store
variable {s : Store} {d : Document} {f : Nat} {ps : List SPara} {seg : Segmenter}

/-! ### Positions of paragraphs -/

theorem paraStart_succ {n : Nat} {p : SPara} (h : ps[n]? = some p) :
    paraStart ps (n + 1) = paraStart ps n + p.chars.length + 1 := by
  obtain ⟨hn, rfl⟩ := List.getElem?_eq_some_iff.mp h
  simp only [paraStart, List.take_succ_eq_append_getElem hn, List.map_append, List.sum_append]
  simp; omega

theorem paraStart_mono (ps : List SPara) {n m : Nat} (h : n ≤ m) : paraStart ps n ≤ paraStart ps m := by
  induction m with
  | zero => have : n = 0 := by omega
            subst this; exact Nat.le_refl _
  | succ m ih =>
    rcases Nat.lt_or_ge n (m + 1) with h1 | h1
    · refine Nat.le_trans (ih (by omega)) ?_
      by_cases hm : m < ps.length
      · rw [paraStart_succ (List.getElem?_eq_getElem hm)]; omega
      · simp [paraStart, List.take_of_length_le (show ps.length ≤ m by omega),
          List.take_of_length_le (show ps.length ≤ m + 1 by omega)]
    · have : n = m + 1 := by omega
      subst this; exact Nat.le_refl _

theorem paraStart_lt {n m : Nat} {p : SPara} (h : ps[n]? = some p) (hm : n < m) :
    paraStart ps n + p.chars.length + 1 ≤ paraStart ps m := by
  rw [← paraStart_succ h]; exact paraStart_mono ps hm

theorem pos_unique {n m k j : Nat} {p q : SPara} (hp : ps[n]? = some p) (hq : ps[m]? = some q)
    (hk : k ≤ p.chars.length) (hj : j ≤ q.chars.length) (e : paraStart ps n + k = paraStart ps m + j) :
    n = m ∧ k = j := by
  rcases Nat.lt_trichotomy n m with h | h | h
  · have := paraStart_lt hp h; omega
  · subst h; exact ⟨rfl, by omega⟩
  · have := paraStart_lt hq h; omega

theorem docLen_split (L R : List SPara) (p : SPara) :
    docLen (L ++ p :: R) = charsBefore (paras L) + p.chars.length + (tailChars R).length := by
  rw [← docChars_length, docChars_mid]
  simp only [List.length_append, headChars_length]; omega

theorem paraEnd_le {n : Nat} {p : SPara} (h : ps[n]? = some p) : paraStart ps n + p.chars.length ≤ docLen ps := by
  obtain ⟨L, R, rfl, _, e⟩ := para_split h
  rw [e, docLen_split]; omega

theorem paraEnd_lt {n : Nat} {p : SPara} (h : ps[n]? = some p) (h1 : n + 1 < ps.length) :
    paraStart ps n + p.chars.length < docLen ps := by
  have := paraEnd_le (List.getElem?_eq_getElem h1)
  rw [paraStart_succ h] at this; omega

theorem paraEnd_last {n : Nat} {p : SPara} (h : ps[n]? = some p) (h1 : ps.length ≤ n + 1) :
    paraStart ps n + p.chars.length = docLen ps := by
  obtain ⟨L, R, rfl, e0, e⟩ := para_split h
  have : R = [] := by
    cases R with
    | nil => rfl
    | cons q R => simp at h1; omega
  subst this
  rw [e, docLen_split]; simp [tailChars]

theorem docText_length (ps : List SPara) : (docText ps).length = docLen ps := by
  rw [docText_chars]; simp [docChars_length]

theorem text_length (p : SPara) : p.text.length = p.chars.length := by simp [SPara.text]

/-- Every position belongs to a paragraph. -/
theorem find_para (hne : ps ≠ []) {pos : Nat} (h : pos ≤ docLen ps) :
    ∃ n p k, ps[n]? = some p ∧ k ≤ p.chars.length ∧ pos = paraStart ps n + k := by
  obtain ⟨L, p, R, a, b, rfl, hc, rfl⟩ := locate ps hne pos h
  exact ⟨L.length, p, a.length, by simp, by simp [hc], by rw [paraStart_at]⟩

/-- The text read inside a paragraph. -/
theorem textAt_para (h : Reads s ps) {n : Nat} {p : SPara} (hp : ps[n]? = some p) {k m : Nat}
    (hk : k + m ≤ p.chars.length) :
    ∃ r, s.textAt ((paraStart ps n + k : Nat) : Int) (m : Int) = some r ∧ r.text = (p.text.drop k).take m := by
  have hle : paraStart ps n + k ≤ (docText ps).length := by
    rw [docText_length]; have := paraEnd_le hp; omega
  obtain ⟨r, h1, h2, _⟩ := h.textAt (paraStart ps n + k) m hle
  refine ⟨r, h1, ?_⟩
  obtain ⟨L, R, rfl, _, e⟩ := para_split hp
  rw [h2, e, docText_chars, docChars_mid, ← List.map_drop, ← headChars_length]
  rw [← List.drop_drop, List.drop_left, List.drop_append_of_le_length (by omega), List.map_append]
  rw [List.take_append_of_le_length (by simp; omega), List.map_drop]
  rfl

/-- The text read from the end of a paragraph begins with a newline. -/
theorem textAt_sep (h : Reads s ps) {n : Nat} {p q : SPara} (hp : ps[n]? = some p) (hq : ps[n + 1]? = some q)
    {m : Nat} (hm : 0 < m) :
    ∃ r t, s.textAt ((paraStart ps n + p.chars.length : Nat) : Int) (m : Int) = some r ∧ r.text = '\n' :: t := by
  have hle : paraStart ps n + p.chars.length ≤ (docText ps).length := by
    rw [docText_length]; exact paraEnd_le hp
  obtain ⟨r, h1, h2, _⟩ := h.textAt (paraStart ps n + p.chars.length) m hle
  obtain ⟨L, R, rfl, e0, e⟩ := para_split hp
  obtain ⟨R, rfl⟩ : ∃ R', R = q :: R' := by
    rw [List.getElem?_append_right (by omega)] at hq
    cases R with
    | nil => simp [e0] at hq
    | cons x R => simp [e0] at hq; exact ⟨R, by rw [hq]⟩
  obtain ⟨m, rfl⟩ : ∃ k, m = k + 1 := ⟨m - 1, by omega⟩
  refine ⟨r, r.text.tail, h1, ?_⟩
  rw [h2, e, docText_chars, docChars_mid, ← List.map_drop, ← headChars_length, ← List.drop_drop, List.drop_left,
    List.drop_left]
  simp only [tailChars, List.flatMap_cons, List.cons_append, List.map_cons, List.take_succ_cons, List.tail_cons]

/-! ### Places -/

theorem stop_le (hl : seg.Lawful) {pos : Nat} (h : IsStop seg ps pos) : pos ≤ docLen ps := by
  obtain ⟨n, p, a, b, hp, hg, rfl⟩ := h
  have h1 := congrArg List.length (hl.cover p.text)
  rw [hg, List.flatten_append, List.length_append, text_length] at h1
  have := paraEnd_le hp
  omega

theorem stop_start (hl : seg.Lawful) {n : Nat} {p : SPara} (hp : ps[n]? = some p) :
    IsStop seg ps (paraStart ps n) := ⟨n, p, [], seg.graphemes p.text, hp, rfl, by simp⟩

theorem stop_end (hl : seg.Lawful) {n : Nat} {p : SPara} (hp : ps[n]? = some p) :
    IsStop seg ps (paraStart ps n + p.chars.length) :=
  ⟨n, p, seg.graphemes p.text, [], hp, by simp, by rw [hl.cover, text_length]⟩

/-- Two ways to cut a list. -/
theorem append_cases {α : Type} {a b c e : List α} (h : a ++ b = c ++ e) (hlt : a.length < c.length) :
    ∃ x m, c = a ++ x :: m ∧ b = x :: m ++ e := by
  rcases List.append_eq_append_iff.mp h with ⟨m, h1, h2⟩ | ⟨m, h1, h2⟩
  · cases m with
    | nil => simp [h1] at hlt
    | cons x m => exact ⟨x, m, h1, h2⟩
  · rw [h1] at hlt; simp at hlt; omega

theorem flatten_len_mono {a c : List (List Char)} {b e : List (List Char)} (h : a ++ b = c ++ e)
    (hlt : a.flatten.length < c.flatten.length) : a.length < c.length := by
  rcases Nat.lt_or_ge a.length c.length with h1 | h1
  · exact h1
  · rcases List.append_eq_append_iff.mp h with ⟨m, h2, _⟩ | ⟨m, h2, _⟩
    · have : m = [] := by
        have := congrArg List.length h2; simp at this
        exact List.eq_nil_of_length_eq_zero (by omega)
      subst this; simp at h2; subst h2; omega
    · rw [h2] at hlt; simp at hlt; omega

/-- The cluster after a place inside a paragraph ends at the next place. -/
theorem nextStop_inside (hl : seg.Lawful) {n : Nat} {p : SPara} (hp : ps[n]? = some p) {a b : List (List Char)}
    {g : List Char} (hg : seg.graphemes p.text = a ++ g :: b) :
    NextStop seg ps (paraStart ps n + a.flatten.length) (paraStart ps n + a.flatten.length + g.length) := by
  have hgn : 0 < g.length := by
    have := hl.nonempty p.text g (by rw [hg]; simp)
    exact List.length_pos_iff.mpr this
  have hlen := congrArg List.length (hl.cover p.text)
  rw [hg] at hlen
  simp only [List.flatten_append, List.flatten_cons, List.length_append, text_length] at hlen
  refine ⟨⟨n, p, a ++ [g], b, hp, by rw [hg]; simp, by simp; omega⟩, by omega, ?_⟩
  rintro c ⟨m, q, a', b', hq, hg', rfl⟩ hlt
  have hlen' := congrArg List.length (hl.cover q.text)
  rw [hg'] at hlen'
  simp only [List.flatten_append, List.length_append, text_length] at hlen'
  rcases Nat.lt_trichotomy n m with h | h | h
  · have := paraStart_lt hp h; omega
  · subst h
    have : q = p := by rw [hp] at hq; exact (Option.some.inj hq).symm
    subst this
    have h1 : a ++ (g :: b) = a' ++ b' := by rw [← hg, hg']
    obtain ⟨x, m, h2, h3⟩ := append_cases h1 (flatten_len_mono h1 (by omega))
    have : x = g := by simp at h3; exact h3.1.symm
    subst this
    rw [h2]
    simp only [List.flatten_append, List.flatten_cons, List.length_append]; omega
  · have := paraStart_lt hq h; omega

/-- After the end of a paragraph comes the start of the following one. -/
theorem nextStop_end (hl : seg.Lawful) {n : Nat} {p q : SPara} (hp : ps[n]? = some p) (hq : ps[n + 1]? = some q) :
    NextStop seg ps (paraStart ps n + p.chars.length) (paraStart ps n + p.chars.length + 1) := by
  refine ⟨?_, by omega, ?_⟩
  · rw [← paraStart_succ hp]; exact stop_start hl hq
  · intro c _ h; omega

theorem nextStop_unique {a b c : Nat} (h1 : NextStop seg ps a b) (h2 : NextStop seg ps a c) : b = c := by
  have := h1.first c h2.stop h2.after
  have := h2.first b h1.stop h1.after
  omega

/-- Next and previous are inverse to each other. -/
theorem prevStop_of_next {a b : Nat} (ha : IsStop seg ps a) (h : NextStop seg ps a b) : PrevStop seg ps b a := by
  refine ⟨ha, h.after, ?_⟩
  intro c hc hlt
  rcases Nat.lt_or_ge a c with h1 | h1
  · have := h.first c hc h1; omega
  · exact h1

theorem nextStop_of_prev {a b : Nat} (ha : IsStop seg ps a) (h : PrevStop seg ps a b) : NextStop seg ps b a := by
  refine ⟨ha, h.before, ?_⟩
  intro c hc hlt
  rcases Nat.lt_or_ge c a with h1 | h1
  · have := h.last c hc h1; omega
  · exact h1

/-- Where a place that is not the end of the document lies. -/
theorem stop_cases (hl : seg.Lawful) {pos : Nat} (h : IsStop seg ps pos) (hlt : pos < docLen ps) :
    ∃ n p, ps[n]? = some p ∧
      ((∃ a g b, seg.graphemes p.text = a ++ g :: b ∧ pos = paraStart ps n + a.flatten.length) ∨
       (∃ q, ps[n + 1]? = some q ∧ pos = paraStart ps n + p.chars.length)) := by
  obtain ⟨n, p, a, b, hp, hg, rfl⟩ := h
  refine ⟨n, p, hp, ?_⟩
  cases b with
  | cons g b => exact .inl ⟨a, g, b, hg, rfl⟩
  | nil =>
    have hlen := congrArg List.length (hl.cover p.text)
    rw [hg, List.append_nil, text_length] at hlen
    rw [hlen] at hlt ⊢
    by_cases h1 : n + 1 < ps.length
    · exact .inr ⟨ps[n + 1], List.getElem?_eq_getElem h1, rfl⟩
    · have := paraEnd_last hp (by omega); omega

theorem nextStop_exists (hl : seg.Lawful) {pos : Nat} (h : IsStop seg ps pos) (hlt : pos < docLen ps) :
    ∃ q, NextStop seg ps pos q := by
  obtain ⟨n, p, hp, ⟨a, g, b, hg, rfl⟩ | ⟨q, hq, rfl⟩⟩ := stop_cases hl h hlt
  · exact ⟨_, nextStop_inside hl hp hg⟩
  · exact ⟨_, nextStop_end hl hp hq⟩

/-! ### The paragraph at a position -/

theorem blockAt_inside (h : Reads s ps) {n k : Nat} {p : SPara} (hp : ps[n]? = some p) (hk : k ≤ p.chars.length)
    (hc : k < p.chars.length ∨ p.chars = [] ∨ ps[n + 1]? = none) :
    s.blockAt ((paraStart ps n + k : Nat) : Int) = some (infoOf ps n p) :=
  (h.blockAt n p k hp hk).1 hc

theorem blockAt_end (h : Reads s ps) {n : Nat} {p q : SPara} (hp : ps[n]? = some p) (hq : ps[n + 1]? = some q)
    (hne : p.chars ≠ []) :
    s.blockAt ((paraStart ps n + p.chars.length : Nat) : Int) = some (infoOf ps (n + 1) q) :=
  (h.blockAt n p p.chars.length hp (Nat.le_refl _)).2 q rfl hne hq

/-! ### Steps between places -/

theorem nextGrapheme_next (hl : seg.Lawful) (h : Reads s ps) (hm : maxCursor s = some (docLen ps)) {pos : Nat}
    (hs : IsStop seg ps pos) (hlt : pos < docLen ps) : NextStop seg ps pos (s.nextGrapheme seg pos) := by
  obtain ⟨n, p, hp, ⟨a, g, b, hg, rfl⟩ | ⟨q, hq, rfl⟩⟩ := stop_cases hl hs hlt
  · have hn := nextStop_inside hl hp hg
    have hle := stop_le hl hn.stop
    have hgn : g ≠ [] := hl.nonempty p.text g (by rw [hg]; simp)
    have hlen := congrArg List.length (hl.cover p.text)
    rw [hg] at hlen
    simp only [List.flatten_append, List.flatten_cons, List.length_append, text_length] at hlen
    have hgp := List.length_pos_iff.mpr hgn
    obtain ⟨r, h1, h2⟩ := textAt_para h hp (k := a.flatten.length) (m := p.chars.length - a.flatten.length) (by omega)
    have htext : r.text = (g :: b).flatten := by
      rw [h2, List.take_of_length_le (by simp [text_length])]
      have := hl.cover p.text
      rw [hg, List.flatten_append] at this
      rw [← this, List.drop_left]
    have he : s.nextGrapheme seg (paraStart ps n + a.flatten.length) =
        paraStart ps n + a.flatten.length + g.length := by
      unfold Store.nextGrapheme
      rw [hm, Option.getD_some]
      dsimp only
      rw [if_neg (by omega), blockAt_inside h hp (k := a.flatten.length) (by omega) (.inl (by omega))]
      dsimp only [infoOf]
      rw [Int.toNat_natCast, Int.toNat_natCast, Nat.add_sub_cancel_left, if_neg (by omega), h1]
      dsimp only
      rw [htext, (hl.cut p.text a (g :: b) hg).2]
      simp only [List.head?_cons, ne_eq, hgn, not_false_eq_true, if_true]
      omega
    rw [he]; exact hn
  · have hn := nextStop_end (seg := seg) hl hp hq
    have hle := stop_le hl hn.stop
    have he : s.nextGrapheme seg (paraStart ps n + p.chars.length) = paraStart ps n + p.chars.length + 1 := by
      unfold Store.nextGrapheme
      rw [hm, Option.getD_some]
      dsimp only
      rw [if_neg (by omega)]
      by_cases hpe : p.chars = []
      · rw [blockAt_inside h hp (k := p.chars.length) (Nat.le_refl _) (.inr (.inl hpe))]
        dsimp only [infoOf]
        rw [Int.toNat_natCast, Int.toNat_natCast, if_pos (by omega)]
        omega
      · rw [blockAt_end h hp hq hpe]
        dsimp only [infoOf]
        rw [Int.toNat_natCast, Int.toNat_natCast, paraStart_succ hp]
        by_cases hqe : q.chars.length = 0
        · rw [if_pos (by omega)]; omega
        · rw [if_neg (by omega)]
          obtain ⟨r, t, h1, h2⟩ := textAt_sep h hp hq
            (m := q.chars.length - (paraStart ps n + p.chars.length - (paraStart ps n + p.chars.length + 1))) (by omega)
          rw [h1]
          dsimp only
          rw [h2, hl.newline]
          simp only [List.head?_cons, ne_eq, List.cons_ne_nil, not_false_eq_true, if_true, List.length_cons,
            List.length_nil]
          omega
    rw [he]; exact hn

theorem nextGrapheme_end (hm : maxCursor s = some (docLen ps)) : s.nextGrapheme seg (docLen ps) = docLen ps := by
  unfold Store.nextGrapheme
  rw [hm, Option.getD_some]
  simp

theorem prevGrapheme_prev (hl : seg.Lawful) (h : Reads s ps) {pos : Nat}
    (hs : IsStop seg ps pos) (hlt : 0 < pos) : PrevStop seg ps pos (s.prevGrapheme seg pos) := by
  obtain ⟨n, p, a, b, hp, hg, rfl⟩ := hs
  have hlen := congrArg List.length (hl.cover p.text)
  rw [hg] at hlen
  simp only [List.flatten_append, List.length_append, text_length] at hlen
  rcases List.eq_nil_or_concat a with rfl | ⟨a, g, rfl⟩
  · -- the start of a paragraph
    simp only [List.flatten_nil, List.length_nil, Nat.add_zero] at hlt ⊢
    obtain ⟨m, rfl⟩ : ∃ m, n = m + 1 := by
      cases n with
      | zero => simp [paraStart] at hlt
      | succ m => exact ⟨m, rfl⟩
    have hml : m < ps.length := by have := (List.getElem?_eq_some_iff.mp hp).1; omega
    have hq := List.getElem?_eq_getElem hml
    generalize ps[m] = q at hq
    have hn := prevStop_of_next (stop_end hl hq) (nextStop_end hl hq hp)
    rw [paraStart_succ hq]
    have he : s.prevGrapheme seg (paraStart ps m + q.chars.length + 1) = paraStart ps m + q.chars.length := by
      unfold Store.prevGrapheme
      rw [if_neg (by omega), Nat.add_sub_cancel]
      by_cases hqe : q.chars = []
      · rw [blockAt_inside h hq (k := q.chars.length) (Nat.le_refl _) (.inr (.inl hqe))]
        dsimp only [infoOf]
        rw [Int.toNat_natCast, Int.toNat_natCast, if_pos (by omega)]
      · rw [blockAt_end h hq hp hqe]
        dsimp only [infoOf]
        rw [Int.toNat_natCast, Int.toNat_natCast, paraStart_succ hq, if_neg (by omega), if_pos (by omega)]
    rw [he]; exact hn
  · rw [List.concat_eq_append] at hg hlen hlt ⊢
    rw [List.append_assoc, List.singleton_append] at hg
    have hn := nextStop_inside hl hp hg
    have hgn : g ≠ [] := hl.nonempty p.text g (by rw [hg]; simp)
    have hgp := List.length_pos_iff.mpr hgn
    simp only [List.flatten_append, List.flatten_cons, List.flatten_nil, List.length_append, List.append_nil] at hlen ⊢
    rw [show paraStart ps n + (a.flatten.length + g.length) = paraStart ps n + a.flatten.length + g.length by omega]
    have hp2 := prevStop_of_next ⟨n, p, a, g :: b, hp, hg, rfl⟩ hn
    have he : s.prevGrapheme seg (paraStart ps n + a.flatten.length + g.length) = paraStart ps n + a.flatten.length := by
      unfold Store.prevGrapheme
      rw [if_neg (by omega), show paraStart ps n + a.flatten.length + g.length - 1 =
        paraStart ps n + (a.flatten.length + g.length - 1) by omega,
        blockAt_inside h hp (k := a.flatten.length + g.length - 1) (by omega) (.inl (by omega))]
      dsimp only [infoOf]
      rw [Int.toNat_natCast, Int.toNat_natCast, if_neg (by omega), if_neg (by omega)]
      obtain ⟨r, h1, h2⟩ := textAt_para h hp (k := 0) (m := a.flatten.length + g.length) (by omega)
      rw [Nat.add_zero] at h1
      rw [show paraStart ps n + a.flatten.length + g.length - paraStart ps n = a.flatten.length + g.length by omega, h1]
      dsimp only
      have htext : r.text = (a ++ [g]).flatten := by
        have h3 : p.text = (a ++ [g]).flatten ++ b.flatten := by
          rw [← List.flatten_append, List.append_assoc, List.singleton_append, ← hg, hl.cover]
        rw [h2, List.drop_zero, h3, List.take_append_of_le_length (by simp), List.take_of_length_le (by simp)]
      rw [htext, (hl.cut p.text (a ++ [g]) b (by rw [hg]; simp)).1]
      simp only [List.getLast?_append, List.getLast?_singleton, Option.some_or, ne_eq, hgn, not_false_eq_true, if_true]
      omega
    rw [he]; exact hp2

/-! ### Snapping -/

theorem snapScan_spec (off : Nat) (gs : List (List Char)) (acc : Nat) :
    ∃ a b, gs = a ++ b ∧ snapScan off acc gs = acc + a.flatten.length ∧
      (off ≤ acc + gs.flatten.length → off ≤ acc + a.flatten.length) ∧
      (∀ a' b', gs = a' ++ b' → off ≤ acc + a'.flatten.length → acc + a.flatten.length ≤ acc + a'.flatten.length) := by
  induction gs generalizing acc with
  | nil => exact ⟨[], [], rfl, by simp [snapScan], by simp, by simp⟩
  | cons g gs ih =>
    unfold snapScan
    by_cases h : acc ≥ off
    · rw [if_pos h]
      exact ⟨[], g :: gs, rfl, by simp, by simp; omega, by simp⟩
    · rw [if_neg h]
      obtain ⟨a, b, h1, h2, h3, h4⟩ := ih (acc + g.length)
      refine ⟨g :: a, b, by rw [h1]; rfl, by rw [h2]; simp; omega, ?_, ?_⟩
      · intro h5
        simp only [List.flatten_cons, List.length_append] at h5 ⊢
        have := h3 (by omega); omega
      · intro a' b' h5 h6
        cases a' with
        | nil => simp at h6; omega
        | cons x a' =>
          simp only [List.cons_append, List.cons.injEq] at h5
          obtain ⟨rfl, h5⟩ := h5
          simp only [List.flatten_cons, List.length_append] at h6 ⊢
          have := h4 a' b' h5 (by omega)
          omega

theorem firstStop_self {a : Nat} (h : IsStop seg ps a) : FirstStop seg ps a a := ⟨h, Nat.le_refl _, fun _ _ h => h⟩

theorem snapForward_first (hl : seg.Lawful) (h : Reads s ps) (hm : maxCursor s = some (docLen ps)) {pos : Nat}
    (hle : pos ≤ docLen ps) : FirstStop seg ps pos (s.snapForward seg pos) := by
  obtain ⟨n, p, k, hp, hk, rfl⟩ := find_para h.nonempty hle
  unfold Store.snapForward
  rw [hm, Option.getD_some]
  have hlast : paraStart ps n + k ≥ docLen ps → IsStop seg ps (paraStart ps n + k) := by
    intro h1
    have h2 := paraEnd_le hp
    have : k = p.chars.length := by omega
    subst this; exact stop_end hl hp
  by_cases hd : paraStart ps n + k ≥ docLen ps
  · rw [if_pos hd]; exact firstStop_self (hlast hd)
  · rw [if_neg hd]
    by_cases hke : k < p.chars.length
    · rw [blockAt_inside h hp (by omega) (.inl hke)]
      dsimp only [infoOf]
      rw [Int.toNat_natCast, Int.toNat_natCast, Nat.add_sub_cancel_left]
      by_cases hk0 : k = 0
      · subst hk0
        rw [if_pos (.inl rfl)]; exact firstStop_self (stop_start hl hp)
      · rw [if_neg (by omega)]
        obtain ⟨r, h1, h2⟩ := textAt_para h hp (k := 0) (m := p.chars.length) (by omega)
        rw [Nat.add_zero] at h1
        rw [h1]
        dsimp only
        have ht : r.text = p.text := by rw [h2, List.drop_zero, List.take_of_length_le (by simp [text_length])]
        rw [ht]
        obtain ⟨a, b, g1, g2, g3, g4⟩ := snapScan_spec k (seg.graphemes p.text) 0
        rw [g2, Nat.zero_add]
        rw [hl.cover, text_length] at g3
        refine ⟨⟨n, p, a, b, hp, g1, rfl⟩, by have := g3 (by omega); omega, ?_⟩
        rintro c ⟨m, q, a', b', hq, hg', rfl⟩ hc
        have hlen' := congrArg List.length (hl.cover q.text)
        rw [hg'] at hlen'
        have hlena := congrArg List.length (hl.cover p.text)
        rw [g1] at hlena
        simp only [List.flatten_append, List.length_append, text_length] at hlen' hlena
        rcases Nat.lt_trichotomy n m with h | h | h
        · have := paraStart_lt hp h; omega
        · subst h
          have : q = p := by rw [hp] at hq; exact (Option.some.inj hq).symm
          subst this
          have := g4 a' b' hg' (by omega)
          omega
        · have := paraStart_lt hq h; omega
    · have hkl : k = p.chars.length := by omega
      subst hkl
      have hstop : IsStop seg ps (paraStart ps n + p.chars.length) := stop_end hl hp
      have h1 : n + 1 < ps.length := by
        rcases Nat.lt_or_ge (n + 1) ps.length with h1 | h1
        · exact h1
        · have := paraEnd_last hp h1; omega
      have hq := List.getElem?_eq_getElem h1
      by_cases hpe : p.chars = []
      · rw [blockAt_inside h hp (Nat.le_refl _) (.inr (.inl hpe))]
        dsimp only [infoOf]
        rw [Int.toNat_natCast, Int.toNat_natCast, if_pos (by right; omega)]
        exact firstStop_self hstop
      · rw [blockAt_end h hp hq hpe]
        dsimp only [infoOf]
        rw [Int.toNat_natCast, Int.toNat_natCast, paraStart_succ hp, if_pos (by left; omega)]
        exact firstStop_self hstop

theorem firstStop_unique {a b c : Nat} (h1 : FirstStop seg ps a b) (h2 : FirstStop seg ps a c) : b = c := by
  have := h1.first c h2.stop h2.after
  have := h2.first b h1.stop h1.after
  omega

/-! ### No table -/

theorem tableCellOf_none (h : Flat s d f ps) (hn : NoCells s f) {id : Nat} (hid : id ∈ ps.map SPara.id) :
    s.tableCellOf id = none := by
  unfold Store.tableCellOf
  cases hpf : s.parentFrame id with
  | none => rfl
  | some g =>
    rw [Option.bind_some]
    have hg : g = f := by
      unfold Store.parentFrame at hpf
      have h1 := List.find?_some hpf
      cases hgf : s.frames g with
      | none => simp [hgf] at h1
      | some fr =>
        simp only [hgf, Option.map_some, Option.getD_some, List.contains_iff_mem] at h1
        by_cases e : g = f
        · exact e
        · exact absurd hid (h.others g fr hgf e id h1).1
    subst hg
    have hc : ∀ tb : Table, s.cellIn tb g = none := by
      intro tb
      unfold Store.cellIn
      rw [List.findSome?_eq_none_iff]
      intro c _
      cases hcc : s.tableCells c with
      | none => rfl
      | some cell => rw [Option.bind_some, if_neg (hn c cell hcc)]
    have hall : (s.tables.keys.findSome? fun k => (s.tables k).bind fun tb => s.cellIn tb g) = none := by
      rw [List.findSome?_eq_none_iff]
      intro k _
      cases s.tables k with
      | none => rfl
      | some tb => rw [Option.bind_some, hc]
    cases s.frames g with
    | none => rfl
    | some fr =>
      rw [Option.bind_some]
      cases fr.table with
      | none => exact hall
      | some t =>
        dsimp only
        cases s.tables t with
        | none => rfl
        | some tb => rw [Option.bind_some, hc]; exact hall

theorem blockAt_mem (h : Reads s ps) (pos : Nat) : ∃ n p, ps[n]? = some p ∧ s.blockAt (pos : Int) = some (infoOf ps n p) := by
  by_cases hle : pos ≤ docLen ps
  · obtain ⟨n, p, k, hp, hk, rfl⟩ := find_para h.nonempty hle
    by_cases hc : k < p.chars.length ∨ p.chars = [] ∨ ps[n + 1]? = none
    · exact ⟨n, p, hp, blockAt_inside h hp hk hc⟩
    · have h1 : k = p.chars.length := by omega
      have h2 : p.chars ≠ [] := fun e => hc (.inr (.inl e))
      cases hq : ps[n + 1]? with
      | none => exact absurd (.inr (.inr hq)) hc
      | some q => subst h1; exact ⟨n + 1, q, hq, blockAt_end h hp hq h2⟩
  · obtain ⟨p, h1, h2⟩ := h.beyond pos (by rw [docText_length]; omega)
    refine ⟨ps.length - 1, p, ?_, h2⟩
    rw [List.getLast?_eq_getElem?] at h1; exact h1

theorem tableCellAt_none (h : Flat s d f ps) (hn : NoCells s f) (pos : Nat) : s.tableCellAt pos = none := by
  obtain ⟨n, p, hp, e⟩ := blockAt_mem h.reads pos
  unfold Store.tableCellAt
  rw [e, Option.bind_some]
  have hm : ∀ {m : Nat} {q : SPara}, ps[m]? = some q → q.id ∈ ps.map SPara.id := by
    intro m q hq; exact List.mem_map.mpr ⟨q, List.mem_of_getElem? hq, rfl⟩
  split
  · obtain ⟨m, q, hq, e2⟩ := blockAt_mem h.reads (pos - 1)
    rw [e2, Option.bind_some]
    exact tableCellOf_none h hn (hm hq)
  · exact tableCellOf_none h hn (hm hp)

/-- `set_position` where no table is crossed. -/
theorem placeCursor_spec (hl : seg.Lawful) (h : Reads s ps) (hm : maxCursor s = some (docLen ps)) {keep : Bool} (c : Cursor)
    (x : Nat) (hn : keep = true → s.keepOutside c.anchor (min x (docLen ps)) = min x (docLen ps)) :
    ∃ q, FirstStop seg ps (min x (docLen ps)) q ∧
      s.placeCursor seg c x keep =
        ⟨q, if keep then (if c.anchor = min x (docLen ps) then q else c.anchor) else q, false⟩ := by
  refine ⟨_, snapForward_first hl h hm (Nat.min_le_right x (docLen ps)), ?_⟩
  unfold Store.placeCursor
  have hx : (if keep = true then s.keepOutside c.anchor (min x (docLen ps)) else min x (docLen ps)) =
      min x (docLen ps) := by
    split
    · next hk => exact hn hk
    · rfl
  simp only [hm, Option.getD_some]
  rw [hx]
  unfold Store.snapCursor
  dsimp only
  generalize s.snapForward seg (min x (docLen ps)) = q
  cases keep with
  | false =>
    simp only [Bool.false_eq_true, if_false, if_true]
    split
    · rfl
    · next h => simp only [ne_eq, Decidable.not_not] at h; rw [h]
  | true =>
    simp only [if_true]
    by_cases hq : q = min x (docLen ps)
    · rw [if_neg (by simp [hq])]
      split
      · next h1 => rw [h1, hq]
      · rw [hq]
    · rw [if_pos hq]

/-- Without tables a selection may end anywhere. -/
theorem keepOutside_flat (h : Flat s d f ps) (hn : NoCells s f) (a x : Nat) : s.keepOutside a x = x := by
  unfold Store.keepOutside
  rw [tableCellAt_none h hn, tableCellAt_none h hn]

/-! ### Words -/

theorem wordScan_spec (off : Nat) (ws : List (Nat × Nat)) (last : Nat × Nat) :
    (∃ w ∈ ws, w.1 ≤ off ∧ off < w.1 + w.2 ∧ wordScan off last ws = .inl (w.1, w.1 + w.2)) ∨
    ((∀ w ∈ ws, ¬ (w.1 ≤ off ∧ off < w.1 + w.2)) ∧
      wordScan off last ws = .inr ((ws.getLast?.map fun w => (w.1, w.1 + w.2)).getD last)) := by
  induction ws generalizing last with
  | nil => right; exact ⟨by simp, rfl⟩
  | cons w ws ih =>
    obtain ⟨a, n⟩ := w
    unfold wordScan
    by_cases h : off ≥ a ∧ off < a + n
    · left; exact ⟨(a, n), by simp, h.1, h.2, by rw [if_pos h]⟩
    · rw [if_neg h]
      rcases ih (a, a + n) with ⟨w, h1, h2⟩ | ⟨h1, h2⟩
      · left; exact ⟨w, by simp [h1], h2⟩
      · right
        refine ⟨?_, ?_⟩
        · intro w hw
          rcases List.mem_cons.mp hw with rfl | hw
          · exact h
          · exact h1 w hw
        · rw [h2, List.getLast?_cons]
          cases ws.getLast? <;> rfl

theorem wordAt_unique (hl : seg.Lawful) {t : List Char} {v w : Nat × Nat} {k : Nat} (hv : v ∈ seg.words t)
    (hw : w ∈ seg.words t) (h1 : v.1 ≤ k ∧ k < v.1 + v.2) (h2 : w.1 ≤ k ∧ k < w.1 + w.2) : v = w := by
  have ho := hl.ordered t
  generalize seg.words t = ws at hv hw ho
  induction ws with
  | nil => simp at hv
  | cons a ws ih =>
    rw [List.pairwise_cons] at ho
    rcases List.mem_cons.mp hv with rfl | hv' <;> rcases List.mem_cons.mp hw with rfl | hw'
    · rfl
    · have := ho.1 w hw'; omega
    · have := ho.1 v hv'; omega
    · exact ih hv' hw' ho.2

/-- The word at a position inside a paragraph. -/
theorem wordBounds_in (hl : seg.Lawful) (h : Reads s ps) {n k : Nat} {p : SPara} (hp : ps[n]? = some p)
    {w : Nat × Nat} (hw : w ∈ seg.words p.text) (h1 : w.1 ≤ k) (h2 : k < w.1 + w.2) :
    s.wordBounds seg (paraStart ps n + k) = (paraStart ps n + w.1, paraStart ps n + w.1 + w.2) := by
  have hin := (hl.inside p.text w hw).2
  rw [text_length] at hin
  unfold Store.wordBounds
  rw [blockAt_inside h hp (by omega) (.inl (by omega))]
  dsimp only [infoOf]
  rw [Int.toNat_natCast, Int.toNat_natCast, if_neg (by omega)]
  obtain ⟨r, g1, g2⟩ := textAt_para h hp (k := 0) (m := p.chars.length) (by omega)
  rw [Nat.add_zero] at g1
  rw [g1]
  dsimp only
  rw [g2, List.drop_zero, List.take_of_length_le (by simp [text_length]), Nat.add_sub_cancel_left]
  rcases wordScan_spec k (seg.words p.text) (0, 0) with ⟨v, k1, k2, k3, k4⟩ | ⟨k1, _⟩
  · rw [k4]
    have := wordAt_unique hl k1 hw ⟨k2, k3⟩ ⟨h1, h2⟩
    subst this
    dsimp only; rw [Nat.add_assoc]
  · exact absurd ⟨h1, h2⟩ (k1 w hw)

/-- The position is outside all words of its paragraph. -/
theorem wordBounds_out (hl : seg.Lawful) (h : Reads s ps) {n k : Nat} {p : SPara} (hp : ps[n]? = some p)
    (hk : k ≤ p.chars.length) (hc : k < p.chars.length ∨ p.chars = [] ∨ ps[n + 1]? = none)
    (hout : ∀ w ∈ seg.words p.text, ¬ (w.1 ≤ k ∧ k < w.1 + w.2)) :
    s.wordBounds seg (paraStart ps n + k) =
      match (seg.words p.text).getLast? with
      | some w => if k = w.1 + w.2 then (paraStart ps n + w.1, paraStart ps n + w.1 + w.2)
          else (paraStart ps n + k, paraStart ps n + k)
      | none => (paraStart ps n + k, paraStart ps n + k) := by
  unfold Store.wordBounds
  rw [blockAt_inside h hp hk hc]
  dsimp only [infoOf]
  rw [Int.toNat_natCast, Int.toNat_natCast]
  by_cases h0 : p.chars.length = 0
  · rw [if_pos h0]
    have ht : p.text = [] := List.length_eq_zero_iff.mp (by rw [text_length, h0])
    have hw : seg.words p.text = [] := by
      rw [List.eq_nil_iff_forall_not_mem]
      intro w hw
      have := hl.inside _ w hw
      rw [ht] at this; simp at this; omega
    rw [hw]; rfl
  · rw [if_neg h0]
    obtain ⟨r, g1, g2⟩ := textAt_para h hp (k := 0) (m := p.chars.length) (by omega)
    rw [Nat.add_zero] at g1
    rw [g1]
    dsimp only
    rw [g2, List.drop_zero, List.take_of_length_le (by simp [text_length]), Nat.add_sub_cancel_left]
    rcases wordScan_spec k (seg.words p.text) (0, 0) with ⟨v, k1, k2, k3, k4⟩ | ⟨_, k2⟩
    · exact absurd ⟨k2, k3⟩ (hout v k1)
    · rw [k2]
      dsimp only
      cases hlast : (seg.words p.text).getLast? with
      | none => simp
      | some w =>
        simp only [Option.map_some, Option.getD_some]
        have := (hl.inside p.text w (List.mem_of_getLast? hlast)).1
        by_cases hh : k = w.1 + w.2
        · rw [if_pos ⟨hh, by omega⟩, if_pos hh]
          simp only [Prod.mk.injEq, true_and]; omega
        · rw [if_neg (fun x => hh x.1), if_neg hh]

/-- In any case the result is a word of a paragraph, or nothing. -/
theorem wordBounds_cases (hl : seg.Lawful) (h : Reads s ps) (pos : Nat) :
    s.wordBounds seg pos = (pos, pos) ∨
    ∃ n p w, ps[n]? = some p ∧ w ∈ seg.words p.text ∧
      s.wordBounds seg pos = (paraStart ps n + w.1, paraStart ps n + w.1 + w.2) := by
  obtain ⟨n, p, hp, hb⟩ := blockAt_mem h pos
  unfold Store.wordBounds
  rw [hb]
  dsimp only [infoOf]
  rw [Int.toNat_natCast, Int.toNat_natCast]
  by_cases h0 : p.chars.length = 0
  · rw [if_pos h0]; exact .inl rfl
  · rw [if_neg h0]
    obtain ⟨r, g1, g2⟩ := textAt_para h hp (k := 0) (m := p.chars.length) (by omega)
    rw [Nat.add_zero] at g1
    rw [g1]
    dsimp only
    rw [g2, List.drop_zero, List.take_of_length_le (by simp [text_length])]
    rcases wordScan_spec (pos - paraStart ps n) (seg.words p.text) (0, 0) with ⟨v, k1, k2, k3, k4⟩ | ⟨_, k2⟩
    · rw [k4]; right; exact ⟨n, p, v, hp, k1, by dsimp only; rw [Nat.add_assoc]⟩
    · rw [k2]
      dsimp only
      split
      · next hh =>
        cases hlast : (seg.words p.text).getLast? with
        | none => rw [hlast] at hh; simp at hh
        | some w =>
          right
          refine ⟨n, p, w, hp, List.mem_of_getLast? hlast, ?_⟩
          simp only [Option.map_some, Option.getD_some, Prod.mk.injEq, true_and]; omega
      · exact .inl rfl

end Verif
