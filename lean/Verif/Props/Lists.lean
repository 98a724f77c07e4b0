import Verif.Spec.Lists
import Verif.Lemmas.Sort
/- C40 list markers, C41 element ids, C44 grouping of imported list items. -/
namespace Verif

/-! ### C40 -/

theorem romanDrain_lt {val : Nat} {sym : List Char} {fuel n : Nat} (h : n < val) :
    romanDrain val sym fuel n = ([], n) := by
  cases fuel with
  | zero => rfl
  | succ f => rw [romanDrain, if_neg (by omega)]

theorem romanDrain_ge {val : Nat} {sym : List Char} {fuel n : Nat} (hv : 1 ≤ val) (h : n ≥ val)
    (hf : n ≤ fuel) : romanDrain val sym fuel n =
      (sym ++ (romanDrain val sym (fuel - 1) (n - val)).1, (romanDrain val sym (fuel - 1) (n - val)).2) := by
  cases fuel with
  | zero => omega
  | succ f => rw [romanDrain, if_pos h]; rfl

theorem romanValue_cons_replicate {c : Char} {l : List Char}
    (h : ∀ x ∈ l, romanDigit x ≤ romanDigit c) : romanValue (c :: l) = romanDigit c + romanValue l := by
  cases l with
  | nil => simp [romanValue]
  | cons b l => rw [romanValue, if_neg]; have := h b (List.mem_cons_self ..); omega

theorem romanValue_append {a b : List Char} (h : ∀ x ∈ a, ∀ y ∈ b, romanDigit y ≤ romanDigit x) :
    romanValue (a ++ b) = romanValue a + romanValue b := by
  induction a with
  | nil => simp [romanValue]
  | cons x a ih =>
    have ih := ih fun x hx => h x (List.mem_cons_of_mem _ hx)
    cases a with
    | nil =>
      rw [List.singleton_append, romanValue_cons_replicate (h x (List.mem_cons_self ..))]
      rfl
    | cons y a =>
      simp only [List.cons_append] at ih ⊢
      rw [romanValue, romanValue, ih]; omega

/-- The four table rows of one decimal digit. -/
def romanRows (f : Nat) (one five ten : Char) : List (Nat × List Char) :=
  [(9 * f, [one, ten]), (5 * f, [five]), (4 * f, [one, five]), (f, [one])]

theorem romanRows_spec {f n : Nat} {one five ten : Char} {t : List (Nat × List Char)} (hf : 1 ≤ f)
    (h1 : romanDigit one = f) (h5 : romanDigit five = 5 * f) (h10 : romanDigit ten = 10 * f)
    (hn : n < 10 * f) :
    ∃ l m, romanLoop (romanRows f one five ten ++ t) n = l ++ romanLoop t m ∧ m < f ∧
      romanValue l + m = n ∧ ∀ c ∈ l, f ≤ romanDigit c ∧ romanDigit c ≤ 10 * f := by
  have hd : n < f ∨ (f ≤ n ∧ n < 2 * f) ∨ (2 * f ≤ n ∧ n < 3 * f) ∨ (3 * f ≤ n ∧ n < 4 * f) ∨
      (4 * f ≤ n ∧ n < 5 * f) ∨ (5 * f ≤ n ∧ n < 6 * f) ∨ (6 * f ≤ n ∧ n < 7 * f) ∨
      (7 * f ≤ n ∧ n < 8 * f) ∨ (8 * f ≤ n ∧ n < 9 * f) ∨ (9 * f ≤ n ∧ n < 10 * f) := by omega
  simp only [romanRows, List.cons_append, List.nil_append, romanLoop]
  rcases hd with h | h | h | h | h | h | h | h | h | h
  · refine ⟨[], n, ?_, h, by simp [romanValue], by simp⟩
    simp [romanDrain_lt (show n < 9 * f by omega), romanDrain_lt (show n < 5 * f by omega),
      romanDrain_lt (show n < 4 * f by omega), romanDrain_lt h]
  · refine ⟨[one], n - f, ?_, by omega, by simp [romanValue]; omega, by simp; omega⟩
    simp [romanDrain_lt (show n < 9 * f by omega), romanDrain_lt (show n < 5 * f by omega),
      romanDrain_lt (show n < 4 * f by omega),
      romanDrain_ge (sym := [one]) hf (show n ≥ f by omega) (Nat.le_refl n),
      romanDrain_lt (show n - f < f by omega)]
  · refine ⟨[one, one], n - f - f, ?_, by omega, by simp [romanValue]; omega, by simp; omega⟩
    simp [romanDrain_lt (show n < 9 * f by omega), romanDrain_lt (show n < 5 * f by omega),
      romanDrain_lt (show n < 4 * f by omega),
      romanDrain_ge (sym := [one]) hf (show n ≥ f by omega) (Nat.le_refl n),
      romanDrain_ge (sym := [one]) hf (show n - f ≥ f by omega) (show n - f ≤ n - 1 by omega),
      romanDrain_lt (show n - f - f < f by omega)]
  · refine ⟨[one, one, one], n - f - f - f, ?_, by omega, by simp [romanValue]; omega, by simp; omega⟩
    simp [romanDrain_lt (show n < 9 * f by omega), romanDrain_lt (show n < 5 * f by omega),
      romanDrain_lt (show n < 4 * f by omega),
      romanDrain_ge (sym := [one]) hf (show n ≥ f by omega) (Nat.le_refl n),
      romanDrain_ge (sym := [one]) hf (show n - f ≥ f by omega) (show n - f ≤ n - 1 by omega),
      romanDrain_ge (sym := [one]) hf (show n - f - f ≥ f by omega) (show n - f - f ≤ n - 1 - 1 by omega),
      romanDrain_lt (show n - f - f - f < f by omega)]
  · refine ⟨[one, five], n - 4 * f, ?_, by omega, ?_, by simp; omega⟩
    · simp [romanDrain_lt (show n < 9 * f by omega), romanDrain_lt (show n < 5 * f by omega),
        romanDrain_ge (sym := [one, five]) (show 1 ≤ 4 * f by omega) (show n ≥ 4 * f by omega) (Nat.le_refl n),
        romanDrain_lt (show n - 4 * f < 4 * f by omega), romanDrain_lt (show n - 4 * f < f by omega)]
    · simp only [romanValue, h1, h5]; rw [if_pos (by omega)]; omega
  · refine ⟨[five], n - 5 * f, ?_, by omega, by simp [romanValue]; omega, by simp; omega⟩
    simp [romanDrain_lt (show n < 9 * f by omega),
      romanDrain_ge (sym := [five]) (show 1 ≤ 5 * f by omega) (show n ≥ 5 * f by omega) (Nat.le_refl n),
      romanDrain_lt (show n - 5 * f < 5 * f by omega), romanDrain_lt (show n - 5 * f < 4 * f by omega),
      romanDrain_lt (show n - 5 * f < f by omega)]
  · refine ⟨[five, one], n - 5 * f - f, ?_, by omega, ?_, by simp; omega⟩
    · simp [romanDrain_lt (show n < 9 * f by omega),
        romanDrain_ge (sym := [five]) (show 1 ≤ 5 * f by omega) (show n ≥ 5 * f by omega) (Nat.le_refl n),
        romanDrain_lt (show n - 5 * f < 5 * f by omega), romanDrain_lt (show n - 5 * f < 4 * f by omega),
        romanDrain_ge (sym := [one]) hf (show n - 5 * f ≥ f by omega) (Nat.le_refl _),
        romanDrain_lt (show n - 5 * f - f < f by omega)]
    · simp only [romanValue, h1, h5]; rw [if_neg (by omega)]; omega
  · refine ⟨[five, one, one], n - 5 * f - f - f, ?_, by omega, ?_, by simp; omega⟩
    · simp [romanDrain_lt (show n < 9 * f by omega),
        romanDrain_ge (sym := [five]) (show 1 ≤ 5 * f by omega) (show n ≥ 5 * f by omega) (Nat.le_refl n),
        romanDrain_lt (show n - 5 * f < 5 * f by omega), romanDrain_lt (show n - 5 * f < 4 * f by omega),
        romanDrain_ge (sym := [one]) hf (show n - 5 * f ≥ f by omega) (Nat.le_refl _),
        romanDrain_ge (sym := [one]) hf (show n - 5 * f - f ≥ f by omega)
          (show n - 5 * f - f ≤ n - 5 * f - 1 by omega),
        romanDrain_lt (show n - 5 * f - f - f < f by omega)]
    · simp only [romanValue, h1, h5]; rw [if_neg (by omega), if_neg (by omega)]; omega
  · refine ⟨[five, one, one, one], n - 5 * f - f - f - f, ?_, by omega, ?_, by simp; omega⟩
    · simp [romanDrain_lt (show n < 9 * f by omega),
        romanDrain_ge (sym := [five]) (show 1 ≤ 5 * f by omega) (show n ≥ 5 * f by omega) (Nat.le_refl n),
        romanDrain_lt (show n - 5 * f < 5 * f by omega), romanDrain_lt (show n - 5 * f < 4 * f by omega),
        romanDrain_ge (sym := [one]) hf (show n - 5 * f ≥ f by omega) (Nat.le_refl _),
        romanDrain_ge (sym := [one]) hf (show n - 5 * f - f ≥ f by omega)
          (show n - 5 * f - f ≤ n - 5 * f - 1 by omega),
        romanDrain_ge (sym := [one]) hf (show n - 5 * f - f - f ≥ f by omega)
          (show n - 5 * f - f - f ≤ n - 5 * f - 1 - 1 by omega),
        romanDrain_lt (show n - 5 * f - f - f - f < f by omega)]
    · simp only [romanValue, h1, h5]; rw [if_neg (by omega), if_neg (by omega)]; omega
  · refine ⟨[one, ten], n - 9 * f, ?_, by omega, ?_, by simp; omega⟩
    · simp [romanDrain_ge (sym := [one, ten]) (show 1 ≤ 9 * f by omega) (show n ≥ 9 * f by omega) (Nat.le_refl n),
        romanDrain_lt (show n - 9 * f < 9 * f by omega), romanDrain_lt (show n - 9 * f < 5 * f by omega),
        romanDrain_lt (show n - 9 * f < 4 * f by omega), romanDrain_lt (show n - 9 * f < f by omega)]
    · simp only [romanValue, h1, h10]; rw [if_pos (by omega)]; omega

theorem romanDrain_thousands (fuel n : Nat) (h : n ≤ fuel) :
    romanDrain 1000 ['M'] fuel n = (List.replicate (n / 1000) 'M', n % 1000) := by
  induction fuel generalizing n with
  | zero =>
    have : n = 0 := by omega
    subst this; rfl
  | succ f ih =>
    rw [romanDrain]; split
    · rename_i hn
      rw [ih (n - 1000) (by omega)]
      have e : n / 1000 = (n - 1000) / 1000 + 1 := by omega
      have e2 : (n - 1000) % 1000 = n % 1000 := by omega
      simp only [e, e2, List.replicate_succ, List.singleton_append]
    · have e : n / 1000 = 0 := by omega
      have e2 : n % 1000 = n := by omega
      rw [e, e2]; rfl

theorem romanTable_eq : romanTable = (1000, ['M']) ::
    (romanRows 100 'C' 'D' 'M' ++ (romanRows 10 'X' 'L' 'C' ++ (romanRows 1 'I' 'V' 'X' ++ []))) := rfl

theorem romanDigit_thousand (k : Nat) : romanValue (List.replicate k 'M') = 1000 * k := by
  induction k with
  | zero => rfl
  | succ k ih =>
    rw [List.replicate_succ, romanValue_cons_replicate (by
      intro x hx; rw [List.eq_of_mem_replicate hx]; exact Nat.le_refl _), ih]
    have : romanDigit 'M' = 1000 := by decide
    rw [this]; omega

theorem toRomanUpper_shape (n : Nat) : ∃ a b c : List Char,
    toRomanUpper n = List.replicate (n / 1000) 'M' ++ (a ++ (b ++ c)) ∧
    romanValue a + romanValue b + romanValue c = (n % 1000 : Nat) ∧
    (∀ x ∈ a, 100 ≤ romanDigit x ∧ romanDigit x ≤ 1000) ∧
    (∀ x ∈ b, 10 ≤ romanDigit x ∧ romanDigit x ≤ 100) ∧
    (∀ x ∈ c, 1 ≤ romanDigit x ∧ romanDigit x ≤ 10) := by
  obtain ⟨a, m1, e1, l1, v1, c1⟩ := romanRows_spec (f := 100) (n := n % 1000) (one := 'C') (five := 'D')
    (ten := 'M') (t := romanRows 10 'X' 'L' 'C' ++ (romanRows 1 'I' 'V' 'X' ++ [])) (by decide) (by decide)
    (by decide) (by decide) (by omega)
  obtain ⟨b, m2, e2, l2, v2, c2⟩ := romanRows_spec (f := 10) (n := m1) (one := 'X') (five := 'L')
    (ten := 'C') (t := romanRows 1 'I' 'V' 'X' ++ []) (by decide) (by decide)
    (by decide) (by decide) (by omega)
  obtain ⟨c, m3, e3, l3, v3, c3⟩ := romanRows_spec (f := 1) (n := m2) (one := 'I') (five := 'V')
    (ten := 'X') (t := []) (by decide) (by decide) (by decide) (by decide) (by omega)
  refine ⟨a, b, c, ?_, by omega, fun x hx => ?_, fun x hx => ?_, fun x hx => ?_⟩
  · rw [toRomanUpper, romanTable_eq, romanLoop, romanDrain_thousands n n (Nat.le_refl _)]
    rw [e1, e2, e3, romanLoop, List.append_nil]
  · have := c1 x hx; omega
  · have := c2 x hx; omega
  · have := c3 x hx; omega

theorem romanValue_upper (n : Nat) : romanValue (toRomanUpper n) = n := by
  obtain ⟨a, b, c, e, v, ha, hb, hc⟩ := toRomanUpper_shape n
  have hM : romanDigit 'M' = 1000 := by decide
  rw [e, romanValue_append, romanValue_append, romanValue_append, romanDigit_thousand]
  · omega
  · intro x hx y hy
    have := hb x hx; have := hc y hy; omega
  · intro x hx y hy
    have := ha x hx
    rcases List.mem_append.mp hy with hy | hy
    · have := hb y hy; omega
    · have := hc y hy; omega
  · intro x hx y hy
    rw [List.eq_of_mem_replicate hx, hM]
    rcases List.mem_append.mp hy with hy | hy
    · have := ha y hy; omega
    · rcases List.mem_append.mp hy with hy | hy
      · have := hb y hy; omega
      · have := hc y hy; omega

theorem romanLoop_mem {t : List (Nat × List Char)} {n : Nat} {c : Char} (h : c ∈ romanLoop t n) :
    ∃ p ∈ t, c ∈ p.2 := by
  have drain : ∀ val sym fuel n, c ∈ (romanDrain val sym fuel n).1 → c ∈ sym := by
    intro val sym fuel
    induction fuel with
    | zero => intro n h; simp [romanDrain] at h
    | succ f ih =>
      intro n h
      rw [romanDrain] at h
      split at h
      · rcases List.mem_append.mp h with h | h
        · exact h
        · exact ih _ h
      · simp at h
  induction t generalizing n with
  | nil => simp [romanLoop] at h
  | cons p t ih =>
    obtain ⟨v, s⟩ := p
    rw [romanLoop] at h
    rcases List.mem_append.mp h with h | h
    · exact ⟨_, List.mem_cons_self .., drain _ _ _ _ h⟩
    · obtain ⟨p, hp, hc⟩ := ih h
      exact ⟨p, List.mem_cons_of_mem _ hp, hc⟩

theorem romanUpper_chars {n : Nat} {c : Char} (h : c ∈ toRomanUpper n) :
    c ∈ ['I', 'V', 'X', 'L', 'C', 'D', 'M'] := by
  obtain ⟨p, hp, hc⟩ := romanLoop_mem h
  have : ∀ p ∈ romanTable, ∀ c ∈ p.2, c ∈ ['I', 'V', 'X', 'L', 'C', 'D', 'M'] := by decide
  exact this p hp c hc

theorem romanValue_map {f : Char → Char} {l : List Char} (h : ∀ c ∈ l, romanDigit (f c) = romanDigit c) :
    romanValue (l.map f) = romanValue l := by
  induction l with
  | nil => rfl
  | cons a l ih =>
    have ih := ih fun c hc => h c (List.mem_cons_of_mem _ hc)
    have ha := h a (List.mem_cons_self ..)
    cases l with
    | nil => simp [romanValue, ha]
    | cons b l =>
      have hb := h b (List.mem_cons_of_mem _ (List.mem_cons_self ..))
      simp only [List.map_cons] at ih ⊢
      rw [romanValue, romanValue, ih, ha, hb]

theorem romanValue_lower (n : Nat) : romanValue (toRomanLower n) = n := by
  rw [toRomanLower, romanValue_map, romanValue_upper]
  intro c hc
  have : ∀ c ∈ ['I', 'V', 'X', 'L', 'C', 'D', 'M'], romanDigit c.toLower = romanDigit c := by decide
  exact this c (romanUpper_chars hc)

/-- The marker of an item of a roman-numbered list reads as the item's number, whatever the number;
capital style uses only capitals, small style only small letters. -/
theorem C40_roman (l : TList) (i : Nat) :
    (l.style = .upperRoman → ∃ body, formatListMarker l i = l.pre.toList ++ body ++ l.suffix.toList ∧
      romanValue body = i + 1 ∧ ∀ c ∈ body, c ∈ ['I', 'V', 'X', 'L', 'C', 'D', 'M']) ∧
    (l.style = .lowerRoman → ∃ body, formatListMarker l i = l.pre.toList ++ body ++ l.suffix.toList ∧
      romanValue body = i + 1 ∧ ∀ c ∈ body, c ∈ ['i', 'v', 'x', 'l', 'c', 'd', 'm']) := by
  constructor
  · intro h
    refine ⟨toRomanUpper (i + 1), by rw [formatListMarker, h]; rfl, ?_, fun c hc => romanUpper_chars hc⟩
    rw [romanValue_upper]; omega
  · intro h
    refine ⟨toRomanLower (i + 1), by rw [formatListMarker, h]; rfl, ?_, fun c hc => ?_⟩
    · rw [romanValue_lower]; omega
    · obtain ⟨d, hd, rfl⟩ := List.mem_map.mp hc
      have : ∀ c ∈ ['I', 'V', 'X', 'L', 'C', 'D', 'M'], c.toLower ∈ ['i', 'v', 'x', 'l', 'c', 'd', 'm'] := by
        decide
      exact this d (romanUpper_chars hd)

example : toRomanUpper 1994 = ['M', 'C', 'M', 'X', 'C', 'I', 'V'] := by decide
example : formatListMarker { style := .lowerRoman, pre := "(", suffix := ")" } 3 = "(iv)".toList := by decide

/-- The marker of an item of a decimal list is the item's number in decimal digits (read back by the
core library's decimal reader). -/
theorem C40_decimal (l : TList) (i : Nat) (h : l.style = .decimal) :
    ∃ body, formatListMarker l i = l.pre.toList ++ body ++ l.suffix.toList ∧
      (∀ c ∈ body, c.isDigit = true) ∧ Nat.ofDigitChars 10 body 0 = i + 1 :=
  ⟨Nat.toDigits 10 (i + 1), by rw [formatListMarker, h]; rfl,
    fun _ hc => Nat.isDigit_of_mem_toDigits (by omega) (by omega) hc, Nat.ofDigitChars_ten_toDigits⟩

/-- The first 26 items of a lettered list are marked a, b, … z (A, B, … Z); later items by their number. -/
theorem C40_alpha (l : TList) (i : Nat) :
    (i < 26 → (l.style = .lowerAlpha →
        formatListMarker l i = l.pre.toList ++ [("abcdefghijklmnopqrstuvwxyz".toList)[i]!] ++ l.suffix.toList) ∧
      (l.style = .upperAlpha →
        formatListMarker l i = l.pre.toList ++ [("ABCDEFGHIJKLMNOPQRSTUVWXYZ".toList)[i]!] ++ l.suffix.toList)) ∧
    (26 ≤ i → l.style = .lowerAlpha ∨ l.style = .upperAlpha →
        formatListMarker l i = l.pre.toList ++ Nat.toDigits 10 (i + 1) ++ l.suffix.toList) := by
  constructor
  · intro hi
    have key : ∀ i : Fin 26, Char.ofNat (97 + (i.val + 1 - 1)) = ("abcdefghijklmnopqrstuvwxyz".toList)[i.val]! ∧
        Char.ofNat (65 + (i.val + 1 - 1)) = ("ABCDEFGHIJKLMNOPQRSTUVWXYZ".toList)[i.val]! := by decide
    have k := key ⟨i, hi⟩
    constructor <;> intro h <;> rw [formatListMarker, h] <;> simp only [markerBody] <;>
      rw [if_pos (by omega)]
    · rw [k.1]
    · rw [k.2]
  · intro hi h
    rcases h with h | h <;> rw [formatListMarker, h] <;> simp only [markerBody] <;> rw [if_neg (by omega)]

theorem toDigits_inj {a b : Nat} (h : Nat.toDigits 10 a = Nat.toDigits 10 b) : a = b := by
  have := congrArg (fun l => Nat.ofDigitChars 10 l 0) h
  simpa only [Nat.ofDigitChars_ten_toDigits] using this

theorem letter_not_digits {c : Char} (hc : c.isDigit = false) (n : Nat) : [c] ≠ Nat.toDigits 10 n := by
  intro h
  have := Nat.isDigit_of_mem_toDigits (b := 10) (n := n) (c := c) (by omega) (by omega)
    (by rw [← h]; exact List.mem_singleton.mpr rfl)
  rw [hc] at this; cases this

theorem alpha_inj {base : Nat} (hb : ∀ i : Fin 26, (Char.ofNat (base + i.val)).isDigit = false)
    (hi : ∀ i j : Fin 26, Char.ofNat (base + i.val) = Char.ofNat (base + j.val) → i = j) {a b : Nat}
    (ha1 : 1 ≤ a) (hb1 : 1 ≤ b)
    (h : (if a ≤ 26 then [Char.ofNat (base + (a - 1))] else Nat.toDigits 10 a) =
      (if b ≤ 26 then [Char.ofNat (base + (b - 1))] else Nat.toDigits 10 b)) : a = b := by
  by_cases ha : a ≤ 26 <;> by_cases hb' : b ≤ 26
  · rw [if_pos ha, if_pos hb', List.cons.injEq] at h
    have := hi ⟨a - 1, by omega⟩ ⟨b - 1, by omega⟩ h.1
    have := congrArg Fin.val this
    simp only at this; omega
  · rw [if_pos ha, if_neg hb'] at h
    exact absurd h (letter_not_digits (hb ⟨a - 1, by omega⟩) _)
  · rw [if_neg ha, if_pos hb'] at h
    exact absurd h.symm (letter_not_digits (hb ⟨b - 1, by omega⟩) _)
  · rw [if_neg ha, if_neg hb'] at h
    exact toDigits_inj h

/-- Two items of a numbered list never have the same marker. -/
theorem C40_distinct (l : TList) (i j : Nat)
    (hs : l.style ≠ .disc ∧ l.style ≠ .circle ∧ l.style ≠ .square)
    (h : formatListMarker l i = formatListMarker l j) : i = j := by
  unfold formatListMarker at h
  have hb := List.append_cancel_left (List.append_cancel_right h)
  obtain ⟨n1, n2, n3⟩ := hs
  cases hst : l.style with
  | disc => exact absurd hst n1
  | circle => exact absurd hst n2
  | square => exact absurd hst n3
  | decimal =>
    rw [hst] at hb
    have := toDigits_inj hb; omega
  | lowerAlpha =>
    rw [hst] at hb
    have := alpha_inj (base := 97) (by decide) (by decide) (by omega) (by omega) hb; omega
  | upperAlpha =>
    rw [hst] at hb
    have := alpha_inj (base := 65) (by decide) (by decide) (by omega) (by omega) hb; omega
  | lowerRoman =>
    rw [hst] at hb
    have := congrArg romanValue hb
    simp only [markerBody, romanValue_lower] at this; omega
  | upperRoman =>
    rw [hst] at hb
    have := congrArg romanValue hb
    simp only [markerBody, romanValue_upper] at this; omega

/-- The number of an item is one more than the number of paragraphs of its list before it, when no two
paragraphs share a position. -/
theorem C40_index (blocks : List Block) (hd : (blocks.map fun b => b.id).Nodup)
    (hp : blocks.Pairwise fun a b => a.documentPosition ≠ b.documentPosition)
    {listId : Nat} {b : Block} (hb : b ∈ blocks) (hl : b.list = some listId) :
    listItemIndex blocks listId b.id =
      (blocks.filter fun a => decide (a.list = some listId ∧ a.documentPosition < b.documentPosition)).length := by
  unfold listItemIndex
  have key : ∀ (l : List Block), l.Pairwise (fun x y => x.documentPosition < y.documentPosition) →
      (l.map fun b => b.id).Nodup → b ∈ l →
      (l.findIdx? fun a => decide (a.id = b.id)) =
        some (l.filter fun a => decide (a.documentPosition < b.documentPosition)).length := by
    intro l
    induction l with
    | nil => intro _ _ h; simp at h
    | cons a l ih =>
      intro h1 h2 h3
      rw [List.pairwise_cons] at h1
      rw [List.map_cons, List.nodup_cons] at h2
      rw [List.findIdx?_cons]
      rcases List.mem_cons.mp h3 with rfl | h3
      · rw [if_pos (by simp)]
        have : (b :: l).filter (fun a => decide (a.documentPosition < b.documentPosition)) = [] := by
          rw [List.filter_eq_nil_iff]
          intro x hx
          rcases List.mem_cons.mp hx with rfl | hx
          · simp
          · have := h1.1 x hx
            simp only [decide_eq_true_eq]; omega
        rw [this]; rfl
      · have hne : a.id ≠ b.id := fun e => h2.1 (List.mem_map.mpr ⟨b, h3, e.symm⟩)
        rw [if_neg (by simpa using hne), ih h1.2 h2.2 h3, List.filter_cons,
          if_pos (by have := h1.1 b h3; simpa using this)]
        rfl
  have hperm := sortByKey_perm (fun b : Block => b.documentPosition)
    (blocks.filter fun b => decide (b.list = some listId))
  have hsub : (blocks.filter fun b => decide (b.list = some listId)).Sublist blocks := List.filter_sublist
  rw [key]
  · rw [Option.getD_some, (hperm.filter _).length_eq, List.filter_filter]
    congr 1
    apply List.filter_congr
    intro x _
    rw [Bool.eq_iff_iff]
    simp only [Bool.and_eq_true, decide_eq_true_eq]
    exact And.comm
  · have hne : (sortByKey (fun b : Block => b.documentPosition)
        (blocks.filter fun b => decide (b.list = some listId))).Pairwise
        fun a b => a.documentPosition ≠ b.documentPosition :=
      (hperm.pairwise_iff fun h => Ne.symm h).mpr (hp.sublist hsub)
    have hs := sortByKey_sorted (fun b : Block => b.documentPosition)
      (blocks.filter fun b => decide (b.list = some listId))
    exact (hs.and hne).imp fun h => by omega
  · exact (hperm.map _).nodup_iff.mpr (hd.sublist (hsub.map _))
  · rw [mem_sortByKey, List.mem_filter]; exact ⟨hb, by simpa using hl⟩

example : listItemIndex [{ id := 1, list := some 7, documentPosition := 10 },
    { id := 2, list := some 7, documentPosition := 0 }, { id := 3, documentPosition := 5 }] 7 1 = 1 := rfl

/-! ### C41 -/

theorem synth_eq {b o : Nat} (ho : o < 2 ^ 32) :
    synthElementId b o = 2 ^ 62 + b % 2 ^ 30 * 2 ^ 32 + o := by
  unfold synthElementId
  have e1 : b &&& 0x3FFFFFFF = b % 2 ^ 30 := Nat.and_two_pow_sub_one_eq_mod b 30
  have hb : b % 2 ^ 30 < 2 ^ 30 := Nat.mod_lt _ (by decide)
  rw [e1, Nat.shiftLeft_eq, Nat.mod_eq_of_lt (by omega)]
  have h62 : (0x4000000000000000 : Nat) ||| (b % 2 ^ 30 * 2 ^ 32) = 2 ^ 62 * 1 + b % 2 ^ 30 * 2 ^ 32 := by
    rw [Nat.two_pow_add_eq_or_of_lt (i := 62) (by omega) 1]
  rw [h62]
  have : 2 ^ 62 * 1 + b % 2 ^ 30 * 2 ^ 32 = 2 ^ 32 * (2 ^ 30 + b % 2 ^ 30) := by omega
  rw [this, ← Nat.two_pow_add_eq_or_of_lt ho]

/-- Fragments of different paragraphs or with different starts have different ids, for paragraph ids
below 2^30. -/
theorem C41_distinct {b b' o o' : Nat} (hb : b < 2 ^ 30) (hb' : b' < 2 ^ 30) (ho : o < 2 ^ 32)
    (ho' : o' < 2 ^ 32) (h : synthElementId b o = synthElementId b' o') : b = b' ∧ o = o' := by
  rw [synth_eq ho, synth_eq ho', Nat.mod_eq_of_lt hb, Nat.mod_eq_of_lt hb'] at h
  omega

/-- No fragment id is a stored entity id (entity ids count up from 1 and stay below 2^62), and each
fits a signed 64-bit number, whatever the paragraph id. -/
theorem C41_no_entity {b o id : Nat} (ho : o < 2 ^ 32) (hid : id < 2 ^ 62) :
    synthElementId b o ≠ id ∧ synthElementId b o < 2 ^ 63 := by
  have : b % 2 ^ 30 < 2 ^ 30 := Nat.mod_lt _ (by decide)
  rw [synth_eq ho]
  omega

/-- From paragraph id 2^30 on, ids repeat. -/
theorem C41_large_ids_fails (b o : Nat) : synthElementId (b + 2 ^ 30) o = synthElementId b o := by
  unfold synthElementId
  have e1 : ∀ b : Nat, b &&& 0x3FFFFFFF = b % 2 ^ 30 := fun b => Nat.and_two_pow_sub_one_eq_mod b 30
  rw [e1, e1, Nat.add_mod_right]

example : synthElementId 5 3 = 0x4000000500000003 ∧ synthElementId 5 3 ≠ synthElementId 3 5 := by decide

/-! ### C44 -/

/-- The grouper knows, for each indent, the list still open there. -/
def GrouperKnows (g : ListGrouper) (past : Imported) : Prop :=
  ∀ i, (g[i]?).join = openList i past

theorem register_get (g : ListGrouper) (id : Nat) (style : ListStyle) (indent i : Nat)
    (hg : g.length ≤ indent + 1) : ((g.register id style indent)[i]?).join =
      if i = indent then some (id, style) else if indent < i then none else (g[i]?).join := by
  unfold ListGrouper.register
  rw [List.getElem?_set]
  by_cases hi : i = indent
  · subst hi
    rw [if_pos rfl, if_pos rfl, if_pos (by simp; omega)]; rfl
  · rw [if_neg (fun e => hi e.symm), if_neg hi]
    by_cases h2 : indent < i
    · rw [if_pos h2, List.getElem?_eq_none (by simp; omega)]; rfl
    · rw [if_neg h2]
      by_cases h3 : i < g.length
      · rw [List.getElem?_append_left h3]
      · rw [List.getElem?_append_right (by omega), List.getElem?_replicate, if_pos (by omega),
          List.getElem?_eq_none (by omega)]
        rfl

theorem take_get (g : ListGrouper) (indent i : Nat) : ((g.take (indent + 1))[i]?).join =
    if indent < i then none else (g[i]?).join := by
  rw [List.getElem?_take]
  by_cases h : indent < i
  · rw [if_neg (by omega), if_pos h]; rfl
  · rw [if_pos (by omega), if_neg h]

theorem tryReuse_eq (g : ListGrouper) (style : ListStyle) (indent : Nat) :
    g.tryReuse style indent = (g.take (indent + 1),
      (g[indent]?).join.bind fun p => if p.2 = style then some p.1 else none) := by
  unfold ListGrouper.tryReuse
  dsimp only
  rw [List.getElem?_take, if_pos (by omega)]
  cases g[indent]? with
  | none => rfl
  | some o =>
    cases o with
    | none => rfl
    | some p =>
      simp only [Option.join_some, Option.bind_some]
      split <;> rfl

theorem step_item {g : ListGrouper} {past : Imported} (h : GrouperKnows g past) (style : ListStyle)
    (indent fresh : Nat) :
    (g.step (.item style indent fresh)).2 = some (joins past style indent fresh) ∧
    GrouperKnows (g.step (.item style indent fresh)).1
      (some (indent, joins past style indent fresh, style) :: past) := by
  have hlen : (g.take (indent + 1)).length ≤ indent + 1 := by rw [List.length_take]; omega
  have hk : ∀ id, GrouperKnows (ListGrouper.register (g.take (indent + 1)) id style indent)
      (some (indent, id, style) :: past) := by
    intro id i
    rw [register_get _ _ _ _ _ hlen, openList]
    by_cases h1 : i = indent
    · rw [if_pos h1, if_pos h1.symm]
    · rw [if_neg h1, if_neg (show ¬ indent = i from fun e => h1 e.symm), take_get]
      by_cases h2 : indent < i
      · rw [if_pos h2, if_pos h2]
      · rw [if_neg h2, if_neg h2, if_neg h2]; exact h i
  unfold ListGrouper.step joins
  dsimp only
  rw [tryReuse_eq, h indent]
  cases hx : openList indent past with
  | none => exact ⟨rfl, hk fresh⟩
  | some p =>
    obtain ⟨id, st⟩ := p
    simp only [Option.bind_some]
    by_cases hs : st = style
    · subst hs
      simp only [if_true]
      refine ⟨trivial, fun i => ?_⟩
      rw [take_get, openList]
      by_cases h1 : i = indent
      · subst h1
        rw [if_pos rfl, if_neg (by omega), h i, hx]
      · rw [if_neg (show ¬ indent = i from fun e => h1 e.symm)]
        by_cases h2 : indent < i
        · rw [if_pos h2, if_pos h2]
        · rw [if_neg h2, if_neg h2]; exact h i
    · simp only [if_neg hs]
      exact ⟨trivial, hk fresh⟩

theorem run_joins (es : List ImportEv) : ∀ (g : ListGrouper) (past : Imported), GrouperKnows g past →
    ListGrouper.run g es = joinAll past es := by
  induction es with
  | nil => intro g past _; rfl
  | cons e es ih =>
    intro g past h
    cases e with
    | item style indent fresh =>
      obtain ⟨h1, h2⟩ := step_item h style indent fresh
      rw [ListGrouper.run, joinAll, h1, ih _ _ h2]
    | other =>
      rw [ListGrouper.run, joinAll, ih _ (none :: past)]
      · rfl
      · intro i; rfl

/-- Whatever is imported, each item joins the list that the rule says: the list of the latest item at
its indent if that has its style and no shallower item and no other block came in between, else a new
list. -/
theorem C44_groups (es : List ImportEv) : ListGrouper.run [] es = joinAll [] es :=
  run_joins es [] [] fun _ => rfl

/-- The same when the import starts inside an existing list item (pasting into a list). -/
theorem C44_groups_from (id : Nat) (style : ListStyle) (indent : Nat) (es : List ImportEv) :
    ListGrouper.run (ListGrouper.register [] id style indent) es =
      joinAll [some (indent, id, style)] es := by
  refine run_joins es _ _ fun i => ?_
  rw [register_get [] _ _ _ _ (by simp), openList]
  by_cases h1 : i = indent
  · rw [if_pos h1, if_pos h1.symm]
  · rw [if_neg h1, if_neg (show ¬ indent = i from fun e => h1 e.symm)]
    by_cases h2 : indent < i
    · rw [if_pos h2, if_pos h2]
    · rw [if_neg h2, if_neg h2]; rfl

/-- An outer list resumes after a nested one, a nested one does not resume after the outer. -/
example : ListGrouper.run [] [.item .decimal 0 10, .item .disc 1 11, .item .decimal 0 12,
    .item .disc 1 13, .other, .item .decimal 0 14] =
    [some 10, some 11, some 10, some 13, none, some 14] := rfl

end Verif
