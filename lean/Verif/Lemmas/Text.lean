import Verif.Model.Text
namespace Verif

@[simp] theorem utf8Len_nil : utf8Len [] = 0 := rfl
@[simp] theorem utf8Len_cons (c : Char) (cs : List Char) :
    utf8Len (c :: cs) = c.utf8Size + utf8Len cs := rfl

@[simp] theorem utf8Len_append (a b : List Char) : utf8Len (a ++ b) = utf8Len a + utf8Len b := by
  induction a with
  | nil => simp
  | cons c a ih => simp [ih]; omega

theorem utf8Size_pos (c : Char) : 0 < c.utf8Size := Char.utf8Size_pos c

theorem length_le_utf8Len (a : List Char) : a.length ≤ utf8Len a := by
  induction a with
  | nil => simp
  | cons c a ih => have := utf8Size_pos c; simp; omega

theorem utf8Len_eq_zero {a : List Char} : utf8Len a = 0 ↔ a = [] := by
  cases a with
  | nil => simp
  | cons c a => have := utf8Size_pos c; simp; omega

theorem splitAtByte_append (a b : List Char) : splitAtByte (a ++ b) (utf8Len a) = some (a, b) := by
  induction a with
  | nil => cases b <;> simp [splitAtByte]
  | cons c a ih =>
    have hp := utf8Size_pos c
    obtain ⟨n, hn⟩ : ∃ n, c.utf8Size + utf8Len a = n + 1 := ⟨c.utf8Size + utf8Len a - 1, by omega⟩
    simp only [List.cons_append, utf8Len_cons, hn, splitAtByte]
    rw [if_pos (by omega)]
    have : n + 1 - c.utf8Size = utf8Len a := by omega
    rw [this, ih]
    rfl

theorem splitAtByte_some {cs a b : List Char} {n : Nat} (h : splitAtByte cs n = some (a, b)) :
    cs = a ++ b ∧ utf8Len a = n := by
  fun_induction splitAtByte cs n generalizing a b with
  | case1 cs => simp at h; simp [h.1, h.2]
  | case2 => simp at h
  | case3 c cs n hle ih =>
    simp only [Option.map_eq_some_iff] at h
    obtain ⟨⟨x, y⟩, hxy, heq⟩ := h
    simp at heq
    obtain ⟨h1, h2⟩ := ih hxy
    obtain ⟨rfl, rfl⟩ := heq
    simp [h1, h2]
    omega
  | case4 => simp at h

theorem splitAtByte_eq_some_iff {cs a b : List Char} {n : Nat} :
    splitAtByte cs n = some (a, b) ↔ cs = a ++ b ∧ utf8Len a = n :=
  ⟨splitAtByte_some, fun ⟨h1, h2⟩ => by rw [h1, ← h2, splitAtByte_append]⟩

@[simp] theorem splitAtByte_zero (cs : List Char) : splitAtByte cs 0 = some ([], cs) := by
  rw [splitAtByte_eq_some_iff]; simp

@[simp] theorem splitAtByte_len (cs : List Char) : splitAtByte cs (utf8Len cs) = some (cs, []) := by
  rw [splitAtByte_eq_some_iff]; simp

theorem splitAtByte_le {cs : List Char} {n : Nat} {p} (h : splitAtByte cs n = some p) :
    n ≤ utf8Len cs := by
  obtain ⟨a, b⟩ := p
  obtain ⟨rfl, rfl⟩ := splitAtByte_some h
  simp

/-- Cutting at a later boundary first, then at an earlier one. -/
theorem splitAtByte_sub {cs a b x y : List Char} {m n : Nat} (hmn : m ≤ n)
    (hm : splitAtByte cs m = some (a, b)) (hn : splitAtByte cs n = some (x, y)) :
    ∃ mid, b = mid ++ y ∧ x = a ++ mid ∧ utf8Len mid = n - m := by
  obtain ⟨rfl, rfl⟩ := splitAtByte_some hm
  obtain ⟨h1, rfl⟩ := splitAtByte_some hn
  rw [List.append_eq_append_iff] at h1
  rcases h1 with ⟨mid, h1, h2⟩ | ⟨mid, h1, h2⟩
  · exact ⟨mid, h2, h1, by simp [h1]⟩
  · subst h1
    simp at hmn
    have : mid = [] := utf8Len_eq_zero.mp (by omega)
    subst this
    exact ⟨[], by simpa using h2.symm, by simp, by simp⟩

theorem sliceBytes_append (a m b : List Char) :
    sliceBytes (a ++ m ++ b) (utf8Len a) (utf8Len a + utf8Len m) = some m := by
  unfold sliceBytes
  rw [if_neg (by omega), List.append_assoc, splitAtByte_append]
  simp [splitAtByte_append]

theorem sliceBytes_eq_some_iff {cs m : List Char} {i j : Nat} :
    sliceBytes cs i j = some m ↔
      ∃ a b, cs = a ++ m ++ b ∧ utf8Len a = i ∧ i + utf8Len m = j := by
  constructor
  · unfold sliceBytes
    split
    · simp
    · intro h
      simp only [Option.bind_eq_some_iff, Option.map_eq_some_iff] at h
      obtain ⟨⟨a, r⟩, ha, ⟨⟨m', b⟩, hm, rfl⟩⟩ := h
      obtain ⟨rfl, rfl⟩ := splitAtByte_some ha
      obtain ⟨h1, h2⟩ := splitAtByte_some hm
      simp only at h1 h2 ⊢
      subst h1
      exact ⟨a, b, by simp, rfl, by omega⟩
  · rintro ⟨a, b, rfl, rfl, rfl⟩
    exact sliceBytes_append a m b

theorem byteToChar_append (a b : List Char) : byteToChar (a ++ b) (utf8Len a) = some a.length := by
  induction a with
  | nil => cases b <;> simp [byteToChar]
  | cons c a ih =>
    have hp := utf8Size_pos c
    obtain ⟨n, hn⟩ : ∃ n, c.utf8Size + utf8Len a = n + 1 := ⟨c.utf8Size + utf8Len a - 1, by omega⟩
    simp only [List.cons_append, utf8Len_cons, hn, byteToChar]
    rw [if_neg (by omega)]
    have : n + 1 - c.utf8Size = utf8Len a := by omega
    rw [this, ih]
    rfl

theorem insertAtByte_append (a b t : List Char) :
    insertAtByte (a ++ b) (utf8Len a) t = some (a ++ t ++ b) := by
  simp [insertAtByte, byteToChar_append]

theorem removeBytes_append (a m b : List Char) :
    removeBytes (a ++ m ++ b) (utf8Len a) (utf8Len a + utf8Len m) = some (a ++ b) := by
  unfold removeBytes
  have h1 : byteToChar (a ++ m ++ b) (utf8Len a) = some a.length := by
    rw [List.append_assoc]; exact byteToChar_append a (m ++ b)
  have h2 : byteToChar (a ++ m ++ b) (utf8Len a + utf8Len m) = some (a ++ m).length := by
    rw [← utf8Len_append]; exact byteToChar_append (a ++ m) b
  rw [h1, h2]
  simp only [Option.bind_some, List.length_append]
  rw [if_neg (by omega), List.append_assoc, List.take_left, ← List.append_assoc,
    ← List.length_append, List.drop_left]

theorem charToByte_append (a b : List Char) : charToByte (a ++ b) a.length = some (utf8Len a) := by
  simp [charToByte]

end Verif
