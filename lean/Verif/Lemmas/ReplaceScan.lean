import Verif.Lemmas.Replace
import Verif.Spec.Search
/- Rewriting the occurrences of a query last first is the same as one scan from the left. -/
namespace Verif

/-- `inheritFmt` of what follows a character of format `f`. -/
def inheritFrom (f : Option CharFormat) (cs : List SChar) : Option CharFormat :=
  match cs.getLast? with
  | some c => c.2
  | none => f

theorem inheritFrom_none (cs : List SChar) : inheritFrom none cs = inheritFmt cs := by
  unfold inheritFrom inheritFmt
  cases cs.getLast? <;> rfl

theorem inheritFrom_cons (f : Option CharFormat) (c : SChar) (cs : List SChar) :
    inheritFrom f (c :: cs) = inheritFrom c.2 cs := by
  unfold inheritFrom
  cases cs with
  | nil => rfl
  | cons d cs => rw [List.getLast?_cons_cons]; cases h : (d :: cs).getLast? with
    | none => simp at h
    | some x => rfl

/-- `rewriteAt` after a character of format `f`. -/
def rewriteAtF (f : Option CharFormat) (rep : List Char) (off len : Nat) (cs : List SChar) : List SChar :=
  cs.take off ++ styled rep (inheritFrom f (cs.take off)) ++ cs.drop (off + len)

def rewriteAllF (f : Option CharFormat) (rep : List Char) (len : Nat) (os : List Nat) (cs : List SChar) :
    List SChar :=
  os.foldr (fun o cs => rewriteAtF f rep o len cs) cs

theorem rewriteAtF_succ (f : Option CharFormat) (rep : List Char) (off len : Nat) (c : SChar) (cs : List SChar) :
    rewriteAtF f rep (off + 1) len (c :: cs) = c :: rewriteAtF c.2 rep off len cs := by
  unfold rewriteAtF
  rw [List.take_succ_cons, inheritFrom_cons, show off + 1 + len = (off + len) + 1 by omega, List.drop_succ_cons]
  rfl

theorem rewriteAllF_succ (f : Option CharFormat) (rep : List Char) (len : Nat) (os : List Nat) (c : SChar)
    (cs : List SChar) :
    rewriteAllF f rep len (os.map (· + 1)) (c :: cs) = c :: rewriteAllF c.2 rep len os cs := by
  induction os with
  | nil => rfl
  | cons o os ih =>
    unfold rewriteAllF at ih ⊢
    rw [List.map_cons, List.foldr_cons, ih, rewriteAtF_succ]; rfl

theorem rewriteAllF_none (rep : List Char) (len : Nat) (os : List Nat) (cs : List SChar) :
    rewriteAllF none rep len os cs = rewriteAll rep (os.map fun o => (o, len)) cs := by
  induction os with
  | nil => rfl
  | cons o os ih =>
    unfold rewriteAllF at ih ⊢
    rw [List.foldr_cons, ih, List.map_cons, rewriteAll_cons, rewriteAt, rewriteAtF, inheritFrom_none]

theorem occurrences_sorted (q t : List Char) : (occurrences q t).Pairwise (· < ·) := by
  induction t with
  | nil => exact .nil
  | cons c t ih =>
    unfold occurrences
    have : ((occurrences q t).map (· + 1)).Pairwise (· < ·) := by
      rw [List.pairwise_map]; exact ih.imp (by omega)
    split
    · rw [List.singleton_append]
      refine .cons ?_ this
      intro x hx
      obtain ⟨y, _, rfl⟩ := List.mem_map.mp hx
      omega
    · exact this

/-- Occurrences in the sense of the specification of search. -/
theorem mem_occurrences {q t : List Char} {i : Nat} (hq : q ≠ []) : i ∈ occurrences q t ↔ OccursAt q i t := by
  induction t generalizing i with
  | nil =>
    simp only [occurrences, List.not_mem_nil, false_iff]
    rintro ⟨a, b, h1, h2⟩
    simp [hq] at h1
  | cons c t ih =>
    simp only [occurrences, List.mem_append, List.mem_map]
    constructor
    · rintro (h | ⟨j, hj, rfl⟩)
      · split at h
        · next hp =>
          simp only [List.mem_singleton] at h
          subst h
          obtain ⟨b, hb⟩ := List.isPrefixOf_iff_prefix.mp hp
          exact ⟨[], b, by simp [hb], rfl⟩
        · simp at h
      · obtain ⟨a, b, h1, h2⟩ := ih.mp hj
        exact ⟨c :: a, b, by simp [h1], by simp [h2]⟩
    · rintro ⟨a, b, h1, h2⟩
      cases a with
      | nil =>
        left
        have : q.isPrefixOf (c :: t) = true := List.isPrefixOf_iff_prefix.mpr ⟨b, by simpa using h1.symm⟩
        rw [if_pos this]; simp at h2; simp [← h2]
      | cons x a =>
        right
        simp only [List.cons_append, List.cons.injEq] at h1
        refine ⟨a.length, ih.mpr ⟨a, b, h1.2, rfl⟩, ?_⟩
        simpa using h2

theorem replaceScan_eq (q rep : List Char) (hq : q ≠ []) (cs : List SChar) (f : Option CharFormat) (k : Nat)
    (ha : (occurrences q (cs.map Prod.fst)).Pairwise fun i j => i + q.length ≤ j)
    (hk : ∀ o ∈ occurrences q (cs.map Prod.fst), k ≤ o) :
    (rewriteAllF f rep q.length (occurrences q (cs.map Prod.fst)) cs).drop k = replaceScan q rep f k cs := by
  induction cs generalizing f k with
  | nil => simp [occurrences, rewriteAllF, replaceScan]
  | cons c cs ih =>
    have hl := List.length_pos_iff.mpr hq
    rw [List.map_cons] at ha hk ⊢
    by_cases hp : q.isPrefixOf (c.1 :: cs.map Prod.fst) = true
    · have ho : occurrences q (c.1 :: cs.map Prod.fst) = 0 :: (occurrences q (cs.map Prod.fst)).map (· + 1) := by
        simp only [occurrences, if_pos hp, List.singleton_append]
      rw [ho] at ha hk ⊢
      have hk0 : k = 0 := by have := hk 0 (by simp); omega
      subst hk0
      rw [List.pairwise_cons, List.pairwise_map] at ha
      have hi := ih c.2 (q.length - 1) (ha.2.imp (by omega)) (fun o ho => by
        have := ha.1 (o + 1) (List.mem_map_of_mem ho); omega)
      rw [replaceScan, List.map_cons, if_pos hp, ← hi, List.drop_zero]
      have : rewriteAllF f rep q.length (0 :: (occurrences q (cs.map Prod.fst)).map (· + 1)) (c :: cs) =
          rewriteAtF f rep 0 q.length (rewriteAllF f rep q.length ((occurrences q (cs.map Prod.fst)).map (· + 1)) (c :: cs)) := rfl
      rw [this, rewriteAllF_succ, rewriteAtF, Nat.zero_add]
      obtain ⟨n, hn⟩ : ∃ n, q.length = n + 1 := ⟨q.length - 1, by omega⟩
      rw [hn]
      simp [inheritFrom]
    · have ho : occurrences q (c.1 :: cs.map Prod.fst) = (occurrences q (cs.map Prod.fst)).map (· + 1) := by
        simp only [occurrences, if_neg hp, List.nil_append]
      rw [ho] at ha hk ⊢
      rw [List.pairwise_map] at ha
      rw [rewriteAllF_succ]
      cases k with
      | zero =>
        rw [replaceScan, List.map_cons, if_neg hp, ← ih c.2 0 (ha.imp (by omega)) (by simp)]
        simp
      | succ k =>
        rw [replaceScan, List.drop_succ_cons]
        refine ih c.2 k (ha.imp (by omega)) (fun o ho => ?_)
        have := hk (o + 1) (List.mem_map_of_mem ho); omega

/-- Increasing lists with the same members are equal. -/
theorem eq_of_increasing {l m : List Nat} (hl : l.Pairwise (· < ·)) (hm : m.Pairwise (· < ·))
    (h : ∀ x, x ∈ l ↔ x ∈ m) : l = m := by
  induction l generalizing m with
  | nil =>
    cases m with
    | nil => rfl
    | cons y m => exact absurd ((h y).mpr (by simp)) (by simp)
  | cons x l ih =>
    cases m with
    | nil => exact absurd ((h x).mp (by simp)) (by simp)
    | cons y m =>
      rw [List.pairwise_cons] at hl hm
      have hxy : x = y := by
        have h1 := (h x).mp (by simp)
        have h2 := (h y).mpr (by simp)
        rcases List.mem_cons.mp h1 with e | e
        · exact e
        · rcases List.mem_cons.mp h2 with e' | e'
          · exact e'.symm
          · have := hl.1 y e'; have := hm.1 x e; omega
      subst hxy
      congr 1
      refine ih hl.2 hm.2 fun z => ?_
      constructor
      · intro hz
        rcases List.mem_cons.mp ((h z).mp (by simp [hz])) with e | e
        · have := hl.1 z hz; omega
        · exact e
      · intro hz
        rcases List.mem_cons.mp ((h z).mpr (by simp [hz])) with e | e
        · have := hm.1 z hz; omega
        · exact e

/-- The occurrences in the text of a document that lie in one paragraph are those of the paragraph. -/
theorem within_occurrences (q : List Char) (hq : q ≠ []) (a t b : List Char) :
    within a.length t.length ((occurrences q (a ++ t ++ b)).map fun o => (o, q.length)) =
      (occurrences q t).map fun o => (o, q.length) := by
  unfold within
  rw [List.filter_map, List.map_map]
  have : ((occurrences q (a ++ t ++ b)).filter
      ((fun m : Nat × Nat => decide (a.length ≤ m.1 ∧ m.1 + m.2 ≤ a.length + t.length)) ∘ fun o => (o, q.length))).map
        (fun o => o - a.length) = occurrences q t := by
    apply eq_of_increasing _ (occurrences_sorted q t)
    · intro i
      simp only [List.mem_map, List.mem_filter, Function.comp_apply, decide_eq_true_eq, mem_occurrences hq]
      constructor
      · rintro ⟨o, ⟨⟨x, y, h1, h2⟩, h3, h4⟩, rfl⟩
        subst h2
        have e1 : x = a ++ x.drop a.length := by
          have := congrArg (List.take a.length) h1
          rw [List.append_assoc, List.take_left, List.append_assoc, List.take_append_of_le_length h3] at this
          conv => lhs; rw [← List.take_append_drop a.length x, ← this]
        generalize hx' : x.drop a.length = x' at e1
        subst e1
        simp only [List.append_assoc, List.append_cancel_left_eq] at h1
        refine ⟨x', (y.take (t.length - (x'.length + q.length))), ?_, by simp⟩
        have := congrArg (List.take t.length) h1
        rw [List.take_left] at this
        have e : List.take t.length (x' ++ (q ++ y)) = x' ++ q ++ y.take (t.length - (x'.length + q.length)) := by
          rw [List.take_append, List.take_of_length_le (by simp at h4; omega), List.take_append,
            List.take_of_length_le (by simp at h4; omega), List.append_assoc,
            show t.length - x'.length - q.length = t.length - (x'.length + q.length) by omega]
        rw [← e]; exact this
      · rintro ⟨x, y, h1, h2⟩
        subst h1 h2
        refine ⟨a.length + x.length, ⟨⟨a ++ x, y ++ b, by simp, by simp⟩, by omega, by simp; omega⟩, by omega⟩
    · rw [List.pairwise_map]
      refine List.Pairwise.imp_of_mem ?_ ((occurrences_sorted q _).filter _)
      intro x y hx hy hxy
      simp only [List.mem_filter, Function.comp_apply, decide_eq_true_eq] at hx hy
      omega
  conv => rhs; rw [← this]
  rw [List.map_map]; rfl

end Verif
