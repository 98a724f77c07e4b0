import Verif.Model.Search
import Verif.Spec.Search
import Verif.Lemmas.Text
/-
C34, C35: search.
-/
namespace Verif

/-! ## C34 -/

theorem occursAt_iff {q t : List Char} {p : Nat} :
    OccursAt q p t ↔ p + q.length ≤ t.length ∧ (t.drop p).take q.length = q := by
  constructor
  · rintro ⟨a, b, rfl, rfl⟩
    simp
  · rintro ⟨h1, h2⟩
    refine ⟨t.take p, t.drop (p + q.length), ?_, by simp; omega⟩
    have e1 := List.take_append_drop p t
    have e2 := List.take_append_drop q.length (t.drop p)
    rw [h2, List.drop_drop] at e2
    rw [List.append_assoc, e2, e1]

theorem literal_mem {t q : List Char} {wb : Option (List Nat)} {m : Nat × Nat} (hq : q ≠ []) :
    m ∈ literalMatches t q wb ↔
      m.2 = q.length ∧ OccursAt q m.1 t ∧ boundariesOk wb m.1 (m.1 + q.length) = true := by
  have hl : 0 < q.length := List.length_pos_iff.mpr hq
  rw [occursAt_iff]
  unfold literalMatches
  split
  · rename_i h
    simp only [List.not_mem_nil, false_iff]
    rintro ⟨_, ⟨h1, _⟩, _⟩
    omega
  · obtain ⟨p, l⟩ := m
    simp only [List.mem_map, List.mem_filter, List.mem_range, Bool.and_eq_true, decide_eq_true_eq,
      Prod.mk.injEq]
    constructor
    · rintro ⟨x, ⟨h1, h2, h3⟩, rfl, rfl⟩
      exact ⟨rfl, ⟨by omega, h2⟩, h3⟩
    · rintro ⟨h0, ⟨h1, h2⟩, h3⟩
      exact ⟨p, ⟨by omega, h2, h3⟩, rfl, h0.symm⟩

theorem literal_sorted (t q : List Char) (wb : Option (List Nat)) :
    (literalMatches t q wb).Pairwise fun a b => a.1 < b.1 := by
  unfold literalMatches
  split
  · exact List.Pairwise.nil
  · exact List.pairwise_map.mpr (List.Pairwise.filter _ List.pairwise_lt_range)

/-- Position `p` is the start or the end of the text or of one of its words. -/
def WordBoundary (env : SearchEnv) (t : List Char) (p : Nat) : Prop :=
  p = 0 ∨ p = t.length ∨
    ∃ off w a b, (off, w) ∈ env.words t ∧ t = a ++ b ∧ off = utf8Len a ∧
      (p = a.length ∨ p = a.length + w.length)

/-- Word positions given by the segmentation crate are character boundaries of the text. -/
def WordsInside (env : SearchEnv) (t : List Char) : Prop :=
  ∀ m ∈ env.words t, ∃ a b, t = a ++ b ∧ m.1 = utf8Len a

theorem allWordEnds_ok {t : List Char} {ws : List (Nat × List Char)}
    (h : ∀ m ∈ ws, ∃ a b, t = a ++ b ∧ m.1 = utf8Len a) :
    ∃ r, allWordEnds t ws = some r ∧ ∀ p, p ∈ r ↔ ∃ off w a b, (off, w) ∈ ws ∧ t = a ++ b ∧
      off = utf8Len a ∧ (p = a.length ∨ p = a.length + w.length) := by
  induction ws with
  | nil => exact ⟨[], rfl, by simp⟩
  | cons m ws ih =>
    obtain ⟨r, h1, h2⟩ := ih fun m' hm => h m' (List.mem_cons_of_mem _ hm)
    obtain ⟨a, b, hab, hm⟩ := h m (List.mem_cons_self ..)
    have hs : splitAtByte t m.1 = some (a, b) := by rw [hab, hm]; exact splitAtByte_append a b
    refine ⟨[a.length, a.length + m.2.length] ++ r, by simp [allWordEnds, wordEnds, hs, h1], ?_⟩
    intro p
    simp only [List.mem_append, List.mem_cons, List.not_mem_nil, or_false, h2]
    constructor
    · rintro (h | ⟨off, w, a', b', h, h'⟩)
      · exact ⟨m.1, m.2, a, b, .inl rfl, hab, hm, h⟩
      · exact ⟨off, w, a', b', .inr h, h'⟩
    · rintro ⟨off, w, a', b', (h | h), h3, h4, h5⟩
      · left
        subst h
        have e : splitAtByte t off = some (a', b') := by
          rw [h3, h4]; exact splitAtByte_append a' b'
        simp only at hs
        rw [e] at hs
        simp only [Option.some.injEq, Prod.mk.injEq] at hs
        simpa [hs.1] using h5
      · exact .inr ⟨off, w, a', b', h, h3, h4, h5⟩

theorem wordBoundaries_ok {env : SearchEnv} {t : List Char} (h : WordsInside env t) :
    ∃ l, wordBoundaries env t = some l ∧ ∀ p, p ∈ l ↔ WordBoundary env t p := by
  obtain ⟨r, h1, h2⟩ := allWordEnds_ok h
  refine ⟨0 :: t.length :: r, by simp [wordBoundaries, h1], fun p => ?_⟩
  simp only [List.mem_cons, h2, WordBoundary]

/-- Case-sensitive literal search reports exactly the occurrences of the query, each once, in
increasing order, with the query's length. -/
theorem C34_exact (env : SearchEnv) (t q : List Char) (hq : q ≠ []) :
    ∃ ms, findAllMatches env t q true false false = some ms ∧
      (∀ p l, (p, l) ∈ ms ↔ OccursAt q p t ∧ l = q.length) ∧
      ms.Pairwise fun a b => a.1 < b.1 := by
  refine ⟨literalMatches t q none, by simp [findAllMatches, hq], ?_, literal_sorted _ _ _⟩
  intro p l
  rw [literal_mem hq]
  simp only [boundariesOk, and_true]
  exact And.comm

/-- With the whole-word option, exactly those occurrences that start and end at a word boundary. -/
theorem C34_whole_word (env : SearchEnv) (t q : List Char) (hq : q ≠ []) (hw : WordsInside env t) :
    ∃ ms, findAllMatches env t q true true false = some ms ∧
      (∀ p l, (p, l) ∈ ms ↔ OccursAt q p t ∧ l = q.length ∧ WordBoundary env t p ∧
        WordBoundary env t (p + q.length)) ∧
      ms.Pairwise fun a b => a.1 < b.1 := by
  obtain ⟨wb, h1, h2⟩ := wordBoundaries_ok hw
  refine ⟨literalMatches t q (some wb), by simp [findAllMatches, hq, h1], ?_, literal_sorted _ _ _⟩
  intro p l
  rw [literal_mem hq]
  simp only [boundariesOk, Bool.and_eq_true, List.contains_iff_mem, h2]
  constructor
  · rintro ⟨a, b, c, d⟩; exact ⟨b, a, c, d⟩
  · rintro ⟨a, b, c, d⟩; exact ⟨b, a, c, d⟩

/-- Case-insensitive search when lower-casing works character by character: exactly the positions of
texts that equal the query up to case.  Missing from the full claim: characters whose lower case is
longer than one character, see `C34_case_insensitive_fails`. -/
theorem C34_case_insensitive_partial (env : SearchEnv) (f : Char → Char)
    (hf : ∀ s, env.lower s = s.map f) (t q : List Char) (hq : q ≠ []) :
    ∃ ms, findAllMatches env t q false false false = some ms ∧
      (∀ p l, (p, l) ∈ ms ↔ l = q.length ∧ ∃ w, w.map f = q.map f ∧ OccursAt w p t) ∧
      ms.Pairwise fun a b => a.1 < b.1 := by
  refine ⟨literalMatches (t.map f) (q.map f) none, by simp [findAllMatches, hq, hf], ?_,
    literal_sorted _ _ _⟩
  intro p l
  rw [literal_mem (by simpa using hq)]
  simp only [boundariesOk, and_true, List.length_map]
  refine and_congr_right fun _ => ?_
  constructor
  · intro h
    rw [occursAt_iff] at h
    simp only [List.length_map] at h
    refine ⟨(t.drop p).take q.length, ?_, ?_⟩
    · rw [List.map_take, List.map_drop]; exact h.2
    · rw [occursAt_iff]
      have : ((t.drop p).take q.length).length = q.length := by simp; omega
      rw [this]
      exact ⟨h.1, rfl⟩
  · rintro ⟨w, hw, a, b, rfl, rfl⟩
    exact ⟨a.map f, b.map f, by simp [hw], by simp⟩

/-- Lower-casing as the standard library does it for `İ` (U+0130), which becomes two characters. -/
def lowerDotted (s : List Char) : List Char :=
  s.flatMap fun c => if c = 'İ' then ['i', '̇'] else [c.toLower]

/-- The same search is wrong when lower-casing changes the number of characters: in the two-character
text `İx` the query `x` is reported at position 2, past its only occurrence at 1 and outside the
text. -/
theorem C34_case_insensitive_fails (env : SearchEnv) (h : env.lower = lowerDotted) :
    findAllMatches env ['İ', 'x'] ['x'] false false false = some [(2, 1)] ∧
    OccursAt ['x'] 1 ['İ', 'x'] ∧ ¬ ∃ w, w.length = 1 ∧ OccursAt w 2 ['İ', 'x'] := by
  refine ⟨?_, ⟨['İ'], [], rfl, rfl⟩, ?_⟩
  · obtain ⟨lower, words, regex⟩ := env
    simp only at h
    subst h
    rfl
  · rintro ⟨w, hw, a, b, h, ha⟩
    have := congrArg List.length h
    simp only [List.length_append, List.length_cons, List.length_nil] at this
    omega

theorem byteCharMapFrom_get (a b : List Char) : ∀ k,
    (byteCharMapFrom k (a ++ b))[utf8Len a]? = some (k + a.length) := by
  induction a with
  | nil => intro k; cases b <;> simp [byteCharMapFrom]
  | cons c a ih =>
    intro k
    have hc := utf8Size_pos c
    have := ih (k + 1)
    simp only [List.cons_append, byteCharMapFrom, utf8Len_cons]
    rw [show c.utf8Size + utf8Len a = (c.utf8Size - 1 + utf8Len a) + 1 by omega,
      List.getElem?_cons_succ, List.getElem?_append_right (by simp)]
    simp only [List.length_replicate, Nat.add_sub_cancel_left, this, List.length_cons]
    congr 1; omega

theorem byteCharMap_get (a b : List Char) : (byteCharMap (a ++ b))[utf8Len a]? = some a.length := by
  have := byteCharMapFrom_get a b 0
  rw [Nat.zero_add] at this
  exact this

/-- Byte ranges of `t`, given by what stands before and what they cover. -/
def rangesOf (xs : List (List Char × List Char)) : List (Nat × Nat) :=
  xs.map fun x => (utf8Len x.1, utf8Len x.1 + utf8Len x.2)

/-- Regular-expression search turns the engine's byte ranges into the character positions of the
same pieces of text, in the engine's order. -/
theorem C34_regex (env : SearchEnv) (t q : List Char) (cs : Bool) (hq : q ≠ [])
    (find : List Char → List (Nat × Nat)) (hr : env.regex q (!cs) = some find)
    (xs : List (List Char × List Char)) (hx : find t = rangesOf xs)
    (hin : ∀ x ∈ xs, ∃ y, t = x.1 ++ x.2 ++ y) :
    findAllMatches env t q cs false true = some (xs.map fun x => (x.1.length, x.2.length)) := by
  simp only [findAllMatches, List.isEmpty_iff, hq, if_false, Bool.false_eq_true, Option.bind_some,
    if_true, hr, hx]
  clear hx
  induction xs with
  | nil => rfl
  | cons x xs ih =>
    obtain ⟨y, hy⟩ := hin x (List.mem_cons_self ..)
    have e1 : (byteCharMap t)[utf8Len x.1]? = some x.1.length := by
      rw [hy, List.append_assoc]; exact byteCharMap_get ..
    have e2 : (byteCharMap t)[utf8Len x.1 + utf8Len x.2]? = some (x.1.length + x.2.length) := by
      rw [← utf8Len_append, ← List.length_append, hy]; exact byteCharMap_get ..
    have ih' := ih fun x' h => hin x' (List.mem_cons_of_mem _ h)
    simp only [rangesOf, List.map_cons, regexMatches, e1, e2, Option.bind_some] at ih' ⊢
    rw [if_neg (by omega), ih']
    simp [boundariesOk]

/-- An empty query finds nothing. -/
theorem C34_empty_query (env : SearchEnv) (t : List Char) (cs ww re : Bool) :
    findAllMatches env t [] cs ww re = some [] := rfl

/-- `find_all` lists the matches as positions, lengths and their number. -/
theorem C34_find_all {env : SearchEnv} {t q : List Char} {cs ww re : Bool} {ms : List (Nat × Nat)}
    (h : findAllMatches env t q cs ww re = some ms) :
    ∃ ps ls n, findAll env t q cs ww re = some (ps, ls, n) ∧ n = ms.length ∧
      ps.length = ls.length ∧ ps.zip ls = ms.map fun m => ((m.1 : Int), (m.2 : Int)) := by
  refine ⟨_, _, _, by rw [findAll, h]; rfl, rfl, by simp, ?_⟩
  rw [List.zip_map']

/-- Matches may overlap: the query `aa` is found twice in `aaa`. -/
example (env : SearchEnv) :
    findAllMatches env ['a', 'a', 'a'] ['a', 'a'] true false false = some [(0, 2), (1, 2)] := rfl

example : ∃ env : SearchEnv, WordsInside env "hé ho".toList ∧
    findAllMatches env "hé ho".toList "h".toList true true false = some [] ∧
    findAllMatches env "hé ho".toList "ho".toList true true false = some [(3, 2)] := by
  refine ⟨⟨id, fun _ => [(0, "hé".toList), (4, "ho".toList)], fun _ _ => none⟩, ?_, by decide, by decide⟩
  intro m hm
  simp only [List.mem_cons, List.not_mem_nil, or_false] at hm
  rcases hm with rfl | rfl
  · exact ⟨[], "hé ho".toList, rfl, rfl⟩
  · exact ⟨"hé ".toList, "ho".toList, by decide, by decide⟩

example : ∃ env : SearchEnv, env.lower = lowerDotted ∧ (∃ find, env.regex "x".toList false = some find ∧
    find "éx".toList = rangesOf [("é".toList, "x".toList)]) :=
  ⟨⟨lowerDotted, fun _ => [], fun _ _ => some fun _ => [(2, 3)]⟩, rfl, _, rfl, by decide⟩

/-! ## C35 -/

/-- What a search from `start` must return: the match nearest to `start` on the right side. -/
def NearestForward (M : Nat → Nat → Prop) (start : Int) (r : FindResult) : Prop :=
  (r.found = true ∧ ∃ p l : Nat, r.position = p ∧ r.length = l ∧ M p l ∧ start ≤ p ∧
    ∀ p' l', M p' l' → start ≤ (p' : Int) → p ≤ p') ∨
  (r.found = false ∧ ∀ p l, M p l → (p : Int) < start)

/-- And on the left side. -/
def NearestBackward (M : Nat → Nat → Prop) (start : Int) (r : FindResult) : Prop :=
  (r.found = true ∧ ∃ p l : Nat, r.position = p ∧ r.length = l ∧ M p l ∧ (p : Int) < start ∧
    ∀ p' l', M p' l' → (p' : Int) < start → p' ≤ p) ∨
  (r.found = false ∧ ∀ p l, M p l → start ≤ (p : Int))

theorem find?_first {α : Type} {P : α → Bool} {R : α → α → Prop} {l : List α} {x : α}
    (hs : l.Pairwise R) (h : l.find? P = some x) : P x = true ∧ x ∈ l ∧
      ∀ y ∈ l, P y = true → y = x ∨ R x y := by
  induction l with
  | nil => simp at h
  | cons a l ih =>
    rw [List.pairwise_cons] at hs
    rw [List.find?_cons] at h
    split at h
    · simp only [Option.some.injEq] at h
      subst h
      refine ⟨by assumption, List.mem_cons_self .., fun y hy _ => ?_⟩
      rcases List.mem_cons.mp hy with rfl | hy
      · exact .inl rfl
      · exact .inr (hs.1 y hy)
    · rename_i hp
      obtain ⟨h1, h2, h3⟩ := ih hs.2 h
      refine ⟨h1, List.mem_cons_of_mem _ h2, fun y hy hy' => ?_⟩
      rcases List.mem_cons.mp hy with rfl | hy
      · rw [hy'] at hp; cases hp
      · exact h3 y hy hy'

theorem pick_forward {ms : List (Nat × Nat)} {start : Int} (hs : ms.Pairwise fun a b => a.1 < b.1) :
    NearestForward (fun p l => (p, l) ∈ ms) start
      (match pickMatch ms start false with | some (p, l) => ⟨true, p, l⟩ | none => ⟨false, 0, 0⟩) := by
  simp only [pickMatch, Bool.false_eq_true, if_false]
  cases h : ms.find? fun m => decide (m.1 ≥ (max start 0).toNat) with
  | none =>
    refine .inr ⟨rfl, fun p l hm => ?_⟩
    have := List.find?_eq_none.mp h _ hm
    simp at this; omega
  | some m =>
    obtain ⟨p, l⟩ := m
    obtain ⟨h1, h2, h3⟩ := find?_first hs h
    refine .inl ⟨rfl, p, l, rfl, rfl, h2, by simp at h1; omega, fun p' l' hm hp => ?_⟩
    rcases h3 _ hm (by simp; omega) with h | h
    · simp only [Prod.mk.injEq] at h; omega
    · simp only at h; omega

theorem pick_backward {ms : List (Nat × Nat)} {start : Int} (hs : ms.Pairwise fun a b => a.1 < b.1) :
    NearestBackward (fun p l => (p, l) ∈ ms) start
      (match pickMatch ms start true with | some (p, l) => ⟨true, p, l⟩ | none => ⟨false, 0, 0⟩) := by
  simp only [pickMatch, if_true]
  have hs' : ms.reverse.Pairwise fun a b => b.1 < a.1 := List.pairwise_reverse.mpr hs
  cases h : ms.reverse.find? fun m => decide (m.1 < (max start 0).toNat) with
  | none =>
    refine .inr ⟨rfl, fun p l hm => ?_⟩
    have := List.find?_eq_none.mp h _ (List.mem_reverse.mpr hm)
    simp at this; omega
  | some m =>
    obtain ⟨p, l⟩ := m
    obtain ⟨h1, h2, h3⟩ := find?_first hs' h
    refine .inl ⟨rfl, p, l, rfl, rfl, List.mem_reverse.mp h2, by simp at h1; omega, fun p' l' hm hp => ?_⟩
    rcases h3 _ (List.mem_reverse.mpr hm) (by simp; omega) with h | h
    · simp only [Prod.mk.injEq] at h; omega
    · simp only at h; omega

/-- Searching forward gives the first of the reported matches at or after the start, or nothing if
there is none, with any options, as long as matches are reported in order. -/
theorem C35_forward {env : SearchEnv} {t q : List Char} {cs ww re : Bool} {ms : List (Nat × Nat)}
    (h : findAllMatches env t q cs ww re = some ms) (hs : ms.Pairwise fun a b => a.1 < b.1)
    (start : Int) :
    ∃ r, findText env t q cs ww re start false = some r ∧
      NearestForward (fun p l => (p, l) ∈ ms) start r :=
  ⟨_, by rw [findText, h]; rfl, pick_forward hs⟩

/-- Searching backward gives the last match before the start. -/
theorem C35_backward {env : SearchEnv} {t q : List Char} {cs ww re : Bool} {ms : List (Nat × Nat)}
    (h : findAllMatches env t q cs ww re = some ms) (hs : ms.Pairwise fun a b => a.1 < b.1)
    (start : Int) :
    ∃ r, findText env t q cs ww re start true = some r ∧
      NearestBackward (fun p l => (p, l) ∈ ms) start r :=
  ⟨_, by rw [findText, h]; rfl, pick_backward hs⟩

/-- For a plain case-sensitive search: the nearest occurrence of the query in the text. -/
theorem C35_literal (env : SearchEnv) (t q : List Char) (hq : q ≠ []) (start : Int) :
    (∃ r, findText env t q true false false start false = some r ∧
      NearestForward (fun p l => OccursAt q p t ∧ l = q.length) start r) ∧
    (∃ r, findText env t q true false false start true = some r ∧
      NearestBackward (fun p l => OccursAt q p t ∧ l = q.length) start r) := by
  obtain ⟨ms, h1, h2, h3⟩ := C34_exact env t q hq
  have e : (fun p l => (p, l) ∈ ms) = fun p l => OccursAt q p t ∧ l = q.length := by
    funext p l; exact propext (h2 p l)
  exact ⟨e ▸ C35_forward h1 h3 start, e ▸ C35_backward h1 h3 start⟩

example (env : SearchEnv) :
    findText env "abcab".toList "ab".toList true false false 1 false = some ⟨true, 3, 2⟩ ∧
    findText env "abcab".toList "ab".toList true false false 3 true = some ⟨true, 0, 2⟩ ∧
    findText env "abcab".toList "ab".toList true false false 4 false = some ⟨false, 0, 0⟩ ∧
    findText env "abcab".toList "ab".toList true false false (-5) false = some ⟨true, 0, 2⟩ := ⟨rfl, rfl, rfl, rfl⟩

end Verif
