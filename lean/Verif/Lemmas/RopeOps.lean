import Verif.Lemmas.Paragraphs
namespace Verif

theorem isTable_block (id : Nat) : (Marker.block id).isTable = false := rfl

/-- The table condition survives replacing the text of a block. -/
theorem tables_replace {L R : List Para} {id : Nat} {c c' : List Char}
    (h : ∀ p ∈ L ++ (.block id, c) :: R, p.1.isTable = true → p.2 = [objChar]) :
    ∀ p ∈ L ++ (.block id, c') :: R, p.1.isTable = true → p.2 = [objChar] := by
  intro p hp ht
  simp only [List.mem_append, List.mem_cons] at hp
  rcases hp with hp | rfl | hp
  · exact h p (by simp [hp]) ht
  · simp [Marker.isTable] at ht
  · exact h p (by simp [hp]) ht

theorem focusA_lt {L : List Para} {m : Marker} {k : Nat} :
    ∀ e ∈ layout 0 L ++ [(m, span L)], e.2 < span L + k + 1 := by
  intro e he
  simp only [List.mem_append, List.mem_singleton] at he
  rcases he with he | rfl
  · have := layout0_lt he; omega
  · simp; omega

theorem insertInBlock_repr {st : RopeSt} {L R : List Para} {id : Nat} {a b : List Char}
    (t : List Char) (h : Repr st (L ++ (.block id, a ++ b) :: R)) :
    ∃ st', ropeInsertInBlock st id (utf8Len a) t = some st' ∧
      Repr st' (L ++ (.block id, a ++ t ++ b) :: R) := by
  unfold ropeInsertInBlock
  split
  · rename_i h0
    rw [utf8Len_eq_zero] at h0; subst h0
    exact ⟨st, rfl, by simpa using h⟩
  · have f := h.focus
    rw [f.rangeOf]
    have h1 : insertAtByte st.rope (span L + utf8Len a) t =
        some (preText L ++ (a ++ t ++ b ++ postText R)) := by
      have := insertAtByte_append (preText L ++ a) (b ++ postText R) t
      simp only [utf8Len_append, utf8Len_preText] at this
      rw [f.rope]
      simpa using this
    have hs := shiftAfter_layout (x := st.idx) (A := layout 0 L ++ [(Marker.block id, span L)])
      (o := span L + utf8Len (a ++ b) + 1) (o' := span L + utf8Len (a ++ t ++ b) + 1)
      (t := span L + 1) (n := span L + utf8Len (a ++ t ++ b) + span R) (d := (utf8Len t : Nat))
      (R := R) (by simp [f.entries]) (focusA_lt (k := 0)) (by right; omega)
      (by simp; omega) (by rw [f.total]; simp; omega)
    simp only [Option.bind_some, h1, hs, Option.map_some]
    refine ⟨_, rfl, Repr.build rfl ?_ rfl ?_ (tables_replace h.tables)⟩
    · simp [layout]
    · exact cacheOk_shiftAfter h.cache hs

theorem deleteInBlock_repr {st : RopeSt} {L R : List Para} {id : Nat} {a m b : List Char}
    (h : Repr st (L ++ (.block id, a ++ m ++ b) :: R)) :
    ∃ st', ropeDeleteInBlock st id (utf8Len a) (utf8Len a + utf8Len m) = some st' ∧
      Repr st' (L ++ (.block id, a ++ b) :: R) := by
  unfold ropeDeleteInBlock
  split
  · rename_i h0
    have : m = [] := utf8Len_eq_zero.mp (by omega)
    subst this
    exact ⟨st, rfl, by simpa using h⟩
  · have f := h.focus
    rw [f.rangeOf]
    have h1 : removeBytes st.rope (span L + utf8Len a) (span L + (utf8Len a + utf8Len m)) =
        some (preText L ++ (a ++ b ++ postText R)) := by
      have := removeBytes_append (preText L ++ a) m (b ++ postText R)
      simp only [utf8Len_append, utf8Len_preText] at this
      rw [f.rope, ← Nat.add_assoc]
      simpa using this
    have hs := shiftAfter_layout (x := st.idx) (A := layout 0 L ++ [(Marker.block id, span L)])
      (o := span L + utf8Len (a ++ m ++ b) + 1) (o' := span L + utf8Len (a ++ b) + 1)
      (t := span L + 1) (n := span L + utf8Len (a ++ b) + span R)
      (d := -((utf8Len a + utf8Len m - utf8Len a : Nat) : Int))
      (R := R) (by simp [f.entries]) (focusA_lt (k := 0)) (by right; omega)
      (by simp; omega) (by rw [f.total]; simp; omega)
    simp only [Option.bind_some, h1, hs, Option.map_some]
    refine ⟨_, rfl, Repr.build rfl ?_ rfl ?_ (tables_replace h.tables)⟩
    · simp [layout]
    · exact cacheOk_shiftAfter h.cache hs

theorem insertIdx_append_len {α} (A B : List α) (x : α) :
    (A ++ B).insertIdx A.length x = A ++ x :: B := by
  induction A with
  | nil => simp
  | cons a A ih => simp [ih]

theorem insertAt_append {x : Index} {A B : List (Marker × Nat)} {m : Marker} {bs n : Nat}
    (hx : x.entries = A ++ B) (hn : n = A.length) :
    ∃ x', x.insertAt n m bs = some x' ∧ x'.entries = A ++ (m, bs) :: B ∧ x'.total = x.total := by
  subst hn
  unfold Index.insertAt
  rw [if_pos (by simp [hx])]
  exact ⟨_, rfl, by simp [hx, insertIdx_append_len], rfl⟩

theorem removeAt_append {x : Index} {A B : List (Marker × Nat)} {m : Marker} {bs n : Nat}
    (hx : x.entries = A ++ (m, bs) :: B) (hn : n = A.length) :
    ∃ x', x.removeAt n = some x' ∧ x'.entries = A ++ B ∧ x'.total = x.total := by
  subst hn
  unfold Index.removeAt
  have : x.entries[A.length]? = some (m, bs) := by rw [hx]; simp
  rw [this]
  refine ⟨_, rfl, ?_, rfl⟩
  simp [hx, List.eraseIdx_append_of_length_le]

theorem splitBlock_repr {st : RopeSt} {L R : List Para} {id new : Nat} {a b : List Char}
    (h : Repr st (L ++ (.block id, a ++ b) :: R))
    (hnew : Marker.block new ∉ (L ++ (.block id, a ++ b) :: R).map Prod.fst) :
    ∃ st', ropeSplitBlock st id (utf8Len a) new = some st' ∧
      Repr st' (L ++ (.block id, a) :: (.block new, b) :: R) := by
  unfold ropeSplitBlock
  have f := h.focus
  rw [f.rangeOf, f.entryIndex]
  have h1 : insertAtByte st.rope (span L + utf8Len a) ['\n'] =
      some (preText L ++ (a ++ postText ((.block new, b) :: R))) := by
    have := insertAtByte_append (preText L ++ a) (b ++ postText R) ['\n']
    simp only [utf8Len_append, utf8Len_preText] at this
    rw [f.rope]
    simpa using this
  have hs := shiftAfter_layout (x := st.idx) (A := layout 0 L ++ [(Marker.block id, span L)])
    (o := span L + utf8Len (a ++ b) + 1) (o' := span L + utf8Len (a ++ b) + 1 + 1)
    (t := span L + utf8Len a + 1) (n := span L + utf8Len (a ++ b) + span R + 1) (d := 1)
    (R := R) (by simp [f.entries]) (focusA_lt (k := utf8Len a)) (by right; simp)
    (by simp) (by rw [f.total]; simp)
  simp only [Option.bind_some, h1, hs]
  have hc := cacheOk_shiftAfter h.cache hs
  obtain ⟨x', hx', he, ht⟩ := insertAt_append
    (x := { st.idx with
      entries := (layout 0 L ++ [(Marker.block id, span L)]) ++
        layout (span L + utf8Len (a ++ b) + 1 + 1) R
      total := span L + utf8Len (a ++ b) + span R + 1 })
    (m := .block new) (bs := span L + utf8Len a + 1) (n := L.length + 1) rfl (by simp)
  rw [hx']
  refine ⟨_, rfl, Repr.build rfl ?_ ?_ ?_ ?_⟩
  · simp [he, layout]; congr 1; omega
  · simp [ht]; omega
  · refine cacheOk_insertAt hc ?_ hx'
    simpa using hnew
  · intro p hp hpt
    simp only [List.mem_append, List.mem_cons] at hp
    rcases hp with hp | rfl | rfl | hp
    · exact h.tables p (by simp [hp]) hpt
    · simp [Marker.isTable] at hpt
    · simp [Marker.isTable] at hpt
    · exact h.tables p (by simp [hp]) hpt

theorem drain_append {x : Index} {A M B : List (Marker × Nat)} {s e : Nat}
    (hx : x.entries = A ++ M ++ B) (hs : s = A.length) (he : e + 1 = A.length + M.length) (hM : M ≠ []) :
    ∃ x', x.drainInclusive s e = some x' ∧ x'.entries = A ++ B ∧ x'.total = x.total := by
  subst hs
  have hl : x.entries.length = A.length + M.length + B.length := by simp [hx]; omega
  have : 0 < M.length := List.length_pos_iff.mpr hM
  unfold Index.drainInclusive
  rw [if_pos (by omega)]
  refine ⟨_, rfl, ?_, rfl⟩
  simp only
  rw [he, hx]
  congr 1
  · rw [List.append_assoc, List.take_left]
  · rw [← List.length_append, List.drop_left]

theorem mergeBlockRange_repr {st : RopeSt} {L M R : List Para} {s e : Nat}
    {a1 b1 a2 b2 : List Char}
    (h : Repr st (L ++ (.block s, a1 ++ b1) :: (M ++ (.block e, a2 ++ b2) :: R))) :
    ∃ st', ropeMergeBlockRange st s (utf8Len a1) e (utf8Len a2) = some st' ∧
      Repr st' (L ++ (.block s, a1 ++ b2) :: R) := by
  unfold ropeMergeBlockRange
  have f := h.focus
  have h' : Repr st ((L ++ (.block s, a1 ++ b1) :: M) ++ (.block e, a2 ++ b2) :: R) := by
    simpa using h
  have g := h'.focus
  rw [f.rangeOf, g.rangeOf, f.entryIndex, g.entryIndex]
  simp only [Option.bind_some]
  rw [if_neg (by simp)]
  rw [if_neg (by simp; omega)]
  have h1 : removeBytes st.rope (span L + utf8Len a1)
      (span (L ++ (Marker.block s, a1 ++ b1) :: M) + utf8Len a2) =
      some (preText L ++ (a1 ++ b2 ++ postText R)) := by
    have := removeBytes_append (preText L ++ a1) (b1 ++ postText M ++ '\n' :: a2) (b2 ++ postText R)
    simp only [utf8Len_append, utf8Len_preText, utf8Len_postText, utf8Len_cons, nl_size] at this
    have hr : st.rope = preText L ++ a1 ++ (b1 ++ postText M ++ '\n' :: a2) ++ (b2 ++ postText R) := by
      rw [f.rope]; simp
    rw [hr]
    have he : span (L ++ (Marker.block s, a1 ++ b1) :: M) + utf8Len a2 =
      span L + utf8Len a1 + (utf8Len b1 + span M + (1 + utf8Len a2)) := by simp; omega
    rw [he, this]; simp
  rw [h1]
  obtain ⟨x1, hx1, he1, ht1⟩ := drain_append (x := st.idx)
    (A := layout 0 L ++ [(Marker.block s, span L)])
    (M := layout (span L + utf8Len (a1 ++ b1) + 1) (M ++ [(.block e, a2 ++ b2)]))
    (B := layout (span L + utf8Len (a1 ++ b1) + 1 + span M + utf8Len (a2 ++ b2) + 1) R)
    (s := L.length + 1) (e := (L ++ (Marker.block s, a1 ++ b1) :: M).length)
    (by
      rw [f.entries, layout_append, layout_append]
      simp [layout])
    (by simp) (by simp; omega) (by
      intro hc
      have := congrArg List.length hc
      simp at this)
  simp only [Option.bind_some, hx1]
  have hs := shiftAfter_layout (x := x1) (A := layout 0 L ++ [(Marker.block s, span L)])
    (o := span L + utf8Len (a1 ++ b1) + 1 + span M + utf8Len (a2 ++ b2) + 1)
    (o' := span L + utf8Len (a1 ++ b2) + 1)
    (t := span L + utf8Len a1 + 1) (n := span L + utf8Len (a1 ++ b2) + span R)
    (d := -((span (L ++ (Marker.block s, a1 ++ b1) :: M) + utf8Len a2 - (span L + utf8Len a1) : Nat) : Int))
    (R := R) he1 (focusA_lt (k := utf8Len a1)) (by right; simp; omega)
    (by simp; omega) (by rw [ht1, f.total]; simp; omega)
  rw [hs]
  have hc := cacheOk_shiftAfter (cacheOk_drainInclusive h.cache hx1) hs
  refine ⟨_, rfl, Repr.build rfl ?_ rfl hc ?_⟩
  · simp [layout]
  · intro p hp hpt
    simp only [List.mem_append, List.mem_cons] at hp
    rcases hp with hp | rfl | hp
    · exact h.tables p (by simp [hp]) hpt
    · simp [Marker.isTable] at hpt
    · exact h.tables p (by simp [hp]) hpt

theorem tables_remove {L R : List Para} {p0 : Para}
    (h : ∀ p ∈ L ++ p0 :: R, p.1.isTable = true → p.2 = [objChar]) :
    ∀ p ∈ L ++ R, p.1.isTable = true → p.2 = [objChar] := by
  intro p hp ht
  refine h p ?_ ht
  simp only [List.mem_append, List.mem_cons] at hp ⊢
  rcases hp with hp | hp <;> simp [hp]

/-- Put a representation together from its text. -/
theorem Repr.of_text {st : RopeSt} {ps : List Para} (hrope : st.rope = joinNl (ps.map Prod.snd))
    (hent : st.idx.entries = layout 0 ps) (htot : st.idx.total = utf8Len st.rope)
    (hc : CacheOk st.idx) (ht : ∀ p ∈ ps, p.1.isTable = true → p.2 = [objChar]) : Repr st ps :=
  ⟨hrope, hent, htot, hc, ht⟩

theorem removeBlock_repr {st : RopeSt} {L R : List Para} {id : Nat} {c : List Char}
    (h : Repr st (L ++ (.block id, c) :: R)) :
    ∃ st', ropeRemoveBlock st id = some st' ∧ Repr st' (L ++ R) := by
  unfold ropeRemoveBlock
  have f := h.focus
  rw [f.rangeOf, f.entryIndex]
  obtain ⟨x1, hx1, he1, ht1⟩ := removeAt_append (x := st.idx) (n := L.length) f.entries (by simp)
  have hc1 := cacheOk_removeAt h.cache hx1
  simp only [Option.bind_some]
  have hlen : st.idx.entries.length = L.length + 1 + R.length := by simp [f.entries]; omega
  rcases R with _ | ⟨⟨m2, c2⟩, R⟩
  · -- last paragraph
    simp only [if_true, Nat.add_zero]
    rcases List.eq_nil_or_concat L with rfl | ⟨L', ⟨m1, c1⟩, rfl⟩
    · simp only [List.length_nil, Nat.lt_irrefl, decide_false, Bool.and_false, span_nil,
        Nat.zero_add, gt_iff_lt, Bool.false_eq_true, if_false]
      by_cases h0 : c = []
      · subst h0
        rw [if_pos (by simp)]
        simp only [List.length_nil] at hx1
        rw [hx1]
        refine ⟨_, rfl, Repr.of_text ?_ ?_ ?_ hc1 (by simp)⟩
        · simp [joinNl, f.rope]
        · simp [he1, layout]
        · simp [ht1, f.total, f.rope]
      · have hr : removeBytes st.rope 0 (utf8Len c) = some [] := by
          have := removeBytes_append [] c []
          simpa [f.rope] using this
        simp only [List.length_nil] at hx1
        have hs := shiftAfter_layout (x := x1) (A := []) (o := utf8Len c) (o' := 0)
          (t := utf8Len c) (n := 0) (d := -((utf8Len c - 0 : Nat) : Int)) (R := [])
          (by simp [he1, layout]) (by simp) (by simp) (by omega)
          (by rw [ht1, f.total]; simp; omega)
        have hc0 := mt utf8Len_eq_zero.mp h0
        rw [if_neg (by omega)]
        simp only [hr, Option.bind_some, hx1, hs, Option.map_some]
        refine ⟨_, rfl, Repr.of_text ?_ ?_ ?_ (cacheOk_shiftAfter hc1 hs) (by simp)⟩
        · simp [joinNl]
        · simp [layout]
        · simp
    · have hspan : span (L'.concat (m1, c1)) = span L' + utf8Len c1 + 1 := by simp; omega
      have hb : (((L'.concat (m1, c1)).length + 1 == st.idx.entries.length) &&
          decide ((L'.concat (m1, c1)).length > 0)) = true := by
        rw [hlen]; simp
      simp only [hb, if_true]
      rw [if_neg (by rw [hspan]; omega)]
      have hr : removeBytes st.rope (span (L'.concat (m1, c1)) - 1)
          (span (L'.concat (m1, c1)) + utf8Len c) = some (preText L' ++ c1) := by
        have := removeBytes_append (preText L' ++ c1) ('\n' :: c) []
        simp only [utf8Len_append, utf8Len_preText, utf8Len_cons, nl_size] at this
        rw [f.rope, hspan]
        have e1 : span L' + utf8Len c1 + 1 - 1 = span L' + utf8Len c1 := by omega
        have e2 : span L' + utf8Len c1 + 1 + utf8Len c = span L' + utf8Len c1 + (1 + utf8Len c) := by omega
        rw [e1, e2]
        simpa using this
      have hs := shiftAfter_layout (x := x1) (A := layout 0 (L'.concat (m1, c1))) (o := 0 + (utf8Len c + 1)) (o' := 0)
        (t := span (L'.concat (m1, c1)) + utf8Len c) (n := span L' + utf8Len c1)
        (d := -((span (L'.concat (m1, c1)) + utf8Len c - (span (L'.concat (m1, c1)) - 1) : Nat) : Int)) (R := [])
        (by simp [he1, layout]) (by intro e he; have := layout0_lt he; omega) (by simp)
        (by rw [hspan]; omega)
        (by rw [ht1, f.total, hspan]; simp only [span_nil]; omega)
      rw [hr]
      simp only [Option.bind_some, hx1, hs, Option.map_some]
      refine ⟨_, rfl, ?_⟩
      have := Repr.build (st := ⟨preText L' ++ c1, { x1 with entries := layout 0 (L'.concat (m1, c1)) ++ layout 0 [], total := span L' + utf8Len c1 }⟩)
        (L := L') (m := m1) (c := c1) (R := []) (by simp)
        (by simp [layout_append, layout]) (by simp) (cacheOk_shiftAfter hc1 hs)
        (by simpa using tables_remove h.tables)
      simpa using this
  · -- a paragraph follows
    have hb : ((L.length + 1 == st.idx.entries.length) && decide (L.length > 0)) = false := by
      rw [hlen]; simp
    simp only [hb, Bool.false_eq_true, if_false, reduceCtorEq]
    rw [if_neg (by omega)]
    have hr : removeBytes st.rope (span L) (span L + utf8Len c + 1) =
        some (preText L ++ (c2 ++ postText R)) := by
      have := removeBytes_append (preText L) (c ++ ['\n']) (c2 ++ postText R)
      simp only [utf8Len_append, utf8Len_preText, utf8Len_cons, nl_size, utf8Len_nil] at this
      rw [f.rope, Nat.add_assoc]
      simpa using this
    have hs := shiftAfter_layout (x := x1) (A := layout 0 L)
      (o := span L + utf8Len c + 1) (o' := span L)
      (t := span L + utf8Len c + 1) (n := span L + utf8Len c2 + span R)
      (d := -((span L + utf8Len c + 1 - span L : Nat) : Int)) (R := (m2, c2) :: R)
      he1 (by intro e he; have := layout0_lt he; omega) (by right; omega)
      (by omega) (by rw [ht1, f.total]; simp; omega)
    rw [hr]
    simp only [Option.bind_some, hx1, hs, Option.map_some]
    exact ⟨_, rfl, Repr.build rfl rfl rfl (cacheOk_shiftAfter hc1 hs) (tables_remove h.tables)⟩

theorem replaceContent_repr {st : RopeSt} {L R : List Para} {id : Nat} {c : List Char}
    (t : List Char) (h : Repr st (L ++ (.block id, c) :: R)) (hR : span R ≠ 1) :
    ∃ st', ropeReplaceBlockContent st id t = some st' ∧
      Repr st' (L ++ (.block id, t) :: R) := by
  unfold ropeReplaceBlockContent
  have f := h.focus
  rw [f.rangeOf]
  simp only [Option.bind_some]
  -- the code sees a trailing newline exactly when a paragraph follows
  have hsub : (if (span L + utf8Len c + if R = [] then 0 else 1) < st.idx.total then 1 else 0) =
      (if R = [] then 0 else 1) := by
    rw [f.total]
    cases R with
    | nil => simp
    | cons p R =>
      simp only [span_cons] at hR
      simp only [reduceCtorEq, if_false, span_cons]
      rw [if_pos (by omega)]
  rw [hsub]
  rw [if_neg (by omega)]
  have hcont : (span L + utf8Len c + if R = [] then 0 else 1) - span L - (if R = [] then 0 else 1) =
      utf8Len c := by omega
  rw [hcont]
  split
  · rename_i h0
    have h1 : c = [] := utf8Len_eq_zero.mp h0.1
    have h2 : t = [] := utf8Len_eq_zero.mp h0.2
    subst h1; subst h2
    exact ⟨st, rfl, h⟩
  · have hb : byteToChar st.rope (span L) = some (preText L).length := by
      have := byteToChar_append (preText L) (c ++ postText R)
      rw [utf8Len_preText] at this
      rw [f.rope]; exact this
    have hr : (if utf8Len c > 0 then removeBytes st.rope (span L) (span L + utf8Len c) else some st.rope) =
        some (preText L ++ postText R) := by
      split
      · have := removeBytes_append (preText L) c (postText R)
        rw [utf8Len_preText] at this
        rw [f.rope]; simpa using this
      · have : c = [] := utf8Len_eq_zero.mp (by omega)
        subst this
        rw [f.rope]; simp
    rw [hr, hb]
    simp only [Option.bind_some]
    have hrope : (if utf8Len t > 0 then
        (preText L ++ postText R).take (preText L).length ++ t ++ (preText L ++ postText R).drop (preText L).length
        else preText L ++ postText R) = preText L ++ (t ++ postText R) := by
      split
      · rw [List.take_left, List.drop_left]; simp
      · have : t = [] := utf8Len_eq_zero.mp (by omega)
        subst this; simp
    rw [hrope]
    split
    · have hs := shiftAfter_layout (x := st.idx) (A := layout 0 L ++ [(Marker.block id, span L)])
        (o := span L + utf8Len c + 1) (o' := span L + utf8Len t + 1)
        (t := span L + 1) (n := span L + utf8Len t + span R)
        (d := (utf8Len t : Int) - (utf8Len c : Int))
        (R := R) (by simp [f.entries]) (focusA_lt (k := 0)) (by right; omega)
        (by omega) (by rw [f.total]; omega)
      rw [hs]
      refine ⟨_, rfl, Repr.build rfl ?_ rfl ?_ (tables_replace h.tables)⟩
      · simp [layout]
      · exact cacheOk_shiftAfter h.cache hs
    · rename_i hd
      refine ⟨_, rfl, Repr.build rfl ?_ ?_ h.cache (tables_replace h.tables)⟩
      · simp only [f.entries, layout]; congr 3; omega
      · simp only [f.total]; omega

theorem reset_repr : Repr ropeReset [] :=
  ⟨rfl, rfl, rfl, cacheOk_empty, by simp⟩

theorem appendFirst_repr {st : RopeSt} {id : Nat} (c : List Char) (h : Repr st []) :
    Repr (ropeAppendBlock st id c) [(.block id, c)] := by
  have hr : st.rope = [] := by simpa [joinNl] using h.text
  have he : st.idx.entries = [] := by simpa [layout] using h.starts
  refine ⟨?_, ?_, ?_, ?_, ?_⟩
  · simp [ropeAppendBlock, hr, joinNl]
  · simp [ropeAppendBlock, hr, he, Index.push, Index.setTotal, layout]
  · simp [ropeAppendBlock, Index.setTotal]
  · exact cacheOk_setTotal _ (cacheOk_push h.cache (by simp [he]))
  · simp [Marker.isTable]

theorem append_text {st : RopeSt} {ps : List Para} (h : Repr st ps) (hne : ps ≠ []) (q : Para) :
    st.rope ++ '\n' :: q.2 = joinNl ((ps ++ [q]).map Prod.snd) ∧
      utf8Len st.rope + 1 = span ps := by
  rcases List.eq_nil_or_concat ps with rfl | ⟨L, p, rfl⟩
  · exact absurd rfl hne
  · obtain ⟨m, c⟩ := p
    rw [h.text]
    have h1 := joinNl_split L (m, c) [q]
    have h2 := joinNl_split L (m, c) []
    simp only [List.concat_eq_append, List.append_assoc, List.singleton_append] at *
    rw [h1, h2]
    simp; omega

theorem appendNext_repr {st : RopeSt} {ps : List Para} {id : Nat} (c : List Char) (h : Repr st ps)
    (hne : ps ≠ []) (hnew : Marker.block id ∉ ps.map Prod.fst) :
    Repr (ropeAppendBlock (ropeInsertBlockBoundary st) id c) (ps ++ [(.block id, c)]) := by
  obtain ⟨h1, h2⟩ := append_text h hne (.block id, c)
  refine ⟨?_, ?_, ?_, ?_, ?_⟩
  · rw [← h1]; simp [ropeAppendBlock, ropeInsertBlockBoundary]
  · simp [ropeAppendBlock, ropeInsertBlockBoundary, Index.push, Index.setTotal, h.starts,
      layout_append, layout, h2]
  · simp [ropeAppendBlock, Index.setTotal]
  · exact cacheOk_setTotal _ (cacheOk_push (cacheOk_setTotal _ h.cache) (by
      simp only [ropeInsertBlockBoundary, Index.setTotal, h.starts, layout_keys]; exact hnew))
  · intro p hp hpt
    simp only [List.mem_append, List.mem_singleton] at hp
    rcases hp with hp | rfl
    · exact h.tables p hp hpt
    · simp [Marker.isTable] at hpt

theorem appendEmpty_repr {st : RopeSt} {ps : List Para} {id : Nat} (h : Repr st ps)
    (hne : st.rope ≠ []) (hnew : Marker.block id ∉ ps.map Prod.fst) :
    Repr (ropeAppendEmptyBlock st id) (ps ++ [(.block id, [])]) := by
  have hps : ps ≠ [] := by
    rintro rfl
    exact hne (by simpa [joinNl] using h.text)
  have := appendNext_repr (id := id) [] h hps hnew
  unfold ropeAppendEmptyBlock
  rw [if_neg (by rw [utf8Len_eq_zero]; exact hne)]
  simpa [ropeAppendBlock] using this

theorem appendTableAnchor_repr {st : RopeSt} {ps : List Para} {tid : Nat} (h : Repr st ps)
    (hne : st.rope ≠ []) (hnew : Marker.table tid ∉ ps.map Prod.fst) :
    Repr (ropeAppendTableAnchor st tid) (ps ++ [(.table tid, [objChar])]) := by
  have hps : ps ≠ [] := by
    rintro rfl
    exact hne (by simpa [joinNl] using h.text)
  obtain ⟨h1, h2⟩ := append_text h hps (.table tid, [objChar])
  unfold ropeAppendTableAnchor
  rw [if_neg (by rw [utf8Len_eq_zero]; exact hne)]
  refine ⟨?_, ?_, ?_, ?_, ?_⟩
  · rw [← h1]
  · simp only [Index.push, Index.setTotal, h.starts, layout_append, layout]
    congr 3
    simp; omega
  · simp [Index.setTotal]
  · exact cacheOk_setTotal _ (cacheOk_push h.cache (by rw [h.starts, layout_keys]; exact hnew))
  · intro p hp hpt
    simp only [List.mem_append, List.mem_singleton] at hp
    rcases hp with hp | rfl
    · exact h.tables p hp hpt
    · rfl

theorem appendTableAnchor_first_repr {st : RopeSt} {tid : Nat} (h : Repr st []) :
    Repr (ropeAppendTableAnchor st tid) [(.table tid, [objChar])] := by
  have hr : st.rope = [] := by simpa [joinNl] using h.text
  have he : st.idx.entries = [] := by simpa [layout] using h.starts
  unfold ropeAppendTableAnchor
  rw [if_pos (by simp [hr])]
  refine ⟨?_, ?_, ?_, ?_, ?_⟩
  · simp [hr, joinNl]
  · simp [hr, he, Index.push, Index.setTotal, layout]
  · simp [Index.setTotal]
  · exact cacheOk_setTotal _ (cacheOk_push h.cache (by simp [he]))
  · simp

/-- New paragraph placed right after the end of the text of `p`. -/
theorem insertBlockAt_repr {st : RopeSt} {L R : List Para} {m : Marker} {c : List Char} {new : Nat}
    (t : List Char) (h : Repr st (L ++ (m, c) :: R))
    (hnew : Marker.block new ∉ (L ++ (m, c) :: R).map Prod.fst) :
    ∃ st', ropeInsertBlockAt st (span L + utf8Len c) new t = some st' ∧
      Repr st' (L ++ (m, c) :: (.block new, t) :: R) := by
  unfold ropeInsertBlockAt
  have f := h.focus
  have hpos : ((st.idx.entries.findIdx? fun e => decide (e.2 > span L + utf8Len c)).getD
      st.idx.entries.length) = L.length + 1 := by
    have hA : (layout 0 L ++ [(m, span L)]).findIdx? (fun e => decide (e.2 > span L + utf8Len c)) = none := by
      rw [List.findIdx?_eq_none_iff]
      intro e he
      have := focusA_lt (k := utf8Len c) e he
      simp only [decide_eq_false_iff_not]; omega
    have he : st.idx.entries = (layout 0 L ++ [(m, span L)]) ++ layout (span L + utf8Len c + 1) R := by
      simp [f.entries]
    rw [he, List.findIdx?_append, hA]
    cases R with
    | nil => simp [layout]
    | cons p R =>
      obtain ⟨m', c'⟩ := p
      simp [layout, List.findIdx?_cons]
  rw [hpos]
  have h1 : insertAtByte st.rope (span L + utf8Len c) ('\n' :: t) =
      some (preText L ++ (c ++ postText ((.block new, t) :: R))) := by
    have := insertAtByte_append (preText L ++ c) (postText R) ('\n' :: t)
    simp only [utf8Len_append, utf8Len_preText] at this
    rw [f.rope]
    simpa using this
  have hs := shiftAfter_layout (x := st.idx) (A := layout 0 L ++ [(m, span L)])
    (o := span L + utf8Len c + 1) (o' := span L + utf8Len c + 1 + utf8Len t + 1)
    (t := span L + utf8Len c + 1) (n := span L + utf8Len c + (utf8Len t + 1 + span R))
    (d := ((1 + utf8Len t : Nat) : Int))
    (R := R) (by simp [f.entries]) (focusA_lt (k := utf8Len c)) (by right; omega)
    (by omega) (by rw [f.total]; omega)
  simp only [h1, hs, Option.bind_some]
  have hc := cacheOk_shiftAfter h.cache hs
  obtain ⟨x', hx', he, ht⟩ := insertAt_append
    (x := { st.idx with
      entries := (layout 0 L ++ [(m, span L)]) ++ layout (span L + utf8Len c + 1 + utf8Len t + 1) R
      total := span L + utf8Len c + (utf8Len t + 1 + span R) })
    (m := .block new) (bs := span L + utf8Len c + 1) (n := L.length + 1) rfl (by simp)
  rw [hx']
  refine ⟨_, rfl, Repr.build rfl ?_ ?_ ?_ ?_⟩
  · simp [he, layout]
  · simp [ht]
  · exact cacheOk_insertAt hc (by simpa using hnew) hx'
  · intro p hp hpt
    simp only [List.mem_append, List.mem_cons] at hp
    rcases hp with hp | rfl | rfl | hp
    · exact h.tables p (by simp [hp]) hpt
    · exact h.tables _ (by simp) hpt
    · simp [Marker.isTable] at hpt
    · exact h.tables p (by simp [hp]) hpt

theorem tables_insert {A B : List Para} {tid : Nat}
    (h : ∀ p ∈ A ++ B, p.1.isTable = true → p.2 = [objChar]) :
    ∀ p ∈ A ++ (.table tid, [objChar]) :: B, p.1.isTable = true → p.2 = [objChar] := by
  intro p hp ht
  simp only [List.mem_append, List.mem_cons] at hp
  rcases hp with hp | rfl | hp
  · exact h p (by simp [hp]) ht
  · rfl
  · exact h p (by simp [hp]) ht

theorem insertTableBefore_repr {st : RopeSt} {L R : List Para} {id tid : Nat} {c : List Char}
    (h : Repr st (L ++ (.block id, c) :: R))
    (hnew : Marker.table tid ∉ (L ++ (.block id, c) :: R).map Prod.fst) :
    ∃ st', ropeInsertTableAnchor st tid id false = some st' ∧
      Repr st' (L ++ (.table tid, [objChar]) :: (.block id, c) :: R) := by
  unfold ropeInsertTableAnchor
  have f := h.focus
  rw [f.rangeOf, f.entryIndex]
  simp only [Option.bind_some, Bool.false_eq_true, if_false, Bool.not_false, if_true]
  have h1 : insertAtByte st.rope (span L) [objChar, '\n'] =
      some (preText L ++ ([objChar] ++ postText ((.block id, c) :: R))) := by
    have := insertAtByte_append (preText L) (c ++ postText R) [objChar, '\n']
    rw [utf8Len_preText] at this
    rw [f.rope, this]
    simp
  have hs := shiftAfter_layout (x := st.idx) (A := layout 0 L)
    (o := span L) (o' := span L + 4) (t := span L) (n := span L + utf8Len c + span R + 4) (d := 4)
    (R := (.block id, c) :: R) (by simp [f.entries, layout]) (fun e he => layout0_lt he) (by right; omega)
    (by simp) (by rw [f.total]; simp)
  simp only [h1, hs, Option.bind_some]
  have hc := cacheOk_shiftAfter h.cache hs
  obtain ⟨x', hx', he, ht⟩ := insertAt_append
    (x := { st.idx with
      entries := layout 0 L ++ layout (span L + 4) ((Marker.block id, c) :: R)
      total := span L + utf8Len c + span R + 4 })
    (m := .table tid) (bs := span L) (n := L.length) rfl (by simp)
  rw [hx']
  refine ⟨_, rfl, Repr.build rfl ?_ ?_ (cacheOk_insertAt hc (by simpa using hnew) hx')
    (tables_insert h.tables)⟩
  · simp [he, layout]
  · simp [ht]; omega

theorem insertTableAfter_repr {st : RopeSt} {L R : List Para} {id tid : Nat} {c : List Char}
    (h : Repr st (L ++ (.block id, c) :: R))
    (hnew : Marker.table tid ∉ (L ++ (.block id, c) :: R).map Prod.fst)
    (hlast : R ≠ [] ∨ c ≠ []) :
    ∃ st', ropeInsertTableAnchor st tid id true = some st' ∧
      Repr st' (L ++ (.block id, c) :: (.table tid, [objChar]) :: R) := by
  unfold ropeInsertTableAnchor
  have f := h.focus
  rw [f.rangeOf, f.entryIndex]
  have hlen : st.idx.entries.length = L.length + 1 + R.length := by simp [f.entries]; omega
  have htab : ∀ p ∈ (L ++ [((.block id, c) : Para)]) ++ (.table tid, [objChar]) :: R,
      p.1.isTable = true → p.2 = [objChar] := tables_insert (by simpa using h.tables)
  cases R with
  | nil =>
    have hc0 : 0 < utf8Len c := by
      have : c ≠ [] := by simpa using hlast
      have := mt utf8Len_eq_zero.mp this
      omega
    have hl : (L.length + 1 == st.idx.entries.length) = true := by rw [hlen]; simp
    simp only [Option.bind_some, hl, Bool.not_true, Bool.false_eq_true, if_false, if_true,
      Nat.add_zero]
    have h1 : insertAtByte st.rope (span L + utf8Len c) ['\n', objChar] =
        some (preText L ++ (c ++ postText [(Marker.table tid, [objChar])])) := by
      have := insertAtByte_append (preText L ++ c) [] ['\n', objChar]
      simp only [utf8Len_append, utf8Len_preText] at this
      rw [f.rope]
      simpa using this
    have hs := shiftAfter_layout (x := st.idx) (A := layout 0 L ++ [(Marker.block id, span L)])
      (o := 0) (o' := 4) (t := span L + utf8Len c) (n := span L + utf8Len c + 4) (d := 4)
      (R := []) (by simp [f.entries, layout])
      (by
        intro e he
        simp only [List.mem_append, List.mem_singleton] at he
        rcases he with he | rfl
        · have := layout0_lt he; omega
        · simp; omega) (by simp)
      (by simp) (by rw [f.total]; simp)
    simp only [h1, hs, Option.bind_some]
    have hc := cacheOk_shiftAfter h.cache hs
    obtain ⟨x', hx', he, ht⟩ := insertAt_append
      (x := { st.idx with
        entries := (layout 0 L ++ [(Marker.block id, span L)]) ++ layout 4 []
        total := span L + utf8Len c + 4 })
      (m := .table tid) (bs := span L + utf8Len c + 1) (n := L.length + 1) rfl (by simp)
    rw [hx']
    refine ⟨_, rfl, Repr.build rfl ?_ ?_ (cacheOk_insertAt hc (by simpa using hnew) hx')
      (by simpa using htab)⟩
    · simp [he, layout]
    · simp [ht]
  | cons p R =>
    have hl : (L.length + 1 == st.idx.entries.length) = false := by rw [hlen]; simp
    simp only [Option.bind_some, hl, Bool.not_false, Bool.not_true, Bool.false_eq_true, if_false, if_true,
      reduceCtorEq]
    have h1 : insertAtByte st.rope (span L + utf8Len c + 1) [objChar, '\n'] =
        some (preText L ++ (c ++ postText ((Marker.table tid, [objChar]) :: p :: R))) := by
      have := insertAtByte_append (preText L ++ (c ++ ['\n'])) (p.2 ++ postText R) [objChar, '\n']
      simp only [utf8Len_append, utf8Len_preText, utf8Len_cons, utf8Len_nil, nl_size] at this
      rw [f.rope, Nat.add_assoc]
      simpa using this
    have hs := shiftAfter_layout (x := st.idx) (A := layout 0 L ++ [(Marker.block id, span L)])
      (o := span L + utf8Len c + 1) (o' := span L + utf8Len c + 1 + 3 + 1) (t := span L + utf8Len c + 1)
      (n := span L + utf8Len c + span (p :: R) + 4) (d := 4)
      (R := p :: R) (by simp [f.entries]) (focusA_lt (k := utf8Len c)) (by right; omega)
      (by omega) (by rw [f.total]; omega)
    simp only [h1, hs, Option.bind_some]
    have hc := cacheOk_shiftAfter h.cache hs
    obtain ⟨x', hx', he, ht⟩ := insertAt_append
      (x := { st.idx with
        entries := (layout 0 L ++ [(Marker.block id, span L)]) ++
          layout (span L + utf8Len c + 1 + 3 + 1) (p :: R)
        total := span L + utf8Len c + span (p :: R) + 4 })
      (m := .table tid) (bs := span L + utf8Len c + 1) (n := L.length + 1) rfl (by simp)
    rw [hx']
    refine ⟨_, rfl, Repr.build rfl ?_ ?_ (cacheOk_insertAt hc (by simpa using hnew) hx')
      (by simpa using htab)⟩
    · simp [he, layout]
    · simp [ht]; omega

/-- Removing a table placeholder that some entry follows. -/
theorem removeTable_mid_repr {st : RopeSt} {L R : List Para} {p : Para} {tid : Nat}
    (h : Repr st (L ++ (.table tid, [objChar]) :: p :: R)) :
    ∃ st', ropeRemoveTableAnchor st tid = some st' ∧ Repr st' (L ++ p :: R) := by
  unfold ropeRemoveTableAnchor
  have f := h.focus
  rw [f.rangeOf, f.entryIndex]
  have hlen : st.idx.entries.length = L.length + 2 + R.length := by simp [f.entries]; omega
  have hl : (L.length + 1 == st.idx.entries.length) = false := by rw [hlen]; simp; omega
  simp only [Option.bind_some, hl, Bool.false_and, Bool.false_eq_true, if_false]
  have h1 : removeBytes st.rope (span L) (span L + 4) = some (preText L ++ (p.2 ++ postText R)) := by
    have := removeBytes_append (preText L) [objChar, '\n'] (p.2 ++ postText R)
    simp only [utf8Len_preText, utf8Len_cons, utf8Len_nil, nl_size, obj_size] at this
    rw [f.rope]
    simpa using this
  obtain ⟨x1, hx1, he1, ht1⟩ := removeAt_append (x := st.idx) (n := L.length) f.entries (by simp)
  have hs := shiftAfter_layout (x := x1) (A := layout 0 L)
    (o := span L + utf8Len [objChar] + 1) (o' := span L)
    (t := span L) (n := span L + utf8Len p.2 + span R) (d := -4) (R := p :: R)
    he1 (fun e he => layout0_lt he) (by right; omega)
    (by simp; omega) (by rw [ht1, f.total]; simp; omega)
  simp only [h1, hx1, hs, Option.bind_some, Option.map_some]
  exact ⟨_, rfl, Repr.build rfl rfl rfl (cacheOk_shiftAfter (cacheOk_removeAt h.cache hx1) hs)
    (tables_remove h.tables)⟩

/-- Removing a table placeholder at the very end, after a non-empty paragraph. -/
theorem removeTable_last_repr {st : RopeSt} {L : List Para} {m : Marker} {c : List Char} {tid : Nat}
    (h : Repr st (L ++ (m, c) :: [(.table tid, [objChar])])) (hc : c ≠ []) :
    ∃ st', ropeRemoveTableAnchor st tid = some st' ∧ Repr st' (L ++ [(m, c)]) := by
  unfold ropeRemoveTableAnchor
  have h' : Repr st ((L ++ [(m, c)]) ++ (.table tid, [objChar]) :: []) := by simpa using h
  have f := h'.focus
  rw [f.rangeOf, f.entryIndex]
  have hc0 : 0 < utf8Len c := by have := mt utf8Len_eq_zero.mp hc; omega
  have hlen : st.idx.entries.length = L.length + 2 := by simp [f.entries]
  have hsp : span (L ++ [(m, c)]) = span L + utf8Len c + 1 := by simp; omega
  have hl : (((L ++ [(m, c)]).length + 1 == st.idx.entries.length) &&
      decide ((L ++ [(m, c)]).length > 0)) = true := by rw [hlen]; simp
  simp only [Option.bind_some, hl, if_true]
  rw [if_neg (by rw [hsp]; omega)]
  have h1 : removeBytes st.rope (span (L ++ [(m, c)]) - 1) (span (L ++ [(m, c)]) + 3) =
      some (preText L ++ (c ++ postText [])) := by
    have := removeBytes_append (preText L ++ c) ['\n', objChar] []
    simp only [utf8Len_append, utf8Len_preText, utf8Len_cons, utf8Len_nil, nl_size, obj_size] at this
    rw [f.rope, hsp]
    have e1 : span L + utf8Len c + 1 - 1 = span L + utf8Len c := by omega
    have e2 : span L + utf8Len c + 1 + 3 = span L + utf8Len c + (1 + (3 + 0)) := by omega
    rw [e1, e2]
    simpa using this
  obtain ⟨x1, hx1, he1, ht1⟩ := removeAt_append (x := st.idx) (n := (L ++ [(m, c)]).length) f.entries
    (by simp)
  have hs := shiftAfter_layout (x := x1) (A := layout 0 (L ++ [(m, c)])) (o := 4) (o' := 0)
    (t := span (L ++ [(m, c)]) - 1) (n := span L + utf8Len c) (d := -4) (R := [])
    (by simp [he1, layout])
    (by
      intro e he
      rw [layout_append] at he
      simp only [List.mem_append, layout, List.mem_singleton] at he
      rw [hsp]
      rcases he with he | rfl
      · have := layout0_lt he; omega
      · simp; omega) (by simp)
    (by simp) (by rw [ht1, f.total, hsp]; simp; omega)
  simp only [h1, hx1, hs, Option.bind_some, Option.map_some]
  refine ⟨_, rfl, Repr.build rfl ?_ rfl (cacheOk_shiftAfter (cacheOk_removeAt h.cache hx1) hs) ?_⟩
  · simp [layout_append, layout]
  · have := tables_remove h'.tables; simpa using this

end Verif
