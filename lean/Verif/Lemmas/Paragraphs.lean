import Verif.Spec.Paragraphs
import Verif.Lemmas.OffsetIndex
import Verif.Lemmas.Text
namespace Verif

/-- Bytes taken by some paragraphs, each with its newline. -/
def span : List Para → Nat
  | [] => 0
  | p :: ps => utf8Len p.2 + 1 + span ps

def preText (L : List Para) : List Char := L.flatMap fun p => p.2 ++ ['\n']
def postText (R : List Para) : List Char := R.flatMap fun p => '\n' :: p.2

@[simp] theorem nl_size : Char.utf8Size '\n' = 1 := rfl
@[simp] theorem obj_size : Char.utf8Size objChar = 3 := rfl
@[simp] theorem span_nil : span [] = 0 := rfl
@[simp] theorem span_cons (p : Para) (ps : List Para) : span (p :: ps) = utf8Len p.2 + 1 + span ps := rfl
@[simp] theorem span_append (a b : List Para) : span (a ++ b) = span a + span b := by
  induction a with
  | nil => simp
  | cons p a ih => simp [ih]; omega

@[simp] theorem utf8Len_preText (L : List Para) : utf8Len (preText L) = span L := by
  induction L with
  | nil => rfl
  | cons p L ih => simp [preText] at ih ⊢; rw [ih]; omega
@[simp] theorem utf8Len_postText (L : List Para) : utf8Len (postText L) = span L := by
  induction L with
  | nil => rfl
  | cons p L ih => simp [postText] at ih ⊢; rw [ih]; omega

@[simp] theorem preText_nil : preText [] = [] := rfl
@[simp] theorem postText_nil : postText [] = [] := rfl
@[simp] theorem preText_cons (p : Para) (L) : preText (p :: L) = p.2 ++ '\n' :: preText L := by
  simp [preText]
@[simp] theorem postText_cons (p : Para) (L) : postText (p :: L) = '\n' :: (p.2 ++ postText L) := by
  simp [postText]
@[simp] theorem preText_append (a b : List Para) : preText (a ++ b) = preText a ++ preText b := by
  simp [preText]
@[simp] theorem postText_append (a b : List Para) : postText (a ++ b) = postText a ++ postText b := by
  simp [postText]

theorem joinNl_head (p : Para) (R : List Para) :
    joinNl ((p :: R).map Prod.snd) = p.2 ++ postText R := by
  induction R generalizing p with
  | nil => simp [joinNl]
  | cons q R ih =>
    have := ih q
    simp only [List.map_cons] at this
    simp [joinNl, this]

theorem joinNl_split (L : List Para) (p : Para) (R : List Para) :
    joinNl ((L ++ p :: R).map Prod.snd) = preText L ++ (p.2 ++ postText R) := by
  induction L with
  | nil => simpa using joinNl_head p R
  | cons q L ih =>
    have hne : (L ++ p :: R).map Prod.snd ≠ [] := by simp
    have : ∀ c (cs : List (List Char)), cs ≠ [] → joinNl (c :: cs) = c ++ '\n' :: joinNl cs := by
      intro c cs h
      cases cs with
      | nil => exact absurd rfl h
      | cons => rfl
    simp only [List.cons_append, List.map_cons]
    rw [this _ _ hne, ih]
    simp

theorem layout_append (o : Nat) (L R : List Para) :
    layout o (L ++ R) = layout o L ++ layout (o + span L) R := by
  induction L generalizing o with
  | nil => simp [layout]
  | cons p L ih =>
    obtain ⟨m, c⟩ := p
    simp only [List.cons_append, layout, ih, span_cons]
    congr 3; omega

@[simp] theorem layout_keys (o : Nat) (L : List Para) :
    (layout o L).map Prod.fst = L.map Prod.fst := by
  induction L generalizing o with
  | nil => rfl
  | cons p L ih => obtain ⟨m, c⟩ := p; simp [layout, ih]

@[simp] theorem layout_length (o : Nat) (L : List Para) : (layout o L).length = L.length := by
  rw [← List.length_map (f := Prod.fst), layout_keys, List.length_map]

theorem layout_lt {o : Nat} {L : List Para} {e} (h : e ∈ layout o L) :
    o ≤ e.2 ∧ e.2 < o + span L := by
  induction L generalizing o with
  | nil => simp [layout] at h
  | cons p L ih =>
    obtain ⟨m, c⟩ := p
    simp only [layout, List.mem_cons] at h
    rcases h with rfl | h
    · simp; omega
    · have := ih h; simp; omega

theorem layout_mapM (o o' : Nat) (d : Int) (R : List Para) (h : (o' : Int) = o + d) :
    ((layout o R).mapM fun e => (applyDelta e.2 d).map fun v => (e.1, v)) = some (layout o' R) := by
  induction R generalizing o o' with
  | nil => rfl
  | cons p R ih =>
    obtain ⟨m, c⟩ := p
    simp only [layout, List.mapM_cons]
    rw [ih (o + utf8Len c + 1) (o' + utf8Len c + 1) (by omega)]
    have : applyDelta o d = some o' := by
      unfold applyDelta
      rw [if_pos (by omega), ← h]; simp
    simp [this]

theorem takeWhile_lt_append {A B : List (Marker × Nat)} {t : Nat} (hA : ∀ e ∈ A, e.2 < t)
    (hB : ∀ e, B.head? = some e → t ≤ e.2) :
    (A ++ B).takeWhile (fun e => decide (e.2 < t)) = A := by
  induction A with
  | nil =>
    cases B with
    | nil => rfl
    | cons b B =>
      have := hB b rfl
      simp [List.takeWhile_cons]; omega
  | cons a A ih =>
    have h1 := hA a (by simp)
    simp only [List.cons_append, List.takeWhile_cons, h1, decide_true, if_true]
    rw [ih (fun e he => hA e (by simp [he]))]

theorem lowerBound_eq {x : Index} {A : List (Marker × Nat)} {o t : Nat} {R : List Para}
    (hx : x.entries = A ++ layout o R) (hA : ∀ e ∈ A, e.2 < t) (hB : R = [] ∨ t ≤ o) :
    x.lowerBound t = A.length := by
  unfold Index.lowerBound
  rw [hx, takeWhile_lt_append hA]
  intro e he
  cases R with
  | nil => simp [layout] at he
  | cons p R =>
    obtain ⟨m, c⟩ := p
    simp [layout] at he
    subst he
    simpa using hB

theorem shiftAfter_layout {x : Index} {A : List (Marker × Nat)} {o o' t n : Nat} {d : Int}
    {R : List Para} (hx : x.entries = A ++ layout o R) (hA : ∀ e ∈ A, e.2 < t)
    (hB : R = [] ∨ t ≤ o) (ho : (o' : Int) = o + d) (hn : (n : Int) = x.total + d) :
    x.shiftAfter t d = some { x with entries := A ++ layout o' R, total := n } := by
  unfold Index.shiftAfter
  rw [lowerBound_eq hx hA hB]
  simp only [hx, List.drop_left, List.take_left]
  rw [layout_mapM o o' d R ho]
  have : applyDelta x.total d = some n := by
    unfold applyDelta
    rw [if_pos (by omega), ← hn]; simp
  simp [this]

/-- Everything the operations read about one paragraph. -/
structure Focus (st : RopeSt) (L : List Para) (m : Marker) (c : List Char) (R : List Para) : Prop where
  rope : st.rope = preText L ++ (c ++ postText R)
  entries : st.idx.entries = layout 0 L ++ (m, span L) :: layout (span L + utf8Len c + 1) R
  total : st.idx.total = span L + utf8Len c + span R
  pos : st.idx.pos m = some L.length
  rangeOf : st.idx.rangeOf m = some (some (span L, span L + utf8Len c + if R = [] then 0 else 1))
  rangeS : st.idx.rangeWithSuccessor m =
    some (some (span L, span L + utf8Len c + (if R = [] then 0 else 1), !R.isEmpty))
  entryIndex : st.idx.entryIndex m = some L.length
  content : (contentEnd (span L) (span L + utf8Len c + (if R = [] then 0 else 1)) (!R.isEmpty))
    = span L + utf8Len c

theorem CacheOk.nodup {x : Index} (h : CacheOk x) : (x.entries.map Prod.fst).Nodup := by
  rw [List.Nodup, List.pairwise_iff_getElem]
  intro i j hi hj hij heq
  replace heq : (x.entries.map Prod.fst)[i]? = (x.entries.map Prod.fst)[j]? := by
    rw [List.getElem?_eq_getElem hi, List.getElem?_eq_getElem hj, heq]
  rw [List.getElem?_eq_getElem hi] at heq
  have h1 : (x.entries[i]?).map Prod.fst = some (x.entries.map Prod.fst)[i] := by
    rw [← List.getElem?_map, List.getElem?_eq_getElem hi]
  have h2 : (x.entries[j]?).map Prod.fst = some (x.entries.map Prod.fst)[i] := by
    rw [← List.getElem?_map, ← heq]
  have := h.uniq h1 h2
  omega

theorem findIdx?_unique {l : List (Marker × Nat)} {A B : List (Marker × Nat)} {m : Marker} {s : Nat}
    (hl : l = A ++ (m, s) :: B) (hn : m ∉ A.map Prod.fst) :
    (l.findIdx? fun e => decide (e.1 = m)) = some A.length := by
  subst hl
  rw [List.findIdx?_append]
  have : A.findIdx? (fun e => decide (e.1 = m)) = none := by
    rw [List.findIdx?_eq_none_iff]
    intro e he
    simp only [decide_eq_false_iff_not]
    rintro rfl
    exact hn (List.mem_map_of_mem he)
  simp [this, List.findIdx?_cons]

theorem Repr.nodup {st : RopeSt} {ps : List Para} (h : Repr st ps) : (ps.map Prod.fst).Nodup := by
  have := h.cache.nodup
  rwa [h.starts, layout_keys] at this

theorem Repr.focus {st : RopeSt} {L R : List Para} {m : Marker} {c : List Char}
    (h : Repr st (L ++ (m, c) :: R)) : Focus st L m c R := by
  have hent : st.idx.entries = layout 0 L ++ (m, span L) :: layout (span L + utf8Len c + 1) R := by
    rw [h.starts, layout_append]; simp [layout]
  have hrope : st.rope = preText L ++ (c ++ postText R) := by rw [h.text, joinNl_split]
  have htot : st.idx.total = span L + utf8Len c + span R := by
    rw [h.total, hrope]; simp; omega
  have hget : st.idx.entries[L.length]? = some (m, span L) := by
    rw [hent, List.getElem?_append_right (by simp)]; simp
  have hpos : st.idx.pos m = some L.length := by
    rw [h.cache.pos, hget]; rfl
  have hnext : st.idx.entries[L.length + 1]? = (layout (span L + utf8Len c + 1) R)[0]? := by
    rw [hent, List.getElem?_append_right (by simp)]; simp
  have hnd := h.nodup
  refine ⟨hrope, hent, htot, hpos, ?_, ?_, ?_, ?_⟩
  · unfold Index.rangeOf
    rw [hpos]
    simp only [hget, hnext, Option.map_some]
    cases R with
    | nil => simp [layout, htot]
    | cons p R => obtain ⟨m', c'⟩ := p; simp [layout]
  · unfold Index.rangeWithSuccessor
    rw [hpos]
    simp only [hget, hnext, Option.map_some]
    cases R with
    | nil => simp [layout, htot]
    | cons p R => obtain ⟨m', c'⟩ := p; simp [layout]
  · unfold Index.entryIndex
    rw [findIdx?_unique hent]
    · simp
    · rw [layout_keys]
      simp only [List.map_append, List.map_cons, List.nodup_append, List.nodup_cons] at hnd
      intro hm
      exact absurd rfl (hnd.2.2 m hm m (by simp))
  · unfold contentEnd
    cases R with
    | nil => simp
    | cons p R => simp; omega

/-- Put a representation together around one paragraph. -/
theorem Repr.build {st : RopeSt} {L R : List Para} {m : Marker} {c : List Char}
    (hrope : st.rope = preText L ++ (c ++ postText R))
    (hent : st.idx.entries = layout 0 L ++ layout (span L) ((m, c) :: R))
    (htot : st.idx.total = span L + utf8Len c + span R)
    (hc : CacheOk st.idx)
    (ht : ∀ p ∈ L ++ (m, c) :: R, p.1.isTable = true → p.2 = [objChar]) :
    Repr st (L ++ (m, c) :: R) := by
  refine ⟨?_, ?_, ?_, hc, ht⟩
  · rw [hrope, joinNl_split]
  · rw [hent, layout_append]; simp
  · rw [htot, hrope]; simp; omega

theorem layout0_lt {L : List Para} {e} (h : e ∈ layout 0 L) : e.2 < span L := by
  have := layout_lt h; omega

end Verif
