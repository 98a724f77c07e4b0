import Verif.Spec.Document
import Verif.Lemmas.Text
import Verif.Props.FormatRuns
/- Span tables seen as a format per character. -/
namespace Verif

@[simp] theorem byteFmts_append (a b : List SChar) : byteFmts (a ++ b) = byteFmts a ++ byteFmts b := by
  simp [byteFmts]

@[simp] theorem byteFmts_length (a : List SChar) : (byteFmts a).length = utf8Len (a.map Prod.fst) := by
  induction a with
  | nil => rfl
  | cons c a ih => simp [byteFmts] at ih ⊢; omega

theorem byteFmts_styled (t : List Char) (f : Option CharFormat) :
    byteFmts (styled t f) = List.replicate (utf8Len t) f := by
  induction t with
  | nil => rfl
  | cons c t ih =>
    simp only [styled, byteFmts, List.map_cons, List.flatMap_cons, utf8Len] at ih ⊢
    rw [ih, List.replicate_append_replicate]

@[simp] theorem styled_fst (t : List Char) (f : Option CharFormat) : (styled t f).map Prod.fst = t := by
  simp [styled, Function.comp_def]

theorem byteFmts_last (a : List SChar) (h : a ≠ []) :
    ((byteFmts a)[utf8Len (a.map Prod.fst) - 1]?).join = inheritFmt a := by
  rcases List.eq_nil_or_concat a with rfl | ⟨l, c, rfl⟩
  · exact absurd rfl h
  · have hc := utf8Size_pos c.1
    simp only [List.concat_eq_append, byteFmts_append, List.map_append, utf8Len_append, inheritFmt,
      List.getLast?_append, List.map_cons, List.map_nil, utf8Len]
    rw [List.getElem?_append_right (by simp; omega)]
    simp only [byteFmts, List.flatMap_cons, List.flatMap_nil, List.append_nil]
    rw [List.getElem?_replicate_of_lt (by have := byteFmts_length l; simp [byteFmts] at this ⊢; omega)]
    simp

theorem StyledOk.insert {runs : List (Run CharFormat)} {a b : List SChar} (t : List Char)
    (h : StyledOk runs (a ++ b)) :
    StyledOk (shiftRunsForInsert runs (utf8Len (a.map Prod.fst)) (utf8Len t))
      (a ++ styled t (inheritFmt a) ++ b) := by
  constructor
  · have := wellFormed_shiftRunsForInsert (utf8Len (a.map Prod.fst)) (utf8Len t) h.wf
    simp only [List.map_append, utf8Len_append, styled_fst] at this ⊢
    rw [show utf8Len (a.map Prod.fst) + utf8Len t + utf8Len (b.map Prod.fst)
      = utf8Len (a.map Prod.fst) + utf8Len (b.map Prod.fst) + utf8Len t by omega]
    exact this
  · intro i
    rw [C03_insert_formats _ _ h.wf]
    have hf := h.fmt
    simp only [byteFmts_append, byteFmts_styled] at hf ⊢
    split
    · rename_i hi
      rw [hf, List.append_assoc, List.getElem?_append_left (by simpa using hi),
        List.getElem?_append_left (by simpa using hi)]
    · split
      · rename_i h1 h2
        rw [List.append_assoc, List.getElem?_append_right (by simp; omega),
          List.getElem?_append_left (by simp; omega),
          List.getElem?_replicate_of_lt (by simp; omega)]
        simp only [Option.join_some]
        split
        · rename_i h0
          have : a = [] := by simpa [utf8Len_eq_zero] using h0
          subst this; rfl
        · rename_i h0
          have : a ≠ [] := by rintro rfl; exact h0 rfl
          rw [hf, List.getElem?_append_left (by simp; omega), byteFmts_last a this]
      · rename_i h1 h2
        rw [hf, List.append_assoc, List.getElem?_append_right (by simp; omega),
          List.getElem?_append_right (by simp; omega), List.getElem?_append_right (by simp; omega)]
        congr 2
        simp; omega

theorem StyledOk.delete {runs : List (Run CharFormat)} {a m b : List SChar}
    (h : StyledOk runs (a ++ m ++ b)) :
    StyledOk (shiftRunsForDelete runs (utf8Len (a.map Prod.fst))
      (utf8Len (a.map Prod.fst) + utf8Len (m.map Prod.fst))) (a ++ b) := by
  constructor
  · have := wellFormed_shiftRunsForDelete (s := utf8Len (a.map Prod.fst))
      (e := utf8Len (a.map Prod.fst) + utf8Len (m.map Prod.fst)) h.wf
      (by simp only [List.map_append, utf8Len_append]; omega)
    simp only [List.map_append, utf8Len_append] at this ⊢
    rw [show utf8Len (a.map Prod.fst) + utf8Len (b.map Prod.fst) =
      utf8Len (a.map Prod.fst) + utf8Len (m.map Prod.fst) + utf8Len (b.map Prod.fst) -
      (utf8Len (a.map Prod.fst) + utf8Len (m.map Prod.fst) - utf8Len (a.map Prod.fst)) by omega]
    exact this
  · intro i
    rw [C04_delete_formats _ _ h.wf _ _ (by omega)]
    have hf := h.fmt
    simp only [byteFmts_append] at hf ⊢
    split
    · rename_i hi
      rw [hf, List.append_assoc, List.getElem?_append_left (by simpa using hi),
        List.getElem?_append_left (by simpa using hi)]
    · rename_i hi
      rw [hf, List.append_assoc, List.getElem?_append_right (by simp; omega),
        List.getElem?_append_right (by simp; omega), List.getElem?_append_right (by simp; omega)]
      congr 2
      simp; omega

theorem StyledOk.left {runs : List (Run CharFormat)} {a b : List SChar}
    (h : StyledOk runs (a ++ b)) :
    StyledOk (splitRunsAt runs (utf8Len (a.map Prod.fst))).1 a := by
  constructor
  · exact wellFormed_splitRunsLeft h.wf
  · intro i
    rw [(C05_split_formats _ _ h.wf _ i).1]
    have hf := h.fmt
    simp only [byteFmts_append] at hf
    split
    · rename_i hi
      rw [hf, List.getElem?_append_left (by simpa using hi)]
    · rename_i hi
      rw [List.getElem?_eq_none (by simp; omega)]; rfl

theorem StyledOk.right {runs : List (Run CharFormat)} {a b : List SChar}
    (h : StyledOk runs (a ++ b)) :
    StyledOk (splitRunsAt runs (utf8Len (a.map Prod.fst))).2 b := by
  constructor
  · have := wellFormed_splitRunsRight (o := utf8Len (a.map Prod.fst)) h.wf
    simp only [List.map_append, utf8Len_append, Nat.add_sub_cancel_left] at this
    exact this
  · intro i
    rw [(C05_split_formats _ _ h.wf _ i).2]
    have hf := h.fmt
    simp only [byteFmts_append] at hf
    rw [hf, List.getElem?_append_right (by simp)]
    congr 2
    simp

theorem StyledOk.join {r1 r2 : List (Run CharFormat)} {a b c d : List SChar}
    (h1 : StyledOk r1 (a ++ b)) (h2 : StyledOk r2 (c ++ d)) :
    StyledOk (mergeRunsForJoin r1 (utf8Len (a.map Prod.fst)) r2 (utf8Len (c.map Prod.fst))) (a ++ d) := by
  constructor
  · have := wellFormed_mergeRunsForJoin (so := utf8Len (a.map Prod.fst)) (eo := utf8Len (c.map Prod.fst))
      h1.wf h2.wf
    simp only [List.map_append, utf8Len_append, Nat.add_sub_cancel_left] at this ⊢
    exact this
  · intro i
    rw [C05_join_formats _ _ _ _ _ _ h1.wf h2.wf]
    have hf1 := h1.fmt
    have hf2 := h2.fmt
    simp only [byteFmts_append] at hf1 hf2 ⊢
    split
    · rename_i hi
      rw [hf1, List.getElem?_append_left (by simpa using hi),
        List.getElem?_append_left (by simpa using hi)]
    · rename_i hi
      rw [hf2, List.getElem?_append_right (by simp), List.getElem?_append_right (by simp; omega)]
      congr 2
      simp

theorem StyledOk.nil_runs (t : List Char) : StyledOk [] (styled t none) := by
  refine ⟨⟨⟨by simp, by simp⟩, trivial, by simp⟩, ?_⟩
  intro i
  rw [byteFmts_styled]
  simp only [fmtAt, List.find?_nil, Option.map_none]
  by_cases hi : i < utf8Len t
  · simp [List.getElem?_replicate_of_lt hi]
  · rw [List.getElem?_eq_none (by simp; omega)]; rfl

end Verif
