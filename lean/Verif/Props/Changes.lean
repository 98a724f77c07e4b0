import Verif.Model.Changes
import Verif.Spec.Changes

/-!
C31, C32 and C33: cursors follow edits, and change notifications describe the real change.
-/
namespace Verif

/-! ### C31 -/

/-- A cursor at or before the edit stays where it is, and the text before it is untouched. -/
theorem C31_before_stays {text ins : List Char} {pos removed c : Nat}
    (hp : pos + removed ≤ text.length) (hc : c ≤ pos) :
    adjustOffset c pos removed ins.length = c ∧
      (replaceAt text pos removed ins).take c = text.take c := by
  refine ⟨by simp [adjustOffset, hc], ?_⟩
  have hl : c ≤ (text.take pos).length := by rw [List.length_take]; omega
  rw [replaceAt, List.append_assoc, List.take_append_of_le_length hl, List.take_take]
  congr 1; omega

/-- A cursor after the edit moves by the length difference: it still stands before the same
remaining text. -/
theorem C31_after_moves {text ins : List Char} {pos removed c : Nat}
    (hc : pos + removed ≤ c) (hlt : pos < c) (ht : c ≤ text.length) :
    adjustOffset c pos removed ins.length + removed = c + ins.length ∧
      (replaceAt text pos removed ins).drop (adjustOffset c pos removed ins.length)
        = text.drop c := by
  have he : adjustOffset c pos removed ins.length + removed = c + ins.length := by
    unfold adjustOffset
    split
    · omega
    · split <;> omega
  refine ⟨he, ?_⟩
  have hl : (text.take pos ++ ins).length = pos + ins.length := by
    rw [List.length_append, List.length_take]; omega
  have hge : pos + ins.length ≤ adjustOffset c pos removed ins.length := by omega
  rw [replaceAt, List.drop_append, hl, List.drop_eq_nil_of_le (by rw [hl]; exact hge), List.nil_append,
    List.drop_drop]
  congr 1; omega

/-- A cursor strictly inside the removed stretch, or at its end, ends up right after the inserted
text. -/
theorem C31_inside_lands {pos removed added c : Nat} (h1 : pos < c) (h2 : c ≤ pos + removed) :
    adjustOffset c pos removed added = pos + added := by
  unfold adjustOffset
  split
  · omega
  · rfl

/-- Cursors keep their order. -/
theorem C31_order {pos removed added c d : Nat} (h : c ≤ d) :
    adjustOffset c pos removed added ≤ adjustOffset d pos removed added := by
  unfold adjustOffset
  by_cases h1 : c ≤ pos
  · rw [if_pos h1]
    split
    · exact h
    · split <;> omega
  · rw [if_neg h1, if_neg (show ¬ d ≤ pos by omega)]
    split <;> split <;> omega

/-- No cursor leaves the document: a cursor within the old text is within the new one. -/
theorem C31_in_document {text ins : List Char} {pos removed c : Nat}
    (hp : pos + removed ≤ text.length) (hc : c ≤ text.length) :
    adjustOffset c pos removed ins.length ≤ (replaceAt text pos removed ins).length := by
  unfold adjustOffset replaceAt
  simp only [List.length_append, List.length_take, List.length_drop]
  split
  · omega
  · split <;> omega

/-- The document applies this to the position and the anchor of every live cursor, and forgets any
cell selection. -/
theorem C31_all_cursors (cs : List Cursor) (pos removed added : Nat) :
    (adjustCursors cs pos removed added).length = cs.length ∧
    ∀ (i : Nat) (c : Cursor), cs[i]? = some c →
      (adjustCursors cs pos removed added)[i]? =
        some ⟨adjustOffset c.position pos removed added, adjustOffset c.anchor pos removed added,
          false⟩ := by
  refine ⟨by simp [adjustCursors], ?_⟩
  intro i c h
  simp [adjustCursors, h]

example : adjustCursors [⟨1, 1, true⟩, ⟨3, 4, false⟩, ⟨9, 2, false⟩] 2 3 1
    = [⟨1, 1, false⟩, ⟨3, 3, false⟩, ⟨7, 2, false⟩] := by decide

/-! ### Common prefixes -/

section Match
set_option linter.unusedSectionVars false
variable {α : Type} [DecidableEq α]

theorem matchCount_nil_left (b : List α) : matchCount [] b = 0 := rfl

theorem matchCount_nil_right (a : List α) : matchCount a [] = 0 := by
  cases a <;> rfl

theorem matchCount_cons (x y : α) (a b : List α) :
    matchCount (x :: a) (y :: b) = if x = y then matchCount a b + 1 else 0 := by
  unfold matchCount
  rw [List.zip_cons_cons, List.takeWhile_cons]
  by_cases h : x = y <;> simp [h]

theorem matchCount_le (a b : List α) :
    matchCount a b ≤ a.length ∧ matchCount a b ≤ b.length := by
  induction a generalizing b with
  | nil => simp [matchCount_nil_left]
  | cons x a ih =>
    cases b with
    | nil => simp [matchCount_nil_right]
    | cons y b =>
      rw [matchCount_cons]
      have := ih b
      split <;> simp <;> omega

theorem matchCount_take (a b : List α) :
    a.take (matchCount a b) = b.take (matchCount a b) := by
  induction a generalizing b with
  | nil => simp [matchCount_nil_left]
  | cons x a ih =>
    cases b with
    | nil => simp [matchCount_nil_right]
    | cons y b =>
      rw [matchCount_cons]
      split
      · rename_i h; subst h; simp [ih b]
      · simp

theorem matchCount_max (a b : List α) (c : α) :
    ¬ (a[matchCount a b]? = some c ∧ b[matchCount a b]? = some c) := by
  induction a generalizing b with
  | nil => simp
  | cons x a ih =>
    cases b with
    | nil => simp
    | cons y b =>
      rw [matchCount_cons]
      split
      · simpa using ih b
      · rename_i h
        simp only [List.getElem?_cons_zero, Option.some.injEq, not_and]
        intro h1 h2; exact h (h1.trans h2.symm)

/-- The common suffix as counted after the common prefix was removed. -/
theorem suffix_drop (a b : List α) (p : Nat) :
    let k := matchCount (a.drop p).reverse (b.drop p).reverse
    a.drop (a.length - k) = b.drop (b.length - k) ∧ k ≤ a.length - p ∧ k ≤ b.length - p := by
  have hle := matchCount_le (a.drop p).reverse (b.drop p).reverse
  have ht := matchCount_take (a.drop p).reverse (b.drop p).reverse
  generalize matchCount (a.drop p).reverse (b.drop p).reverse = k at hle ht ⊢
  simp only [List.length_reverse, List.length_drop] at hle
  refine ⟨?_, hle.1, hle.2⟩
  rw [List.take_reverse, List.take_reverse] at ht
  have ht := List.reverse_inj.mp ht
  rw [List.drop_drop, List.drop_drop, List.length_drop, List.length_drop] at ht
  by_cases ha : p ≤ a.length
  · by_cases hb : p ≤ b.length
    · rw [show a.length - k = p + (a.length - p - k) by omega,
        show b.length - k = p + (b.length - p - k) by omega]
      exact ht
    · have : k = 0 := by omega
      subst this; simp
  · have : k = 0 := by omega
    subst this; simp

/-- A list is its common prefix, a middle part and its common suffix. -/
theorem replace_middle (a b : List α) (p k : Nat) (hp : a.take p = b.take p)
    (hpa : p ≤ a.length) (hpb : p ≤ b.length)
    (hs : a.drop (a.length - k) = b.drop (b.length - k)) (hka : k ≤ a.length - p)
    (hkb : k ≤ b.length - p) :
    b = replaceAt a p (a.length - p - k) ((b.drop p).take (b.length - p - k)) := by
  unfold replaceAt
  rw [hp, show p + (a.length - p - k) = a.length - k by omega, hs,
    show b.length - k = p + (b.length - p - k) by omega, ← List.drop_drop, List.append_assoc,
    List.take_append_drop, List.take_append_drop]

end Match

/-! ### C32 -/

private theorem edit_suffix (before after : List Char) :
    computeTextEdit before after =
      let p := matchCount before after
      let k := matchCount (before.drop p).reverse (after.drop p).reverse
      (p, before.length - p - k, after.length - p - k) := by
  have hle := matchCount_le before after
  unfold computeTextEdit
  generalize hp : matchCount before after = p at hle
  have hm : ∀ (l : List (Char × Char)) (m n : Nat), (l.take (min m n)) = (l.take m).take n := by
    intro l m n; rw [List.take_take, Nat.min_comm]
  have : (before.reverse.zip after.reverse).take (min (before.length - p) (after.length - p))
      = (before.drop p).reverse.zip (after.drop p).reverse := by
    rw [List.reverse_drop, List.reverse_drop]
    apply List.ext_getElem?
    intro i
    rw [List.getElem?_take]
    simp only [List.zip, List.getElem?_zipWith, List.getElem?_take]
    by_cases h1 : i < before.length - p
    · by_cases h2 : i < after.length - p
      · rw [if_pos (by omega), if_pos h1, if_pos h2]
      · rw [if_neg (by omega), if_pos h1, if_neg h2]
        split <;> simp_all
    · rw [if_neg (by omega), if_neg h1]
  simp only [this]
  rfl

/-- The computed edit turns the old text into the new one: replacing `removed` characters at the
position by the `added` characters the new text has there gives the new text, and both stretches lie
inside their texts. -/
theorem C32_edit_correct (before after : List Char) :
    let e := computeTextEdit before after
    e.1 + e.2.1 ≤ before.length ∧ e.1 + e.2.2 ≤ after.length ∧
      after = replaceAt before e.1 e.2.1 ((after.drop e.1).take e.2.2) := by
  rw [edit_suffix]
  have hle := matchCount_le before after
  have ht := matchCount_take before after
  have hs := suffix_drop before after (matchCount before after)
  dsimp only at hs ⊢
  generalize matchCount before after = p at *
  generalize matchCount (before.drop p).reverse (after.drop p).reverse = k at *
  exact ⟨by omega, by omega, replace_middle _ _ _ _ ht hle.1 hle.2 hs.1 hs.2.1 hs.2.2⟩

/-- The unchanged prefix is as long as possible: the texts differ at the edit position. -/
theorem C32_prefix_maximal (before after : List Char) (c : Char) :
    let e := computeTextEdit before after
    before.take e.1 = after.take e.1 ∧ ¬ (before[e.1]? = some c ∧ after[e.1]? = some c) := by
  rw [edit_suffix]
  exact ⟨matchCount_take before after, matchCount_max before after c⟩

/-- So is the unchanged suffix: when something was removed and something was added, the last removed
and the last added characters differ. -/
theorem C32_suffix_maximal (before after : List Char) (c : Char)
    (hr : 0 < (computeTextEdit before after).2.1) (ha : 0 < (computeTextEdit before after).2.2) :
    let e := computeTextEdit before after
    ¬ (before[e.1 + e.2.1 - 1]? = some c ∧ after[e.1 + e.2.2 - 1]? = some c) := by
  rw [edit_suffix] at hr ha ⊢
  dsimp only at hr ha ⊢
  generalize matchCount before after = p at *
  have hm := matchCount_max (before.drop p).reverse (after.drop p).reverse c
  generalize matchCount (before.drop p).reverse (after.drop p).reverse = k at *
  rw [List.getElem?_reverse (by rw [List.length_drop]; omega),
    List.getElem?_reverse (by rw [List.length_drop]; omega), List.getElem?_drop,
    List.getElem?_drop, List.length_drop, List.length_drop] at hm
  rw [show p + (before.length - p - k) - 1 = p + (before.length - p - 1 - k) by omega,
    show p + (after.length - p - k) - 1 = p + (after.length - p - 1 - k) by omega]
  exact hm

/-- An empty edit is reported exactly when nothing changed. -/
theorem C32_empty_iff (before after : List Char) :
    ((computeTextEdit before after).2.1 = 0 ∧ (computeTextEdit before after).2.2 = 0)
      ↔ before = after := by
  constructor
  · intro ⟨h1, h2⟩
    have h := (C32_edit_correct before after).2.2
    rw [h1, h2] at h
    simpa [replaceAt] using h.symm
  · rintro rfl
    rw [edit_suffix]
    have : matchCount before before = before.length := by
      induction before with
      | nil => rfl
      | cons x r ih => rw [matchCount_cons]; simp [ih]
    simp [this]

example : computeTextEdit "the cat sat".toList "the dog sat".toList = (4, 3, 3) := by decide
example : computeTextEdit "aaa".toList "aaaa".toList = (3, 0, 1) := by decide

/-! #### The announced region -/

section Announce
set_option linter.unusedSectionVars false
variable {F : Type} [DecidableEq F]

/-- The block states of a document whose paragraphs, in order, are `ps` (id, text, format): each one
starts one character (the paragraph break) after the end of the one before. -/
def statesFrom (start : Nat) : List (Nat × List Char × F) → List (UndoBlockState F)
  | [] => []
  | (i, t, f) :: r => ⟨i, start, t.length, t, f⟩ :: statesFrom (start + t.length + 1) r

theorem statesFrom_ids (ps : List (Nat × List Char × F)) : ∀ s,
    (statesFrom s ps).map (·.id) = ps.map (·.1) := by
  induction ps with
  | nil => intro s; rfl
  | cons p r ih => intro s; obtain ⟨i, t, f⟩ := p; simp [statesFrom, ih]

theorem statesFrom_length (ps : List (Nat × List Char × F)) (s : Nat) :
    (statesFrom s ps).length = ps.length := by
  have := congrArg List.length (statesFrom_ids ps s); simpa using this

private theorem foldl_congr {α β : Type} {f g : β → α → β} : ∀ (l : List α) (b : β),
    (∀ b, ∀ a ∈ l, f b a = g b a) → l.foldl f b = l.foldl g b := by
  intro l
  induction l with
  | nil => intro b _; rfl
  | cons x r ih =>
    intro b h
    rw [List.foldl_cons, List.foldl_cons, h b x (by simp),
      ih _ (fun b a ha => h b a (List.mem_cons_of_mem _ ha))]

private theorem find_zip {a b : List (UndoBlockState F)} (hids : b.map (·.id) = a.map (·.id))
    (hnd : (b.map (·.id)).Nodup) {p : UndoBlockState F × UndoBlockState F} (hp : p ∈ b.zip a) :
    b.find? (fun x => x.id == p.2.id) = some p.1 := by
  induction b generalizing a with
  | nil => simp at hp
  | cons x b ih =>
    cases a with
    | nil => simp at hp
    | cons y a =>
      simp only [List.map_cons, List.cons.injEq, List.nodup_cons] at hids hnd
      rw [List.zip_cons_cons, List.mem_cons] at hp
      rcases hp with rfl | hp
      · simp [hids.1]
      · rw [List.find?_cons]
        have hne : x.id ≠ p.2.id := by
          intro he
          apply hnd.1
          have h2 : p.2 ∈ a := (List.of_mem_zip hp).2
          rw [hids.2, he]
          exact List.mem_map_of_mem h2
        simp only [beq_eq_false_iff_ne.mpr hne]
        exact ih hids.2 hnd.2 hp

private theorem foldl_removed_none {after : List (UndoBlockState F)} :
    ∀ (l : List (UndoBlockState F)) (acc : EmitAcc),
    (∀ b ∈ l, ∃ a ∈ after, a.id = b.id) → l.foldl (emitRemovedStep after) acc = acc := by
  intro l
  induction l with
  | nil => intro acc _; rfl
  | cons b r ih =>
    intro acc h
    have hb : after.any (fun a => a.id == b.id) = true := by
      obtain ⟨a, ha, he⟩ := h b (by simp)
      exact List.any_eq_true.mpr ⟨a, ha, by simpa using he⟩
    rw [List.foldl_cons]
    have : emitRemovedStep after acc b = acc := by simp [emitRemovedStep, hb]
    rw [this]
    exact ih acc (fun b hb => h b (List.mem_cons_of_mem _ hb))

/-- The fold over the pairs of old and new states. -/
private def pairFold (acc : EmitAcc) (l : List (UndoBlockState F × UndoBlockState F)) : EmitAcc :=
  l.foldl (fun acc p => emitAfterStep acc (some p.1) p.2) acc

private theorem emit_pairs {before after : List (UndoBlockState F)}
    (hids : before.map (·.id) = after.map (·.id)) (hnd : (before.map (·.id)).Nodup) :
    before.foldl (emitRemovedStep after)
      (after.foldl (fun acc a => emitAfterStep acc (before.find? (fun b => b.id == a.id)) a) {})
      = pairFold {} (before.zip after) := by
  rw [foldl_removed_none]
  · have hz : (before.zip after).map (·.2) = after := by
      apply List.map_snd_zip
      have := congrArg List.length hids
      simp at this; omega
    conv => lhs; arg 3; rw [← hz]
    rw [List.foldl_map]
    apply foldl_congr
    intro b p hp
    rw [find_zip hids hnd hp]
  · intro b hb
    have : b.id ∈ after.map (·.id) := by rw [← hids]; exact List.mem_map_of_mem hb
    obtain ⟨a, ha, he⟩ := List.mem_map.mp this
    exact ⟨a, ha, he⟩

/-- Paragraph texts joined by newlines. -/
private def textOf (ps : List (Nat × List Char × F)) : List Char :=
  buildDocText (statesFrom 0 ps)

private theorem buildDocText_start (ps : List (Nat × List Char × F)) : ∀ s s',
    buildDocText (statesFrom s ps) = buildDocText (statesFrom s' ps) := by
  induction ps with
  | nil => intro s s'; rfl
  | cons p r ih =>
    intro s s'
    obtain ⟨i, t, f⟩ := p
    cases r with
    | nil => rfl
    | cons q r =>
      obtain ⟨j, u, g⟩ := q
      simp only [statesFrom, buildDocText] at ih ⊢
      rw [ih]

private theorem textOf_cons (i : Nat) (t : List Char) (f : F) (q) (r : List (Nat × List Char × F)) :
    textOf ((i, t, f) :: q :: r) = t ++ '\n' :: textOf (q :: r) := by
  obtain ⟨j, u, g⟩ := q
  unfold textOf
  have h := buildDocText_start ((j, u, g) :: r) (0 + t.length + 1) 0
  simp only [statesFrom, buildDocText] at h ⊢
  rw [h]

/-- The paragraphs from some point on, each with the break before it. -/
private def tailText : List (Nat × List Char × F) → List Char
  | [] => []
  | (_, t, _) :: r => '\n' :: t ++ tailText r

private theorem tailText_eq (p) (r : List (Nat × List Char × F)) :
    tailText (p :: r) = '\n' :: textOf (p :: r) := by
  induction r generalizing p with
  | nil => obtain ⟨i, t, f⟩ := p; simp [tailText, textOf, statesFrom, buildDocText]
  | cons q r ih =>
    obtain ⟨i, t, f⟩ := p
    rw [textOf_cons, tailText, ih]; simp

private theorem step_same (acc : EmitAcc) (i j : Nat) (s s' : Nat) (t : List Char) (f g : F) :
    let r := emitAfterStep acc (some ⟨i, s, t.length, t, f⟩) ⟨j, s', t.length, t, g⟩
    r.contentChanged = acc.contentChanged ∧ r.earliest = acc.earliest ∧ r.oldEnd = acc.oldEnd ∧
      r.newEnd = acc.newEnd ∧ r.blocks = acc.blocks := by
  simp only [emitAfterStep, ne_eq, not_true_eq_false, or_self, if_false]
  split <;> simp

private theorem step_changed (acc : EmitAcc) (i j : Nat) (s s' : Nat) (t u : List Char) (f g : F)
    (h : t ≠ u) :
    emitAfterStep acc (some ⟨i, s, t.length, t, f⟩) ⟨j, s', u.length, u, g⟩ =
      { acc with contentChanged := true, blocks := acc.blocks + 1
                 earliest := minPos acc.earliest s'
                 oldEnd := max acc.oldEnd (s + t.length)
                 newEnd := max acc.newEnd (s' + u.length) } := by
  simp [emitAfterStep, h]

/-- From the first change on: what follows the last changed paragraph is the same in both. -/
private theorem pairFold_after : ∀ (ps qs : List (Nat × List Char × F)) (s s' e : Nat)
    (u : List Char) (acc : EmitAcc), ps.length = qs.length → acc.contentChanged = true →
    acc.earliest = some e → e ≤ s' → acc.oldEnd + u.length + 1 = s →
    acc.newEnd + u.length + 1 = s' →
    let r := pairFold acc ((statesFrom s ps).zip (statesFrom s' qs))
    r.contentChanged = true ∧ r.earliest = some e ∧
    acc.oldEnd ≤ r.oldEnd ∧ acc.newEnd ≤ r.newEnd ∧
    r.oldEnd - acc.oldEnd ≤ (u ++ tailText ps).length ∧
    r.newEnd - acc.newEnd ≤ (u ++ tailText qs).length ∧
    (u ++ tailText ps).drop (r.oldEnd - acc.oldEnd)
      = (u ++ tailText qs).drop (r.newEnd - acc.newEnd) := by
  intro ps
  induction ps with
  | nil =>
    intro qs s s' e u acc hl hc he hes h1 h2
    cases qs with
    | cons q r => simp at hl
    | nil => simp [statesFrom, pairFold, hc, he]
  | cons p ps ih =>
    intro qs s s' e u acc hl hc he hes h1 h2
    cases qs with
    | nil => simp at hl
    | cons q qs =>
      obtain ⟨i, t, f⟩ := p
      obtain ⟨j, w, g⟩ := q
      simp only [List.length_cons, Nat.add_right_cancel_iff] at hl
      simp only [statesFrom, List.zip_cons_cons, pairFold, List.foldl_cons, tailText]
      by_cases htw : t = w
      · subst htw
        obtain ⟨a1, a2, a3, a4, a5⟩ := step_same acc i j s s' t f g
        generalize emitAfterStep acc (some ⟨i, s, t.length, t, f⟩) ⟨j, s', t.length, t, g⟩ = acc'
          at a1 a2 a3 a4 a5 ⊢
        have := ih qs (s + t.length + 1) (s' + t.length + 1) e (u ++ '\n' :: t) acc' hl (a1 ▸ hc)
          (a2 ▸ he) (by omega) (by simp; omega) (by simp; omega)
        simp only [a3, a4, pairFold, List.append_assoc] at this
        exact this
      · rw [step_changed _ _ _ _ _ _ _ _ _ htw, he]
        have hmin : minPos (some e) s' = some e := by simp [minPos]; omega
        rw [hmin, Nat.max_eq_right (by omega), Nat.max_eq_right (by omega)]
        have := ih qs (s + t.length + 1) (s' + w.length + 1) e []
          { acc with contentChanged := true, blocks := acc.blocks + 1, earliest := some e
                     oldEnd := s + t.length, newEnd := s' + w.length } hl rfl rfl
          (by omega) (by simp) (by simp)
        simp only [pairFold, List.nil_append] at this
        obtain ⟨b1, b2, b3, b4, b5, b6, b7⟩ := this
        simp only [he] at *
        generalize List.foldl (fun acc (p : UndoBlockState F × UndoBlockState F) =>
          emitAfterStep acc (some p.1) p.2) _ _ = r at *
        refine ⟨b1, b2, by omega, by omega, ?_, ?_, ?_⟩
        · simp only [List.length_append, List.length_cons]; omega
        · simp only [List.length_append, List.length_cons]; omega
        · have e1 : r.oldEnd - acc.oldEnd
              = (u ++ '\n' :: t).length + (r.oldEnd - (s + t.length)) := by
            simp only [List.length_append, List.length_cons]; omega
          have e2 : r.newEnd - acc.newEnd
              = (u ++ '\n' :: w).length + (r.newEnd - (s' + w.length)) := by
            simp only [List.length_append, List.length_cons]; omega
          have c1 : u ++ ('\n' :: t ++ tailText ps) = (u ++ '\n' :: t) ++ tailText ps := by simp
          have c2 : u ++ ('\n' :: w ++ tailText qs) = (u ++ '\n' :: w) ++ tailText qs := by simp
          rw [c1, c2, e1, e2, List.drop_length_add_append, List.drop_length_add_append]
          exact b7

/-- Up to the first change. -/
private theorem pairFold_first : ∀ (ps qs : List (Nat × List Char × F)) (s : Nat)
    (acc : EmitAcc), ps.length = qs.length → acc.contentChanged = false → acc.earliest = none →
    acc.oldEnd ≤ s → acc.newEnd ≤ s →
    let r := pairFold acc ((statesFrom s ps).zip (statesFrom s qs))
    (r.contentChanged = false ∧ ps.map (·.2.1) = qs.map (·.2.1)) ∨
    (r.contentChanged = true ∧ ∃ e, r.earliest = some e ∧ s ≤ e ∧ e ≤ r.oldEnd ∧ e ≤ r.newEnd ∧
      r.oldEnd + 1 - s ≤ (tailText ps).length ∧ r.newEnd + 1 - s ≤ (tailText qs).length ∧
      (tailText ps).take (e + 1 - s) = (tailText qs).take (e + 1 - s) ∧
      (tailText ps).drop (r.oldEnd + 1 - s) = (tailText qs).drop (r.newEnd + 1 - s)) := by
  intro ps
  induction ps with
  | nil =>
    intro qs s acc hl hc he h1 h2
    cases qs with
    | cons q r => simp at hl
    | nil => simp [statesFrom, pairFold, hc]
  | cons p ps ih =>
    intro qs s acc hl hc he h1 h2
    cases qs with
    | nil => simp at hl
    | cons q qs =>
      obtain ⟨i, t, f⟩ := p
      obtain ⟨j, w, g⟩ := q
      simp only [List.length_cons, Nat.add_right_cancel_iff] at hl
      simp only [statesFrom, List.zip_cons_cons, pairFold, List.foldl_cons, tailText]
      by_cases htw : t = w
      · subst htw
        obtain ⟨a1, a2, a3, a4, a5⟩ := step_same acc i j s s t f g
        generalize emitAfterStep acc (some ⟨i, s, t.length, t, f⟩) ⟨j, s, t.length, t, g⟩ = acc'
          at a1 a2 a3 a4 a5 ⊢
        have := ih qs (s + t.length + 1) acc' hl (a1 ▸ hc) (a2 ▸ he) (by omega) (by omega)
        simp only [pairFold] at this
        generalize List.foldl (fun acc (p : UndoBlockState F × UndoBlockState F) =>
          emitAfterStep acc (some p.1) p.2) _ _ = r at *
        rcases this with ⟨b1, b2⟩ | ⟨b1, e, b2, b3, b4, b5, b6, b7, b8, b9⟩
        · exact .inl ⟨b1, by simp [b2]⟩
        · refine .inr ⟨b1, e, b2, by omega, b4, b5, ?_, ?_, ?_, ?_⟩
          · simp only [List.length_append, List.length_cons]; omega
          · simp only [List.length_append, List.length_cons]; omega
          · rw [show e + 1 - s = ('\n' :: t).length + (e + 1 - (s + t.length + 1)) by
              simp only [List.length_cons]; omega, List.take_length_add_append,
              List.take_length_add_append, b8]
          · rw [show r.oldEnd + 1 - s = ('\n' :: t).length + (r.oldEnd + 1 - (s + t.length + 1)) by
              simp only [List.length_cons]; omega,
              show r.newEnd + 1 - s = ('\n' :: t).length + (r.newEnd + 1 - (s + t.length + 1)) by
              simp only [List.length_cons]; omega, List.drop_length_add_append,
              List.drop_length_add_append, b9]
      · rw [step_changed _ _ _ _ _ _ _ _ _ htw, he]
        have hmin : minPos none s = some s := rfl
        rw [hmin, Nat.max_eq_right (by omega), Nat.max_eq_right (by omega)]
        have := pairFold_after ps qs (s + t.length + 1) (s + w.length + 1) s []
          { acc with contentChanged := true, blocks := acc.blocks + 1, earliest := some s
                     oldEnd := s + t.length, newEnd := s + w.length } hl rfl rfl
          (by omega) (by simp) (by simp)
        simp only [pairFold, List.nil_append] at this
        obtain ⟨b1, b2, b3, b4, b5, b6, b7⟩ := this
        generalize List.foldl (fun acc (p : UndoBlockState F × UndoBlockState F) =>
          emitAfterStep acc (some p.1) p.2) _ _ = r at *
        refine .inr ⟨b1, s, b2, Nat.le_refl _, by omega, by omega, ?_, ?_, ?_, ?_⟩
        · simp only [List.length_append, List.length_cons]; omega
        · simp only [List.length_append, List.length_cons]; omega
        · rw [show s + 1 - s = 1 by omega]; simp
        · rw [show r.oldEnd + 1 - s = ('\n' :: t).length + (r.oldEnd - (s + t.length)) by
              simp only [List.length_cons]; omega,
              show r.newEnd + 1 - s = ('\n' :: w).length + (r.newEnd - (s + w.length)) by
              simp only [List.length_cons]; omega, List.drop_length_add_append,
              List.drop_length_add_append]
          exact b7

/-- The text of a document with paragraphs `ps`. -/
def paragraphsText (ps : List (Nat × List Char × F)) : List Char :=
  (List.intersperse ['\n'] (ps.map (·.2.1))).flatten

private theorem paragraphsText_eq (ps : List (Nat × List Char × F)) :
    paragraphsText ps = textOf ps := by
  induction ps with
  | nil => rfl
  | cons p r ih =>
    obtain ⟨i, t, f⟩ := p
    cases r with
    | nil => simp [paragraphsText, textOf, statesFrom, buildDocText]
    | cons q r =>
      rw [textOf_cons, ← ih]
      simp [paragraphsText]

/-- The contents-changed event announced after undo or redo, when the operation neither created nor
removed a paragraph: no event exactly when no text changed, and otherwise replacing the announced
`removed` characters at the announced position by the `added` characters the new text has there
turns the old text into the new one. -/
theorem C32_announced_partial (ps qs : List (Nat × List Char × F))
    (hids : ps.map (·.1) = qs.map (·.1)) (hnd : (ps.map (·.1)).Nodup) :
    match (emitUndoRedo (statesFrom 0 ps) (statesFrom 0 qs)).contents with
    | none => paragraphsText ps = paragraphsText qs
    | some (pos, removed, added, _) =>
      pos + removed ≤ (paragraphsText ps).length ∧ pos + added ≤ (paragraphsText qs).length ∧
      paragraphsText qs =
        replaceAt (paragraphsText ps) pos removed (((paragraphsText qs).drop pos).take added) := by
  have hl : ps.length = qs.length := by simpa using congrArg List.length hids
  have hp := emit_pairs (before := statesFrom 0 ps) (after := statesFrom 0 qs)
    (by rw [statesFrom_ids, statesFrom_ids, hids]) (by rw [statesFrom_ids]; exact hnd)
  unfold emitUndoRedo
  dsimp only
  rw [hp]
  have h := pairFold_first ps qs 0 {} hl rfl rfl (Nat.le_refl _) (Nat.le_refl _)
  dsimp only at h
  generalize pairFold {} ((statesFrom 0 ps).zip (statesFrom 0 qs)) = r at h ⊢
  rcases h with ⟨h1, h2⟩ | ⟨h1, e, h2, h3, h4, h5, h6, h7, h8, h9⟩
  · rw [h1]
    simp only [Bool.false_eq_true, if_false, paragraphsText, h2]
  · rw [h1]
    simp only [if_true, h2, Option.getD_some]
    cases ps with
    | nil =>
      cases qs with
      | nil => simp [tailText] at h6
      | cons q qs => simp at hl
    | cons p ps =>
      cases qs with
      | nil => simp at hl
      | cons q qs =>
        rw [tailText_eq, tailText_eq] at *
        simp only [Nat.sub_zero, List.length_cons, List.take_succ_cons, List.drop_succ_cons,
          List.cons.injEq, true_and] at h6 h7 h8 h9
        rw [paragraphsText_eq, paragraphsText_eq]
        generalize textOf (p :: ps) = a at *
        generalize textOf (q :: qs) = b at *
        refine ⟨by omega, by omega, ?_⟩
        unfold replaceAt
        rw [h8, show e + (r.oldEnd - e) = r.oldEnd by omega, h9,
          show r.newEnd = e + (r.newEnd - e) by omega, ← List.drop_drop,
          show e + (r.newEnd - e) - e = r.newEnd - e by omega, List.append_assoc,
          List.take_append_drop, List.take_append_drop]

example : (emitUndoRedo (statesFrom 0 [(1, "ab".toList, 0), (2, "cd".toList, 0), (3, "e".toList, 0)])
    (statesFrom 0 [(1, "ab".toList, 0), (2, "cxd".toList, 0), (3, "e".toList, 1)])).contents
    = some (3, 2, 3, 1) := by decide

/-- The announced event does not describe the change in general. After undoing the creation of an
empty last paragraph (Enter at the end of the text "a"), the event says "at position 2 nothing was
removed and nothing added", while a paragraph break was removed at position 1. -/
theorem C32_announced_fails :
    let before : List (Nat × List Char × Nat) := [(1, ['a'], 0), (2, [], 0)]
    let after : List (Nat × List Char × Nat) := [(1, ['a'], 0)]
    (emitUndoRedo (statesFrom 0 before) (statesFrom 0 after)).contents = some (2, 0, 0, 1) ∧
    paragraphsText before = ['a', '\n'] ∧ paragraphsText after = ['a'] ∧
    (paragraphsText after).length < 2 ∧
    ∀ ins : List Char, ins.length = 0 →
      replaceAt (paragraphsText before) 2 0 ins ≠ paragraphsText after := by
  refine ⟨by decide, by decide, by decide, by decide, ?_⟩
  intro ins h
  obtain rfl := List.length_eq_zero_iff.mp h
  decide

/-- The edit the cursors are adjusted by is always the real one, whatever paragraphs appeared or
disappeared. -/
theorem C32_cursor_edit (before after : List (UndoBlockState F)) (pos removed added : Nat)
    (h : (emitUndoRedo before after).cursorEdit = some (pos, removed, added)) :
    pos + removed ≤ (buildDocText before).length ∧ pos + added ≤ (buildDocText after).length ∧
    buildDocText after =
      replaceAt (buildDocText before) pos removed (((buildDocText after).drop pos).take added) := by
  have he : computeTextEdit (buildDocText before) (buildDocText after) = (pos, removed, added) := by
    unfold emitUndoRedo at h
    dsimp only at h
    split at h
    · dsimp only at h
      split at h
      · simpa using h
      · simp at h
    · simp at h
  have hc := C32_edit_correct (buildDocText before) (buildDocText after)
  rw [he] at hc
  exact hc

end Announce

/-! ### C33 -/

/-- What a listener that keeps a copy of the flow does with the announced events; `new` is the list
it reads the inserted elements from. -/
def applyFlow (new : List Int) (l : List Int) : FlowEvent → List Int
  | .removed i n => replaceAt l i n []
  | .inserted i n => replaceAt l i 0 ((new.drop i).take n)

/-- Applying the announced events, in order, to the previously known flow gives the current flow, and
the document remembers the current flow for the next comparison. -/
theorem C33_flow_events (old new : List Int) :
    (checkFlowChanged old new).1.foldl (applyFlow new) old = new ∧
      (checkFlowChanged old new).2 = new := by
  unfold checkFlowChanged
  split
  · rename_i h; exact ⟨h.symm, h.symm⟩
  · refine ⟨?_, rfl⟩
    have hle := matchCount_le old new
    have ht := matchCount_take old new
    have hs := suffix_drop old new (matchCount old new)
    dsimp only at hs ⊢
    generalize matchCount old new = p at *
    generalize matchCount (old.drop p).reverse (new.drop p).reverse = k at *
    have hm := replace_middle _ _ _ _ ht hle.1 hle.2 hs.1 hs.2.1 hs.2.2
    have hstep : ∀ (n : Nat) (ins : List Int), replaceAt (replaceAt old p n []) p 0 ins
        = replaceAt old p n ins := by
      intro n ins
      have hl : (old.take p).length = p := by rw [List.length_take]; omega
      simp only [replaceAt, List.append_nil, Nat.add_zero]
      rw [List.take_append_of_le_length (by omega), List.drop_append_of_le_length (by omega),
        List.take_take, Nat.min_self, List.drop_eq_nil_of_le (by omega), List.nil_append]
    by_cases hr : 0 < old.length - p - k
    · by_cases hi : 0 < new.length - p - k
      · rw [if_pos hr, if_pos hi]
        simp only [List.singleton_append, List.foldl_cons, List.foldl_nil, applyFlow]
        rw [hstep, ← hm]
      · rw [if_pos hr, if_neg hi]
        simp only [List.append_nil, List.foldl_cons, List.foldl_nil, applyFlow]
        have h0 : new.length - p - k = 0 := by omega
        rw [h0, List.take_zero] at hm
        exact hm.symm
    · have h0 : old.length - p - k = 0 := by omega
      rw [h0] at hm
      by_cases hi : 0 < new.length - p - k
      · rw [if_neg hr, if_pos hi]
        simp only [List.nil_append, List.foldl_cons, List.foldl_nil, applyFlow]
        exact hm.symm
      · have h1 : new.length - p - k = 0 := by omega
        rw [h1, List.take_zero] at hm
        rename_i hne
        exact absurd (by simpa [replaceAt] using hm) hne

/-- Nothing is announced exactly when the flow did not change. -/
theorem C33_silent_iff (old new : List Int) :
    (checkFlowChanged old new).1 = [] ↔ new = old := by
  constructor
  · intro h
    have := (C33_flow_events old new).1
    rw [h] at this
    exact this.symm
  · intro h; simp [checkFlowChanged, h]

/-- A flow event that leaves the common beginning alone and lies inside its list. -/
def FlowEvent.Inside (old new : List Int) : FlowEvent → Prop
  | .removed i n => 0 < n ∧ i + n ≤ old.length ∧ old.take i = new.take i
  | .inserted i n => 0 < n ∧ i + n ≤ new.length ∧ old.take i = new.take i

/-- The announced removal and insertion never touch the common beginning, and both lie inside their
lists: `removed i n` stays inside the old flow, `inserted i n` inside the new one. -/
theorem C33_in_bounds (old new : List Int) (e : FlowEvent) (he : e ∈ (checkFlowChanged old new).1) :
    e.Inside old new := by
  unfold checkFlowChanged at he
  split at he
  · simp at he
  · have hle := matchCount_le old new
    have ht := matchCount_take old new
    dsimp only at he
    generalize matchCount old new = p at *
    generalize matchCount (old.drop p).reverse (new.drop p).reverse = k at *
    rcases List.mem_append.mp he with he | he
    · split at he
      · obtain rfl := List.mem_singleton.mp he
        exact ⟨by omega, by omega, ht⟩
      · simp at he
    · split at he
      · obtain rfl := List.mem_singleton.mp he
        exact ⟨by omega, by omega, ht⟩
      · simp at he

/-- The block-count event is queued exactly when the count differs from the last announced one, with
the new count, which becomes the remembered one. -/
theorem C33_block_count (last now : Nat) :
    ((checkBlockCount last now).1 = none ↔ now = last) ∧
    (∀ n, (checkBlockCount last now).1 = some n → n = now) ∧ (checkBlockCount last now).2 = now := by
  unfold checkBlockCount
  split
  · rename_i h; exact ⟨by simp [h], by simp_all, rfl⟩
  · rename_i h
    have h : now = last := Classical.not_not.mp h
    exact ⟨by simp [h], by simp, h.symm⟩

example : (checkFlowChanged [1, 2, 3, 4] [1, 9, -5, 4]).1
    = [.removed 1 2, .inserted 1 2] := by decide
example : (checkFlowChanged [1, 1] [1, 1, 1]).1 = [.inserted 2 1] := by decide

end Verif
