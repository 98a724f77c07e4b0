import Verif.Lemmas.UndoAny
/-
A check that a history is careful, for examples.
-/
namespace Verif

def indexB (x : Index) : Bool :=
  decide (x.entries.Pairwise fun a b => a.2 < b.2) && x.entries.all (fun e => decide (e.2 ≤ x.total)) &&
    (match x.entries with | [] => true | e :: _ => decide (e.2 = 0))

theorem indexB_ok {x : Index} (h : indexB x = true) : IndexOrdered x := by
  simp only [indexB, Bool.and_eq_true, decide_eq_true_eq, List.all_eq_true] at h
  refine ⟨h.1.1, h.1.2, fun e he => ?_⟩
  have := h.2
  cases hx : x.entries with
  | nil => rw [hx] at he; cases he
  | cons a l =>
    rw [hx] at he this
    cases he
    simpa using this

/-- Sufficient for `EditCall.Careful`: formats are only set in a document without any. -/
def carefulCallB (s : Store) : EditCall → Bool
  | .typeText d => decide (d.position ≠ d.anchor) || indexB s.blockOffsets
  | .typeFormatted d => decide (d.position ≠ d.anchor) || indexB s.blockOffsets
  | .format _ _ _ => (match s.docId with | none => true | some d => decide ((s.sortedBlocks d).map Block.id).Nodup) &&
      s.formatRuns.keys.all (fun i => ((s.formatRuns i).getD []).isEmpty) &&
      s.blockImages.keys.all (fun i => ((s.blockImages i).getD []).isEmpty)
  | _ => true

theorem allRows {α : Type} {m : IdMap (List α)} (h : m.keys.all (fun i => ((m i).getD []).isEmpty) = true) (i : Nat) :
    (m i).getD [] = [] := by
  cases hi : m i with
  | none => rfl
  | some l =>
    have := List.all_eq_true.mp h i ((m.mem i).mpr (by rw [hi]; rfl))
    rw [hi] at this
    simpa using this

theorem carefulCallB_ok {s : Store} {c : EditCall} (h : carefulCallB s c = true) : c.Careful s := by
  cases c
  case typeText d =>
    simp only [carefulCallB, Bool.or_eq_true, decide_eq_true_eq] at h
    exact fun e => indexB_ok (h.resolve_left fun n => n e)
  case typeFormatted d =>
    simp only [carefulCallB, Bool.or_eq_true, decide_eq_true_eq] at h
    exact fun e => indexB_ok (h.resolve_left fun n => n e)
  case format m p a =>
    simp only [carefulCallB, Bool.and_eq_true] at h
    refine ⟨fun did hd => ?_, fun i => ⟨0, ?_⟩, fun i => ?_⟩
    · have := h.1.1
      rw [hd] at this
      simpa using this
    · rw [allRows h.1.2]; exact ⟨⟨by simp, by simp⟩, trivial, by simp⟩
    · rw [allRows h.2]; exact .nil
  all_goals trivial

def followsB : UndoData → UndoData → Bool
  | .typed (.simple d), .typed (.simple d') => decide (d'.blockId = d.blockId ∧ d'.byteOffset = d.byteOffset + d.byteLen)
  | _, _ => true

theorem followsB_ok {u u' : UndoData} (h : followsB u u' = true) : Follows u u' := by
  unfold Follows
  split
  · simpa [followsB] using h
  · trivial

def carefulOpB (w : Work) : WorkOp → Bool
  | .call c merge => carefulCallB w.store c && (!merge || (match c.run w.store, w.done with
      | some (_, u), d :: _ => followsB d.2 u
      | _, _ => true))
  | .redo => match w.undone with | [] => true | c :: _ => carefulCallB w.store c
  | .load _ _ => w.done.isEmpty
  | _ => true

theorem carefulOpB_ok {w : Work} {o : WorkOp} (h : carefulOpB w o = true) : CarefulOp w o := by
  cases o with
  | call c merge =>
    simp only [carefulOpB, Bool.and_eq_true] at h
    refine ⟨carefulCallB_ok h.1, fun hm t u hr d hd => ?_⟩
    have h2 := h.2
    rw [hm, hr] at h2
    cases hw : w.done with
    | nil => rw [hw] at hd; cases hd
    | cons e l =>
      rw [hw] at hd h2
      cases hd
      exact followsB_ok (by simpa using h2)
  | redo =>
    intro c hc
    simp only [carefulOpB] at h
    cases hw : w.undone with
    | nil => rw [hw] at hc; cases hc
    | cons e l =>
      rw [hw] at hc h
      cases hc
      exact carefulCallB_ok h
  | load _ _ => exact List.isEmpty_iff.mp h
  | undo => trivial
  | setPlainText _ => trivial

def carefulB : Work → List WorkOp → Bool
  | _, [] => true
  | w, o :: os => carefulOpB w o && (match w.step o with | some w' => carefulB w' os | none => true)

theorem carefulB_ok {os : List WorkOp} {w : Work} (h : carefulB w os = true) : CarefulRun w os := by
  induction os generalizing w with
  | nil => trivial
  | cons o os ih =>
    simp only [carefulB, Bool.and_eq_true] at h
    refine ⟨carefulOpB_ok h.1, fun w' hs => ih ?_⟩
    have := h.2
    rw [hs] at this
    exact this

end Verif
