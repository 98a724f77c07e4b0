import Verif.Props.Commands
import Verif.Props.PlainText
/- C26: Backspace. -/
namespace Verif
open Store
variable {s s' s0 : Store} {d : Document} {f : Nat} {ps : List SPara}

/-- **C26, what really happens.** Backspace at `x + 2` asks to delete from `x + 1` to `x + 2`, in this order (cursor.rs L1585-L1599), and Backspace
again from `x` to `x + 1`: in no document and at no time are the two merged into one step of the history. -/
theorem C26_backspace_never_merged (h : Flat s (countsOf d ps) f ps) (hs : Sole d.id f s) {x n n' : Nat} {c c' : EditCmd}
    (hr : (Request.delete (x + 1) (x + 2)).inRange ps) (hrun : (Request.delete (x + 1) (x + 2)).run s n = some (s', c))
    (hrun' : (Request.delete x (x + 1)).run s' n' = some (s0, c')) : editApi.canMerge c c' = false := by
  cases hm : editApi.canMerge c c' with
  | false => rfl
  | true =>
    rcases (C26_merge_only_adjacent h hs hr hrun hrun' hm).2 with ⟨_, _, _, _, _, e, _⟩ | ⟨y, e, e'⟩ | ⟨y, e, e'⟩
    · cases e
    · cases e; cases e'
    · cases e

/-- The hypotheses are met: Backspace twice behind the "b" of "ab". -/
example : ∃ (s s' s0 : Store) (c c' : EditCmd), Flat s (countsOf { id := 1, frames := [2] }
      [plainPara 2 ['a', 'b'], plainPara 3 ['c', 'd']]) 2 [plainPara 2 ['a', 'b'], plainPara 3 ['c', 'd']] ∧ Sole 1 2 s ∧
    (Request.delete 1 2).inRange [plainPara 2 ['a', 'b'], plainPara 3 ['c', 'd']] ∧
    (Request.delete 1 2).run s 0 = some (s', c) ∧ (Request.delete 0 1).run s' 1 = some (s0, c') := by
  obtain ⟨s, h1, h2⟩ := sample_flat
  have hr : (Request.delete 1 2).inRange [plainPara 2 ['a', 'b'], plainPara 3 ['c', 'd']] := by
    simp [Request.inRange, docLen, plainPara, styled]
  obtain ⟨s', c, x', e1, e2, _, e3, _⟩ := runDelete_some (h1.sees h2) 1 2 0 hr
  have hl : max 0 1 ≤ docLen x'.1 := by rw [e3]; dsimp only; decide
  obtain ⟨s0, c', _, k1, _⟩ := runDelete_some e2 0 1 1 hl
  exact ⟨s, s', s0, .delete c, .delete c', h1, h2, hr, by simp only [Request.run, e1, Option.map_some], by simp only [Request.run, k1, Option.map_some]⟩

/-- **C26 for Backspace is false.** In "abc" Backspace is hit twice within a second: two steps of undo are needed to have "abc" back.  Delete
hit twice at the start needs one. -/
theorem C26_backspace_fails : ∃ e e1 e2 e3,
    (Session.new.bind fun e => e.live [.load ['a', 'b', 'c'], .act 0 (.erase 2 3), .act 1 (.erase 1 2)]) = some e ∧
    e.store.exportPlainText = some ['a'] ∧ e.live [.act 2 .undo] = some e1 ∧ e1.store.exportPlainText = some ['a', 'b'] ∧
    (Session.new.bind fun e => e.live [.load ['a', 'b', 'c'], .act 0 (.erase 0 1), .act 1 (.erase 0 1)]) = some e2 ∧
    e2.store.exportPlainText = some ['c'] ∧ e2.live [.act 2 .undo] = some e3 ∧ e3.store.exportPlainText = some ['a', 'b', 'c'] :=
  ⟨_, _, _, _, rfl, rfl, rfl, rfl, rfl, rfl, rfl, rfl⟩

end Verif
