import Verif.Model.PasteTable
/-
Replacing the content of cells does not reach the text.
-/
namespace Verif
open Store
variable {s s' : Store}

/-- The text and its index are the same. -/
def Store.SameRope (s s' : Store) : Prop := s'.rope = s.rope ∧ s'.blockOffsets = s.blockOffsets

theorem Store.SameRope.trans {a b c : Store} (h1 : a.SameRope b) (h2 : b.SameRope c) : a.SameRope c :=
  ⟨h2.1.trans h1.1, h2.2.trans h1.2⟩

theorem setFrameBlocks_text {f : Nat} {l : List Nat} (e : s.setFrameBlocks f l = some s') : s.SameRope s' := by
  unfold Store.setFrameBlocks at e
  split at e
  · split at e <;> (cases e; exact ⟨rfl, rfl⟩)
  · cases e

theorem rewriteOwners_text (ids : List Nat) (os : List (Nat × List Nat)) : ∀ {s : Store}, rewriteOwners ids os s = some s' → s.SameRope s' := by
  induction os with
  | nil => intro s e; cases e; exact ⟨rfl, rfl⟩
  | cons o os ih =>
    intro s e
    obtain ⟨x, y⟩ := o
    simp only [Store.rewriteOwners, Option.bind_eq_some_iff] at e
    obtain ⟨s1, e1, e2⟩ := e
    exact (setFrameBlocks_text e1).trans (ih e2)

theorem removeBlocks_text {ids : List Nat} (e : s.removeBlocks ids = some s') : s.SameRope s' := by
  unfold Store.removeBlocks at e
  split at e
  · cases e; exact ⟨rfl, rfl⟩
  · exact (show s.SameRope (s.tableRemoveBlocks ids) from ⟨rfl, rfl⟩).trans (rewriteOwners_text _ _ e)

theorem createBlock_text {b : Block} {o : Nat} {i : Int} {n : Nat} (e : s.createBlock b o i = some (n, s')) : s.SameRope s' := by
  unfold Store.createBlock at e
  rw [Option.bind_eq_some_iff] at e
  obtain ⟨⟨m, s1⟩, e1, e2⟩ := e
  rw [Option.map_eq_some_iff] at e2
  obtain ⟨s2, e2, e3⟩ := e2
  cases e3
  refine Store.SameRope.trans ?_ (setFrameBlocks_text e2)
  unfold Store.insertNewBlock at e1
  split at e1
  · cases e1; exact ⟨rfl, rfl⟩
  · split at e1
    · cases e1
    · cases e1; exact ⟨rfl, rfl⟩

theorem dropExtra_text (bs : List Block) : ∀ {s : Store}, dropExtra bs s = some s' → s.SameRope s' := by
  induction bs with
  | nil => intro s e; cases e; exact ⟨rfl, rfl⟩
  | cons b bs ih =>
    intro s e
    simp only [Store.dropExtra, Option.bind_eq_some_iff] at e
    obtain ⟨s1, e1, e2⟩ := e
    exact ((show s.SameRope (s.writeState b.id [] []) from ⟨rfl, rfl⟩).trans (removeBlocks_text e1)).trans (ih e2)

theorem addExtra_text (cf : Nat) (fbs : List FragBlock) : ∀ {s : Store}, addExtra cf fbs s = some s' → s.SameRope s' := by
  induction fbs with
  | nil => intro s e; cases e; exact ⟨rfl, rfl⟩
  | cons fb fbs ih =>
    intro s e
    simp only [Store.addExtra, Option.bind_eq_some_iff] at e
    obtain ⟨⟨b, s1⟩, e1, e2⟩ := e
    exact ((createBlock_text e1).trans (show s1.SameRope (s1.writeState b (fragState fb).1 (fragState fb).2) from ⟨rfl, rfl⟩)).trans (ih e2)

theorem replaceCell_text {cf : Nat} {fbs : List FragBlock} (e : replaceCell cf fbs s = some s') : s.SameRope s' := by
  unfold Store.replaceCell at e
  simp only [Option.bind_eq_some_iff] at e
  obtain ⟨s1, e1, e2⟩ := e
  refine (dropExtra_text _ e1).trans ?_
  split at e2
  · cases e2; exact ⟨rfl, rfl⟩
  · cases e2; exact ⟨rfl, rfl⟩
  · rename_i b _ fb fbs _
    exact (show s1.SameRope ((s1.updateBlock b).writeState b.id (fragState fb).1 (fragState fb).2) from ⟨rfl, rfl⟩).trans (addExtra_text _ _ e2)

theorem replaceCells_text (cells : List TableCell) (r k : Int) (cs : List FragCell) : ∀ {s : Store},
    replaceCells cells r k cs s = some s' → s.SameRope s' := by
  induction cs with
  | nil => intro s e; cases e; exact ⟨rfl, rfl⟩
  | cons c cs ih =>
    intro s e
    simp only [Store.replaceCells, Option.bind_eq_some_iff] at e
    obtain ⟨s1, e1, e2⟩ := e
    refine Store.SameRope.trans ?_ (ih e2)
    split at e1
    · cases e1; exact ⟨rfl, rfl⟩
    · exact replaceCell_text e1

theorem tryReplaceCells_text {did : Nat} {pos : Int} {ts : List FragTable} (e : s.tryReplaceCells did pos ts = some (some s')) :
    s.SameRope s' := by
  match ts with
  | [] => cases e
  | _ :: _ :: _ => cases e
  | [t] =>
    simp only [Store.tryReplaceCells, Option.bind_eq_some_iff] at e
    obtain ⟨f, _, ⟨b, _⟩, _, e⟩ := e
    split at e
    · cases e
    · simp only [Option.bind_eq_some_iff] at e
      obtain ⟨u, _, e⟩ := e
      split at e
      · cases e
      · rw [Option.map_eq_some_iff] at e
        obtain ⟨s1, e, e2⟩ := e
        cases e2
        exact replaceCells_text _ _ _ _ e

end Verif
