import Verif.Lemmas.UndoCheck
import Verif.Props.Order
/-
C92: undo brings the document back, whatever the command and whatever the document: with tables, cells, lists,
images and frames inside frames.
-/
namespace Verif

/-- Every command: undo succeeds and brings back the document before it. -/
theorem C92_undo {s t : Store} (h : Tidy s) (h' : Ahead s) {c : EditCall} {u : UndoData} (hc : c.Careful s)
    (hr : c.run s = some (t, u)) : ∃ s', u.undo t = some s' ∧ AsBefore s s' :=
  (Undoes.call ⟨h, h'⟩ hc hr).undo

/-- Every command but typing without a selection and character formats: undo brings back everything, stored positions
and empty rows included, without any condition. -/
theorem C92_undo_exact {s t : Store} (h : Tidy s) (h' : Ahead s) {c : EditCall} {u : UndoData} (hk : c.keepsAll = true)
    (hr : c.run s = some (t, u)) : ∃ s', u.undo t = some s' ∧ s'.content = s.content ∧ s'.counters = t.counters := by
  have hb := (Fine.call ⟨h, h'⟩ hr).2.2
  have fin : ∀ x, x = s.snapshot → ∃ s', some (t.restoreUndo x) = some s' ∧ s'.content = s.content ∧
      s'.counters = t.counters := by
    rintro x rfl
    exact ⟨_, rfl, restoreUndo_content _ _, restoreUndo_counters _ _⟩
  cases c
  case typeText d =>
    simp only [EditCall.run, Option.map_eq_some_iff] at hr
    obtain ⟨⟨t', res, u'⟩, hr, he⟩ := hr
    cases he
    simp only [EditCall.keepsAll, decide_eq_true_eq] at hk
    simp only [Store.insertText, if_pos hk] at hr
    obtain ⟨e⟩ := (Fine.insertWithSelection ⟨h, h'⟩ hr).2
    exact fin _ rfl
  case typeFormatted d =>
    simp only [EditCall.run, Option.map_eq_some_iff] at hr
    obtain ⟨⟨t', res, u'⟩, hr, he⟩ := hr
    cases he
    simp only [EditCall.keepsAll, decide_eq_true_eq] at hk
    simp only [Store.insertFormatted, if_pos hk] at hr
    obtain ⟨e⟩ := (Fine.formattedSelection ⟨h, h'⟩ hr).2
    exact fin _ rfl
  case format => cases hk
  all_goals
    simp only [EditCall.run, Option.map_eq_some_iff] at hr
    obtain ⟨r, hr, he⟩ := hr
    cases he
    exact fin _ hb

/-- Typing into a cell and making it bold: careful on a document with a table. -/
example : (EditCall.typeText ⟨3, 3, "ab".toList⟩).Careful entSample ∧
    ((EditCall.typeText ⟨3, 3, "ab".toList⟩).run entSample).isSome = true ∧
    (EditCall.format (fun f => { f with fontBold := some true }) 0 4).Careful entSample ∧
    ((EditCall.format (fun f => { f with fontBold := some true }) 0 4).run entSample).isSome = true :=
  ⟨carefulCallB_ok (by decide +kernel), by decide +kernel, carefulCallB_ok (by decide +kernel), by decide +kernel⟩

/-- Any history: every undo succeeds and brings back the document before the step it takes back, whatever was done,
undone and redone before.  `CarefulRun`: at each step the document is as `EditCall.Careful` asks, merged typing goes on
where the earlier typing ended, and Markdown and HTML are loaded while there is nothing to undo. -/
theorem C92_history_partial {s : Store} (h : Tidy s) (h' : Ahead s) {ops : List WorkOp}
    (hc : CarefulRun ⟨s, [], []⟩ ops) : UndoWorks ⟨s, [], []⟩ [] ops :=
  Work.run_line (w := ⟨s, [], []⟩) (.nil ⟨h, h'⟩) .nil hc

/-- A careful history with merged typing, a table, a row, undo and redo. -/
def undoSample : List WorkOp :=
  [.call (.typeText ⟨1, 1, "ab".toList⟩) true, .call (.typeText ⟨3, 3, "c".toList⟩) true, .call (.split 2) false,
   .undo, .undo, .redo, .call (.insertRow 1 1) false, .call (.typeText ⟨2, 2, "d".toList⟩) true,
   .call (.insertMarkup false 1 1 [.block { spans := [{ text := "e".toList }], listStyle := some .disc },
     .block { spans := [{ text := "f".toList }] }]) false, .undo, .call (.erase 1 4) false, .undo,
   .call (.mergeCells 1 0 0 1 1) false, .undo, .undo, .undo, .undo, .undo, .redo]

example : CarefulRun ⟨entSample, [], []⟩ undoSample ∧ (Work.run ⟨entSample, [], []⟩ undoSample).isSome = true :=
  ⟨carefulB_ok (by decide +kernel), by decide +kernel⟩

end Verif
