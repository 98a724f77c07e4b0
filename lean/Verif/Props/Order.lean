import Verif.Lemmas.OrderHistory
import Verif.Props.DirectAccess
/-
C91: no editing command, undo, redo or load leaves a reference to something that does not exist.
`Tidy` says that every entity is stored under its own id, that every relationship, every owner and every
entry of a child order names something that exists, that format runs and images belong to paragraphs that
exist, and that no two roots share a document; `Ahead` that no id in use will be given out again.
-/
namespace Verif

/-! ### One command -/

/-- Every editing command, on any store in good order, whatever its arguments. -/
theorem C91_command {s t : Store} (h : Tidy s) (h' : Ahead s) {c : EditCall} {u : UndoData}
    (hr : c.run s = some (t, u)) : Tidy t ∧ Ahead t :=
  have a := (Fine.call ⟨h, h'⟩ hr).1
  ⟨a.tidy, a.ahead⟩

/-- Commands of all sorts succeed on a document with a table. -/
example : ((EditCall.insertRow 1 1).run entSample).isSome = true ∧
    ((EditCall.removeTable 1).run entSample).isSome = true ∧
    ((EditCall.typeText ⟨1, 1, "ab".toList⟩).run entSample).isSome = true ∧
    ((EditCall.mergeCells 1 0 0 1 1).run entSample).isSome = true ∧
    ((EditCall.makeList .decimal 0 3).run entSample).isSome = true ∧
    ((EditCall.insertFrame 0).run entSample).isSome = true ∧
    ((EditCall.erase 0 3).run entSample).isSome = true ∧
    ((EditCall.insertMarkup true 0 0 [.block { spans := [{ text := "ab".toList }], headingLevel := some 1 }]).run
      entSample).isSome = true ∧
    ((EditCall.pasteMixed 1 1 [{ text := "a".toList, elements := [.text "a".toList {}] }]
      [{ rows := 1, columns := 1, index := 1, cells := [{ row := 0, column := 0, blocks := [] }] }]).run entSample).isSome = true := by decide +kernel

/-! ### Loading -/

theorem C91_new : ∃ s, Store.newStore = some s ∧ Tidy s ∧ Ahead s := by
  have h : Store.newStore.isSome = true := by decide +kernel
  refine ⟨Store.newStore.get h, by simp, tidyB_ok ?_, aheadB_ok ?_⟩ <;> decide +kernel +revert

/-- Loading plain text, Markdown or HTML. -/
theorem C91_load {s : Store} (h : Tidy s) (h' : Ahead s) :
    (∀ text t, s.importPlainText text = some t → Tidy t ∧ Ahead t) ∧
    (∀ html es n t, s.importElements html es = some (n, t) → Tidy t ∧ Ahead t) := by
  refine ⟨fun text t hi => ?_, fun html es n t hi => ?_⟩
  · have a := (Fine.importPlainText ⟨h, h'⟩ hi).fine
    exact ⟨a.tidy, a.ahead⟩
  · have a := (Fine.importElements ⟨h, h'⟩ hi).fine
    exact ⟨a.tidy, a.ahead⟩

example : (entSample.importPlainText "ab".toList).isSome = true ∧
    (entSample.importElements false [.block { spans := [{ text := "ab".toList }] }]).isSome = true := by decide +kernel

/-! ### Histories -/

/-- Any history: commands, merged with the one before or not, undo, redo and loading, however they follow each
other, as long as Markdown and HTML are loaded while there is nothing to undo. -/
theorem C91_history_partial {s : Store} (h : Tidy s) (h' : Ahead s) {ops : List WorkOp} {w : Work}
    (hl : NoLateLoad ⟨s, [], []⟩ ops) (hr : Work.run ⟨s, [], []⟩ ops = some w) :
    Tidy w.store ∧ Ahead w.store :=
  have a := (Work.run_trail (w := ⟨s, [], []⟩) (.nil ⟨h, h'⟩) hl hr).fine
  ⟨a.tidy, a.ahead⟩

/-- A history with all of these. -/
def workSample : List WorkOp :=
  [.load true [.block { spans := [{ text := "abc".toList }] }],
   .call (.typeText ⟨1, 1, "x".toList⟩) true, .call (.typeText ⟨2, 2, "y".toList⟩) true,
   .call (.format (fun f => { f with fontBold := some true }) 0 2) true, .call (.split 2) false, .undo, .redo,
   .call (.insertTable 1 1 2 2) false, .call (.erase 0 1) true, .undo, .undo, .undo, .undo, .undo, .redo, .redo]

theorem noLateLoad_of_none {ops : List WorkOp} {w : Work} (h : ∀ o ∈ ops, ∀ html es, o ≠ .load html es) :
    NoLateLoad w ops := by
  induction ops generalizing w with
  | nil => trivial
  | cons o ops ih =>
    exact ⟨fun html es e => absurd e (h o (.head _) html es), fun w' _ => ih fun o ho => h o (.tail _ ho)⟩

example : (Work.run ⟨entSample, [], []⟩ workSample).isSome = true := by decide +kernel
example : NoLateLoad ⟨entSample, [], []⟩ workSample :=
  ⟨fun _ _ _ => rfl, fun _ _ => noLateLoad_of_none (by simp)⟩

/-- Type, format, format again, load Markdown, undo. -/
def lateLoad : List WorkOp :=
  [.call (.typeText ⟨0, 0, "ab".toList⟩) false,
   .call (.format (fun f => { f with fontBold := some true }) 0 1) false,
   .call (.format (fun f => { f with fontItalic := some true }) 0 1) false,
   .load false [.block { spans := [{ text := "c".toList }] }], .undo]

/-- Not when Markdown or HTML is loaded while there is something to undo: `set_markdown` and `set_html` keep the
history, and undoing the formatting of a paragraph that is gone gives it format runs again. -/
theorem C91_undo_after_load_fails :
    ∃ s ops w, Tidy s ∧ Ahead s ∧ Work.run ⟨s, [], []⟩ ops = some w ∧ ¬ Tidy w.store := by
  obtain ⟨s, hs, h1, h2⟩ := C91_new
  have hw : (Store.newStore.bind fun s => (Work.run ⟨s, [], []⟩ lateLoad).map fun w =>
      ((w.store.formatRuns 1).isSome, (w.store.blocks 1).isSome)) = some (true, false) := by decide +kernel
  rw [hs] at hw
  simp only [Option.bind_some, Option.map_eq_some_iff, Prod.mk.injEq] at hw
  obtain ⟨w, hr, e1, e2⟩ := hw
  exact ⟨s, lateLoad, w, h1, h2, hr, fun t => by rw [t.runs 1 e1] at e2; cases e2⟩

end Verif
