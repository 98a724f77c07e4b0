import Verif.Lemmas.OrderCells
import Verif.Lemmas.OrderImport
import Verif.Lemmas.OrderMixed
import Verif.Spec.Histories
/-
A document's history keeps its store in good order.
-/
namespace Verif
open Store

/-! ### The same entities -/

/-- The same entities exist. -/
def Alike (s t : Store) : Prop := ∀ k i, (t.tab k i).isSome = (s.tab k i).isSome

theorem Alike.refl (s : Store) : Alike s s := fun _ _ => rfl
theorem Alike.trans {s t u : Store} (h : Alike s t) (h' : Alike t u) : Alike s u :=
  fun k i => (h' k i).trans (h k i)
theorem Alike.symm {s t : Store} (h : Alike s t) : Alike t s := fun k i => (h k i).symm

theorem Alike.of {s t : Store} (h : ∀ k, t.tab k = s.tab k) : Alike s t := fun k i => by rw [h]

theorem alike_insert {s : Store} {k : EKind} {i : Nat} {e : Ent k} (h : (s.tab k i).isSome = true) :
    Alike s (s.withTab k ((s.tab k).insert i e)) := by
  intro k' j
  by_cases hk : k' = k
  · subst hk
    rw [Store.tab_withTab]
    simp only [IdMap.insert]
    split
    · rename_i hj; rw [hj, h]; rfl
    · rfl
  · rw [Store.tab_withTab_ne _ _ hk]

theorem alike_updateBlock {s : Store} {b : Block} (h : (s.blocks b.id).isSome = true) : Alike s (s.updateBlock b) :=
  alike_insert (k := .block) h

theorem alike_updateBlocks {s : Store} {bs : List Block} (h : ∀ b ∈ bs, (s.blocks b.id).isSome = true) :
    Alike s (s.updateBlocks bs) := by
  induction bs generalizing s with
  | nil => exact .refl s
  | cons b bs ih =>
    have a := alike_updateBlock (h b (.head _))
    exact a.trans (ih fun c hc => (a .block c.id).trans (h c (.tail _ hc)))

theorem alike_updateDocument {s : Store} {d : Document} (h : (s.documents d.id).isSome = true) :
    Alike s (s.updateDocument d) := alike_insert (k := .document) h

theorem alike_insertInto {s t : Store} {b : Block} (hb : (s.blocks b.id).isSome = true) {o : Int} {text : List Char} {n : Nat}
    (hi : s.insertInto b o text = some (n, t)) : Alike s t := by
  simp only [Store.insertInto, Option.bind_eq_some_iff, Option.map_eq_some_iff] at hi
  obtain ⟨content, _, r, _, he⟩ := hi
  cases he
  refine (alike_updateBlock hb).trans (.of fun k => ?_)
  split <;> cases k <;> rfl

theorem alike_insertFormattedAt {s t : Store} {b : Block} (hb : (s.blocks b.id).isSome = true) {o : Int}
    {text : List Char} {fmt : CharFormat} {n : Nat} (hi : s.insertFormattedAt b o text fmt = some (n, t)) : Alike s t := by
  simp only [Store.insertFormattedAt, Option.bind_eq_some_iff, Option.map_eq_some_iff] at hi
  obtain ⟨content, _, r, _, he⟩ := hi
  cases he
  refine (alike_updateBlock hb).trans (.of fun k => ?_)
  split <;> cases k <;> rfl

theorem Fine.alike_insertSimple {s t : Store} (h : Fine s) {dto : Store.InsertTextDto} {res : Store.InsertTextResult}
    {u : Store.InsertUndo} (hi : s.insertSimple dto = some (t, res, u)) : Alike s t := by
  simp only [Store.insertSimple, Option.bind_eq_some_iff] at hi
  obtain ⟨did, hdid, doc, hdoc, ⟨b, pos, o⟩, hb, ⟨off, s1⟩, hs1, he⟩ := hi
  obtain ⟨bi, hbi⟩ := locate_some hb
  have g1 := h.insertInto (.of h hbi) hs1
  have a1 := alike_insertInto (Here.of h hbi).here hs1
  have a2 : Alike s1 (if ropePositionsMatchFlow s1.text s1.blocks.len then s1
      else s1.shiftStored (s1.staleAfter did b) dto.text.length) := by
    split
    · exact .refl _
    · refine alike_updateBlocks fun c hc => ?_
      obtain ⟨c', hc', rfl⟩ := List.mem_map.mp hc
      simp only [Store.staleAfter, List.mem_filter, List.mem_flatMap] at hc'
      obtain ⟨⟨f, _, hc'⟩, _⟩ := hc'
      exact (g1.fine.hereBlocks _ c' hc').here
  have a3 := a1.trans a2
  have a4 := a3.trans (alike_updateDocument (d := { doc with characterCount := doc.characterCount + dto.text.length })
    ((a3 .document _).trans (by
      show (s.documents doc.id).isSome = true
      rw [doc_id h hdoc, hdoc]; rfl)))
  cases he
  exact a4

theorem Fine.alike_formattedSimple {s t : Store} (h : Fine s) {dto : FormattedDto} {n : Int}
    {u : Store.InsertUndo} (hi : s.formattedSimple dto = some (t, n, u)) : Alike s t := by
  simp only [Store.formattedSimple, Option.bind_eq_some_iff] at hi
  obtain ⟨did, hdid, doc, hdoc, ids, hids, hi⟩ := hi
  split at hi
  · cases hi
  simp only [Option.bind_eq_some_iff] at hi
  obtain ⟨⟨b, j, pos⟩, hb, len, _, ⟨off, s1⟩, hs1, he⟩ := hi
  obtain ⟨bi, hbi⟩ := findSequential_some hb
  have a3 := alike_insertFormattedAt (Here.of h hbi).here hs1
  have a4 := a3.trans (alike_updateDocument (d := { doc with characterCount := doc.characterCount + dto.text.length })
    ((a3 .document _).trans (by
      show (s.documents doc.id).isSome = true
      rw [doc_id h hdoc, hdoc]; rfl)))
  cases he
  exact a4

theorem putFormats_tab (s : Store) (i : Nat) (f : BlockFmt CharFormat) (k : EKind) : (s.putFormats i f).tab k = s.tab k := by
  unfold Store.putFormats
  dsimp only
  split <;> cases k <;> rfl

theorem alike_formatOne {s t : Store} {m : CharFormat → CharFormat} {lo hi : Int} {b : Block} 
    {is : List Store.BlockInverse} (hf : Store.formatOne m lo hi s b = some (t, is)) : ∀ k, t.tab k = s.tab k := by
  simp only [Store.formatOne, Option.bind_eq_some_iff] at hf
  obtain ⟨len, _, hf⟩ := hf
  split at hf
  · cases hf; exact fun _ => rfl
  simp only [Option.bind_eq_some_iff, Option.map_eq_some_iff] at hf
  obtain ⟨_, _, _, _, he⟩ := hf
  split at he
  · cases he; exact fun _ => rfl
  · cases he; exact putFormats_tab _ _ _

theorem alike_formatLoop {s t : Store} {m : CharFormat → CharFormat} {lo hi : Int} {bs : List Block}
    {is : List Store.BlockInverse} (hf : Store.formatLoop m lo hi bs s = some (t, is)) : ∀ k, t.tab k = s.tab k := by
  induction bs generalizing s is with
  | nil => cases hf; exact fun _ => rfl
  | cons b bs ih =>
    simp only [Store.formatLoop, Option.bind_eq_some_iff, Option.map_eq_some_iff] at hf
    obtain ⟨⟨s1, i1⟩, h1, ⟨s2, i2⟩, h2, he⟩ := hf
    cases he
    exact fun k => (ih h2 k).trans (alike_formatOne h1 k)

theorem alike_formatText {s t : Store} {m : CharFormat → CharFormat} {p a : Int}
    {is : List Store.BlockInverse} (hf : s.formatText m p a = some (t, is)) : Alike s t := by
  simp only [Store.formatText, Option.bind_eq_some_iff] at hf
  obtain ⟨did, _, doc, _, hf⟩ := hf
  split at hf
  · cases hf; exact .refl _
  · exact .of (alike_formatLoop hf)

theorem undoFormat_tab (s : Store) (is : List Store.BlockInverse) (k : EKind) : (s.undoFormat is).tab k = s.tab k := by
  unfold Store.undoFormat
  induction is generalizing s with
  | nil => rfl
  | cons i is ih => exact (ih _).trans (putFormats_tab _ _ _ _)

/-! ### Undo -/

theorem Fine.restore {s s0 : Store} (h0 : Fine s0) (hc : CountersLe s0.counters s.counters) :
    Fine (s.restoreUndo s0.snapshot) ∧ Alike s0 (s.restoreUndo s0.snapshot) := by
  have hcon : (s.restoreUndo s0.snapshot).content = s0.content := restoreUndo_content _ _
  obtain ⟨a, b⟩ := (GoodAt.of h0.tidy h0.ahead).mono hc (s.restoreUndo s0.snapshot) hcon (restoreUndo_counters _ _)
  exact ⟨⟨a, b⟩, .of fun k => Store.tab_of_content hcon k⟩

/-- What a command kept undoes it: `s0` is the store before it, `s` after. -/
def Back (s0 : Store) (u : UndoData) (s : Store) : Prop :=
  match u with
  | .snapshot x | .typed (.selection x) | .typedFormatted (.selection x) => x = s0.snapshot
  | .typed (.simple d) | .typedFormatted (.simple d) =>
    Alike s0 s ∧ ∃ i, s0.blocks i = some d.originalBlock ∧ d.blockId = d.originalBlock.id
  | .formats is => Alike s0 s ∧ ∀ i ∈ is, (s0.blocks i.block).isSome = true

theorem Back.later {s0 s t : Store} {u : UndoData} (h : Back s0 u s) (a : Alike s t) : Back s0 u t := by
  unfold Back at *
  split at h
  · exact h
  · exact h
  · exact h
  · exact ⟨h.1.trans a, h.2⟩
  · exact ⟨h.1.trans a, h.2⟩
  · exact ⟨h.1.trans a, h.2⟩

theorem Fine.backSimple {s0 s : Store} (h0 : Fine s0) (hc : CountersLe s0.counters s.counters)
    {d : Store.InsertUndoData} (ha : Alike s0 s) {i : Nat} (hb : s0.blocks i = some d.originalBlock) :
    Here s d.originalBlock := by
  have hh := Here.of h0 hb
  refine ⟨⟨hh.fit.pos, Nat.lt_of_lt_of_le hh.fit.lt (hc .block), fun l hl => ?_⟩, ?_⟩
  · exact (ha .list l).trans (hh.fit.list l hl)
  · exact (ha .block _).trans hh.here

theorem Fine.undoData {s0 s t : Store} (h0 : Fine s0) (h : Fine s) (hc : CountersLe s0.counters s.counters)
    {u : UndoData} (hb : Back s0 u s) (hu : u.undo s = some t) :
    Fine t ∧ Alike s0 t ∧ CountersLe s.counters t.counters := by
  have hsnap : ∀ x, x = s0.snapshot → Fine (s.restoreUndo x) ∧ Alike s0 (s.restoreUndo x) ∧
      CountersLe s.counters (s.restoreUndo x).counters := by
    rintro x rfl
    obtain ⟨a, b⟩ := h0.restore hc
    exact ⟨a, b, by rw [restoreUndo_counters]; exact fun _ => Nat.le_refl _⟩
  unfold Back at hb
  split at hb
  · cases hu; exact hsnap _ hb
  · cases hu; exact hsnap _ hb
  · cases hu; exact hsnap _ hb
  · obtain ⟨ha, i, hbi, hid⟩ := hb
    have hh := h0.backSimple hc ha hbi
    simp only [UndoData.undo, Store.undoInsert, Option.bind_eq_some_iff, Option.map_eq_some_iff] at hu
    rename_i d
    obtain ⟨r, _, doc, hdoc, he⟩ := hu
    rw [hid] at he hdoc
    have g1 := h.updateBlock hh.fit
    have g2 := g1.trans (g1.fine.setRuns (g1.keep .block _ rfl hh.here) d.originalRuns)
    have g3 := g2.trans (g2.fine.setImages (g2.keep .block _ rfl hh.here) d.originalImages)
    have g4 := g3.trans (g3.fine.withText r)
    have g5 := g4.trans ((Leads.refl g4.fine).updateDoc rfl g4.fine hdoc
      (d := { doc with characterCount := d.originalCharacterCount }) rfl)
    have a1 := ha.trans (alike_updateBlock hh.here)
    have hd : doc.id = d.docId := doc_id g4.fine hdoc
    cases he
    refine ⟨g5.fine, ?_, g5.counters⟩
    refine (a1.trans (.of (t := Store.withText _ r) fun k => ?_)).trans (alike_updateDocument ?_)
    · cases k <;> rfl
    · rw [show ({ doc with characterCount := d.originalCharacterCount } : Document).id = d.docId from hd]
      rw [show Store.documents _ d.docId = _ from hdoc]; rfl
  · obtain ⟨ha, i, hbi, hid⟩ := hb
    have hh := h0.backSimple hc ha hbi
    simp only [UndoData.undo, Store.undoFormatted, Option.bind_eq_some_iff, Option.map_eq_some_iff] at hu
    rename_i d
    obtain ⟨r, _, doc, hdoc, he⟩ := hu
    rw [hid] at he
    have g1 := h.updateBlock hh.fit
    have g4 := g1.trans (g1.fine.withText r)
    have g2 := g4.trans (g4.fine.setRuns (g4.keep .block _ rfl hh.here) d.originalRuns)
    have g3 := g2.trans (g2.fine.setImages (g2.keep .block _ rfl hh.here) d.originalImages)
    have g5 := g3.trans ((Leads.refl g3.fine).updateDoc rfl g3.fine hdoc
      (d := { doc with characterCount := d.originalCharacterCount }) rfl)
    have a1 := ha.trans (alike_updateBlock hh.here)
    have hd : doc.id = d.docId := doc_id g3.fine hdoc
    cases he
    refine ⟨g5.fine, ?_, g5.counters⟩
    refine Alike.trans (a1.trans (.of fun k => ?_)) (alike_updateDocument ?_)
    · cases k <;> rfl
    · rw [show ({ doc with characterCount := d.originalCharacterCount } : Document).id = d.docId from hd]
      rw [show Store.documents _ d.docId = _ from hdoc]; rfl
  · obtain ⟨ha, hbs⟩ := hb
    cases hu
    have g := h.undoFormat fun i hi => (ha .block _).trans (hbs i hi)
    exact ⟨g.fine, ha.trans (.of (undoFormat_tab s _)), g.counters⟩

/-- The history of a document: each entry undoes its command. -/
inductive Trail : Store → List UndoData → Prop where
  | nil {s : Store} (h : Fine s) : Trail s []
  | cons {s0 s : Store} {u : UndoData} {us : List UndoData} (h : Fine s) (hc : CountersLe s0.counters s.counters)
      (hb : Back s0 u s) (c : Trail s0 us) : Trail s (u :: us)

theorem Trail.fine {s : Store} {us : List UndoData} (h : Trail s us) : Fine s := by cases h <;> assumption

theorem Trail.later {s t : Store} {us : List UndoData} (h : Trail s us) (ht : Fine t) (a : Alike s t)
    (hc : CountersLe s.counters t.counters) : Trail t us := by
  cases h with
  | nil _ => exact .nil ht
  | cons _ hc' hb c => exact .cons ht (hc'.trans hc) (hb.later a) c

theorem Trail.undo {s t : Store} {u : UndoData} {us : List UndoData} (h : Trail s (u :: us)) (hu : u.undo s = some t) :
    Trail t us := by
  cases h with
  | cons hf hc hb c =>
    obtain ⟨a, b, d⟩ := c.fine.undoData hf hc hb hu
    exact c.later a b (hc.trans d)

/-- Every command: the store stays in good order, and what is kept undoes it. -/
theorem Fine.call {s t : Store} (h : Fine s) {c : EditCall} {u : UndoData} (hr : c.run s = some (t, u)) :
    Fine t ∧ CountersLe s.counters t.counters ∧ Back s u t := by
  have fin : ∀ {K : EKind → Bool} {x : Snapshot}, Leads K s t ∧ x = s.snapshot →
      Fine t ∧ CountersLe s.counters t.counters ∧ Back s (.snapshot x) t :=
    fun h => ⟨h.1.fine, h.1.counters, h.2⟩
  cases c <;> simp only [EditCall.run, Option.map_eq_some_iff] at hr <;> obtain ⟨r, hr, he⟩ := hr
  case typeText dto =>
    obtain ⟨t', res, u'⟩ := r
    cases he
    have g := h.insertText hr
    refine ⟨g.fine, g.counters, ?_⟩
    simp only [Store.insertText] at hr
    split at hr
    · have := (h.insertWithSelection hr).2
      dsimp only
      subst this
      exact rfl
    · obtain ⟨d, i, e, e1, e2⟩ := (h.insertSimple hr).2
      dsimp only
      subst e
      exact ⟨h.alike_insertSimple hr, i, e1, e2⟩
  case typeFormatted dto =>
    obtain ⟨t', res, u'⟩ := r
    cases he
    have g := h.insertFormatted hr
    refine ⟨g.fine, g.counters, ?_⟩
    simp only [Store.insertFormatted] at hr
    split at hr
    · have := (h.formattedSelection hr).2
      dsimp only
      subst this
      exact rfl
    · obtain ⟨d, i, e, e1, e2⟩ := (h.formattedSimple hr).2
      dsimp only
      subst e
      exact ⟨h.alike_formattedSimple hr, i, e1, e2⟩
  case format m p a =>
    obtain ⟨t', is⟩ := r
    cases he
    have g := h.formatText hr
    have al := alike_formatText hr
    exact ⟨g.1.fine, g.1.counters, al, fun i hi => (al .block _).symm.trans (g.2 i hi)⟩
  all_goals cases he
  case split => exact fin (h.insertBlock hr)
  case erase => exact fin (h.deleteSelection hr)
  case formatBlocks => exact fin (h.setBlockFormat hr)
  case formatTable => exact fin (h.setTableFormat hr)
  case formatCell => exact fin (h.setCellFormat hr)
  case formatFrame => exact fin (h.setFrameFormat hr)
  case makeList => exact fin (h.createListCmd hr)
  case insertList => exact fin (h.insertList hr)
  case joinList => exact fin (h.addBlockToList hr)
  case leaveList => exact fin (h.removeBlockFromList hr)
  case formatList => exact fin (h.setListFormat hr)
  case insertFrame => exact fin (h.insertFrame hr)
  case insertImage => exact fin (h.insertImage hr)
  case insertTable => exact fin (h.insertTable hr)
  case removeTable => exact fin (h.removeTable hr)
  case insertRow => exact fin (h.insertTableRow hr)
  case insertColumn => exact fin (h.insertTableColumn hr)
  case removeRow => exact fin (h.removeTableRow hr)
  case removeColumn => exact fin (h.removeTableColumn hr)
  case mergeCells => exact fin (h.mergeTableCells hr)
  case splitCell => exact fin (h.splitTableCell hr)
  case replace => exact fin (h.replaceText hr)
  case paste => exact fin (h.insertFragment hr)
  case pasteTables => exact fin (h.insertTables hr)
  case insertMarkup => exact fin (h.insertMarkup hr)
  case pasteMixed => exact fin (h.insertMixed hr)

theorem Trail.call {s t : Store} {us : List UndoData} (h : Trail s us) {c : EditCall} {u : UndoData}
    (hr : c.run s = some (t, u)) : Trail t (u :: us) := by
  obtain ⟨a, b, d⟩ := h.fine.call hr
  exact .cons a b d h

theorem Trail.merge {s : Store} {c c' : EditCall} {u u' : UndoData} {us : List UndoData} (h : Trail s (u' :: u :: us))
    {m : EditCall × UndoData} (hm : mergeDone (c, u) (c', u') = some m) : Trail s (m.2 :: us) := by
  cases h with
  | @cons s1 _ _ _ hf hc1 hb1 h1 =>
  cases h1 with
  | @cons s0 _ _ _ hf1 hc0 hb0 h0 =>
  have hc := hc0.trans hc1
  unfold mergeDone at hm
  split at hm
  · rename_i d u d' u' e1 e2
    cases e1; cases e2; cases hm
    refine .cons hf hc ?_ h0
    cases u with
    | selection x => exact hb0
    | simple x => exact ⟨Alike.trans hb0.1 hb1.1, hb0.2⟩
  · rename_i e1 e2
    cases e1; cases e2; cases hm
    exact .cons hf hc hb0 h0
  · cases hm

theorem Work.step_trail {w w' : Work} (h : Trail w.store (w.done.map Prod.snd)) {o : WorkOp}
    (hl : ∀ html es, o = .load html es → w.done = []) (hs : w.step o = some w') :
    Trail w'.store (w'.done.map Prod.snd) := by
  cases o with
  | call c merge =>
    simp only [Work.step, Option.map_eq_some_iff] at hs
    obtain ⟨⟨s, u⟩, hr, he⟩ := hs
    have h1 := h.call hr
    cases he
    dsimp only
    split
    · rename_i d ds hd
      rw [hd] at h1
      split
      · rename_i m hm
        exact h1.merge (c := d.1) (u := d.2) hm
      · exact h1
    · exact h1
  | undo =>
    simp only [Work.step] at hs
    split at hs
    · cases hs; exact h
    · rename_i c u ds hd
      simp only [Option.map_eq_some_iff] at hs
      obtain ⟨s, hu, he⟩ := hs
      rw [hd] at h
      cases he
      exact h.undo hu
  | redo =>
    simp only [Work.step] at hs
    split at hs
    · cases hs; exact h
    · simp only [Option.map_eq_some_iff] at hs
      obtain ⟨⟨s, u⟩, hr, he⟩ := hs
      cases he
      exact h.call hr
  | setPlainText t =>
    simp only [Work.step, Option.map_eq_some_iff] at hs
    obtain ⟨s, hr, he⟩ := hs
    cases he
    exact .nil (h.fine.importPlainText hr).fine
  | load html es =>
    simp only [Work.step, Option.map_eq_some_iff] at hs
    obtain ⟨⟨n, s⟩, hr, he⟩ := hs
    cases he
    dsimp only
    rw [hl html es rfl]
    exact .nil (h.fine.importElements hr).fine

theorem Work.run_trail {w w' : Work} (h : Trail w.store (w.done.map Prod.snd)) {os : List WorkOp}
    (hl : NoLateLoad w os) (hs : w.run os = some w') : Trail w'.store (w'.done.map Prod.snd) := by
  induction os generalizing w with
  | nil => cases hs; exact h
  | cons o os ih =>
    simp only [Work.run, Option.bind_eq_some_iff] at hs
    obtain ⟨w1, h1, h2⟩ := hs
    exact ih (Work.step_trail h hl.1 h1) (hl.2 w1 h1) h2

end Verif
