import Verif.Lemmas.Import
import Verif.Props.RopeStore
import Verif.Props.Session
/-
C37, C47: loading a plain text and reading it back, and the counts over the life of a document.
-/
namespace Verif
variable {s : Store} {d : Document} {f : Nat} {ps : List SPara}

/-! ## C37 -/

theorem unixText_no_cr (t : List Char) : '\r' ∉ unixText t := by
  fun_induction unixText t with
  | case1 => simp
  | case2 cs ih => simp [ih]
  | case3 cs _ ih => simp [ih]
  | case4 c cs h1 h2 ih =>
    simp only [List.mem_cons, not_or]
    exact ⟨fun h => h2 h.symm, ih⟩

theorem unixText_fix {t : List Char} (h : '\r' ∉ t) : unixText t = t := by
  induction t with
  | nil => rfl
  | cons c cs ih =>
    simp only [List.mem_cons, not_or] at h
    unfold unixText
    split
    · rename_i e; cases e
    · rename_i e; cases e; simp at h
    · rename_i e; cases e; simp at h
    · rename_i e1 e2 e3; cases e3; rw [ih h.2]

theorem linesOf_splitLines (t : List Char) : LinesOf t (Store.splitLines t) :=
  ⟨splitLines_ne t, splitLines_noNl t, joinNl_splitLines t⟩

theorem look_linesFrom (n : Nat) (ls : List (List Char)) : look (linesFrom n ls) = ls.map (plainPara 0) :=
  linesFrom_look n ls

theorem export_flat (h : Flat s d f ps) : s.exportPlainText = some (docText ps) := by
  unfold Store.exportPlainText
  rw [h.docId, Option.bind_some]
  have hdf : s.docFrames d.id = [f] := by simp [Store.docFrames, h.document, h.frames]
  rw [hdf]
  have h1 := (C14_reading h.text).2.1 (by
    intro p hp
    simp only [paras, List.mem_map] at hp
    obtain ⟨q, _, rfl⟩ := hp
    rfl)
  rw [paras_snd] at h1
  simp only [List.length_cons, List.length_nil, Nat.zero_add, h1]
  rfl

theorem docText_linesFrom (n : Nat) (t : List Char) : docText (linesFrom n (Store.splitLines t)) = t := by
  rw [docText, linesFrom_text, joinNl_splitLines]

/-- Loading a text into a document: it succeeds; the document then has one unformatted paragraph per
line, in one frame; its plain text is the text with its line ends written "\n"; and its counts are
those of the lines. -/
theorem C37_import (h : Flat s d f ps) (hs : Sole d.id f s) (t : List Char) :
    ∃ s' f' ps' lines d', s.importPlainText t = some s' ∧ LinesOf (unixText t) lines ∧
      look ps' = lines.map (plainPara 0) ∧ s'.exportPlainText = some (unixText t) ∧
      s'.documents d.id = some d' ∧ d'.characterCount = (lines.map List.length).sum ∧
      d'.blockCount = lines.length ∧ Flat s' d' f' ps' ∧ Sole d.id f' s' ∧ Placed s' ps' := by
  obtain ⟨s', e1, e2, e3, e4⟩ := h.import hs t
  refine ⟨s', _, _, Store.splitLines (unixText t), _, e1, linesOf_splitLines _, look_linesFrom _ _, ?_,
    e2.document, ?_, ?_, e2, e3, e4⟩
  · rw [export_flat e2, docText_linesFrom]
  · simp [countsOf, charTotal_linesFrom]
  · simp [countsOf, linesFrom_length]

example : ∃ s s', Store.newStore = some s ∧ s.importPlainText ['a', '\r', '\n', 'b', '\r'] = some s' ∧
    s'.exportPlainText = some ['a', '\n', 'b', '\n'] := by
  obtain ⟨s, e1, e2, e3, _⟩ := newStore_flat
  obtain ⟨s', _, _, _, _, g1, _, _, g2, _⟩ := C37_import e2 e3 ['a', '\r', '\n', 'b', '\r']
  exact ⟨s, s', e1, g1, g2⟩

/-- Loading what was read back changes nothing on the screen. -/
theorem C37_import_again (h : Flat s d f ps) (hs : Sole d.id f s) (t : List Char) :
    ∃ s1 s2 f1 f2 ps1 ps2 d1 d2, s.importPlainText t = some s1 ∧
      (s1.exportPlainText.bind fun u => s1.importPlainText u) = some s2 ∧
      Flat s1 d1 f1 ps1 ∧ Flat s2 d2 f2 ps2 ∧ look ps2 = look ps1 ∧
      s2.exportPlainText = s1.exportPlainText ∧ d2.characterCount = d1.characterCount ∧
      d2.blockCount = d1.blockCount := by
  obtain ⟨s1, e1, e2, e3, e4⟩ := h.import hs t
  have hx := export_flat e2
  rw [docText_linesFrom] at hx
  obtain ⟨s2, g1, g2, g3, g4⟩ := e2.import e3 (unixText t)
  rw [unixText_fix (unixText_no_cr t)] at g2
  have hx2 := export_flat g2
  rw [docText_linesFrom] at hx2
  refine ⟨s1, s2, _, _, _, _, _, _, e1, by rw [hx]; exact g1, e2, g2, ?_, by rw [hx, hx2], ?_, ?_⟩
  · rw [look_linesFrom, look_linesFrom]
  · simp [countsOf, charTotal_linesFrom]
  · simp [countsOf, linesFrom_length]

/-- A new document: one empty paragraph in one frame.  Its record says it has no paragraph. -/
theorem C37_new_document : ∃ s, Store.newStore = some s ∧
    Flat s { id := 1, frames := [1] } 1 [⟨1, [], {}⟩] ∧ Sole 1 1 s ∧ Placed s [⟨1, [], {}⟩] := newStore_flat

/-! ## C47 -/

/-- Loading a text starts a new time line. -/
theorem session_load {e : Session} {x : EState} {t : Timeline (List SPara)} {P : Nat → Prop}
    (h : SessionHolds d f P e x t) (txt : List Char) :
    ∃ e' d' f' x' lines, e.setPlainText txt = some e' ∧ LinesOf (unixText txt) lines ∧
      d'.characterCount = 0 ∧ d'.blockCount = 0 ∧ d'.id = d.id ∧ e'.sid = e.sid ∧
      SessionHolds d' f' P e' x' ⟨[], lines.map (plainPara 0), []⟩ := by
  have hS : Sees d f e.store x := h.sees
  obtain ⟨s', e1, e2, e3, e4⟩ := hS.flat.import hS.sole txt
  obtain ⟨st, xs, k1, _⟩ := h.st
  refine ⟨{ e with store := s', mgr := e.mgr.clearStack (e.sid.getD 0) },
    { d with frames := [e.store.next "frame"], characterCount := 0, blockCount := 0 }, e.store.next "frame",
    (linesFrom (e.store.next "block") (Store.splitLines (unixText txt)), s'.next "block"), Store.splitLines (unixText txt), ?_,
    linesOf_splitLines _, rfl, rfl, rfl, rfl, ?_⟩
  · simp only [Session.setPlainText, e1, Option.map_some]
  · have hc : e.mgr.clearStack (e.sid.getD 0) = e.mgr.setStack (e.sid.getD 0) (some {}) := by
      simp only [Mgr.clearStack, k1]
    refine ⟨⟨{}, [], ?_, .nil, .nil, rfl, by simp, by simp⟩, ?_, ?_, ?_, look_linesFrom _ _, ?_⟩
    · simp only [hc, Mgr.setStack, if_true]
    · simp only [hc, Mgr.setStack]; exact h.idle
    · simp only [hc, Mgr.setStack]; exact h.level
    · simp only [hc, Mgr.setStack]; exact h.stack
    · exact e2.sees e3

/-- The whole life of a document, from `TextDocument::new` and a first `set_plain_text` on: any
sequence of loading texts, typing, deleting, pressing Enter, undoing and redoing succeeds; the
document on the screen follows the time line; the exported text is that of the document on the
screen; and the reported counts are its numbers of characters and paragraphs. -/
theorem C47_life_partial (txt : List Char) (ops : List LifeOp) (hsp : Spaced (LifeOp.acts ops)) :
    ∃ e0 e' ps' t' d', Session.new = some e0 ∧ e0.live (.load txt :: ops) = some e' ∧
      LifeMovesAll (.load txt :: ops) ⟨[], [plainPara 0 []], []⟩ t' ∧ look ps' = t'.cur ∧
      e'.store.exportPlainText = some (docText ps') ∧
      e'.store.documents d'.id = some d' ∧ e'.store.docId = some d'.id ∧
      d'.characterCount = charTotal ps' ∧ d'.blockCount = ps'.length ∧
      e'.mgr.canUndo e'.sid = !t'.past.isEmpty ∧ e'.mgr.canRedo e'.sid = !t'.future.isEmpty := by
  obtain ⟨s, e1, e2, e3, _⟩ := C37_new_document
  have hnew : Session.new = some ⟨((Mgr.new : Mgr EditCmd).create).2, s, some 1⟩ := by
    simp only [Session.new, e1, Option.map_some]; rfl
  have hH : SessionHolds { id := 1, frames := [1], blockCount := -1 } 1 (fun _ => False)
      ⟨((Mgr.new : Mgr EditCmd).create).2, s, some 1⟩ ([⟨1, [], {}⟩], s.next "block")
      ⟨[], look [⟨1, [], {}⟩], []⟩ :=
    ⟨⟨{}, [], rfl, .nil, .nil, rfl, by simp, by simp⟩, rfl, rfl, .inl rfl, rfl, Flat.sees e2 e3⟩
  generalize he0 : (⟨((Mgr.new : Mgr EditCmd).create).2, s, some 1⟩ : Session) = e0 at hnew hH
  have main : ∀ (ops : List LifeOp) (P : Nat → Prop) (d : Document) (f : Nat) (e : Session) (x : EState)
      (t : Timeline (List SPara)), Spaced (LifeOp.acts ops) →
      (∀ b ∈ LifeOp.acts ops, ∀ px py txt, b.2 = SessionOp.type px py txt → ∀ o, P o → o + mergeWindow < b.1) →
      d.characterCount = 0 → d.blockCount = 0 → SessionHolds d f P e x t →
      ∃ d' f' e' x' t' Q, e.live ops = some e' ∧ LifeMovesAll ops t t' ∧ d'.characterCount = 0 ∧
        d'.blockCount = 0 ∧ SessionHolds d' f' Q e' x' t' := by
    intro ops
    induction ops with
    | nil => intro P d f e x t _ _ h0 h1 h; exact ⟨d, f, e, x, t, P, rfl, .nil, h0, h1, h⟩
    | cons a ops ih =>
      intro P d f e x t hsp hlate h0 h1 h
      cases a with
      | act now op =>
        have hacts : LifeOp.acts (.act now op :: ops) = (now, op) :: LifeOp.acts ops := rfl
        rw [hacts] at hsp hlate
        rw [Spaced, List.pairwise_cons] at hsp
        obtain ⟨e1, x1, t1, g1, g2, _, g3⟩ := session_step now op h0 h1 h
          (fun px py txt hop o ho => hlate (now, op) (by simp) px py txt hop o ho)
        obtain ⟨d', f', e', x', t', Q, k1, k2, k3⟩ := ih (overTimes P now op) d f e1 x1 t1 hsp.2 (by
          intro b hb px py txt hbt o ho
          rcases ho with ho | ⟨rfl, qx, qy, qt, hop, hne⟩
          · exact hlate b (by simp [hb]) px py txt hbt o ho
          · exact hsp.1 b hb qx qy qt px py txt hop hne hbt) h0 h1 g2
        exact ⟨d', f', e', x', t', Q, by simp [Session.live, Session.lifeStep, g1, k1], .cons (.act g3) k2, k3⟩
      | load txt =>
        have hacts : LifeOp.acts (.load txt :: ops) = LifeOp.acts ops := rfl
        rw [hacts] at hsp hlate
        obtain ⟨e1, d1, f1, x1, lines, g1, g2, g3, g4, _, _, g5⟩ := session_load h txt
        obtain ⟨d', f', e', x', t', Q, k1, k2, k3⟩ := ih P d1 f1 e1 x1 _ hsp hlate g3 g4 g5
        exact ⟨d', f', e', x', t', Q, by simp [Session.live, Session.lifeStep, g1, k1], .cons (.load g2) k2, k3⟩
  obtain ⟨e1, d1, f1, x1, lines, g1, g2, g3, g4, _, _, g5⟩ := session_load hH txt
  obtain ⟨d', f', e', x', t', Q, k1, k2, k3, k4, k5⟩ := main ops _ d1 f1 e1 x1 _ hsp
    (fun _ _ _ _ _ _ _ ho => absurd ho id) g3 g4 g5
  have hS : Sees d' f' e'.store x' := k5.sees
  refine ⟨e0, e', x'.1, t', countsOf d' x'.1, hnew, by simp [Session.live, Session.lifeStep, g1, k1],
    .cons (.load g2) k2, k5.cur, export_flat hS.flat, hS.flat.document, hS.flat.docId, ?_, ?_,
    k5.flags.1, k5.flags.2⟩
  · simp [countsOf, k3]
  · simp [countsOf, k4]

example : Spaced (LifeOp.acts [.act 5 (.type 1 2 ['x']), .load ['y'], .act 3000000000 (.type 0 0 ['z'])]) := by
  simp [Spaced, LifeOp.acts, mergeWindow]

example : ((Session.new.bind fun e => e.live [.load ['a', 'b', '\r', '\n', 'c'], .act 0 (.type 4 4 ['x']),
    .act 1 (.enter 1 1), .act 2 (.type 0 3 ['y']), .act 3 .undo, .act 4 .undo]).bind fun e =>
      e.store.exportPlainText) = some ['a', 'b', '\n', 'c', 'x'] := by decide +kernel

/-- A document nothing was loaded into reports no paragraph although it has one: after `new`, the
plain text "" is one empty paragraph and the paragraph count is 0; after Enter the text is "\n" and
the count is 1. -/
theorem C47_new_document_fails : ∃ e0 e' d0 d' c, Session.new = some e0 ∧
    e0.store.exportPlainText = some [] ∧ e0.store.documents 1 = some d0 ∧ d0.blockCount = 0 ∧
    e0.step 0 (.enter 0 0) = some (e', c) ∧ e'.store.exportPlainText = some ['\n'] ∧
    e'.store.documents 1 = some d' ∧ d'.blockCount = 1 :=
  ⟨_, _, _, _, _, rfl, rfl, rfl, rfl, rfl, rfl, rfl, rfl⟩

end Verif
