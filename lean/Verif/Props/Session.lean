import Verif.Lemmas.Session
/-
C19, C20, C21, C26, C47 for an editing session on a document of one frame without tables and images:
typing, typing over a selection, deleting, pressing Enter, undoing and redoing, in any order.
-/
namespace Verif
variable {d : Document} {f : Nat} {s s' : Store} {ps : List SPara} {x x' : EState}

theorem Flat.insertAcross {dto : Store.InsertTextDto} {L M R : List SPara} {p1 p2 : SPara}
    {a1 b1 a2 b2 : List SChar} (h : Flat s d f (L ++ p1 :: (M ++ p2 :: R)))
    (hc1 : p1.chars = a1 ++ b1) (hc2 : p2.chars = a2 ++ b2)
    (hstart : min dto.position dto.anchor = ((charsBefore (paras L) + a1.length : Nat) : Int))
    (hstop : max dto.position dto.anchor =
      ((charsBefore (paras (L ++ p1 :: M)) + a2.length : Nat) : Int)) :
    s.insertWithSelection dto = none := by
  have e : L ++ p1 :: (M ++ p2 :: R) = (L ++ p1 :: M) ++ p2 :: R := by simp
  have hE : Entities (L ++ p1 :: (M ++ p2 :: R)) (s.getBlocks ((L ++ p1 :: (M ++ p2 :: R)).map SPara.id)) := by
    rw [h.getBlocks]; exact .of_map _ _
  have hES := hE.sort
  obtain ⟨i, hi⟩ := hES.find (p := p1) (by simp)
  obtain ⟨j, hj⟩ := hES.find (p := p2) (by simp)
  have hf1 := h.toShows.findIn hc1 hES hi
  have h2 := h.toShows
  rw [e] at h2
  have hES2 := hES
  rw [e] at hES2
  have hj2 := hj
  rw [e] at hj2
  have hf2 := h2.findIn hc2 hES2 hj2
  rw [← e] at hf2
  have hij : i ≠ j := by
    intro hh
    subst hh
    rw [List.findIdx?_eq_some_iff_getElem] at hi hj
    obtain ⟨hl, g1, _⟩ := hi
    obtain ⟨_, g2, _⟩ := hj
    have : p1.id = p2.id := (eq_of_beq g1).symm.trans (eq_of_beq g2)
    have hnd := h.toShows.ids_nodup
    simp only [List.map_append, List.map_cons, this] at hnd
    rw [List.nodup_append] at hnd
    simp at hnd
  unfold Store.insertWithSelection
  rw [h.docId, Option.bind_some, h.document, Option.bind_some]
  dsimp only
  rw [h.flowBlocks, Option.bind_some, hstart, hf1, Option.bind_some]
  dsimp only
  rw [hstop, hf2, Option.bind_some]
  dsimp only
  rw [if_pos hij]

/-- A selection across paragraphs is refused. -/
theorem refused (h : Sees d f s x) (px py : Nat) (t : List Char) (hle : max px py ≤ docLen x.1)
    (hd : (deleteBetween (min px py) (max px py) x.1).length ≠ x.1.length) :
    s.insertText ⟨px, py, t⟩ = none := by
  have hxy : px ≠ py := by
    intro e; subst e; simp [deleteBetween_self] at hd
  have hlh : min px py ≤ max px py := by omega
  have hmin : min (px : Int) (py : Int) = ((min px py : Nat) : Int) := by omega
  have hmax : max (px : Int) (py : Int) = ((max px py : Nat) : Int) := by omega
  unfold Store.insertText
  rw [if_pos (by simp; omega)]
  rcases locate_two x.1 h.flat.nonempty _ _ hlh hle with
    ⟨L, p, R, a, m, b, e1, hc, e2, e3⟩ | ⟨L, p1, M, p2, R, a1, b1, a2, b2, e1, hc1, hc2, e2, e3⟩
  · exfalso
    have hdel := deleteBetween_within L R hc
    rw [← e2, ← e3, ← e1] at hdel
    rw [hdel, e1] at hd
    simp at hd
  · have hf := h.flat
    rw [e1] at hf
    exact hf.insertAcross (dto := ⟨px, py, t⟩) hc1 hc2 (by rw [hmin, e2]) (by rw [hmax, e3])

/-! ## The session -/

/-- The state of a session in agreement with a time line of documents. -/
def SessionHolds (d : Document) (f : Nat) (P : Nat → Prop) (e : Session) (x : EState)
    (t : Timeline (List SPara)) : Prop :=
  (editContract d f).Holds P e.mgr e.sid e.store x t

theorem add_open {m : Mgr EditCmd} {sid : Option Nat} {cs : List EditCmd} (c : EditCmd)
    (h : m.comp = some (sid.getD 0, cs)) :
    m.add editApi c sid = (true, { m with comp := some (sid.getD 0, cs ++ [c]) }) := by
  unfold Mgr.add
  rw [h]
  simp

theorem begin_comp {m : Mgr EditCmd} {sid : Option Nat} (h1 : m.comp = none)
    (h2 : m.compStack = none ∨ m.compStack = sid) : (m.begin sid).2.comp = some (sid.getD 0, []) := by
  unfold Mgr.begin
  rw [if_neg]
  · simp [h1]
  · rcases h2 with h | h <;> simp [h]

theorem runInsert_some (h : Sees d f s x) (px py : Nat) (t : List Char) (now : Nat)
    (hle : max px py ≤ docLen x.1)
    (hsame : (deleteBetween (min px py) (max px py) x.1).length = x.1.length) :
    ∃ s' c x', runInsert s ⟨px, py, t⟩ now = some (s', c) ∧ Sees d f s' x' ∧
      EditDone d f (.insert c) x x' ∧
      x'.1 = typeAt (min px py) t (deleteBetween (min px py) (max px py) x.1) ∧
      c.result.newPosition = ((min px py + t.length : Nat) : Int) ∧ c.wasSelection = decide (px ≠ py) ∧
      c.time = now := by
  obtain ⟨s', r, u, x', e1, e2, e3⟩ := execInsert h px py t hle hsame
  have e4 := e3 now
  obtain ⟨qx, qy, k1, k2, k3, k4, k5, _⟩ := e3 now
  simp only at k1 k2 k4 k5
  have : qx = px := by omega
  subst this
  have : qy = py := by omega
  subst this
  have hw : decide ((qx : Int) ≠ (qy : Int)) = decide (qx ≠ qy) := decide_eq_decide.mpr (by omega)
  refine ⟨s', _, x', ?_, e2, e4, k4, k5, rfl, rfl⟩
  simp only [runInsert, e1, Option.map_some, hw]

theorem runDelete_some (h : Sees d f s x) (px py : Nat) (now : Nat) (hle : max px py ≤ docLen x.1) :
    ∃ s' c x', runDelete s px py now = some (s', c) ∧ Sees d f s' x' ∧
      EditDone d f (.delete c) x x' ∧ x'.1 = deleteBetween (min px py) (max px py) x.1 ∧
      c.result.newPosition = ((min px py : Nat) : Int) ∧ c.position = px ∧ c.anchor = py := by
  obtain ⟨s', r, x', e1, e2, e3⟩ := execDelete h px py hle
  have e4 := e3 now
  obtain ⟨qx, qy, k1, k2, k3, k4, k5, _⟩ := e3 now
  simp only at k1 k2 k4 k5
  have : qx = px := by omega
  subst this
  have : qy = py := by omega
  subst this
  refine ⟨s', _, x', ?_, e2, e4, k4, k5, rfl, rfl⟩
  simp [runDelete, e1]

theorem runBlock_some (h : Sees d f s x) (px : Nat) (hle : px ≤ docLen x.1) :
    ∃ s' c r x', runBlock s px = some (s', c, r) ∧ Sees d f s' x' ∧
      EditDone d f (.block c) x x' ∧ (∃ new, x'.1 = splitPara px new x.1) ∧
      r.newPosition = ((px + 1 : Nat) : Int) := by
  obtain ⟨s', r, x', e1, e2, e3, e4⟩ := execBlock h px hle
  have e4' := e4
  obtain ⟨qx, k1, k2, ⟨new, k3⟩, _⟩ := e4
  simp only at k1
  have : qx = px := by omega
  subst this
  exact ⟨s', _, r, x', by simp [runBlock, e1], e2, e4', ⟨new, k3⟩, e3⟩

theorem maxCursor_eq (h : Sees d f s x) (h0 : d.characterCount = 0) (h1 : d.blockCount = 0) :
    maxCursor s = some (docLen x.1) := by
  have hdl : ∀ ps : List SPara, ps ≠ [] → docLen ps + 1 = charTotal ps + ps.length := by
    intro ps
    induction ps with
    | nil => intro h; exact absurd rfl h
    | cons p ps ih =>
      intro _
      cases ps with
      | nil => simp [docLen, charTotal]
      | cons q ps =>
        have := ih (by simp)
        rw [charTotal_cons]
        simp only [docLen, List.length_cons] at this ⊢
        omega
  have hlen := hdl x.1 h.flat.nonempty
  unfold maxCursor
  rw [h.flat.docId, Option.bind_some]
  have hdoc := h.flat.document
  rw [hdoc, Option.bind_some]
  simp only [countsOf, h0, h1, Int.zero_add]
  rw [if_neg (by omega)]
  have hne := List.length_pos_iff.mpr h.flat.nonempty
  split
  · congr 1; omega
  · congr 1; omega

/-- The times of replaced selections after one more action. -/
def overTimes (P : Nat → Prop) (now : Nat) (op : SessionOp) : Nat → Prop :=
  fun o => P o ∨ (o = now ∧ ∃ x y t, op = .type x y t ∧ x ≠ y)

theorem step_type {e : Session} {t : Timeline (List SPara)} {P : Nat → Prop} (px py : Nat)
    (txt : List Char) (now : Nat) (h : SessionHolds d f P e x t) (hle : max px py ≤ docLen x.1)
    (hover : px ≠ py → P now) (hsafe : px = py → ∀ o, P o → o + mergeWindow < now) :
    ∃ e' x' t', e.cursorInsert px py txt now = some (e', ((min px py + txt.length : Nat) : Int)) ∧
      SessionHolds d f P e' x' t' ∧ e'.sid = e.sid ∧
      look x'.1 = typeAt (min px py) txt (deleteBetween (min px py) (max px py) (look x.1)) ∧
      (t' = t.edit (look x'.1) ∨ (t' = t.extend (look x'.1) ∧ px = py ∧ t.past ≠ [])) := by
  have hS : Sees d f e.store x := h.sees
  by_cases hsame : (deleteBetween (min px py) (max px py) x.1).length = x.1.length
  · obtain ⟨s', c, x', e1, e2, e3, e4, e5, e6, e7⟩ := runInsert_some hS px py txt now hle hsame
    have hmark : ∀ o, editMark (.insert c) = some o → P o := by
      intro o ho
      simp only [editMark, e6] at ho
      by_cases hxy : px = py
      · simp [hxy] at ho
      · simp [hxy] at ho; rw [← ho, e7]; exact hover hxy
    have hs : ∀ a, (∀ o, editMark a = some o → P o) → editApi.canMerge a (.insert c) = true →
        editMark a = none := by
      intro a ha hcm
      cases a with
      | insert a =>
        simp only [editApi, InsertCmd.canMerge] at hcm
        split at hcm
        · simp at hcm
        rename_i htime
        split at hcm
        · simp at hcm
        rename_i hws
        have hxy : px = py := by
          rw [e6] at hws; simpa using hws
        simp only [editMark] at ha ⊢
        cases hw : a.wasSelection with
        | false => rfl
        | true =>
          have := hsafe hxy a.time (ha a.time (by simp [hw]))
          rw [e7] at htime
          omega
      | delete a => rfl
      | block a => rfl
    obtain ⟨m', t', g1, g2, g3⟩ := h.add (c := EditCmd.insert c) (x' := x') (s' := s') (show (editContract d f).Done (EditCmd.insert c) x x' from e3) e2 hmark hs
    refine ⟨⟨m', s', e.sid⟩, x', t', ?_, g2, rfl, ?_, ?_⟩
    · simp only [Session.cursorInsert, Session.insert, e1, Option.bind_some, g1, e5]
    · rw [e4, deleteBetween_look, typeAt_look]
    · rcases g3 with g3 | ⟨g3, g4, a, g5⟩
      · exact Or.inl g3
      · refine Or.inr ⟨g3, ?_, g4⟩
        cases a with
        | insert a =>
          simp only [editApi, InsertCmd.canMerge] at g5
          split at g5
          · simp at g5
          split at g5
          · simp at g5
          rename_i hws
          rw [e6] at hws; simpa using hws
        | delete a => simp [editApi] at g5
        | block a => simp [editApi] at g5
  · have hno := refused hS px py txt hle hsame
    have hxy : px ≠ py := by
      intro hh; subst hh; simp [deleteBetween_self] at hsame
    have hbc := begin_comp (m := e.mgr) (sid := e.sid) h.idle h.stack
    obtain ⟨s1, c1, x1, e1, e2, e3, e4, e5, e6⟩ := runDelete_some hS px py now hle
    have hlen := docLen_deleteBetween (lo := min px py) (hi := max px py) hS.flat.nonempty (by omega) hle
    rw [← e4] at hlen
    obtain ⟨s2, c2, x2, k1, k2, k3, k4, k5, _⟩ := runInsert_some e2 (min px py) (min px py) txt now
      (by omega) (by simp [deleteBetween_self])
    simp only [Nat.min_self, Nat.max_self, deleteBetween_self] at k4 k5
    obtain ⟨m', g1, g2⟩ := h.group (cs := [.delete c1, .insert c2]) (x' := x2) (s' := s2)
      (.cons (show (editContract d f).Done (EditCmd.delete c1) x x1 from e3)
        (.cons (show (editContract d f).Done (EditCmd.insert c2) x1 x2 from k3) .nil)) (by simp) k2
    have hins : e.insert px py txt now = none := by
      simp [Session.insert, runInsert, hno]
    have hview : (editContract d f).view x2 = look x2.1 := rfl
    refine ⟨⟨m', s2, e.sid⟩, x2, _, ?_, g2, rfl, ?_, Or.inl rfl⟩
    · unfold Session.cursorInsert
      rw [hins]
      simp only
      rw [if_neg hxy]
      simp only [Session.begin, Session.delete, e1, Option.bind_some, add_open _ hbc, e5]
      rw [if_neg (by omega)]
      simp only [Session.insert, Int.toNat_natCast, k1, Option.bind_some]
      rw [add_open (cs := [.delete c1]) _ (by simp)]
      simp only [Option.bind_some, Session.end, k5]
      simp only [List.nil_append, List.cons_append] at g1 ⊢
      rw [g1]
      rfl
    · rw [k4, e4, deleteBetween_look, typeAt_look]

theorem step_erase {e : Session} {t : Timeline (List SPara)} {P : Nat → Prop} (px py : Nat)
    (now : Nat) (h : SessionHolds d f P e x t) (hle : max px py ≤ docLen x.1) :
    ∃ e' x' t', e.delete px py now = some (e', ((min px py : Nat) : Int)) ∧
      SessionHolds d f P e' x' t' ∧ e'.sid = e.sid ∧
      look x'.1 = deleteBetween (min px py) (max px py) (look x.1) ∧
      (t' = t.edit (look x'.1) ∨ (t' = t.extend (look x'.1) ∧ max px py = min px py + 1 ∧ t.past ≠ [])) := by
  have hS : Sees d f e.store x := h.sees
  obtain ⟨s', c, x', e1, e2, e3, e4, e5, e6, e7⟩ := runDelete_some hS px py now hle
  obtain ⟨m', t', g1, g2, g3⟩ := h.add (c := EditCmd.delete c) (x' := x') (s' := s') (show (editContract d f).Done (EditCmd.delete c) x x' from e3) e2
    (fun o ho => by simp [editContract, editMark] at ho)
    (fun a _ hcm => by
      cases a with
      | insert a => simp [editApi] at hcm
      | delete a => rfl
      | block a => rfl)
  refine ⟨⟨m', s', e.sid⟩, x', t', ?_, g2, rfl, ?_, ?_⟩
  · simp only [Session.delete, e1, Option.bind_some, g1, e5]
  · rw [e4, deleteBetween_look]
  · rcases g3 with g3 | ⟨g3, g4, a, g5⟩
    · exact Or.inl g3
    · refine Or.inr ⟨g3, ?_, g4⟩
      cases a with
      | insert a => simp [editApi] at g5
      | block a => simp [editApi] at g5
      | delete a =>
        simp only [editApi, DeleteCmd.canMerge] at g5
        split at g5
        · simp at g5
        split at g5
        · simp at g5
        split at g5
        · simp at g5
        rename_i hone
        rw [e6, e7] at hone
        omega

theorem step_enter {e : Session} {t : Timeline (List SPara)} {P : Nat → Prop} (px py : Nat)
    (now : Nat) (h : SessionHolds d f P e x t) (hle : max px py ≤ docLen x.1) :
    ∃ e' x', e.cursorSplit px py now = some (e', ((min px py + 1 : Nat) : Int)) ∧
      SessionHolds d f P e' x' (t.edit (look x'.1)) ∧ e'.sid = e.sid ∧
      look x'.1 = splitPara (min px py) 0 (deleteBetween (min px py) (max px py) (look x.1)) := by
  have hS : Sees d f e.store x := h.sees
  by_cases hxy : px = py
  · subst hxy
    simp only [Nat.min_self, Nat.max_self, deleteBetween_self] at hle ⊢
    obtain ⟨s', c, r, x', e1, e2, e3, ⟨new, e4⟩, e5⟩ := runBlock_some hS px hle
    obtain ⟨m', t', g1, g2, g3⟩ := h.add (c := EditCmd.block c) (x' := x') (s' := s') (show (editContract d f).Done (EditCmd.block c) x x' from e3) e2
      (fun o ho => by simp [editContract, editMark] at ho)
      (fun a _ hcm => by cases a <;> simp [editApi] at hcm)
    have ht : t' = t.edit (look x'.1) := by
      rcases g3 with g3 | ⟨_, _, a, g5⟩
      · exact g3
      · cases a <;> simp [editApi] at g5
    subst ht
    refine ⟨⟨m', s', e.sid⟩, x', ?_, g2, rfl, ?_⟩
    · simp only [Session.cursorSplit, if_true, Session.split, e1, Option.bind_some, g1, e5]
    · rw [e4, splitPara_look]
  · have hbc := begin_comp (m := e.mgr) (sid := e.sid) h.idle h.stack
    obtain ⟨s1, c1, x1, e1, e2, e3, e4, e5, e6⟩ := runDelete_some hS px py now hle
    have hlen := docLen_deleteBetween (lo := min px py) (hi := max px py) hS.flat.nonempty (by omega) hle
    rw [← e4] at hlen
    obtain ⟨s2, c2, r2, x2, k1, k2, k3, ⟨new, k4⟩, k5⟩ := runBlock_some e2 (min px py) (by omega)
    obtain ⟨m', g1, g2⟩ := h.group (cs := [.delete c1, .block c2]) (x' := x2) (s' := s2)
      (.cons (show (editContract d f).Done (EditCmd.delete c1) x x1 from e3)
        (.cons (show (editContract d f).Done (EditCmd.block c2) x1 x2 from k3) .nil)) (by simp) k2
    refine ⟨⟨m', s2, e.sid⟩, x2, ?_, g2, rfl, ?_⟩
    · unfold Session.cursorSplit
      rw [if_neg hxy]
      simp only [Session.begin, Session.delete, e1, Option.bind_some, add_open _ hbc, e5]
      rw [if_neg (by omega)]
      simp only [Session.split, Int.toNat_natCast, k1, Option.bind_some]
      rw [add_open (cs := [.delete c1]) _ (by simp)]
      simp only [Option.bind_some, Session.end, k5]
      simp only [List.nil_append, List.cons_append] at g1 ⊢
      rw [g1]
      rfl
    · rw [k4, e4, deleteBetween_look, splitPara_look]

/-- One action of the user succeeds, moves the time line as expected and reports the expected
caret. -/
theorem session_step {e : Session} {t : Timeline (List SPara)} {P : Nat → Prop} (now : Nat)
    (op : SessionOp) (h0 : d.characterCount = 0) (h1 : d.blockCount = 0) (h : SessionHolds d f P e x t)
    (hsafe : ∀ px py txt, op = .type px py txt → ∀ o, P o → o + mergeWindow < now) :
    ∃ e' x' t', e.step now op = some (e', op.caret t.cur) ∧
      SessionHolds d f (overTimes P now op) e' x' t' ∧ e'.sid = e.sid ∧ Moves op t t' := by
  have hS : Sees d f e.store x := h.sees
  have hcur : look x.1 = t.cur := h.cur
  have hmax := maxCursor_eq hS h0 h1
  have hdl : docLen t.cur = docLen x.1 := by rw [← hcur, docLen_look]
  have hmono : ∀ o, P o → overTimes P now op o := fun o ho => Or.inl ho
  cases op with
  | undo =>
    obtain ⟨m', s', x', e1, e2⟩ := h.undo
    exact ⟨⟨m', s', e.sid⟩, x', t.undo, by simp [Session.step, e1, SessionOp.caret], e2.mono hmono, rfl, .undo⟩
  | redo =>
    obtain ⟨m', s', x', e1, e2⟩ := h.redo
    exact ⟨⟨m', s', e.sid⟩, x', t.redo, by simp [Session.step, e1, SessionOp.caret], e2.mono hmono, rfl, .redo⟩
  | type px py txt =>
    have hstep : ∃ e' x' t', e.cursorInsert (min px (docLen x.1)) (min py (docLen x.1)) txt now =
          some (e', ((min (min px (docLen x.1)) (min py (docLen x.1)) + txt.length : Nat) : Int)) ∧
        SessionHolds d f (overTimes P now (.type px py txt)) e' x' t' ∧ e'.sid = e.sid ∧
        look x'.1 = typeAt (min (min px (docLen x.1)) (min py (docLen x.1))) txt
          (deleteBetween (min (min px (docLen x.1)) (min py (docLen x.1)))
            (max (min px (docLen x.1)) (min py (docLen x.1))) (look x.1)) ∧
        (t' = t.edit (look x'.1) ∨ (t' = t.extend (look x'.1) ∧
          min px (docLen x.1) = min py (docLen x.1) ∧ t.past ≠ [])) := by
      by_cases hxy : min px (docLen x.1) = min py (docLen x.1)
      · obtain ⟨e', x', t', g1, g2, g3, g4, g5⟩ := step_type _ _ txt now h (by omega)
          (fun hh => absurd hxy hh) (fun _ => hsafe px py txt rfl)
        exact ⟨e', x', t', g1, g2.mono hmono, g3, g4, g5⟩
      · exact step_type _ _ txt now (h.mono hmono) (by omega)
          (fun _ => Or.inr ⟨rfl, px, py, txt, rfl, by rintro rfl; exact hxy rfl⟩)
          (fun hh => absurd hh hxy)
    obtain ⟨e', x', t', g1, g2, g3, g4, g5⟩ := hstep
    refine ⟨e', x', t', ?_, g2, g3, ?_⟩
    · simp only [Session.step, cursorPos, hmax, Option.map_some, Option.bind_some, g1, SessionOp.caret, hdl]
    · have ha : look x'.1 = SessionOp.apply t.cur (.type px py txt) := by
        rw [g4]; simp only [SessionOp.apply, hdl, hcur]
      rcases g5 with g5 | ⟨g5, g6, g7⟩
      · rw [g5, ha]; exact .edit (by simp) (by simp)
      · rw [g5, ha]; exact .join (by simp only [SessionOp.joins, hdl]; exact g6) g7
  | erase px py =>
    obtain ⟨e', x', t', g1, g2, g3, g4, g5⟩ := step_erase (min px (docLen x.1)) (min py (docLen x.1)) now h
      (by omega)
    refine ⟨e', x', t', ?_, g2.mono hmono, g3, ?_⟩
    · simp only [Session.step, cursorPos, hmax, Option.map_some, Option.bind_some, g1, SessionOp.caret, hdl]
    · have ha : look x'.1 = SessionOp.apply t.cur (.erase px py) := by
        rw [g4]; simp only [SessionOp.apply, hdl, hcur]
      rcases g5 with g5 | ⟨g5, g6, g7⟩
      · rw [g5, ha]; exact .edit (by simp) (by simp)
      · rw [g5, ha]; exact .join (by simp only [SessionOp.joins, hdl]; exact g6) g7
  | enter px py =>
    obtain ⟨e', x', g1, g2, g3, g4⟩ := step_enter (min px (docLen x.1)) (min py (docLen x.1)) now h
      (by omega)
    have ha : look x'.1 = SessionOp.apply t.cur (.enter px py) := by
      rw [g4]; simp only [SessionOp.apply, hdl, hcur]
    refine ⟨e', x', _, ?_, g2.mono hmono, g3, ?_⟩
    · simp only [Session.step, cursorPos, hmax, Option.map_some, Option.bind_some, g1, SessionOp.caret, hdl]
    · rw [ha]; exact .edit (by simp) (by simp)

/-! ## C21 and C47 for editing sessions -/

/-- Any session of typing, deleting, pressing Enter, undoing and redoing, at any positions: no call
fails; the document on the screen moves along the time line; `can_undo` and `can_redo` tell whether
there is something to undo and redo; and the stored counts are those of the document on the screen. -/
theorem C21_editing_session (h0 : d.characterCount = 0) (h1 : d.blockCount = 0)
    (ops : List (Nat × SessionOp)) (hsp : Spaced ops) (e : Session)
    (hf : Flat e.store (countsOf d ps) f ps) (hsole : Sole d.id f e.store)
    (hst : e.mgr.stacks (e.sid.getD 0) = some {}) (hidle : e.mgr.comp = none) (hlv : e.mgr.level = 0)
    (hcs : e.mgr.compStack = none ∨ e.mgr.compStack = e.sid) :
    ∃ e' ps' t', e.run ops = some e' ∧ MovesAll ops ⟨[], look ps, []⟩ t' ∧ look ps' = t'.cur ∧
      Flat e'.store (countsOf d ps') f ps' ∧
      e'.mgr.canUndo e'.sid = !t'.past.isEmpty ∧ e'.mgr.canRedo e'.sid = !t'.future.isEmpty := by
  have hH : SessionHolds d f (fun _ => False) e (ps, e.store.next "block") ⟨[], look ps, []⟩ :=
    ⟨⟨{}, [], hst, .nil, .nil, rfl, by simp, by simp⟩, hidle, hlv, hcs, rfl, hf.sees hsole⟩
  have main : ∀ (ops : List (Nat × SessionOp)) (P : Nat → Prop) (e : Session) (x : EState)
      (t : Timeline (List SPara)), Spaced ops →
      (∀ b ∈ ops, ∀ px py txt, b.2 = SessionOp.type px py txt → ∀ o, P o → o + mergeWindow < b.1) →
      SessionHolds d f P e x t →
      ∃ e' x' t' Q, e.run ops = some e' ∧ MovesAll ops t t' ∧ SessionHolds d f Q e' x' t' := by
    intro ops
    induction ops with
    | nil => intro P e x t _ _ h; exact ⟨e, x, t, P, rfl, .nil, h⟩
    | cons a ops ih =>
      intro P e x t hsp hlate h
      obtain ⟨now, op⟩ := a
      rw [Spaced, List.pairwise_cons] at hsp
      obtain ⟨e1, x1, t1, g1, g2, _, g3⟩ := session_step now op h0 h1 h
        (fun px py txt hop o ho => hlate (now, op) (by simp) px py txt hop o ho)
      obtain ⟨e', x', t', Q, k1, k2, k3⟩ := ih (overTimes P now op) e1 x1 t1 hsp.2 (by
        intro b hb px py txt hbt o ho
        rcases ho with ho | ⟨rfl, qx, qy, qt, hop, hne⟩
        · exact hlate b (by simp [hb]) px py txt hbt o ho
        · exact hsp.1 b hb qx qy qt px py txt hop hne hbt) g2
      exact ⟨e', x', t', Q, by simp [Session.run, g1, k1], .cons g3 k2, k3⟩
  obtain ⟨e', x', t', Q, g1, g2, g3⟩ := main ops _ e _ _ hsp (fun _ _ _ _ _ _ _ ho => absurd ho id) hH
  exact ⟨e', x'.1, t', g1, g2, g3.cur, g3.sees.flat, g3.flags.1, g3.flags.2⟩

example : ∃ (e : Session) (d : Document) (f : Nat) (ps : List SPara), d.characterCount = 0 ∧ d.blockCount = 0 ∧
    Flat e.store (countsOf d ps) f ps ∧ Sole d.id f e.store ∧ e.mgr.stacks (e.sid.getD 0) = some {} ∧
    e.mgr.comp = none ∧ e.mgr.level = 0 ∧ e.mgr.compStack = none ∧ 2 ≤ ps.length := by
  obtain ⟨s, h1, h2⟩ := sample_flat
  exact ⟨⟨Mgr.new, s, none⟩, { id := 1, frames := [2] }, _, _, rfl, rfl, h1, h2, rfl, rfl, rfl, rfl, by simp⟩

end Verif
