import Verif.Spec.Commands
import Verif.Props.PlainText
/-
C19 (selections over several paragraphs), C20, C26: undo and redo of single commands and of merged
keystrokes.  Documents of one frame without tables and images.
-/
namespace Verif
variable {s s' : Store} {d : Document} {f : Nat} {ps : List SPara}

/-! ## C19 -/

theorem countsOf_look {ps qs : List SPara} (h : look ps = look qs) : countsOf d ps = countsOf d qs := by
  have e1 : charTotal ps = charTotal qs := by
    have := congrArg charTotal h
    simpa [charTotal, look, Function.comp_def] using this
  have e2 : ps.length = qs.length := by
    have := congrArg List.length h
    simpa [look] using this
  simp [countsOf, e1, e2]

theorem docText_look {ps qs : List SPara} (h : look ps = look qs) : docText ps = docText qs := by
  have := congrArg docText h
  have e : ∀ qs : List SPara, docText (look qs) = docText qs := by
    intro qs; simp only [docText, look, List.map_map]; rfl
  rw [e, e] at this; exact this

/-- Typing over any selection, also over several paragraphs (where the cursor deletes and types in
one group): the same document, counts, text and caret as deleting the selection and then typing. -/
theorem C19_type_over (e : Session) (hf : Flat e.store (countsOf d ps) f ps)
    (hs : Sole d.id f e.store) (hst : e.mgr.stacks (e.sid.getD 0) = some {}) (hidle : e.mgr.comp = none)
    (hlv : e.mgr.level = 0) (hcs : e.mgr.compStack = none ∨ e.mgr.compStack = e.sid)
    (x y lo hi : Nat) (hlo : lo = min x y) (hhi : hi = max x y) (hle : hi ≤ docLen ps) (t : List Char)
    (now now' : Nat) :
    ∃ e1 e2 e3 ps1 ps3, e.cursorInsert x y t now = some (e1, ((lo + t.length : Nat) : Int)) ∧
      e.delete x y now = some (e2, (lo : Int)) ∧
      e2.cursorInsert lo lo t now' = some (e3, ((lo + t.length : Nat) : Int)) ∧
      Flat e1.store (countsOf d ps1) f ps1 ∧ Flat e3.store (countsOf d ps3) f ps3 ∧
      look ps1 = typeAt lo t (deleteBetween lo hi (look ps)) ∧ look ps3 = look ps1 ∧
      e3.store.exportPlainText = e1.store.exportPlainText ∧
      e3.store.documents d.id = e1.store.documents d.id := by
  subst hlo hhi
  have hH : SessionHolds d f (fun _ => False) e (ps, e.store.next "block") ⟨[], look ps, []⟩ :=
    ⟨⟨{}, [], hst, .nil, .nil, rfl, by simp, by simp⟩, hidle, hlv, hcs, rfl, hf.sees hs⟩
  obtain ⟨e1, x1, t1, a1, a2, a3, a4, a5⟩ := step_type x y t now (P := fun _ => x ≠ y)
    (hH.mono (fun _ h => absurd h id)) hle (fun h => h) (fun h1 _ h2 => absurd h1 h2)
  obtain ⟨e2, x2, t2, b1, b2, b3, b4, b5⟩ := step_erase x y now hH hle
  have hlen : docLen x2.1 = docLen (deleteBetween (min x y) (max x y) ps) := by
    rw [← docLen_look, b4, deleteBetween_look, docLen_look]
  have hdl := docLen_deleteBetween (lo := min x y) (hi := max x y) hf.nonempty (by omega) hle
  obtain ⟨e3, x3, t3, c1, c2, c3, c4, c5⟩ := step_type (min x y) (min x y) t now' b2 (by omega)
    (fun h => absurd rfl h) (fun _ _ h => absurd h id)
  have hl : look x3.1 = look x1.1 := by
    rw [c4, a4, b4]; simp only [Nat.min_self, Nat.max_self, deleteBetween_self]
  have f1 : Flat e1.store (countsOf d x1.1) f x1.1 := a2.sees.flat
  have f3 : Flat e3.store (countsOf d x3.1) f x3.1 := c2.sees.flat
  refine ⟨e1, e2, e3, x1.1, x3.1, a1, b1, by simpa using c1, f1, f3, a4, hl, ?_, ?_⟩
  · rw [export_flat f1, export_flat f3, docText_look hl]
  · rw [show e3.store.documents d.id = _ from f3.document, show e1.store.documents d.id = _ from f1.document,
      countsOf_look hl]

example : ∃ (e : Session) (ps : List SPara) (d : Document) (f : Nat), Flat e.store (countsOf d ps) f ps ∧
    Sole d.id f e.store ∧ e.mgr.stacks (e.sid.getD 0) = some {} ∧ e.mgr.comp = none ∧ e.mgr.level = 0 ∧
    e.mgr.compStack = none ∧ 4 ≤ docLen ps := by
  obtain ⟨s, h1, h2⟩ := sample_flat
  exact ⟨⟨Mgr.new, s, none⟩, _, _, _, h1, h2, rfl, rfl, rfl, rfl, by simp [docLen, plainPara, styled]⟩

/-! ## C20 -/

theorem Request.exec {x : EState} {r : Request} {now : Nat} {c : EditCmd} (h : Sees d f s x)
    (hr : r.inRange x.1) (hrun : r.run s now = some (s', c)) :
    ∃ x', Sees d f s' x' ∧ EditDone d f c x x' ∧ look x'.1 = r.apply (look x.1) := by
  cases r with
  | insert px py t =>
    simp only [Request.run, Option.map_eq_some_iff] at hrun
    obtain ⟨⟨s1, c1⟩, hrun, he⟩ := hrun
    cases he
    by_cases hsame : (deleteBetween (min px py) (max px py) x.1).length = x.1.length
    · obtain ⟨s2, c2, x', e1, e2, e3, e4, e5, e6, e7⟩ := runInsert_some h px py t now hr hsame
      rw [e1] at hrun; cases hrun
      exact ⟨x', e2, e3, by rw [e4, ← typeAt_look, ← deleteBetween_look]; rfl⟩
    · have := refused h px py t hr hsame
      simp [runInsert, this] at hrun
  | delete px py =>
    simp only [Request.run, Option.map_eq_some_iff] at hrun
    obtain ⟨⟨s1, c1⟩, hrun, he⟩ := hrun
    cases he
    obtain ⟨s2, c2, x', e1, e2, e3, e4, e5, e6, e7⟩ := runDelete_some h px py now hr
    rw [e1] at hrun; cases hrun
    exact ⟨x', e2, e3, by rw [e4, ← deleteBetween_look]; rfl⟩
  | split px =>
    simp only [Request.run, Option.map_eq_some_iff] at hrun
    obtain ⟨⟨s1, c1, r1⟩, hrun, he⟩ := hrun
    cases he
    obtain ⟨s2, c2, r2, x', e1, e2, e3, ⟨new, e4⟩, e5⟩ := runBlock_some h px hr
    rw [e1] at hrun; cases hrun
    exact ⟨x', e2, e3, by rw [e4, ← splitPara_look]; rfl⟩

/-- Undo right after a call gives back the very paragraphs (text, formats, identities) and counts it
started from; redo then gives the document the call had produced, and so on. -/
theorem C20_undo_redo_partial (h : Flat s (countsOf d ps) f ps) (hs : Sole d.id f s) {r : Request}
    {now : Nat} {c : EditCmd} (hr : r.inRange ps) (hrun : r.run s now = some (s', c)) :
    ∃ ps', Flat s' (countsOf d ps') f ps' ∧ look ps' = r.apply (look ps) ∧
    ∃ c1 s1, c.undo s' = (true, c1, s1) ∧ Flat s1 (countsOf d ps) f ps ∧
    ∃ c2 s2 ps2, c1.redo s1 = (true, c2, s2) ∧ Flat s2 (countsOf d ps2) f ps2 ∧ look ps2 = look ps' ∧
    ∃ c3 s3, c2.undo s2 = (true, c3, s3) ∧ Flat s3 (countsOf d ps) f ps := by
  obtain ⟨x', e1, e2, e3⟩ := Request.exec (h.sees hs) hr hrun
  obtain ⟨c1, s1, g1, g2, g3, _⟩ := edit_undo_ok e2 e1
  obtain ⟨c2, s2, x2, k1, k2, k3, k4, _⟩ := edit_redo_ok (x := (ps, s.next "block")) g3 g2
  obtain ⟨c3, s3, l1, l2, _⟩ := edit_undo_ok k4 k2
  exact ⟨x'.1, e1.flat, e3, c1, s1, g1, g2.flat, c2, s2, x2.1, k1, k2.flat, k3, c3, s3, l1, l2.flat⟩

/-- In particular the plain text comes back, and comes back again. -/
theorem C20_plain_text_partial (h : Flat s (countsOf d ps) f ps) (hs : Sole d.id f s) {r : Request}
    {now : Nat} {c : EditCmd} (hr : r.inRange ps) (hrun : r.run s now = some (s', c)) :
    ∃ c1 s1 c2 s2, c.undo s' = (true, c1, s1) ∧ s1.exportPlainText = s.exportPlainText ∧
      s1.documents d.id = s.documents d.id ∧
      c1.redo s1 = (true, c2, s2) ∧ s2.exportPlainText = s'.exportPlainText ∧
      s2.documents d.id = s'.documents d.id := by
  obtain ⟨ps', a1, a2, c1, s1, b1, b2, c2, s2, ps2, k1, k2, k3, _⟩ := C20_undo_redo_partial h hs hr hrun
  have hdoc : ∀ {s : Store} {qs : List SPara}, Flat s (countsOf d qs) f qs →
      s.documents d.id = some (countsOf d qs) := fun h => h.document
  have hcnt : countsOf d ps2 = countsOf d ps' := countsOf_look k3
  have htxt : docText ps2 = docText ps' := docText_look k3
  exact ⟨c1, s1, c2, s2, b1, by rw [export_flat b2, export_flat h], by rw [hdoc b2, hdoc h], k1,
    by rw [export_flat k2, export_flat a1, htxt], by rw [hdoc k2, hdoc a1, hcnt]⟩

example : ∃ (s s' : Store) (c : EditCmd), Flat s (countsOf { id := 1, frames := [2] }
      [plainPara 2 ['a', 'b'], plainPara 3 ['c', 'd']]) 2 [plainPara 2 ['a', 'b'], plainPara 3 ['c', 'd']] ∧
    Sole 1 2 s ∧ (Request.delete 1 4).run s 0 = some (s', c) ∧
    (Request.delete 1 4).inRange [plainPara 2 ['a', 'b'], plainPara 3 ['c', 'd']] := by
  obtain ⟨s, h1, h2⟩ := sample_flat
  have hr : (Request.delete 1 4).inRange [plainPara 2 ['a', 'b'], plainPara 3 ['c', 'd']] := by
    simp [Request.inRange, docLen, plainPara, styled]
  obtain ⟨s', c, _, e1, _⟩ := runDelete_some (h1.sees h2) 1 4 0 hr
  exact ⟨s, s', .delete c, h1, h2, by simp only [Request.run, e1, Option.map_some], hr⟩

/-! ## C26 -/

/-- Which two calls are merged: typing where the first typing ended, without a selection, together at
most 200 characters; or deleting one position each, in the same direction and at the same place; in
either case within two seconds.  (For calls on a document the first one left.) -/
theorem C26_merge_only_adjacent {s0 : Store} (h : Flat s (countsOf d ps) f ps) (hs : Sole d.id f s)
    {r r' : Request} {n n' : Nat} {c c' : EditCmd} (hr : r.inRange ps)
    (hrun : r.run s n = some (s', c)) (hrun' : r'.run s' n' = some (s0, c'))
    (hm : editApi.canMerge c c' = true) :
    n' ≤ n + mergeWindow ∧
    ((∃ x y t z t', r = .insert x y t ∧ r' = .insert z z t' ∧ z = min x y + t.length ∧
        t.length + t'.length ≤ 200) ∨
     (∃ x, r = .delete x (x + 1) ∧ r' = .delete x (x + 1)) ∨
     (∃ x, r = .delete (x + 2) (x + 1) ∧ r' = .delete (x + 1) x)) := by
  cases r with
  | split x =>
    simp only [Request.run, Option.map_eq_some_iff] at hrun
    obtain ⟨⟨s1, c1⟩, _, he⟩ := hrun
    cases he; simp [editApi] at hm
  | insert x y t =>
    cases r' with
    | split z =>
      simp only [Request.run, Option.map_eq_some_iff] at hrun hrun'
      obtain ⟨⟨s1, c1⟩, _, he⟩ := hrun
      obtain ⟨⟨s2, c2⟩, _, he'⟩ := hrun'
      cases he; cases he'; simp [editApi] at hm
    | delete z w =>
      simp only [Request.run, Option.map_eq_some_iff] at hrun hrun'
      obtain ⟨⟨s1, c1⟩, _, he⟩ := hrun
      obtain ⟨⟨s2, c2⟩, _, he'⟩ := hrun'
      cases he; cases he'; simp [editApi] at hm
    | insert z w t' =>
      have hpos : ∀ c1, c = .insert c1 → c1.result.newPosition = ((min x y + t.length : Nat) : Int) ∧
          c1.dto = ⟨x, y, t⟩ ∧ c1.time = n := by
        intro c1 hc1
        simp only [Request.run, Option.map_eq_some_iff] at hrun
        obtain ⟨⟨s1, c2⟩, hrun, he⟩ := hrun
        subst hc1; cases he
        by_cases hsame : (deleteBetween (min x y) (max x y) ps).length = ps.length
        · obtain ⟨s2, c2, x', e1, e2, e3, e4, e5, e6, e7⟩ := runInsert_some (h.sees hs) x y t n hr hsame
          rw [e1] at hrun
          cases hrun
          refine ⟨e5, ?_, e7⟩
          simp only [runInsert, Option.map_eq_some_iff] at e1
          obtain ⟨a, _, ha⟩ := e1
          cases ha; rfl
        · have := refused (h.sees hs) x y t hr hsame
          simp [runInsert, this] at hrun
      simp only [Request.run, Option.map_eq_some_iff] at hrun hrun'
      obtain ⟨⟨s1, c1⟩, hrun, he⟩ := hrun
      obtain ⟨⟨s2, c2⟩, hrun', he'⟩ := hrun'
      cases he; cases he'
      obtain ⟨p1, p2, p3⟩ := hpos c1 rfl
      simp only [runInsert, Option.map_eq_some_iff] at hrun'
      obtain ⟨a, _, ha⟩ := hrun'
      cases ha
      simp only [editApi, InsertCmd.canMerge, p1, p2, p3] at hm
      split at hm
      · cases hm
      split at hm
      · cases hm
      split at hm
      · cases hm
      split at hm
      · cases hm
      rename_i h1 h2 h3 h4
      simp only [decide_eq_true_eq, Decidable.not_not] at h2 h3
      have hzw : z = w := by omega
      subst hzw
      exact ⟨by omega, Or.inl ⟨x, y, t, z, t', rfl, rfl, by omega, by omega⟩⟩
  | delete x y =>
    cases r' with
    | split z =>
      simp only [Request.run, Option.map_eq_some_iff] at hrun hrun'
      obtain ⟨⟨s1, c1⟩, _, he⟩ := hrun
      obtain ⟨⟨s2, c2⟩, _, he'⟩ := hrun'
      cases he; cases he'; simp [editApi] at hm
    | insert z w t =>
      simp only [Request.run, Option.map_eq_some_iff] at hrun hrun'
      obtain ⟨⟨s1, c1⟩, _, he⟩ := hrun
      obtain ⟨⟨s2, c2⟩, _, he'⟩ := hrun'
      cases he; cases he'; simp [editApi] at hm
    | delete z w =>
      obtain ⟨s2, c2, x', e1, e2, e3, e4, e5, e6, e7⟩ := runDelete_some (h.sees hs) x y n hr
      simp only [Request.run, Option.map_eq_some_iff] at hrun hrun'
      obtain ⟨⟨s1, c1⟩, hrun, he⟩ := hrun
      obtain ⟨⟨s3, c3⟩, hrun', he'⟩ := hrun'
      cases he; cases he'
      rw [e1] at hrun; cases hrun
      simp only [runDelete, Option.map_eq_some_iff] at hrun' e1
      obtain ⟨a, _, ha⟩ := hrun'
      obtain ⟨b, _, hb⟩ := e1
      cases ha; cases hb
      simp only at e5
      simp only [editApi, DeleteCmd.canMerge, e5] at hm
      split at hm
      · cases hm
      split at hm
      · cases hm
      split at hm
      · cases hm
      split at hm
      · cases hm
      split at hm
      · cases hm
      split at hm
      · cases hm
      rename_i h1 h2 h3 h4 h5 h6
      simp at h2 h3 h4
      refine ⟨by omega, Or.inr ?_⟩
      by_cases hxy : y < x
      · right
        have hzw : w < z := by have := h4.mp (by omega); omega
        have : ¬ (max (z : Int) w ≠ ((min x y : Nat) : Int)) := fun hh => h5 ⟨by omega, hh⟩
        refine ⟨w, ?_, ?_⟩
        · congr 1 <;> omega
        · congr 1; omega
      · left
        have hzw : ¬ w < z := by intro hh; have := h4.mpr (by omega); omega
        have : ¬ (min (z : Int) w ≠ ((min x y : Nat) : Int)) := fun hh => h6 ⟨by omega, hh⟩
        refine ⟨x, ?_, ?_⟩
        · congr 1; omega
        · congr 1 <;> omega

/-- Undoing two merged calls reverts both, and redoing yields what the two calls in a row gave.  The
first call must not have been typing over a selection. -/
theorem C26_merged_partial {s0 : Store} (h : Flat s (countsOf d ps) f ps) (hs : Sole d.id f s)
    {r r' : Request} {n n' : Nat} {c c' : EditCmd} (hr : r.inRange ps)
    (hover : ∀ x y t, r = .insert x y t → x = y)
    (hrun : r.run s n = some (s', c)) (hr' : r'.inRange (r.apply (look ps)))
    (hrun' : r'.run s' n' = some (s0, c')) (hm : editApi.canMerge c c' = true) :
    ∃ m, editApi.merge c c' = (true, m) ∧
    ∃ m1 s1, m.undo s0 = (true, m1, s1) ∧ Flat s1 (countsOf d ps) f ps ∧
    ∃ m2 s2 ps2, m1.redo s1 = (true, m2, s2) ∧ Flat s2 (countsOf d ps2) f ps2 ∧
      look ps2 = r'.apply (r.apply (look ps)) := by
  obtain ⟨x', e1, e2, e3⟩ := Request.exec (h.sees hs) hr hrun
  have hin : r'.inRange x'.1 := by
    rw [← e3] at hr'
    cases r' <;> simpa only [Request.inRange, docLen_look] using hr'
  obtain ⟨x'', g1, g2, g3⟩ := Request.exec e1 hin hrun'
  have hmark : editMark c = none := by
    cases r with
    | insert x y t =>
      simp only [Request.run, Option.map_eq_some_iff] at hrun
      obtain ⟨⟨s1, c1⟩, hrun, he⟩ := hrun
      cases he
      simp only [runInsert, Option.map_eq_some_iff] at hrun
      obtain ⟨a, _, ha⟩ := hrun
      cases ha
      simp [editMark, hover x y t rfl]
    | delete x y =>
      simp only [Request.run, Option.map_eq_some_iff] at hrun
      obtain ⟨⟨s1, c1⟩, hrun, he⟩ := hrun
      cases he; rfl
    | split x =>
      simp only [Request.run, Option.map_eq_some_iff] at hrun
      obtain ⟨⟨s1, c1⟩, hrun, he⟩ := hrun
      cases he; rfl
  obtain ⟨k1, k2, _⟩ := (editContract d f).merge_ok hmark e2 g2 hm
  refine ⟨(editApi.merge c c').2, by rw [← k1], ?_⟩
  obtain ⟨m1, s1, l1, l2, l3, _⟩ := edit_undo_ok k2 g1
  obtain ⟨m2, s2, x2, o1, o2, o3, o4, _⟩ := edit_redo_ok (x := (ps, s.next "block")) l3 l2
  exact ⟨m1, s1, l1, l2.flat, m2, s2, x2.1, o1, o2.flat, by rw [o3, g3, e3]⟩

/-- Two letters typed one after the other are such a pair. -/
example : ∃ (s s' s0 : Store) (c c' : EditCmd), Flat s (countsOf { id := 1, frames := [2] }
      [plainPara 2 ['a', 'b'], plainPara 3 ['c', 'd']]) 2 [plainPara 2 ['a', 'b'], plainPara 3 ['c', 'd']] ∧
    Sole 1 2 s ∧ (Request.insert 1 1 ['x']).run s 0 = some (s', c) ∧
    (Request.insert 2 2 ['y']).run s' 1 = some (s0, c') ∧ editApi.canMerge c c' = true := by
  obtain ⟨s, h1, h2⟩ := sample_flat
  obtain ⟨s', c, x', e1, e2, e3, e4, e5, e6, e7⟩ := runInsert_some (h1.sees h2) 1 1 ['x'] 0
    (by simp [docLen, plainPara, styled]) (by simp [deleteBetween_self])
  obtain ⟨s0, c', x'', g1, g2, g3, g4, g5, g6, g7⟩ := runInsert_some e2 2 2 ['y'] 1
    (by rw [e4]; simp [deleteBetween_self, typeAt, docLen, plainPara, styled]) (by simp [deleteBetween_self])
  refine ⟨s, s', s0, .insert c, .insert c', h1, h2, by simp only [Request.run, e1, Option.map_some],
    by simp only [Request.run, g1, Option.map_some], ?_⟩
  have d1 : c.dto = ⟨(1 : Nat), (1 : Nat), ['x']⟩ := by
    simp only [runInsert, Option.map_eq_some_iff] at e1
    obtain ⟨a, _, ha⟩ := e1
    cases ha; rfl
  have d2 : c'.dto = ⟨(2 : Nat), (2 : Nat), ['y']⟩ := by
    simp only [runInsert, Option.map_eq_some_iff] at g1
    obtain ⟨a, _, ha⟩ := g1
    cases ha; rfl
  simp only [editApi, InsertCmd.canMerge, d1, d2, e5, e7, g6, g7]
  decide

/-- Typing merged into typing over a selection: "ab", "x" typed over "a", "y" typed after it, undo,
redo gives "xyab" instead of "xyb". -/
theorem C26_type_over_fails : ∃ e e' e'',
    (Session.new.bind fun e => e.live [.load ['a', 'b'], .act 0 (.type 0 1 ['x']), .act 1 (.type 1 1 ['y'])]) = some e ∧
    e.store.exportPlainText = some ['x', 'y', 'b'] ∧
    e.live [.act 2 .undo] = some e' ∧ e'.store.exportPlainText = some ['a', 'b'] ∧
    e'.live [.act 3 .redo] = some e'' ∧ e''.store.exportPlainText = some ['x', 'y', 'a', 'b'] :=
  ⟨_, _, _, rfl, rfl, rfl, rfl, rfl, rfl⟩

end Verif
