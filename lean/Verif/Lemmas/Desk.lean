import Verif.Spec.Desk
import Verif.Lemmas.Moves
import Verif.Props.Session
/- Editing through cursors. -/
namespace Verif
open Store
variable {s : Store} {d : Document} {f : Nat} {ps : List SPara} {seg : Segmenter} {x x' : EState}

theorem Idle.add {e : Session} (h : Idle e) (c : EditCmd) (s' : Store) :
    ∃ m, e.mgr.add editApi c e.sid = (true, m) ∧ Idle ⟨m, s', e.sid⟩ := by
  obtain ⟨st, hst⟩ := Option.isSome_iff_exists.mp h.stack
  unfold Mgr.add
  rw [h.comp, hst]
  dsimp only
  have hi : ∀ st', Idle ⟨e.mgr.setStack (e.sid.getD 0) (some st'), s', e.sid⟩ := fun st' =>
    ⟨by simp [Mgr.setStack], h.comp, h.level, h.owner⟩
  cases hu : st.undo with
  | nil => exact ⟨_, rfl, hi _⟩
  | cons a rest =>
    dsimp only
    rcases tryMerge editApi a c with ⟨b, e'⟩
    cases b with
    | true => exact ⟨_, rfl, hi _⟩
    | false => exact ⟨_, rfl, hi _⟩

/-- A group of two commands is recorded. -/
theorem Idle.group {e : Session} (h : Idle e) (a b : EditCmd) (s' : Store) :
    ∃ m, Mgr.end { e.begin.mgr with comp := some (e.sid.getD 0, [a, b]) } = some m ∧ Idle ⟨m, s', e.sid⟩ := by
  obtain ⟨st, hst⟩ := Option.isSome_iff_exists.mp h.stack
  have hb : e.begin.mgr = { e.mgr with compStack := e.sid, level := 1, comp := some (e.sid.getD 0, []) } := by
    unfold Session.begin Mgr.begin
    rw [if_neg]
    · simp [h.comp, h.level]
    · rcases h.owner with h | h <;> simp [h]
  rw [hb]
  unfold Mgr.end
  simp only [hst]
  refine ⟨_, rfl, ?_⟩
  exact ⟨by simp [Mgr.setStack], rfl, rfl, .inr rfl⟩

theorem begin_open {e : Session} (h : Idle e) : e.begin.mgr.comp = some (e.sid.getD 0, []) :=
  begin_comp h.comp h.owner

theorem calm_type {e : Session} (px py : Nat) (txt : List Char) (now : Nat) (hi : Idle e)
    (hS : Sees d f e.store x) (hle : max px py ≤ docLen x.1) :
    ∃ e' x', e.cursorInsert px py txt now = some (e', ((min px py + txt.length : Nat) : Int)) ∧
      Idle e' ∧ Sees d f e'.store x' ∧ e'.sid = e.sid ∧
      x'.1 = typeAt (min px py) txt (deleteBetween (min px py) (max px py) x.1) := by
  by_cases hsame : (deleteBetween (min px py) (max px py) x.1).length = x.1.length
  · obtain ⟨s', c, x', e1, e2, e3, e4, e5, e6, e7⟩ := runInsert_some hS px py txt now hle hsame
    obtain ⟨m, g1, g2⟩ := hi.add (.insert c) s'
    refine ⟨⟨m, s', e.sid⟩, x', ?_, g2, e2, rfl, e4⟩
    simp only [Session.cursorInsert, Session.insert, e1, Option.bind_some, g1, e5]
  · have hno := refused hS px py txt hle hsame
    have hxy : px ≠ py := by
      intro hh; subst hh; simp [deleteBetween_self] at hsame
    have hbc := begin_open hi
    obtain ⟨s1, c1, x1, e1, e2, e3, e4, e5, e6⟩ := runDelete_some hS px py now hle
    have hlen := docLen_deleteBetween (lo := min px py) (hi := max px py) hS.flat.nonempty (by omega) hle
    rw [← e4] at hlen
    obtain ⟨s2, c2, x2, k1, k2, k3, k4, k5, _⟩ := runInsert_some e2 (min px py) (min px py) txt now
      (by omega) (by simp [deleteBetween_self])
    simp only [Nat.min_self, Nat.max_self, deleteBetween_self] at k4 k5
    obtain ⟨m, g1, g2⟩ := hi.group (.delete c1) (.insert c2) s2
    have hins : e.insert px py txt now = none := by
      simp [Session.insert, runInsert, hno]
    refine ⟨⟨m, s2, e.sid⟩, x2, ?_, g2, k2, rfl, ?_⟩
    · unfold Session.cursorInsert
      rw [hins]
      simp only
      rw [if_neg hxy]
      have hbs : e.begin.sid = e.sid := rfl
      have hbt : e.begin.store = e.store := rfl
      simp only [Session.delete, hbt, e1, Option.bind_some, hbs, add_open _ hbc, e5]
      rw [if_neg (by omega)]
      simp only [Session.insert, Int.toNat_natCast, k1, Option.bind_some]
      rw [add_open (cs := [.delete c1]) _ (by simp)]
      simp only [Option.bind_some, Session.end, k5]
      simp only [List.cons_append, List.nil_append] at g1 ⊢
      rw [g1]
      rfl
    · rw [k4, e4]

theorem calm_erase {e : Session} (px py : Nat) (now : Nat) (hi : Idle e)
    (hS : Sees d f e.store x) (hle : max px py ≤ docLen x.1) :
    ∃ e' x', e.delete px py now = some (e', ((min px py : Nat) : Int)) ∧
      Idle e' ∧ Sees d f e'.store x' ∧ e'.sid = e.sid ∧ x'.1 = deleteBetween (min px py) (max px py) x.1 := by
  obtain ⟨s', c, x', e1, e2, e3, e4, e5, e6, e7⟩ := runDelete_some hS px py now hle
  obtain ⟨m, g1, g2⟩ := hi.add (.delete c) s'
  refine ⟨⟨m, s', e.sid⟩, x', ?_, g2, e2, rfl, e4⟩
  simp only [Session.delete, e1, Option.bind_some, g1, e5]

theorem calm_enter {e : Session} (px py : Nat) (now : Nat) (hi : Idle e)
    (hS : Sees d f e.store x) (hle : max px py ≤ docLen x.1) :
    ∃ e' x' new, e.cursorSplit px py now = some (e', ((min px py + 1 : Nat) : Int)) ∧
      Idle e' ∧ Sees d f e'.store x' ∧ e'.sid = e.sid ∧
      x'.1 = splitPara (min px py) new (deleteBetween (min px py) (max px py) x.1) := by
  by_cases hxy : px = py
  · subst hxy
    simp only [Nat.min_self, Nat.max_self, deleteBetween_self] at hle ⊢
    obtain ⟨s', c, r, x', e1, e2, e3, ⟨new, e4⟩, e5⟩ := runBlock_some hS px hle
    obtain ⟨m, g1, g2⟩ := hi.add (.block c) s'
    refine ⟨⟨m, s', e.sid⟩, x', new, ?_, g2, e2, rfl, e4⟩
    simp only [Session.cursorSplit, if_true, Session.split, e1, Option.bind_some, g1, e5]
  · have hbc := begin_open hi
    obtain ⟨s1, c1, x1, e1, e2, e3, e4, e5, e6⟩ := runDelete_some hS px py now hle
    have hlen := docLen_deleteBetween (lo := min px py) (hi := max px py) hS.flat.nonempty (by omega) hle
    rw [← e4] at hlen
    obtain ⟨s2, c2, r2, x2, k1, k2, k3, ⟨new, k4⟩, k5⟩ := runBlock_some e2 (min px py) (by omega)
    obtain ⟨m, g1, g2⟩ := hi.group (.delete c1) (.block c2) s2
    refine ⟨⟨m, s2, e.sid⟩, x2, new, ?_, g2, k2, rfl, ?_⟩
    · unfold Session.cursorSplit
      rw [if_neg hxy]
      have hbs : e.begin.sid = e.sid := rfl
      have hbt : e.begin.store = e.store := rfl
      simp only [Session.delete, hbt, e1, Option.bind_some, hbs, add_open _ hbc, e5]
      rw [if_neg (by omega)]
      simp only [Session.split, Int.toNat_natCast, k1, Option.bind_some]
      rw [add_open (cs := [.delete c1]) _ (by simp)]
      simp only [Option.bind_some, Session.end, k5]
      simp only [List.cons_append, List.nil_append] at g1 ⊢
      rw [g1]
      rfl
    · rw [k4, e4]

/-! ### Lengths -/

theorem docLen_typeAt (t : List Char) {pos : Nat} (hne : ps ≠ []) (h : pos ≤ docLen ps) :
    docLen (typeAt pos t ps) = docLen ps + t.length := by
  rw [← docChars_length, docChars_typeAt t hne h]
  rw [← docChars_length] at h ⊢
  simp [styled]; omega

theorem docLen_splitPara (new : Nat) {pos : Nat} (hne : ps ≠ []) (h : pos ≤ docLen ps) :
    docLen (splitPara pos new ps) = docLen ps + 1 := by
  rw [← docChars_length, docChars_splitPara new hne h]
  rw [← docChars_length] at h ⊢
  simp; omega

theorem carried_adjust (at_ removed added x : Nat) : adjustOffset x at_ removed added = carried at_ removed added x := by
  unfold adjustOffset carried
  repeat' split
  all_goals omega

theorem carried_le {at_ removed added x n : Nat} (h1 : at_ + removed ≤ n) (h2 : x ≤ n) :
    carried at_ removed added x ≤ n - removed + added := by
  unfold carried
  repeat' split
  all_goals omega

theorem cursorsAfter_le {cs : List Cursor} {i at_ removed added n : Nat} (h1 : at_ + removed ≤ n)
    (h : ∀ c ∈ cs, c.position ≤ n ∧ c.anchor ≤ n) :
    ∀ c ∈ cursorsAfter cs i at_ removed added, c.position ≤ n - removed + added ∧ c.anchor ≤ n - removed + added := by
  intro c hc
  rcases List.mem_or_eq_of_mem_set hc with hc | rfl
  · obtain ⟨c0, h0, rfl⟩ := List.mem_map.mp hc
    exact ⟨carried_le h1 (h c0 h0).1, carried_le h1 (h c0 h0).2⟩
  · constructor <;> dsimp only <;> omega

theorem adjust_eq (cs : List Cursor) (i at_ removed added : Nat) :
    (adjustCursors cs at_ removed added).set i ⟨at_ + added, at_ + added, false⟩ = cursorsAfter cs i at_ removed added := by
  unfold adjustCursors cursorsAfter
  simp only [carried_adjust]

theorem DeskOk.max {k : Desk} (h0 : d.characterCount = 0) (h1 : d.blockCount = 0) (h : DeskOk d f k ps) :
    maxCursor k.session.store = some (docLen ps) := maxCursor_eq (h.flat.sees h.sole) h0 h1

theorem noCells_of_sole {D : Nat} (h : Sole D f s) : NoCells s f := by
  intro k c e; rw [h.cells k] at e; cases e

/-- A stretch deleted through a cursor. -/
theorem doDelete_ok {k : Desk} (h : DeskOk d f k ps) (i px py now : Nat) (hle : max px py ≤ docLen ps) :
    ∃ k', k.doDelete i px py now = some k' ∧
      DeskOk d f k' (deleteBetween (min px py) (max px py) ps) ∧
      k'.cursors = cursorsAfter k.cursors i (min px py) (max px py - min px py) 0 := by
  obtain ⟨e', x', g1, g2, g3, g4, g5⟩ := calm_erase px py now h.idle (h.flat.sees h.sole) hle
  dsimp only at g5
  have hlen := docLen_deleteBetween (lo := min px py) (hi := max px py) h.flat.nonempty (by omega) hle
  refine ⟨⟨e', cursorsAfter k.cursors i (min px py) (max px py - min px py) 0⟩, ?_, ?_, rfl⟩
  · unfold Desk.doDelete
    rw [g1, Option.bind_some]
    dsimp only
    rw [if_neg (by omega), Int.toNat_natCast, ← adjust_eq, Nat.add_zero]
  · refine ⟨?_, ?_, g2, ?_⟩
    · rw [← g5]; exact g3.flat
    · exact g3.sole
    · have := cursorsAfter_le (i := i) (at_ := min px py) (removed := max px py - min px py) (added := 0) (n := docLen ps)
        (by omega) h.inside
      intro c hc
      have := this c hc
      omega

end Verif
