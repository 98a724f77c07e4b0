import Verif.Spec.LongOps
import Verif.Lemmas.LongOps

/-!
C46: background operations follow their life cycle.

A schedule is any interleaving of the steps of the callers and of the
operations' threads.
-/
namespace Verif

open LongOps

/-! ### Ids -/

theorem opName_inj {a b : Nat} (h : opName a = opName b) : a = b := by
  have h1 : (toString a : String) = toString b := by
    have := congrArg String.toList h
    unfold opName at this
    rw [String.toList_append, String.toList_append] at this
    exact String.toList_inj.1 (List.append_cancel_left this)
  have h2 : Nat.toDigits 10 a = Nat.toDigits 10 b := by
    have := congrArg String.toList h1
    simpa [toString, Nat.repr] using this
  have := congrArg (Nat.ofDigitChars 10 · 0) h2
  simpa only [Nat.ofDigitChars_ten_toDigits] using this

theorem issued_above (acts : List Act) (s : Sys) :
    ∀ n ∈ issued s acts, ∃ k, s.next < k ∧ n = opName k := by
  induction acts generalizing s with
  | nil => intro n hn; cases hn
  | cons a as ih =>
    intro n hn
    unfold issued at hn
    split at hn
    · cases hn
    · rename_i s' hs
      have hnext := step_next hs
      rcases List.mem_append.1 hn with h | h
      · by_cases ha : a = .alloc
        · rw [if_pos ha] at h
          rw [if_pos ha] at hnext
          refine ⟨s'.next, by omega, by simpa using h⟩
        · rw [if_neg ha] at h
          cases h
      · obtain ⟨k, hk, rfl⟩ := ih s' n h
        refine ⟨k, ?_, rfl⟩
        split at hnext <;> omega

theorem issued_nodup (acts : List Act) (s : Sys) : (issued s acts).Nodup := by
  induction acts generalizing s with
  | nil => simp [issued]
  | cons a as ih =>
    unfold issued
    split
    · simp
    · rename_i s' hs
      by_cases ha : a = .alloc
      · rw [if_pos ha]
        refine List.nodup_cons.2 ⟨?_, ih s'⟩
        intro hm
        obtain ⟨k, hk, he⟩ := issued_above as s' _ hm
        have := opName_inj he
        omega
      · rw [if_neg ha]
        exact ih s'

/-- C46: the ids handed out by `start_operation` are all different, in every
schedule. -/
theorem C46_ids (acts : List Act) : (issued Sys.init acts).Nodup := issued_nodup acts _

/-- Two starts whose steps interleave. -/
example : issued Sys.init [.alloc, .alloc, .announce 2, .announce 1, .spawn 2, .register 2]
    = ["op_1", "op_2"] := by decide

/-! ### What is known of an operation at each point -/

/-- Some caller stored a result for the operation by hand. -/
def ByHand (id : Nat) (acts : List Act) : Prop := ∃ json, Act.storeResult id json ∈ acts

/-- There is no result, unless somebody stored one by hand. -/
def NoRes (id : Nat) (acts : List Act) (r : Option String) : Prop := r = none ∨ ByHand id acts

/-- What the status announced by a finished thread says. -/
def EndedAs (id : Nat) (acts : List Act) (r : Option String) : Status → Prop
  | .running => False
  | .completed => ∃ j, Act.finish id (.ok j) ∈ acts ∧ (r = j ∨ ByHand id acts)
  | .cancelled => NoRes id acts r
  | .failed e => NoRes id acts r ∧ Act.finish id (.err e) ∈ acts

/-- What is known of an operation whose thread is at a given point. -/
def WorkerOk (id : Nat) (acts : List Act) (st : Status) (r : Option String) : Worker → Prop
  | .none | .executing | .panicked => NoRes id acts r ∧ (st = .running ∨ st = .cancelled)
  | .returned out => NoRes id acts r ∧ (st = .running ∨ st = .cancelled) ∧ Act.finish id out ∈ acts
  | .passed out => NoRes id acts r ∧ (st = .running ∨ st = .cancelled) ∧ Act.finish id out ∈ acts
  | .decided f => (st = .running ∨ st = .cancelled) ∧ EndedAs id acts r f
  | .announced f => (st = .running ∨ st = .cancelled) ∧ EndedAs id acts r f
  | .exited => EndedAs id acts r st

structure Good (id : Nat) (acts : List Act) (v : View) : Prop where
  absent : v.op = none → NoRes id acts v.result
  worker : ∀ o, v.op = some o → WorkerOk id acts o.status v.result o.worker
  flag : ∀ o, v.op = some o → o.status = .cancelled → o.flag = true
  early : ∀ o, v.op = some o → o.stage = .allocated ∨ o.stage = .announced → o.worker = .none
  late : ∀ o, v.op = some o → o.worker = .none → o.stage = .allocated ∨ o.stage = .announced
  seenFlag : ∀ o, v.op = some o → (o.worker = .decided .cancelled ∨ o.worker = .announced .cancelled) →
    o.flag = true
  asked : ∀ o, v.op = some o → o.flag = true → Act.cancelFlag id ∈ acts

theorem ByHand.mono {id : Nat} {acts acts' : List Act} (h : ByHand id acts)
    (hs : ∀ a ∈ acts, a ∈ acts') : ByHand id acts' :=
  let ⟨j, hj⟩ := h
  ⟨j, hs _ hj⟩

theorem NoRes.mono {id : Nat} {acts acts' : List Act} {r : Option String} (h : NoRes id acts r)
    (hs : ∀ a ∈ acts, a ∈ acts') : NoRes id acts' r :=
  h.imp (fun h => h) (fun h => h.mono hs)

theorem EndedAs.mono {id : Nat} {acts acts' : List Act} {r : Option String} {st : Status}
    (h : EndedAs id acts r st) (hs : ∀ a ∈ acts, a ∈ acts') : EndedAs id acts' r st := by
  cases st
  case running => exact h
  case completed =>
    obtain ⟨j, hj, hr⟩ := h
    exact ⟨j, hs _ hj, hr.imp (fun h => h) (fun h => h.mono hs)⟩
  case cancelled => exact NoRes.mono h hs
  case failed => exact ⟨NoRes.mono h.1 hs, hs _ h.2⟩

theorem WorkerOk.mono {id : Nat} {acts acts' : List Act} {r : Option String} {st : Status}
    {w : Worker} (h : WorkerOk id acts st r w) (hs : ∀ a ∈ acts, a ∈ acts') :
    WorkerOk id acts' st r w := by
  cases w
  case none => exact ⟨NoRes.mono h.1 hs, h.2⟩
  case executing => exact ⟨NoRes.mono h.1 hs, h.2⟩
  case panicked => exact ⟨NoRes.mono h.1 hs, h.2⟩
  case returned => exact ⟨NoRes.mono h.1 hs, h.2.1, hs _ h.2.2⟩
  case passed => exact ⟨NoRes.mono h.1 hs, h.2.1, hs _ h.2.2⟩
  case decided => exact ⟨h.1, EndedAs.mono h.2 hs⟩
  case announced => exact ⟨h.1, EndedAs.mono h.2 hs⟩
  case exited => exact EndedAs.mono h hs

theorem cleaned_fields (o : Op) : o.cleaned.status = o.status ∧ o.cleaned.worker = o.worker ∧
    o.cleaned.flag = o.flag ∧ o.cleaned.progress = o.progress ∧
    (o.cleaned.stage = o.stage ∨ o.stage = .registered ∧ o.cleaned.stage = .removed) := by
  unfold Op.cleaned
  split
  · rename_i h; exact ⟨rfl, rfl, rfl, rfl, .inr ⟨h.1, rfl⟩⟩
  · exact ⟨rfl, rfl, rfl, rfl, .inl rfl⟩

theorem Good.step {id : Nat} {acts : List Act} {a : Act} {v v' : View} (hg : Good id acts v)
    (h : LStep id a v v') :
    Good id (acts ++ [a]) v' := by
  obtain ⟨h0, hw, hf, he, hl, hd, hq⟩ := hg
  have hm : ∀ x ∈ acts, x ∈ acts ++ [a] := fun x hx => List.mem_append_left _ hx
  have hlast : a ∈ acts ++ [a] := by simp
  cases h with
  | other => exact ⟨fun h => (h0 h).mono hm, fun o ho => (hw o ho).mono hm, hf, he, hl, hd, fun o ho h => hm _ (hq o ho h)⟩
  | alloc =>
    refine ⟨by simp, ?_, ?_, ?_, ?_, ?_, ?_⟩ <;> rintro o ⟨⟩
    · exact ⟨(h0 rfl).mono hm, .inl rfl⟩
    · intro h; cases h
    · intro; rfl
    · intro; exact .inl rfl
    · rintro (h | h) <;> cases h
    · intro h; cases h
  | announce hst =>
    have hw := (hw _ rfl).mono hm
    have hf := hf _ rfl
    have he := he _ rfl
    have hl := hl _ rfl
    have hd := hd _ rfl
    have hq := hq _ rfl
    refine ⟨by simp, ?_, ?_, ?_, ?_, ?_, ?_⟩ <;> rintro o ⟨⟩
    · exact hw
    · exact hf
    · intro; exact he (.inl hst)
    · intro; exact .inr rfl
    · exact hd
    · exact fun h => hm _ (hq h)
  | spawn hst =>
    have hw := (hw _ rfl).mono hm
    have hf := hf _ rfl
    have he := he _ rfl
    have hl := hl _ rfl
    have hd := hd _ rfl
    have hq := hq _ rfl
    rw [he (.inr hst)] at hw
    refine ⟨by simp, ?_, ?_, ?_, ?_, ?_, ?_⟩ <;> rintro o ⟨⟩
    · exact hw
    · exact hf
    · rintro (h | h) <;> cases h
    · intro h; cases h
    · rintro (h | h) <;> cases h
    · exact fun h => hm _ (hq h)
  | register hst =>
    have hw := (hw _ rfl).mono hm
    have hf := hf _ rfl
    have he := he _ rfl
    have hl := hl _ rfl
    have hd := hd _ rfl
    have hq := hq _ rfl
    refine ⟨by simp, ?_, ?_, ?_, ?_, ?_, ?_⟩ <;> rintro o ⟨⟩
    · exact hw
    · exact hf
    · rintro (h | h) <;> cases h
    · intro h
      rcases hl h with h | h <;> rw [hst] at h <;> cases h
    · exact hd
    · exact fun h => hm _ (hq h)
  | report hex =>
    have hw := (hw _ rfl).mono hm
    have hf := hf _ rfl
    have he := he _ rfl
    have hl := hl _ rfl
    have hd := hd _ rfl
    have hq := hq _ rfl
    refine ⟨by simp, ?_, ?_, ?_, ?_, ?_, ?_⟩ <;> rintro o ⟨⟩
    · exact hw
    · exact hf
    · exact he
    · exact hl
    · exact hd
    · exact fun h => hm _ (hq h)
  | finish hex =>
    have hw := (hw _ rfl).mono hm
    have hf := hf _ rfl
    have he := he _ rfl
    have hl := hl _ rfl
    have hd := hd _ rfl
    have hq := hq _ rfl
    rw [hex] at hw
    refine ⟨by simp, ?_, ?_, ?_, ?_, ?_, ?_⟩ <;> rintro o ⟨⟩
    · exact ⟨hw.1, hw.2, hlast⟩
    · exact hf
    · intro h; have := he h; rw [hex] at this; cases this
    · intro h; cases h
    · rintro (h | h) <;> cases h
    · exact fun h => hm _ (hq h)
  | panic hex =>
    have hw := (hw _ rfl).mono hm
    have hf := hf _ rfl
    have he := he _ rfl
    have hl := hl _ rfl
    have hd := hd _ rfl
    have hq := hq _ rfl
    rw [hex] at hw
    refine ⟨by simp, ?_, ?_, ?_, ?_, ?_, ?_⟩ <;> rintro o ⟨⟩
    · exact hw
    · exact hf
    · intro h; have := he h; rw [hex] at this; cases this
    · intro h; cases h
    · rintro (h | h) <;> cases h
    · exact fun h => hm _ (hq h)
  | checkSet hex hfl =>
    have hw := (hw _ rfl).mono hm
    have hf := hf _ rfl
    have he := he _ rfl
    have hl := hl _ rfl
    have hd := hd _ rfl
    have hq := hq _ rfl
    rw [hex] at hw
    refine ⟨by simp, ?_, ?_, ?_, ?_, ?_, ?_⟩ <;> rintro o ⟨⟩
    · exact ⟨hw.2.1, hw.1⟩
    · exact hf
    · intro h; have := he h; rw [hex] at this; cases this
    · intro h; cases h
    · intro; exact hfl
    · exact fun h => hm _ (hq h)
  | checkClear hex hfl =>
    have hw := (hw _ rfl).mono hm
    have hf := hf _ rfl
    have he := he _ rfl
    have hl := hl _ rfl
    have hd := hd _ rfl
    have hq := hq _ rfl
    rw [hex] at hw
    refine ⟨by simp, ?_, ?_, ?_, ?_, ?_, ?_⟩ <;> rintro o ⟨⟩
    · exact hw
    · exact hf
    · intro h; have := he h; rw [hex] at this; cases this
    · intro h; cases h
    · rintro (h | h) <;> cases h
    · exact fun h => hm _ (hq h)
  | store hex =>
    have hw := (hw _ rfl).mono hm
    have hf := hf _ rfl
    have he := he _ rfl
    have hl := hl _ rfl
    have hd := hd _ rfl
    have hq := hq _ rfl
    rw [hex] at hw
    refine ⟨by simp, ?_, ?_, ?_, ?_, ?_, ?_⟩ <;> rintro o ⟨⟩
    · exact ⟨hw.2.1, _, hw.2.2, .inl rfl⟩
    · exact hf
    · intro h; have := he h; rw [hex] at this; cases this
    · intro h; cases h
    · rintro (h | h) <;> cases h
    · exact fun h => hm _ (hq h)
  | unstored hex =>
    have hw := (hw _ rfl).mono hm
    have hf := hf _ rfl
    have he := he _ rfl
    have hl := hl _ rfl
    have hd := hd _ rfl
    have hq := hq _ rfl
    rw [hex] at hw
    refine ⟨by simp, ?_, ?_, ?_, ?_, ?_, ?_⟩ <;> rintro o ⟨⟩
    · obtain ⟨h1, h2, h3⟩ := hw
      exact ⟨h2, _, h3, h1⟩
    · exact hf
    · intro h; have := he h; rw [hex] at this; cases this
    · intro h; cases h
    · rintro (h | h) <;> cases h
    · exact fun h => hm _ (hq h)
  | fail hex =>
    have hw := (hw _ rfl).mono hm
    have hf := hf _ rfl
    have he := he _ rfl
    have hl := hl _ rfl
    have hd := hd _ rfl
    have hq := hq _ rfl
    rw [hex] at hw
    refine ⟨by simp, ?_, ?_, ?_, ?_, ?_, ?_⟩ <;> rintro o ⟨⟩
    · exact ⟨hw.2.1, hw.1, hw.2.2⟩
    · exact hf
    · intro h; have := he h; rw [hex] at this; cases this
    · intro h; cases h
    · rintro (h | h) <;> cases h
    · exact fun h => hm _ (hq h)
  | publish hex =>
    have hw := (hw _ rfl).mono hm
    have hf := hf _ rfl
    have he := he _ rfl
    have hl := hl _ rfl
    have hd := hd _ rfl
    have hq := hq _ rfl
    rw [hex] at hw
    refine ⟨by simp, ?_, ?_, ?_, ?_, ?_, ?_⟩ <;> rintro o ⟨⟩
    · exact hw
    · exact hf
    · intro h; have := he h; rw [hex] at this; cases this
    · intro h; cases h
    · rintro (h | h)
      · cases h
      · cases h; exact hd (.inl hex)
    · exact fun h => hm _ (hq h)
  | exit hex =>
    have hw := (hw _ rfl).mono hm
    have hf := hf _ rfl
    have he := he _ rfl
    have hl := hl _ rfl
    have hd := hd _ rfl
    have hq := hq _ rfl
    rw [hex] at hw
    refine ⟨by simp, ?_, ?_, ?_, ?_, ?_, ?_⟩ <;> rintro o ⟨⟩
    · exact hw.2
    · intro h; cases h; exact hd (.inr hex)
    · intro h; have := he h; rw [hex] at this; cases this
    · intro h; cases h
    · rintro (h | h) <;> cases h
    · exact fun h => hm _ (hq h)
  | cancelFlag hreg =>
    have hw := (hw _ rfl).mono hm
    have hf := hf _ rfl
    have he := he _ rfl
    have hl := hl _ rfl
    have hd := hd _ rfl
    have hq := hq _ rfl
    refine ⟨by simp, ?_, ?_, ?_, ?_, ?_, ?_⟩ <;> rintro o ⟨⟩
    · exact hw
    · intro; rfl
    · exact he
    · exact hl
    · intro; rfl
    · intro; exact hlast
  | @cancelStatus o₀ r e hfl hreg =>
    have hw := (hw _ rfl).mono hm
    have hf := hf _ rfl
    have he := he _ rfl
    have hl := hl _ rfl
    have hd := hd _ rfl
    have hq := hq _ rfl
    refine ⟨by simp, ?_, ?_, ?_, ?_, ?_, ?_⟩ <;> rintro o ⟨⟩
    · show WorkerOk id _ (if o₀.status = .running then .cancelled else o₀.status) r o₀.worker
      by_cases hs : o₀.status = .running
      · rw [if_pos hs]
        rw [hs] at hw
        cases hwk : o₀.worker <;> rw [hwk] at hw
        case exited => exact hw.elim
        case decided => exact ⟨.inr rfl, hw.2⟩
        case announced => exact ⟨.inr rfl, hw.2⟩
        case returned => exact ⟨hw.1, .inr rfl, hw.2.2⟩
        case passed => exact ⟨hw.1, .inr rfl, hw.2.2⟩
        all_goals exact ⟨hw.1, .inr rfl⟩
      · rw [if_neg hs]; exact hw
    · intro; exact hfl
    · exact he
    · exact hl
    · exact hd
    · exact fun h => hm _ (hq h)
  | cancelSend =>
    exact ⟨fun h => (h0 h).mono hm, fun o ho => (hw o ho).mono hm, hf, he, hl, hd, fun o ho h => hm _ (hq o ho h)⟩
  | @cleanup o₀ r e =>
    have hw := (hw _ rfl).mono hm
    have hf := hf _ rfl
    have he := he _ rfl
    have hl := hl _ rfl
    have hd := hd _ rfl
    have hq := hq _ rfl
    obtain ⟨h1, h2, h3, -, h5⟩ := cleaned_fields o₀
    refine ⟨by simp, ?_, ?_, ?_, ?_, ?_, ?_⟩ <;> rintro o ⟨⟩
    · show WorkerOk id _ o₀.cleaned.status r o₀.cleaned.worker
      rw [h1, h2]; exact hw
    · rw [h1, h3]; exact hf
    · rw [h2]
      intro h
      rcases h5 with h5 | ⟨h5, h6⟩
      · rw [h5] at h; exact he h
      · rw [h6] at h; rcases h with h | h <;> cases h
    · rw [h2]
      intro h
      have := hl h
      rcases h5 with h5 | ⟨h5, h6⟩
      · rw [h5]; exact this
      · rw [h5] at this; rcases this with h | h <;> cases h
    · rw [h2, h3]; exact hd
    · rw [h3]; exact fun h => hm _ (hq h)
  | @storeResult o₀ r e json =>
    have hb : ByHand id (acts ++ [Act.storeResult id json]) := ⟨json, hlast⟩
    refine ⟨fun _ => .inr hb, ?_, hf, he, hl, hd, fun o ho h => hm _ (hq o ho h)⟩
    intro o ho
    have hw := (hw _ ho).mono hm
    have hE : ∀ {st : Status}, EndedAs id (acts ++ [Act.storeResult id json]) r st →
        EndedAs id (acts ++ [Act.storeResult id json]) (some json) st := by
      intro st h
      cases st
      case running => exact h
      case completed => exact ⟨_, h.choose_spec.1, .inr hb⟩
      case cancelled => exact .inr hb
      case failed => exact ⟨.inr hb, h.2⟩
    show WorkerOk id _ o.status (some json) o.worker
    cases hwk : o.worker <;> rw [hwk] at hw
    case decided => exact ⟨hw.1, hE hw.2⟩
    case announced => exact ⟨hw.1, hE hw.2⟩
    case exited => exact hE hw
    all_goals exact ⟨.inr hb, hw.2⟩

theorem Good.init (id : Nat) : Good id [] (Sys.init.view id) :=
  ⟨fun _ => .inl rfl, by simp [Sys.view, Sys.init], by simp [Sys.view, Sys.init],
    by simp [Sys.view, Sys.init], by simp [Sys.view, Sys.init], by simp [Sys.view, Sys.init],
    by simp [Sys.view, Sys.init]⟩

theorem good_run {id : Nat} {acts done : List Act} {s s' : Sys} (hs : Inv s)
    (hg : Good id done (s.view id)) (h : s.run acts = some s') :
    Good id (done ++ acts) (s'.view id) := by
  induction acts generalizing s done with
  | nil => cases h; simpa using hg
  | cons a as ih =>
    obtain ⟨s1, h1, h2⟩ := Option.bind_eq_some_iff.1 h
    have := ih (hs.step h1) (hg.step (lstep_of_step hs h1 id)) h2
    simpa using this

theorem good_reached {id : Nat} {acts : List Act} {s : Sys} (h : ReachedBy acts s) :
    Good id acts (s.view id) := by
  simpa using good_run Inv.init (Good.init id) h

/-! ### A finished state -/

/-- A finished operation whose status nothing will change. -/
structure Settled (st : Status) (v : View) (o : Op) : Prop where
  op : v.op = some o
  status : o.status = st
  stage : o.stage = .registered ∨ o.stage = .removed
  flag : o.worker ≠ .exited → o.flag = true ∧ st = .cancelled ∧ o.worker.committed = false

theorem settled_step {id : Nat} {a : Act} {v v' : View} {st : Status} (hfin : st.finished = true)
    (hst : ∃ o, Settled st v o) (h : LStep id a v v') : ∃ o, Settled st v' o := by
  obtain ⟨o, ho, hs, hg, hf⟩ := hst
  have hnr : o.status ≠ .running := by
    intro e; rw [← hs, e] at hfin; cases hfin
  cases h with
  | other => exact ⟨o, ho, hs, hg, hf⟩
  | alloc => cases ho
  | announce hsp => cases ho; rcases hg with hg | hg <;> rw [hsp] at hg <;> cases hg
  | spawn hsp => cases ho; rcases hg with hg | hg <;> rw [hsp] at hg <;> cases hg
  | register => cases ho; exact ⟨_, rfl, hs, .inl rfl, hf⟩
  | report => cases ho; exact ⟨_, rfl, hs, hg, hf⟩
  | finish hex =>
    cases ho
    have hf := hf (by rw [hex]; simp)
    exact ⟨_, rfl, hs, hg, fun _ => ⟨hf.1, hf.2.1, rfl⟩⟩
  | panic hex =>
    cases ho
    have hf := hf (by rw [hex]; simp)
    exact ⟨_, rfl, hs, hg, fun _ => ⟨hf.1, hf.2.1, rfl⟩⟩
  | checkSet hex =>
    cases ho
    have hf := hf (by rw [hex]; simp)
    exact ⟨_, rfl, hs, hg, fun _ => ⟨hf.1, hf.2.1, rfl⟩⟩
  | checkClear hex hfl =>
    cases ho
    have hf := hf (by rw [hex]; simp)
    rw [hfl] at hf; cases hf.1
  | store hex =>
    cases ho
    have hf := hf (by rw [hex]; simp)
    rw [hex] at hf; cases hf.2.2
  | unstored hex =>
    cases ho
    have hf := hf (by rw [hex]; simp)
    rw [hex] at hf; cases hf.2.2
  | fail hex =>
    cases ho
    have hf := hf (by rw [hex]; simp)
    rw [hex] at hf; cases hf.2.2
  | publish hex =>
    cases ho
    have hf := hf (by rw [hex]; simp)
    rw [hex] at hf
    exact ⟨_, rfl, hs, hg, fun _ => ⟨hf.1, hf.2.1, hf.2.2⟩⟩
  | @exit _ _ _ final hex =>
    cases ho
    have hf := hf (by rw [hex]; simp)
    rw [hex] at hf
    have he : final = Status.cancelled := by simpa [Worker.committed] using hf.2.2
    exact ⟨_, rfl, he.trans hf.2.1.symm, hg, fun h => absurd rfl h⟩
  | cancelFlag =>
    cases ho
    exact ⟨_, rfl, hs, hg, fun h => ⟨rfl, (hf h).2⟩⟩
  | cancelStatus =>
    cases ho
    exact ⟨_, rfl, by rw [← hs]; exact if_neg hnr, hg, hf⟩
  | cancelSend => cases ho; exact ⟨_, rfl, hs, hg, hf⟩
  | cleanup =>
    cases ho
    obtain ⟨h1, h2, h3, -, h5⟩ := cleaned_fields o
    exact ⟨_, rfl, h1.trans hs, h5.elim (fun h => by rw [h]; exact hg) (fun h => .inr h.2), by rw [h2, h3]; exact hf⟩
  | storeResult => exact ⟨o, ho, hs, hg, hf⟩


theorem getStatus_some {s : Sys} {id : Nat} {st : Status} (h : s.getStatus id = some st) :
    ∃ o, s.ops id = some o ∧ o.stage = .registered ∧ o.status = st := by
  obtain ⟨o, ho, h⟩ := Option.bind_eq_some_iff.1 h
  split at h
  · exact ⟨o, ho, ‹_›, by simpa using h⟩
  · cases h

theorem settled_of_good {id : Nat} {acts : List Act} {s : Sys} {st : Status}
    (hg : Good id acts (s.view id)) (h : s.getStatus id = some st) (hfin : st.finished = true)
    (hc : st = .cancelled → ∀ o, s.ops id = some o → o.worker.committed = false) :
    ∃ o, Settled st (s.view id) o := by
  obtain ⟨o, ho, hreg, hst⟩ := getStatus_some h
  refine ⟨o, ho, hst, .inl hreg, fun hx => ?_⟩
  have hw := hg.worker o ho
  have hst' : o.status = .running ∨ o.status = .cancelled := by
    cases hwk : o.worker <;> rw [hwk] at hw
    case exited => exact absurd hwk hx
    case returned => exact hw.2.1
    case passed => exact hw.2.1
    case decided => exact hw.1
    case announced => exact hw.1
    all_goals exact hw.2
  rcases hst' with e | e
  · rw [← hst, e] at hfin; cases hfin
  · exact ⟨hg.flag o ho e, hst.symm.trans e, hc (hst.symm.trans e) o ho⟩

/-- C46: once an operation is reported `Completed` or `Failed`, or is reported
`Cancelled` while its thread has not read the flag as clear, every later report
is the same. What is missing for the full claim is the case of
`C46_cancelled_changes_fails`. -/
theorem C46_final_partial {acts more : List Act} {s s' : Sys} {id : Nat} {st st' : Status}
    (hr : ReachedBy acts s) (hm : s.run more = some s') (h : s.getStatus id = some st)
    (hfin : st ≠ .running)
    (hc : st = .cancelled → ∀ o, s.ops id = some o → o.worker.committed = false)
    (h' : s'.getStatus id = some st') : st' = st := by
  have hf : st.finished = true := by cases st <;> first | rfl | exact absurd rfl hfin
  have hi := settled_of_good (good_reached hr) h hf hc
  obtain ⟨o, ho, hs, -, -⟩ := run_induct (id := id) (fun v => ∃ o, Settled st v o)
    (Inv.init.run hr) hm hi (fun a _ v v' hl hp => settled_step hf hp hl)
  obtain ⟨o', ho', -, hs'⟩ := getStatus_some h'
  have : some o = some o' := ho.symm.trans ho'
  cases this
  exact hs'.symm.trans hs

/-- An operation started, run and completed; then somebody tries to cancel it. -/
def completedRun : List Act :=
  [.alloc, .announce 1, .spawn 1, .report 1 ⟨50, none⟩, .register 1,
   .finish 1 (.ok (some "42")), .check 1, .conclude 1, .publish 1, .exit 1]

example : ∃ s, ReachedBy completedRun s ∧ s.getStatus 1 = some .completed ∧
    s.getResult 1 = some "42" ∧ seen s 1 = [.started, .progress, .completed] ∧
    ∃ s', s.run [.cancelFlag 1, .cancelStatus, .cancelSend] = some s' ∧
      s'.getStatus 1 = some .completed := by
  refine ⟨_, rfl, by decide, by decide, by decide, _, rfl, by decide⟩

/-- C46 fails for a cancellation that comes after the thread has read the flag:
the operation is reported `Cancelled`, and later `Completed`, with a result. -/
theorem C46_cancelled_changes_fails :
    ∃ acts more s s', ReachedBy acts s ∧ s.run more = some s' ∧
      s.getStatus 1 = some .cancelled ∧ s'.getStatus 1 = some .completed ∧
      s'.getResult 1 = some "42" ∧
      seen s' 1 = [.started, .cancelled, .completed] :=
  ⟨[.alloc, .announce 1, .spawn 1, .register 1, .finish 1 (.ok (some "42")), .check 1,
      .cancelFlag 1, .cancelStatus, .cancelSend], [.conclude 1, .publish 1, .exit 1],
    _, _, rfl, rfl, by decide, by decide, by decide, by decide⟩

/-- C46 fails for the events too: cancelling an operation that has completed
announces its cancellation. -/
theorem C46_late_cancel_fails :
    ∃ acts s, ReachedBy acts s ∧ s.getStatus 1 = some .completed ∧
      seen s 1 = [.started, .completed, .cancelled] :=
  ⟨[.alloc, .announce 1, .spawn 1, .register 1, .finish 1 (.ok (some "42")), .check 1,
      .conclude 1, .publish 1, .exit 1, .cancelFlag 1, .cancelStatus, .cancelSend],
    _, rfl, by decide, by decide⟩

/-! ### Running until the end -/

/-- C46: an operation that is not finished is reported `Running`: a report of
`Completed` or `Failed` comes only from the thread's own end, with the outcome of
`execute`, and a report of `Cancelled` only after a call of `cancel_operation`. -/
theorem C46_reported {acts : List Act} {s : Sys} {id : Nat} {st : Status}
    (hr : ReachedBy acts s) (h : s.getStatus id = some st) :
    st = .running ∨
    (st = .completed ∧ ∃ json, Act.finish id (.ok json) ∈ acts) ∨
    (∃ e, st = .failed e ∧ Act.finish id (.err e) ∈ acts) ∨
    (st = .cancelled ∧ Act.cancelFlag id ∈ acts) := by
  obtain ⟨o, ho, -, hst⟩ := getStatus_some h
  have hg := good_reached (id := id) hr
  have hw := hg.worker o ho
  have hc : st = .cancelled → Act.cancelFlag id ∈ acts := fun e =>
    hg.asked o ho (hg.flag o ho (hst.trans e))
  rw [hst] at hw
  have hpre : st = .running ∨ st = .cancelled → st = .running ∨
      (st = .completed ∧ ∃ json, Act.finish id (.ok json) ∈ acts) ∨
      (∃ e, st = .failed e ∧ Act.finish id (.err e) ∈ acts) ∨
      (st = .cancelled ∧ Act.cancelFlag id ∈ acts) := fun h =>
    h.imp (fun h => h) (fun h => .inr (.inr ⟨h, hc h⟩))
  cases hwk : o.worker <;> rw [hwk] at hw
  case exited =>
    cases st
    case running => exact hw.elim
    case completed => exact .inr (.inl ⟨rfl, _, hw.choose_spec.1⟩)
    case cancelled => exact .inr (.inr (.inr ⟨rfl, hc rfl⟩))
    case failed e => exact .inr (.inr (.inl ⟨e, rfl, hw.2⟩))
  case returned => exact hpre hw.2.1
  case passed => exact hpre hw.2.1
  case decided => exact hpre hw.1
  case announced => exact hpre hw.1
  all_goals exact hpre hw.2

example : ∃ s, ReachedBy [.alloc, .announce 1, .spawn 1, .register 1, .finish 1 (.err "disk full"),
    .check 1, .conclude 1, .publish 1, .exit 1] s ∧ s.getStatus 1 = some (.failed "disk full") := by
  refine ⟨_, rfl, by decide⟩

/-- C46: when the operation's thread has ended normally, the status is one of the
three final ones. -/
theorem C46_ends {acts : List Act} {s : Sys} {id : Nat} {o : Op} (hr : ReachedBy acts s)
    (ho : s.ops id = some o) (hx : o.worker = .exited) : o.status ≠ .running := by
  have hw := (good_reached (id := id) hr).worker o ho
  rw [hx] at hw
  intro e
  rw [e] at hw
  exact hw

example : ∃ s o, ReachedBy completedRun s ∧ s.ops 1 = some o ∧ o.worker = .exited :=
  ⟨_, _, rfl, rfl, rfl⟩

/-- A panicking operation does not end: its thread is gone. -/
theorem panicked_step {id : Nat} {a : Act} {v v' : View} (h : LStep id a v v')
    (ha : a ≠ .cancelFlag id)
    (hp : ∃ o, v.op = some o ∧ o.worker = .panicked ∧ o.status = .running ∧ o.flag = false ∧
      (o.stage = .registered)) :
    ∃ o, v'.op = some o ∧ o.worker = .panicked ∧ o.status = .running ∧ o.flag = false ∧
      (o.stage = .registered) := by
  obtain ⟨o, ho, hw, hs, hf, hg⟩ := hp
  cases h with
  | other => exact ⟨o, ho, hw, hs, hf, hg⟩
  | alloc => cases ho
  | announce h => cases ho; rw [h] at hg; cases hg
  | spawn h => cases ho; rw [h] at hg; cases hg
  | register h => cases ho; rw [h] at hg; cases hg
  | report h => cases ho; rw [h] at hw; cases hw
  | finish h => cases ho; rw [h] at hw; cases hw
  | panic h => cases ho; rw [h] at hw; cases hw
  | checkSet h => cases ho; rw [h] at hw; cases hw
  | checkClear h => cases ho; rw [h] at hw; cases hw
  | store h => cases ho; rw [h] at hw; cases hw
  | unstored h => cases ho; rw [h] at hw; cases hw
  | fail h => cases ho; rw [h] at hw; cases hw
  | publish h => cases ho; rw [h] at hw; cases hw
  | exit h => cases ho; rw [h] at hw; cases hw
  | cancelFlag => exact absurd rfl ha
  | cancelStatus h => cases ho; rw [h] at hf; cases hf
  | cancelSend h => cases ho; rw [h] at hf; cases hf
  | cleanup =>
    cases ho
    have hc : o.cleaned = o := by
      unfold Op.cleaned
      rw [hs, if_neg]
      rintro ⟨-, h⟩
      cases h
    exact ⟨o.cleaned, rfl, by rw [hc]; exact ⟨hw, hs, hf, hg⟩⟩
  | storeResult => exact ⟨o, ho, hw, hs, hf, hg⟩

/-- C46 fails when the operation panics: it is reported `Running` for ever, and
`cleanup_finished_operations` never removes it. -/
theorem C46_panic_fails :
    ∃ acts s, ReachedBy acts s ∧ (∃ o, s.ops 1 = some o ∧ o.worker = .panicked) ∧
      ∀ more s', s.run more = some s' → Act.cancelFlag 1 ∉ more →
        s'.getStatus 1 = some .running := by
  refine ⟨[.alloc, .announce 1, .spawn 1, .register 1, .panic 1], _, rfl, ⟨_, rfl, rfl⟩, ?_⟩
  intro more s' h hn
  have hi : LongOps.Inv _ := Inv.init.run (acts := [.alloc, .announce 1, .spawn 1, .register 1, .panic 1]) rfl
  obtain ⟨o, ho, -, hs, -, hg⟩ := run_induct (id := 1)
    (fun v => ∃ o, v.op = some o ∧ o.worker = .panicked ∧ o.status = .running ∧ o.flag = false ∧
      o.stage = .registered) hi h ⟨_, rfl, rfl, rfl, rfl, rfl⟩
    (fun a ha v v' hl hp => panicked_step hl (fun e => hn (e ▸ ha)) hp)
  have ho' : s'.ops 1 = some o := ho
  simp [Sys.getStatus, ho', hg, hs]

/-! ### Results -/

/-- C46: a result is available only for an operation whose `execute` returned it
and which is completed, or is about to be reported so: its thread has read the
flag as clear. After the thread's end the status is `Completed`. -/
theorem C46_result {acts : List Act} {s : Sys} {id : Nat} {json : String}
    (hr : ReachedBy acts s) (hhand : ∀ j, Act.storeResult id j ∉ acts)
    (h : s.getResult id = some json) :
    ∃ o, s.ops id = some o ∧ Act.finish id (.ok (some json)) ∈ acts ∧
      (o.worker.committed = true ∨ o.worker = .exited ∧ o.status = .completed) := by
  have hg := good_reached (id := id) hr
  have hb : ¬ ByHand id acts := fun ⟨j, hj⟩ => hhand j hj
  have hres : (s.view id).result = some json := h
  have hno : ¬ NoRes id acts (s.view id).result := by
    rintro (h | h)
    · rw [hres] at h; cases h
    · exact hb h
  cases ho : s.ops id with
  | none => exact absurd (hg.absent ho) hno
  | some o =>
    refine ⟨o, rfl, ?_⟩
    have hw := hg.worker o ho
    have hcomp : ∀ {st}, EndedAs id acts (s.view id).result st →
        st = .completed ∧ Act.finish id (.ok (some json)) ∈ acts := by
      intro st h
      cases st
      case running => exact h.elim
      case completed =>
        obtain ⟨j, hj, hh⟩ := h
        rcases hh with hh | hh
        · rw [hres] at hh
          rw [← hh] at hj
          exact ⟨rfl, hj⟩
        · exact absurd hh hb
      case cancelled => exact absurd h hno
      case failed => exact absurd h.1 hno
    cases hwk : o.worker <;> rw [hwk] at hw
    case decided f =>
      have := hcomp hw.2
      exact ⟨this.2, .inl (by simp [Worker.committed, this.1])⟩
    case announced f =>
      have := hcomp hw.2
      exact ⟨this.2, .inl (by simp [Worker.committed, this.1])⟩
    case exited =>
      have := hcomp hw
      exact ⟨this.2, .inr ⟨rfl, this.1⟩⟩
    all_goals exact absurd hw.1 hno

/-- C46: conversely the result of a completed operation is available and is the
one `execute` returned. -/
theorem C46_result_stored {acts : List Act} {s : Sys} {id : Nat}
    (hr : ReachedBy acts s) (hhand : ∀ j, Act.storeResult id j ∉ acts)
    (h : s.getStatus id = some .completed) :
    Act.finish id (.ok (s.getResult id)) ∈ acts := by
  obtain ⟨o, ho, -, hst⟩ := getStatus_some h
  have hg := good_reached (id := id) hr
  have hw := hg.worker o ho
  rw [hst] at hw
  cases hwk : o.worker <;> rw [hwk] at hw
  case exited =>
    obtain ⟨j, hj, hh⟩ := hw
    rcases hh with hh | ⟨j', hh⟩
    · have : s.getResult id = j := hh
      rw [this]; exact hj
    · exact absurd hh (hhand j')
  case returned => rcases hw.2.1 with h | h <;> cases h
  case passed => rcases hw.2.1 with h | h <;> cases h
  case decided => rcases hw.1 with h | h <;> cases h
  case announced => rcases hw.1 with h | h <;> cases h
  all_goals rcases hw.2 with h | h <;> cases h

example : ∃ s, ReachedBy completedRun s ∧ (∀ j, Act.storeResult 1 j ∉ completedRun) ∧
    s.getStatus 1 = some .completed ∧ s.getResult 1 = some "42" :=
  ⟨_, rfl, by simp [completedRun], by decide, by decide⟩

/-! ### Cancelling in time -/

/-- The flag is set and the thread has not read it as clear. -/
theorem flagged_step {id : Nat} {a : Act} {v v' : View} (h : LStep id a v v')
    (ha : ∀ j, a ≠ .storeResult id j)
    (hp : ∃ o, v.op = some o ∧ o.flag = true ∧ o.worker.committed = false ∧ v.result = none ∧
      (o.status = .running ∨ o.status = .cancelled) ∧
      (o.worker = .exited → o.status = .cancelled) ∧ o.worker ≠ .announced .running ∧
      (o.stage = .registered ∨ o.stage = .removed)) :
    ∃ o, v'.op = some o ∧ o.flag = true ∧ o.worker.committed = false ∧ v'.result = none ∧
      (o.status = .running ∨ o.status = .cancelled) ∧
      (o.worker = .exited → o.status = .cancelled) ∧ o.worker ≠ .announced .running ∧
      (o.stage = .registered ∨ o.stage = .removed) := by
  obtain ⟨o, ho, hf, hc, hr, hs, hx, hn, hg⟩ := hp
  cases h with
  | other => exact ⟨o, ho, hf, hc, hr, hs, hx, hn, hg⟩
  | alloc => cases ho
  | announce h => cases ho; rw [h] at hg; rcases hg with hg | hg <;> cases hg
  | spawn h => cases ho; rw [h] at hg; rcases hg with hg | hg <;> cases hg
  | register h => cases ho; rw [h] at hg; rcases hg with hg | hg <;> cases hg
  | report h => cases ho; exact ⟨_, rfl, hf, hc, hr, hs, hx, hn, hg⟩
  | finish h => cases ho; exact ⟨_, rfl, hf, rfl, hr, hs, by simp, by simp, hg⟩
  | panic h => cases ho; exact ⟨_, rfl, hf, rfl, hr, hs, by simp, by simp, hg⟩
  | checkSet h => cases ho; exact ⟨_, rfl, hf, rfl, hr, hs, by simp, by simp, hg⟩
  | checkClear _ h => cases ho; rw [hf] at h; cases h
  | store h => cases ho; rw [h] at hc; cases hc
  | unstored h => cases ho; rw [h] at hc; cases hc
  | fail h => cases ho; rw [h] at hc; cases hc
  | publish h =>
    cases ho
    rw [h] at hc
    refine ⟨_, rfl, hf, hc, hr, hs, by simp, ?_, hg⟩
    intro e
    cases e
    cases hc
  | @exit _ _ _ final h =>
    cases ho
    rw [h] at hc
    have : final = .cancelled := by simpa [Worker.committed] using hc
    exact ⟨_, rfl, hf, rfl, hr, .inr this, fun _ => this, by simp, hg⟩
  | cancelFlag => cases ho; exact ⟨_, rfl, rfl, hc, hr, hs, hx, hn, hg⟩
  | cancelStatus =>
    cases ho
    have : (if o.status = .running then Status.cancelled else o.status) = .cancelled := by
      rcases hs with h | h <;> simp [h]
    exact ⟨_, rfl, hf, hc, hr, .inr this, fun _ => this, hn, hg⟩
  | cancelSend => cases ho; exact ⟨_, rfl, hf, hc, hr, hs, hx, hn, hg⟩
  | cleanup =>
    cases ho
    obtain ⟨h1, h2, h3, -, h5⟩ := cleaned_fields o
    refine ⟨o.cleaned, rfl, by rw [h3]; exact hf, by rw [h2]; exact hc, hr,
      by rw [h1]; exact hs, by rw [h1, h2]; exact hx, by rw [h2]; exact hn, ?_⟩
    rcases h5 with h5 | h5
    · rw [h5]; exact hg
    · exact .inr h5.2
  | storeResult => exact absurd rfl (ha _)

/-- C46: an operation that is cancelled before its thread has read the flag is
never reported `Completed` or `Failed`, has no result, and is `Cancelled` when
its thread has ended. -/
theorem C46_cancel {acts more : List Act} {s s1 s' : Sys} {id : Nat} {o : Op}
    (hr : ReachedBy acts s) (ho : s.ops id = some o) (hu : o.worker.undecided = true)
    (hc : s.step (.cancelFlag id) = some s1) (hm : s1.run more = some s')
    (hhand : ∀ j, Act.storeResult id j ∉ acts ++ more) :
    ∃ o', s'.ops id = some o' ∧ (o'.status = .running ∨ o'.status = .cancelled) ∧
      (o'.worker = .exited → o'.status = .cancelled) ∧ s'.getResult id = none := by
  have hg := good_reached (id := id) hr
  have hw := hg.worker o ho
  have hb : ¬ ByHand id acts := fun ⟨j, hj⟩ => hhand j (List.mem_append_left _ hj)
  have hres : s.results id = none ∧ (o.status = .running ∨ o.status = .cancelled) := by
    cases hwk : o.worker <;> rw [hwk] at hw hu
    case none => exact ⟨hw.1.resolve_right hb, hw.2⟩
    case executing => exact ⟨hw.1.resolve_right hb, hw.2⟩
    case returned => exact ⟨hw.1.resolve_right hb, hw.2.1⟩
    all_goals cases hu
  have hstep := lstep_of_step (Inv.init.run hr) hc id
  have hv : s.view id = ⟨some o, s.results id, s.evsOf id⟩ := view_of ho
  have h1 : ∃ o, (s1.view id).op = some o ∧ o.flag = true ∧ o.worker.committed = false ∧
      (s1.view id).result = none ∧ (o.status = .running ∨ o.status = .cancelled) ∧
      (o.worker = .exited → o.status = .cancelled) ∧ o.worker ≠ .announced .running ∧
      (o.stage = .registered ∨ o.stage = .removed) := by
    generalize s1.view id = v1 at hstep
    rw [hv] at hstep
    cases hstep with
    | other _ h => exact absurd rfl h
    | cancelFlag hreg =>
      refine ⟨_, rfl, rfl, ?_, hres.1, hres.2, ?_, ?_, .inl hreg⟩ <;>
        cases hwk : o.worker <;> rw [hwk] at hu <;> first | cases hu; done | simp [Worker.committed]
  obtain ⟨o', ho', -, -, h2, h3, h4, -, -⟩ := run_induct (id := id)
    (fun v => ∃ o, v.op = some o ∧ o.flag = true ∧ o.worker.committed = false ∧
      v.result = none ∧ (o.status = .running ∨ o.status = .cancelled) ∧
      (o.worker = .exited → o.status = .cancelled) ∧ o.worker ≠ .announced .running ∧
      (o.stage = .registered ∨ o.stage = .removed))
    ((Inv.init.run hr).step hc) hm h1
    (fun a ha v v' hl hp => flagged_step hl
      (fun j e => hhand j (List.mem_append_right _ (e ▸ ha))) hp)
  exact ⟨o', ho', h3, h4, h2⟩

/-- Cancelled while the operation runs; its `execute` returns a value all the same. -/
example : ∃ s o s1 s', ReachedBy [.alloc, .announce 1, .spawn 1, .register 1] s ∧
    s.ops 1 = some o ∧ o.worker.undecided = true ∧ s.step (.cancelFlag 1) = some s1 ∧
    s1.run [.finish 1 (.ok (some "42")), .cancelStatus, .check 1, .cancelSend, .publish 1,
      .exit 1] = some s' ∧ s'.getStatus 1 = some .cancelled ∧ s'.getResult 1 = none :=
  ⟨_, _, _, _, rfl, rfl, rfl, rfl, rfl, by decide, by decide⟩

/-! ### Clean-up -/

/-- C46: `cleanup_finished_operations` forgets exactly the finished operations,
and neither it nor anything else touches the stored results. -/
theorem C46_cleanup {s s' : Sys} (h : s.step .cleanup = some s') (id : Nat) :
    s'.getStatus id = (s.getStatus id).filter (fun st => !st.finished) ∧
    s'.getResult id = s.getResult id := by
  simp only [Sys.step] at h
  unfold Sys.cleanup at h
  split at h
  · cases h
    refine ⟨?_, rfl⟩
    unfold Sys.getStatus
    dsimp only
    cases s.ops id with
    | none => rfl
    | some o =>
      simp only [Option.map_some, Option.bind_some]
      unfold Op.cleaned
      by_cases h1 : o.stage = .registered <;> cases h2 : o.status.finished <;>
        simp [h1, h2, Option.filter]
  · cases h

example : ∃ s s', ReachedBy (completedRun ++ [.alloc, .announce 2, .spawn 2, .register 2]) s ∧
    s.step .cleanup = some s' ∧ s'.getStatus 1 = none ∧ s'.getStatus 2 = some .running :=
  ⟨_, _, rfl, rfl, by decide, by decide⟩

/-! ### Events -/

/-- The end the thread announced. -/
def endOf : Status → List EvKind
  | .completed => [.completed]
  | .failed _ => [.failed]
  | _ => []

def endSent (o : Op) : List EvKind :=
  match o.worker with
  | .announced f => endOf f
  | .exited => endOf o.status
  | _ => []

/-- The events other than cancellations. -/
def plain (l : List EvKind) : List EvKind := l.filter (fun k => k != .cancelled)

def Sent (o : Op) (l : List EvKind) : Prop :=
  (o.stage = .allocated ∧ l = []) ∨
  (o.stage ≠ .allocated ∧ ∃ n, l = .started :: (List.replicate n .progress ++ endSent o))

theorem plain_append (l : List EvKind) (k : EvKind) :
    plain (l ++ [k]) = plain l ++ (if k = .cancelled then [] else [k]) := by
  unfold plain
  rw [List.filter_append]
  cases k <;> simp

theorem sent_step {id : Nat} {a : Act} {v v' : View} {acts : List Act} (hg : Good id acts v)
    (h : LStep id a v v') (h0 : v.op = none → plain v.evs = [])
    (hs : ∀ o, v.op = some o → Sent o (plain v.evs)) :
    (v'.op = none → plain v'.evs = []) ∧ ∀ o, v'.op = some o → Sent o (plain v'.evs) := by
  have keep : ∀ {o o' : Op} {e : List EvKind}, Sent o (plain e) →
      (o'.stage = .allocated ↔ o.stage = .allocated) → endSent o' = endSent o →
      Sent o' (plain e) := by
    intro o o' e h1 h2 h3
    rcases h1 with ⟨h1, h4⟩ | ⟨h1, n, h4⟩
    · exact .inl ⟨h2.2 h1, h4⟩
    · exact .inr ⟨fun h => h1 (h2.1 h), n, by rw [h3]; exact h4⟩
  cases h with
  | other => exact ⟨h0, hs⟩
  | alloc =>
    refine ⟨by simp, ?_⟩
    rintro o ⟨⟩
    exact .inl ⟨rfl, h0 rfl⟩
  | announce hst =>
    have hs := hs _ rfl
    have hn := hg.early _ rfl (.inl hst)
    refine ⟨by simp, ?_⟩
    rintro o ⟨⟩
    rcases hs with ⟨-, h⟩ | ⟨h, -⟩
    · refine .inr ⟨by simp, 0, ?_⟩
      simp only at h
      rw [plain_append, h]
      simp [endSent, hn]
    · exact absurd hst h
  | spawn hst =>
    have hs := hs _ rfl
    have hn := hg.early _ rfl (.inr hst)
    refine ⟨by simp, ?_⟩
    rintro o ⟨⟩
    exact keep hs (by simp [hst]) (by simp [endSent, hn])
  | register hst =>
    have hs := hs _ rfl
    refine ⟨by simp, ?_⟩
    rintro o ⟨⟩
    exact keep hs (by simp [hst]) rfl
  | report hex =>
    have hs := hs _ rfl
    refine ⟨by simp, ?_⟩
    rintro o ⟨⟩
    rcases hs with ⟨h, -⟩ | ⟨h, n, hn⟩
    · have := hg.early _ rfl (.inl h)
      rw [hex] at this; cases this
    · refine .inr ⟨h, n + 1, ?_⟩
      simp only at hn
      rw [plain_append, hn]
      simp [endSent, hex, List.replicate_succ']
  | finish hex =>
    have hs := hs _ rfl
    refine ⟨by simp, ?_⟩
    rintro o ⟨⟩
    exact keep hs Iff.rfl (by simp [endSent, hex])
  | panic hex =>
    have hs := hs _ rfl
    refine ⟨by simp, ?_⟩
    rintro o ⟨⟩
    exact keep hs Iff.rfl (by simp [endSent, hex])
  | checkSet hex =>
    have hs := hs _ rfl
    refine ⟨by simp, ?_⟩
    rintro o ⟨⟩
    exact keep hs Iff.rfl (by simp [endSent, hex])
  | checkClear hex =>
    have hs := hs _ rfl
    refine ⟨by simp, ?_⟩
    rintro o ⟨⟩
    exact keep hs Iff.rfl (by simp [endSent, hex])
  | store hex =>
    have hs := hs _ rfl
    refine ⟨by simp, ?_⟩
    rintro o ⟨⟩
    exact keep hs Iff.rfl (by simp [endSent, hex])
  | unstored hex =>
    have hs := hs _ rfl
    refine ⟨by simp, ?_⟩
    rintro o ⟨⟩
    exact keep hs Iff.rfl (by simp [endSent, hex])
  | fail hex =>
    have hs := hs _ rfl
    refine ⟨by simp, ?_⟩
    rintro o ⟨⟩
    exact keep hs Iff.rfl (by simp [endSent, hex])
  | @publish _ _ _ final hex =>
    have hs := hs _ rfl
    have hw := hg.worker _ rfl
    rw [hex] at hw
    refine ⟨by simp, ?_⟩
    rintro o ⟨⟩
    rcases hs with ⟨h, -⟩ | ⟨h, n, hn⟩
    · have := hg.early _ rfl (.inl h)
      rw [hex] at this; cases this
    · refine .inr ⟨h, n, ?_⟩
      simp only at hn
      rw [plain_append, hn]
      cases final
      case running => exact hw.2.elim
      all_goals simp [endSent, hex, endOf, finalKind]
  | exit hex =>
    have hs := hs _ rfl
    refine ⟨by simp, ?_⟩
    rintro o ⟨⟩
    exact keep hs Iff.rfl (by simp [endSent, hex])
  | cancelFlag =>
    have hs := hs _ rfl
    refine ⟨by simp, ?_⟩
    rintro o ⟨⟩
    exact keep hs Iff.rfl rfl
  | @cancelStatus o₀ r e =>
    have hs := hs _ rfl
    have hw := hg.worker _ rfl
    refine ⟨by simp, ?_⟩
    rintro o ⟨⟩
    refine keep hs Iff.rfl ?_
    unfold endSent
    cases hwk : o₀.worker <;> simp only
    by_cases hr : o₀.status = .running
    · rw [hwk, hr] at hw
      exact hw.elim
    · rw [if_neg hr]
  | cancelSend =>
    have hs := hs _ rfl
    refine ⟨by simp, ?_⟩
    rintro o ⟨⟩
    rw [plain_append]
    simpa using hs
  | @cleanup o₀ r e =>
    have hs := hs _ rfl
    obtain ⟨h1, h2, -, -, h5⟩ := cleaned_fields o₀
    refine ⟨by simp, ?_⟩
    rintro o ⟨⟩
    refine keep hs ?_ (by unfold endSent; rw [h1, h2])
    rcases h5 with h5 | ⟨h5, h6⟩
    · rw [h5]
    · rw [h5, h6]; simp
  | storeResult => exact ⟨h0, hs⟩

/-- C46: apart from cancellations, the events of an operation are `Started`, then
progress, then at most one end; `Completed` or `Failed` is announced before it is
reported, and only then. -/
theorem C46_events {acts : List Act} {s : Sys} (hr : ReachedBy acts s) (id : Nat) :
    InOrder ((seen s id).filter (fun k => k != .cancelled)) ∧
    (s.getStatus id = some .completed → .completed ∈ seen s id) ∧
    (∀ e, s.getStatus id = some (.failed e) → .failed ∈ seen s id) := by
  have key : ∀ (acts done : List Act) (s : Sys), LongOps.Inv s → Good id done (s.view id) →
      ((s.view id).op = none → plain (s.view id).evs = []) →
      (∀ o, (s.view id).op = some o → Sent o (plain (s.view id).evs)) →
      ∀ s', s.run acts = some s' →
      ((s'.view id).op = none → plain (s'.view id).evs = []) ∧
      (∀ o, (s'.view id).op = some o → Sent o (plain (s'.view id).evs)) := by
    intro acts
    induction acts with
    | nil => intro done s _ _ h0 h1 s' h; cases h; exact ⟨h0, h1⟩
    | cons a as ih =>
      intro done s hi hg h0 h1 s' h
      obtain ⟨s1, h2, h3⟩ := Option.bind_eq_some_iff.1 h
      have hl := lstep_of_step hi h2 id
      have := sent_step hg hl h0 h1
      exact ih (done ++ [a]) s1 (hi.step h2) (hg.step hl) this.1 this.2 s' h3
  obtain ⟨h0, h1⟩ := key acts [] Sys.init Inv.init (Good.init id) (fun _ => rfl)
    (by simp [Sys.view, Sys.init]) s hr
  have hg := good_reached (id := id) hr
  have hseen : seen s id = (s.view id).evs := rfl
  have hmem : ∀ k, k ∈ plain (s.view id).evs → k ∈ seen s id := by
    intro k hk
    rw [hseen]
    exact (List.mem_filter.1 hk).1
  have hend : ∀ st, s.getStatus id = some st → st ≠ .running → st ≠ .cancelled →
      ∀ k ∈ endOf st, k ∈ seen s id := by
    intro st hst hn hc k hk
    obtain ⟨o, ho, hreg, hs⟩ := getStatus_some hst
    have hw := hg.worker o ho
    have hx : o.worker = .exited := by
      rw [hs] at hw
      cases hwk : o.worker <;> rw [hwk] at hw
      case returned => rcases hw.2.1 with h | h <;> contradiction
      case passed => rcases hw.2.1 with h | h <;> contradiction
      case decided => rcases hw.1 with h | h <;> contradiction
      case announced => rcases hw.1 with h | h <;> contradiction
      all_goals rcases hw.2 with h | h <;> contradiction
    rcases h1 o ho with ⟨h, -⟩ | ⟨-, n, h⟩
    · rw [hreg] at h; cases h
    · apply hmem
      rw [h]
      have : endSent o = endOf st := by unfold endSent; rw [hx, hs]
      rw [this]
      simp [hk]
  refine ⟨?_, fun h => hend _ h (by simp) (by simp) _ (by simp [endOf]),
    fun e h => hend _ h (by simp) (by simp) _ (by simp [endOf])⟩
  show InOrder (plain (s.view id).evs)
  cases ho : s.ops id with
  | none => exact .inl (h0 ho)
  | some o =>
    rcases h1 o ho with ⟨-, h⟩ | ⟨-, n, h⟩
    · exact .inl h
    · refine .inr ⟨n, endSent o, h, ?_⟩
      unfold endSent
      have hE : ∀ st, endOf st = [] ∨ endOf st = [.completed] ∨ endOf st = [.failed] := by
        intro st; cases st <;> simp [endOf]
      cases o.worker <;> first | exact hE _ | exact .inl rfl

example : ∃ s, ReachedBy completedRun s ∧
    seen s 1 = [.started, .progress, .completed] ∧ s.getStatus 1 = some .completed :=
  ⟨_, rfl, by decide, by decide⟩

end Verif
