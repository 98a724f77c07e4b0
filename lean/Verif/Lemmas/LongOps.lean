import Verif.Model.LongOps

/-! What one step of a schedule does to one operation. -/
namespace Verif.LongOps

/-- What concerns operation `id`: its record, its result and its events. -/
structure View where
  op : Option Op
  result : Option String
  evs : List EvKind

def Sys.evsOf (s : Sys) (id : Nat) : List EvKind :=
  (s.events.filter (fun e => e.id == id)).map Ev.kind

def Sys.view (s : Sys) (id : Nat) : View := ⟨s.ops id, s.results id, s.evsOf id⟩

def freshOp : Op :=
  { status := .running, progress := Progress.new 0 none, flag := false,
    worker := .none, stage := .allocated }

inductive LStep (id : Nat) : Act → View → View → Prop
  | other {a v} : (∀ json, a ≠ .storeResult id json) → a ≠ .cancelFlag id → LStep id a v v
  | alloc {r e} : LStep id .alloc ⟨none, r, e⟩ ⟨some freshOp, r, e⟩
  | announce {o r e} : o.stage = .allocated →
      LStep id (.announce id) ⟨some o, r, e⟩
        ⟨some { o with stage := .announced }, r, e ++ [.started]⟩
  | spawn {o r e} : o.stage = .announced →
      LStep id (.spawn id) ⟨some o, r, e⟩
        ⟨some { o with stage := .spawned, worker := .executing }, r, e⟩
  | register {o r e} : o.stage = .spawned →
      LStep id (.register id) ⟨some o, r, e⟩ ⟨some { o with stage := .registered }, r, e⟩
  | report {o r e p} : o.worker = .executing →
      LStep id (.report id p) ⟨some o, r, e⟩
        ⟨some { o with progress := p }, r, e ++ [.progress]⟩
  | finish {o r e out} : o.worker = .executing →
      LStep id (.finish id out) ⟨some o, r, e⟩ ⟨some { o with worker := .returned out }, r, e⟩
  | panic {o r e} : o.worker = .executing →
      LStep id (.panic id) ⟨some o, r, e⟩ ⟨some { o with worker := .panicked }, r, e⟩
  | checkSet {o r e out} : o.worker = .returned out → o.flag = true →
      LStep id (.check id) ⟨some o, r, e⟩ ⟨some { o with worker := .decided .cancelled }, r, e⟩
  | checkClear {o r e out} : o.worker = .returned out → o.flag = false →
      LStep id (.check id) ⟨some o, r, e⟩ ⟨some { o with worker := .passed out }, r, e⟩
  | store {o r e json} : o.worker = .passed (.ok (some json)) →
      LStep id (.conclude id) ⟨some o, r, e⟩
        ⟨some { o with worker := .decided .completed }, some json, e⟩
  | unstored {o r e} : o.worker = .passed (.ok none) →
      LStep id (.conclude id) ⟨some o, r, e⟩ ⟨some { o with worker := .decided .completed }, r, e⟩
  | fail {o r e err} : o.worker = .passed (.err err) →
      LStep id (.conclude id) ⟨some o, r, e⟩
        ⟨some { o with worker := .decided (.failed err) }, r, e⟩
  | publish {o r e final} : o.worker = .decided final →
      LStep id (.publish id) ⟨some o, r, e⟩
        ⟨some { o with worker := .announced final }, r, e ++ [finalKind final]⟩
  | exit {o r e final} : o.worker = .announced final →
      LStep id (.exit id) ⟨some o, r, e⟩
        ⟨some { o with worker := .exited, status := final }, r, e⟩
  | cancelFlag {o r e} : o.stage = .registered →
      LStep id (.cancelFlag id) ⟨some o, r, e⟩ ⟨some { o with flag := true }, r, e⟩
  | cancelStatus {o r e} : o.flag = true → o.stage = .registered →
      LStep id .cancelStatus ⟨some o, r, e⟩
        ⟨some { o with status := if o.status = .running then .cancelled else o.status }, r, e⟩
  | cancelSend {o r e} : o.flag = true → o.stage = .registered → o.status ≠ .running →
      LStep id .cancelSend ⟨some o, r, e⟩ ⟨some o, r, e ++ [.cancelled]⟩
  | cleanup {o r e} : LStep id .cleanup ⟨some o, r, e⟩ ⟨some o.cleaned, r, e⟩
  | storeResult {o r e json} : LStep id (.storeResult id json) ⟨o, r, e⟩ ⟨o, some json, e⟩

/-- What holds of the whole system in every reachable state. -/
structure Inv (s : Sys) : Prop where
  bound : ∀ i o, s.ops i = some o → i ≤ s.next
  lock : ∀ i c, s.lock = some (i, c) →
    ∃ o, s.ops i = some o ∧ o.flag = true ∧ o.stage = .registered ∧
      (c = .statusSet → o.status ≠ .running)
  running : ∀ i o f, s.ops i = some o →
    (o.worker = .decided f ∨ o.worker = .announced f) → f ≠ .running

theorem Inv.init : Inv Sys.init :=
  ⟨by simp [Sys.init], by simp [Sys.init], by simp [Sys.init]⟩

theorem evsOf_send (s : Sys) (k : EvKind) (i id : Nat) :
    (s.send k i).evsOf id = if i = id then s.evsOf id ++ [k] else s.evsOf id := by
  unfold Sys.evsOf Sys.send
  by_cases h : i = id <;> simp [List.filter_append, h]

theorem withOp_some {s s' : Sys} {i : Nat} {f : Op → Option Sys} (h : s.withOp i f = some s') :
    ∃ o, s.ops i = some o ∧ f o = some s' := by
  unfold Sys.withOp at h
  cases ho : s.ops i with
  | none => rw [ho] at h; exact absurd h (by simp)
  | some o => rw [ho] at h; exact ⟨o, rfl, h⟩

theorem view_other {s s' : Sys} {id : Nat} (ho : s'.ops id = s.ops id)
    (hr : s'.results id = s.results id) (he : s'.evsOf id = s.evsOf id) :
    s'.view id = s.view id := by
  unfold Sys.view; rw [ho, hr, he]

theorem view_of {s : Sys} {id : Nat} {o : Op} (ho : s.ops id = some o) :
    s.view id = ⟨some o, s.results id, s.evsOf id⟩ := by
  unfold Sys.view; rw [ho]

theorem setOp_view (s : Sys) (i id : Nat) (o : Op) :
    (s.setOp i o).view id =
      if id = i then ⟨some o, s.results id, s.evsOf id⟩ else s.view id := by
  unfold Sys.view Sys.setOp
  by_cases h : id = i
  · simp [h, Sys.evsOf]
  · simp [h, Sys.evsOf]

theorem send_view (s : Sys) (k : EvKind) (i id : Nat) :
    (s.send k i).view id =
      if id = i then ⟨s.ops id, s.results id, s.evsOf id ++ [k]⟩ else s.view id := by
  unfold Sys.view
  rw [evsOf_send]
  by_cases h : id = i
  · simp [h, Sys.send]
  · rw [if_neg h, if_neg (show ¬ i = id from fun e => h e.symm)]; rfl

theorem setOp_evsOf (s : Sys) (i id : Nat) (o : Op) : (s.setOp i o).evsOf id = s.evsOf id := rfl

theorem setOp_ops (s : Sys) (i id : Nat) (o : Op) :
    (s.setOp i o).ops id = if id = i then some o else s.ops id := rfl

theorem setOp_results (s : Sys) (i id : Nat) (o : Op) :
    (s.setOp i o).results id = s.results id := rfl

/-- Every step is, seen from one operation, one of the listed steps. -/
theorem lstep_of_step {s s' : Sys} {a : Act} (hs : Inv s) (h : s.step a = some s') (id : Nat) :
    LStep id a (s.view id) (s'.view id) := by
  cases a with
  | alloc =>
    simp only [Sys.step, Option.some.injEq] at h
    subst h
    unfold Sys.alloc
    rw [setOp_view]
    by_cases e : id = s.next + 1
    · rw [if_pos e]
      have : s.ops id = none := by
        cases ho : s.ops id with
        | none => rfl
        | some o => have := hs.bound id o ho; omega
      unfold Sys.view
      rw [this]
      exact .alloc
    · rw [if_neg e]
      exact .other (by simp) (by simp)
  | announce i =>
    obtain ⟨o, ho, h⟩ := withOp_some h
    unfold Sys.announce at h
    split at h
    · rename_i hst
      cases h
      rw [send_view, setOp_view, setOp_ops, setOp_evsOf, setOp_results]
      by_cases e : id = i
      · subst e
        rw [if_pos rfl, if_pos rfl, view_of ho]
        exact .announce hst
      · rw [if_neg e, if_neg e]
        exact .other (by simp) (by simp)
    · cases h
  | spawn i =>
    obtain ⟨o, ho, h⟩ := withOp_some h
    unfold Sys.spawn at h
    split at h
    · rename_i hst
      cases h
      rw [setOp_view]
      by_cases e : id = i
      · subst e
        rw [if_pos rfl, view_of ho]
        exact .spawn hst
      · rw [if_neg e]
        exact .other (by simp) (by simp)
    · cases h
  | register i =>
    obtain ⟨o, ho, h⟩ := withOp_some h
    unfold Sys.register at h
    split at h
    · rename_i hst
      cases h
      rw [setOp_view]
      by_cases e : id = i
      · subst e
        rw [if_pos rfl, view_of ho]
        exact .register hst.1
      · rw [if_neg e]
        exact .other (by simp) (by simp)
    · cases h
  | report i p =>
    obtain ⟨o, ho, h⟩ := withOp_some h
    unfold Sys.report at h
    split at h
    · rename_i hst
      cases h
      rw [send_view, setOp_view, setOp_ops, setOp_evsOf, setOp_results]
      by_cases e : id = i
      · subst e
        rw [if_pos rfl, if_pos rfl, view_of ho]
        exact .report hst
      · rw [if_neg e, if_neg e]
        exact .other (by simp) (by simp)
    · cases h
  | finish i out =>
    obtain ⟨o, ho, h⟩ := withOp_some h
    unfold Sys.finish at h
    split at h
    · rename_i hst
      cases h
      rw [setOp_view]
      by_cases e : id = i
      · subst e
        rw [if_pos rfl, view_of ho]
        exact .finish hst
      · rw [if_neg e]
        exact .other (by simp) (by simp)
    · cases h
  | panic i =>
    obtain ⟨o, ho, h⟩ := withOp_some h
    unfold Sys.panic at h
    split at h
    · rename_i hst
      cases h
      rw [setOp_view]
      by_cases e : id = i
      · subst e
        rw [if_pos rfl, view_of ho]
        exact .panic hst
      · rw [if_neg e]
        exact .other (by simp) (by simp)
    · cases h
  | check i =>
    obtain ⟨o, ho, h⟩ := withOp_some h
    unfold Sys.check at h
    split at h
    · rename_i out hst
      cases h
      rw [setOp_view]
      by_cases e : id = i
      · subst e
        rw [if_pos rfl, view_of ho]
        by_cases hf : o.flag = true
        · rw [if_pos hf]
          exact .checkSet hst hf
        · rw [if_neg hf]
          exact .checkClear hst (by simpa using hf)
      · rw [if_neg e]
        exact .other (by simp) (by simp)
    · cases h
  | conclude i =>
    obtain ⟨o, ho, h⟩ := withOp_some h
    unfold Sys.conclude at h
    split at h
    · rename_i json hst
      cases h
      by_cases e : id = i
      · subst e
        rw [view_of ho]
        have : ((s.setOp id { o with worker := .decided .completed }).setResult id json).view id
            = ⟨some { o with worker := .decided .completed }, some json, s.evsOf id⟩ := by
          simp [Sys.view, Sys.setResult, Sys.setOp, Sys.evsOf]
        rw [this]
        exact .store hst
      · have hv : ((s.setOp i { o with worker := .decided .completed }).setResult i json).view id
            = s.view id := view_other (if_neg e) (if_neg e) rfl
        rw [hv]
        exact .other (by simp) (by simp)
    · rename_i hst
      cases h
      rw [setOp_view]
      by_cases e : id = i
      · subst e
        rw [if_pos rfl, view_of ho]
        exact .unstored hst
      · rw [if_neg e]
        exact .other (by simp) (by simp)
    · rename_i err hst
      cases h
      rw [setOp_view]
      by_cases e : id = i
      · subst e
        rw [if_pos rfl, view_of ho]
        exact .fail hst
      · rw [if_neg e]
        exact .other (by simp) (by simp)
    · cases h
  | publish i =>
    obtain ⟨o, ho, h⟩ := withOp_some h
    unfold Sys.publish at h
    split at h
    · rename_i f hst
      cases h
      rw [send_view, setOp_view, setOp_ops, setOp_evsOf, setOp_results]
      by_cases e : id = i
      · subst e
        rw [if_pos rfl, if_pos rfl, view_of ho]
        exact .publish hst
      · rw [if_neg e, if_neg e]
        exact .other (by simp) (by simp)
    · cases h
  | exit i =>
    obtain ⟨o, ho, h⟩ := withOp_some h
    unfold Sys.exit at h
    split at h
    · rename_i f hst
      cases h
      rw [setOp_view]
      by_cases e : id = i
      · subst e
        rw [if_pos rfl, view_of ho]
        exact .exit hst
      · rw [if_neg e]
        exact .other (by simp) (by simp)
    · cases h
  | cancelFlag i =>
    obtain ⟨o, ho, h⟩ := withOp_some h
    unfold Sys.cancelFlag at h
    split at h
    · rename_i hst
      cases h
      have hv : ∀ x : Option (Nat × Cancelling),
          ({ s.setOp i { o with flag := true } with lock := x } : Sys).view id
            = (s.setOp i { o with flag := true }).view id := fun _ => rfl
      rw [hv, setOp_view]
      by_cases e : id = i
      · subst e
        rw [if_pos rfl, view_of ho]
        exact .cancelFlag hst.1
      · rw [if_neg e]
        exact .other (by simp) (by simpa using fun h => e h.symm)
    · cases h
  | cancelStatus =>
    simp only [Sys.step] at h
    unfold Sys.cancelStatus at h
    split at h
    · rename_i i hl
      obtain ⟨o, ho, hf, hreg, -⟩ := hs.lock _ _ hl
      rw [ho] at h
      cases h
      have hv : ∀ (x : Option (Nat × Cancelling)) (y : Op),
          ({ s.setOp i y with lock := x } : Sys).view id = (s.setOp i y).view id := fun _ _ => rfl
      rw [hv, setOp_view]
      by_cases e : id = i
      · subst e
        rw [if_pos rfl, view_of ho]
        exact .cancelStatus hf hreg
      · rw [if_neg e]
        exact .other (by simp) (by simp)
    · cases h
  | cancelSend =>
    simp only [Sys.step] at h
    unfold Sys.cancelSend at h
    split at h
    · rename_i i hl
      obtain ⟨o, ho, hf, hreg, hnr⟩ := hs.lock _ _ hl
      cases h
      have hv : ∀ (x : Option (Nat × Cancelling)),
          ({ s.send .cancelled i with lock := x } : Sys).view id
            = (s.send .cancelled i).view id := fun _ => rfl
      rw [hv, send_view]
      by_cases e : id = i
      · subst e
        rw [if_pos rfl, view_of ho, ho]
        exact .cancelSend hf hreg (hnr rfl)
      · rw [if_neg e]
        exact .other (by simp) (by simp)
    · cases h
  | cleanup =>
    simp only [Sys.step] at h
    unfold Sys.cleanup at h
    split at h
    · cases h
      cases ho : s.ops id with
      | none =>
        have : ({ s with ops := fun i => (s.ops i).map Op.cleaned } : Sys).view id = s.view id :=
          view_other (by simp [ho]) rfl rfl
        rw [this]
        exact .other (by simp) (by simp)
      | some o =>
        have : ({ s with ops := fun i => (s.ops i).map Op.cleaned } : Sys).view id
            = ⟨some o.cleaned, s.results id, s.evsOf id⟩ := by
          simp [Sys.view, ho, Sys.evsOf]
        rw [this, view_of ho]
        exact .cleanup
    · cases h
  | storeResult i json =>
    simp only [Sys.step, Option.some.injEq] at h
    subst h
    by_cases e : id = i
    · subst e
      have : (s.setResult id json).view id = ⟨s.ops id, some json, s.evsOf id⟩ := by
        simp [Sys.view, Sys.setResult, Sys.evsOf]
      rw [this]
      exact .storeResult
    · have hv : (s.setResult i json).view id = s.view id := view_other rfl (if_neg e) rfl
      rw [hv]
      exact .other (fun j h => by cases h; exact e rfl) (by simp)

/-- Seen from one operation, the record never disappears. -/
theorem LStep.kept {id : Nat} {a : Act} {v v' : View} (h : LStep id a v v') {o : Op}
    (ho : v.op = some o) : ∃ o', v'.op = some o' := by
  cases h <;> first | exact ⟨o, ho⟩ | exact ⟨_, rfl⟩ | cases ho

theorem step_next {s s' : Sys} {a : Act} (h : s.step a = some s') :
    s'.next = if a = .alloc then s.next + 1 else s.next := by
  cases a <;> simp only [Sys.step, Sys.withOp] at h
  case alloc => cases h; rfl
  case storeResult => cases h; rfl
  case cancelStatus =>
    unfold Sys.cancelStatus at h
    split at h
    · split at h
      · cases h; rfl
      · cases h
    · cases h
  case cancelSend =>
    unfold Sys.cancelSend at h
    split at h
    · cases h; rfl
    · cases h
  case cleanup =>
    unfold Sys.cleanup at h
    split at h
    · cases h; rfl
    · cases h
  all_goals
    obtain ⟨o, -, h⟩ := Option.bind_eq_some_iff.1 h
    first
      | (unfold Sys.announce at h; split at h <;> cases h; rfl)
      | (unfold Sys.spawn at h; split at h <;> cases h; rfl)
      | (unfold Sys.register at h; split at h <;> cases h; rfl)
      | (unfold Sys.report at h; split at h <;> cases h; rfl)
      | (unfold Sys.finish at h; split at h <;> cases h; rfl)
      | (unfold Sys.panic at h; split at h <;> cases h; rfl)
      | (unfold Sys.check at h; split at h <;> cases h; rfl)
      | (unfold Sys.conclude at h; split at h <;> cases h <;> rfl)
      | (unfold Sys.publish at h; split at h <;> cases h; rfl)
      | (unfold Sys.exit at h; split at h <;> cases h; rfl)
      | (unfold Sys.cancelFlag at h; split at h <;> cases h; rfl)

/-- How the lock of the map moves. -/
theorem step_lock {s s' : Sys} {a : Act} (h : s.step a = some s') :
    (s'.lock = s.lock ∧ a ≠ .cancelStatus ∧ a ≠ .cancelSend ∧ (a = .cleanup → s.lock = none)) ∨
    (∃ i, a = .cancelFlag i ∧ s.lock = none ∧ s'.lock = some (i, .flagSet)) ∨
    (∃ i, a = .cancelStatus ∧ s.lock = some (i, .flagSet) ∧ s'.lock = some (i, .statusSet)) ∨
    (∃ i, a = .cancelSend ∧ s.lock = some (i, .statusSet) ∧ s'.lock = none) := by
  cases a <;> simp only [Sys.step, Sys.withOp] at h
  case alloc => cases h; exact .inl ⟨rfl, by simp, by simp, by simp⟩
  case storeResult => cases h; exact .inl ⟨rfl, by simp, by simp, by simp⟩
  case cancelStatus =>
    unfold Sys.cancelStatus at h
    split at h
    · rename_i i hl
      split at h
      · cases h; exact .inr (.inr (.inl ⟨i, rfl, hl, rfl⟩))
      · cases h
    · cases h
  case cancelSend =>
    unfold Sys.cancelSend at h
    split at h
    · rename_i i hl
      cases h; exact .inr (.inr (.inr ⟨i, rfl, hl, rfl⟩))
    · cases h
  case cleanup =>
    unfold Sys.cleanup at h
    split at h
    · rename_i hl
      cases h; exact .inl ⟨rfl, by simp, by simp, fun _ => hl⟩
    · cases h
  case cancelFlag i =>
    obtain ⟨o, -, h⟩ := Option.bind_eq_some_iff.1 h
    unfold Sys.cancelFlag at h
    split at h
    · rename_i hl
      cases h; exact .inr (.inl ⟨i, rfl, hl.2, rfl⟩)
    · cases h
  all_goals
    obtain ⟨o, -, h⟩ := Option.bind_eq_some_iff.1 h
    refine .inl ⟨?_, by simp, by simp, by simp⟩
    first
      | (unfold Sys.announce at h; split at h <;> cases h; rfl)
      | (unfold Sys.spawn at h; split at h <;> cases h; rfl)
      | (unfold Sys.register at h; split at h <;> cases h; rfl)
      | (unfold Sys.report at h; split at h <;> cases h; rfl)
      | (unfold Sys.finish at h; split at h <;> cases h; rfl)
      | (unfold Sys.panic at h; split at h <;> cases h; rfl)
      | (unfold Sys.check at h; split at h <;> cases h; rfl)
      | (unfold Sys.conclude at h; split at h <;> cases h <;> rfl)
      | (unfold Sys.publish at h; split at h <;> cases h; rfl)
      | (unfold Sys.exit at h; split at h <;> cases h; rfl)

theorem Inv.step {s s' : Sys} {a : Act} (hs : Inv s) (h : s.step a = some s') : Inv s' := by
  refine ⟨?_, ?_, ?_⟩
  · intro i o ho
    have hn := step_next h
    by_cases ha : a = .alloc
    · subst ha
      rw [if_pos rfl] at hn
      simp only [Sys.step, Option.some.injEq] at h
      subst h
      by_cases e : i = s.next + 1
      · rw [hn]; omega
      · have : s.ops i = some o := by
          rw [← ho]; exact (if_neg e).symm
        have := hs.bound i o this
        rw [hn]; omega
    · rw [if_neg ha] at hn
      rw [hn]
      have hl := lstep_of_step hs h i
      cases hv : s.ops i with
      | some o' => exact hs.bound i o' hv
      | none =>
        exfalso
        have hv' : (s'.view i).op = some o := ho
        have hv0 : (s.view i).op = none := hv
        generalize s.view i = v at hl hv0
        generalize s'.view i = v' at hl hv'
        cases hl <;> simp_all
  · intro i c hl
    have hstep := lstep_of_step hs h i
    have hview : ∀ o, (s'.view i).op = some o → s'.ops i = some o := fun _ h => h
    rcases step_lock h with ⟨h1, h2, h3, h4⟩ | ⟨j, rfl, h1, h2⟩ | ⟨j, rfl, h1, h2⟩ | ⟨j, rfl, h1, h2⟩
    · rw [h1] at hl
      obtain ⟨o, ho, hf, hreg, hst⟩ := hs.lock i c hl
      have hv : (s.view i).op = some o := ho
      have hr : ∀ f, (o.worker = .decided f ∨ o.worker = .announced f) → f ≠ .running :=
        fun f hf => hs.running i o f ho hf
      have ha : a ≠ .cleanup := by
        intro e; rw [h4 e] at hl; cases hl
      generalize s.view i = v at hstep hv
      obtain ⟨v', hv'⟩ : ∃ v', s'.view i = v' := ⟨_, rfl⟩
      rw [hv'] at hstep hview
      cases hstep <;> first
        | exact ⟨o, hview _ hv, hf, hreg, hst⟩
        | (cases hv; done)
        | (cases hv; refine ⟨_, hview _ rfl, hf, hreg, ?_⟩; first | exact hst | (intro _; exact hr _ (.inr ‹_›)))
        | (cases hv; exfalso; simp_all; done)
        | (cases hv; refine ⟨_, hview _ rfl, rfl, hreg, hst⟩)
    · rw [h2] at hl
      cases hl
      obtain ⟨o, ho, h⟩ := withOp_some h
      unfold Sys.cancelFlag at h
      split at h
      · rename_i hreg
        cases h
        exact ⟨_, if_pos rfl, rfl, hreg.1, by simp⟩
      · cases h
    · rw [h2] at hl
      cases hl
      obtain ⟨o, ho, hf, hreg, -⟩ := hs.lock i _ h1
      have hv : s.view i = _ := view_of ho
      simp only [Sys.step] at h
      unfold Sys.cancelStatus at h
      rw [h1] at h
      simp only [ho] at h
      cases h
      refine ⟨_, if_pos rfl, hf, hreg, ?_⟩
      intro _
      dsimp only
      split
      · simp
      · assumption
    · rw [h2] at hl
      cases hl
  · intro i o f ho hw
    have hl := lstep_of_step hs h i
    have hr : ∀ o f, (s.view i).op = some o →
        (o.worker = .decided f ∨ o.worker = .announced f) → f ≠ .running :=
      fun o f ho hf => hs.running i o f ho hf
    have hv : (s'.view i).op = some o := ho
    generalize s.view i = v at hl hr
    generalize s'.view i = v' at hl hv
    cases hl <;> first
      | exact hr o f hv hw
      | (cases hv; exact hr _ f rfl hw)
      | (cases hv; rcases hw with hw | hw <;> cases hw <;> simp; done)
      | (cases hv; rcases hw with hw | hw <;> cases hw; exact hr _ f rfl (.inl ‹_›))
      | (cases hv; refine hr _ f rfl ?_; unfold Op.cleaned at hw; split at hw <;> exact hw)

theorem Inv.run {acts : List Act} {s s' : Sys} (hs : Inv s) (h : s.run acts = some s') :
    Inv s' := by
  induction acts generalizing s with
  | nil => cases h; exact hs
  | cons a as ih =>
    obtain ⟨s1, h1, h2⟩ := Option.bind_eq_some_iff.1 h
    exact ih (hs.step h1) h2

/-- Induction over a schedule, seen from one operation. -/
theorem run_induct {id : Nat} (P : View → Prop) {acts : List Act} {s s' : Sys} (hs : Inv s)
    (h : s.run acts = some s') (h0 : P (s.view id))
    (hstep : ∀ a ∈ acts, ∀ v v', LStep id a v v' → P v → P v') : P (s'.view id) := by
  induction acts generalizing s with
  | nil => cases h; exact h0
  | cons a as ih =>
    obtain ⟨s1, h1, h2⟩ := Option.bind_eq_some_iff.1 h
    exact ih (hs.step h1) h2
      (hstep a (by simp) _ _ (lstep_of_step hs h1 id) h0)
      (fun b hb => hstep b (by simp [hb]))

end Verif.LongOps
