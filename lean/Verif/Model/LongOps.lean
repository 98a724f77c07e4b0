/-
Background operations: `crates/common/src/long_operation.rs`.

The manager is used from several threads at once and every operation runs on a
thread of its own, so the model is a transition system: `Sys` is the shared
memory, an `Act` is one indivisible step of some thread (a critical section, or
an access to the cancel flag), and a schedule is a list of steps, in any order
that the code of each thread allows.
-/
namespace Verif.LongOps

/-- `OperationStatus`, long_operation.rs L124-129. -/
inductive Status where
  | running
  | completed
  | cancelled
  | failed (error : String)
deriving DecidableEq, Repr

/-- The value `is_finished` computes, long_operation.rs L202-207. -/
def Status.finished : Status → Bool
  | .running => false
  | _ => true

/-- `OperationProgress`, long_operation.rs L133-136. The percentage is an
integer here, a 32-bit float in the code; nothing is computed with it but the
clamping of `Progress.new`. -/
structure Progress where
  percentage : Int
  message : Option String
deriving DecidableEq, Repr

/-- `OperationProgress::new`, long_operation.rs L139-144. -/
def Progress.new (percentage : Int) (message : Option String) : Progress :=
  { percentage := max 0 (min percentage 100), message }

/-- What `operation.execute` returned, long_operation.rs L299, L301-315: a value
with its serialised form (`none` when serialising it fails), or an error. -/
inductive Outcome where
  | ok (json : Option String)
  | err (error : String)
deriving DecidableEq, Repr

/-- Where the operation's thread is in the closure of long_operation.rs
L276-345. -/
inductive Worker where
  /-- Not spawned yet. -/
  | none
  /-- Inside `operation.execute`, L299. -/
  | executing
  /-- `execute` returned; the cancel flag has not been read. -/
  | returned (out : Outcome)
  /-- The cancel flag was read and was clear, L301-304. -/
  | passed (out : Outcome)
  /-- `final_status` is computed, L316. -/
  | decided (final : Status)
  /-- The final event is sent, L337-341; the status is not written. -/
  | announced (final : Status)
  /-- The status is written, L344. -/
  | exited
  /-- `execute` panicked: the thread unwound and nothing after L299 ran. -/
  | panicked
deriving DecidableEq, Repr

/-- How far `start_operation` (L249-357) got for an operation, and whether the
handle is still in the manager's map. -/
inductive Stage where
  /-- The id is allocated, L250-254. -/
  | allocated
  /-- The `Started` event is sent, L257-263. -/
  | announced
  /-- The thread is spawned, L276. -/
  | spawned
  /-- The handle is in the map, L354. -/
  | registered
  /-- `cleanup_finished_operations` removed the handle. -/
  | removed
deriving DecidableEq, Repr

/-- `OperationHandle` and the state of its thread, long_operation.rs L178-183.
The status, the progress and the flag are shared by handle and thread, so they
outlive the removal of the handle. -/
structure Op where
  status : Status
  progress : Progress
  flag : Bool
  worker : Worker
  stage : Stage
deriving DecidableEq, Repr

/-- The kinds of `LongOperationEvent`, common/src/event.rs. -/
inductive EvKind where
  | started
  | progress
  | completed
  | cancelled
  | failed
deriving DecidableEq, Repr

/-- An event sent to the hub. The payload is reduced to the operation's number. -/
structure Ev where
  kind : EvKind
  id : Nat
deriving DecidableEq, Repr

/-- `cancel_operation` (L372-390) holds the lock of the operations map while it
takes three steps. -/
inductive Cancelling where
  /-- The flag is set, L195. -/
  | flagSet
  /-- The status is updated, L196-199. -/
  | statusSet
deriving DecidableEq, Repr

/-- `LongOperationManager` with everything its operations share,
long_operation.rs L211-216. Operations are numbered; `opName` gives the string
id. The event hub is set; its queue is the list `events`, oldest first. -/
structure Sys where
  next : Nat
  ops : Nat → Option Op
  results : Nat → Option String
  events : List Ev
  lock : Option (Nat × Cancelling)

/-- `LongOperationManager::new`, long_operation.rs L234-241. -/
def Sys.init : Sys where
  next := 0
  ops := fun _ => none
  results := fun _ => none
  events := []
  lock := none

/-- The id string, long_operation.rs L253. -/
def opName (n : Nat) : String := "op_" ++ toString n

/-- Replace the record of operation `id`. -/
def Sys.setOp (s : Sys) (id : Nat) (o : Op) : Sys :=
  { s with ops := fun i => if i = id then some o else s.ops i }

/-- `event_hub.send_event`. -/
def Sys.send (s : Sys) (kind : EvKind) (id : Nat) : Sys :=
  { s with events := s.events ++ [⟨kind, id⟩] }

/-- `results.insert`. -/
def Sys.setResult (s : Sys) (id : Nat) (json : String) : Sys :=
  { s with results := fun i => if i = id then some json else s.results i }

/-- The event that announces a final status, long_operation.rs L320-336. -/
def finalKind : Status → EvKind
  | .completed => .completed
  | .cancelled => .cancelled
  | .failed _ => .failed
  | .running => .progress

/-- One indivisible step of one of the threads. -/
inductive Act where
  /-- `start_operation` allocates an id. -/
  | alloc
  /-- `start_operation` sends the `Started` event. -/
  | announce (id : Nat)
  /-- `start_operation` spawns the thread. -/
  | spawn (id : Nat)
  /-- `start_operation` puts the handle in the map. -/
  | register (id : Nat)
  /-- The operation calls its progress callback. -/
  | report (id : Nat) (p : Progress)
  /-- The operation's `execute` returns. -/
  | finish (id : Nat) (out : Outcome)
  /-- The operation's `execute` panics. -/
  | panic (id : Nat)
  /-- The thread reads the cancel flag. -/
  | check (id : Nat)
  /-- The thread stores the result and computes the final status. -/
  | conclude (id : Nat)
  /-- The thread sends the final event. -/
  | publish (id : Nat)
  /-- The thread writes the final status. -/
  | exit (id : Nat)
  /-- `cancel_operation` finds the handle and sets the flag. -/
  | cancelFlag (id : Nat)
  /-- `cancel_operation` updates the status. -/
  | cancelStatus
  /-- `cancel_operation` sends its event and returns. -/
  | cancelSend
  /-- `cleanup_finished_operations`. -/
  | cleanup
  /-- `store_operation_result`. -/
  | storeResult (id : Nat) (json : String)
deriving DecidableEq, Repr

/-- `start_operation` up to the allocation, L250-254, L265-267: the fresh id with
the initial status, progress and flag. -/
def Sys.alloc (s : Sys) : Sys :=
  { s with next := s.next + 1 }.setOp (s.next + 1)
    { status := .running, progress := Progress.new 0 none, flag := false,
      worker := .none, stage := .allocated }

/-- The rest of `start_operation`, L256-263, L276, L354. The insertion waits for
the lock of the map. -/
def Sys.announce (s : Sys) (id : Nat) (o : Op) : Option Sys :=
  if o.stage = .allocated then
    some ((s.setOp id { o with stage := .announced }).send .started id)
  else none

@[inherit_doc Sys.announce]
def Sys.spawn (s : Sys) (id : Nat) (o : Op) : Option Sys :=
  if o.stage = .announced then
    some (s.setOp id { o with stage := .spawned, worker := .executing })
  else none

@[inherit_doc Sys.announce]
def Sys.register (s : Sys) (id : Nat) (o : Op) : Option Sys :=
  if o.stage = .spawned ∧ s.lock = none then
    some (s.setOp id { o with stage := .registered })
  else none

/-- The progress callback, L277-297. -/
def Sys.report (s : Sys) (id : Nat) (o : Op) (p : Progress) : Option Sys :=
  if o.worker = .executing then
    some ((s.setOp id { o with progress := p }).send .progress id)
  else none

/-- `operation.execute` returns, L299. -/
def Sys.finish (s : Sys) (id : Nat) (o : Op) (out : Outcome) : Option Sys :=
  if o.worker = .executing then some (s.setOp id { o with worker := .returned out }) else none

/-- `operation.execute` panics, L299. -/
def Sys.panic (s : Sys) (id : Nat) (o : Op) : Option Sys :=
  if o.worker = .executing then some (s.setOp id { o with worker := .panicked }) else none

/-- `cancel_flag_clone.load`, L301-303. -/
def Sys.check (s : Sys) (id : Nat) (o : Op) : Option Sys :=
  match o.worker with
  | .returned out =>
      some (s.setOp id { o with worker := if o.flag then .decided .cancelled else .passed out })
  | _ => none

/-- Storing the result and choosing the final status, L304-315. -/
def Sys.conclude (s : Sys) (id : Nat) (o : Op) : Option Sys :=
  match o.worker with
  | .passed (.ok (some json)) =>
      some ((s.setOp id { o with worker := .decided .completed }).setResult id json)
  | .passed (.ok none) => some (s.setOp id { o with worker := .decided .completed })
  | .passed (.err e) => some (s.setOp id { o with worker := .decided (.failed e) })
  | _ => none

/-- The final event, L318-342. -/
def Sys.publish (s : Sys) (id : Nat) (o : Op) : Option Sys :=
  match o.worker with
  | .decided final =>
      some ((s.setOp id { o with worker := .announced final }).send (finalKind final) id)
  | _ => none

/-- The status write, L344. -/
def Sys.exit (s : Sys) (id : Nat) (o : Op) : Option Sys :=
  match o.worker with
  | .announced final => some (s.setOp id { o with worker := .exited, status := final })
  | _ => none

/-- `cancel_operation`, L372-376, and the flag store of `cancel`, L195. -/
def Sys.cancelFlag (s : Sys) (id : Nat) (o : Op) : Option Sys :=
  if o.stage = .registered ∧ s.lock = none then
    some { s.setOp id { o with flag := true } with lock := some (id, .flagSet) }
  else none

/-- The status update of `cancel`, L196-199. -/
def Sys.cancelStatus (s : Sys) : Option Sys :=
  match s.lock with
  | some (id, .flagSet) =>
      match s.ops id with
      | some o =>
          some { s.setOp id { o with status :=
                    if o.status = .running then .cancelled else o.status } with
                 lock := some (id, .statusSet) }
      | none => none
  | _ => none

/-- The event of `cancel_operation` and its return, L377-386. -/
def Sys.cancelSend (s : Sys) : Option Sys :=
  match s.lock with
  | some (id, .statusSet) => some { s.send .cancelled id with lock := none }
  | _ => none

/-- What `cleanup_finished_operations` does to one operation, L400. -/
def Op.cleaned (o : Op) : Op :=
  if o.stage = .registered ∧ o.status.finished = true then { o with stage := .removed } else o

/-- `cleanup_finished_operations`, L398-401. -/
def Sys.cleanup (s : Sys) : Option Sys :=
  if s.lock = none then some { s with ops := fun i => (s.ops i).map Op.cleaned } else none

/-- Apply a step of operation `id`, if it exists. -/
def Sys.withOp (s : Sys) (id : Nat) (f : Op → Option Sys) : Option Sys :=
  (s.ops id).bind f

/-- One step of a schedule; `none` when the thread is not at that point. -/
def Sys.step (s : Sys) : Act → Option Sys
  | .alloc => some s.alloc
  | .announce id => s.withOp id (s.announce id)
  | .spawn id => s.withOp id (s.spawn id)
  | .register id => s.withOp id (s.register id)
  | .report id p => s.withOp id fun o => s.report id o p
  | .finish id out => s.withOp id fun o => s.finish id o out
  | .panic id => s.withOp id (s.panic id)
  | .check id => s.withOp id (s.check id)
  | .conclude id => s.withOp id (s.conclude id)
  | .publish id => s.withOp id (s.publish id)
  | .exit id => s.withOp id (s.exit id)
  | .cancelFlag id => s.withOp id (s.cancelFlag id)
  | .cancelStatus => s.cancelStatus
  | .cancelSend => s.cancelSend
  | .cleanup => s.cleanup
  | .storeResult id json => some (s.setResult id json)

/-- A schedule; `none` when a step is not possible where it is asked for. -/
def Sys.run (s : Sys) : List Act → Option Sys
  | [] => some s
  | a :: as => (s.step a).bind fun s' => s'.run as

/-- `get_operation_status`, L360-363. -/
def Sys.getStatus (s : Sys) (id : Nat) : Option Status :=
  (s.ops id).bind fun o => if o.stage = .registered then some o.status else none

/-- `is_operation_finished`, L392-395. -/
def Sys.isFinished (s : Sys) (id : Nat) : Option Bool :=
  (s.getStatus id).map Status.finished

/-- `get_operation_progress`, L366-369. -/
def Sys.getProgress (s : Sys) (id : Nat) : Option Progress :=
  (s.ops id).bind fun o => if o.stage = .registered then some o.progress else none

/-- `get_operation_result`, L427-430. -/
def Sys.getResult (s : Sys) (id : Nat) : Option String := s.results id

end Verif.LongOps
