/-
Model of the event paths:

* `crates/common/src/event.rs` L179-224: `EventBuffer`, the per-unit-of-work buffer;
* `crates/direct_access/src/block/units_of_work.rs` L39-92 (every unit of work in the workspace
  repeats this code): how a unit of work drives its buffer and the event hub;
* `crates/public_api/src/inner.rs` L145-213, L400-409 and `crates/public_api/src/events.rs`
  L77-106: the document's pending events and its two delivery channels.

Event payloads are an arbitrary type `E`.
-/
namespace Verif

/-- `event.rs` L179-182. -/
structure EventBuffer (E : Type) where
  buffering : Bool := false
  pending : List E := []

namespace EventBuffer
variable {E : Type}

/-- `begin_buffering`, `event.rs` L193-196: clears what an earlier cycle left. -/
def beginBuffering (_ : EventBuffer E) : EventBuffer E := { buffering := true, pending := [] }

/-- `push`, `event.rs` L202-206: dropped unless buffering. -/
def push (b : EventBuffer E) (e : E) : EventBuffer E :=
  if b.buffering then { b with pending := b.pending ++ [e] } else b

/-- `flush`, `event.rs` L210-213: the events handed to the caller, and the new buffer. -/
def flush (b : EventBuffer E) : List E × EventBuffer E :=
  (b.pending, { buffering := false, pending := [] })

/-- `discard`, `event.rs` L216-219. -/
def discard (_ : EventBuffer E) : EventBuffer E := { buffering := false, pending := [] }

end EventBuffer

/-- One call on an `EventBuffer`. -/
inductive BufOp (E : Type) where
  | start
  | push (e : E)
  | flush
  | discard

/-- A buffer together with everything `flush` handed out so far, in order. -/
def bufStep {E : Type} (s : EventBuffer E × List E) : BufOp E → EventBuffer E × List E
  | .start => (s.1.beginBuffering, s.2)
  | .push e => (s.1.push e, s.2)
  | .flush => (s.1.flush.2, s.2 ++ s.1.flush.1)
  | .discard => (s.1.discard, s.2)

/-- Everything handed out by the flushes of a sequence of calls on a new buffer
(`EventBuffer::new`, `event.rs` L185-190). -/
def published {E : Type} (ops : List (BufOp E)) : List E :=
  (ops.foldl bufStep ({}, [])).2

/-- The parts of a unit of work that concern events: is a transaction open, the buffer, and what
the event hub has been sent (`units_of_work.rs` L21-26). Committing or rolling back the store
itself is `Tx.commit`/`Tx.rollback` in `Model/Store`; both always succeed. -/
structure EventUow (E : Type) where
  open_ : Bool := false
  buf : EventBuffer E := {}
  hub : List E := []

namespace EventUow
variable {E : Type}

/-- `begin_transaction`, `units_of_work.rs` L40-44. -/
def beginTx (u : EventUow E) : EventUow E :=
  { u with open_ := true, buf := u.buf.beginBuffering }

/-- A repository pushing an event (every repository method gets the buffer,
`units_of_work.rs` L116-121). -/
def push (u : EventUow E) (e : E) : EventUow E := { u with buf := u.buf.push e }

/-- `commit`, `units_of_work.rs` L46-55. `none` models the error without a transaction. -/
def commit (u : EventUow E) : Option (EventUow E) :=
  if u.open_ then
    some { open_ := false, buf := u.buf.flush.2, hub := u.hub ++ u.buf.flush.1 }
  else none

/-- `rollback`, `units_of_work.rs` L57-64. -/
def rollback (u : EventUow E) : Option (EventUow E) :=
  if u.open_ then some { u with open_ := false, buf := u.buf.discard } else none

/-- `restore_to_savepoint`, `units_of_work.rs` L73-92: discards the buffer, which also stops
buffering, and sends `reset` at once. -/
def restoreToSavepoint (u : EventUow E) (reset : E) : Option (EventUow E) :=
  if u.open_ then some { u with buf := u.buf.discard, hub := u.hub ++ [reset] } else none

end EventUow

/-- The document's event state (`inner.rs` L75-81). A callback entry is the subscriber's number
and whether its `Subscription` is still held: `Subscription` owns the only strong reference to the
`alive` flag (`events.rs` L83-106), so "flag is true" and "strong count is positive" are the same
fact except inside `drop`, which the model takes as one step. -/
structure EventLog (E : Type) where
  pending : List E := []
  callbacks : List (Nat × Bool) := []
  callbackCursor : Nat := 0
  pollCursor : Nat := 0

namespace EventLog
variable {E : Type}

/-- `queue_event`, `inner.rs` L145-147. -/
def queue (l : EventLog E) (e : E) : EventLog E := { l with pending := l.pending ++ [e] }

/-- `trim_delivered_events`, `inner.rs` L206-213. -/
def trim (l : EventLog E) : EventLog E :=
  let m := min l.callbackCursor l.pollCursor
  if 0 < m then
    { l with pending := l.pending.drop m, callbackCursor := l.callbackCursor - m,
             pollCursor := l.pollCursor - m }
  else l

/-- `drain_poll_events`, `inner.rs` L154-163. -/
def poll (l : EventLog E) : List E × EventLog E :=
  if l.pending.length ≤ l.pollCursor then ([], l.trim)
  else (l.pending.drop l.pollCursor, { l with pollCursor := l.pending.length }.trim)

/-- `take_queued_events`, `inner.rs` L170-203: the batch is each new event with the callbacks to
run for it. -/
def take (l : EventLog E) : List (E × List Nat) × EventLog E :=
  if l.pending.length ≤ l.callbackCursor then ([], l)
  else
    let kept := l.callbacks.filter (·.2)
    let live := kept.map (·.1)
    let l' := { l with callbacks := kept, callbackCursor := l.pending.length }
    if live.isEmpty then ([], l')
    else ((l.pending.drop l.callbackCursor).map (fun e => (e, live)), l')

/-- `subscribe_inner`, `events.rs` L95-106. -/
def subscribe (l : EventLog E) (sub : Nat) : EventLog E :=
  { l with callbacks := l.callbacks ++ [(sub, true)] }

/-- Dropping a `Subscription`, `events.rs` L87-92. -/
def unsubscribe (l : EventLog E) (sub : Nat) : EventLog E :=
  { l with callbacks := l.callbacks.map (fun c => if c.1 = sub then (c.1, false) else c) }

end EventLog

/-- `dispatch_queued_events`, `inner.rs` L404-410: the sequence of callback invocations. -/
def dispatchOrder {E : Type} (batch : List (E × List Nat)) : List (Nat × E) :=
  batch.flatMap (fun p => p.2.map (fun sub => (sub, p.1)))

/-- One step of the document's users: every step runs under the document lock, so a schedule of any
number of threads is a list of steps. `take` grabs a batch under the lock; the callbacks of that
batch run later, outside the lock, as `deliver` steps (one invocation each) of the batch grabbed by
that `take`, named by the number `who` of the thread (or nested callback) that runs it. -/
inductive EvOp (E : Type) where
  | queue (e : E)
  | poll
  | take (who : Nat)
  | deliver (who : Nat)
  | subscribe (sub : Nat)
  | unsubscribe (sub : Nat)

/-- The event state, the invocations still to be made (with the thread that will make them, in the
order they were grabbed), and what was observed: events returned by polling, callback invocations
made. -/
structure EvSys (E : Type) where
  log : EventLog E := {}
  inflight : List (Nat × Nat × E) := []
  polled : List E := []
  invoked : List (Nat × E) := []

/-- One step. -/
def evStep {E : Type} (s : EvSys E) : EvOp E → EvSys E
  | .queue e => { s with log := s.log.queue e }
  | .poll => { s with log := s.log.poll.2, polled := s.polled ++ s.log.poll.1 }
  | .take who => { s with log := s.log.take.2,
                          inflight := s.inflight ++ (dispatchOrder s.log.take.1).map (who, ·) }
  | .deliver who =>
    match s.inflight.find? (fun c => c.1 == who) with
    | none => s
    | some c => { s with inflight := s.inflight.eraseP (fun c => c.1 == who),
                         invoked := s.invoked ++ [c.2] }
  | .subscribe sub => { s with log := s.log.subscribe sub }
  | .unsubscribe sub => { s with log := s.log.unsubscribe sub }

/-- A whole schedule, from a new document (`inner.rs` L380-394). -/
def evRun {E : Type} (s : EvSys E) (ops : List (EvOp E)) : EvSys E := ops.foldl evStep s

/-- The events a schedule queues. -/
def queuedBy {E : Type} : List (EvOp E) → List E
  | [] => []
  | .queue e :: r => e :: queuedBy r
  | _ :: r => queuedBy r

end Verif
