import Verif.Model.Events

/-!
C29 and C30: what the event buffer publishes and how document events reach their two channels.
-/
namespace Verif

/-! ### C29 -/

section C29
variable {E : Type}

private theorem foldl_push (es : List E) : ∀ (b : EventBuffer E) (out : List E),
    (es.map BufOp.push).foldl bufStep (b, out)
      = ({ b with pending := if b.buffering then b.pending ++ es else b.pending }, out) := by
  induction es with
  | nil => intro b out; cases b; simp
  | cons e r ih =>
    intro b out
    simp only [List.map_cons, List.foldl_cons, bufStep, EventBuffer.push]
    cases h : b.buffering <;> simp [ih, h]

/-- On commit the events queued since the transaction began are published, all of them, once and in
order, after everything published before, whatever calls came before. -/
theorem C29_flush_publishes (pre : List (BufOp E)) (es : List E) :
    published (pre ++ [.start] ++ es.map .push ++ [.flush]) = published pre ++ es := by
  simp [published, List.foldl_append, foldl_push, bufStep, EventBuffer.beginBuffering,
    EventBuffer.flush]

/-- Discarding (rollback) makes the transaction as if it had never run: nothing it queued is ever
published, now or by any later call. -/
theorem C29_discard_forgets (pre : List (BufOp E)) (es : List E) (post : List (BufOp E)) :
    published (pre ++ [.start] ++ es.map .push ++ [.discard] ++ post)
      = published (pre ++ [.discard] ++ post) := by
  simp [published, List.foldl_append, foldl_push, bufStep, EventBuffer.beginBuffering,
    EventBuffer.discard]

/-- Events queued after a commit or a rollback, outside any transaction, are not published and leak
into no later transaction. -/
theorem C29_outside_dropped (pre : List (BufOp E)) (close : BufOp E)
    (hc : close = .flush ∨ close = .discard) (es : List E) (post : List (BufOp E)) :
    published (pre ++ [close] ++ es.map .push ++ post) = published (pre ++ [close] ++ post) := by
  rcases hc with rfl | rfl <;>
    simp [published, List.foldl_append, foldl_push, bufStep, EventBuffer.flush,
      EventBuffer.discard]

/-- A transaction abandoned without commit or rollback leaks nothing into the next one. -/
theorem C29_abandoned_forgotten (pre : List (BufOp E)) (es : List E) (post : List (BufOp E)) :
    published (pre ++ [.start] ++ es.map .push ++ [.start] ++ post)
      = published (pre ++ [.start] ++ post) := by
  simp [published, List.foldl_append, foldl_push, bufStep, EventBuffer.beginBuffering]

/-- How a transaction ended. -/
inductive TxEnd where
  | committed | rolledBack | abandoned
deriving DecidableEq

/-- A unit of work running one transaction: begin, queue the events, end. -/
def EventUow.runTx (u : EventUow E) (t : List E × TxEnd) : Option (EventUow E) :=
  let w := t.1.foldl EventUow.push u.beginTx
  match t.2 with
  | .committed => w.commit
  | .rolledBack => w.rollback
  | .abandoned => some w

/-- A unit of work running transactions one after the other. -/
def EventUow.runTxs (u : EventUow E) : List (List E × TxEnd) → Option (EventUow E)
  | [] => some u
  | t :: r => (u.runTx t).bind (fun u' => u'.runTxs r)

private theorem foldl_uow_push (es : List E) : ∀ (u : EventUow E), u.buf.buffering = true →
    es.foldl EventUow.push u = { u with buf := { u.buf with pending := u.buf.pending ++ es } } := by
  induction es with
  | nil => intro u _; simp
  | cons e r ih =>
    intro u h
    rw [List.foldl_cons, ih]
    · simp [EventUow.push, EventBuffer.push, h]
    · simp [EventUow.push, EventBuffer.push, h]

/-- For every history of transactions of a unit of work, the event hub is sent exactly the events of
the committed transactions, in order; no call fails. -/
theorem C29_hub (txs : List (List E × TxEnd)) :
    ∃ u, EventUow.runTxs ({} : EventUow E) txs = some u ∧
      u.hub = (txs.filter (fun t => t.2 = .committed)).flatMap (·.1) := by
  suffices H : ∀ (u : EventUow E), ∃ u', u.runTxs txs = some u' ∧
      u'.hub = u.hub ++ (txs.filter (fun t => t.2 = .committed)).flatMap (·.1) by
    simpa using H {}
  induction txs with
  | nil => intro u; exact ⟨u, rfl, by simp⟩
  | cons t r ih =>
    intro u
    obtain ⟨es, k⟩ := t
    have hw : es.foldl EventUow.push u.beginTx
        = { u with open_ := true, buf := { buffering := true, pending := es } } := by
      rw [foldl_uow_push _ _ (by simp [EventUow.beginTx, EventBuffer.beginBuffering])]
      simp [EventUow.beginTx, EventBuffer.beginBuffering]
    cases k
    · obtain ⟨u', h1, h2⟩ := ih { open_ := false, buf := {}, hub := u.hub ++ es }
      refine ⟨u', ?_, ?_⟩
      · simpa [EventUow.runTxs, EventUow.runTx, hw, EventUow.commit, EventBuffer.flush] using h1
      · simp [h2]
    · obtain ⟨u', h1, h2⟩ := ih { open_ := false, buf := {}, hub := u.hub }
      refine ⟨u', ?_, ?_⟩
      · simpa [EventUow.runTxs, EventUow.runTx, hw, EventUow.rollback, EventBuffer.discard] using h1
      · simp [h2]
    · obtain ⟨u', h1, h2⟩ :=
        ih { u with open_ := true, buf := { buffering := true, pending := es } }
      refine ⟨u', ?_, ?_⟩
      · simpa [EventUow.runTxs, EventUow.runTx, hw] using h1
      · simp [h2]

example : (EventUow.runTxs ({} : EventUow Nat)
    [([1, 2], .committed), ([3], .rolledBack), ([4], .abandoned), ([5], .committed)]).map (·.hub)
    = some [1, 2, 5] := rfl

/-- After restoring a save point inside a transaction (what undoing a relationship change does) the
buffer no longer records: work queued after it and then committed is never published. -/
theorem C29_after_restore_fails (u : EventUow E) (reset e : E) :
    ∃ v w, u.beginTx.restoreToSavepoint reset = some v ∧ (v.push e).commit = some w ∧
      w.hub = u.hub ++ [reset] := by
  refine ⟨_, _, rfl, rfl, ?_⟩
  simp [EventUow.push, EventBuffer.push, EventBuffer.discard, EventUow.beginTx, EventBuffer.flush]

end C29

/-! ### C30 -/

section C30
variable {E : Type}

theorem queuedBy_append (a b : List (EvOp E)) : queuedBy (a ++ b) = queuedBy a ++ queuedBy b := by
  induction a with
  | nil => rfl
  | cons o r ih => cases o <;> simp [queuedBy, ih]

/-- Cursors stay within the pending list. -/
def EventLog.Ok (l : EventLog E) : Prop :=
  l.callbackCursor ≤ l.pending.length ∧ l.pollCursor ≤ l.pending.length

/-- Events not yet handed to the polling reader. -/
def EventLog.unpolled (l : EventLog E) : List E := l.pending.drop l.pollCursor

/-- Events not yet handed to the callbacks. -/
def EventLog.untaken (l : EventLog E) : List E := l.pending.drop l.callbackCursor

theorem EventLog.trim_ok {l : EventLog E} (h : l.Ok) :
    l.trim.Ok ∧ l.trim.unpolled = l.unpolled ∧ l.trim.untaken = l.untaken ∧
      l.trim.callbacks = l.callbacks := by
  unfold EventLog.trim
  simp only [EventLog.Ok] at h
  dsimp only
  split
  · refine ⟨⟨?_, ?_⟩, ?_, ?_, rfl⟩
    · simp only [List.length_drop]; omega
    · simp only [List.length_drop]; omega
    · simp only [EventLog.unpolled, List.drop_drop]
      congr 1; omega
    · simp only [EventLog.untaken, List.drop_drop]
      congr 1; omega
  · exact ⟨h, rfl, rfl, rfl⟩

theorem EventLog.poll_ok {l : EventLog E} (h : l.Ok) :
    l.poll.2.Ok ∧ l.poll.1 = l.unpolled ∧ l.poll.2.unpolled = [] ∧ l.poll.2.untaken = l.untaken ∧
      l.poll.2.callbacks = l.callbacks := by
  unfold EventLog.poll
  split
  · rename_i hle
    have ht := EventLog.trim_ok h
    have he : l.unpolled = [] := List.drop_eq_nil_of_le hle
    exact ⟨ht.1, he.symm, by rw [ht.2.1, he], ht.2.2.1, ht.2.2.2⟩
  · have ht := EventLog.trim_ok (l := { l with pollCursor := l.pending.length })
      ⟨h.1, Nat.le_refl _⟩
    exact ⟨ht.1, rfl, by rw [ht.2.1]; exact List.drop_length, ht.2.2.1, ht.2.2.2⟩

theorem EventLog.take_ok {l : EventLog E} (h : l.Ok) :
    l.take.2.Ok ∧ l.take.2.unpolled = l.unpolled ∧ l.take.2.untaken = [] := by
  unfold EventLog.take
  split
  · rename_i hle
    exact ⟨h, rfl, List.drop_eq_nil_of_le hle⟩
  · dsimp only
    split
    · exact ⟨⟨Nat.le_refl _, h.2⟩, rfl, List.drop_length⟩
    · exact ⟨⟨Nat.le_refl _, h.2⟩, rfl, List.drop_length⟩

theorem EventLog.queue_ok {l : EventLog E} (h : l.Ok) (e : E) :
    (l.queue e).Ok ∧ (l.queue e).unpolled = l.unpolled ++ [e] ∧
      (l.queue e).untaken = l.untaken ++ [e] := by
  refine ⟨⟨?_, ?_⟩, ?_, ?_⟩
  · simp only [EventLog.queue, List.length_append]; have := h.1; omega
  · simp only [EventLog.queue, List.length_append]; have := h.2; omega
  · exact List.drop_append_of_le_length h.2
  · exact List.drop_append_of_le_length h.1

theorem evStep_ok {s : EvSys E} (h : s.log.Ok) (o : EvOp E) : (evStep s o).log.Ok := by
  cases o with
  | queue e => exact (EventLog.queue_ok h e).1
  | poll => exact (EventLog.poll_ok h).1
  | take w => exact (EventLog.take_ok h).1
  | deliver w =>
    simp only [evStep]; split <;> exact h
  | subscribe _ => exact h
  | unsubscribe _ => exact h

theorem evRun_ok {s : EvSys E} (h : s.log.Ok) (ops : List (EvOp E)) : (evRun s ops).log.Ok := by
  induction ops generalizing s with
  | nil => exact h
  | cons o r ih => exact ih (evStep_ok h o)

theorem evRun_append (s : EvSys E) (a b : List (EvOp E)) :
    evRun s (a ++ b) = evRun (evRun s a) b := List.foldl_append

private theorem poll_inv (ops : List (EvOp E)) : ∀ s : EvSys E, s.log.Ok →
    (evRun s ops).polled ++ (evRun s ops).log.unpolled
      = s.polled ++ s.log.unpolled ++ queuedBy ops := by
  induction ops with
  | nil => intro s _; simp [evRun, queuedBy]
  | cons o r ih =>
    intro s h
    have hs := ih _ (evStep_ok h o)
    simp only [evRun, List.foldl_cons] at hs ⊢
    rw [hs]
    cases o with
    | queue e => simp [evStep, queuedBy, (EventLog.queue_ok h e).2.1]
    | poll =>
      simp [evStep, queuedBy, (EventLog.poll_ok h).2.1, (EventLog.poll_ok h).2.2.1]
    | take w => simp [evStep, queuedBy, (EventLog.take_ok h).2.1]
    | deliver w => simp only [evStep, queuedBy]; split <;> rfl
    | subscribe _ => simp [evStep, queuedBy, EventLog.subscribe, EventLog.unpolled]
    | unsubscribe _ => simp [evStep, queuedBy, EventLog.unsubscribe, EventLog.unpolled]

private theorem ok_init : ({} : EvSys E).log.Ok := ⟨Nat.le_refl _, Nat.le_refl _⟩

/-- Polling channel: for every schedule, once the reader polls, everything returned by its polls,
put together, is exactly the sequence of queued events: each once, in order, none lost or repeated,
however dispatches, trims and subscriptions interleave. -/
theorem C30_poll_exactly_once (ops : List (EvOp E)) :
    (evRun {} (ops ++ [.poll])).polled = queuedBy ops := by
  have h := poll_inv (ops ++ [.poll]) {} ok_init
  have hk := evRun_ok (ok_init (E := E)) ops
  rw [evRun_append] at h ⊢
  have hu : (evRun (evRun {} ops) [.poll]).log.unpolled = [] := (EventLog.poll_ok hk).2.2.1
  rw [hu, queuedBy_append] at h
  simpa [queuedBy, EventLog.unpolled] using h

/-- The events a list of invocations brings to subscriber `sub`. -/
def eventsFor (sub : Nat) (cs : List (Nat × E)) : List E :=
  (cs.filter (fun c => c.1 = sub)).map (·.2)

theorem eventsFor_append (sub : Nat) (a b : List (Nat × E)) :
    eventsFor sub (a ++ b) = eventsFor sub a ++ eventsFor sub b := by
  simp [eventsFor]

/-- `sub` is registered exactly once and is alive. -/
def EventLog.Registered (l : EventLog E) (sub : Nat) : Prop :=
  l.callbacks.filter (fun c => c.1 = sub) = [(sub, true)]

theorem eventsFor_dispatch (sub : Nat) (live : List Nat) (hl : live.filter (· = sub) = [sub])
    (es : List E) : eventsFor sub (dispatchOrder (es.map (fun e => (e, live)))) = es := by
  induction es with
  | nil => rfl
  | cons e r ih =>
    simp only [List.map_cons, dispatchOrder, List.flatMap_cons] at ih ⊢
    rw [eventsFor_append, ih]
    have : eventsFor sub (live.map (fun s => (s, e))) = (live.filter (· = sub)).map (fun _ => e) := by
      simp only [eventsFor, List.filter_map, List.map_map]
      rfl
    rw [this, hl]; rfl

theorem take_registered {l : EventLog E} {sub : Nat} (hr : l.Registered sub) :
    l.take.2.Registered sub ∧ eventsFor sub (dispatchOrder l.take.1) = l.untaken := by
  have hk : ((l.callbacks.filter (·.2)).filter (fun c => c.1 = sub)) = [(sub, true)] := by
    rw [List.filter_filter]
    have : (l.callbacks.filter (fun c => c.1 = sub)).filter (·.2) = [(sub, true)] := by
      rw [hr]; rfl
    rw [List.filter_filter] at this
    rw [← this]; congr 1; funext c; rw [Bool.and_comm]
  have hl : ((l.callbacks.filter (·.2)).map (·.1)).filter (· = sub) = [sub] := by
    rw [List.filter_map]
    have : (fun x => decide (x = sub)) ∘ (fun c : Nat × Bool => c.1)
        = fun c : Nat × Bool => decide (c.1 = sub) := rfl
    rw [this, hk]; rfl
  unfold EventLog.take
  split
  · rename_i hle
    exact ⟨hr, by simp [dispatchOrder, eventsFor, EventLog.untaken, List.drop_eq_nil_of_le hle]⟩
  · dsimp only
    split
    · rename_i hem
      rw [List.isEmpty_iff.mp hem] at hl
      exact absurd hl (by simp)
    · exact ⟨hk, eventsFor_dispatch sub _ hl _⟩

theorem find_eraseP_perm {α : Type} (p : α → Bool) : ∀ (l : List α) {c : α}, l.find? p = some c →
    (c :: l.eraseP p).Perm l := by
  intro l
  induction l with
  | nil => intro c h; simp at h
  | cons x r ih =>
    intro c h
    rw [List.find?_cons] at h
    rw [List.eraseP_cons]
    cases hx : p x
    · rw [hx] at h
      simp only [cond_false]
      exact (List.Perm.swap x c _).trans ((ih h).cons x)
    · rw [hx] at h
      obtain rfl : x = c := by simpa using h
      simp

/-- The invocations still on their way to `sub`. -/
def EvSys.onTheWay (s : EvSys E) (sub : Nat) : List E := eventsFor sub (s.inflight.map (·.2))

/-- No step of `ops` subscribes or unsubscribes `sub`. -/
def Untouched (sub : Nat) (ops : List (EvOp E)) : Prop :=
  .subscribe sub ∉ ops ∧ .unsubscribe sub ∉ ops

private theorem step_registered {s : EvSys E} {sub : Nat} (h : s.log.Ok)
    (hr : s.log.Registered sub) {o : EvOp E} (h1 : o ≠ .subscribe sub)
    (h2 : o ≠ .unsubscribe sub) : (evStep s o).log.Registered sub := by
  cases o with
  | queue e => exact hr
  | poll => unfold EventLog.Registered; exact (EventLog.poll_ok h).2.2.2.2 ▸ hr
  | take w => exact (take_registered hr).1
  | deliver w => simp only [evStep]; split <;> exact hr
  | subscribe k =>
    have hk : k ≠ sub := fun hk => h1 (hk ▸ rfl)
    simp only [evStep, EventLog.subscribe, EventLog.Registered, List.filter_append]
    unfold EventLog.Registered at hr
    rw [hr]; simp [hk]
  | unsubscribe k =>
    have hk : k ≠ sub := fun hk => h2 (hk ▸ rfl)
    simp only [evStep, EventLog.unsubscribe, EventLog.Registered, List.filter_map]
    unfold EventLog.Registered at hr
    have : ((fun c : Nat × Bool => decide (c.1 = sub)) ∘
        fun c : Nat × Bool => if c.1 = k then (c.1, false) else c)
        = fun c : Nat × Bool => decide (c.1 = sub) := by
      funext c; simp only [Function.comp]; split <;> rfl
    rw [this, hr]
    simp [Ne.symm hk]

private theorem step_perm {s : EvSys E} {sub : Nat} (h : s.log.Ok)
    (hr : s.log.Registered sub) (o : EvOp E) :
    (eventsFor sub (evStep s o).invoked ++ (evStep s o).onTheWay sub
        ++ (evStep s o).log.untaken).Perm
      (eventsFor sub s.invoked ++ s.onTheWay sub ++ s.log.untaken ++ queuedBy [o]) := by
  cases o with
  | queue e =>
    simp [evStep, queuedBy, (EventLog.queue_ok h e).2.2, EvSys.onTheWay]
  | poll => simp [evStep, queuedBy, (EventLog.poll_ok h).2.2.2.1, EvSys.onTheWay]
  | take w =>
    simp only [evStep, queuedBy, EvSys.onTheWay, (EventLog.take_ok h).2.2, List.append_nil,
      List.map_append, eventsFor_append, List.map_map]
    have hid : (fun c : Nat × Nat × E => c.2) ∘ (fun x => (w, x)) = fun x => x := rfl
    rw [hid]
    simp only [List.map_id']
    rw [(take_registered hr).2]
    simp
  | deliver w =>
    simp only [evStep, queuedBy]
    split
    · simp
    · rename_i c hc
      have hp := find_eraseP_perm _ _ hc
      have hp2 : (eventsFor sub (c.2 :: (s.inflight.eraseP (fun c => c.1 == w)).map (·.2))).Perm
          (eventsFor sub (s.inflight.map (·.2))) := by
        have := (hp.map (·.2)).filter (fun c : Nat × E => decide (c.1 = sub))
        exact this.map (·.2)
      simp only [EvSys.onTheWay, List.append_nil, eventsFor_append, List.append_assoc]
      refine List.Perm.append_left _ ?_
      rw [← List.append_assoc]
      refine List.Perm.append_right _ ?_
      have : eventsFor sub (c.2 :: (s.inflight.eraseP (fun c => c.1 == w)).map (·.2))
          = eventsFor sub [c.2]
            ++ eventsFor sub ((s.inflight.eraseP (fun c => c.1 == w)).map (·.2)) := by
        rw [← eventsFor_append]; rfl
      rw [← this]
      exact hp2
  | subscribe _ => simp [evStep, queuedBy, EventLog.subscribe, EventLog.untaken, EvSys.onTheWay]
  | unsubscribe _ =>
    simp [evStep, queuedBy, EventLog.unsubscribe, EventLog.untaken, EvSys.onTheWay]

private theorem callback_inv {sub : Nat} (ops : List (EvOp E)) : ∀ s : EvSys E, s.log.Ok →
    s.log.Registered sub → Untouched sub ops →
    (eventsFor sub (evRun s ops).invoked ++ (evRun s ops).onTheWay sub
        ++ (evRun s ops).log.untaken).Perm
      (eventsFor sub s.invoked ++ s.onTheWay sub ++ s.log.untaken ++ queuedBy ops) := by
  induction ops with
  | nil => intro s _ _ _; simp [evRun, queuedBy]
  | cons o r ih =>
    intro s h hr hu
    have h1 : o ≠ .subscribe sub := fun hk => hu.1 (by simp [hk])
    have h2 : o ≠ .unsubscribe sub := fun hk => hu.2 (by simp [hk])
    have := ih _ (evStep_ok h o) (step_registered h hr h1 h2)
      ⟨fun hk => hu.1 (List.mem_cons_of_mem _ hk), fun hk => hu.2 (List.mem_cons_of_mem _ hk)⟩
    refine this.trans ?_
    have e : queuedBy (o :: r) = queuedBy [o] ++ queuedBy r := queuedBy_append [o] r
    rw [e, ← List.append_assoc]
    exact List.Perm.append_right _ (step_perm h hr o)

/-- No invocation of `sub` is made or on its way, and `sub` is unknown: it has never subscribed. -/
private theorem fresh_inv {sub : Nat} (ops : List (EvOp E)) (hu : .subscribe sub ∉ ops) :
    ∀ s : EvSys E, (∀ c ∈ s.log.callbacks, c.1 ≠ sub) → (∀ c ∈ s.inflight, c.2.1 ≠ sub) →
      (∀ c ∈ s.invoked, c.1 ≠ sub) →
      (∀ c ∈ (evRun s ops).log.callbacks, c.1 ≠ sub) ∧ (∀ c ∈ (evRun s ops).inflight, c.2.1 ≠ sub) ∧
      (∀ c ∈ (evRun s ops).invoked, c.1 ≠ sub) := by
  induction ops with
  | nil => intro s a b c; exact ⟨a, b, c⟩
  | cons o r ih =>
    intro s ha hb hc
    have ho : o ≠ .subscribe sub := fun hk => hu (by simp [hk])
    have hr := ih (fun hk => hu (List.mem_cons_of_mem _ hk)) (evStep s o)
    simp only [evRun, List.foldl_cons] at hr ⊢
    have htrim : ∀ l : EventLog E, l.trim.callbacks = l.callbacks := by
      intro l; unfold EventLog.trim; dsimp only; split <;> rfl
    refine hr ?_ ?_ ?_
    · intro c hm
      cases o with
      | queue e => exact ha c hm
      | poll =>
        simp only [evStep, EventLog.poll] at hm
        split at hm
        · rw [htrim] at hm; exact ha c hm
        · rw [htrim] at hm; exact ha c hm
      | take w =>
        simp only [evStep, EventLog.take] at hm
        split at hm
        · exact ha c hm
        · split at hm
          · exact ha c (List.mem_filter.mp hm).1
          · exact ha c (List.mem_filter.mp hm).1
      | deliver w => simp only [evStep] at hm; split at hm <;> exact ha c hm
      | subscribe k =>
        simp only [evStep, EventLog.subscribe, List.mem_append, List.mem_singleton] at hm
        rcases hm with hm | rfl
        · exact ha c hm
        · intro hk; exact ho (by simpa using hk)
      | unsubscribe k =>
        simp only [evStep, EventLog.unsubscribe, List.mem_map] at hm
        obtain ⟨d, hd, rfl⟩ := hm
        have := ha d hd
        split <;> exact this
    · intro c hm
      cases o with
      | take w =>
        simp only [evStep, List.mem_append, List.mem_map] at hm
        rcases hm with hm | ⟨d, hd, rfl⟩
        · exact hb c hm
        · simp only [dispatchOrder, List.mem_flatMap, List.mem_map] at hd
          obtain ⟨p, hp, k, hk, rfl⟩ := hd
          unfold EventLog.take at hp
          split at hp
          · simp at hp
          · dsimp only at hp
            split at hp
            · simp at hp
            · simp only [List.mem_map] at hp
              obtain ⟨e, _, rfl⟩ := hp
              simp only [List.mem_map, List.mem_filter] at hk
              obtain ⟨q, hq, rfl⟩ := hk
              exact ha q hq.1
      | deliver w =>
        simp only [evStep] at hm
        split at hm
        · exact hb c hm
        · exact hb c (List.mem_of_mem_eraseP hm)
      | queue _ => exact hb c hm
      | poll => exact hb c hm
      | subscribe _ => exact hb c hm
      | unsubscribe _ => exact hb c hm
    · intro c hm
      cases o with
      | deliver w =>
        simp only [evStep] at hm
        split at hm
        · exact hc c hm
        · rename_i d hd
          simp only [List.mem_append, List.mem_singleton] at hm
          rcases hm with hm | rfl
          · exact hc c hm
          · exact hb d (List.mem_of_find?_eq_some hd)
      | take _ => exact hc c hm
      | queue _ => exact hc c hm
      | poll => exact hc c hm
      | subscribe _ => exact hc c hm
      | unsubscribe _ => exact hc c hm

private theorem eventsFor_none {sub : Nat} {cs : List (Nat × E)} (h : ∀ c ∈ cs, c.1 ≠ sub) :
    eventsFor sub cs = [] := by
  simp only [eventsFor, List.map_eq_nil_iff, List.filter_eq_nil_iff, decide_eq_true_eq]
  exact h

private theorem after_subscribe {sub : Nat} {pre : List (EvOp E)} (hf : .subscribe sub ∉ pre) :
    let s := evStep (evRun {} pre) (.subscribe sub)
    s.log.Ok ∧ s.log.Registered sub ∧ eventsFor sub s.invoked = [] ∧ s.onTheWay sub = [] ∧
      s.log.untaken = (evRun {} pre).log.untaken := by
  obtain ⟨ha, hb, hc⟩ := fresh_inv pre hf ({} : EvSys E) (by simp) (by simp) (by simp)
  refine ⟨evRun_ok ok_init pre, ?_, eventsFor_none hc, eventsFor_none ?_, rfl⟩
  · simp only [evStep, EventLog.subscribe, EventLog.Registered, List.filter_append]
    rw [List.filter_eq_nil_iff.mpr (by simpa using fun c d hm => ha (c, d) hm)]
    simp
  · simpa [evStep] using fun b c a hm => hb (a, b, c) hm

/-- Callback channel: take any schedule in which a subscriber subscribes and stays subscribed.
Every event queued since then (and any not yet dispatched when it subscribed) is, at every moment,
in exactly one place: already received by the subscriber, in a batch on its way to it, or not yet
dispatched. So nothing is lost and nothing arrives twice, however polls, dispatches by any number of
threads, trims and other subscriptions interleave. -/
theorem C30_callback_exactly_once (pre post : List (EvOp E)) (sub : Nat)
    (hf : .subscribe sub ∉ pre) (hu : Untouched sub post) :
    let s := evRun {} (pre ++ .subscribe sub :: post)
    (eventsFor sub s.invoked ++ s.onTheWay sub ++ s.log.untaken).Perm
      ((evRun {} pre).log.untaken ++ queuedBy post) := by
  obtain ⟨h1, h2, h3, h4, h5⟩ := after_subscribe (E := E) hf
  have h := callback_inv post _ h1 h2 hu
  rw [h3, h4, h5] at h
  have e : evRun {} (pre ++ .subscribe sub :: post)
      = evRun (evStep (evRun ({} : EvSys E) pre) (.subscribe sub)) post := evRun_append ..
  rw [e]
  simpa using h

/-- In particular, once dispatching has caught up and every batch has been run, the subscriber has
received exactly the queued events. -/
theorem C30_callback_complete (pre post : List (EvOp E)) (sub : Nat)
    (hf : .subscribe sub ∉ pre) (hu : Untouched sub post)
    (hcaught : (evRun {} (pre ++ .subscribe sub :: post)).log.untaken = [])
    (hdone : (evRun {} (pre ++ .subscribe sub :: post)).inflight = []) :
    (eventsFor sub (evRun {} (pre ++ .subscribe sub :: post)).invoked).Perm
      ((evRun {} pre).log.untaken ++ queuedBy post) := by
  have h := C30_callback_exactly_once pre post sub hf hu
  simp only [hcaught, EvSys.onTheWay, hdone] at h
  simpa [eventsFor] using h

/-- A dispatch always catches up, so the hypothesis above holds after the dispatch that ends every
editing call. -/
theorem C30_dispatch_catches_up (ops : List (EvOp E)) (who : Nat) :
    (evRun {} (ops ++ [.take who])).log.untaken = [] := by
  rw [evRun_append]
  exact (EventLog.take_ok (evRun_ok ok_init ops)).2.2

example : ∃ pre post : List (EvOp Nat),
    .subscribe 7 ∉ pre ∧ Untouched 7 post ∧
    (evRun {} (pre ++ .subscribe 7 :: post)).log.untaken = [] ∧
    (evRun {} (pre ++ .subscribe 7 :: post)).inflight = [] ∧
    (evRun {} (pre ++ .subscribe 7 :: post)).invoked = [(7, 10), (7, 11), (8, 11)] ∧
    (evRun {} (pre ++ .subscribe 7 :: post)).polled = [9, 10] := by
  refine ⟨[.queue 9, .take 0], [.queue 10, .poll, .take 0, .deliver 0, .subscribe 8, .queue 11,
    .take 1, .unsubscribe 8, .deliver 1, .deliver 1], by simp, by simp [Untouched], rfl, rfl, rfl, rfl⟩

/-- All the dispatching is done by one thread, one batch after the other. -/
def OneDispatcher (who : Nat) (ops : List (EvOp E)) : Prop :=
  ∀ o ∈ ops, ∀ w, (o = .take w ∨ o = .deliver w) → w = who

private theorem find_all_same {α : Type} {p : α → Bool} {l : List α} (h : ∀ x ∈ l, p x = true) :
    l.find? p = l.head? ∧ l.eraseP p = l.tail := by
  cases l with
  | nil => exact ⟨rfl, rfl⟩
  | cons x r => simp [h x (by simp)]

private theorem order_inv {sub who : Nat} (ops : List (EvOp E)) : ∀ s : EvSys E, s.log.Ok →
    s.log.Registered sub → Untouched sub ops → OneDispatcher who ops →
    (∀ c ∈ s.inflight, c.1 = who) →
    eventsFor sub (evRun s ops).invoked ++ (evRun s ops).onTheWay sub ++ (evRun s ops).log.untaken
      = eventsFor sub s.invoked ++ s.onTheWay sub ++ s.log.untaken ++ queuedBy ops := by
  induction ops with
  | nil => intro s _ _ _ _ _; simp [evRun, queuedBy]
  | cons o r ih =>
    intro s h hr hu hd hi
    have h1 : o ≠ .subscribe sub := fun hk => hu.1 (by simp [hk])
    have h2 : o ≠ .unsubscribe sub := fun hk => hu.2 (by simp [hk])
    have hi' : ∀ c ∈ (evStep s o).inflight, c.1 = who := by
      intro c hm
      cases o with
      | take w =>
        simp only [evStep, List.mem_append, List.mem_map] at hm
        rcases hm with hm | ⟨d, _, rfl⟩
        · exact hi c hm
        · exact hd _ (List.mem_cons_self ..) w (.inl rfl)
      | deliver w =>
        simp only [evStep] at hm
        split at hm
        · exact hi c hm
        · exact hi c (List.mem_of_mem_eraseP hm)
      | queue _ => exact hi c hm
      | poll => exact hi c hm
      | subscribe _ => exact hi c hm
      | unsubscribe _ => exact hi c hm
    have hstep := ih _ (evStep_ok h o) (step_registered h hr h1 h2)
      ⟨fun hk => hu.1 (List.mem_cons_of_mem _ hk), fun hk => hu.2 (List.mem_cons_of_mem _ hk)⟩
      (fun o' ho' => hd o' (List.mem_cons_of_mem _ ho')) hi'
    have eq : queuedBy (o :: r) = queuedBy [o] ++ queuedBy r := queuedBy_append [o] r
    rw [eq, ← List.append_assoc]
    refine hstep.trans ?_
    congr 1
    cases o with
    | queue e =>
      simp [evStep, queuedBy, (EventLog.queue_ok h e).2.2, EvSys.onTheWay]
    | poll => simp [evStep, queuedBy, (EventLog.poll_ok h).2.2.2.1, EvSys.onTheWay]
    | take w =>
      simp only [evStep, queuedBy, EvSys.onTheWay, (EventLog.take_ok h).2.2, List.append_nil,
        List.map_append, eventsFor_append, List.map_map]
      have hid : (fun c : Nat × Nat × E => c.2) ∘ (fun x => (w, x)) = fun x => x := rfl
      rw [hid]
      simp only [List.map_id']
      rw [(take_registered hr).2]
      simp
    | deliver w =>
      have hw : w = who := hd _ (List.mem_cons_self ..) w (.inr rfl)
      subst hw
      have hf := find_all_same (p := fun c : Nat × Nat × E => c.1 == w) (l := s.inflight)
        (fun c hc => by simpa using hi c hc)
      simp only [evStep, queuedBy, hf.1, hf.2]
      cases hl : s.inflight with
      | nil => simp [EvSys.onTheWay, hl, eventsFor]
      | cons c t =>
        simp only [List.head?_cons, List.tail_cons, EvSys.onTheWay, hl, List.map_cons,
          eventsFor_append, List.append_nil]
        have : eventsFor sub (c.2 :: t.map (·.2))
            = eventsFor sub [c.2] ++ eventsFor sub (t.map (·.2)) := by
          rw [← eventsFor_append]; rfl
        rw [this]; simp
    | subscribe _ => simp [evStep, queuedBy, EventLog.subscribe, EventLog.untaken, EvSys.onTheWay]
    | unsubscribe _ =>
      simp [evStep, queuedBy, EventLog.unsubscribe, EventLog.untaken, EvSys.onTheWay]

/-- With a single dispatching thread whose callbacks do not dispatch again, the subscriber also
receives the events in the order they were queued. -/
theorem C30_callback_in_order_partial (pre post : List (EvOp E)) (sub who : Nat)
    (hf : .subscribe sub ∉ pre) (hu : Untouched sub post)
    (hd : OneDispatcher who post) (hi : ∀ c ∈ (evRun {} pre).inflight, c.1 = who) :
    let s := evRun {} (pre ++ .subscribe sub :: post)
    eventsFor sub s.invoked ++ s.onTheWay sub ++ s.log.untaken
      = (evRun {} pre).log.untaken ++ queuedBy post := by
  obtain ⟨h1, h2, h3, h4, h5⟩ := after_subscribe (E := E) hf
  have h := order_inv post _ h1 h2 hu hd hi
  rw [h3, h4, h5] at h
  have e : evRun {} (pre ++ .subscribe sub :: post)
      = evRun (evStep (evRun ({} : EvSys E) pre) (.subscribe sub)) post := evRun_append ..
  rw [e]
  simpa using h

/-- The order claim fails in general: callbacks run outside the document lock, so when two threads
edit (or a callback edits and so dispatches from inside a dispatch), a subscriber can receive the
later event first. -/
theorem C30_callback_order_fails : ∃ ops : List (EvOp Nat),
    queuedBy ops = [1, 2] ∧ eventsFor 0 (evRun {} ops).invoked = [2, 1] :=
  ⟨[.subscribe 0, .queue 1, .take 0, .queue 2, .take 1, .deliver 1, .deliver 0], rfl, rfl⟩

/-- Delivered events are dropped: a poll after a dispatch leaves no event stored. -/
theorem C30_delivered_dropped (ops : List (EvOp E)) (who : Nat) :
    (evRun {} (ops ++ [.take who, .poll])).log.pending = [] := by
  have hk := evRun_ok (ok_init (E := E)) ops
  rw [evRun_append]
  have ht := EventLog.take_ok hk
  have hr : (evRun (evRun {} ops) [.take who, .poll]).log
      = (evRun ({} : EvSys E) ops).log.take.2.poll.2 := rfl
  rw [hr]
  have hl : (evRun ({} : EvSys E) ops).log.take.2.pending.length
      ≤ (evRun ({} : EvSys E) ops).log.take.2.callbackCursor := by
    have := ht.2.2
    exact List.drop_eq_nil_iff.mp this
  generalize (evRun ({} : EvSys E) ops).log.take.2 = l at ht hl ⊢
  obtain ⟨hok, _, _⟩ := ht
  have hc : l.callbackCursor = l.pending.length := Nat.le_antisymm hok.1 hl
  unfold EventLog.poll EventLog.trim
  split
  · rename_i hp
    have hpc : l.pollCursor = l.pending.length := Nat.le_antisymm hok.2 hp
    dsimp only
    split
    · simp [hc, hpc]
    · rename_i h0
      have : l.pending.length = 0 := by omega
      exact List.length_eq_zero_iff.mp this
  · dsimp only
    split
    · simp [hc]
    · rename_i h0
      have : l.pending.length = 0 := by omega
      exact List.length_eq_zero_iff.mp this

/-- But only polling trims: a program that uses callbacks alone keeps every event it ever queued. -/
theorem C30_never_polled_fails (ops : List (EvOp E)) (hn : .poll ∉ ops) :
    (evRun {} ops).log.pending = queuedBy ops := by
  suffices H : ∀ s : EvSys E, (evRun s ops).log.pending = s.log.pending ++ queuedBy ops by
    simpa using H {}
  induction ops with
  | nil => intro s; simp [evRun, queuedBy]
  | cons o r ih =>
    intro s
    have hs := ih (fun hk => hn (List.mem_cons_of_mem _ hk)) (evStep s o)
    simp only [evRun, List.foldl_cons] at hs ⊢
    rw [hs]
    cases o with
    | queue e => simp [evStep, queuedBy, EventLog.queue]
    | poll => exact absurd (List.mem_cons_self ..) hn
    | take w =>
      have : s.log.take.2.pending = s.log.pending := by
        unfold EventLog.take; dsimp only; split
        · rfl
        · split <;> rfl
      simp [evStep, queuedBy, this]
    | deliver w => simp only [evStep, queuedBy]; split <;> rfl
    | subscribe _ => simp [evStep, queuedBy, EventLog.subscribe]
    | unsubscribe _ => simp [evStep, queuedBy, EventLog.unsubscribe]

end C30

end Verif
