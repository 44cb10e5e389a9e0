import Verif.Spec.Home
/-!
# The queue of the MQTT client

`publish(..).await` and `subscribe_many(..).await` put a request into a queue that holds 10 of them
(main.rs:404), and wait while it is full.  `run_eventloop` (main.rs:329-342) takes requests from the
queue and transmits them.  Both run in the same task (main.rs:406-409), so that a bridge that waits
does not keep `run_eventloop` from running; but while it waits it polls neither the panel nor its
inbox.
-/

namespace Elk.Spec

/-- What the bridge asks of the MQTT client. -/
inductive Request where
  | publish (m : Published)
  | subscribe (topics : List Bytes)

/-- Bridge, line, panel and broker, with the queue in between. -/
structure Queued where
  home : Home
  /-- the requests of the bridge that it has not yet got into the queue; it goes on to make them, and
  does nothing else, before it comes back to `select!` -/
  out : List Request
  /-- the queue -/
  queue : List Request
  /-- the requests that were transmitted -/
  sent : List Request

/-- What can happen. -/
inductive QueuedOp where
  | home (op : HomeOp)
  /-- the first request in the queue, if any, is transmitted -/
  | transmit

/-- One thing happens.  If the bridge is run with a request to make, that is what it does, or tries
to: it waits while the queue is full. -/
def Queued.step (q : Queued) : QueuedOp → P Queued
  | .home (.tick cx pf) =>
    match q.out with
    | [] =>
      match q.home.step (.tick cx pf) with
      | .error e => .error e
      | .ok h => .ok { q with
          home := h
          out := (h.bridge.log.drop q.home.bridge.log.length).map .publish }
    | r :: t => .ok (if q.queue.length < 10 then { q with out := t, queue := q.queue ++ [r] } else q)
  | .home op =>
    match q.home.step op with
    | .error e => .error e
    | .ok h => .ok { q with home := h }
  | .transmit =>
    match q.queue with
    | [] => .ok q
    | r :: t => .ok { q with queue := t, sent := q.sent ++ [r] }

/-- What the bridge asks for at its start, in this order: to publish discovery documents and states,
to subscribe, and to announce that it is online (main.rs:420-443). -/
def startRequests (b : Bridge) : List Request :=
  b.log.dropLast.map .publish ++ .subscribe b.subscribed ::
    (b.log.drop (b.log.length - 1)).map .publish

/-- The state when the bridge has connected to the panel and is about to make its first request. -/
def Queued.start (b : Bridge) (line : Bytes) (said : List Message) : Queued :=
  ⟨Home.start b line said, startRequests b, [], []⟩

/-- The state after `n` things have happened. -/
def Queued.after (q0 : Queued) (ops : Nat → QueuedOp) : Nat → P Queued
  | 0 => .ok q0
  | n + 1 => do
    let q ← Queued.after q0 ops n
    q.step (ops n)

/-- The bridge comes to `select!`, and starts with the panel or not. -/
def Selects (q0 : Queued) (ops : Nat → QueuedOp) (m : Nat) (panelFirst : Bool) : Prop :=
  ∃ q cx, Queued.after q0 ops m = .ok q ∧ q.out = [] ∧ ops m = .home (.tick cx panelFirst)

/-- Everyone keeps acting: socket, line and panel, the task of the bridge, and whatever transmits the
requests; and if the bridge comes to `select!` again and again, then it also starts with the inbox
again and again. -/
structure AllAct (q0 : Queued) (ops : Nat → QueuedOp) : Prop where
  others : ∀ w, w ≠ .chance → w ≠ .library → ∀ n, ∃ m op, n ≤ m ∧ ops m = .home op ∧ op.who = w
  bridge : ∀ n, ∃ m cx pf, n ≤ m ∧ ops m = .home (.tick cx pf)
  client : ∀ n, ∃ m, n ≤ m ∧ ops m = .transmit
  inbox : (∀ n, ∃ m pf, n ≤ m ∧ Selects q0 ops m pf) → ∀ n, ∃ m, n ≤ m ∧ Selects q0 ops m false

/-- As before (`HomeOp.Proper`). -/
def QueuedOp.Proper (q : Queued) : QueuedOp → Prop
  | .home op => op.Proper q.home
  | .transmit => True

/-- What the bridge has asked for since its start. -/
def requests (b0 : Bridge) (q : Queued) : List Request :=
  startRequests b0 ++ (q.home.bridge.log.drop b0.log.length).map .publish

/-- What is published by requests. -/
def pubs (rs : List Request) : List Published :=
  rs.filterMap fun
    | .publish m => some m
    | .subscribe _ => none

end Elk.Spec
