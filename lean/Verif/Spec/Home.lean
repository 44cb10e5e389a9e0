import Verif.Spec.Mqtt
import Verif.Spec.Site
/-!
# The bridge together with a panel and a broker

The bridge, the line to a panel, and a broker, all of which act when they like: the line hands over
bytes in pieces of any sizes, the panel answers the commands in the order it gets them and says
things of its own accord, and someone posts commands.
-/

namespace Elk.Spec

/-- The state of bridge, line, panel and broker. -/
structure Home where
  /-- the bridge -/
  bridge : Bridge
  /-- the number of bytes the panel has taken -/
  taken : Nat
  /-- bytes sent by the panel and not yet handed over -/
  line : Bytes
  /-- while the task of the bridge sleeps: the waker it was last polled with -/
  asleep : Option Waker
  /-- what was observed of the bridge -/
  obs : List BObs
  /-- what the panel has said -/
  said : List Message
  /-- the lines the panel has heard -/
  heard : List Bytes
  /-- the commands that were posted -/
  posted : List Command

/-- What can happen. -/
inductive HomeOp where
  /-- the task of the bridge is run, unless it sleeps; `select!` starts with the panel or not -/
  | tick (cx : Cx) (panelFirst : Bool)
  /-- the task is woken for no reason that matters here, such as a timer -/
  | wake
  /-- the socket takes up to `n + 1` bytes -/
  | accept (n : Nat)
  /-- up to `n + 1` bytes arrive at the bridge -/
  | deliver (n : Nat)
  /-- the panel takes the next line it got, if any, and confirms it -/
  | answer (r : SendCode)
  /-- the panel says something of its own accord -/
  | say (m : Message)
  /-- a message that asks for a command reaches the bridge, and wakes it -/
  | post (p : Publish) (c : Command)
  /-- nothing happens that matters here -/
  | rest

/-- The first line, with the line feed that ends it. -/
def firstLine : Bytes → Option Bytes
  | [] => none
  | x :: t => if x = 10 then some [x] else (firstLine t).map (x :: ·)

/-- Whether the task of the bridge sleeps: it falls asleep when a poll is pending, and is woken by
the waker it was last polled with only. -/
def dozes (asleep : Option Waker) : BOp → BObs → Option Waker
  | .tick cx _, .pending => some cx.waker
  | .tick .., _ => none
  | .deliver _, _ => none
  | _, .env ws => if asleep.any fun w => ws.contains w then none else asleep
  | _, _ => asleep

/-- The bridge does something, or something happens to it. -/
def Home.act (h : Home) (op : BOp) : P Home :=
  match h.bridge.step op with
  | .error e => .error e
  | .ok (o, b) => .ok { h with bridge := b, obs := h.obs ++ [o], asleep := dozes h.asleep op o }

/-- One thing happens. -/
def Home.step (h : Home) : HomeOp → P Home
  | .tick cx pf => if h.asleep = none then h.act (.tick cx pf) else .ok h
  | .wake => .ok { h with asleep := none }
  | .accept n => h.act (.writable (.accept (n + 1)))
  | .deliver n =>
    if h.line = [] then .ok h
    else { h with line := h.line.drop (n + 1) }.act (.arrive (.data (h.line.take (n + 1))))
  | .answer r =>
    match firstLine (h.bridge.panel.conn.sock.sent.drop h.taken) with
    | none => .ok h
    | some l => .ok { h with
        taken := h.taken + l.length
        heard := h.heard ++ [l]
        line := h.line ++ frame (.sendCode r)
        said := h.said ++ [.sendCode r] }
  | .say m => .ok { h with line := h.line ++ frame m, said := h.said ++ [m] }
  | .post p c => { h with posted := h.posted ++ [c] }.act (.deliver p)
  | .rest => .ok h

/-- The state when the bridge has started; `line` is under way from the panel. -/
def Home.start (b : Bridge) (line : Bytes) (said : List Message) : Home :=
  ⟨b, b.panel.conn.sock.sent.length, line, none, [], said, [], []⟩

/-- The state after `n` things have happened. -/
def Home.after (h0 : Home) (ops : Nat → HomeOp) : Nat → P Home
  | 0 => .ok h0
  | n + 1 => do
    let h ← Home.after h0 ops n
    h.step (ops n)

/-- Who acts.  The bridge only counts as acting if `select!` starts with the inbox: which branch it
starts with is random. -/
def HomeOp.who : HomeOp → Who
  | .tick _ false => .library
  | .tick _ true => .chance
  | .wake => .chance
  | .accept _ => .socket
  | .deliver _ => .line
  | .answer _ => .panel
  | .say _ => .chance
  | .post .. => .chance
  | .rest => .chance

/-- Everyone keeps acting. -/
def KeepActing (ops : Nat → HomeOp) : Prop :=
  ∀ w, w ≠ .chance → ∀ n, ∃ m, n ≤ m ∧ (ops m).who = w

/-- No command is under way in the bridge: none waits, none is being handed over, and no reply is
awaited. -/
def Quiet (b : Bridge) : Prop :=
  b.inbox = [] ∧ b.waiting = .select ∧ b.panel.cmdState = .idle

/-- The panel says what can be said, and never a zone status report: that ends the bridge (C51).
A message is posted only while no command is under way: otherwise the bridge can lock up (C52). -/
def HomeOp.Proper (h : Home) : HomeOp → Prop
  | .answer r => WfMessage (.sendCode r)
  | .say m => WfMessage m ∧ ∀ r, m ≠ .zoneStatusReport r
  | .post p c => Quiet h.bridge ∧ Asks h.bridge.cfg h.bridge.code p (some c)
  | _ => True

/-- A connection that is up and stays up: reads give data, writes take bytes. -/
structure Lively (c : Connection) : Prop where
  open_ : c.rd.eof = false
  ok : c.rd.hasErrored = false
  reads : ∀ r ∈ c.sock.incoming, ∃ b, r = .data b ∧ b ≠ []
  writes : ∀ w ∈ c.sock.writes, ∃ n, w = .accept (n + 1)

/-- The messages among the events handled. -/
def toldTo (obs : List BObs) : List Message :=
  (handled obs).filterMap fun ev =>
    match ev.msg with
    | some (.ok m) => some m
    | _ => none

end Elk.Spec
