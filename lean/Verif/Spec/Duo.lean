import Verif.Spec.Wired
/-!
# A connected `Panel` used by two tasks

One task reads: it polls `next` again and again.  Another sends: it hands over the commands it is
given one after the other with `SinkExt::send`, which is `poll_ready`, `start_send` and `poll_flush`.
A task that was told to wait sleeps until it is woken by the waker it was last polled with.  With
them are the line to the panel, and the panel, which confirms the commands it gets and otherwise says
what it likes.
-/

namespace Elk.Spec

/-- The state of the two tasks, line and panel. -/
structure Duo where
  /-- the library -/
  panel : Panel
  /-- the commands the sender was given and has not yet handed over -/
  todo : List Command
  /-- whether the sender has handed over a command and waits for it to be flushed -/
  sending : Bool
  /-- while the reader sleeps: the waker it was last polled with -/
  reader : Option Waker
  /-- while the sender sleeps: the waker it was last polled with -/
  sender : Option Waker
  /-- the events the reader got -/
  events : List Event
  /-- the commands the sender has handed over -/
  given : List Command
  /-- whether an operation failed, or the stream ended -/
  failed : Bool
  /-- the number of bytes the panel has taken -/
  taken : Nat
  /-- bytes sent by the panel and not yet handed over -/
  line : Bytes
  /-- what the panel has said -/
  said : List Message
  /-- the lines the panel has heard -/
  heard : List Bytes
  /-- the commands the sender was given -/
  posted : List Command

/-- What can happen. -/
inductive DuoOp where
  /-- the reader is run, unless it sleeps -/
  | read (cx : Cx)
  /-- the sender is run, unless it sleeps -/
  | send (cx : Cx)
  /-- the reader is woken for no reason that matters here, such as a timer -/
  | rouseReader
  /-- the sender is woken for no reason -/
  | rouseSender
  /-- the sender is given a command, which wakes it -/
  | post (c : Command)
  /-- the socket takes up to `n + 1` bytes -/
  | accept (n : Nat)
  /-- up to `n + 1` bytes arrive at the library -/
  | deliver (n : Nat)
  /-- the panel takes the next line it got, if any, and confirms it -/
  | answer (m : Message)
  /-- the panel says something of its own accord -/
  | say (m : Message)

/-- A sleeping task is woken by the waker it was last polled with. -/
def rouse (ws : List Waker) (asleep : Option Waker) : Option Waker :=
  if asleep.any fun w => ws.contains w then none else asleep

/-- Tasks are woken. -/
def Duo.wake (d : Duo) (ws : List Waker) : Duo :=
  { d with reader := rouse ws d.reader, sender := rouse ws d.sender }

/-- The reader polls `next`. -/
def Duo.read (d : Duo) (cx : Cx) : P Duo :=
  match d.panel.pollNext cx with
  | .error e => .error e
  | .ok (r, ws, p) =>
    let d := { d with panel := p }.wake ws
    match r with
    | .pending => .ok { d with reader := some cx.waker }
    | .ready (some (.ok ev)) => .ok { d with events := d.events ++ [ev] }
    | .ready _ => .ok { d with failed := true }

/-- The sender goes on with `send`. -/
def Duo.send (d : Duo) (cx : Cx) : P Duo :=
  if d.sending then
    match d.panel.pollFlush cx with
    | (.pending, p) => .ok { d with panel := p, sender := some cx.waker }
    | (.ready (.ok ()), p) => .ok { d with panel := p, sending := false }
    | (.ready (.error _), p) => .ok { d with panel := p, failed := true }
  else
    match d.todo with
    | [] => .ok { d with sender := some cx.waker }
    | c :: t =>
      match d.panel.pollReady cx with
      | (.pending, p) => .ok { d with panel := p, sender := some cx.waker }
      | (.ready (.error _), p) => .ok { d with panel := p, failed := true }
      | (.ready (.ok ()), p) =>
        match p.startSend c with
        | .error e => .error e
        | .ok p => .ok { d with panel := p, todo := t, sending := true, given := d.given ++ [c] }

/-- One thing happens. -/
def Duo.step (d : Duo) : DuoOp → P Duo
  | .read cx => if d.reader = none then d.read cx else .ok d
  | .send cx => if d.sender = none then d.send cx else .ok d
  | .rouseReader => .ok { d with reader := none }
  | .rouseSender => .ok { d with sender := none }
  | .post c => .ok { d with todo := d.todo ++ [c], posted := d.posted ++ [c], sender := none }
  | .accept n =>
    let (ws, conn) := d.panel.conn.writable (.accept (n + 1))
    .ok ({ d with panel := { d.panel with conn } }.wake ws)
  | .deliver n =>
    if d.line = [] then .ok d
    else
      let (ws, conn) := d.panel.conn.arrive (.data (d.line.take (n + 1)))
      .ok ({ d with panel := { d.panel with conn }, line := d.line.drop (n + 1) }.wake ws)
  | .answer m =>
    match firstLine (d.panel.conn.sock.sent.drop d.taken) with
    | none => .ok d
    | some l => .ok { d with
        taken := d.taken + l.length
        heard := d.heard ++ [l]
        line := d.line ++ frame m
        said := d.said ++ [m] }
  | .say m => .ok { d with line := d.line ++ frame m, said := d.said ++ [m] }

/-- The state when the panel is connected; `line` is under way, `said` what is said there. -/
def Duo.start (p : Panel) (line : Bytes) (said : List Message) : Duo :=
  ⟨p, [], false, none, none, [], [], false, p.conn.sock.sent.length, line, said, [], []⟩

/-- The state after `n` things have happened. -/
def Duo.after (d0 : Duo) (ops : Nat → DuoOp) : Nat → P Duo
  | 0 => .ok d0
  | n + 1 => do
    let d ← Duo.after d0 ops n
    d.step (ops n)

/-- Who acts. -/
inductive Actor where
  | reader
  | sender
  | socket
  | line
  | panel
  | chance
  deriving DecidableEq

/-- Who acts. -/
def DuoOp.who : DuoOp → Actor
  | .read _ => .reader
  | .send _ => .sender
  | .accept _ => .socket
  | .deliver _ => .line
  | .answer _ => .panel
  | _ => .chance

/-- Everyone keeps acting. -/
def KeepOn (ops : Nat → DuoOp) : Prop :=
  ∀ w, w ≠ .chance → ∀ n, ∃ m, n ≤ m ∧ (ops m).who = w

/-- The commands are well-formed; the panel says what can be said, and confirms each command it gets
as such. -/
def DuoOp.Proper (d : Duo) : DuoOp → Prop
  | .post c => WfCommand c
  | .answer m => WfMessage m ∧ ∀ c, WfCommand c →
      firstLine (d.panel.conn.sock.sent.drop d.taken) = some (commandBytes c) →
      Responds m c.intoMsg
  | .say m => WfMessage m
  | _ => True

/-- The panel says nothing of its own accord that confirms a command. -/
def DuoOp.Candid : DuoOp → Prop
  | .say m => confirms m = false
  | _ => True

/-- The messages the reader got. -/
def Duo.told (d : Duo) : List Message :=
  d.events.filterMap fun ev =>
    match ev.msg with
    | some (.ok m) => some m
    | _ => none

/-- The commands that were reported completed. -/
def Duo.completed (d : Duo) : List Message := d.events.filterMap (·.completes)

end Elk.Spec
