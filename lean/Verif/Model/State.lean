import Verif.Model.Conn
import Verif.Model.Msg
/-!
# Model of `elkm1/src/state.rs` (the `Panel`), apart from initialisation

A `Panel` is driven through `Stream::poll_next` and the `Sink` functions, in any order and by any
tasks, while the environment makes the socket readable and writable.  Calls into logging are left
out.  Wakers are task identities; the tasks woken by a call are part of its result.
-/

namespace Elk

/-- Rust `a[i]` on a fixed array. -/
def arrGet {α : Type} {n : Nat} (v : Vector α n) (i : Nat) : P α :=
  if h : i < n then .ok v[i] else .error .index

/-- Rust `a[i] = x` on a fixed array. -/
def arrSet {α : Type} {n : Nat} (v : Vector α n) (i : Nat) (x : α) : P (Vector α n) :=
  if h : i < n then .ok (v.set i x) else .error .index

/-- Rust `Option::expect`. -/
def expectSome {α : Type} : Option α → P α
  | some a => .ok a
  | none => .error .expect

/-- state.rs:86-92 `SUSPICIOUS_TRANSITION_DELAY`, in milliseconds. -/
def suspiciousTransitionDelay : Nat := 5000

/-- state.rs:422-429 `PanelState`. -/
structure PanelState where
  armingStatus : Option ArmingStatusReport
  zoneStatuses : Option ZoneStatusReport
  zoneNames : Vector TextDescription 208
  areaNames : Vector TextDescription 8
  taskNames : Vector TextDescription 32
  deriving DecidableEq

/-- state.rs:454-465 `PanelState::default`. -/
def PanelState.default : PanelState where
  armingStatus := none
  zoneStatuses := none
  zoneNames := Vector.replicate 208 TextDescription.empty
  areaNames := Vector.replicate 8 TextDescription.empty
  taskNames := Vector.replicate 32 TextDescription.empty

/-- state.rs:482-505 `Change`. -/
inductive Change where
  | zoneChange (zone : Zone) (prior : ZoneStatus)
  | armingStatus (prior : ArmingStatusReport)
  deriving DecidableEq

/-- state.rs:467-480 `Event`. -/
structure Event where
  pkt : Option Packet
  msg : Option (Except Bytes Message)
  completes : Option Message
  change : Option Change

/-- state.rs:507-511 `Command`. -/
inductive Command where
  | arm (m : ArmRequest)
  | activateTask (t : Task)
  deriving DecidableEq

/-- state.rs:513-520 `Command::into_msg`. -/
def Command.intoMsg : Command → Message
  | .arm m => .armRequest m
  | .activateTask t => .activateTask t

/-- state.rs:522-532 `CmdState`. -/
inductive CmdState where
  | idle
  | busy (request : Message) (flushed : Bool) (waker : Option Waker)
  deriving DecidableEq

/-- state.rs:97 the contents of `pending_arm`: a timer (its deadline, and the task registered with
it) and the withheld report. -/
structure PendingArm where
  deadline : Nat
  report : ArmingStatusReport
  waker : Option Waker
  deriving DecidableEq

/-- state.rs:94-99 `Panel`. -/
structure Panel where
  conn : Connection
  state : PanelState
  pendingArm : Option PendingArm
  cmdState : CmdState
  deriving DecidableEq

/-- state.rs:112-114 `Panel::zone_name`. -/
def Panel.zoneName (p : Panel) (zone : Zone) : P TextDescription := do
  let i ← zone.toIndex
  arrGet p.state.zoneNames i

/-- state.rs:116-118 `Panel::area_names`. -/
def Panel.areaNames (p : Panel) : Vector TextDescription 8 := p.state.areaNames

/-- state.rs:120-125 `Panel::arming_status`. -/
def Panel.armingStatus (p : Panel) : P ArmingStatusReport := expectSome p.state.armingStatus

/-- state.rs:127-132 `Panel::zone_statuses`. -/
def Panel.zoneStatuses (p : Panel) : P ZoneStatusReport := expectSome p.state.zoneStatuses

/-- state.rs:259-301 `Panel::interpret_arming_status`; `now` is the time of the call. -/
def Panel.interpretArmingStatus (p : Panel) (now : Nat) (msg : ArmingStatusReport) :
    Option Change × Panel :=
  match p.state.armingStatus with
  | none => (none, { p with state := { p.state with armingStatus := some msg } })
  | some prior =>
    if p.pendingArm = none ∧ prior.isTransitionSuspicious msg then
      (none, { p with pendingArm := some ⟨now + suspiciousTransitionDelay, msg, none⟩ })
    else if prior ≠ msg then
      (some (.armingStatus prior),
        { p with pendingArm := none, state := { p.state with armingStatus := some msg } })
    else (none, { p with pendingArm := none })

/-- state.rs:222-233 the `ZoneChange` arm of `Panel::interpret`. -/
def Panel.interpretZoneChange (p : Panel) (m : ZoneChange) : P (Option Change × Panel) :=
  match p.state.zoneStatuses with
  | none => .ok (none, p)
  | some s => do
    let i ← m.zone.toIndex
    let old ← arrGet s.zones i
    let zones ← arrSet s.zones i m.status
    .ok (if old ≠ m.status then some (.zoneChange m.zone old) else none,
      { p with state := { p.state with zoneStatuses := some ⟨zones⟩ } })

/-- state.rs:217-238 the state update of `Panel::interpret`. -/
def Panel.track (p : Panel) (now : Nat) : Message → P (Option Change × Panel)
  | .armingStatusReport m => .ok (p.interpretArmingStatus now m)
  | .zoneChange m => p.interpretZoneChange m
  | .zoneStatusReport m => .ok (none, { p with state := { p.state with zoneStatuses := some m } })
  | _ => .ok (none, p)

/-- state.rs:239-249 the completion of a command in `Panel::interpret`: the command, the task woken
and the panel. -/
def Panel.complete (p : Panel) (m : Message) : Option Message × List Waker × Panel :=
  match p.cmdState with
  | .busy request _ waker =>
    if m.isResponseTo request then (some request, waker.toList, { p with cmdState := .idle })
    else (none, [], p)
  | .idle => (none, [], p)

/-- state.rs:211-257 `Panel::interpret`. -/
def Panel.interpret (p : Panel) (now : Nat) (pkt : Packet) : P (Event × List Waker × Panel) :=
  match Message.parse pkt with
  | .error (.panic q) => .error q
  | .error (.err e) => .ok (⟨some pkt, some (.error e), none, none⟩, [], p)
  | .ok none => .ok (⟨some pkt, none, none, none⟩, [], p)
  | .ok (some m) => do
    let (change, p) ← p.track now m
    let (completes, woken, p) := p.complete m
    .ok (⟨some pkt, some (.ok m), completes, change⟩, woken, p)

/-- What `Stream::poll_next` of a panel yields when ready. -/
abbrev PanelItem := Option (Except IoErr Event)

/-- state.rs:323-340 `Panel::poll_next`, the timer. -/
def Panel.pollTimer (p : Panel) (cx : Cx) : P (Poll PanelItem × Panel) :=
  match p.pendingArm with
  | none => .ok (.pending, p)
  | some pa =>
    if pa.deadline ≤ cx.timer then do
      let prior ← expectSome p.state.armingStatus
      .ok (.ready (some (.ok ⟨none, none, none, some (.armingStatus prior)⟩)),
        { p with pendingArm := none, state := { p.state with armingStatus := some pa.report } })
    else .ok (.pending, { p with pendingArm := some { pa with waker := some cx.waker } })

/-- state.rs:304-346 `<Panel as Stream>::poll_next`. -/
def Panel.pollNext (p : Panel) (cx : Cx) : P (Poll PanelItem × List Waker × Panel) := do
  let (r, conn) ← p.conn.pollNext cx
  let p := { p with conn }
  match r with
  | .ready (some (.error e)) => .ok (.ready (some (.error e)), [], p)
  | .ready none => .ok (.ready none, [], p)
  | .ready (some (.ok pkt)) => do
    let (ev, woken, p) ← p.interpret cx.now pkt
    .ok (.ready (some (.ok ev)), woken, p)
  | .pending => do
    let (r, p) ← p.pollTimer cx
    .ok (r, [], p)

/-- state.rs:352-376 `<Panel as Sink>::poll_ready`. -/
def Panel.pollReady (p : Panel) (cx : Cx) : Poll (Except IoErr Unit) × Panel :=
  match p.cmdState with
  | .idle => (.ready (.ok ()), p)
  | .busy request true _ => (.pending, { p with cmdState := .busy request true (some cx.waker) })
  | .busy request false _ =>
    match p.conn.pollFlush cx with
    | (.ready (.ok ()), conn) =>
      (.pending, { p with conn, cmdState := .busy request true (some cx.waker) })
    | (o, conn) => (o, { p with conn })

/-- state.rs:378-390 `<Panel as Sink>::start_send`. -/
def Panel.startSend (p : Panel) (item : Command) : P Panel :=
  match p.cmdState with
  | .busy .. => .error .assertion
  | .idle => do
    let pkt ← item.intoMsg.toPkt
    let conn ← p.conn.startSend pkt
    .ok { p with conn, cmdState := .busy item.intoMsg false none }

/-- state.rs:392-408 `<Panel as Sink>::poll_flush`. -/
def Panel.pollFlush (p : Panel) (cx : Cx) : Poll (Except IoErr Unit) × Panel :=
  match p.cmdState with
  | .busy request false waker =>
    match p.conn.pollFlush cx with
    | (.ready (.ok ()), conn) =>
      (.ready (.ok ()), { p with conn, cmdState := .busy request true waker })
    | (o, conn) => (o, { p with conn })
  | _ => (.ready (.ok ()), p)

/-- state.rs:410-419 `<Panel as Sink>::poll_close`. -/
def Panel.pollClose (p : Panel) (cx : Cx) : Poll (Except IoErr Unit) × Panel :=
  match p.pollFlush cx with
  | (.ready (.ok ()), p) =>
    let (o, conn) := p.conn.pollClose cx
    (o, { p with conn })
  | (o, p) => (o, p)

/-! ## Histories -/

/-- What can happen to a panel: the environment answers a read or a write, or some task calls a
`Stream` or `Sink` function. -/
inductive Op where
  | arrive (r : ReadItem)
  | writable (w : WriteItem)
  | pollNext (cx : Cx)
  | pollReady (cx : Cx)
  | startSend (cmd : Command)
  | pollFlush (cx : Cx)
  | pollClose (cx : Cx)
  deriving DecidableEq

/-- What is observed of an operation: its result and the tasks it woke. -/
inductive Out where
  | env (woken : List Waker)
  | next (r : Poll PanelItem) (woken : List Waker)
  | sink (r : Poll (Except IoErr Unit))
  | accepted

/-- One operation.  (Not a definition of /repo: the ways a panel is used.) -/
def Panel.step (p : Panel) : Op → P (Out × Panel)
  | .arrive r => let (w, conn) := p.conn.arrive r; .ok (.env w, { p with conn })
  | .writable r => let (w, conn) := p.conn.writable r; .ok (.env w, { p with conn })
  | .pollNext cx => do
    let (r, w, p) ← p.pollNext cx
    .ok (.next r w, p)
  | .pollReady cx => let (r, p) := p.pollReady cx; .ok (.sink r, p)
  | .startSend c => do
    let p ← p.startSend c
    .ok (.accepted, p)
  | .pollFlush cx => let (r, p) := p.pollFlush cx; .ok (.sink r, p)
  | .pollClose cx => let (r, p) := p.pollClose cx; .ok (.sink r, p)

/-- A sequence of operations, with what was observed of each. -/
def Panel.run : List Op → Panel → P (List Out × Panel)
  | [], p => .ok ([], p)
  | op :: ops, p => do
    let (o, p) ← p.step op
    let (os, p) ← Panel.run ops p
    .ok (o :: os, p)

end Elk
