import Verif.Model.State
import Verif.Spec.Msg
/-!
# Vocabulary for properties of the `Panel`

What a user observes of a history: the operations performed and what each returned.
-/

namespace Elk.Spec

/-- A panel as `connect` leaves it: both statuses known, no command outstanding, nothing waiting to
be written, and whatever complete packets it read were handed over (or it is about to look). -/
structure Connected (p : Panel) : Prop where
  arming : ∃ m, p.armingStatus = .ok m
  zones : ∃ z, p.zoneStatuses = .ok z
  idle : p.cmdState = .idle
  flushed : p.conn.wbuf = []
  held : ∀ pa, p.pendingArm = some pa → ∃ v, p.armingStatus = .ok v ∧ Suspicious v pa.report
  read : p.conn.rd.isReadable = false ∨ p.conn.rd.hasErrored = true →
    Packet.decode p.conn.rd.buffer = .ok (none, p.conn.rd.buffer)

/-- The event returned by an operation. -/
def eventOf : Out → Option Event
  | .next (.ready (some (.ok e))) _ => some e
  | _ => none

/-- The events returned in a history. -/
def events (outs : List Out) : List Event := outs.filterMap eventOf

/-- The packets of the events returned in a history. -/
def packets (outs : List Out) : List Packet := (events outs).filterMap (·.pkt)

/-- The arming report an event carries. -/
def reportOf (e : Event) : Option ArmingStatusReport :=
  match e.msg with
  | some (.ok (.armingStatusReport m)) => some m
  | _ => none

/-- The arming reports received in a history. -/
def reports (outs : List Out) : List ArmingStatusReport := (events outs).filterMap reportOf

/-- What an event says about the zone with index `i` (number `i + 1`). -/
def zoneReport (i : Nat) (e : Event) : Option ZoneStatus :=
  match e.msg with
  | some (.ok (.zoneChange m)) => if m.zone.val.toNat = i + 1 then some m.status else none
  | some (.ok (.zoneStatusReport m)) => m.zones[i]?
  | _ => none

/-- The last element of a list, or a default. -/
def lastOr {α : Type} (l : List α) (d : α) : α := l.getLast?.getD d

/-- The tasks woken by an operation. -/
def wokenOf : Out → List Waker
  | .env w => w
  | .next _ w => w
  | _ => []

/-- The tasks woken in a history. -/
def woken (outs : List Out) : List Waker := outs.flatMap wokenOf

/-- The commands accepted in a history. -/
def commands (ops : List Op) : List Command :=
  ops.filterMap fun
    | .startSend c => some c
    | _ => none

/-- The bytes of a command on the wire: the frame of the documented text. -/
def commandBytes (c : Command) : Bytes := asciiFrame (sentText c.intoMsg)

/-- The bytes queued for reading in a history. -/
def arrived (ops : List Op) : List ReadItem :=
  ops.filterMap fun
    | .arrive r => some r
    | _ => none

/-- All bytes among the answers to reads. -/
def dataBytes (q : List ReadItem) : Bytes :=
  q.flatMap fun
    | .data b => b
    | _ => []

/-- The report `m` is what the panel shows, or it is being withheld as suspicious and will be
shown. -/
def Latest (p : Panel) (m : ArmingStatusReport) : Prop :=
  (p.armingStatus = .ok m ∧ p.pendingArm = none) ∨
  (∃ v pa, p.armingStatus = .ok v ∧ p.pendingArm = some pa ∧ pa.report = m ∧ Suspicious v m)

/-- What a change may claim, given the views before (`a`, `z`) and after (`a'`, `z'`): exactly what
changed, with its prior value; nothing, iff nothing changed. -/
def ChangeTruthful (a a' : ArmingStatusReport) (z z' : ZoneStatusReport) : Option Change → Prop
  | none => a' = a ∧ z' = z
  | some (.armingStatus prior) => prior = a ∧ a' ≠ a ∧ z' = z
  | some (.zoneChange zone prior) => a' = a ∧ ∃ i, ∃ h : i < 208, zone.val.toNat = i + 1 ∧
      prior = z.zones[i] ∧ z'.zones[i] ≠ prior ∧
      ∀ j, ∀ hj : j < 208, j ≠ i → z'.zones[j] = z.zones[j]

/-- The discipline of commands, over the operations of a history and what they returned: the first
argument is the outstanding command before, the last the one after. -/
inductive Flow : Option Message → List (Op × Out) → Option Message → Prop
  | nil {o} : Flow o [] o
  | accept {c l x} : Flow (some c.intoMsg) l x → Flow none ((.startSend c, .accepted) :: l) x
  | complete {cx ev r m w l x} : ev.completes = some r → ev.msg = some (.ok m) → Responds m r →
      Flow none l x → Flow (some r) ((.pollNext cx, .next (.ready (some (.ok ev))) w) :: l) x
  | event {cx ev o w l x} : ev.completes = none →
      (∀ r m, o = some r → ev.msg = some (.ok m) → ¬ Responds m r) →
      Flow o l x → Flow o ((.pollNext cx, .next (.ready (some (.ok ev))) w) :: l) x
  | noEvent {cx res o w l x} : (∀ ev, res ≠ .ready (some (.ok ev))) →
      Flow o l x → Flow o ((.pollNext cx, .next res w) :: l) x
  | readyIdle {cx l x} : Flow none l x → Flow none ((.pollReady cx, .sink (.ready (.ok ()))) :: l) x
  | readyBusy {cx r res l x} : res ≠ .ready (.ok ()) → Flow (some r) l x →
      Flow (some r) ((.pollReady cx, .sink res) :: l) x
  | flush {cx res o l x} : Flow o l x → Flow o ((.pollFlush cx, .sink res) :: l) x
  | close {cx res o l x} : Flow o l x → Flow o ((.pollClose cx, .sink res) :: l) x
  | arrive {r w o l x} : Flow o l x → Flow o ((.arrive r, .env w) :: l) x
  | writable {r w o l x} : Flow o l x → Flow o ((.writable r, .env w) :: l) x

/-- The commands completed in a history, in order. -/
def completions (outs : List Out) : List Message := (events outs).filterMap (·.completes)

/-- What an operation says about the connection: a packet, an I/O error or the end of the stream. -/
def itemOf : Out → Option Item
  | .next (.ready none) _ => some none
  | .next (.ready (some (.error e))) _ => some (some (.error e))
  | .next (.ready (some (.ok ev))) _ => ev.pkt.map fun p => some (.ok p)
  | _ => none

/-- Well-formed commands (those that can be built from checked areas, codes and task numbers). -/
def WfCommand (c : Command) : Prop := WfMessage c.intoMsg

end Elk.Spec
