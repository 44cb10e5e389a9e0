import Verif.Spec.Log
import Verif.Spec.Desk
import Verif.Spec.Greeting
import Verif.Spec.Cli
/-!
# What connecting, the bridge and `watch` log

Beside the reference machines (`Connects`, `Serves`, and `Sees` for `watch`): the records of each
operation.
-/

namespace Elk.Spec

/-! ## The bridge -/

/-- The record of a message of the broker. -/
def mailed (p : Publish) : Record :=
  ⟨.publish, [("publish", .publish p.topic p.payload.length), ("payload", .bytes p.payload)]⟩

/-- The record of the area that a message is for. -/
def wanted (name : Bytes) (p : Publish) : Record :=
  ⟨.matched, [("area.name", .text name), ("publish.topic", .text p.topic)]⟩

/-- What is logged for an operation of the bridge, given what is observed. -/
inductive Notices (cfg : Cfg) (v : View) : BOp → BObs → List Record → Prop
  /-- an event: what the panel logs, and the event -/
  | event {cx pf ev out w l d} : Jots v (.pollNext cx) (.next (.ready (some (.ok ev))) w) l →
      ev.debug = .ok d →
      Notices cfg v (.tick cx pf) (.event ev out w) (l ++ [jot .panelEvent [("panel_event", d)]])
  | unknown {cx pf p} : ¬ ForCommands cfg p.topic →
      Notices cfg v (.tick cx pf) (.taken p none)
        [mailed p, ⟨.unknownTopic, [("publish.topic", .text p.topic)]⟩]
  | ignored {cx pf p a} : a ∈ cfg.elk.areas →
      p.topic = cfg.prefix ++ bs "/area/" ++ a.2.name ++ bs "/ha_command" →
      (∀ level, ¬ Level p.payload level) →
      Notices cfg v (.tick cx pf) (.taken p none)
        [mailed p, wanted a.2.name p, ⟨.unknownLevel, [("ha_level", .text p.payload)]⟩]
  | asked {cx pf p a level c} : a ∈ cfg.elk.areas →
      p.topic = cfg.prefix ++ bs "/area/" ++ a.2.name ++ bs "/ha_command" → Level p.payload level →
      Notices cfg v (.tick cx pf) (.taken p (some c)) [mailed p, wanted a.2.name p]
  /-- a command is handed to the panel: what that logs -/
  | hands {cx pf c l} : Jots v (.startSend c) .accepted l →
      Notices cfg v (.tick cx pf) (.accepted c) l
  | quiet {op o} : (∀ ev out w, o ≠ .event ev out w) → (∀ p c, o ≠ .taken p c) →
      (∀ c, o ≠ .accepted c) → Notices cfg v op o []

/-- A history of the bridge and its log. -/
inductive Minutes (cfg : Cfg) (code : ArmCode) : Desk → List (Turn × List Record) → Desk → Prop
  | nil {d} : Minutes cfg code d [] d
  | cons {d d' d'' t j l} : Serves cfg code d t.op t.rd t.wr t.out d' →
      Notices cfg d.view t.op t.out j → Minutes cfg code d' l d'' →
      Minutes cfg code d ((t, j) :: l) d''

/-! ## Connecting -/

/-- What is logged about a message: only suspicious arming reports are worth it, and the first is
not. -/
inductive Comments (g : Greet) : Message → List Record → Prop
  | first {m} : g.shown = none → Comments g (.armingStatusReport m) []
  | withheld {s m} : g.shown = some s → g.held = none → Suspicious s m →
      Comments g (.armingStatusReport m) [jot .delaying [("prior", s.debug), ("pending", m.debug)]]
  | twice {s due h m} : g.shown = some s → g.held = some (due, h) → Suspicious s m →
      Comments g (.armingStatusReport m)
        [jot .alsoSuspicious [("prior", s.debug), ("pending", h.debug), ("new", m.debug)]]
  | plain {s m} : g.shown = some s → ¬ Suspicious s m → Comments g (.armingStatusReport m) []
  | other {m} : (∀ r, m ≠ .armingStatusReport r) → Comments g m []

/-- What is logged for an operation while connecting, given what is observed and what it came to. -/
inductive Utters (g : Greet) : Where → Obs → Outcome → List Record → Prop
  | ask {q x} : Utters g (.toAsk q) (.asked q) x
      [jot .sending [("pkt", (Packet.ascii ⟨sentText q⟩).debug)]]
  | packet {q pkt msg done change x} : (∀ m, msg ≠ some (.ok m)) →
      Utters g (.waiting q) (.got ⟨some pkt, msg, done, change⟩) x [jot .received [("pkt", pkt.debug)]]
  | unrelated {q ev pkt m x l d} : ev.pkt = some pkt → ev.msg = some (.ok m) → Comments g m l →
      ¬ Responds m q → ev.debug = .ok d →
      Utters g (.waiting q) (.got ev) x
        (jot .received [("pkt", pkt.debug)] :: l ++ [jot .unrelated [("msg", d)]])
  /-- the reply, and the next question -/
  | reply {q q' g' ev pkt m l d d'} : ev.pkt = some pkt → ev.msg = some (.ok m) → Comments g m l →
      Responds m q → ev.debug = .ok d → q'.debug = .ok d' →
      Utters g (.waiting q) (.got ev) (.asking (.toAsk q') g')
        (jot .received [("pkt", pkt.debug)] :: l ++
          [jot .reply [("msg", d)], jot .asking [("msg", d')]])
  | last {q g' ev pkt m l d} : ev.pkt = some pkt → ev.msg = some (.ok m) → Comments g m l →
      Responds m q → ev.debug = .ok d →
      Utters g (.waiting q) (.got ev) (.done g')
        (jot .received [("pkt", pkt.debug)] :: l ++ [jot .reply [("msg", d)]])
  | quiet {w o x} : (∀ q, o ≠ .asked q) → (∀ ev, o ≠ .got ev) → Utters g w o x []

/-- A history of connecting and its log. -/
inductive Tale : Outcome → List (Act × List Record) → Outcome → Prop
  | nil {x} : Tale x [] x
  | cons {w g d j x l y} : Connects w g d.op d.rd d.wr d.out x → Utters g w d.out x j → Tale x l y →
      Tale (.asking w g) ((d, j) :: l) y

/-! ## `watch` -/

/-- One operation of `watch`, given the names of areas and zones as they are shown: what it read,
what was observed and what it left. -/
inductive Sees (areas : Fin 8 → Bytes) (zones : Fin 208 → Bytes) (v : View) :
    InitOp → Bytes → WObs → View → Prop
  | arrive {r} : Sees areas zones v (.arrive r) [] .env v
  | writable {r} : Sees areas zones v (.writable r) [] .env v
  | idle {cx io v'} : Reading cx v io .pending v' → Sees areas zones v (.tick cx) io .pending v'
  /-- the lines tell the differences -/
  | event {cx io ev v'} : Reading cx v io (.ready (some (.ok ev))) v' →
      (∀ r, ev.msg ≠ some (.ok (.zoneStatusReport r))) →
      Sees areas zones v (.tick cx) io
        (.event ev (areaDiff areas v.shown v'.shown ++ zoneDiff zones v.zones v'.zones)) v'
  /-- but not of a report on all zones -/
  | report {cx io ev r v'} : Reading cx v io (.ready (some (.ok ev))) v' →
      ev.msg = some (.ok (.zoneStatusReport r)) → Sees areas zones v (.tick cx) io (.event ev []) v'
  | ended {cx io v'} : Reading cx v io (.ready none) v' →
      Sees areas zones v (.tick cx) io .returned v'

/-- How a zone's state is shown. -/
def zoneDbg (s : ZoneLogicalStatus × ZonePhysicalStatus) : FieldValue :=
  .debug (.tuple (bs "ZoneStatus") [Variants.debug s.1, Variants.debug s.2])

/-- The record of a line. -/
def lineShown : WatchLine → Record
  | .zone name a b => ⟨.zoneLine,
      [("zone.name", .text name), ("prior.state", zoneDbg a), ("new.state", zoneDbg b)]⟩
  | .area name a b => ⟨.areaLine, [("area.name", .text name),
      ("prior.arming_status", .debug (Variants.debug a.armingStatus)),
      ("prior.up_state", .debug (Variants.debug a.upState)),
      ("prior.alarm_state", .debug (Variants.debug a.alarmState)),
      ("new.arming_status", .debug (Variants.debug b.armingStatus)),
      ("new.up_state", .debug (Variants.debug b.upState)),
      ("new.alarm_state", .debug (Variants.debug b.alarmState))]⟩

/-- What is logged for an operation of `watch`, given what is observed: what the panel logs, the
event and the lines. -/
inductive Prints (v : View) : InitOp → WObs → List Record → Prop
  | event {cx ev lines w l d} : Jots v (.pollNext cx) (.next (.ready (some (.ok ev))) w) l →
      ev.debug = .ok d →
      Prints v (.tick cx) (.event ev lines) (l ++ [jot .polled [("pkt", d)]] ++ lines.map lineShown)
  | quiet {op o} : (∀ ev l, o ≠ .event ev l) → Prints v op o []

/-- What happened in one operation of `watch`. -/
structure Look where
  op : InitOp
  rd : Bytes
  out : WObs

/-- A history of `watch` and its log; the last operation may be that in which it returns. -/
inductive Diary (areas : Fin 8 → Bytes) (zones : Fin 208 → Bytes) :
    View → List (Look × List Record) → View → Prop
  | nil {v} : Diary areas zones v [] v
  | cons {v v' v'' t j l} : Sees areas zones v t.op t.rd t.out v' → Prints v t.op t.out j →
      (t.out = .returned → l = []) → Diary areas zones v' l v'' →
      Diary areas zones v ((t, j) :: l) v''

end Elk.Spec
