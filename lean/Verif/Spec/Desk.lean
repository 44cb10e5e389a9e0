import Verif.Spec.Mqtt
import Verif.Spec.Machine
import Verif.Spec.JsonMeans
import Verif.Spec.Document
/-!
# Reference machine of the bridge

What the bridge publishes, which messages of the broker it takes up and what it sends to the panel
follows from the bytes it reads and writes, from what the broker delivers and from the order in which
it looks (`Serves`), on top of the reference machine of a panel (`Reading`, `Readying`, `Flushing`).
Nothing here uses the functions of the model of the bridge.
-/

namespace Elk.Spec

/-- What matters of the bridge: what its panel looks like, the messages of the broker not yet taken
up, and what it is doing. -/
structure Desk where
  view : View
  inbox : List Publish
  doing : Waiting

/-- Two lists, element by element. -/
inductive Each {α β : Type} (r : α → β → Prop) : List α → List β → Prop
  | nil : Each r [] []
  | cons {a b l l'} : r a b → Each r l l' → Each r (a :: l) (b :: l')

/-- The alarm state as the bridge takes it: a fire alarm counts as no alarm (`C48_fire_unseen`). -/
def Seen (s : AlarmState) : AlarmState := if s = .fireAlarm then .noAlarmActive else s

/-- The message with the state of an area. -/
inductive AreaLine (pre : Bytes) (r : ArmingStatusReport) (a : UInt8 × AreaCfg) : Published → Prop
  | state {i : Nat} {hi : i < 8} {t : String} : a.1.toNat = i + 1 →
      AreaShows r.armingStatus[i] r.upState[i] (Seen r.alarmState[i]) t →
      AreaLine pre r a ⟨pre ++ bs "/area/" ++ a.2.name ++ bs "/ha_state", true, .text (bs t)⟩

/-- The message with the state of a zone. -/
inductive ZoneLine (pre : Bytes) (z : ZoneStatusReport) (a : UInt8 × ZoneCfg) : Published → Prop
  | state {i : Nat} {hi : i < 208} : a.1.toNat = i + 1 →
      ZoneLine pre z a ⟨pre ++ bs "/zone/" ++ a.2.name ++ bs "/ha_state", true,
        .text (bs (zoneText z.zones[i].val.toNat))⟩

/-- The device in the documents for discovery. -/
def deviceDoc (cfg : Cfg) : Json :=
  .obj [(bs "manufacturer", .str (bs "Elk Products")), (bs "model", .str (bs "M1")),
    (bs "identifiers", .arr [.str cfg.elk.serialNumber])]

/-- The message with the document of an area. -/
def areaDoc (cfg : Cfg) (ha : Bytes) (a : UInt8 × AreaCfg) : Published :=
  let id := bs "elk-" ++ cfg.elk.serialNumber ++ bs "-area-" ++ decStr a.1.toNat
  let here := cfg.prefix ++ bs "/area/" ++ a.2.name
  ⟨ha ++ bs "/alarm_control_panel/" ++ id ++ bs "/config", true, .json (.obj [
    (bs "availability_topic", .str (cfg.prefix ++ bs "/availability")),
    (bs "state_topic", .str (here ++ bs "/ha_state")),
    (bs "command_topic", .str (here ++ bs "/ha_command")),
    (bs "unique_id", .str id), (bs "name", .str a.2.name), (bs "device", deviceDoc cfg)])⟩

/-- The message with the document of a zone. -/
def zoneDoc (cfg : Cfg) (ha : Bytes) (a : UInt8 × ZoneCfg) : Published :=
  let id := bs "elk-" ++ cfg.elk.serialNumber ++ bs "-zone-" ++ decStr a.1.toNat
  ⟨ha ++ bs "/binary_sensor/" ++ id ++ bs "/config", true, .json (.obj [
    (bs "availability_topic", .str (cfg.prefix ++ bs "/availability")),
    (bs "state_topic", .str (cfg.prefix ++ bs "/zone/" ++ a.2.name ++ bs "/ha_state")),
    (bs "unique_id", .str id), (bs "name", .str a.2.name), (bs "device", deviceDoc cfg),
    (bs "device_class", .str a.2.binarySensorDeviceClass)])⟩

/-- What is published at first: the documents if they are wanted, the states of the areas, those of
the zones, and that the bridge is there. -/
inductive Opens (cfg : Cfg) (v : View) : List Published → Prop
  | mk {docs areas zones : List Published} :
      (∀ ha, cfg.mqtt.haDiscoveryPrefix = some ha →
        docs = cfg.elk.areas.map (areaDoc cfg ha) ++ cfg.elk.zones.map (zoneDoc cfg ha)) →
      (cfg.mqtt.haDiscoveryPrefix = none → docs = []) →
      Each (AreaLine cfg.prefix v.shown) cfg.elk.areas areas →
      Each (ZoneLine cfg.prefix v.zones) cfg.elk.zones zones →
      Opens cfg v (docs ++ areas ++ zones ++
        [⟨cfg.prefix ++ bs "/availability", true, .text (bs "online")⟩])

/-- What is published for a change: the states of all areas, or of the one zone if it is
configured. -/
inductive Updates (cfg : Cfg) (v : View) : Option Change → List Published → Prop
  | nothing : Updates cfg v none []
  | areas {prior out} : Each (AreaLine cfg.prefix v.shown) cfg.elk.areas out →
      Updates cfg v (some (.armingStatus prior)) out
  | zone {zone : Zone} {prior} {c : ZoneCfg} {m} : (zone.val, c) ∈ cfg.elk.zones →
      ZoneLine cfg.prefix v.zones (zone.val, c) m → Updates cfg v (some (.zoneChange zone prior)) [m]
  | other {zone : Zone} {prior} : (∀ c, (zone.val, c) ∉ cfg.elk.zones) →
      Updates cfg v (some (.zoneChange zone prior)) []

/-- What is published for an event: its JSON form, and then what changed. -/
inductive Announces (cfg : Cfg) (v : View) (ev : Event) : List Published → Prop
  | mk {j out} : eventDoc ev = some j → Updates cfg v ev.change out →
      Announces cfg v ev (⟨cfg.prefix ++ bs "/event", false, .json j⟩ :: out)

/-- The topic is one for commands. -/
def ForCommands (cfg : Cfg) (t : Bytes) : Prop :=
  ∃ a ∈ cfg.elk.areas, t = cfg.prefix ++ bs "/area/" ++ a.2.name ++ bs "/ha_command"

/-- Whether the panel was looked at, in vain, before the inbox. -/
inductive Looked (cx : Cx) (v : View) : Bool → Bytes → View → Prop
  | no : Looked cx v false [] v
  | yes {io v'} : Reading cx v io .pending v' → Looked cx v true io v'

/-- One operation of the bridge, what it read and wrote, what was observed and what it left. -/
inductive Serves (cfg : Cfg) (code : ArmCode) (d : Desk) : BOp → Bytes → Bytes → BObs → Desk → Prop
  | arrive {r w} : Serves cfg code d (.arrive r) [] [] (.env w) d
  | writable {r w} : Serves cfg code d (.writable r) [] [] (.env w) d
  | deliver {p} : Serves cfg code d (.deliver p) [] [] (.env []) { d with inbox := d.inbox ++ [p] }
  /-- an event is published; with the inbox looked at first, only if that is empty -/
  | event {cx pf io ev w out v'} : d.doing = .select → (pf = false → d.inbox = []) →
      Reading cx d.view io (.ready (some (.ok ev))) v' →
      (∀ r, ev.msg ≠ some (.ok (.zoneStatusReport r))) → Announces cfg v' ev out →
      Serves cfg code d (.tick cx pf) io [] (.event ev out w) { d with view := v' }
  /-- a message that asks for nothing -/
  | ignores {cx pf io v' p rest} : d.doing = .select → d.inbox = p :: rest →
      Looked cx d.view pf io v' → Asks cfg code p none →
      (ForCommands cfg p.topic → Rfc.Utf8 p.payload) →
      Serves cfg code d (.tick cx pf) io [] (.taken p none) { d with view := v', inbox := rest }
  /-- a message that asks for a command -/
  | takes {cx pf io v' p rest c} : d.doing = .select → d.inbox = p :: rest →
      Looked cx d.view pf io v' → Asks cfg code p (some c) →
      Serves cfg code d (.tick cx pf) io [] (.taken p (some c)) ⟨v', rest, .ready c⟩
  | idle {cx pf io v'} : d.doing = .select → d.inbox = [] → Reading cx d.view io .pending v' →
      Serves cfg code d (.tick cx pf) io [] .pending { d with view := v' }
  /-- the panel is not ready for the command -/
  | waits {cx pf c io v'} : d.doing = .ready c → Readying d.view io .pending v' →
      Serves cfg code d (.tick cx pf) [] io .pending { d with view := v' }
  | hands {cx pf c} : d.doing = .ready c → d.view.asked = none →
      Serves cfg code d (.tick cx pf) [] [] (.accepted c)
        { d with
          view := { d.view with
            asked := some (c.intoMsg, true), unsent := d.view.unsent ++ commandBytes c }
          doing := .flush }
  | sending {cx pf io v'} : d.doing = .flush → Flushing d.view io .pending v' →
      Serves cfg code d (.tick cx pf) [] io .pending { d with view := v' }
  | sent {cx pf io v'} : d.doing = .flush → Flushing d.view io (.ready (.ok ())) v' →
      Serves cfg code d (.tick cx pf) [] io .sent { d with view := v', doing := .select }

/-- What ends the bridge. -/
inductive Stops (cfg : Cfg) (d : Desk) : BOp → Bytes → Bytes → Prop
  /-- reading fails, or the connection has ended -/
  | over {cx pf io r v'} : d.doing = .select → (pf = false → d.inbox = []) →
      Reading cx d.view io (.ready r) v' → (∀ ev, r ≠ some (.ok ev)) → Stops cfg d (.tick cx pf) io []
  /-- a report on all zones cannot be published -/
  | report {cx pf io ev r v'} : d.doing = .select → (pf = false → d.inbox = []) →
      Reading cx d.view io (.ready (some (.ok ev))) v' →
      ev.msg = some (.ok (.zoneStatusReport r)) → Stops cfg d (.tick cx pf) io []
  /-- a message on a topic for commands is not text -/
  | garbage {cx pf io v' p rest} : d.doing = .select → d.inbox = p :: rest →
      Looked cx d.view pf io v' → ForCommands cfg p.topic → ¬ Rfc.Utf8 p.payload →
      Stops cfg d (.tick cx pf) io []
  /-- writing fails -/
  | unready {cx pf c io e v'} : d.doing = .ready c → Readying d.view io (.ready (.error e)) v' →
      Stops cfg d (.tick cx pf) [] io
  | unsent {cx pf io e v'} : d.doing = .flush → Flushing d.view io (.ready (.error e)) v' →
      Stops cfg d (.tick cx pf) [] io

/-- What happened in one operation of the bridge. -/
structure Turn where
  op : BOp
  rd : Bytes
  wr : Bytes
  out : BObs

/-- A history of the bridge. -/
inductive Working (cfg : Cfg) (code : ArmCode) : Desk → List Turn → Desk → Prop
  | nil {d} : Working cfg code d [] d
  | cons {d d' d'' t l} : Serves cfg code d t.op t.rd t.wr t.out d' → Working cfg code d' l d'' →
      Working cfg code d (t :: l) d''

/-- The bridge is here. -/
structure Sits (b : Bridge) (d : Desk) : Prop where
  view : Looks b.panel d.view
  inbox : b.inbox = d.inbox
  doing : b.waiting = d.doing

end Elk.Spec
