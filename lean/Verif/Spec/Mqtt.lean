import Verif.Model.Mqtt
import Verif.Spec.Panel
/-!
# Vocabulary for properties of the MQTT bridge
-/

namespace Elk.Spec

/-! ## What Home Assistant should see -/

/-- The Home Assistant name of a mode. -/
def modeText : ArmingStatus → String
  | .disarmed => "disarmed"
  | .armedAway => "armed_away"
  | .armedStay => "armed_home"
  | .armedStayInstant => "armed_home"
  | .armedNight => "armed_night"
  | .armedNightInstant => "armed_night"
  | .armedVacation => "armed_vacation"

/-- The state Home Assistant should show for an area with the given statuses. -/
inductive AreaShows (a : ArmingStatus) (u : ArmUpState) (s : AlarmState) : String → Prop
  | triggered : IsAlarm s → AreaShows a u s "triggered"
  | pending : s = .alarmAbortDelayActive → AreaShows a u s "pending"
  | arming : ¬ IsAlarm s → s ≠ .alarmAbortDelayActive → u = .armedWithExitTimer →
      AreaShows a u s "arming"
  | mode : ¬ IsAlarm s → s ≠ .alarmAbortDelayActive → u ≠ .armedWithExitTimer →
      AreaShows a u s (modeText a)

/-- The state Home Assistant should show for a zone with the given status nibble: its upper two bits
are the logical status. -/
def zoneText (nibble : Nat) : String :=
  if nibble < 4 then "off" else if nibble < 8 then "offline" else "on"

/-- The level a command asks for. -/
inductive Level : Bytes → ArmLevel → Prop
  | disarm : Level (bs "DISARM") .disarm
  | away : Level (bs "ARM_AWAY") .armedAway
  | home : Level (bs "ARM_HOME") .armedStay

/-! ## The broker -/

/-- What the broker holds for a topic after these messages: the payload of the last one to be
retained. -/
def retained (log : List Published) (topic : Bytes) : Option Payload :=
  ((log.filter fun m => m.retain && m.topic == topic).getLast?).map (·.payload)

/-- The value of a field of a JSON object, if it is a string. -/
def stringField (k : String) : Payload → Option Bytes
  | .json (.obj l) =>
    match l.lookup (bs k) with
    | some (.str s) => some s
    | _ => none
  | _ => none

/-! ## Configurations -/

/-- No wildcards of MQTT topic filters. -/
def NoWildcard (t : Bytes) : Prop := b' '+' ∉ t ∧ b' '#' ∉ t

/-- The keys of the two maps are distinct (they are keys of a map). -/
structure MapCfg (c : Cfg) : Prop where
  areas : (c.elk.areas.map (·.1)).Nodup
  zones : (c.elk.zones.map (·.1)).Nodup

/-- No two areas have the same name, and no two zones. -/
structure DistinctNames (c : Cfg) : Prop where
  areas : (c.elk.areas.map (·.2.name)).Nodup
  zones : (c.elk.zones.map (·.2.name)).Nodup

/-- A configuration the bridge can work with. -/
structure UsableCfg (c : Cfg) : Prop where
  code : c.elk.code.toNat < 1000000
  nonempty : c.elk.areas ≠ []
  areas : ∀ a ∈ c.elk.areas, 1 ≤ a.1.toNat ∧ a.1.toNat ≤ 8
  zones : ∀ z ∈ c.elk.zones, 1 ≤ z.1.toNat ∧ z.1.toNat ≤ 208
  pre : NoWildcard c.prefix
  areaNames : ∀ a ∈ c.elk.areas, NoWildcard a.2.name
  zoneNames : ∀ z ∈ c.elk.zones, NoWildcard z.2.name
  discovery : ∀ ha, c.mqtt.haDiscoveryPrefix = some ha →
    (c.elk.areas ≠ [] ∨ c.elk.zones ≠ []) → NoWildcard ha ∧ NoWildcard c.elk.serialNumber

/-- The zone statuses in a panel's view are hex nibbles. -/
def WfView (p : Panel) : Prop :=
  ∀ z, p.zoneStatuses = .ok z → ∀ s ∈ z.zones.toList, WfZoneStatus s

/-- What an incoming message asks for, given the configuration and the configured code. -/
inductive Asks (cfg : Cfg) (code : ArmCode) (p : Publish) : Option Command → Prop
  | arm (a level) : a ∈ cfg.elk.areas →
      p.topic = cfg.prefix ++ bs "/area/" ++ a.2.name ++ bs "/ha_command" →
      Level p.payload level → Asks cfg code p (some (.arm ⟨⟨a.1⟩, level, code⟩))
  | otherTopic :
      (∀ a ∈ cfg.elk.areas, p.topic ≠ cfg.prefix ++ bs "/area/" ++ a.2.name ++ bs "/ha_command") →
      Asks cfg code p none
  | otherPayload : (∀ level, ¬ Level p.payload level) → Asks cfg code p none

/-- What ends the bridge, when it is polled next. -/
inductive Fatal (b : Bridge) (cx : Cx) : Prop
  /-- the connection to the panel has ended -/
  | ended (w p) : b.waiting = .select → b.panel.pollNext cx = .ok (.ready none, w, p) → Fatal b cx
  /-- reading from the panel fails -/
  | failed (e w p) : b.waiting = .select →
      b.panel.pollNext cx = .ok (.ready (some (.error e)), w, p) → Fatal b cx
  /-- the panel sends a zone status report -/
  | zoneReport (ev r w p) : b.waiting = .select →
      b.panel.pollNext cx = .ok (.ready (some (.ok ev)), w, p) →
      ev.msg = some (.ok (.zoneStatusReport r)) → Fatal b cx
  /-- a message to a command topic is not text -/
  | notText (p rest) (a : UInt8 × AreaCfg) : b.waiting = .select → b.inbox = p :: rest →
      a ∈ b.cfg.elk.areas →
      p.topic = b.cfg.prefix ++ bs "/area/" ++ a.2.name ++ bs "/ha_command" →
      utf8Valid p.payload = false → Fatal b cx
  /-- writing an earlier command fails -/
  | notReady (c e p) : b.waiting = .ready c → b.panel.pollReady cx = (.ready (.error e), p) →
      Fatal b cx
  /-- writing the command fails -/
  | notFlushed (e p) : b.waiting = .flush → b.panel.pollFlush cx = (.ready (.error e), p) →
      Fatal b cx

/-! ## Histories -/

/-- The events handled in a history. -/
def handled (obs : List BObs) : List Event :=
  obs.filterMap fun
    | .event ev _ _ => some ev
    | _ => none

/-- The commands asked for by messages taken up in a history. -/
def asked (obs : List BObs) : List Command :=
  obs.filterMap fun
    | .taken _ c => c
    | _ => none

/-- The messages taken up in a history. -/
def takenUp (obs : List BObs) : List Publish :=
  obs.filterMap fun
    | .taken p _ => some p
    | _ => none

/-- The commands handed to the panel in a history. -/
def given (obs : List BObs) : List Command :=
  obs.filterMap fun
    | .accepted c => some c
    | _ => none

/-- The messages the broker delivered in a history. -/
def delivered (ops : List BOp) : List Publish :=
  ops.filterMap fun
    | .deliver p => some p
    | _ => none

/-- The answers of the panel's socket to reads in a history. -/
def arrivedAt (ops : List BOp) : List ReadItem :=
  ops.filterMap fun
    | .arrive r => some r
    | _ => none

/-- What was published in a history. -/
def published (obs : List BObs) : List Published :=
  obs.flatMap fun
    | .event _ out _ => out
    | _ => []

end Elk.Spec
