import Verif.Spec.Mqtt
import Verif.Spec.Wire
/-!
# Vocabulary for properties from one end to the other

What is on the line from the panel, in terms of messages.
-/

namespace Elk.Spec

/-- The message a packet is, if it is one that is understood. -/
def says (pkt : Packet) : Option Message :=
  match Message.parse pkt with
  | .ok (some m) => some m
  | _ => none

/-- The arming report a message is. -/
def armingSaid : Message → Option ArmingStatusReport
  | .armingStatusReport m => some m
  | _ => none

/-- What a message says about the zone with index `i` (number `i + 1`). -/
def zoneSaid (i : Nat) : Message → Option ZoneStatus
  | .zoneChange m => if m.zone.val.toNat = i + 1 then some m.status else none
  | .zoneStatusReport m => m.zones[i]?
  | _ => none

/-- What comes over the line for a message the panel sends: it may come after some garbage, and one
byte of it may be spoilt. -/
structure Sent where
  garbage : Bytes
  msg : Message
  spoilt : Option (Nat × UInt8)

/-- The bytes. -/
def Sent.bytes (s : Sent) : Bytes :=
  s.garbage ++ match s.spoilt with
    | none => asciiFrame (sentText s.msg)
    | some (i, v) => (asciiFrame (sentText s.msg)).set i v

/-- The message is well-formed, the garbage contains neither a hex digit nor the escape byte, and the
byte spoilt is not one of the two length digits. -/
def Sent.Fine (s : Sent) : Prop :=
  WfMessage s.msg ∧ (∀ b ∈ s.garbage, Garbage b) ∧
  ∀ i v, s.spoilt = some (i, v) → 2 ≤ i ∧ ∃ b, (asciiFrame (sentText s.msg))[i]? = some b ∧ v ≠ b

/-- The message that can be understood: the one sent unless it was spoilt. -/
def Sent.heard (s : Sent) : Option Message := if s.spoilt.isNone then some s.msg else none

/-- What the broker holds for the areas and zones of the configuration is what these reports say. -/
structure Shows (cfg : Cfg) (log : List Published) (r : ArmingStatusReport)
    (zone : Fin 208 → ZoneStatus) : Prop where
  areas : ∀ a ∈ cfg.elk.areas, ∀ i : Fin 8, a.1.toNat = i.val + 1 → r.alarmState[i] ≠ .fireAlarm →
    ∃ t, AreaShows r.armingStatus[i] r.upState[i] r.alarmState[i] t ∧
      retained log (cfg.prefix ++ bs "/area/" ++ a.2.name ++ bs "/ha_state") = some (.text (bs t))
  zones : ∀ a ∈ cfg.elk.zones, ∃ i : Fin 208, a.1.toNat = i.val + 1 ∧
    retained log (cfg.prefix ++ bs "/zone/" ++ a.2.name ++ bs "/ha_state") =
      some (.text (bs (zoneText (zone i).val.toNat)))

/-- After these messages the broker holds what they say: for every zone the last status given for it
(`z0` if none), for every area the last report (`m0` if none); or that report is suspicious compared
with the one shown. -/
def Current (cfg : Cfg) (log : List Published) (m0 : ArmingStatusReport) (z0 : ZoneStatusReport)
    (ms : List Message) : Prop :=
  ∃ shown, (shown = lastOr (ms.filterMap armingSaid) m0 ∨
      Suspicious shown (lastOr (ms.filterMap armingSaid) m0)) ∧
    Shows cfg log shown fun i => lastOr (ms.filterMap (zoneSaid i)) z0.zones[i]

end Elk.Spec
