import Verif.Spec.Machine
import Verif.Spec.Desk
/-!
# What the packets of a panel say of its zones

Without clock, withheld reports or commands: the zones as last reported, and the changes that the
packets report.
-/

namespace Elk.Spec

/-- A change of a zone: what it was before and what it is now. -/
structure ZoneNews where
  zone : Zone
  prior : ZoneStatus
  now : ZoneStatus
  deriving DecidableEq

/-- What one packet says of the zones. -/
inductive Senses (z : ZoneStatusReport) (pkt : Packet) : List ZoneNews → ZoneStatusReport → Prop
  | change {m : ZoneChange} {i : Nat} {hi : i < 208} : Means pkt (some (.ok (.zoneChange m))) →
      m.zone.val.toNat = i + 1 → z.zones[i] ≠ m.status →
      Senses z pkt [⟨m.zone, z.zones[i], m.status⟩] ⟨z.zones.set i m.status⟩
  | same {m : ZoneChange} {i : Nat} {hi : i < 208} : Means pkt (some (.ok (.zoneChange m))) →
      m.zone.val.toNat = i + 1 → z.zones[i] = m.status → Senses z pkt [] z
  | report {m} : Means pkt (some (.ok (.zoneStatusReport m))) → Senses z pkt [] m
  | other {r} : Means pkt r → (∀ m, r ≠ some (.ok (.zoneChange m))) →
      (∀ m, r ≠ some (.ok (.zoneStatusReport m))) → Senses z pkt [] z

/-- What all packets say of the zones, in order. -/
inductive SensesAll : ZoneStatusReport → List Packet → List ZoneNews → ZoneStatusReport → Prop
  | nil {z} : SensesAll z [] [] z
  | cons {z z' z'' pkt ps n l} : Senses z pkt n z' → SensesAll z' ps l z'' →
      SensesAll z (pkt :: ps) (n ++ l) z''

/-- The changes of zones that events tell. -/
def zonesTold (evs : List Event) : List (Zone × ZoneStatus) :=
  evs.filterMap fun ev =>
    match ev.change with
    | some (.zoneChange zone prior) => some (zone, prior)
    | _ => none

/-- What is published for the change of a zone. -/
def zoneOut (cfg : Cfg) (n : ZoneNews) : List Published :=
  (cfg.elk.zones.filter fun a => a.1 == n.zone.val).map fun a =>
    ⟨cfg.prefix ++ bs "/zone/" ++ a.2.name ++ bs "/ha_state", true,
      .text (bs (zoneText n.now.val.toNat))⟩

/-- The messages on topics of zones. -/
def zoneLog (cfg : Cfg) (log : List Published) : List Published :=
  log.filter fun m => decide (cfg.prefix ++ bs "/zone/" <+: m.topic)

end Elk.Spec
