import Verif.Model.Cli
import Verif.Spec.Init
/-!
# Vocabulary for properties of the command-line tool
-/

namespace Elk.Spec

/-- The answer to a read of a connection that stays up: some bytes, or nothing yet. -/
def Up (r : ReadItem) : Prop := r = .blocked ∨ ∃ b, r = .data b ∧ b ≠ []

/-- All names a panel keeps are printable text. -/
structure WfNames (p : Panel) : Prop where
  areas : ∀ t ∈ p.areaNames.toList, WfText t
  zones : ∀ zone t, p.zoneName zone = .ok t → WfText t

/-- A text as it is shown: up to the last character that is not a space. -/
def shown : Bytes → Bytes
  | [] => []
  | b :: l => if (b :: l).all (· == 0x20) then [] else b :: shown l

/-- The three states of an area. -/
def areaOf (r : ArmingStatusReport) (i : Fin 8) : AreaStates :=
  ⟨r.armingStatus[i], r.upState[i], r.alarmState[i]⟩

/-- What the two halves of a zone's status nibble mean (section 4.37.3 of Elk's specification). -/
def zoneOf (s : ZoneStatus) : ZoneLogicalStatus × ZonePhysicalStatus :=
  (match s.val.toNat / 4 with
    | 0 => .normal
    | 1 => .trouble
    | 2 => .violated
    | _ => .bypassed,
   match s.val.toNat % 4 with
    | 0 => .unconfigured
    | 1 => .opened
    | 2 => .eol
    | _ => .short)

/-- The lines that tell the difference between two arming reports: one for each area with a different
state, in order. -/
def areaDiff (names : Fin 8 → Bytes) (a a' : ArmingStatusReport) : List WatchLine :=
  (List.finRange 8).filterMap fun i =>
    if areaOf a i = areaOf a' i then none
    else some (.area (names i) (areaOf a i) (areaOf a' i))

/-- The lines that tell the difference between two zone reports: one for each zone with a different
state, in order. -/
def zoneDiff (names : Fin 208 → Bytes) (z z' : ZoneStatusReport) : List WatchLine :=
  (List.finRange 208).filterMap fun i =>
    if z.zones[i] = z'.zones[i] then none
    else some (.zone (names i) (zoneOf z.zones[i]) (zoneOf z'.zones[i]))

/-- The name of an area as it is shown. -/
def areaShown (p : Panel) (i : Fin 8) : Bytes := shown p.areaNames[i].text.toList

/-- The name of a zone as it is shown. -/
def zoneShown (p : Panel) (i : Fin 208) : Bytes := shown p.state.zoneNames[i].text.toList

/-- The lines logged in a history. -/
def logged (obs : List WObs) : List WatchLine :=
  obs.flatMap fun
    | .event _ l => l
    | _ => []

/-- The events received in a history of `watch`. -/
def watched (obs : List WObs) : List Event :=
  obs.filterMap fun
    | .event ev _ => some ev
    | _ => none

/-- The state last logged for the area shown by a name. -/
def lastArea (name : Bytes) (lines : List WatchLine) : Option AreaStates :=
  (lines.filterMap fun
    | .area n _ new => if n = name then some new else none
    | _ => none).getLast?

/-- The state last logged for the zone shown by a name. -/
def lastZone (name : Bytes) (lines : List WatchLine) :
    Option (ZoneLogicalStatus × ZonePhysicalStatus) :=
  (lines.filterMap fun
    | .zone n _ new => if n = name then some new else none
    | _ => none).getLast?

/-- The operations of `watch`, as operations on the panel. -/
def panelOp : InitOp → Op
  | .arrive r => .arrive r
  | .writable r => .writable r
  | .tick cx => .pollNext cx

end Elk.Spec
