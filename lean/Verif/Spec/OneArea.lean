import Verif.Spec.OneZone
import Verif.Spec.Calm
/-!
# One area on its own

What the reports say on one area, and the texts that are published on its topic.
-/

namespace Elk.Spec

/-- The status of one area. -/
structure AreaWord where
  arming : ArmingStatus
  up : ArmUpState
  alarm : AlarmState
  deriving DecidableEq

/-- The status of an area (counted from 0) in a report. -/
def areaWord (i : Fin 8) (r : ArmingStatusReport) : AreaWord :=
  ⟨r.armingStatus[i], r.upState[i], r.alarmState[i]⟩

/-- What a message says on an area. -/
def areaSaid (i : Fin 8) (m : Message) : Option AreaWord := (armingSaid m).map (areaWord i)

/-- The text of a payload. -/
def Payload.said : Payload → Option Bytes
  | .text t => some t
  | .json _ => none

/-- The texts published with the retain flag on the topic of an area. -/
def areaTexts (cfg : Cfg) (name : Bytes) (log : List Published) : List (Option Bytes) :=
  ((log.filter (·.retain)).filter fun m =>
    decide (m.topic = cfg.prefix ++ bs "/area/" ++ name ++ bs "/ha_state")).map fun m =>
      Payload.said m.payload

/-- The elements that differ from the one before them. -/
def news {α : Type} [DecidableEq α] : α → List α → List α
  | _, [] => []
  | a, b :: l => if a = b then news a l else b :: news b l

end Elk.Spec
