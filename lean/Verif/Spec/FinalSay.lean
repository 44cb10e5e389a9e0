import Verif.Spec.Relay
/-!
# The last word on the areas and on each zone

Of all the messages in the bytes of a panel: the last report on the areas, and for each zone the last
message that says something on it, be it a report on all zones or a change of that one.
-/

namespace Elk.Spec

/-- What a message says on a zone (counted from 0). -/
def wordOn (i : Fin 208) : Message → Option ZoneStatus
  | .zoneStatusReport z => some z.zones[i]
  | .zoneChange c => if c.zone.val.toNat = i.val + 1 then some c.status else none
  | _ => none

/-- The last word on a zone. -/
def lastOnZone (i : Fin 208) (ms : List Message) : Option ZoneStatus := (ms.filterMap (wordOn i)).getLast?

/-- The last report on the areas. -/
def lastOnAreas (ms : List Message) : Option ArmingStatusReport := (ms.filterMap armingSaid).getLast?

end Elk.Spec
