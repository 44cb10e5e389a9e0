import Verif.Spec.Mqtt
/-!
# The same configuration, with its maps in another order

The maps of areas and zones are hash maps, which are iterated in an order that is another in each run of
the program.
-/

namespace Elk.Spec

/-- The same configuration, but for the order of areas and zones. -/
structure Shuffled (c c' : Cfg) : Prop where
  mqtt : c.mqtt = c'.mqtt
  serial : c.elk.serialNumber = c'.elk.serialNumber
  code : c.elk.code = c'.elk.code
  areas : c.elk.areas.Perm c'.elk.areas
  zones : c.elk.zones.Perm c'.elk.zones

end Elk.Spec
