import Verif.Model.Main
import Verif.Spec.Mqtt
import Verif.Spec.Init
import Verif.Spec.JsonGrammar
/-!
# Vocabulary for properties of the whole bridge program
-/

namespace Elk.Spec

/-! ## Configuration files -/

/-- The JSON value has exactly one field of this name, with this value.  Instead of an object with
names there can be a list of the values of all these fields. -/
inductive HasField (fields : List String) : Doc → String → Doc → Prop
  | named {k raw v} (before after : List (Bytes × Doc)) : Rfc.Says raw (bs k) →
      (∀ e ∈ before, ∃ t, Rfc.Says e.1 t ∧ t ≠ bs k) → (∀ e ∈ after, ∃ t, Rfc.Says e.1 t ∧ t ≠ bs k) →
      HasField fields (.obj (before ++ (raw, v) :: after)) k v
  | listed {k v l} : l.length = fields.length → l[fields.idxOf k]? = some v →
      HasField fields (.arr l) k v

/-- The JSON value is an object without a field of this name. -/
inductive NoField : Doc → String → Prop
  | mk {k l} : (∀ e ∈ l, ∃ t, Rfc.Says e.1 t ∧ t ≠ bs k) → NoField (.obj l) k

/-- A field that is a text. -/
def TextField (fields : List String) (d : Doc) (k : String) (t : Bytes) : Prop :=
  ∃ raw, HasField fields d k (.str raw) ∧ Rfc.Says raw t

/-- An optional text: given, missing, or `null`. -/
inductive OptText (fields : List String) (d : Doc) (k : String) : Option Bytes → Prop
  | given (t) : TextField fields d k t → OptText fields d k (some t)
  | missing : NoField d k → OptText fields d k none
  | null : HasField fields d k .null → OptText fields d k none

/-- The JSON value is an object whose keys are numbers below 256 in decimal, and `m` contains what
the last entry for each number describes. -/
structure MapOf {β : Type} (rel : Doc → β → Prop) (d : Doc) (m : List (UInt8 × β)) : Prop where
  keys : (m.map (·.1)).Nodup
  entries : ∃ l, d = .obj l ∧ (∀ e ∈ l, ∃ n v, e.1 = decStr (UInt8.toNat n) ∧ rel e.2 v) ∧
    ∀ n v, (n, v) ∈ m ↔ ∃ before x after, l = before ++ (decStr n.toNat, x) :: after ∧ rel x v ∧
      ∀ e ∈ after, e.1 ≠ decStr n.toNat

/-- The JSON value describes an area. -/
def AreaDoc (d : Doc) (a : AreaCfg) : Prop := TextField ["name"] d "name" a.name

/-- The fields of a zone. -/
def zoneFields : List String := ["name", "binarySensorDeviceClass"]

/-- The JSON value describes a zone. -/
def ZoneDoc (d : Doc) (z : ZoneCfg) : Prop :=
  TextField zoneFields d "name" z.name ∧
    TextField zoneFields d "binarySensorDeviceClass" z.binarySensorDeviceClass

/-- The fields of the section `elk`. -/
def elkFields : List String := ["serialNumber", "code", "hostPort", "areas", "zones"]

/-- The section `elk` of a configuration file. -/
structure ElkDoc (d : Doc) (s : Setup) : Prop where
  serial : TextField elkFields d "serialNumber" s.cfg.elk.serialNumber
  code : HasField elkFields d "code" (.nat s.cfg.elk.code.toNat)
  hostPort : TextField elkFields d "hostPort" s.hostPort
  areas : ∃ x, HasField elkFields d "areas" x ∧ MapOf AreaDoc x s.cfg.elk.areas
  zones : ∃ x, HasField elkFields d "zones" x ∧ MapOf ZoneDoc x s.cfg.elk.zones

/-- The fields of the section `mqtt`. -/
def mqttFields : List String :=
  ["clientId", "host", "port", "username", "password", "topicPrefix", "haDiscoveryPrefix"]

/-- The section `mqtt` of a configuration file. -/
structure MqttDoc (d : Doc) (s : Setup) : Prop where
  clientId : TextField mqttFields d "clientId" s.clientId ∨ NoField d "clientId" ∧ s.clientId = []
  host : TextField mqttFields d "host" s.host
  port : HasField mqttFields d "port" (.nat s.port.toNat) ∨ NoField d "port" ∧ s.port.toNat = 1883
  username : OptText mqttFields d "username" s.username
  password : OptText mqttFields d "password" s.password
  topicPrefix : OptText mqttFields d "topicPrefix" s.cfg.mqtt.topicPrefix
  discovery : OptText mqttFields d "haDiscoveryPrefix" s.cfg.mqtt.haDiscoveryPrefix

/-- The JSON value is a configuration file that describes this setup. -/
def Describes (d : Doc) (s : Setup) : Prop :=
  ∃ elk mqtt, HasField ["elk", "mqtt"] d "elk" elk ∧ ElkDoc elk s ∧
    HasField ["elk", "mqtt"] d "mqtt" mqtt ∧ MqttDoc mqtt s

/-- Two setups that differ at most in the order of their areas and zones. -/
structure SameSetup (s t : Setup) : Prop where
  areas : s.cfg.elk.areas.Perm t.cfg.elk.areas
  zones : s.cfg.elk.zones.Perm t.cfg.elk.zones
  rest : { s with cfg := { s.cfg with elk := { s.cfg.elk with areas := [], zones := [] } } } =
    { t with cfg := { t.cfg with elk := { t.cfg.elk with areas := [], zones := [] } } }

/-! ## The program and the broker -/

/-- Before the program is first started: nothing runs, and according to the broker no bridge is
available. -/
structure Initial (s : Site) : Prop where
  prog : s.prog = none
  queue : s.queue = []
  link : s.link = false
  offline : ∀ pre, retained s.broker (pre ++ bs "/availability") ≠ some (.text (bs "online"))

/-- The bridge is in its loop. -/
def Running (s : Site) (c : Setup) (b : Bridge) : Prop := s.prog = some (.running c b)

/-- The bridge runs with this configuration from one moment of a history to its end. -/
def Throughout (s0 : Site) (c : Setup) (before ops : List SOp) : Prop :=
  ∀ mid, before <+: mid → mid <+: ops → ∃ b, Running (Site.run mid s0) c b

end Elk.Spec
