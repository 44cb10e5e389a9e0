import Verif.Spec.Mqtt
/-!
# How Home Assistant reads what the bridge publishes

From the documentation of its MQTT integration (home-assistant.io/integrations/, pages mqtt,
alarm_control_panel.mqtt and binary_sensor.mqtt), to which main.rs:19-33 and 189-212 refer.  Payloads
are compared exactly; a discovery document may replace the default payloads.
-/

namespace Elk.Spec

/-- A payload in use: the one the document gives, or the default. -/
def haPayload (doc : Payload) (k default : String) : Bytes :=
  (stringField k doc).getD (bs default)

/-- The state of a binary sensor; `none` is a payload that is not understood (and ignored). -/
def haBinary (doc : Payload) (t : Bytes) : Option Bool :=
  if t = haPayload doc "payload_on" "ON" then some true
  else if t = haPayload doc "payload_off" "OFF" then some false
  else none

/-- Whether an entity is available; `none` is a payload that is not understood. -/
def haAvailable (doc : Payload) (t : Bytes) : Option Bool :=
  if t = haPayload doc "payload_available" "online" then some true
  else if t = haPayload doc "payload_not_available" "offline" then some false
  else none

/-- The states of an alarm control panel that are understood. -/
def haAlarmStates : List Bytes :=
  [bs "disarmed", bs "armed_home", bs "armed_away", bs "armed_night", bs "armed_vacation",
    bs "armed_custom_bypass", bs "pending", bs "triggered", bs "arming", bs "disarming"]

/-- What a user can ask of an alarm control panel. -/
inductive HaAction where
  | disarm | armHome | armAway | armNight | armVacation | armCustomBypass | trigger

/-- The payload sent for an action. -/
def haActionPayload (doc : Payload) : HaAction → Bytes
  | .disarm => haPayload doc "payload_disarm" "DISARM"
  | .armHome => haPayload doc "payload_arm_home" "ARM_HOME"
  | .armAway => haPayload doc "payload_arm_away" "ARM_AWAY"
  | .armNight => haPayload doc "payload_arm_night" "ARM_NIGHT"
  | .armVacation => haPayload doc "payload_arm_vacation" "ARM_VACATION"
  | .armCustomBypass => haPayload doc "payload_arm_custom_bypass" "ARM_CUSTOM_BYPASS"
  | .trigger => haPayload doc "payload_trigger" "TRIGGER"

/-- The level of the panel that corresponds to an action, if there is one. -/
def haActionLevel : HaAction → Option ArmLevel
  | .disarm => some .disarm
  | .armHome => some .armedStay
  | .armAway => some .armedAway
  | .armNight => some .armedNight
  | .armVacation => some .armedVacation
  | .armCustomBypass => none
  | .trigger => none

/-- The document restricts the actions that are offered. -/
def haRestricts : Payload → Prop
  | .json (.obj l) => (l.lookup (bs "supported_features")).isSome
  | _ => False

end Elk.Spec
