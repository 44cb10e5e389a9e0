import Verif.Model.State
/-!
# Model of the serde representation of events

`Json` is the data model of `serde_json`; the printing of a tree as text is in Model/JsonText.lean,
the parsing of text into a tree is in Model/JsonRead.lean, for the configuration.  Each function cites
the type whose derived (or hand-written) `Serialize`/`Deserialize` it stands for.

Simplifications: an enum is read back from a string or an object with one field only, a struct from
an object only (serde also takes sequences); of duplicate fields the first counts (serde rejects
them); the texts of serde's errors are abbreviated.
-/

namespace Elk

/-- A JSON value.  The order of the fields of an object is that of the struct. -/
inductive Json where
  | null
  | bool (b : Bool)
  | num (n : Nat)
  | str (s : Bytes)
  | arr (l : List Json)
  | obj (l : List (Bytes × Json))

namespace Json

/-- The value of a field of a struct. -/
def field (k : String) : Json → R Json
  | .obj l => okOr (l.lookup (bs k)) (bs "missing field")
  | _ => errR (bs "expected an object")

/-- `u8`. -/
def ofU8 (n : UInt8) : Json := .num n.toNat
/-- `u8`, read back. -/
def toU8 : Json → R UInt8
  | .num n => if n < 256 then .ok (UInt8.ofNat n) else errR (bs "expected u8")
  | _ => errR (bs "expected u8")

/-- `bool`, read back. -/
def toBool : Json → R Bool
  | .bool b => .ok b
  | _ => errR (bs "expected bool")

/-- `String`, read back. -/
def toStr : Json → R Bytes
  | .str s => .ok s
  | _ => errR (bs "expected a string")

/-- Where a JSON value is read from: text in memory (`serde_json::from_str`, `from_slice`), from which
a string without escapes can be borrowed, or a reader or another value (`from_reader`,
`from_value`). -/
inductive Source where
  | memory
  | elsewhere
  deriving DecidableEq

/-- `&str`, read back: only a borrowed string will do. -/
def toRefStr (src : Source) : Json → R Bytes
  | .str s => if src = .memory then .ok s else errR (bs "expected a borrowed string")
  | _ => errR (bs "expected a borrowed string")

/-- `[T; n]`. -/
def ofArr {α : Type} {n : Nat} (f : α → Json) (v : Vector α n) : Json := .arr (v.toList.map f)
/-- `[T; n]`, read back. -/
def toArr {α : Type} (f : Json → R α) (n : Nat) : Json → R (Vector α n)
  | .arr l => do
    failIf (l.length ≠ n) (bs "wrong length")
    fillM (fun i => do
      let x ← okOr l[i]? (bs "too short")
      f x) n
  | _ => errR (bs "expected an array")

/-- `Vec<u8>`. -/
def ofBytes (b : Bytes) : Json := .arr (b.map ofU8)
/-- `Vec<u8>`, read back. -/
def toBytes : Json → R Bytes
  | .arr l => l.mapM toU8
  | _ => errR (bs "expected an array")

/-- `Option<T>`. -/
def ofOption {α : Type} (f : α → P Json) : Option α → P Json
  | none => .ok .null
  | some a => f a
/-- `Option<T>`, read back from a field of a struct, which may be missing. -/
def toOption {α : Type} (f : Json → R α) (k : String) : Json → R (Option α)
  | .obj l =>
    match l.lookup (bs k) with
    | none => .ok none
    | some .null => .ok none
    | some j => do
      let a ← f j
      .ok (some a)
  | _ => errR (bs "expected an object")

/-- An enum variant with contents. -/
def variant (k : String) (j : Json) : Json := .obj [(bs k, j)]

/-- An enum variant with contents, read back: its name and contents. -/
def toVariant : Json → R (Bytes × Json)
  | .obj [(k, j)] => .ok (k, j)
  | _ => errR (bs "expected an enum variant")

end Json

/-! ## Enums without contents -/

/-- The names of the variants: msg.rs:304-308 and msg.rs:347-351,
`#[serde(rename_all = "camelCase")]`. -/
class Named (α : Type) extends ByteEnum α where
  name : α → String

/-- msg.rs:304-308, 347-351 derived `Serialize`. -/
def ByteEnum.serialize {α : Type} [Named α] (a : α) : Json := .str (bs (Named.name a))

/-- msg.rs:304-308, 347-351 derived `Deserialize`. -/
def ByteEnum.deserialize {α : Type} [Named α] : Json → R α
  | .str s => okOr ((ByteEnum.all (α := α)).find? (fun v => bs (Named.name v) == s)) (bs "unknown variant")
  | _ => errR (bs "expected an enum variant")

/-- msg.rs:376-398. -/
instance : Named ArmLevel where
  name
    | .disarm => "disarm" | .armedAway => "armedAway" | .armedStay => "armedStay"
    | .armedStayInstant => "armedStayInstant" | .armedNight => "armedNight"
    | .armedNightInstant => "armedNightInstant" | .armedVacation => "armedVacation"
    | .armToNextAwayMode => "armToNextAwayMode" | .armToNextStayMode => "armToNextStayMode"
    | .forceArmToAway => "forceArmToAway" | .forceArmToStay => "forceArmToStay"

/-- msg.rs:459-462. -/
instance : Named TimeDataType where
  name | .exit => "exit" | .entry => "entry"

/-- msg.rs:467-475. -/
instance : Named ArmedState where
  name
    | .disarmed => "disarmed" | .armedAway => "armedAway" | .armedStay => "armedStay"
    | .armedStayInstant => "armedStayInstant" | .armedNight => "armedNight"
    | .armedNightInstant => "armedNightInstant" | .armedVacation => "armedVacation"

/-- msg.rs:480-488. -/
instance : Named Weekday where
  name
    | .sun => "sun" | .mon => "mon" | .tue => "tue" | .wed => "wed" | .thu => "thu"
    | .fri => "fri" | .sat => "sat"

/-- msg.rs:493-496. -/
instance : Named ClockDisplayMode where
  name | .twentyFourHour => "twentyFourHour" | .twelveHour => "twelveHour"

/-- msg.rs:501-504. -/
instance : Named DateDisplayMode where
  name | .monthFirst => "monthFirst" | .dayFirst => "dayFirst"

/-- msg.rs:1084-1092. -/
instance : Named ArmingStatus where
  name
    | .disarmed => "disarmed" | .armedAway => "armedAway" | .armedStay => "armedStay"
    | .armedStayInstant => "armedStayInstant" | .armedNight => "armedNight"
    | .armedNightInstant => "armedNightInstant" | .armedVacation => "armedVacation"

/-- msg.rs:1097-1105. -/
instance : Named ArmUpState where
  name
    | .notReadyToArm => "notReadyToArm" | .readyToArm => "readyToArm"
    | .readyToForceArm => "readyToForceArm" | .armedWithExitTimer => "armedWithExitTimer"
    | .armedFully => "armedFully"
    | .forceArmedWithForceArmZoneViolated => "forceArmedWithForceArmZoneViolated"
    | .armedWithBypass => "armedWithBypass"

/-- msg.rs:1110-1130. -/
instance : Named AlarmState where
  name
    | .noAlarmActive => "noAlarmActive" | .entranceDelayActive => "entranceDelayActive"
    | .alarmAbortDelayActive => "alarmAbortDelayActive" | .fireAlarm => "fireAlarm"
    | .medicalAlarm => "medicalAlarm" | .policeAlarm => "policeAlarm"
    | .burglarAlarm => "burglarAlarm" | .aux1Alarm => "aux1Alarm" | .aux2Alarm => "aux2Alarm"
    | .aux3Alarm => "aux3Alarm" | .aux4Alarm => "aux4Alarm"
    | .carbonMonoxideAlarm => "carbonMonoxideAlarm" | .emergencyAlarm => "emergencyAlarm"
    | .freezeAlarm => "freezeAlarm" | .gasAlarm => "gasAlarm" | .heatAlarm => "heatAlarm"
    | .waterAlarm => "waterAlarm" | .fireSupervisory => "fireSupervisory"
    | .verifyFire => "verifyFire"

/-- msg.rs:1207-1228. -/
instance : Named TextDescriptionType where
  name
    | .zone => "zone" | .area => "area" | .user => "user" | .keypad => "keypad"
    | .output => "output" | .task => "task" | .telephone => "telephone" | .light => "light"
    | .alarmDuration => "alarmDuration" | .customSettings => "customSettings"
    | .counter => "counter" | .thermostat => "thermostat" | .functionKey1 => "functionKey1"
    | .functionKey2 => "functionKey2" | .functionKey3 => "functionKey3"
    | .functionKey4 => "functionKey4" | .functionKey5 => "functionKey5"
    | .functionKey6 => "functionKey6" | .audioZone => "audioZone"
    | .audioSource => "audioSource"

/-! ## Field types -/

/-- msg.rs:515-516. -/
def Limited.serialize {max : Nat} (x : Limited max) : Json := .ofU8 x.val
/-- msg.rs:515-516. -/
def Limited.ofJson (max : Nat) (j : Json) : R (Limited max) := do
  let v ← j.toU8
  .ok (Limited.deserialize max v)

/-- msg.rs:401-402. -/
def ArmCode.serialize (c : ArmCode) : Json := .ofArr .ofU8 c.code
/-- msg.rs:401-402. -/
def ArmCode.ofJson (j : Json) : R ArmCode := do
  let v ← j.toArr Json.toU8 6
  .ok (ArmCode.deserialize v)

/-- msg.rs:1313-1314. -/
def TextDescription.serialize (t : TextDescription) : Json := .ofArr .ofU8 t.text
/-- msg.rs:1313-1314. -/
def TextDescription.ofJson (j : Json) : R TextDescription := do
  let v ← j.toArr Json.toU8 16
  .ok (TextDescription.deserialize v)

/-- msg.rs:854-855. -/
def ZoneStatus.serialize (s : ZoneStatus) : Json := .ofU8 s.val
/-- msg.rs:854-855. -/
def ZoneStatus.ofJson (j : Json) : R ZoneStatus := do
  let v ← j.toU8
  .ok (ZoneStatus.deserialize v)

/-- msg.rs:667-675. -/
def DateTime.serialize (d : DateTime) : Json := .str d.toIso8601
/-- msg.rs:677-690, which asks for a `&str`. -/
def DateTime.ofJson (src : Json.Source) (j : Json) : R DateTime := do
  let s ← j.toRefStr src
  DateTime.deserialize s

/-- msg.rs:706-715 `RtcData` (whose fields are not renamed). -/
def RtcData.serialize (r : RtcData) : Json :=
  .obj [(bs "datetime", r.datetime.serialize), (bs "weekday", ByteEnum.serialize r.weekday),
    (bs "dst", .bool r.dst), (bs "clock_display", ByteEnum.serialize r.clockDisplay),
    (bs "date_display", ByteEnum.serialize r.dateDisplay)]
/-- msg.rs:706-715. -/
def RtcData.ofJson (src : Json.Source) (j : Json) : R RtcData := do
  let datetime ← DateTime.ofJson src (← j.field "datetime")
  let weekday ← ByteEnum.deserialize (← j.field "weekday")
  let dst ← (← j.field "dst").toBool
  let clockDisplay ← ByteEnum.deserialize (← j.field "clock_display")
  let dateDisplay ← ByteEnum.deserialize (← j.field "date_display")
  .ok { datetime, weekday, dst, clockDisplay, dateDisplay }

/-! ## Messages -/

/-- msg.rs:114-120. -/
def ArmRequest.serialize (m : ArmRequest) : Json :=
  .obj [(bs "area", m.area.serialize), (bs "level", ByteEnum.serialize m.level),
    (bs "code", m.code.serialize)]
/-- msg.rs:114-120. -/
def ArmRequest.ofJson (j : Json) : R ArmRequest := do
  let area ← Limited.ofJson 8 (← j.field "area")
  let level ← ByteEnum.deserialize (← j.field "level")
  let code ← ArmCode.ofJson (← j.field "code")
  .ok { area, level, code }

/-- msg.rs:128-135. -/
def ArmingStatusReport.serialize (m : ArmingStatusReport) : Json :=
  .obj [(bs "armingStatus", .ofArr ByteEnum.serialize m.armingStatus),
    (bs "upState", .ofArr ByteEnum.serialize m.upState),
    (bs "alarmState", .ofArr ByteEnum.serialize m.alarmState),
    (bs "firstExitTime", .ofU8 m.firstExitTime)]
/-- msg.rs:128-135. -/
def ArmingStatusReport.ofJson (j : Json) : R ArmingStatusReport := do
  let armingStatus ← (← j.field "armingStatus").toArr ByteEnum.deserialize 8
  let upState ← (← j.field "upState").toArr ByteEnum.deserialize 8
  let alarmState ← (← j.field "alarmState").toArr ByteEnum.deserialize 8
  let firstExitTime ← (← j.field "firstExitTime").toU8
  .ok { armingStatus, upState, alarmState, firstExitTime }

/-- msg.rs:138-149. -/
def SendTimeData.serialize (m : SendTimeData) : Json :=
  .obj [(bs "area", m.area.serialize), (bs "ty", ByteEnum.serialize m.ty),
    (bs "timer1", .ofU8 m.timer1), (bs "timer2", .ofU8 m.timer2),
    (bs "armedState", match m.armedState with
      | none => .null
      | some s => ByteEnum.serialize s)]
/-- msg.rs:138-149. -/
def SendTimeData.ofJson (j : Json) : R SendTimeData := do
  let area ← Limited.ofJson 8 (← j.field "area")
  let ty ← ByteEnum.deserialize (← j.field "ty")
  let timer1 ← (← j.field "timer1").toU8
  let timer2 ← (← j.field "timer2").toU8
  let armedState ← j.toOption ByteEnum.deserialize "armedState"
  .ok { area, ty, timer1, timer2, armedState }

/-- msg.rs:152-168. -/
def SendCode.serialize (m : SendCode) : Json :=
  .obj [(bs "code", .ofArr .ofU8 m.code), (bs "user", .ofU8 m.user),
    (bs "keypad", m.keypad.serialize)]
/-- msg.rs:152-168. -/
def SendCode.ofJson (j : Json) : R SendCode := do
  let code ← (← j.field "code").toArr Json.toU8 6
  let user ← (← j.field "user").toU8
  let keypad ← Limited.ofJson 16 (← j.field "keypad")
  .ok { code, user, keypad }

/-- msg.rs:184-189. -/
def StringDescriptionRequest.serialize (m : StringDescriptionRequest) : Json :=
  .obj [(bs "ty", ByteEnum.serialize m.ty), (bs "num", .ofU8 m.num)]
/-- msg.rs:184-189. -/
def StringDescriptionRequest.ofJson (j : Json) : R StringDescriptionRequest := do
  let ty ← ByteEnum.deserialize (← j.field "ty")
  let num ← (← j.field "num").toU8
  .ok { ty, num }

/-- msg.rs:192-198. -/
def StringDescriptionResponse.serialize (m : StringDescriptionResponse) : Json :=
  .obj [(bs "ty", ByteEnum.serialize m.ty), (bs "num", .ofU8 m.num),
    (bs "text", m.text.serialize)]
/-- msg.rs:192-198. -/
def StringDescriptionResponse.ofJson (j : Json) : R StringDescriptionResponse := do
  let ty ← ByteEnum.deserialize (← j.field "ty")
  let num ← (← j.field "num").toU8
  let text ← TextDescription.ofJson (← j.field "text")
  .ok { ty, num, text }

/-- msg.rs:222-227. -/
def ZoneChange.serialize (m : ZoneChange) : Json :=
  .obj [(bs "zone", m.zone.serialize), (bs "status", m.status.serialize)]
/-- msg.rs:222-227. -/
def ZoneChange.ofJson (j : Json) : R ZoneChange := do
  let zone ← Limited.ofJson 208 (← j.field "zone")
  let status ← ZoneStatus.ofJson (← j.field "status")
  .ok { zone, status }

/-- The structs without fields: an object, whose fields are ignored. -/
def Json.toUnit : Json → R Unit
  | .obj _ => .ok ()
  | _ => errR (bs "expected an object")

/-- msg.rs:48-60 derived `Serialize` of `Message`; that of `ZoneStatusReport` (msg.rs:1007-1015)
is `todo!()`. -/
def Message.serialize : Message → P Json
  | .armRequest m => .ok (.variant "armRequest" m.serialize)
  | .armingStatusRequest => .ok (.variant "armingStatusRequest" (.obj []))
  | .armingStatusReport m => .ok (.variant "armingStatusReport" m.serialize)
  | .sendTimeData m => .ok (.variant "sendTimeData" m.serialize)
  | .sendCode m => .ok (.variant "sendCode" m.serialize)
  | .rtcRequest => .ok (.variant "rtcRequest" (.obj []))
  | .rtcResponse r => .ok (.variant "rtcResponse" (.obj [(bs "rtcData", r.serialize)]))
  | .stringDescriptionRequest m => .ok (.variant "stringDescriptionRequest" m.serialize)
  | .stringDescriptionResponse m => .ok (.variant "stringDescriptionResponse" m.serialize)
  | .activateTask t => .ok (.variant "activateTask" (.obj [(bs "task", t.serialize)]))
  | .taskChange t => .ok (.variant "taskChange" (.obj [(bs "task", t.serialize)]))
  | .heartbeat r => .ok (.variant "heartbeat" (.obj [(bs "rtcData", r.serialize)]))
  | .zoneChange m => .ok (.variant "zoneChange" m.serialize)
  | .zoneStatusRequest => .ok (.variant "zoneStatusRequest" (.obj []))
  | .zoneStatusReport m => do
    m.serialize
    .ok (.variant "zoneStatusReport" .null)

/-- msg.rs:48-60 derived `Deserialize` of `Message`, the contents of the variant named `k`; that of
`ZoneStatusReport` (msg.rs:1017-1025) is `todo!()`. -/
def Message.ofVariant (src : Json.Source) (k : Bytes) (j : Json) : R Message :=
  if k = bs "armRequest" then do
    let m ← ArmRequest.ofJson j
    .ok (.armRequest m)
  else if k = bs "armingStatusRequest" then do
    j.toUnit
    .ok .armingStatusRequest
  else if k = bs "armingStatusReport" then do
    let m ← ArmingStatusReport.ofJson j
    .ok (.armingStatusReport m)
  else if k = bs "sendTimeData" then do
    let m ← SendTimeData.ofJson j
    .ok (.sendTimeData m)
  else if k = bs "sendCode" then do
    let m ← SendCode.ofJson j
    .ok (.sendCode m)
  else if k = bs "rtcRequest" then do
    j.toUnit
    .ok .rtcRequest
  else if k = bs "rtcResponse" then do
    let r ← RtcData.ofJson src (← j.field "rtcData")
    .ok (.rtcResponse r)
  else if k = bs "stringDescriptionRequest" then do
    let m ← StringDescriptionRequest.ofJson j
    .ok (.stringDescriptionRequest m)
  else if k = bs "stringDescriptionResponse" then do
    let m ← StringDescriptionResponse.ofJson j
    .ok (.stringDescriptionResponse m)
  else if k = bs "activateTask" then do
    let t ← Limited.ofJson 32 (← j.field "task")
    .ok (.activateTask t)
  else if k = bs "taskChange" then do
    let t ← Limited.ofJson 32 (← j.field "task")
    .ok (.taskChange t)
  else if k = bs "heartbeat" then do
    let r ← RtcData.ofJson src (← j.field "rtcData")
    .ok (.heartbeat r)
  else if k = bs "zoneChange" then do
    let m ← ZoneChange.ofJson j
    .ok (.zoneChange m)
  else if k = bs "zoneStatusRequest" then do
    j.toUnit
    .ok .zoneStatusRequest
  else if k = bs "zoneStatusReport" then .error (.panic .todo)
  else errR (bs "unknown variant")

/-- msg.rs:48-60 derived `Deserialize` of `Message`. -/
def Message.ofJson (src : Json.Source) (j : Json) : R Message := do
  let (k, j) ← j.toVariant
  Message.ofVariant src k j

/-! ## Events -/

/-- pkt.rs:20-29, 114-122, 202-203, 353-354. -/
def Packet.serialize : Packet → Json
  | .ascii p => .variant "ascii" (.str p.body)
  | .rp p => .variant "rp" (.ofBytes p.body)
  | .invalid p => .variant "invalid" (.obj [(bs "reason", .str p.reason),
      (bs "raw", .ofBytes p.raw)])

/-- pkt.rs:20-29, 114-122, 202-203, 353-354. -/
def Packet.ofJson (j : Json) : R Packet := do
  let (k, j) ← j.toVariant
  if k = bs "ascii" then do
    let s ← j.toStr
    .ok (.ascii (AsciiPacket.deserialize s))
  else if k = bs "rp" then do
    let b ← j.toBytes
    .ok (.rp ⟨b⟩)
  else if k = bs "invalid" then do
    let reason ← (← j.field "reason").toStr
    let raw ← (← j.field "raw").toBytes
    .ok (.invalid { reason, raw })
  else errR (bs "unknown variant")

/-- state.rs:491-508. -/
def Change.serialize : Change → Json
  | .zoneChange zone prior =>
    .variant "zoneChange" (.obj [(bs "zone", zone.serialize), (bs "prior", prior.serialize)])
  | .armingStatus prior => .variant "armingStatus" (.obj [(bs "prior", prior.serialize)])

/-- state.rs:491-508. -/
def Change.ofJson (j : Json) : R Change := do
  let (k, j) ← j.toVariant
  if k = bs "zoneChange" then do
    let zone ← Limited.ofJson 208 (← j.field "zone")
    let prior ← ZoneStatus.ofJson (← j.field "prior")
    .ok (.zoneChange zone prior)
  else if k = bs "armingStatus" then do
    let prior ← ArmingStatusReport.ofJson (← j.field "prior")
    .ok (.armingStatus prior)
  else errR (bs "unknown variant")

/-- serde's `Result<Message, msg::Error>`; msg.rs:18-19 for the error. -/
def serializeResult : Except Bytes Message → P Json
  | .ok m => do
    let j ← m.serialize
    .ok (.variant "Ok" j)
  | .error e => .ok (.variant "Err" (.str e))

/-- serde's `Result<Message, msg::Error>`, read back. -/
def resultOfJson (src : Json.Source) (j : Json) : R (Except Bytes Message) := do
  let (k, j) ← j.toVariant
  if k = bs "Ok" then do
    let m ← Message.ofJson src j
    .ok (.ok m)
  else if k = bs "Err" then do
    let e ← j.toStr
    .ok (.error e)
  else errR (bs "unknown variant")

/-- state.rs:467-482 derived `Serialize` of `Event`. -/
def Event.serialize (e : Event) : P Json := do
  let pkt ← Json.ofOption (fun p => .ok p.serialize) e.pkt
  let msg ← Json.ofOption serializeResult e.msg
  let completes ← Json.ofOption Message.serialize e.completes
  let change ← Json.ofOption (fun c => .ok c.serialize) e.change
  .ok (.obj [(bs "pkt", pkt), (bs "msg", msg), (bs "completes", completes),
    (bs "change", change)])

/-- state.rs:467-482 derived `Deserialize` of `Event`. -/
def Event.ofJson (src : Json.Source) (j : Json) : R Event := do
  let pkt ← j.toOption Packet.ofJson "pkt"
  let msg ← j.toOption (resultOfJson src) "msg"
  let completes ← j.toOption (Message.ofJson src) "completes"
  let change ← j.toOption Change.ofJson "change"
  .ok { pkt, msg, completes, change }

end Elk
