import Verif.Model.Cli
import Verif.Model.Mqtt
/-!
# What `{:?}` shows

`Debug` of packets, messages and events, as derived or written by hand in elkm1/src/{pkt,msg,state}.rs,
and the text that `elkm1-cli read` prints.  A value is shown in two steps: the calls of its `Debug`
impl as a tree, and the text `core::fmt`'s builders make of the tree.  `core::fmt` and the crate
pretty-hex (0.4.1, Cargo.lock) are not in /repo; what they do is part of the trusted base.
-/

namespace Elk

/-- What a `Debug` impl writes. -/
inductive Dbg where
  /-- a number, a boolean or the name of a variant or struct without fields -/
  | word (w : Bytes)
  /-- a `str` -/
  | str (s : Bytes)
  /-- `hex_dump()` of pretty-hex -/
  | hex (b : Bytes)
  /-- `debug_tuple` -/
  | tuple (name : Bytes) (args : List Dbg)
  /-- `debug_struct` -/
  | record (name : Bytes) (fields : List (Bytes × Dbg))
  /-- `debug_list` -/
  | seq (items : List Dbg)
  /-- `debug_map` with numbers as keys -/
  | map (entries : List (Nat × Dbg))

/-! ## Text -/

/-- `<str as Debug>::fmt`, one byte.  The bytes of characters beyond ASCII are left as they are: those
that occur are printable. -/
def debugByte (b : UInt8) : Bytes := if b < 0x80 then debugOne (b' '"') b else [b]

/-- `<str as Debug>::fmt`. -/
def debugText (s : Bytes) : Bytes := [b' '"'] ++ s.flatMap debugByte ++ [b' '"']

/-- Lower-case hexadecimal digits of `n`, most significant first; `fuel` is at least the number of
digits. -/
def lowHexGo : Nat → Nat → Bytes
  | 0, _ => []
  | fuel + 1, n =>
    if n < 16 then [lowerHex (UInt8.ofNat n)]
    else lowHexGo fuel (n / 16) ++ [lowerHex (UInt8.ofNat (n % 16))]

/-- `format!("{:0wx}", n)` for an unsigned integer. -/
def padLowHex (w n : Nat) : Bytes :=
  let s := lowHexGo (n + 1) n
  List.replicate (w - s.length) (b' '0') ++ s

/-- pretty-hex: what is written before byte `i` of a row. -/
def hexGap (i : Nat) : Bytes :=
  if i = 0 then [] else if i % 4 = 0 then bs "  " else bs " "

/-- pretty-hex: the bytes of a row from column `i` on, in hexadecimal. -/
def hexCells : Nat → Bytes → Bytes
  | _, [] => []
  | i, b :: row => hexGap i ++ [lowerHex (b >>> 4), lowerHex (b &&& 0x0f)] ++ hexCells (i + 1) row

/-- pretty-hex: `k` columns of a row without bytes, from column `i` on. -/
def hexBlank : Nat → Nat → Bytes
  | _, 0 => []
  | i, k + 1 => hexGap i ++ bs "  " ++ hexBlank (i + 1) k

/-- pretty-hex: a byte in the right-hand column. -/
def hexAscii (b : UInt8) : UInt8 := if 0x20 ≤ b ∧ b < 0x7f then b else b' '.'

/-- pretty-hex: row `i` of a dump with 16 bytes per row. -/
def hexRow (i : Nat) (row : Bytes) : Bytes :=
  padLowHex 4 (i * 16) ++ bs ":   " ++ hexCells 0 row ++ hexBlank row.length (16 - row.length) ++
    bs "   " ++ row.map hexAscii

/-- pretty-hex: the rows from row `i` on, separated by new lines.  `fuel` is at least the number of
rows. -/
def hexRows : Nat → Nat → Bytes → Bytes
  | 0, _, _ => []
  | fuel + 1, i, b =>
    if b.length ≤ 16 then hexRow i b
    else hexRow i (b.take 16) ++ [0x0a] ++ hexRows fuel (i + 1) (b.drop 16)

/-- pretty-hex: `{:?}` of `hex_dump()`, with the default configuration. -/
def hexDump (b : Bytes) : Bytes :=
  bs "Length: " ++ decStr b.length ++ bs " (0x" ++ padLowHex 0 b.length ++ bs ") bytes" ++ [0x0a] ++
    if b = [] then [] else hexRows b.length 0 b

mutual
/-- `core::fmt::builders`, without `#`. -/
def Dbg.text : Dbg → Bytes
  | .word w => w
  | .str s => debugText s
  | .hex b => hexDump b
  | .tuple name [] => name
  | .tuple name (x :: l) => name ++ bs "(" ++ x.text ++ Dbg.textItems l ++ bs ")"
  | .record name [] => name
  | .record name ((k, x) :: l) =>
    name ++ bs " { " ++ k ++ bs ": " ++ x.text ++ Dbg.textFields l ++ bs " }"
  | .seq [] => bs "[]"
  | .seq (x :: l) => bs "[" ++ x.text ++ Dbg.textItems l ++ bs "]"
  | .map [] => bs "{}"
  | .map ((k, x) :: l) => bs "{" ++ decStr k ++ bs ": " ++ x.text ++ Dbg.textEntries l ++ bs "}"
/-- The items after the first. -/
def Dbg.textItems : List Dbg → Bytes
  | [] => []
  | x :: l => bs ", " ++ x.text ++ Dbg.textItems l
/-- The fields after the first. -/
def Dbg.textFields : List (Bytes × Dbg) → Bytes
  | [] => []
  | (k, x) :: l => bs ", " ++ k ++ bs ": " ++ x.text ++ Dbg.textFields l
/-- The entries of a map after the first. -/
def Dbg.textEntries : List (Nat × Dbg) → Bytes
  | [] => []
  | (k, x) :: l => bs ", " ++ decStr k ++ bs ": " ++ x.text ++ Dbg.textEntries l
end

namespace Dbg

/-- `u8`, `usize`. -/
def num (n : Nat) : Dbg := .word (decStr n)
/-- `bool`. -/
def bool (b : Bool) : Dbg := .word (if b then bs "true" else bs "false")
/-- The name of a variant without fields. -/
def unit (name : String) : Dbg := .word (bs name)
/-- A tuple struct or variant with one field. -/
def wrap (name : String) (x : Dbg) : Dbg := .tuple (bs name) [x]
/-- A struct or variant with named fields. -/
def struct (name : String) (fields : List (String × Dbg)) : Dbg :=
  .record (bs name) (fields.map fun f => (bs f.1, f.2))
/-- An array. -/
def arr {α : Type} {n : Nat} (f : α → Dbg) (v : Vector α n) : Dbg := .seq (v.toList.map f)
/-- `Option`. -/
def opt {α : Type} (f : α → P Dbg) : Option α → P Dbg
  | none => .ok (.unit "None")
  | some a => do
    let x ← f a
    .ok (.wrap "Some" x)

end Dbg

/-! ## elkm1/src/msg.rs -/

/-- Enums with a derived `Debug`: the names of the variants. -/
class Variants (α : Type) where
  variant : α → String

/-- Derived `Debug` of an enum without contents. -/
def Variants.debug {α : Type} [Variants α] (a : α) : Dbg := .unit (Variants.variant a)

/-- msg.rs:374-398. -/
instance : Variants ArmLevel where
  variant
    | .disarm => "Disarm" | .armedAway => "ArmedAway" | .armedStay => "ArmedStay"
    | .armedStayInstant => "ArmedStayInstant" | .armedNight => "ArmedNight"
    | .armedNightInstant => "ArmedNightInstant" | .armedVacation => "ArmedVacation"
    | .armToNextAwayMode => "ArmToNextAwayMode" | .armToNextStayMode => "ArmToNextStayMode"
    | .forceArmToAway => "ForceArmToAway" | .forceArmToStay => "ForceArmToStay"

/-- msg.rs:457-463. -/
instance : Variants TimeDataType where
  variant | .exit => "Exit" | .entry => "Entry"

/-- msg.rs:465-476. -/
instance : Variants ArmedState where
  variant
    | .disarmed => "Disarmed" | .armedAway => "ArmedAway" | .armedStay => "ArmedStay"
    | .armedStayInstant => "ArmedStayInstant" | .armedNight => "ArmedNight"
    | .armedNightInstant => "ArmedNightInstant" | .armedVacation => "ArmedVacation"

/-- msg.rs:478-489. -/
instance : Variants Weekday where
  variant
    | .sun => "Sun" | .mon => "Mon" | .tue => "Tue" | .wed => "Wed" | .thu => "Thu"
    | .fri => "Fri" | .sat => "Sat"

/-- msg.rs:491-497. -/
instance : Variants ClockDisplayMode where
  variant | .twentyFourHour => "TwentyFourHour" | .twelveHour => "TwelveHour"

/-- msg.rs:499-505. -/
instance : Variants DateDisplayMode where
  variant | .monthFirst => "MonthFirst" | .dayFirst => "DayFirst"

/-- msg.rs:1082-1093. -/
instance : Variants ArmingStatus where
  variant
    | .disarmed => "Disarmed" | .armedAway => "ArmedAway" | .armedStay => "ArmedStay"
    | .armedStayInstant => "ArmedStayInstant" | .armedNight => "ArmedNight"
    | .armedNightInstant => "ArmedNightInstant" | .armedVacation => "ArmedVacation"

/-- msg.rs:1095-1106. -/
instance : Variants ArmUpState where
  variant
    | .notReadyToArm => "NotReadyToArm" | .readyToArm => "ReadyToArm"
    | .readyToForceArm => "ReadyToForceArm" | .armedWithExitTimer => "ArmedWithExitTimer"
    | .armedFully => "ArmedFully"
    | .forceArmedWithForceArmZoneViolated => "ForceArmedWithForceArmZoneViolated"
    | .armedWithBypass => "ArmedWithBypass"

/-- msg.rs:1108-1131. -/
instance : Variants AlarmState where
  variant
    | .noAlarmActive => "NoAlarmActive" | .entranceDelayActive => "EntranceDelayActive"
    | .alarmAbortDelayActive => "AlarmAbortDelayActive" | .fireAlarm => "FireAlarm"
    | .medicalAlarm => "MedicalAlarm" | .policeAlarm => "PoliceAlarm"
    | .burglarAlarm => "BurglarAlarm" | .aux1Alarm => "Aux1Alarm" | .aux2Alarm => "Aux2Alarm"
    | .aux3Alarm => "Aux3Alarm" | .aux4Alarm => "Aux4Alarm"
    | .carbonMonoxideAlarm => "CarbonMonoxideAlarm" | .emergencyAlarm => "EmergencyAlarm"
    | .freezeAlarm => "FreezeAlarm" | .gasAlarm => "GasAlarm" | .heatAlarm => "HeatAlarm"
    | .waterAlarm => "WaterAlarm" | .fireSupervisory => "FireSupervisory"
    | .verifyFire => "VerifyFire"

/-- msg.rs:1205-1229. -/
instance : Variants TextDescriptionType where
  variant
    | .zone => "Zone" | .area => "Area" | .user => "User" | .keypad => "Keypad"
    | .output => "Output" | .task => "Task" | .telephone => "Telephone" | .light => "Light"
    | .alarmDuration => "AlarmDuration" | .customSettings => "CustomSettings"
    | .counter => "Counter" | .thermostat => "Thermostat" | .functionKey1 => "FunctionKey1"
    | .functionKey2 => "FunctionKey2" | .functionKey3 => "FunctionKey3"
    | .functionKey4 => "FunctionKey4" | .functionKey5 => "FunctionKey5"
    | .functionKey6 => "FunctionKey6" | .audioZone => "AudioZone" | .audioSource => "AudioSource"

/-- msg.rs:933-940. -/
instance : Variants ZoneLogicalStatus where
  variant
    | .normal => "Normal" | .trouble => "Trouble" | .violated => "Violated" | .bypassed => "Bypassed"

/-- msg.rs:923-930. -/
instance : Variants ZonePhysicalStatus where
  variant | .unconfigured => "Unconfigured" | .opened => "Open" | .eol => "EOL" | .short => "Short"

/-- msg.rs:535-539. -/
def Limited.debug {max : Nat} (x : Limited max) : Dbg := .num x.val.toNat

/-- msg.rs:404-409: a panic if the code is not UTF-8. -/
def ArmCode.debug (c : ArmCode) : P Dbg :=
  if utf8Valid c.code.toList then .ok (.str c.code.toList) else .error .expect

/-- msg.rs:1396-1400: a panic if the text is not UTF-8. -/
def TextDescription.debug (t : TextDescription) : P Dbg := do
  let s ← t.asStr
  .ok (.str s)

/-- msg.rs:860-867: a panic if it is out of range. -/
def ZoneStatus.debugTree (s : ZoneStatus) : P Dbg := do
  let (l, p) ← s.debug
  .ok (.tuple (bs "ZoneStatus") [Variants.debug l, Variants.debug p])

/-- msg.rs:693-697. -/
def DateTime.debug (d : DateTime) : Dbg := .str d.toIso8601

/-- msg.rs:706-715, derived. -/
def RtcData.debug (r : RtcData) : Dbg :=
  .struct "RtcData" [("datetime", r.datetime.debug), ("weekday", Variants.debug r.weekday),
    ("dst", .bool r.dst), ("clock_display", Variants.debug r.clockDisplay),
    ("date_display", Variants.debug r.dateDisplay)]

/-- msg.rs:114-120, derived. -/
def ArmRequest.debug (m : ArmRequest) : P Dbg := do
  let code ← m.code.debug
  .ok (.struct "ArmRequest" [("area", m.area.debug), ("level", Variants.debug m.level),
    ("code", code)])

/-- msg.rs:128-135, derived. -/
def ArmingStatusReport.debug (m : ArmingStatusReport) : Dbg :=
  .struct "ArmingStatusReport" [("arming_status", .arr Variants.debug m.armingStatus),
    ("up_state", .arr Variants.debug m.upState), ("alarm_state", .arr Variants.debug m.alarmState),
    ("first_exit_time", .num m.firstExitTime.toNat)]

/-- msg.rs:138-149, derived. -/
def SendTimeData.debug (m : SendTimeData) : Dbg :=
  .struct "SendTimeData" [("area", m.area.debug), ("ty", Variants.debug m.ty),
    ("timer1", .num m.timer1.toNat), ("timer2", .num m.timer2.toNat),
    ("armed_state", match m.armedState with
      | none => .unit "None"
      | some s => .wrap "Some" (Variants.debug s))]

/-- msg.rs:152-168, derived. -/
def SendCode.debug (m : SendCode) : Dbg :=
  .struct "SendCode" [("code", .arr (fun b => .num b.toNat) m.code), ("user", .num m.user.toNat),
    ("keypad", m.keypad.debug)]

/-- msg.rs:184-189, derived. -/
def StringDescriptionRequest.debug (m : StringDescriptionRequest) : Dbg :=
  .struct "StringDescriptionRequest" [("ty", Variants.debug m.ty), ("num", .num m.num.toNat)]

/-- msg.rs:192-198, derived. -/
def StringDescriptionResponse.debug (m : StringDescriptionResponse) : P Dbg := do
  let text ← m.text.debug
  .ok (.struct "StringDescriptionResponse" [("ty", Variants.debug m.ty), ("num", .num m.num.toNat),
    ("text", text)])

/-- msg.rs:222-227, derived. -/
def ZoneChange.debug (m : ZoneChange) : P Dbg := do
  let status ← m.status.debugTree
  .ok (.struct "ZoneChange" [("zone", m.zone.debug), ("status", status)])

/-- msg.rs:1027-1038: the zones from number `i` on; those whose status is 0 are left out. -/
def debugZones : Nat → List ZoneStatus → P (List (Nat × Dbg))
  | _, [] => .ok []
  | i, s :: l =>
    if s.val = 0 then debugZones (i + 1) l
    else do
      let x ← s.debugTree
      let rest ← debugZones (i + 1) l
      .ok ((i, x) :: rest)

/-- msg.rs:1027-1038. -/
def ZoneStatusReport.debug (m : ZoneStatusReport) : P Dbg := do
  let entries ← debugZones 1 m.zones.toList
  .ok (.map entries)

/-- msg.rs:53-60, derived, and the structs without fields. -/
def Message.debug : Message → P Dbg
  | .armRequest m => do
    let x ← m.debug
    .ok (.wrap "ArmRequest" x)
  | .armingStatusRequest => .ok (.wrap "ArmingStatusRequest" (.unit "ArmingStatusRequest"))
  | .armingStatusReport m => .ok (.wrap "ArmingStatusReport" m.debug)
  | .sendTimeData m => .ok (.wrap "SendTimeData" m.debug)
  | .sendCode m => .ok (.wrap "SendCode" m.debug)
  | .rtcRequest => .ok (.wrap "RtcRequest" (.unit "RtcRequest"))
  | .rtcResponse r => .ok (.wrap "RtcResponse" (.struct "RtcResponse" [("rtc_data", r.debug)]))
  | .stringDescriptionRequest m => .ok (.wrap "StringDescriptionRequest" m.debug)
  | .stringDescriptionResponse m => do
    let x ← m.debug
    .ok (.wrap "StringDescriptionResponse" x)
  | .activateTask t => .ok (.wrap "ActivateTask" (.struct "ActivateTask" [("task", t.debug)]))
  | .taskChange t => .ok (.wrap "TaskChange" (.struct "TaskChange" [("task", t.debug)]))
  | .heartbeat r => .ok (.wrap "Heartbeat" (.struct "Heartbeat" [("rtc_data", r.debug)]))
  | .zoneChange m => do
    let x ← m.debug
    .ok (.wrap "ZoneChange" x)
  | .zoneStatusRequest => .ok (.wrap "ZoneStatusRequest" (.unit "ZoneStatusRequest"))
  | .zoneStatusReport m => do
    let x ← m.debug
    .ok (.wrap "ZoneStatusReport" x)

/-! ## elkm1/src/pkt.rs and state.rs -/

/-- pkt.rs:19, 136-143, 201, 472-476. -/
def Packet.debug : Packet → Dbg
  | .ascii p => .wrap "Ascii" (.wrap "AsciiPacket" (.str p.body))
  | .rp p => .wrap "Rp" (.wrap "RpPacket" (.hex p.body))
  | .invalid p => .wrap "Invalid"
      (.struct "InvalidPacket" [("reason", .str p.reason), ("raw", .hex p.raw)])

/-- state.rs:490-505, derived. -/
def Change.debug : Change → P Dbg
  | .zoneChange zone prior => do
    let x ← prior.debugTree
    .ok (.struct "ZoneChange" [("zone", zone.debug), ("prior", x)])
  | .armingStatus prior => .ok (.struct "ArmingStatus" [("prior", prior.debug)])

/-- `Result<Message, msg::Error>`, msg.rs:17-19. -/
def debugResult : Except Bytes Message → P Dbg
  | .ok m => do
    let x ← m.debug
    .ok (.wrap "Ok" x)
  | .error e => .ok (.wrap "Err" (.wrap "Error" (.str e)))

/-- state.rs:472-480, derived. -/
def Event.debug (ev : Event) : P Dbg := do
  let pkt ← Dbg.opt (fun p => .ok (Packet.debug p)) ev.pkt
  let msg ← Dbg.opt debugResult ev.msg
  let completes ← Dbg.opt Message.debug ev.completes
  let change ← Dbg.opt Change.debug ev.change
  .ok (.struct "Event" [("pkt", pkt), ("msg", msg), ("completes", completes), ("change", change)])

/-- state.rs:174-177 the text of the error when the stream ends before a reply. -/
def Init.eofText (i : Init) : P Bytes := do
  let x ← i.send.debug
  .ok (bs "EOF while expecting reply to " ++ x.text)

/-! ## elkm1-cli/src/main.rs -/

/-- main.rs:64, 67 what a line of `read` shows, as text. -/
def Printed.text : Printed → Bytes
  | .packet p => p.debug.text ++ [0x0a]
  | .incomplete left => bs "incomplete data: " ++ hexDump left ++ [0x0a]

/-- main.rs:60-69 the text `read` writes to its standard output. -/
def Cli.output (file : Except IoErr Bytes) : P Bytes := do
  let lines ← Cli.read file
  .ok (lines.flatMap Printed.text)

end Elk
