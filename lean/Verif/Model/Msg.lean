import Verif.Model.Pkt
/-!
# Model of `elkm1/src/msg.rs` (stateless conversion between packets and messages)

Functions returning `Result<T, String>` are modelled in `R`, which also records panics.
The error texts are those of the code.
-/

namespace Elk

/-- How a function returning `Result<_, String>` can fail to produce a value: by returning `Err`
or by panicking. -/
inductive Fail where
  | err (msg : Bytes)
  | panic (p : Panic)
  deriving DecidableEq, Repr

/-- A Rust computation of type `Result<α, String>` that may also panic. -/
abbrev R (α : Type) := Except Fail α

/-- A computation that cannot return `Err` used inside one that can. -/
def liftP {α : Type} (x : P α) : R α :=
  match x with
  | .ok a => .ok a
  | .error p => .error (.panic p)

/-- `return Err(msg)`. -/
def errR {α : Type} (msg : Bytes) : R α := .error (.err msg)

/-- `if c { return Err(msg) }`. -/
def failIf (c : Prop) [Decidable c] (msg : Bytes) : R Unit := if c then errR msg else .ok ()

/-- `debug_assert!(c)`. -/
def assertR (c : Prop) [Decidable c] : R Unit :=
  if c then .ok () else .error (.panic .assertion)

/-- `Option`-like results (`Result<_, ()>`) with `map_err` and `?`. -/
def okOr {α : Type} (o : Option α) (msg : Bytes) : R α :=
  match o with
  | some a => .ok a
  | none => errR msg

/-- `for i in 0..n { a[i] = f(i)?; }` on a fixed-size array whose every entry is assigned. -/
def fillM {α : Type} (f : Nat → R α) : (n : Nat) → R (Vector α n)
  | 0 => .ok #v[]
  | n + 1 => do
    let v ← fillM f n
    let a ← f n
    .ok (v.push a)

/-! ## Numbers in text (Rust `core::fmt` and `FromStr`) -/

/-- `format!("{:1X}", n)` for a `u8`: upper-case hexadecimal without padding. -/
def upperHex (n : UInt8) : Bytes :=
  if n < 16 then [hexNibble n] else [hexNibble (n >>> 4), hexNibble n]

/-- The digit loop of Rust's `uN::from_str`, with the checked multiply and add against `max`. -/
def digitsGo (max : Nat) : Nat → Bytes → Option Nat
  | acc, [] => some acc
  | acc, b :: r =>
    if b' '0' ≤ b ∧ b ≤ b' '9' then
      let v := acc * 10 + (b - b' '0').toNat
      if v ≤ max then digitsGo max v r else none
    else none

/-- Rust's `uN::from_str` with `max = uN::MAX`: an optional leading `+` (but not alone), then at
least one digit, no overflow. -/
def fromStrDec (max : Nat) (s : Bytes) : Option Nat :=
  match s with
  | [] => none
  | [b] => if b = b' '+' then none else digitsGo max 0 [b]
  | b :: r => if b = b' '+' then digitsGo max 0 r else digitsGo max 0 (b :: r)

/-- Rust's `core::str::from_utf8` check (the well-formed byte sequences of the Unicode standard,
table 3-7).  The first argument lists the ranges the next continuation bytes must be in. -/
def utf8Go : List (UInt8 × UInt8) → Bytes → Bool
  | [], [] => true
  | _ :: _, [] => false
  | (lo, hi) :: ps, b :: r => decide (lo ≤ b) && decide (b ≤ hi) && utf8Go ps r
  | [], b :: r =>
    if b < 0x80 then utf8Go [] r
    else if 0xC2 ≤ b ∧ b ≤ 0xDF then utf8Go [(0x80, 0xBF)] r
    else if b = 0xE0 then utf8Go [(0xA0, 0xBF), (0x80, 0xBF)] r
    else if (0xE1 ≤ b ∧ b ≤ 0xEC) ∨ b = 0xEE ∨ b = 0xEF then
      utf8Go [(0x80, 0xBF), (0x80, 0xBF)] r
    else if b = 0xED then utf8Go [(0x80, 0x9F), (0x80, 0xBF)] r
    else if b = 0xF0 then utf8Go [(0x90, 0xBF), (0x80, 0xBF), (0x80, 0xBF)] r
    else if 0xF1 ≤ b ∧ b ≤ 0xF3 then utf8Go [(0x80, 0xBF), (0x80, 0xBF), (0x80, 0xBF)] r
    else if b = 0xF4 then utf8Go [(0x80, 0x8F), (0x80, 0xBF), (0x80, 0xBF)] r
    else false

/-- Whether `std::str::from_utf8` succeeds. -/
def utf8Valid (b : Bytes) : Bool := utf8Go [] b

/-- msg.rs:29-34 `parse_u8_dec`.  Bytes that are not UTF-8 are not digits either; they only get
another text. -/
def parseU8Dec (name val : Bytes) : R UInt8 :=
  match fromStrDec 255 val with
  | some n => .ok (UInt8.ofNat n)
  | none =>
    if utf8Valid val then
      errR (name ++ bs " expected to be decimal in [0, 255); got " ++ debugBytes val)
    else errR (name ++ bs " expected to be decimal in [0, 255); was bad utf-8")

/-- `str::is_char_boundary` on the bytes of a valid `str`. -/
def isCharBoundary (s : Bytes) (i : Nat) : Bool :=
  match s[i]? with
  | some b => decide (b < 0x80) || decide (0xC0 ≤ b)
  | none => i == s.length

/-- Rust `&s[i..j]` on a `str`: panics off `char` boundaries. -/
def strSlice (s : Bytes) (i j : Nat) : P Bytes :=
  if i ≤ j ∧ isCharBoundary s i ∧ isCharBoundary s j then .ok ((s.take j).drop i)
  else .error .slice

/-! ## Enums defined by `byte_enum!` and `num_enum!` -/

/-- What the macros `byte_enum!` (msg.rs:292-329) and `num_enum!` (msg.rs:335-372) generate from a
table of variants: the discriminant (`self as u8`) and the list of variants in order; the text of the
error for a value that is none of them. -/
class ByteEnum (α : Type) where
  code : α → UInt8
  all : List α
  bad : UInt8 → Bytes

/-- msg.rs:324, the error of `byte_enum!`. -/
def badByte (name : String) (val : UInt8) : Bytes := bs "bad " ++ bs name ++ bs " " ++ debugChar val

/-- msg.rs:367, the error of `num_enum!`. -/
def badNum (name : String) (val : UInt8) : Bytes := bs "bad " ++ bs name ++ bs " " ++ decStr val.toNat

/-- msg.rs:319-326, msg.rs:362-369 `TryFrom<u8>`: the variant with that discriminant. -/
def ByteEnum.tryFrom {α : Type} [ByteEnum α] (val : UInt8) : R α :=
  okOr ((ByteEnum.all (α := α)).find? (fun v => ByteEnum.code v == val))
    (ByteEnum.bad α val)

/-- msg.rs:374-398 `ArmLevel`. -/
inductive ArmLevel where
  | disarm | armedAway | armedStay | armedStayInstant | armedNight | armedNightInstant
  | armedVacation | armToNextAwayMode | armToNextStayMode | forceArmToAway | forceArmToStay
  deriving DecidableEq, Repr

/-- msg.rs:374-398, the discriminants. -/
instance : ByteEnum ArmLevel where
  code
    | .disarm => b' '0' | .armedAway => b' '1' | .armedStay => b' '2'
    | .armedStayInstant => b' '3' | .armedNight => b' '4' | .armedNightInstant => b' '5'
    | .armedVacation => b' '6' | .armToNextAwayMode => b' '7' | .armToNextStayMode => b' '8'
    | .forceArmToAway => b' '9' | .forceArmToStay => b' ':'
  all := [.disarm, .armedAway, .armedStay, .armedStayInstant, .armedNight, .armedNightInstant,
    .armedVacation, .armToNextAwayMode, .armToNextStayMode, .forceArmToAway, .forceArmToStay]
  bad := badByte "ArmLevel"

/-- msg.rs:457-463 `TimeDataType`. -/
inductive TimeDataType where
  | exit | entry
  deriving DecidableEq, Repr

/-- msg.rs:457-463, the discriminants. -/
instance : ByteEnum TimeDataType where
  code | .exit => b' '0' | .entry => b' '1'
  all := [.exit, .entry]
  bad := badByte "TimeDataType"

/-- msg.rs:465-476 `ArmedState`. -/
inductive ArmedState where
  | disarmed | armedAway | armedStay | armedStayInstant | armedNight | armedNightInstant
  | armedVacation
  deriving DecidableEq, Repr

/-- msg.rs:465-476, the discriminants. -/
instance : ByteEnum ArmedState where
  code
    | .disarmed => b' '0' | .armedAway => b' '1' | .armedStay => b' '2'
    | .armedStayInstant => b' '3' | .armedNight => b' '4' | .armedNightInstant => b' '5'
    | .armedVacation => b' '6'
  all := [.disarmed, .armedAway, .armedStay, .armedStayInstant, .armedNight, .armedNightInstant,
    .armedVacation]
  bad := badByte "ArmedState"

/-- msg.rs:478-489 `Weekday`. -/
inductive Weekday where
  | sun | mon | tue | wed | thu | fri | sat
  deriving DecidableEq, Repr

/-- msg.rs:478-489, the discriminants. -/
instance : ByteEnum Weekday where
  code
    | .sun => b' '1' | .mon => b' '2' | .tue => b' '3' | .wed => b' '4' | .thu => b' '5'
    | .fri => b' '6' | .sat => b' '7'
  all := [.sun, .mon, .tue, .wed, .thu, .fri, .sat]
  bad := badByte "Weekday"

/-- msg.rs:491-497 `ClockDisplayMode`. -/
inductive ClockDisplayMode where
  | twentyFourHour | twelveHour
  deriving DecidableEq, Repr

/-- msg.rs:491-497, the discriminants. -/
instance : ByteEnum ClockDisplayMode where
  code | .twentyFourHour => b' '0' | .twelveHour => b' '1'
  all := [.twentyFourHour, .twelveHour]
  bad := badByte "ClockDisplayMode"

/-- msg.rs:499-505 `DateDisplayMode`. -/
inductive DateDisplayMode where
  | monthFirst | dayFirst
  deriving DecidableEq, Repr

/-- msg.rs:499-505, the discriminants. -/
instance : ByteEnum DateDisplayMode where
  code | .monthFirst => b' '0' | .dayFirst => b' '1'
  all := [.monthFirst, .dayFirst]
  bad := badByte "DateDisplayMode"

/-- msg.rs:1082-1093 `ArmingStatus`. -/
inductive ArmingStatus where
  | disarmed | armedAway | armedStay | armedStayInstant | armedNight | armedNightInstant
  | armedVacation
  deriving DecidableEq, Repr

/-- msg.rs:1082-1093, the discriminants. -/
instance : ByteEnum ArmingStatus where
  code
    | .disarmed => b' '0' | .armedAway => b' '1' | .armedStay => b' '2'
    | .armedStayInstant => b' '3' | .armedNight => b' '4' | .armedNightInstant => b' '5'
    | .armedVacation => b' '6'
  all := [.disarmed, .armedAway, .armedStay, .armedStayInstant, .armedNight, .armedNightInstant,
    .armedVacation]
  bad := badByte "ArmingStatus"

/-- msg.rs:1095-1106 `ArmUpState`. -/
inductive ArmUpState where
  | notReadyToArm | readyToArm | readyToForceArm | armedWithExitTimer | armedFully
  | forceArmedWithForceArmZoneViolated | armedWithBypass
  deriving DecidableEq, Repr

/-- msg.rs:1095-1106, the discriminants. -/
instance : ByteEnum ArmUpState where
  code
    | .notReadyToArm => b' '0' | .readyToArm => b' '1' | .readyToForceArm => b' '2'
    | .armedWithExitTimer => b' '3' | .armedFully => b' '4'
    | .forceArmedWithForceArmZoneViolated => b' '5' | .armedWithBypass => b' '6'
  all := [.notReadyToArm, .readyToArm, .readyToForceArm, .armedWithExitTimer, .armedFully,
    .forceArmedWithForceArmZoneViolated, .armedWithBypass]
  bad := badByte "ArmUpState"

/-- msg.rs:1108-1131 `AlarmState`. -/
inductive AlarmState where
  | noAlarmActive | entranceDelayActive | alarmAbortDelayActive | fireAlarm | medicalAlarm
  | policeAlarm | burglarAlarm | aux1Alarm | aux2Alarm | aux3Alarm | aux4Alarm
  | carbonMonoxideAlarm | emergencyAlarm | freezeAlarm | gasAlarm | heatAlarm | waterAlarm
  | fireSupervisory | verifyFire
  deriving DecidableEq, Repr

/-- msg.rs:1108-1131, the discriminants. -/
instance : ByteEnum AlarmState where
  code
    | .noAlarmActive => b' '0' | .entranceDelayActive => b' '1'
    | .alarmAbortDelayActive => b' '2' | .fireAlarm => b' '3' | .medicalAlarm => b' '4'
    | .policeAlarm => b' '5' | .burglarAlarm => b' '6' | .aux1Alarm => b' '7'
    | .aux2Alarm => b' '8' | .aux3Alarm => b' '9' | .aux4Alarm => b' ':'
    | .carbonMonoxideAlarm => b' ';' | .emergencyAlarm => b' '<' | .freezeAlarm => b' '='
    | .gasAlarm => b' '>' | .heatAlarm => b' '?' | .waterAlarm => b' '@'
    | .fireSupervisory => b' 'A' | .verifyFire => b' 'B'
  all := [.noAlarmActive, .entranceDelayActive, .alarmAbortDelayActive, .fireAlarm,
    .medicalAlarm, .policeAlarm, .burglarAlarm, .aux1Alarm, .aux2Alarm, .aux3Alarm, .aux4Alarm,
    .carbonMonoxideAlarm, .emergencyAlarm, .freezeAlarm, .gasAlarm, .heatAlarm, .waterAlarm,
    .fireSupervisory, .verifyFire]
  bad := badByte "AlarmState"

/-- msg.rs:1205-1229 `TextDescriptionType`. -/
inductive TextDescriptionType where
  | zone | area | user | keypad | output | task | telephone | light | alarmDuration
  | customSettings | counter | thermostat | functionKey1 | functionKey2 | functionKey3
  | functionKey4 | functionKey5 | functionKey6 | audioZone | audioSource
  deriving DecidableEq, Repr

/-- msg.rs:1205-1229, the discriminants. -/
instance : ByteEnum TextDescriptionType where
  code
    | .zone => 0 | .area => 1 | .user => 2 | .keypad => 3 | .output => 4 | .task => 5
    | .telephone => 6 | .light => 7 | .alarmDuration => 8 | .customSettings => 9
    | .counter => 10 | .thermostat => 11 | .functionKey1 => 12 | .functionKey2 => 13
    | .functionKey3 => 14 | .functionKey4 => 15 | .functionKey5 => 16 | .functionKey6 => 17
    | .audioZone => 18 | .audioSource => 19
  all := [.zone, .area, .user, .keypad, .output, .task, .telephone, .light, .alarmDuration,
    .customSettings, .counter, .thermostat, .functionKey1, .functionKey2, .functionKey3,
    .functionKey4, .functionKey5, .functionKey6, .audioZone, .audioSource]
  bad := badNum "TextDescriptionType"

/-- msg.rs:1133-1138 `AlarmState::is_firing`. -/
def AlarmState.isFiring (s : AlarmState) : Bool :=
  decide (ByteEnum.code s > ByteEnum.code AlarmState.fireAlarm)

/-- msg.rs:1140-1145 `ArmingStatus::has_entry_delay`. -/
def ArmingStatus.hasEntryDelay : ArmingStatus → Bool
  | .armedAway | .armedStay | .armedNight | .armedVacation => true
  | _ => false

/-! ## Numbers with a limited range -/

/-- msg.rs:507-570 `limited_u8!`: a `u8` wrapper.  The type itself does not carry the range. -/
structure Limited (max : Nat) where
  val : UInt8
  deriving DecidableEq, Repr

/-- msg.rs:787 `NUM_AREAS`. -/
def numAreas : Nat := 8
/-- msg.rs:789 `NUM_TASKS`. -/
def numTasks : Nat := 32
/-- msg.rs:790 `NUM_ZONES`. -/
def numZones : Nat := 208

/-- msg.rs:792-795. -/
abbrev Zone := Limited 208
/-- msg.rs:797-800. -/
abbrev Area := Limited 8
/-- msg.rs:802-805. -/
abbrev Keypad := Limited 16
/-- msg.rs:807-810. -/
abbrev Task := Limited 32

/-- msg.rs:546-559 `TryFrom<u8>`.  (`stringify!(t)` at line 553 is the letter `t`, not the type.) -/
def Limited.tryFrom {max : Nat} (val : UInt8) : R (Limited max) :=
  if 1 ≤ val.toNat ∧ val.toNat ≤ max then .ok ⟨val⟩ else
    errR (decStr val.toNat ++ bs " not in expected t range of [1, " ++ decStr max ++ bs "]")

/-- msg.rs:519-521 `to_index`: `usize` subtraction, which panics on underflow. -/
def Limited.toIndex {max : Nat} (t : Limited max) : P Nat :=
  if 1 ≤ t.val.toNat then .ok (t.val.toNat - 1) else .error .overflow

/-! ## Dates -/

/-- msg.rs:576-584 `DateTime`. -/
structure DateTime where
  year : UInt8
  month : UInt8
  day : UInt8
  hour : UInt8
  minute : UInt8
  second : UInt8
  deriving DecidableEq, Repr

/-- `uN::from_str(&val[i..j]).map_err(..)?` (msg.rs:592, 599, …). -/
def isoField (max : Nat) (val : Bytes) (i j : Nat) (msg : String) : R Nat := do
  let s ← liftP (strSlice val i j)
  okOr (fromStrDec max s) (bs msg)

/-- `if &val[i..i+1] != sep { return Err(..) }` (msg.rs:596, 603, …). -/
def isoSep (val : Bytes) (i : Nat) (sep : Char) (msg : String) : R Unit := do
  let s ← liftP (strSlice val i (i + 1))
  failIf (s ≠ [b' sep]) (bs msg)

/-- msg.rs:588-639 `from_iso_8601`; `val` is the bytes of the `&str`. -/
def DateTime.fromIso8601 (val : Bytes) : R DateTime := do
  failIf (val.length ≠ 19) (bs "wrong length")
  let year ← isoField 65535 val 0 4 "bad year"
  failIf (¬ (2000 ≤ year ∧ year ≤ 2100)) (bs "year " ++ decStr year ++ bs " out of range")
  isoSep val 4 '-' "bad year-month separator"
  let month ← isoField 255 val 5 7 "bad month"
  failIf (¬ (1 ≤ month ∧ month ≤ 12)) (bs "month " ++ decStr month ++ bs " out of range")
  isoSep val 7 '-' "bad month-day separator"
  let day ← isoField 255 val 8 10 "bad day"
  failIf (¬ (1 ≤ day ∧ day ≤ 31)) (bs "day " ++ decStr day ++ bs " out of range")
  isoSep val 10 'T' "bad date-time separator"
  let hour ← isoField 255 val 11 13 "bad hour"
  isoSep val 13 ':' "bad hour-minute separator"
  failIf (hour > 23) (bs "hour " ++ decStr hour ++ bs " out of range")
  let minute ← isoField 255 val 14 16 "bad minute"
  failIf (minute > 59) (bs "minute " ++ decStr minute ++ bs " out of range")
  isoSep val 16 ':' "bad minute-second separator"
  let second ← isoField 255 val 17 19 "bad second"
  failIf (second > 59) (bs "second out of range")
  .ok { year := UInt8.ofNat (year - 2000), month := UInt8.ofNat month, day := UInt8.ofNat day,
        hour := UInt8.ofNat hour, minute := UInt8.ofNat minute, second := UInt8.ofNat second }

/-- msg.rs:641-646 `to_iso_8601`. -/
def DateTime.toIso8601 (d : DateTime) : Bytes :=
  [b' '2', b' '0'] ++ padDec 2 d.year.toNat ++ [b' '-'] ++ padDec 2 d.month.toNat ++ [b' '-'] ++
    padDec 2 d.day.toNat ++ [b' 'T'] ++ padDec 2 d.hour.toNat ++ [b' ':'] ++
    padDec 2 d.minute.toNat ++ [b' ':'] ++ padDec 2 d.second.toNat

/-- msg.rs:708-715 `RtcData`. -/
structure RtcData where
  datetime : DateTime
  weekday : Weekday
  dst : Bool
  clockDisplay : ClockDisplayMode
  dateDisplay : DateDisplayMode
  deriving DecidableEq, Repr

/-- `parse_u8_dec(name, &data[i..j])?`. -/
def parseField (name : String) (data : Bytes) (i j : Nat) : R UInt8 := do
  let s ← liftP (slice data i j)
  parseU8Dec (bs name) s

/-- msg.rs:746-750, the `match` on the DST flag. -/
def dstFlag (d : UInt8) : R Bool :=
  if d = b' '0' then .ok false else if d = b' '1' then .ok true else errR (bs "bad dst flag")

/-- msg.rs:718-766 `RtcData::from_ascii`. -/
def RtcData.fromAscii (data : Bytes) : R RtcData := do
  failIf (data.length < 16) (bs "RTC data must be at least 16 bytes")
  let year ← parseField "year" data 11 13
  assertR (year < 100)
  let month ← parseField "month" data 9 11
  failIf (¬ (1 ≤ month ∧ month ≤ 12)) (bs "month out of range")
  let day ← parseField "day" data 7 9
  failIf (¬ (1 ≤ day ∧ day ≤ 31)) (bs "day out of range")
  let hour ← parseField "hour" data 4 6
  failIf (hour ≥ 24) (bs "hour out of range")
  let minute ← parseField "minute" data 2 4
  failIf (minute ≥ 60) (bs "minute out of range")
  let second ← parseField "second" data 0 2
  failIf (second ≥ 60) (bs "second out of range")
  let weekday ← ByteEnum.tryFrom (← liftP (idx data 6))
  let dst ← dstFlag (← liftP (idx data 13))
  let clockDisplay ← ByteEnum.tryFrom (← liftP (idx data 14))
  let dateDisplay ← ByteEnum.tryFrom (← liftP (idx data 15))
  .ok { datetime := { year, month, day, hour, minute, second }, weekday, dst, clockDisplay,
        dateDisplay }

/-- msg.rs:768-784 `RtcData::to_ascii`. -/
def RtcData.toAscii (r : RtcData) : Bytes :=
  padDec 2 r.datetime.second.toNat ++ padDec 2 r.datetime.minute.toNat ++
    padDec 2 r.datetime.hour.toNat ++ [ByteEnum.code r.weekday] ++
    padDec 2 r.datetime.day.toNat ++ padDec 2 r.datetime.month.toNat ++
    padDec 2 r.datetime.year.toNat ++ [if r.dst then b' '1' else b' '0'] ++
    [ByteEnum.code r.clockDisplay] ++ [ByteEnum.code r.dateDisplay]

/-! ## Field types -/

/-- msg.rs:400-402 `ArmCode([u8; 6])`. -/
structure ArmCode where
  code : Vector UInt8 6
  deriving DecidableEq, Repr

/-- `<[u8]>::copy_from_slice` / `try_into` to an array of length `n`, failing on another length. -/
def toArrayN (n : Nat) (l : Bytes) (p : Panic) : P (Vector UInt8 n) :=
  if h : l.length = n then .ok ⟨l.toArray, by simp [h]⟩ else .error p

/-- msg.rs:412-424 `ArmCode::try_from(u32)`. -/
def ArmCode.tryFromNum (n : UInt32) : R ArmCode := do
  failIf (n ≥ 1000000) (bs "code out of range")
  let s := padDec 6 n.toNat
  let copied ← liftP (toArrayN 6 s .slice)
  .ok ⟨copied⟩

/-- msg.rs:427-441 `ArmCode::try_from(&[u8])`. -/
def ArmCode.tryFromBytes (value : Bytes) : R ArmCode := do
  failIf (value.length ≠ 6) (bs "ArmCode must be of length 6")
  let code ← liftP (toArrayN 6 value .slice)
  failIf (code.toList.any (fun b => !(decide (b' '0' ≤ b) && decide (b ≤ b' '9'))))
    (bs "ArmCode must be numeric")
  .ok ⟨code⟩

/-- msg.rs:853-858 `ZoneStatus(u8)`. -/
structure ZoneStatus where
  val : UInt8
  deriving DecidableEq, Repr

/-- msg.rs:935-940 `ZoneLogicalStatus`. -/
inductive ZoneLogicalStatus where
  | normal | trouble | violated | bypassed
  deriving DecidableEq, Repr

/-- msg.rs:925-930 `ZonePhysicalStatus`. -/
inductive ZonePhysicalStatus where
  | unconfigured | opened | eol | short
  deriving DecidableEq, Repr

/-- msg.rs:935-940, `as u8`. -/
def ZoneLogicalStatus.code : ZoneLogicalStatus → UInt8
  | .normal => 0 | .trouble => 1 | .violated => 2 | .bypassed => 3

/-- msg.rs:925-930, `as u8`. -/
def ZonePhysicalStatus.code : ZonePhysicalStatus → UInt8
  | .unconfigured => 0 | .opened => 1 | .eol => 2 | .short => 3

/-- msg.rs:872-874 `ZoneStatus::new`. -/
def ZoneStatus.new (l : ZoneLogicalStatus) (p : ZonePhysicalStatus) : ZoneStatus :=
  ⟨(l.code <<< 2) ||| p.code⟩

/-- msg.rs:876-880 `ZoneStatus::from_ascii`. -/
def ZoneStatus.fromAscii (hexNib : UInt8) : R ZoneStatus := do
  let v ← okOr (dehexNibble hexNib) (bs "bad zone status " ++ debugChar hexNib)
  .ok ⟨v⟩

/-- msg.rs:882-884 `ZoneStatus::to_ascii`. -/
def ZoneStatus.toAscii (s : ZoneStatus) : UInt8 := hexNibble s.val

/-- msg.rs:886-894 `ZoneStatus::logical`. -/
def ZoneStatus.logical (s : ZoneStatus) : P ZoneLogicalStatus :=
  let v := s.val >>> 2
  if v = 0 then .ok .normal
  else if v = 1 then .ok .trouble
  else if v = 2 then .ok .violated
  else if v = 3 then .ok .bypassed
  else .error .unreachable

/-- msg.rs:896-904 `ZoneStatus::physical`. -/
def ZoneStatus.physical (s : ZoneStatus) : P ZonePhysicalStatus :=
  let v := s.val &&& 3
  if v = 0 then .ok .unconfigured
  else if v = 1 then .ok .opened
  else if v = 2 then .ok .eol
  else if v = 3 then .ok .short
  else .error .unreachable

/-- msg.rs:870 `ZoneStatus::UNCONFIGURED`. -/
def ZoneStatus.unconfigured : ZoneStatus := ⟨0⟩

/-- msg.rs:1312-1314 `TextDescription([u8; 16])`. -/
structure TextDescription where
  text : Vector UInt8 16
  deriving DecidableEq, Repr

/-- msg.rs:1317 `TextDescription::EMPTY`, msg.rs:1391-1393 `default`. -/
def TextDescription.empty : TextDescription := ⟨Vector.replicate 16 (b' ' ')⟩

/-- `AsciiPacket::check_printable(text)?` (msg.rs:1321). -/
def printableR (text : Bytes) : R Unit :=
  match checkPrintable text with
  | .ok () => .ok ()
  | .error e => errR e

/-- msg.rs:1320-1327 `TextDescription::new`; `text` is the bytes of the `&str`. -/
def TextDescription.new (text : Bytes) : R TextDescription := do
  printableR text
  .ok ⟨Vector.ofFn fun i => text.getD i.val (TextDescription.empty.text[i.val])⟩

/-- msg.rs:1329-1331 `as_padded_str`. -/
def TextDescription.asPaddedStr (t : TextDescription) : P Bytes :=
  if utf8Valid t.text.toList then .ok t.text.toList else .error .expect

/-- `str::trim_end_matches(' ')`. -/
def trimEndSpaces (s : Bytes) : Bytes := (s.reverse.dropWhile (· == b' ' ')).reverse

/-- msg.rs:1333-1335 `as_str`. -/
def TextDescription.asStr (t : TextDescription) : P Bytes := do
  let s ← t.asPaddedStr
  .ok (trimEndSpaces s)

/-- msg.rs:1337-1339 `is_empty`. -/
def TextDescription.isEmpty (t : TextDescription) : Bool := t.text[0] == b' ' '

/-! ## Messages -/

/-- msg.rs:116-120. -/
structure ArmRequest where
  area : Area
  level : ArmLevel
  code : ArmCode
  deriving DecidableEq, Repr

/-- msg.rs:130-135. -/
structure ArmingStatusReport where
  armingStatus : Vector ArmingStatus 8
  upState : Vector ArmUpState 8
  alarmState : Vector AlarmState 8
  firstExitTime : UInt8
  deriving DecidableEq, Repr

/-- msg.rs:140-149. -/
structure SendTimeData where
  area : Area
  ty : TimeDataType
  timer1 : UInt8
  timer2 : UInt8
  armedState : Option ArmedState
  deriving DecidableEq, Repr

/-- msg.rs:154-168. -/
structure SendCode where
  code : Vector UInt8 6
  user : UInt8
  keypad : Keypad
  deriving DecidableEq, Repr

/-- msg.rs:186-189. -/
structure StringDescriptionRequest where
  ty : TextDescriptionType
  num : UInt8
  deriving DecidableEq, Repr

/-- msg.rs:194-198. -/
structure StringDescriptionResponse where
  ty : TextDescriptionType
  num : UInt8
  text : TextDescription
  deriving DecidableEq, Repr

/-- msg.rs:224-227. -/
structure ZoneChange where
  zone : Zone
  status : ZoneStatus
  deriving DecidableEq, Repr

/-- msg.rs:236-238. -/
structure ZoneStatusReport where
  zones : Vector ZoneStatus 208
  deriving DecidableEq, Repr

/-- msg.rs:55-60 and 108-239: `Message`.  The structs with a single field (`RtcResponse`,
`ActivateTask`, `TaskChange`, `Heartbeat`) and those with none are inlined. -/
inductive Message where
  | armRequest (m : ArmRequest)
  | armingStatusRequest
  | armingStatusReport (m : ArmingStatusReport)
  | sendTimeData (m : SendTimeData)
  | sendCode (m : SendCode)
  | rtcRequest
  | rtcResponse (rtcData : RtcData)
  | stringDescriptionRequest (m : StringDescriptionRequest)
  | stringDescriptionResponse (m : StringDescriptionResponse)
  | activateTask (task : Task)
  | taskChange (task : Task)
  | heartbeat (rtcData : RtcData)
  | zoneChange (m : ZoneChange)
  | zoneStatusRequest
  | zoneStatusReport (m : ZoneStatusReport)
  deriving DecidableEq, Repr

/-- A two-character command code. -/
def cmd2 (a b : Char) : Bytes := [b' a, b' b]

/-- `AsciiPacket::try_from(msg).expect(..)`. -/
def expectAscii (msg : Bytes) : P AsciiPacket :=
  match AsciiPacket.tryFrom msg with
  | .ok p => .ok p
  | .error _ => .error .expect

/-- `b"00"`, the reserved bytes. -/
def zeros2 : Bytes := [b' '0', b' '0']

/-- msg.rs:1043: `ArmLevel::try_from(subtype).expect(..)`. -/
def armLevelExpect (subtype : UInt8) : R ArmLevel :=
  match (ByteEnum.tryFrom subtype : R ArmLevel) with
  | .ok l => .ok l
  | .error _ => .error (.panic .expect)

/-- msg.rs:815, 945, …: `format!("expected at least {} bytes, got {}", n, data.len())`. -/
def expected (n : Nat) (data : Bytes) : Bytes :=
  bs "expected at least " ++ decStr n ++ bs " bytes, got " ++ decStr data.length

/-- msg.rs:1041-1053 `ArmRequest::from_ascii`. -/
def ArmRequest.fromAscii (subtype : UInt8) (data : Bytes) : R ArmRequest := do
  let level ← armLevelExpect subtype
  failIf (data.length < 9)
    (bs "Expected ArmRequest to have at least 9 bytes of data, got " ++ decStr data.length)
  let area ← Limited.tryFrom (← parseField "area" data 0 1)
  let code ← ArmCode.tryFromBytes (← liftP (slice data 1 7))
  .ok { area, level, code }

/-- msg.rs:1055-1063 `ArmRequest::to_ascii`. -/
def ArmRequest.toAscii (m : ArmRequest) : P AsciiPacket := do
  let area ← addU8 m.area.val (b' '0')
  expectAscii ([b' 'a', ByteEnum.code m.level, area] ++ m.code.code.toList ++ zeros2)

/-- msg.rs:1074-1076 `ArmingStatusRequest::to_ascii` (`from_ascii_data`, msg.rs:1071-1073, ignores
its data). -/
def ArmingStatusRequest.toAscii : P AsciiPacket := expectAscii (cmd2 'a' 's' ++ zeros2)

/-- msg.rs:1148-1168 `ArmingStatusReport::from_ascii_data`.  The loop fills three arrays at once;
here it fills one array of triples. -/
def ArmingStatusReport.fromAsciiData (data : Bytes) : R ArmingStatusReport := do
  failIf (data.length < 26) (bs "expected at least 26 data")
  let v ← fillM (fun i => do
    let a ← ByteEnum.tryFrom (α := ArmingStatus) (← liftP (idx data i))
    let u ← ByteEnum.tryFrom (α := ArmUpState) (← liftP (idx data (numAreas + i)))
    let s ← ByteEnum.tryFrom (α := AlarmState) (← liftP (idx data (2 * numAreas + i)))
    .ok (a, u, s)) 8
  let hi ← liftP (idx data 24)
  let lo ← liftP (idx data 25)
  let firstExitTime ← okOr (dehexByte hi lo) (bs "bad first_exit_time")
  .ok { armingStatus := v.map (·.1), upState := v.map (·.2.1), alarmState := v.map (·.2.2),
        firstExitTime }

/-- msg.rs:1169-1179 `ArmingStatusReport::to_ascii`. -/
def ArmingStatusReport.toAscii (m : ArmingStatusReport) : P AsciiPacket :=
  expectAscii (cmd2 'A' 'S' ++ m.armingStatus.toList.map ByteEnum.code ++
    m.upState.toList.map ByteEnum.code ++ m.alarmState.toList.map ByteEnum.code ++
    hexByte m.firstExitTime)

/-- msg.rs:1187-1202 `is_transition_suspicious`. -/
def ArmingStatusReport.isTransitionSuspicious (f t : ArmingStatusReport) : Bool :=
  ((f.armingStatus.toList.zip t.armingStatus.toList).zip t.upState.toList).any fun x =>
    decide (x.1.1 = ArmingStatus.disarmed) && x.1.2.hasEntryDelay &&
      decide (x.2 = ArmUpState.armedFully)

/-- msg.rs:817-820, the `match` on the area digit. -/
def areaDigit (b : UInt8) : R Area :=
  if b' '1' ≤ b ∧ b ≤ b' '8' then .ok ⟨b - b' '0'⟩ else
    errR (bs "expected area in [1, 8], got " ++ decStr b.toNat)

/-- msg.rs:824-828, the optional armed state. -/
def armedStateField (data : Bytes) : R (Option ArmedState) :=
  if data.length < 11 then .ok none else do
    let s ← ByteEnum.tryFrom (← liftP (idx data 8))
    .ok (some s)

/-- msg.rs:813-836 `SendTimeData::from_ascii_data`. -/
def SendTimeData.fromAsciiData (data : Bytes) : R SendTimeData := do
  failIf (data.length < 10) (expected 10 data)
  let area ← areaDigit (← liftP (idx data 0))
  let ty ← ByteEnum.tryFrom (← liftP (idx data 1))
  let timer1 ← parseField "timer1" data 2 5
  let timer2 ← parseField "timer2" data 5 8
  let armedState ← armedStateField data
  .ok { area, ty, timer1, timer2, armedState }

/-- msg.rs:837-847 `SendTimeData::to_ascii`. -/
def SendTimeData.toAscii (m : SendTimeData) : P AsciiPacket :=
  expectAscii (cmd2 'E' 'E' ++ decStr m.area.val.toNat ++ [ByteEnum.code m.ty] ++
    padDec 3 m.timer1.toNat ++ padDec 3 m.timer2.toNat ++
    (match m.armedState with
     | some s => [ByteEnum.code s]
     | none => []) ++ zeros2)

/-- msg.rs:1232-1244 `SendCode::from_ascii_data`. -/
def SendCode.fromAsciiData (data : Bytes) : R SendCode := do
  failIf (data.length < 19) (expected 19 data)
  let code ← fillM (fun i => do
    let hi ← liftP (idx data (2 * i))
    let lo ← liftP (idx data (2 * i + 1))
    okOr (dehexByte hi lo) (bs "invalid hex code")) 6
  let user ← parseField "user" data 12 15
  let keypad ← Limited.tryFrom (← parseField "keypad" data 15 17)
  .ok { code, user, keypad }

/-- msg.rs:1250-1259 `SendCode::to_ascii`. -/
def SendCode.toAscii (m : SendCode) : P AsciiPacket :=
  expectAscii (cmd2 'I' 'C' ++ m.code.toList.flatMap hexByte ++
    (padDec 3 m.user.toNat ++ padDec 2 m.keypad.val.toNat ++ zeros2))

/-- msg.rs:1266-1268 `RtcRequest::to_ascii`. -/
def RtcRequest.toAscii : P AsciiPacket := expectAscii (cmd2 'r' 'r' ++ zeros2)

/-- msg.rs:1280-1287 `RtcResponse::to_ascii`. -/
def RtcResponse.toAscii (r : RtcData) : P AsciiPacket := expectAscii (cmd2 'R' 'R' ++ r.toAscii)

/-- msg.rs:1493-1500 `Heartbeat::to_ascii`. -/
def Heartbeat.toAscii (r : RtcData) : P AsciiPacket := expectAscii (cmd2 'X' 'K' ++ r.toAscii)

/-- msg.rs:1294-1301 `StringDescriptionRequest::from_ascii_data`. -/
def StringDescriptionRequest.fromAsciiData (data : Bytes) : R StringDescriptionRequest := do
  failIf (data.length < 5) (expected 5 data)
  let ty ← ByteEnum.tryFrom (← parseField "type" data 0 2)
  let num ← parseField "num" data 2 5
  .ok { ty, num }

/-- msg.rs:1305-1308 `StringDescriptionRequest::to_ascii`. -/
def StringDescriptionRequest.toAscii (m : StringDescriptionRequest) : P AsciiPacket :=
  expectAscii (cmd2 's' 'd' ++ padDec 2 (ByteEnum.code m.ty).toNat ++ padDec 3 m.num.toNat ++
    zeros2)

/-- msg.rs:1418-1426 `StringDescriptionResponse::from_ascii_data`. -/
def StringDescriptionResponse.fromAsciiData (data : Bytes) : R StringDescriptionResponse := do
  failIf (data.length < 21) (expected 5 data)
  let ty ← ByteEnum.tryFrom (← parseField "type" data 0 2)
  let num ← parseField "num" data 2 5
  let text ← liftP (toArrayN 16 (← liftP (slice data 5 21)) .expect)
  .ok { ty, num, text := ⟨text⟩ }

/-- msg.rs:1427-1435 `StringDescriptionResponse::to_ascii`. -/
def StringDescriptionResponse.toAscii (m : StringDescriptionResponse) : P AsciiPacket := do
  let text ← m.text.asPaddedStr
  expectAscii (cmd2 'S' 'D' ++ padDec 2 (ByteEnum.code m.ty).toNat ++ padDec 3 m.num.toNat ++
    text ++ zeros2)

/-- msg.rs:1454-1460 `ActivateTask::from_ascii_data`, msg.rs:1471-1477
`TaskChange::from_ascii_data` (identical bodies). -/
def taskFromAsciiData (data : Bytes) : R Task := do
  failIf (data.length < 3) (expected 3 data)
  Limited.tryFrom (← parseField "task" data 0 3)

/-- msg.rs:1461-1464 `ActivateTask::to_ascii`. -/
def ActivateTask.toAscii (t : Task) : P AsciiPacket :=
  expectAscii (cmd2 't' 'n' ++ padDec 3 t.val.toNat ++ zeros2)

/-- msg.rs:1478-1481 `TaskChange::to_ascii`. -/
def TaskChange.toAscii (t : Task) : P AsciiPacket :=
  expectAscii (cmd2 'T' 'C' ++ padDec 3 t.val.toNat ++ [b' '0', b' '0', b' '0'])

/-- msg.rs:943-952 `ZoneChange::from_ascii_data`. -/
def ZoneChange.fromAsciiData (data : Bytes) : R ZoneChange := do
  failIf (data.length < 4) (expected 4 data)
  let zone ← Limited.tryFrom (← parseField "zone" data 0 3)
  let status ← ZoneStatus.fromAscii (← liftP (idx data 3))
  .ok { zone, status }

/-- msg.rs:953-956 `ZoneChange::to_ascii`. -/
def ZoneChange.toAscii (m : ZoneChange) : P AsciiPacket :=
  expectAscii (cmd2 'Z' 'C' ++ padDec 3 m.zone.val.toNat ++ upperHex m.status.val ++ zeros2)

/-- msg.rs:966-968 `ZoneStatusRequest::to_ascii`. -/
def ZoneStatusRequest.toAscii : P AsciiPacket := expectAscii (cmd2 'z' 's' ++ zeros2)

/-- msg.rs:979-992 `ZoneStatusReport::from_ascii_data`. -/
def ZoneStatusReport.fromAsciiData (data : Bytes) : R ZoneStatusReport := do
  failIf (data.length < numZones) (expected numZones data)
  let zones ← fillM (fun i => do ZoneStatus.fromAscii (← liftP (idx data i))) 208
  .ok { zones }

/-- msg.rs:993-1001 `ZoneStatusReport::to_ascii`. -/
def ZoneStatusReport.toAscii (m : ZoneStatusReport) : P AsciiPacket :=
  expectAscii (cmd2 'Z' 'S' ++ m.zones.toList.map ZoneStatus.toAscii ++ zeros2)

/-- msg.rs:975-977 `ZoneStatusReport::ALL_UNCONFIGURED`. -/
def ZoneStatusReport.allUnconfigured : ZoneStatusReport := ⟨Vector.replicate 208 .unconfigured⟩

/-- msg.rs:257-258: the codes of an arm request. -/
def armCmds : List Bytes :=
  [cmd2 'a' '0', cmd2 'a' '1', cmd2 'a' '2', cmd2 'a' '3', cmd2 'a' '4', cmd2 'a' '5',
   cmd2 'a' '6', cmd2 'a' '7', cmd2 'a' '8', cmd2 'a' '9', cmd2 'a' ':']

/-- msg.rs:256-280: the `match cmd` of `parse_ascii`. -/
def Message.dispatch (cmd data : Bytes) : R (Option Message) :=
  if cmd ∈ armCmds then do
    let m ← ArmRequest.fromAscii (← liftP (idx cmd 1)) data
    .ok (some (.armRequest m))
  else if cmd = cmd2 'a' 's' then .ok (some .armingStatusRequest)
  else if cmd = cmd2 'A' 'S' then do
    .ok (some (.armingStatusReport (← ArmingStatusReport.fromAsciiData data)))
  else if cmd = cmd2 'E' 'E' then do
    .ok (some (.sendTimeData (← SendTimeData.fromAsciiData data)))
  else if cmd = cmd2 'I' 'C' then do
    .ok (some (.sendCode (← SendCode.fromAsciiData data)))
  else if cmd = cmd2 'r' 'r' then .ok (some .rtcRequest)
  else if cmd = cmd2 'R' 'R' then do
    .ok (some (.rtcResponse (← RtcData.fromAscii data)))
  else if cmd = cmd2 's' 'd' then do
    .ok (some (.stringDescriptionRequest (← StringDescriptionRequest.fromAsciiData data)))
  else if cmd = cmd2 'S' 'D' then do
    .ok (some (.stringDescriptionResponse (← StringDescriptionResponse.fromAsciiData data)))
  else if cmd = cmd2 't' 'n' then do
    .ok (some (.activateTask (← taskFromAsciiData data)))
  else if cmd = cmd2 'T' 'C' then do
    .ok (some (.taskChange (← taskFromAsciiData data)))
  else if cmd = cmd2 'X' 'K' then do
    .ok (some (.heartbeat (← RtcData.fromAscii data)))
  else if cmd = cmd2 'Z' 'C' then do
    .ok (some (.zoneChange (← ZoneChange.fromAsciiData data)))
  else if cmd = cmd2 'z' 's' then .ok (some .zoneStatusRequest)
  else if cmd = cmd2 'Z' 'S' then do
    .ok (some (.zoneStatusReport (← ZoneStatusReport.fromAsciiData data)))
  else .ok none

/-- msg.rs:250-281 `Message::parse_ascii`. -/
def Message.parseAscii (pkt : AsciiPacket) : R (Option Message) :=
  if pkt.body.length < 4 then errR (bs "malformed ASCII message: too short")
  else Message.dispatch (pkt.body.take 2) (pkt.body.drop 2)

/-- msg.rs:242-248 `Message::parse`. -/
def Message.parse (pkt : Packet) : R (Option Message) :=
  match pkt with
  | .ascii msg => Message.parseAscii msg
  | .rp _ => .ok none
  | .invalid _ => .ok none

/-- msg.rs:62-68: the packet of each message type. -/
def Message.toAsciiPkt : Message → P AsciiPacket
  | .armRequest m => m.toAscii
  | .armingStatusRequest => ArmingStatusRequest.toAscii
  | .armingStatusReport m => m.toAscii
  | .sendTimeData m => m.toAscii
  | .sendCode m => m.toAscii
  | .rtcRequest => RtcRequest.toAscii
  | .rtcResponse r => RtcResponse.toAscii r
  | .stringDescriptionRequest m => m.toAscii
  | .stringDescriptionResponse m => m.toAscii
  | .activateTask t => ActivateTask.toAscii t
  | .taskChange t => TaskChange.toAscii t
  | .heartbeat r => Heartbeat.toAscii r
  | .zoneChange m => m.toAscii
  | .zoneStatusRequest => ZoneStatusRequest.toAscii
  | .zoneStatusReport m => m.toAscii

/-- msg.rs:62-68 and 97-103 `Message::to_pkt`. -/
def Message.toPkt (m : Message) : P Packet := do
  let p ← m.toAsciiPkt
  .ok (.ascii p)

/-- msg.rs:71-77 `Message::is_response_to`, dispatching to the methods at msg.rs:848 (EE), 957
(ZC), 969 (zs), 1002 (ZS), 1065 (a), 1077 (as), 1180 (AS), 1245 (IC), 1269 (rr), 1288 (RR), 1302
(sd), 1436 (SD), 1465 (tn), 1482 (TC), 1501 (XK). -/
def Message.isResponseTo (m request : Message) : Bool :=
  match m with
  | .armRequest _ => false
  | .armingStatusRequest => false
  | .armingStatusReport _ =>
    match request with
    | .armingStatusRequest => true
    | _ => false
  | .sendTimeData _ => false
  | .sendCode _ =>
    match request with
    | .armRequest _ => true
    | _ => false
  | .rtcRequest => false
  | .rtcResponse _ =>
    match request with
    | .rtcRequest => true
    | _ => false
  | .stringDescriptionRequest _ => false
  | .stringDescriptionResponse r =>
    match request with
    | .stringDescriptionRequest q =>
      decide (r.ty = q.ty) && (decide (r.num ≥ q.num) || decide (r.num = 0))
    | _ => false
  | .activateTask _ => false
  | .taskChange t =>
    match request with
    | .activateTask u => decide (u = t)
    | _ => false
  | .heartbeat _ => false
  | .zoneChange _ => false
  | .zoneStatusRequest => false
  | .zoneStatusReport _ =>
    match request with
    | .zoneStatusRequest => true
    | _ => false

/-! ## Deserialisation (feature `serde`)

`#[serde(transparent)]` on a newtype generates a `Deserialize` that deserialises the inner value
and wraps it without further checks. -/

/-- msg.rs:515-516 derived `Deserialize` of a limited number from an integer below 256. -/
def Limited.deserialize (max : Nat) (v : UInt8) : Limited max := ⟨v⟩
/-- msg.rs:854-855 derived `Deserialize` of `ZoneStatus`. -/
def ZoneStatus.deserialize (v : UInt8) : ZoneStatus := ⟨v⟩
/-- msg.rs:401-402 derived `Deserialize` of `ArmCode` from a sequence of six integers. -/
def ArmCode.deserialize (v : Vector UInt8 6) : ArmCode := ⟨v⟩
/-- msg.rs:1313-1314 derived `Deserialize` of `TextDescription` from sixteen integers. -/
def TextDescription.deserialize (v : Vector UInt8 16) : TextDescription := ⟨v⟩
/-- pkt.rs:202-203 derived `Deserialize` of `AsciiPacket` from a string (given by its bytes). -/
def AsciiPacket.deserialize (s : Bytes) : AsciiPacket := ⟨s⟩
/-- msg.rs:677-690 `Deserialize` of `DateTime` (hand-written, checked). -/
def DateTime.deserialize (s : Bytes) : R DateTime := DateTime.fromIso8601 s
/-- msg.rs:1007-1015 `Serialize for ZoneStatusReport`. -/
def ZoneStatusReport.serialize (_ : ZoneStatusReport) : P Unit := .error .todo

end Elk
