import Verif.Model.Msg
import Verif.Spec.Wire
/-!
# Specification of the messages

The text of each message is written out from the documentation (the doc comments and examples in
msg.rs and the Elk M1 ASCII protocol they refer to), with plain arithmetic on `Nat`.  From the
model it uses the message types only.
-/

namespace Elk.Spec

/-! ## Well-formed values -/

/-- A limited number is in its documented range `[1, max]`. -/
def InRange {max : Nat} (x : Limited max) : Prop := 1 ≤ x.val.toNat ∧ x.val.toNat ≤ max

/-- An ASCII decimal digit. -/
def IsDigit (b : UInt8) : Prop := 48 ≤ b.toNat ∧ b.toNat ≤ 57

/-- Six ASCII digits. -/
def WfArmCode (c : ArmCode) : Prop := ∀ b ∈ c.code.toList, IsDigit b

/-- A decoded hex nibble. -/
def WfZoneStatus (s : ZoneStatus) : Prop := s.val.toNat < 16

/-- The field ranges of Elk's specification (msg.rs:572-575). -/
def WfDateTime (d : DateTime) : Prop :=
  d.year.toNat < 100 ∧ (1 ≤ d.month.toNat ∧ d.month.toNat ≤ 12) ∧
  (1 ≤ d.day.toNat ∧ d.day.toNat ≤ 31) ∧ d.hour.toNat < 24 ∧ d.minute.toNat < 60 ∧
  d.second.toNat < 60

/-- Sixteen printable characters. -/
def WfText (t : TextDescription) : Prop := ∀ b ∈ t.text.toList, Printable b

/-- All fields are in their documented ranges.  (Every value of the field types not mentioned is
fine.) -/
def WfMessage : Message → Prop
  | .armRequest m => InRange m.area ∧ WfArmCode m.code
  | .armingStatusRequest => True
  | .armingStatusReport _ => True
  | .sendTimeData m => InRange m.area
  | .sendCode m => InRange m.keypad
  | .rtcRequest => True
  | .rtcResponse r => WfDateTime r.datetime
  | .stringDescriptionRequest _ => True
  | .stringDescriptionResponse m => WfText m.text
  | .activateTask t => InRange t
  | .taskChange t => InRange t
  | .heartbeat r => WfDateTime r.datetime
  | .zoneChange m => InRange m.zone ∧ WfZoneStatus m.status
  | .zoneStatusRequest => True
  | .zoneStatusReport m => ∀ z ∈ m.zones.toList, WfZoneStatus z

/-! ## Text of messages -/

/-- ASCII digit of a number below 10. -/
def dig (n : Nat) : UInt8 := UInt8.ofNat (48 + n)
/-- Two decimal digits. -/
def dec2 (n : UInt8) : Bytes := [dig (n.toNat / 10), dig (n.toNat % 10)]
/-- Three decimal digits. -/
def dec3 (n : UInt8) : Bytes := [dig (n.toNat / 100), dig (n.toNat / 10 % 10), dig (n.toNat % 10)]

/-- `L` of an arm request. -/
def armLevelChar : ArmLevel → Char
  | .disarm => '0' | .armedAway => '1' | .armedStay => '2' | .armedStayInstant => '3'
  | .armedNight => '4' | .armedNightInstant => '5' | .armedVacation => '6'
  | .armToNextAwayMode => '7' | .armToNextStayMode => '8' | .forceArmToAway => '9'
  | .forceArmToStay => ':'

/-- `S` of an arming status report. -/
def armingStatusChar : ArmingStatus → Char
  | .disarmed => '0' | .armedAway => '1' | .armedStay => '2' | .armedStayInstant => '3'
  | .armedNight => '4' | .armedNightInstant => '5' | .armedVacation => '6'

/-- `U` of an arming status report. -/
def armUpChar : ArmUpState → Char
  | .notReadyToArm => '0' | .readyToArm => '1' | .readyToForceArm => '2'
  | .armedWithExitTimer => '3' | .armedFully => '4'
  | .forceArmedWithForceArmZoneViolated => '5' | .armedWithBypass => '6'

/-- `A` of an arming status report. -/
def alarmChar : AlarmState → Char
  | .noAlarmActive => '0' | .entranceDelayActive => '1' | .alarmAbortDelayActive => '2'
  | .fireAlarm => '3' | .medicalAlarm => '4' | .policeAlarm => '5' | .burglarAlarm => '6'
  | .aux1Alarm => '7' | .aux2Alarm => '8' | .aux3Alarm => '9' | .aux4Alarm => ':'
  | .carbonMonoxideAlarm => ';' | .emergencyAlarm => '<' | .freezeAlarm => '='
  | .gasAlarm => '>' | .heatAlarm => '?' | .waterAlarm => '@' | .fireSupervisory => 'A'
  | .verifyFire => 'B'

/-- Type of an entry/exit time message. -/
def timeTypeChar : TimeDataType → Char
  | .exit => '0' | .entry => '1'

/-- Armed state of an entry/exit time message. -/
def armedStateChar : ArmedState → Char
  | .disarmed => '0' | .armedAway => '1' | .armedStay => '2' | .armedStayInstant => '3'
  | .armedNight => '4' | .armedNightInstant => '5' | .armedVacation => '6'

/-- Day of the week, Sunday first. -/
def weekdayChar : Weekday → Char
  | .sun => '1' | .mon => '2' | .tue => '3' | .wed => '4' | .thu => '5' | .fri => '6' | .sat => '7'

/-- Clock display mode. -/
def clockChar : ClockDisplayMode → Char
  | .twentyFourHour => '0' | .twelveHour => '1'

/-- Date display mode. -/
def dateChar : DateDisplayMode → Char
  | .monthFirst => '0' | .dayFirst => '1'

/-- Number of a text description type. -/
def textTypeNum : TextDescriptionType → UInt8
  | .zone => 0 | .area => 1 | .user => 2 | .keypad => 3 | .output => 4 | .task => 5
  | .telephone => 6 | .light => 7 | .alarmDuration => 8 | .customSettings => 9 | .counter => 10
  | .thermostat => 11 | .functionKey1 => 12 | .functionKey2 => 13 | .functionKey3 => 14
  | .functionKey4 => 15 | .functionKey5 => 16 | .functionKey6 => 17 | .audioZone => 18
  | .audioSource => 19

/-- Real time clock data `ssmmhhDddMMyyTCF`. -/
def rtcText (r : RtcData) : Bytes :=
  dec2 r.datetime.second ++ dec2 r.datetime.minute ++ dec2 r.datetime.hour ++
  [b' (weekdayChar r.weekday)] ++ dec2 r.datetime.day ++ dec2 r.datetime.month ++
  dec2 r.datetime.year ++ [if r.dst then b' '1' else b' '0'] ++ [b' (clockChar r.clockDisplay)] ++
  [b' (dateChar r.dateDisplay)]

/-- The two-character command code of a message. -/
def msgCode : Message → Char × Char
  | .armRequest m => ('a', armLevelChar m.level)
  | .armingStatusRequest => ('a', 's')
  | .armingStatusReport _ => ('A', 'S')
  | .sendTimeData _ => ('E', 'E')
  | .sendCode _ => ('I', 'C')
  | .rtcRequest => ('r', 'r')
  | .rtcResponse _ => ('R', 'R')
  | .stringDescriptionRequest _ => ('s', 'd')
  | .stringDescriptionResponse _ => ('S', 'D')
  | .activateTask _ => ('t', 'n')
  | .taskChange _ => ('T', 'C')
  | .heartbeat _ => ('X', 'K')
  | .zoneChange _ => ('Z', 'C')
  | .zoneStatusRequest => ('z', 's')
  | .zoneStatusReport _ => ('Z', 'S')

/-- The supported command codes. -/
def supportedCodes : List (Char × Char) :=
  [('a', '0'), ('a', '1'), ('a', '2'), ('a', '3'), ('a', '4'), ('a', '5'), ('a', '6'), ('a', '7'),
   ('a', '8'), ('a', '9'), ('a', ':'), ('a', 's'), ('A', 'S'), ('E', 'E'), ('I', 'C'), ('r', 'r'),
   ('R', 'R'), ('s', 'd'), ('S', 'D'), ('t', 'n'), ('T', 'C'), ('X', 'K'), ('Z', 'C'), ('z', 's'),
   ('Z', 'S')]

/-- The data fields of a message, in order. -/
def msgData : Message → Bytes
  | .armRequest m => [dig m.area.val.toNat] ++ m.code.code.toList
  | .armingStatusRequest => []
  | .armingStatusReport m =>
    m.armingStatus.toList.map (fun s => b' (armingStatusChar s)) ++
    m.upState.toList.map (fun s => b' (armUpChar s)) ++
    m.alarmState.toList.map (fun s => b' (alarmChar s)) ++ hex2 m.firstExitTime.toNat
  | .sendTimeData m =>
    [dig m.area.val.toNat, b' (timeTypeChar m.ty)] ++ dec3 m.timer1 ++ dec3 m.timer2 ++
    (m.armedState.toList.map fun s => b' (armedStateChar s))
  | .sendCode m =>
    m.code.toList.flatMap (fun b => hex2 b.toNat) ++ dec3 m.user ++ dec2 m.keypad.val
  | .rtcRequest => []
  | .rtcResponse r => rtcText r
  | .stringDescriptionRequest m => dec2 (textTypeNum m.ty) ++ dec3 m.num
  | .stringDescriptionResponse m => dec2 (textTypeNum m.ty) ++ dec3 m.num ++ m.text.text.toList
  | .activateTask t => dec3 t.val
  | .taskChange t => dec3 t.val
  | .heartbeat r => rtcText r
  | .zoneChange m => dec3 m.zone.val ++ [hexDigit m.status.val.toNat]
  | .zoneStatusRequest => []
  | .zoneStatusReport m => m.zones.toList.map fun z => hexDigit z.val.toNat

/-- Command code and data fields: the text of a message without its reserved bytes. -/
def msgText (m : Message) : Bytes := [b' (msgCode m).1, b' (msgCode m).2] ++ msgData m

/-- The number of reserved characters (all `0`) this library sends at the end. -/
def reservedLen : Message → Nat
  | .armingStatusReport _ | .rtcResponse _ | .heartbeat _ => 0
  | .taskChange _ => 3
  | _ => 2

/-- The full text this library sends. -/
def sentText (m : Message) : Bytes := msgText m ++ List.replicate (reservedLen m) (b' '0')

/-- The lengths of the reserved tail with which a message must be accepted. -/
def TailOk (m : Message) (tail : Bytes) : Prop :=
  match m with
  | .armRequest _ | .sendCode _ | .armingStatusRequest | .rtcRequest | .zoneStatusRequest =>
    2 ≤ tail.length
  | .sendTimeData m => if m.armedState.isSome then 2 ≤ tail.length else tail.length = 2
  | _ => True

/-- `x` is `c` except that some `0`s may be written as `+`. -/
inductive PlusEq : Bytes → Bytes → Prop
  | nil : PlusEq [] []
  | same (b) {x c} : PlusEq x c → PlusEq (b :: x) (b :: c)
  | plus {x c} : PlusEq x c → PlusEq (b' '+' :: x) (b' '0' :: c)

/-- A number below 100 in two characters: digits, of which the first may be `+` for `0`. -/
def Two (n : UInt8) (x : Bytes) : Prop :=
  n.toNat < 100 ∧ (x = dec2 n ∨ (n.toNat < 10 ∧ x = [b' '+', dig n.toNat]))

/-- A number in three characters: digits, of which the first may be `+` for `0`. -/
def Three (n : UInt8) (x : Bytes) : Prop :=
  x = dec3 n ∨ (n.toNat < 100 ∧ x = b' '+' :: dec2 n)

/-- Real time clock data as it is understood. -/
def ClockWritten (r : RtcData) (x : Bytes) : Prop :=
  ∃ s mi h d mo y, Two r.datetime.second s ∧ Two r.datetime.minute mi ∧ Two r.datetime.hour h ∧
    Two r.datetime.day d ∧ Two r.datetime.month mo ∧ Two r.datetime.year y ∧
    x = s ++ mi ++ h ++ [b' (weekdayChar r.weekday)] ++ d ++ mo ++ y ++
      [if r.dst then b' '1' else b' '0'] ++ [b' (clockChar r.clockDisplay)] ++
      [b' (dateChar r.dateDisplay)]

/-- The data fields of a message as they are understood: numbers may begin with `+` instead of
`0`. -/
def Written : Message → Bytes → Prop
  | .sendTimeData m, x => ∃ t1 t2, Three m.timer1 t1 ∧ Three m.timer2 t2 ∧
      x = [dig m.area.val.toNat, b' (timeTypeChar m.ty)] ++ t1 ++ t2 ++
        (m.armedState.toList.map fun s => b' (armedStateChar s))
  | .sendCode m, x => ∃ u k, Three m.user u ∧ Two m.keypad.val k ∧
      x = m.code.toList.flatMap (fun b => hex2 b.toNat) ++ u ++ k
  | .rtcResponse r, x => ClockWritten r x
  | .heartbeat r, x => ClockWritten r x
  | .stringDescriptionRequest m, x => ∃ t n, Two (textTypeNum m.ty) t ∧ Three m.num n ∧ x = t ++ n
  | .stringDescriptionResponse m, x => ∃ t n, Two (textTypeNum m.ty) t ∧ Three m.num n ∧
      x = t ++ n ++ m.text.text.toList
  | .activateTask t, x => Three t.val x
  | .taskChange t, x => Three t.val x
  | .zoneChange m, x => ∃ z, Three m.zone.val z ∧ x = z ++ [hexDigit m.status.val.toNat]
  | m, x => x = msgData m

/-- The text of a packet says a message: its code, its data, and a tail that does not matter. -/
def Says (body : Bytes) (m : Message) : Prop :=
  WfMessage m ∧ ∃ x y, body = [b' (msgCode m).1, b' (msgCode m).2] ++ x ++ y ∧ Written m x ∧ TailOk m y

/-! ## Requests and replies -/

/-- `Responds r q`: message `r` may be a reply to request `q`. -/
inductive Responds : Message → Message → Prop
  | arming (r) : Responds (.armingStatusReport r) .armingStatusRequest
  | zones (r) : Responds (.zoneStatusReport r) .zoneStatusRequest
  | rtc (r) : Responds (.rtcResponse r) .rtcRequest
  | code (r q) : Responds (.sendCode r) (.armRequest q)
  | task (t) : Responds (.taskChange t) (.activateTask t)
  /-- a description of the same type, of the requested or a later entry -/
  | text (r q) : r.ty = q.ty → q.num.toNat ≤ r.num.toNat →
      Responds (.stringDescriptionResponse r) (.stringDescriptionRequest q)
  /-- number 0: there is no further entry -/
  | noText (r q) : r.ty = q.ty → r.num.toNat = 0 →
      Responds (.stringDescriptionResponse r) (.stringDescriptionRequest q)

/-! ## Alarms and arming -/

/-- The states that denote an alarm (all but the first three of Elk's table). -/
def IsAlarm : AlarmState → Prop
  | .noAlarmActive | .entranceDelayActive | .alarmAbortDelayActive => False
  | _ => True

/-- Arming modes with an entry delay. -/
def HasEntryDelay (s : ArmingStatus) : Prop :=
  s = .armedAway ∨ s = .armedStay ∨ s = .armedNight ∨ s = .armedVacation

/-- Some area goes from disarmed straight to fully armed in a mode with entry delay. -/
def Suspicious (f t : ArmingStatusReport) : Prop :=
  ∃ i : Fin 8, f.armingStatus[i] = .disarmed ∧ HasEntryDelay t.armingStatus[i] ∧
    t.upState[i] = .armedFully

/-- The number denoted by a sequence of ASCII digits. -/
def digitsValue (l : Bytes) : Nat := l.foldl (fun n b => 10 * n + (b.toNat - 48)) 0

/-- The text without trailing spaces. -/
def TrimmedOf (s t : Bytes) : Prop :=
  (∃ k, t = s ++ List.replicate k 0x20) ∧ s.getLast? ≠ some 0x20

end Elk.Spec
