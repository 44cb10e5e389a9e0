import Verif.Spec.Msg
import Verif.Spec.JsonText
/-!
# Specification of the JSON form of messages and events

`spell text`: the JSON form of the message with this text (`msgText`), read off the characters on the
wire with tables of names in the order of Elk's codes.  `eventDoc`: that of an event.  Nothing here uses
the serialisation of the model.
-/

namespace Elk.Spec

/-- The part of some bytes. -/
def cut (i n : Nat) (d : Bytes) : Bytes := (d.drop i).take n

/-- A name by its number. -/
def nameAt (t : List String) (n : Nat) : Option Json := (t[n]?).map fun s => .str (bs s)

/-- A name by its character, of which the first in the table has `0`. -/
def nameOf (t : List String) (b : UInt8) : Option Json :=
  if 48 ≤ b.toNat then nameAt t (b.toNat - 48) else none

/-- The names of the modes in requests to arm and to disarm, from `a0` on. -/
def levelNames : List String :=
  ["disarm", "armedAway", "armedStay", "armedStayInstant", "armedNight", "armedNightInstant",
   "armedVacation", "armToNextAwayMode", "armToNextStayMode", "forceArmToAway", "forceArmToStay"]

/-- The names of the modes of an area. -/
def modeNames : List String :=
  ["disarmed", "armedAway", "armedStay", "armedStayInstant", "armedNight", "armedNightInstant",
   "armedVacation"]

/-- The names of the states of arming. -/
def upNames : List String :=
  ["notReadyToArm", "readyToArm", "readyToForceArm", "armedWithExitTimer", "armedFully",
   "forceArmedWithForceArmZoneViolated", "armedWithBypass"]

/-- The names of the states of alarm. -/
def alarmNames : List String :=
  ["noAlarmActive", "entranceDelayActive", "alarmAbortDelayActive", "fireAlarm", "medicalAlarm",
   "policeAlarm", "burglarAlarm", "aux1Alarm", "aux2Alarm", "aux3Alarm", "aux4Alarm",
   "carbonMonoxideAlarm", "emergencyAlarm", "freezeAlarm", "gasAlarm", "heatAlarm", "waterAlarm",
   "fireSupervisory", "verifyFire"]

/-- The names of the days, from Sunday on. -/
def dayNames : List String := ["sun", "mon", "tue", "wed", "thu", "fri", "sat"]

/-- The names of what is described. -/
def textNames : List String :=
  ["zone", "area", "user", "keypad", "output", "task", "telephone", "light", "alarmDuration",
   "customSettings", "counter", "thermostat", "functionKey1", "functionKey2", "functionKey3",
   "functionKey4", "functionKey5", "functionKey6", "audioZone", "audioSource"]

/-- An object. -/
def record (l : List (String × Json)) : Json := .obj (l.map fun p => (bs p.1, p.2))

/-- The object of a message: its name and its contents. -/
def titled (k : String) (l : List (String × Json)) : Json := record [(k, record l)]

/-- A decimal number. -/
def decimal (d : Bytes) : Json := .num (digitsValue d)

/-- Bytes, as an array of numbers. -/
def octets (d : Bytes) : Json := .arr (d.map fun b => .num b.toNat)

/-- Two hexadecimal digits. -/
def hexPair : Bytes → Option Json
  | [h, l] => do
    let h ← hexValue h
    let l ← hexValue l
    some (.num (16 * h + l))
  | _ => none

/-- Whether a flag is set. -/
def flag (b : UInt8) : Json := .bool (b == b' '1')

/-- `2022-12-23T13:07:12`. -/
def dateOf (second minute hour day month year : Bytes) : Json :=
  .str (bs "20" ++ year ++ bs "-" ++ month ++ bs "-" ++ day ++ bs "T" ++ hour ++ bs ":" ++ minute
    ++ bs ":" ++ second)

/-- The time: `ssmmhhDddMMyyTCF`. -/
def clockDoc (d : Bytes) : Option Json := do
  let weekday ← nameOf dayNames ((← d[6]?) - 1)
  let clock ← nameOf ["twentyFourHour", "twelveHour"] (← d[14]?)
  let date ← nameOf ["monthFirst", "dayFirst"] (← d[15]?)
  some (record [("datetime", dateOf (cut 0 2 d) (cut 2 2 d) (cut 4 2 d) (cut 7 2 d) (cut 9 2 d) (cut 11 2 d)),
    ("weekday", weekday), ("dst", flag (← d[13]?)), ("clock_display", clock), ("date_display", date)])

/-- A request to arm: the area and the code. -/
def armDoc (level : UInt8) (d : Bytes) : Option Json := do
  let level ← nameOf levelNames level
  some (titled "armRequest" [("area", decimal (cut 0 1 d)), ("level", level), ("code", octets (cut 1 6 d))])

/-- A report of arming: eight modes, eight states of arming, eight of alarm, and a time. -/
def statusDoc (d : Bytes) : Option (List (String × Json)) := do
  let modes ← (cut 0 8 d).mapM (nameOf modeNames)
  let ups ← (cut 8 8 d).mapM (nameOf upNames)
  let alarms ← (cut 16 8 d).mapM (nameOf alarmNames)
  let time ← hexPair (cut 24 2 d)
  some [("armingStatus", .arr modes), ("upState", .arr ups), ("alarmState", .arr alarms),
    ("firstExitTime", time)]

/-- Times of entry and exit. -/
def timesDoc (d : Bytes) : Option Json := do
  let ty ← nameOf ["exit", "entry"] (← d[1]?)
  let mode ← match d[8]? with
    | none => some .null
    | some b => nameOf modeNames b
  some (titled "sendTimeData" [("area", decimal (cut 0 1 d)), ("ty", ty), ("timer1", decimal (cut 2 3 d)),
    ("timer2", decimal (cut 5 3 d)), ("armedState", mode)])

/-- A code entered at a keypad. -/
def codeDoc (d : Bytes) : Option Json := do
  let code ← [0, 2, 4, 6, 8, 10].mapM fun i => hexPair (cut i 2 d)
  some (titled "sendCode" [("code", .arr code), ("user", decimal (cut 12 3 d)),
    ("keypad", decimal (cut 15 2 d))])

/-- A description, or a request for one. -/
def textDoc (d : Bytes) : Option (List (String × Json)) := do
  let ty ← nameAt textNames (digitsValue (cut 0 2 d))
  some [("ty", ty), ("num", decimal (cut 2 3 d))]

/-- A change of a zone. -/
def zoneChangeDoc (d : Bytes) : Option Json := do
  let status ← hexValue (← d[3]?)
  some (titled "zoneChange" [("zone", decimal (cut 0 3 d)), ("status", .num status)])

/-- The JSON form of the message with this text; there is none for a report on all zones. -/
def spell : Bytes → Option Json
  | c :: c' :: d =>
    if [c, c'] = bs "as" then some (titled "armingStatusRequest" [])
    else if c = b' 'a' then armDoc c' d
    else if [c, c'] = bs "AS" then (statusDoc d).map (titled "armingStatusReport")
    else if [c, c'] = bs "EE" then timesDoc d
    else if [c, c'] = bs "IC" then codeDoc d
    else if [c, c'] = bs "rr" then some (titled "rtcRequest" [])
    else if [c, c'] = bs "RR" then (clockDoc d).map fun j => titled "rtcResponse" [("rtcData", j)]
    else if [c, c'] = bs "sd" then (textDoc d).map (titled "stringDescriptionRequest")
    else if [c, c'] = bs "SD" then
      (textDoc d).map fun l => titled "stringDescriptionResponse" (l ++ [("text", octets (cut 5 16 d))])
    else if [c, c'] = bs "tn" then some (titled "activateTask" [("task", decimal d)])
    else if [c, c'] = bs "TC" then some (titled "taskChange" [("task", decimal d)])
    else if [c, c'] = bs "XK" then (clockDoc d).map fun j => titled "heartbeat" [("rtcData", j)]
    else if [c, c'] = bs "ZC" then zoneChangeDoc d
    else if [c, c'] = bs "zs" then some (titled "zoneStatusRequest" [])
    else none
  | _ => none

/-- The JSON form of a packet. -/
def packetDoc : Packet → Json
  | .ascii p => record [("ascii", .str p.body)]
  | .rp p => record [("rp", octets p.body)]
  | .invalid p => titled "invalid" [("reason", .str p.reason), ("raw", octets p.raw)]

/-- The JSON form of what a packet means. -/
def meaningDoc : Except Bytes Message → Option Json
  | .ok m => (spell (msgText m)).map fun j => record [("Ok", j)]
  | .error e => some (record [("Err", .str e)])

/-- The JSON form of a change: what was there before. -/
def changeDoc : Change → Option Json
  | .zoneChange zone prior =>
    some (titled "zoneChange" [("zone", .num zone.val.toNat), ("prior", .num prior.val.toNat)])
  | .armingStatus prior => do
    let l ← statusDoc (msgData (.armingStatusReport prior))
    some (titled "armingStatus" [("prior", record l)])

/-- What need not be there. -/
def orNull {α : Type} (f : α → Option Json) : Option α → Option Json
  | none => some .null
  | some a => f a

/-- The JSON form of an event; there is none if a report on all zones is part of it. -/
def eventDoc (ev : Event) : Option Json := do
  let pkt ← orNull (fun p => some (packetDoc p)) ev.pkt
  let msg ← orNull meaningDoc ev.msg
  let completes ← orNull (fun m => spell (msgText m)) ev.completes
  let change ← orNull changeDoc ev.change
  some (record [("pkt", pkt), ("msg", msg), ("completes", completes), ("change", change)])

/-! ## Its text -/

/-- The short escapes of RFC 8259. -/
def escapes : List (UInt8 × Char) :=
  [(0x22, '"'), (0x5c, '\\'), (0x08, 'b'), (0x09, 't'), (0x0a, 'n'), (0x0c, 'f'), (0x0d, 'r')]

/-- A character of a string: as it is, unless it has to be escaped; then with a short escape if there
is one. -/
def quotedByte (b : UInt8) : Bytes :=
  match escapes.lookup b with
  | some c => [b' '\\', b' c]
  | none => if b.toNat < 32 then bs "\\u00" ++ [dig (b.toNat / 16), (bs "0123456789abcdef").getD (b.toNat % 16) 0] else [b]

/-- A string. -/
def inQuotes (s : Bytes) : Bytes := bs "\"" ++ s.flatMap quotedByte ++ bs "\""

/-- A comma after every line group but the last. -/
def commas : List (List Bytes) → List Bytes
  | [] => []
  | [l] => l
  | l :: l' :: r => l.dropLast ++ [l.getLast?.getD [] ++ bs ","] ++ commas (l' :: r)

/-- Lines further to the right. -/
def shift (l : List Bytes) : List Bytes := l.map fun x => bs "  " ++ x

/-- A text before the first line. -/
def lead (t : Bytes) : List Bytes → List Bytes
  | [] => []
  | x :: l => (t ++ x) :: l

mutual
/-- The lines of a JSON value: scalars and what is empty on one line; anything else with its parts two
characters to the right, between brackets. -/
def rows : Json → List Bytes
  | .null => [bs "null"]
  | .bool b => [if b then bs "true" else bs "false"]
  | .num n => [decStr n]
  | .str s => [inQuotes s]
  | .arr [] => [bs "[]"]
  | .arr (x :: l) => [bs "["] ++ shift (commas (rowsAll (x :: l))) ++ [bs "]"]
  | .obj [] => [bs "{}"]
  | .obj (x :: l) => [bs "{"] ++ shift (commas (rowsFields (x :: l))) ++ [bs "}"]
/-- Those of each of several values. -/
def rowsAll : List Json → List (List Bytes)
  | [] => []
  | x :: l => rows x :: rowsAll l
/-- Those of each of several fields. -/
def rowsFields : List (Bytes × Json) → List (List Bytes)
  | [] => []
  | (k, x) :: l => lead (inQuotes k ++ bs ": ") (rows x) :: rowsFields l
end

/-- Lines, as one text. -/
def joined : List Bytes → Bytes
  | [] => []
  | [l] => l
  | l :: l' :: r => l ++ bs "\n" ++ joined (l' :: r)

/-- The text of a JSON value. -/
def textOfJson (j : Json) : Bytes := joined (rows j)

end Elk.Spec
