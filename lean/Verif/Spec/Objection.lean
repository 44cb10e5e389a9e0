import Verif.Spec.Complaint
/-!
# Specification of which fault a parse error names

The data of a packet is checked field by field, in the order written down here; the error is about
the first field that is wrong.  `Objects body text`: that is what is said of a packet with this text.
-/

namespace Elk.Spec

/-- A check of the data of a packet. -/
inductive Check
  /-- there are at least so many bytes; the text, given the number of bytes there are -/
  | least (n : Nat) (text : Nat → Bytes)
  /-- the field is a number up to 255 -/
  | number (name : String) (i n : Nat)
  /-- the field, a number, is between these; the text, given the number -/
  | range (i n lo hi : Nat) (text : Nat → Bytes)
  /-- the byte is one of these; the text, given the byte -/
  | byte (i : Nat) (fine : UInt8 → Prop) (text : UInt8 → Bytes)
  /-- all bytes of the field are of this kind -/
  | bytes (i n : Nat) (fine : UInt8 → Prop) (text : Bytes)
  /-- a byte that is only looked at if there are at least so many bytes -/
  | beyond (n i : Nat) (fine : UInt8 → Prop) (text : UInt8 → Bytes)

/-- The check fails, with this text. -/
def Fails (data : Bytes) : Check → Bytes → Prop
  | .least n text, t => data.length < n ∧ t = text data.length
  | .number name i n, t => (∀ v, v ≤ 255 → ¬ Reads (fieldAt data i n) v) ∧
      t = bs name ++ bs " expected to be decimal in [0, 255); got " ++ listed (fieldAt data i n)
  | .range i n lo hi text, t => ∃ v, Reads (fieldAt data i n) v ∧ ¬ (lo ≤ v ∧ v ≤ hi) ∧ t = text v
  | .byte i fine text, t => ∃ b, data[i]? = some b ∧ ¬ fine b ∧ t = text b
  | .bytes i n fine text, t => (∃ b ∈ fieldAt data i n, ¬ fine b) ∧ t = text
  | .beyond n i fine text, t => n ≤ data.length ∧ ∃ b, data[i]? = some b ∧ ¬ fine b ∧ t = text b

/-- The first of these checks that fails has this text; or none fails. -/
inductive First (data : Bytes) : List Check → Option Bytes → Prop
  | none : First data [] none
  | here {c cs t} : Fails data c t → First data (c :: cs) (some t)
  | later {c cs r} : (∀ t, ¬ Fails data c t) → First data cs r → First data (c :: cs) r

/-- There are at least so many bytes, it says. -/
def few (n : Nat) : Check :=
  .least n fun k => bs "expected at least " ++ num n ++ bs " bytes, got " ++ num k

/-- A number between 1 and a maximum. -/
def upTo (i n max : Nat) : Check :=
  .range i n 1 max fun v => num v ++ bs " not in expected t range of [1, " ++ num max ++ bs "]"

/-- A number of a time. -/
def timeOf (name : String) (i lo hi : Nat) : List Check :=
  [.number name i 2, .range i 2 lo hi fun _ => bs name ++ bs " out of range"]

/-- A letter that stands for something. -/
def letter (name : String) (i : Nat) (letters : String) : Check :=
  .byte i (· ∈ bs letters) fun b => bs "bad " ++ bs name ++ bs " " ++ quoted b

/-- The state of a zone. -/
def zoneState (i : Nat) : Check := .byte i IsHex fun b => bs "bad zone status " ++ quoted b

/-- The number of a text and what it is of. -/
def textOf : List Check :=
  [.number "type" 0 2, .range 0 2 0 19 fun v => bs "bad TextDescriptionType " ++ num v,
   .number "num" 2 3]

/-- The checks of a time. -/
def clockChecks : List Check :=
  [.least 16 fun _ => bs "RTC data must be at least 16 bytes", .number "year" 11 2] ++
  timeOf "month" 9 1 12 ++ timeOf "day" 7 1 31 ++ timeOf "hour" 4 0 23 ++ timeOf "minute" 2 0 59 ++
  timeOf "second" 0 0 59 ++
  [letter "Weekday" 6 "1234567", .byte 13 (· ∈ bs "01") fun _ => bs "bad dst flag",
   letter "ClockDisplayMode" 14 "01", letter "DateDisplayMode" 15 "01"]

/-- The checks of the data that goes with a command. -/
inductive Checks : Bytes → List Check → Prop
  | arm (l) : Checks (armCmd l)
      [.least 9 fun k => bs "Expected ArmRequest to have at least 9 bytes of data, got " ++ num k,
       .number "area" 0 1, upTo 0 1 8, .bytes 1 6 IsDigit (bs "ArmCode must be numeric")]
  | report : Checks (bs "AS") ([.least 26 fun _ => bs "expected at least 26 data"] ++
      (List.range 8).flatMap (fun i => [letter "ArmingStatus" i "0123456",
        letter "ArmUpState" (8 + i) "0123456", letter "AlarmState" (16 + i) "0123456789:;<=>?@AB"]) ++
      [.bytes 24 2 IsHex (bs "bad first_exit_time")])
  /-- the number of the area that is named is the code of the character -/
  | timer : Checks (bs "EE")
      [few 10, .byte 0 (· ∈ bs "12345678") (fun b => bs "expected area in [1, 8], got " ++ num b.toNat),
       letter "TimeDataType" 1 "01", .number "timer1" 2 3, .number "timer2" 5 3,
       .beyond 11 8 (· ∈ bs "0123456") fun b => bs "bad ArmedState " ++ quoted b]
  | code : Checks (bs "IC")
      [few 19, .bytes 0 12 IsHex (bs "invalid hex code"), .number "user" 12 3,
       .number "keypad" 15 2, upTo 15 2 16]
  | clock : Checks (bs "RR") clockChecks
  | heartbeat : Checks (bs "XK") clockChecks
  | ask : Checks (bs "sd") ([few 5] ++ textOf)
  /-- 21 bytes are needed, but the text says 5 -/
  | text : Checks (bs "SD")
      ([.least 21 fun k => bs "expected at least 5 bytes, got " ++ num k] ++ textOf)
  | activate : Checks (bs "tn") [few 3, .number "task" 0 3, upTo 0 3 32]
  | task : Checks (bs "TC") [few 3, .number "task" 0 3, upTo 0 3 32]
  | zone : Checks (bs "ZC") [few 4, .number "zone" 0 3, upTo 0 3 208, zoneState 3]
  | zones : Checks (bs "ZS") ([few 208] ++ (List.range 208).map zoneState)

/-- What is said of a packet with this text. -/
inductive Objects (body : Bytes) : Bytes → Prop
  | short : body.length < 4 → Objects body (bs "malformed ASCII message: too short")
  | wrong {cs t} : 4 ≤ body.length → Checks (body.take 2) cs → First (body.drop 2) cs (some t) →
      Objects body t

end Elk.Spec
