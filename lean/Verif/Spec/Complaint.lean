import Verif.Spec.Msg
/-!
# Specification of what a parse error says

`Complains cmd data text`: `text` describes a fault that a packet with command code `cmd` and data
`data` really has.  The texts and positions are written out; from the model only the types of the
messages are used.
-/

namespace Elk.Spec

/-- A number, in decimal. -/
def num (n : Nat) : Bytes := bs (toString n)

/-- Bytes as a list of numbers, such as `[49, 50]`. -/
def listed (l : Bytes) : Bytes := bs (toString (l.map UInt8.toNat))

/-- A printable character between quotes. -/
def quoted (b : UInt8) : Bytes :=
  if b = b' '\'' ∨ b = b' '\\' then [b' '\'', b' '\\', b, b' '\''] else [b' '\'', b, b' '\'']

/-- The text is a number, perhaps with a `+`. -/
def Reads (s : Bytes) (v : Nat) : Prop :=
  ∃ ds : Bytes, (s = ds ∨ s = b' '+' :: ds) ∧ ds ≠ [] ∧ (∀ b ∈ ds, IsDigit b) ∧ digitsValue ds = v

/-- An upper-case hexadecimal digit. -/
def IsHex (b : UInt8) : Prop := IsDigit b ∨ (65 ≤ b.toNat ∧ b.toNat ≤ 70)

/-- The command code of an arm request. -/
def armCmd (l : ArmLevel) : Bytes := [b' 'a', b' (armLevelChar l)]

/-- The commands with a time. -/
def IsClock (cmd : Bytes) : Prop := cmd = bs "RR" ∨ cmd = bs "XK"

/-- The commands about texts. -/
def IsText (cmd : Bytes) : Prop := cmd = bs "sd" ∨ cmd = bs "SD"

/-- The least number of bytes of data of a command. -/
inductive Needs : Bytes → Nat → Prop
  | timer : Needs (bs "EE") 10
  | code : Needs (bs "IC") 19
  | ask : Needs (bs "sd") 5
  | text : Needs (bs "SD") 21
  | activate : Needs (bs "tn") 3
  | task : Needs (bs "TC") 3
  | zone : Needs (bs "ZC") 4
  | zones : Needs (bs "ZS") 208

/-- Numbers in the data: command, name, position, and length. -/
inductive NumberField : Bytes → String → Nat → Nat → Prop
  | area (l) : NumberField (armCmd l) "area" 0 1
  | timer1 : NumberField (bs "EE") "timer1" 2 3
  | timer2 : NumberField (bs "EE") "timer2" 5 3
  | user : NumberField (bs "IC") "user" 12 3
  | keypad : NumberField (bs "IC") "keypad" 15 2
  | activate : NumberField (bs "tn") "task" 0 3
  | task : NumberField (bs "TC") "task" 0 3
  | zone : NumberField (bs "ZC") "zone" 0 3
  | type (c) : IsText c → NumberField c "type" 0 2
  | num (c) : IsText c → NumberField c "num" 2 3
  | second (c) : IsClock c → NumberField c "second" 0 2
  | minute (c) : IsClock c → NumberField c "minute" 2 2
  | hour (c) : IsClock c → NumberField c "hour" 4 2
  | day (c) : IsClock c → NumberField c "day" 7 2
  | month (c) : IsClock c → NumberField c "month" 9 2
  | year (c) : IsClock c → NumberField c "year" 11 2

/-- Numbers from 1 to a maximum: command, position, length, and maximum. -/
inductive RangeField : Bytes → Nat → Nat → Nat → Prop
  | area (l) : RangeField (armCmd l) 0 1 8
  | keypad : RangeField (bs "IC") 15 2 16
  | activate : RangeField (bs "tn") 0 3 32
  | task : RangeField (bs "TC") 0 3 32
  | zone : RangeField (bs "ZC") 0 3 208

/-- Numbers of a time: name, position, least and greatest value. -/
inductive ClockField : String → Nat → Nat → Nat → Prop
  | second : ClockField "second" 0 0 59
  | minute : ClockField "minute" 2 0 59
  | hour : ClockField "hour" 4 0 23
  | day : ClockField "day" 7 1 31
  | month : ClockField "month" 9 1 12

/-- Letters: command, name of what they stand for, position, and which there are. -/
inductive LetterField : Bytes → String → Nat → String → Prop
  | timer : LetterField (bs "EE") "TimeDataType" 1 "01"
  | armed : LetterField (bs "EE") "ArmedState" 8 "0123456"
  | arming (i) : i < 8 → LetterField (bs "AS") "ArmingStatus" i "0123456"
  | up (i) : i < 8 → LetterField (bs "AS") "ArmUpState" (8 + i) "0123456"
  | alarm (i) : i < 8 → LetterField (bs "AS") "AlarmState" (16 + i) "0123456789:;<=>?@AB"
  | weekday (c) : IsClock c → LetterField c "Weekday" 6 "1234567"
  | clock (c) : IsClock c → LetterField c "ClockDisplayMode" 14 "01"
  | date (c) : IsClock c → LetterField c "DateDisplayMode" 15 "01"

/-- The field of the data at a position. -/
def fieldAt (data : Bytes) (i n : Nat) : Bytes := (data.drop i).take n

/-- The text describes a fault of the packet with this command and data. -/
inductive Complains (cmd data : Bytes) : Bytes → Prop
  | short : cmd.length + data.length < 4 → Complains cmd data (bs "malformed ASCII message: too short")
  | few (need n) : Needs cmd need → n ≤ need → data.length < n → Complains cmd data
      (bs "expected at least " ++ num n ++ bs " bytes, got " ++ num data.length)
  | fewArm (l) : cmd = armCmd l → data.length < 9 → Complains cmd data
      (bs "Expected ArmRequest to have at least 9 bytes of data, got " ++ num data.length)
  | fewReport : cmd = bs "AS" → data.length < 26 → Complains cmd data (bs "expected at least 26 data")
  | fewClock : IsClock cmd → data.length < 16 →
      Complains cmd data (bs "RTC data must be at least 16 bytes")
  | number (name i n) : NumberField cmd name i n → i + n ≤ data.length →
      (∀ v, v ≤ 255 → ¬ Reads (fieldAt data i n) v) → Complains cmd data
      (bs name ++ bs " expected to be decimal in [0, 255); got " ++ listed (fieldAt data i n))
  | range (i n max v) : RangeField cmd i n max → Reads (fieldAt data i n) v →
      ¬ (1 ≤ v ∧ v ≤ max) → Complains cmd data
      (num v ++ bs " not in expected t range of [1, " ++ num max ++ bs "]")
  | clock (name i lo hi v) : IsClock cmd → ClockField name i lo hi → Reads (fieldAt data i 2) v →
      ¬ (lo ≤ v ∧ v ≤ hi) → Complains cmd data (bs name ++ bs " out of range")
  | letter (name i letters b) : LetterField cmd name i letters → data[i]? = some b →
      b ∉ bs letters → Complains cmd data (bs "bad " ++ bs name ++ bs " " ++ quoted b)
  | type (v) : IsText cmd → Reads (fieldAt data 0 2) v → 20 ≤ v → Complains cmd data
      (bs "bad TextDescriptionType " ++ num v)
  /-- the number is the code of the character -/
  | timerArea (b) : cmd = bs "EE" → data[0]? = some b → b ∉ bs "12345678" → Complains cmd data
      (bs "expected area in [1, 8], got " ++ num b.toNat)
  | armCode (l) : cmd = armCmd l → (∃ b ∈ fieldAt data 1 6, ¬ IsDigit b) →
      Complains cmd data (bs "ArmCode must be numeric")
  | hexCode : cmd = bs "IC" → (∃ b ∈ fieldAt data 0 12, ¬ IsHex b) →
      Complains cmd data (bs "invalid hex code")
  | hexTime : cmd = bs "AS" → (∃ b ∈ fieldAt data 24 2, ¬ IsHex b) →
      Complains cmd data (bs "bad first_exit_time")
  | zone (i b) : (cmd = bs "ZC" ∧ i = 3) ∨ (cmd = bs "ZS" ∧ i < 208) → data[i]? = some b →
      ¬ IsHex b → Complains cmd data (bs "bad zone status " ++ quoted b)
  | dst (b) : IsClock cmd → data[13]? = some b → b ∉ bs "01" → Complains cmd data (bs "bad dst flag")

end Elk.Spec
