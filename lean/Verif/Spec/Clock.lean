import Verif.Spec.Msg
/-!
# The calendar

Independent of the model: what a date is, how many days there are before it, and how it is written.
-/

namespace Elk.Spec

/-- A leap year of the Gregorian calendar. -/
def IsLeap (y : Nat) : Prop := (4 ∣ y ∧ ¬ 100 ∣ y) ∨ 400 ∣ y

instance (y : Nat) : Decidable (IsLeap y) := by unfold IsLeap; infer_instance

/-- The lengths of the months of a year. -/
def months (y : Nat) : List Nat :=
  [31, if IsLeap y then 29 else 28, 31, 30, 31, 30, 31, 31, 30, 31, 30, 31]

/-- A date and a time of day, to the microsecond. -/
structure Stamp where
  year : Nat
  month : Nat
  day : Nat
  hour : Nat
  minute : Nat
  second : Nat
  micro : Nat

/-- There is such a date and time. -/
structure Stamp.Real (s : Stamp) : Prop where
  year : s.year < 10000
  month : 1 ≤ s.month
  day : 1 ≤ s.day
  inMonth : ∃ n, (months s.year)[s.month - 1]? = some n ∧ s.day ≤ n
  hour : s.hour < 24
  minute : s.minute < 60
  second : s.second < 60
  micro : s.micro < 1000000

/-- The number of days before the first of a year, from 0000-01-01 on. -/
def daysBefore (y : Nat) : Nat := ((List.range y).map fun y => (months y).sum).sum

/-- The number of days before the date, from 0000-01-01 on. -/
def Stamp.days (s : Stamp) : Nat :=
  daysBefore s.year + ((months s.year).take (s.month - 1)).sum + (s.day - 1)

/-- The number of microseconds before it, from 0000-01-01T00:00:00 on. -/
def Stamp.micros (s : Stamp) : Nat :=
  (((s.days * 24 + s.hour) * 60 + s.minute) * 60 + s.second) * 1000000 + s.micro

/-- The number, written in decimal with the given number of digits. -/
def Numeral (w n : Nat) (t : Bytes) : Prop :=
  t.length = w ∧ (∀ b ∈ t, IsDigit b) ∧ digitsValue t = n

/-- How it is written. -/
inductive Stamp.Written (s : Stamp) : Bytes → Prop
  | mk {y mo d h mi se us} : Numeral 4 s.year y → Numeral 2 s.month mo → Numeral 2 s.day d →
      Numeral 2 s.hour h → Numeral 2 s.minute mi → Numeral 2 s.second se → Numeral 6 s.micro us →
      Written s (y ++ bs "-" ++ mo ++ bs "-" ++ d ++ bs "T" ++ h ++ bs ":" ++ mi ++ bs ":" ++ se ++
        bs "." ++ us)

/-- Microseconds from 0000-01-01T00:00:00 to the given time (in nanoseconds since
1970-01-01T00:00:00Z), as a clock shows it that is the given number of seconds ahead of UTC. -/
def clockShows (t ahead : Int) : Int := t / 1000 + ahead * 1000000 + 719528 * 86400000000

/-- The clock shows a year of four digits. -/
def FourDigits (t ahead : Int) : Prop :=
  0 ≤ clockShows t ahead ∧ clockShows t ahead < daysBefore 10000 * 86400000000

end Elk.Spec
