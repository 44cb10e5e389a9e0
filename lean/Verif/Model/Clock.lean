import Verif.Model.Fmt
/-!
# The time of a line of the log

elkm1-cli/src/main.rs:71-78 and elkm1-mqtt/src/main.rs:344-351 `JiffTimer`, the same in both.

Simplifications.  `jiff` is not in /repo; of `Zoned::now` and `strftime` there is what its documentation
says: the time is a number of nanoseconds since 1970-01-01T00:00:00Z, the local time is that plus an offset
of whole seconds which the time zone gives, and dates are of the Gregorian calendar.  Of `strftime` there
are the directives that are used.  Years before 0 are left out (`jiff` has them from -9999 on, and ends
with 9999 as well).
-/

namespace Elk

/-- `jiff::civil::DateTime`. -/
structure Civil where
  year : Nat
  month : Nat
  day : Nat
  hour : Nat
  minute : Nat
  second : Nat
  nano : Nat
  deriving DecidableEq

def Civil.leap (y : Nat) : Bool := y % 4 == 0 && (y % 100 != 0 || y % 400 == 0)

/-- The number of days of a year. -/
def Civil.yearLen (y : Nat) : Nat := if Civil.leap y then 366 else 365

/-- The number of days of a month. -/
def Civil.monthLen (y m : Nat) : Nat :=
  if m = 2 then if Civil.leap y then 29 else 28
  else if m = 4 ∨ m = 6 ∨ m = 9 ∨ m = 11 then 30 else 31

/-- Counts off periods of the given lengths, from `k` on, as long as there are days left for a whole one:
the period, and the days left. -/
def countOff (len : Nat → Nat) : Nat → Nat → Nat → Nat × Nat
  | 0, k, n => (k, n)
  | fuel + 1, k, n => if n < len k then (k, n) else countOff len fuel (k + 1) (n - len k)

/-- The number of days from 0000-01-01 to 1970-01-01. -/
def epochDay : Nat := 719528

/-- The date and time that is the given number of nanoseconds after 0000-01-01T00:00:00. -/
def Civil.of (n : Nat) : Civil :=
  let day := n / 86400000000000
  let rest := n % 86400000000000
  let (y, d) := countOff Civil.yearLen day 0 day
  let (m, d) := countOff (Civil.monthLen y) 12 1 d
  ⟨y, m, d + 1, rest / 3600000000000, rest / 60000000000 % 60, rest / 1000000000 % 60,
    rest % 1000000000⟩

/-- Nanoseconds from 0000-01-01T00:00:00 to the given time, as clocks show it at the given offset. -/
def localNanos (t offset : Int) : Int := t + offset * 1000000000 + epochDay * 86400000000000

/-- `jiff::fmt::strtime::format`, with the directives `%Y`, `%m`, `%d`, `%H`, `%M`, `%S` and `%.6f`. -/
def strftime (c : Civil) : Bytes → Bytes
  | 0x25 :: 0x59 :: f => padDec 4 c.year ++ strftime c f
  | 0x25 :: 0x6D :: f => padDec 2 c.month ++ strftime c f
  | 0x25 :: 0x64 :: f => padDec 2 c.day ++ strftime c f
  | 0x25 :: 0x48 :: f => padDec 2 c.hour ++ strftime c f
  | 0x25 :: 0x4D :: f => padDec 2 c.minute ++ strftime c f
  | 0x25 :: 0x53 :: f => padDec 2 c.second ++ strftime c f
  | 0x25 :: 0x2E :: 0x36 :: 0x66 :: f => b' '.' :: padDec 6 (c.nano / 1000) ++ strftime c f
  | b :: f => b :: strftime c f
  | [] => []

/-- elkm1-cli/src/main.rs:75, elkm1-mqtt/src/main.rs:348 `TIME_FORMAT` -/
def timeFormat : Bytes := bs "%Y-%m-%dT%H:%M:%S%.6f"

/-- elkm1-cli/src/main.rs:74-77, elkm1-mqtt/src/main.rs:347-350 `JiffTimer::format_time` at the time `t`,
when the time zone has the given offset. -/
def formatTime (t offset : Int) : Bytes :=
  strftime (Civil.of (localNanos t offset).toNat) timeFormat

end Elk
