import Verif.Basic
/-!
# Text made by Rust's `core::fmt`

What `format!` makes of numbers, bytes and characters, as used in elkm1/src/pkt.rs and
elkm1/src/msg.rs.  `core::fmt` is not in /repo; this is part of the trusted base.  Texts are their
UTF-8 bytes.
-/

namespace Elk

/-- The ASCII digit of a number below 10. -/
def decDigit (n : Nat) : UInt8 := b' '0' + UInt8.ofNat n

/-- Decimal digits of `n`, most significant first; `fuel` is at least the number of digits. -/
def decGo : Nat → Nat → Bytes
  | 0, _ => []
  | fuel + 1, n => if n < 10 then [decDigit n] else decGo fuel (n / 10) ++ [decDigit (n % 10)]

/-- `format!("{}", n)` for an unsigned integer. -/
def decStr (n : Nat) : Bytes := decGo (n + 1) n

/-- `format!("{:0w}", n)` for an unsigned integer: zero-padded to at least `w` characters. -/
def padDec (w n : Nat) : Bytes :=
  let s := decStr n
  List.replicate (w - s.length) (b' '0') ++ s

/-- The upper-case hexadecimal digit of a number below 16. -/
def hexUp (n : Nat) : UInt8 := if n < 10 then b' '0' + UInt8.ofNat n else b' 'A' + UInt8.ofNat (n - 10)

/-- Hexadecimal digits of `n`, most significant first; `fuel` is at least the number of digits. -/
def hexGo : Nat → Nat → Bytes
  | 0, _ => []
  | fuel + 1, n => if n < 16 then [hexUp n] else hexGo fuel (n / 16) ++ [hexUp (n % 16)]

/-- `format!("{:0wX}", n)` for an unsigned integer: zero-padded to at least `w` characters. -/
def padHex (w n : Nat) : Bytes :=
  let s := hexGo (n + 1) n
  List.replicate (w - s.length) (b' '0') ++ s

/-- A lower-case hexadecimal digit. -/
def lowerHex (n : UInt8) : UInt8 := if n < 10 then b' '0' + n else b' 'a' + (n - 10)

/-- The elements after the first of `format!("{:?}", l)` for a `&[u8]`. -/
def debugElems : Bytes → Bytes
  | [] => []
  | b :: l => bs ", " ++ decStr b.toNat ++ debugElems l

/-- `format!("{:?}", l)` for a `&[u8]`. -/
def debugBytes : Bytes → Bytes
  | [] => bs "[]"
  | b :: l => bs "[" ++ decStr b.toNat ++ debugElems l ++ bs "]"

/-- `char::from(b)` between quotes, as `Debug` writes it: `quote` is escaped, and so are backslashes
and what is not printable. -/
def debugOne (quote b : UInt8) : Bytes :=
  if b = 0x00 then bs "\\0"
  else if b = 0x09 then bs "\\t"
  else if b = 0x0a then bs "\\n"
  else if b = 0x0d then bs "\\r"
  else if b = b' '\\' then bs "\\\\"
  else if b = quote then [b' '\\', b]
  else if b < 0x10 then bs "\\u{" ++ [lowerHex b] ++ bs "}"
  else if b < 0x20 ∨ (0x7f ≤ b ∧ b ≤ 0xa0) ∨ b = 0xad then
    bs "\\u{" ++ [lowerHex (b >>> 4), lowerHex (b &&& 0x0f)] ++ bs "}"
  else if b < 0x80 then [b]
  else [(0xc0 : UInt8) ||| (b >>> 6), (0x80 : UInt8) ||| (b &&& 0x3f)]

/-- `format!("{:?}", char::from(b))`. -/
def debugChar (b : UInt8) : Bytes := [b' '\''] ++ debugOne (b' '\'') b ++ [b' '\'']

/-- `format!("{:?}", s)` for a `str` of ASCII characters. -/
def debugStr (s : Bytes) : Bytes := [b' '"'] ++ s.flatMap (debugOne (b' '"')) ++ [b' '"']

end Elk
