import Verif.Spec.Complaint
/-!
# Specification of what is wrong with bytes that are no packet

`Diagnosis raw rest text`: the bytes `raw`, followed by `rest`, are no packet, and `text` says why.
-/

namespace Elk.Spec

/-- A number below 65536 in upper-case hexadecimal, with at least two digits. -/
def hexText (n : Nat) : Bytes :=
  (if 4096 ≤ n then [hexDigit (n / 4096)] else []) ++ (if 256 ≤ n then [hexDigit (n / 256 % 16)] else []) ++
    hex2 (n % 256)

/-- The number that makes the sum of the bytes 0 modulo 256. -/
def checkOf (d : Bytes) : Nat := (256 - byteSum d % 256) % 256

/-- What is wrong with bytes that have the length of an ASCII packet. -/
inductive AsciiDiagnosis (raw : Bytes) : Bytes → Prop
  | short (x) : raw = x ++ [13, 10] → raw.length < 8 → AsciiDiagnosis raw (bs "ASCII packet too short")
  | noCrlf : (¬ ∃ x, raw = x ++ [13, 10]) → AsciiDiagnosis raw (bs "ASCII packet must end with CRLF")
  | digits (d h l) : raw = d ++ [h, l, 13, 10] → 4 ≤ d.length → ¬ (IsHex h ∧ IsHex l) →
      AsciiDiagnosis raw (bs "ASCII packet has unparseable checksum")
  | sum (d c) : raw = d ++ hex2 c ++ [13, 10] → c < 256 → 4 ≤ d.length → c ≠ checkOf d →
      AsciiDiagnosis raw (bs "ASCII packet doesn't have expected checksum " ++ hex2 (checkOf d))
  | letter (n body i b) : raw = n ++ body ++ hex2 (checkOf (n ++ body)) ++ [13, 10] → n.length = 2 →
      2 ≤ body.length → body[i]? = some b → ¬ Printable b →
      (∀ j c, j < i → body[j]? = some c → Printable c) →
      AsciiDiagnosis raw (bs "non-printable character at index " ++ num i)

/-- The bytes begin like a packet. -/
def Starts (l : Bytes) : Prop :=
  ∃ a b r, l = a :: b :: r ∧ ((a = 0x10 ∧ b = 0x02) ∨ (IsHex a ∧ IsHex b))

/-- What is wrong with bytes that are no packet. -/
inductive Diagnosis (raw rest : Bytes) : Bytes → Prop
  | ascii (n r text) : n < 256 → raw = hex2 n ++ r → raw.length = 4 + n → AsciiDiagnosis raw text →
      Diagnosis raw rest text
  | crc (d hi lo) : raw = [0x10, 0x02] ++ escape d ++ [0x10, 0x03] ++ [hi, lo] → raw.length ≤ 1024 →
      hi.toNat * 256 + lo.toNat ≠ crc16 d →
      Diagnosis raw rest (bs "RP packet doesn't have expected CRC " ++ hexText (crc16 d))
  | dle (d c r) : raw = [0x10, 0x02] ++ escape d ++ [0x10] → raw.length < 1024 → rest = c :: r →
      c ≠ 0x10 → c ≠ 0x03 →
      Diagnosis raw rest (bs "RP packet has bad sequence DTS " ++ hex2 c.toNat)
  | noEnd (d tail) : raw = [0x10, 0x02] ++ escape d ++ tail → (tail = [] ∨ tail = [0x10]) →
      raw.length = 1024 → Diagnosis raw rest (bs "RP packet has no DLE EXT after 1024 bytes")
  | noStart : 1 ≤ raw.length → raw.length ≤ 1024 →
      (∀ x y, raw ++ rest = x ++ y → x.length < raw.length → ¬ Starts y) →
      (raw.length = 1024 ∧ 2 ≤ rest.length) ∨ (Starts rest ∧ 3 ≤ rest.length) →
      Diagnosis raw rest (bs "bytes without ASCII length or RP prefix")

end Elk.Spec
