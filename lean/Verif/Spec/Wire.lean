import Verif.Model.Pkt
/-!
# Specification of the wire formats and of repeated decoding

Written from the documentation (pkt.rs:165-200 and pkt.rs:337-351), with plain arithmetic on `Nat`
and without using the model's encoder helpers.  From the model it uses only the packet types and,
for `Drains`/`Feeds`, the function `Packet.decode` under study.
-/

namespace Elk.Spec

/-- Printable ASCII. -/
def Printable (b : UInt8) : Prop := 0x20 ≤ b.toNat ∧ b.toNat ≤ 0x7e

/-- pkt.rs:188-193: the documented constraints on an ASCII packet's body. -/
def ValidAsciiBody (body : Bytes) : Prop :=
  2 ≤ body.length ∧ body.length ≤ 253 ∧ ∀ b ∈ body, Printable b

/-- The uppercase hexadecimal digit of a number below 16. -/
def hexDigit (n : Nat) : UInt8 := UInt8.ofNat (if n < 10 then 48 + n else 55 + n)

/-- Two uppercase hexadecimal digits of a number below 256. -/
def hex2 (n : Nat) : Bytes := [hexDigit (n / 16), hexDigit (n % 16)]

/-- The sum of the bytes as an ordinary number. -/
def byteSum (l : Bytes) : Nat := (l.map UInt8.toNat).sum

/-- The documented ASCII frame: `NN` (length of body plus checksum), body, `CC` (two's complement of
the sum modulo 256 of everything before it), CR, LF. -/
def asciiFrame (body : Bytes) : Bytes :=
  hex2 (body.length + 2) ++ body
    ++ hex2 ((256 - byteSum (hex2 (body.length + 2) ++ body) % 256) % 256) ++ [13, 10]

/-- Escaping of an RP body: each DLE (`0x10`) is doubled. -/
def escape (body : Bytes) : Bytes := body.flatMap fun b => if b = 0x10 then [0x10, 0x10] else [b]

/-- One step of a bit-serial CRC register for the polynomial `x^16 + x^12 + x^5 + 1`. -/
def crcBit (reg : Nat) (bit : Bool) : Nat :=
  if (decide (32768 ≤ reg)) != bit then (2 * reg % 65536) ^^^ 0x1021 else 2 * reg % 65536

/-- The bits of a byte, most significant first. -/
def bitsOf (b : UInt8) : List Bool :=
  [b.toNat.testBit 7, b.toNat.testBit 6, b.toNat.testBit 5, b.toNat.testBit 4,
   b.toNat.testBit 3, b.toNat.testBit 2, b.toNat.testBit 1, b.toNat.testBit 0]

/-- CRC-16/XMODEM, bit by bit, initial value 0.  (`Props/Crc.lean` relates this to polynomial
division.) -/
def crc16 (body : Bytes) : Nat := (body.flatMap bitsOf).foldl crcBit 0

/-- The RP frame: DLE STX, escaped body, DLE ETX, CRC of the unescaped body (big-endian). -/
def rpFrame (body : Bytes) : Bytes :=
  [0x10, 0x02] ++ escape body ++ [0x10, 0x03]
    ++ [UInt8.ofNat (crc16 body / 256), UInt8.ofNat (crc16 body % 256)]

/-- Packets a user can construct (`TryFrom`): valid ASCII bodies and RP bodies whose frame fits in
1024 bytes. -/
def ValidPacket : Packet → Prop
  | .ascii p => ValidAsciiBody p.body
  | .rp p => (rpFrame p.body).length ≤ 1024
  | .invalid _ => False

/-- The bytes of a packet on the wire. -/
def wire : Packet → Bytes
  | .ascii p => asciiFrame p.body
  | .rp p => rpFrame p.body
  | .invalid p => p.raw

/-- `Drains src ps left`: calling `decode` on a buffer containing `src` until it returns `None`
returns the packets `ps` and leaves `left` in the buffer. -/
inductive Drains : Bytes → List Packet → Bytes → Prop
  | stop {src left} : Packet.decode src = .ok (none, left) → Drains src [] left
  | step {src rest p ps left} : Packet.decode src = .ok (some p, rest) →
      Drains rest ps left → Drains src (p :: ps) left

/-- `Steps src ps rest`: calling `decode` `ps.length` times returns the packets `ps` in turn (never
`None`), after which `rest` is left in the buffer. -/
inductive Steps : Bytes → List Packet → Bytes → Prop
  | nil {src} : Steps src [] src
  | cons {src mid p ps rest} : Packet.decode src = .ok (some p, mid) → Steps mid ps rest →
      Steps src (p :: ps) rest

/-- `Feeds buf chunks ps left`: appending each chunk in turn to a buffer initially holding `buf`,
draining after each, returns the packets `ps` in total and leaves `left`. -/
inductive Feeds : Bytes → List Bytes → List Packet → Bytes → Prop
  | done {buf} : Feeds buf [] [] buf
  | chunk {buf c cs ps qs mid left} : Drains (buf ++ c) ps mid → Feeds mid cs qs left →
      Feeds buf (c :: cs) (ps ++ qs) left

/-- Bytes that cannot start a packet: not an uppercase hex digit and not DLE. -/
def Garbage (b : UInt8) : Prop :=
  ¬ (0x30 ≤ b.toNat ∧ b.toNat ≤ 0x39) ∧ ¬ (0x41 ≤ b.toNat ∧ b.toNat ≤ 0x46) ∧ b ≠ 0x10

end Elk.Spec
