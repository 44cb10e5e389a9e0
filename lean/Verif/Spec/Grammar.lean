import Verif.Spec.Diagnosis
/-!
# Specification of the stream of packets

`Tokens src ps left`: the bytes `src` consist of the packets `ps`, in which bytes that are no packet
appear as invalid packets, and of `left`, the beginning of something that is not there in full.
Nothing here uses the decoder.
-/

namespace Elk.Spec

/-- The bytes are not enough to say what they begin with. -/
inductive Waits (src : Bytes) : Prop
  | few : src.length < 2 → Waits src
  /-- an ASCII packet of which a part is missing -/
  | ascii (n r) : n < 256 → src = hex2 n ++ r → src.length < 4 + n → Waits src
  /-- an RP packet without end, which may still come within 1024 bytes -/
  | rp (d tail) : src = [0x10, 0x02] ++ escape d ++ tail → (tail = [] ∨ tail = [0x10]) →
      src.length < 1024 → Waits src
  /-- an RP packet whose CRC is missing -/
  | crc (d tail) : src = [0x10, 0x02] ++ escape d ++ [0x10, 0x03] ++ tail → tail.length < 2 →
      src.length < 1024 → Waits src
  /-- an RP packet that ends so late that its CRC is not within 1024 bytes (nothing helps) -/
  | late (d tail) : src = [0x10, 0x02] ++ escape d ++ [0x10, 0x03] ++ tail →
      ([0x10, 0x02] ++ escape d ++ [0x10, 0x03]).length ∈ [1023, 1024] → Waits src
  /-- no packet begins here, and it is not known where the next does -/
  | noStart : 2 ≤ src.length → src.length ≤ 1025 → ¬ Starts src →
      (∀ x y, src = x ++ y → 3 ≤ y.length → ¬ Starts y) → Waits src

/-- What bytes begin with, and what follows it. -/
inductive Front (src : Bytes) : Option Packet → Bytes → Prop
  | packet (p rest) : ValidPacket p → src = wire p ++ rest → Front src (some p) rest
  | invalid (raw rest text) : src = raw ++ rest → Diagnosis raw rest text →
      Front src (some (.invalid ⟨text, raw⟩)) rest
  | waits : Waits src → Front src none src

/-- What bytes consist of. -/
inductive Tokens : Bytes → List Packet → Bytes → Prop
  | done {src} : Waits src → Tokens src [] src
  | next {src p rest ps left} : Front src (some p) rest → Tokens rest ps left →
      Tokens src (p :: ps) left

end Elk.Spec
