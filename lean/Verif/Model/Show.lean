import Verif.Model.Debug
/-!
# Equality of packets, and `Display`

The rest of pkt.rs: `==` of packets, and what is written with `{}`.
-/

namespace Elk

/-- pkt.rs:159-163 `PartialEq for InvalidPacket`: the reason is not compared. -/
def InvalidPacket.eq (a b : InvalidPacket) : Bool := a.raw == b.raw

/-- pkt.rs:19, 201, 352 `PartialEq`, derived. -/
def Packet.eq : Packet → Packet → Bool
  | .ascii a, .ascii b => a.body == b.body
  | .rp a, .rp b => a.body == b.body
  | .invalid a, .invalid b => a.eq b
  | _, _ => false

/-- `==` of two sequences of packets. -/
def packetsEq : List Packet → List Packet → Bool
  | [], [] => true
  | p :: ps, q :: qs => p.eq q && packetsEq ps qs
  | _, _ => false

/-- pkt.rs:145-154 `Display for InvalidPacket`. -/
def InvalidPacket.display (p : InvalidPacket) : Bytes :=
  bs "invalid packet: " ++ p.reason ++ bs "\nraw data:\n" ++ hexDump p.raw

/-- pkt.rs:466-470 `Display for RpPacket`: `pretty_hex_write` is what `{:?}` of `hex_dump()` calls. -/
def RpPacket.display (p : RpPacket) : Bytes := hexDump p.body

/-- msg.rs:1411-1415 `PartialEq<str> for TextDescription`. -/
def TextDescription.eqStr (t : TextDescription) (s : Bytes) : P Bool := do
  let a ← t.asStr
  .ok (a == s)

end Elk
