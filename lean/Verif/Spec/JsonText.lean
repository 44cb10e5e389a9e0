import Verif.Model.JsonText
/-!
# Reading JSON text

Written from RFC 8259: a reader for the part of JSON with natural numbers, and without escapes beyond
ASCII.  What it accepts is JSON text, with the meaning it returns.
-/

namespace Elk.Spec

/-- RFC 8259, section 2: insignificant white space. -/
def skipWs : Bytes → Bytes
  | [] => []
  | b :: r => if b = 0x20 ∨ b = 0x09 ∨ b = 0x0a ∨ b = 0x0d then skipWs r else b :: r

/-- The value of a hexadecimal digit, of either case. -/
def hexValue (b : UInt8) : Option Nat :=
  if 48 ≤ b.toNat ∧ b.toNat ≤ 57 then some (b.toNat - 48)
  else if 65 ≤ b.toNat ∧ b.toNat ≤ 70 then some (b.toNat - 55)
  else if 97 ≤ b.toNat ∧ b.toNat ≤ 102 then some (b.toNat - 87)
  else none

/-- RFC 8259, section 7: the escapes of two characters. -/
def shortEscape (b : UInt8) : Option UInt8 :=
  if b = b' '"' then some 0x22
  else if b = b' '\\' then some 0x5c
  else if b = b' '/' then some 0x2f
  else if b = b' 'b' then some 0x08
  else if b = b' 'f' then some 0x0c
  else if b = b' 'n' then some 0x0a
  else if b = b' 'r' then some 0x0d
  else if b = b' 't' then some 0x09
  else none

/-- A character before the rest of a string. -/
def andThen (b : UInt8) : Option (Bytes × Bytes) → Option (Bytes × Bytes)
  | some (s, r) => some (b :: s, r)
  | none => none

/-- RFC 8259, section 7: a string, from after the opening quote: its contents and what follows the
closing quote. -/
def readString : Bytes → Option (Bytes × Bytes)
  | [] => none
  | b :: r =>
    if b = b' '"' then some ([], r)
    else if b.toNat < 0x20 then none
    else if b = b' '\\' then
      match r with
      | [] => none
      | c :: r =>
        if c = b' 'u' then
          match r with
          | z0 :: z1 :: h :: l :: r =>
            if z0 = b' '0' ∧ z1 = b' '0' then
              match hexValue h, hexValue l with
              | some h, some l => if h < 8 then andThen (UInt8.ofNat (16 * h + l)) (readString r) else none
              | _, _ => none
            else none
          | _ => none
        else
          match shortEscape c with
          | some x => andThen x (readString r)
          | none => none
    else andThen b (readString r)

/-- A decimal digit. -/
def isDec (b : UInt8) : Bool := 48 ≤ b.toNat && b.toNat ≤ 57

/-- RFC 8259, section 6: a natural number without superfluous zeros. -/
def readNumber (s : Bytes) : Option (Nat × Bytes) :=
  match s.takeWhile isDec with
  | [] => none
  | d :: ds =>
    if d = 48 ∧ ds ≠ [] then none
    else some ((d :: ds).foldl (fun n b => 10 * n + (b.toNat - 48)) 0, s.dropWhile isDec)

/-- The text begins with this word: what follows it. -/
def word (w : String) (s : Bytes) : Option Bytes :=
  if bs w <+: s then some (s.drop (bs w).length) else none

mutual
/-- RFC 8259, section 3: a value, and what follows it.  `fuel` bounds the nesting and the number of
elements. -/
def readValue : Nat → Bytes → Option (Json × Bytes)
  | 0, _ => none
  | fuel + 1, s =>
    match skipWs s with
    | [] => none
    | b :: r =>
      if b = b' '"' then
        match readString r with
        | some (x, r) => some (.str x, r)
        | none => none
      else if b = b' '[' then
        match skipWs r with
        | [] => none
        | c :: r' =>
          if c = b' ']' then some (.arr [], r')
          else
            match readValue fuel r with
            | some (x, r) =>
              match readElems fuel r with
              | some (l, r) => some (.arr (x :: l), r)
              | none => none
            | none => none
      else if b = b' '{' then
        match skipWs r with
        | [] => none
        | c :: r' =>
          if c = b' '}' then some (.obj [], r')
          else
            match readField fuel r with
            | some (x, r) =>
              match readFields fuel r with
              | some (l, r) => some (.obj (x :: l), r)
              | none => none
            | none => none
      else if isDec b then
        match readNumber (b :: r) with
        | some (n, r) => some (.num n, r)
        | none => none
      else
        match word "null" (b :: r), word "true" (b :: r), word "false" (b :: r) with
        | some r, _, _ => some (.null, r)
        | _, some r, _ => some (.bool true, r)
        | _, _, some r => some (.bool false, r)
        | _, _, _ => none
/-- The further elements of an array, up to its end. -/
def readElems : Nat → Bytes → Option (List Json × Bytes)
  | 0, _ => none
  | fuel + 1, s =>
    match skipWs s with
    | [] => none
    | b :: r =>
      if b = b' ']' then some ([], r)
      else if b = b' ',' then
        match readValue fuel r with
        | some (x, r) =>
          match readElems fuel r with
          | some (l, r) => some (x :: l, r)
          | none => none
        | none => none
      else none
/-- A name, a colon and a value. -/
def readField : Nat → Bytes → Option ((Bytes × Json) × Bytes)
  | 0, _ => none
  | fuel + 1, s =>
    match skipWs s with
    | [] => none
    | b :: r =>
      if b = b' '"' then
        match readString r with
        | some (k, r) =>
          match skipWs r with
          | [] => none
          | c :: r =>
            if c = b' ':' then
              match readValue fuel r with
              | some (x, r) => some ((k, x), r)
              | none => none
            else none
        | none => none
      else none
/-- The further fields of an object, up to its end. -/
def readFields : Nat → Bytes → Option (List (Bytes × Json) × Bytes)
  | 0, _ => none
  | fuel + 1, s =>
    match skipWs s with
    | [] => none
    | b :: r =>
      if b = b' '}' then some ([], r)
      else if b = b' ',' then
        match readField fuel r with
        | some (x, r) =>
          match readFields fuel r with
          | some (l, r) => some (x :: l, r)
          | none => none
        | none => none
      else none
end

/-- RFC 8259, section 2: a text is one value with white space around it. -/
def readText (s : Bytes) : Option Json :=
  match readValue s.length s with
  | some (j, r) => if skipWs r = [] then some j else none
  | none => none

/-- The texts on a topic. -/
def textsOn (topic : Bytes) (log : List Published) : List Bytes :=
  (log.filter (fun m => m.topic == topic)).map fun m => m.payload.bytes

/-- MQTT 3.1.1, section 2.2.3: the bytes of the remaining length. -/
def lengthBytes (n : Nat) : Nat :=
  if n < 128 then 1 else if n < 16384 then 2 else if n < 2097152 then 3 else 4

/-- MQTT 3.1.1, section 3.3: the size of a PUBLISH packet with QoS 1: a byte, the remaining length, the
topic and its length, the packet identifier, and the payload. -/
def packetSize (m : Published) : Nat :=
  let rest := 2 + m.topic.length + 2 + m.payload.bytes.length
  1 + lengthBytes rest + rest

/-- rumqttc's default for `max_outgoing_packet_size` (and for incoming packets): above it the packet
is refused, the event loop returns an error, and main.rs:334 panics. -/
def packetLimit : Nat := 10 * 1024

/-- The configured strings have at most this many bytes. -/
structure ShortCfg (cfg : Cfg) (n : Nat) : Prop where
  pre : cfg.prefix.length ≤ n
  ha : ∀ p, cfg.mqtt.haDiscoveryPrefix = some p → p.length ≤ n
  serial : cfg.elk.serialNumber.length ≤ n
  areas : ∀ a ∈ cfg.elk.areas, a.2.name.length ≤ n
  zones : ∀ a ∈ cfg.elk.zones, a.2.name.length ≤ n ∧ a.2.binarySensorDeviceClass.length ≤ n

/-- An event with this packet, which is not ASCII and has more than so many bytes. -/
def HasLong (n : Nat) (e : Event) : Prop :=
  (∃ p, e.pkt = some (.rp p) ∧ n < p.body.length) ∨ ∃ p, e.pkt = some (.invalid p) ∧ n < p.raw.length

end Elk.Spec
