import Verif.Model.Fmt
/-!
# Model of `elkm1/src/pkt.rs` (packet framing)
-/

namespace Elk

/-- pkt.rs:12 `RP_HEADER`. -/
def rpHeader : Bytes := [0x10, 0x02]
/-- pkt.rs:13 `RP_FOOTER`. -/
def rpFooter : Bytes := [0x10, 0x03]

/-- The `reason: String` of an `InvalidPacket` (pkt.rs:120) and the `String` errors of
`AsciiPacket::decode`/`try_from` and `RpPacket::try_from`: the text. -/
abbrev Reason := Bytes

namespace Reason

/-- pkt.rs:213. -/
def asciiTooShort : Reason := bs "ASCII packet too short"
/-- pkt.rs:214. -/
def asciiNoCrlf : Reason := bs "ASCII packet must end with CRLF"
/-- pkt.rs:217. -/
def asciiCsumUnparseable : Reason := bs "ASCII packet has unparseable checksum"
/-- pkt.rs:220-223. -/
def asciiCsum (expected : UInt8) : Reason :=
  bs "ASCII packet doesn't have expected checksum " ++ padHex 2 expected.toNat
/-- pkt.rs:278. -/
def nonPrintable (i : Nat) : Reason := bs "non-printable character at index " ++ decStr i
/-- pkt.rs:293-297. -/
def asciiLength (value : Bytes) : Reason :=
  bs "ASCII packet body length " ++ decStr value.length ++ bs " not in [2, 253].\nbody:\n" ++
    debugStr value
/-- pkt.rs:383. -/
def rpCrc (expected : UInt16) : Reason :=
  bs "RP packet doesn't have expected CRC " ++ padHex 2 expected.toNat
/-- pkt.rs:403. -/
def rpBadEscape (b : UInt8) : Reason := bs "RP packet has bad sequence DTS " ++ padHex 2 b.toNat
/-- pkt.rs:416 (`Self::MAX_LEN` is 1024, pkt.rs:357). -/
def rpNoEtx : Reason := bs "RP packet has no DLE EXT after " ++ decStr 1024 ++ bs " bytes"
/-- pkt.rs:80. -/
def noPrefix : Reason := bs "bytes without ASCII length or RP prefix"
/-- pkt.rs:484-489. -/
def rpTooLong (len escapes : Nat) : Reason :=
  decStr len ++ bs "-byte body that requires " ++ decStr escapes ++
    bs " escapes exceeds maximum framed length " ++ decStr 1024

end Reason

/-- pkt.rs:203 `AsciiPacket(String)`; the string is represented by its bytes.  The type does not
carry the constraints of pkt.rs:188-193: those are established by `tryFrom` only. -/
structure AsciiPacket where
  body : Bytes
  deriving DecidableEq, Repr

/-- pkt.rs:354 `RpPacket(Vec<u8>)`. -/
structure RpPacket where
  body : Bytes
  deriving DecidableEq, Repr

/-- pkt.rs:119-122 `InvalidPacket`.  (Rust's `PartialEq` at pkt.rs:159 ignores `reason`; Lean
equality here is finer.) -/
structure InvalidPacket where
  reason : Reason
  raw : Bytes
  deriving DecidableEq, Repr

/-- pkt.rs:25-29 `Packet`. -/
inductive Packet where
  | ascii (p : AsciiPacket)
  | rp (p : RpPacket)
  | invalid (p : InvalidPacket)
  deriving DecidableEq, Repr

/-- pkt.rs:125 `InvalidPacket::MAX_LEN`. -/
def InvalidPacket.maxLen : Nat := 1024
/-- pkt.rs:357 `RpPacket::MAX_LEN`. -/
def RpPacket.maxLen : Nat := 1024

/-- pkt.rs:247-253 `dehex_nibble` (`Err(())` is `none`). -/
def dehexNibble (n : UInt8) : Option UInt8 :=
  if b' '0' ≤ n ∧ n ≤ b' '9' then some (n - b' '0')
  else if b' 'A' ≤ n ∧ n ≤ b' 'F' then some (n - b' 'A' + 10)
  else none

/-- pkt.rs:256-258 `dehex_byte`. -/
def dehexByte (hi lo : UInt8) : Option UInt8 := do
  let h ← dehexNibble hi
  let l ← dehexNibble lo
  return (h <<< 4) ||| l

/-- pkt.rs:261-268 `hex_nibble`: `HEX_CHARS[usize::from(nibble & 0xF)]` (the index is below 16,
so the lookup cannot panic; `getD`'s default is never used). -/
def hexNibble (n : UInt8) : UInt8 :=
  (bs "0123456789ABCDEF").getD (n &&& 0xF).toNat 0

/-- pkt.rs:271-273 `hex_byte`. -/
def hexByte (b : UInt8) : Bytes := [hexNibble (b >>> 4), hexNibble b]

/-- pkt.rs:242-244 `checksum`. -/
def checksum (bytes : Bytes) : UInt8 := bytes.foldl (fun acc b => acc - b) 0

/-- pkt.rs:276-281 `check_printable`: the index of the first non-printable byte, if any. -/
def checkPrintable (value : Bytes) : Except Reason Unit :=
  match value.findIdx? (fun b => !(decide (0x20 ≤ b) && decide (b ≤ 0x7e))) with
  | some i => .error (.nonPrintable i)
  | none => .ok ()

/-- pkt.rs:284-328 `AsciiPacket::try_from` (the `Vec<u8>` version; the others delegate to it). -/
def AsciiPacket.tryFrom (value : Bytes) : Except Reason AsciiPacket := do
  checkPrintable value
  if value.length < 2 ∨ value.length > 253 then
    .error (.asciiLength value)
  else
    .ok ⟨value⟩

/-- Rust slice pattern `[d @ .., a, b, c, e]` (pkt.rs:212). -/
def splitLast4 (raw : Bytes) : Option (Bytes × UInt8 × UInt8 × UInt8 × UInt8) :=
  match raw.drop (raw.length - 4) with
  | [a, b, c, e] => some (raw.take (raw.length - 4), a, b, c, e)
  | _ => none

/-- Rust slice pattern `[.., a, b]` (pkt.rs:213, pkt.rs:376). -/
def last2 (raw : Bytes) : Option (UInt8 × UInt8) :=
  match raw.drop (raw.length - 2) with
  | [a, b] => some (a, b)
  | _ => none

/-- pkt.rs:216-225: the part of `AsciiPacket::decode` after the slice pattern matched. -/
def AsciiPacket.decodeBody (d : Bytes) (hi lo : UInt8) : P (Except Reason AsciiPacket) :=
  match dehexByte hi lo with
  | none => .ok (.error .asciiCsumUnparseable)
  | some actual =>
    let expected := checksum d
    if actual ≠ expected then .ok (.error (.asciiCsum expected))
    else do
      let body ← sliceFrom d 2
      .ok (AsciiPacket.tryFrom body)

/-- pkt.rs:213-214: the two last arms of the `match` in `AsciiPacket::decode`. -/
def AsciiPacket.decodeRest (raw : Bytes) : P (Except Reason AsciiPacket) :=
  match last2 raw with
  | some (c, e) =>
    if c = b' '\r' ∧ e = b' '\n' then .ok (.error .asciiTooShort)
    else .ok (.error .asciiNoCrlf)
  | none => .ok (.error .asciiNoCrlf)

/-- pkt.rs:210-226 `AsciiPacket::decode`. -/
def AsciiPacket.decode (raw : Bytes) : P (Except Reason AsciiPacket) :=
  match splitLast4 raw with
  | some (d, hi, lo, c, e) =>
    if c = b' '\r' ∧ e = b' '\n' ∧ d.length ≥ 4 then AsciiPacket.decodeBody d hi lo
    else AsciiPacket.decodeRest raw
  | none => AsciiPacket.decodeRest raw

/-- Checked `u8` addition (debug builds). -/
def addU8 (a b : UInt8) : P UInt8 :=
  if a.toNat + b.toNat < 256 then .ok (a + b) else .error .overflow

/-- pkt.rs:228-237 `AsciiPacket::encode`: the bytes appended to `to`.  `self.0.len() as u8`
truncates; `2 + …` overflows in debug builds. -/
def AsciiPacket.encode (p : AsciiPacket) : P Bytes := do
  let n ← addU8 2 (UInt8.ofNat p.body.length)
  let encodedLen := hexByte n
  let csum := checksum encodedLen + checksum p.body
  return encodedLen ++ p.body ++ hexByte csum ++ bs "\r\n"

/-- pkt.rs:438-447 `table_entry`, the loop body. -/
def crcTableStep (crc : UInt16) : UInt16 :=
  (crc <<< 1) ^^^ (if crc &&& 0x8000 ≠ 0 then 0x1021 else 0)

/-- pkt.rs:438-447 `table_entry`. -/
def crcTableEntry (b : UInt8) : UInt16 :=
  Nat.repeat crcTableStep 8 (b.toUInt16 <<< 8)

/-- pkt.rs:449-457 `TABLE`. -/
def crcTable : List UInt16 := (List.range 256).map fun i => crcTableEntry (UInt8.ofNat i)

/-- pkt.rs:459-462, the fold's closure.  The table has 256 entries and the index is a `u8`, so
the lookup cannot panic (`crcTable_getD` proves the default unused). -/
def crcStep (crc : UInt16) (b : UInt8) : UInt16 :=
  let i : UInt8 := (crc >>> 8).toUInt8 ^^^ b
  crcTable.getD i.toNat 0 ^^^ (crc <<< 8)

/-- pkt.rs:437-463 `RpPacket::crc`. -/
def RpPacket.crc (data : Bytes) : UInt16 := data.foldl crcStep 0

/-- `u16::to_be_bytes`. -/
def toBeBytes (v : UInt16) : Bytes := [(v >>> 8).toUInt8, v.toUInt8]
/-- `u16::from_be_bytes`. -/
def fromBeBytes (hi lo : UInt8) : UInt16 := (hi.toUInt16 <<< 8) ||| lo.toUInt16

/-- pkt.rs:422-434, the `while let` loop of `RpPacket::encode` from `input_pos` on, including the
`put_slice` of the rest at line 431.  `fuel` bounds the iterations; `RpPacket.encode` supplies
enough (each iteration advances `input_pos`). -/
def RpPacket.encodeLoop (body : Bytes) : Nat → Nat → P Bytes
  | 0, _ => .error .unreachable
  | fuel + 1, pos => do
    let tail ← sliceFrom body pos
    match memchr 0x10 tail with
    | none => .ok tail
    | some off => do
      let s ← slice body pos (pos + off + 1)
      let r ← RpPacket.encodeLoop body fuel (pos + off + 1)
      .ok (s ++ [0x10] ++ r)

/-- pkt.rs:422-434 `RpPacket::encode`: the bytes appended to `to`. -/
def RpPacket.encode (p : RpPacket) : P Bytes := do
  let esc ← RpPacket.encodeLoop p.body (p.body.length + 1) 0
  return rpHeader ++ esc ++ rpFooter ++ toBeBytes (RpPacket.crc p.body)

/-- pkt.rs:478-493 `RpPacket::try_from` (the `&[u8]` version delegates to it). -/
def RpPacket.tryFrom (value : Bytes) : Except Reason RpPacket :=
  let escapes := (value.filter (· == 0x10)).length
  if 6 + value.length + escapes > RpPacket.maxLen then
    .error (.rpTooLong value.length escapes)
  else .ok ⟨value⟩

/-- Result of `RpPacket::decode`: `Result<Option<Self>, InvalidPacket>` and the buffer after. -/
abbrev RpResult := Except InvalidPacket (Option RpPacket) × Bytes

/-- pkt.rs:410-420 `decode_unfinished`. -/
def RpPacket.decodeUnfinished (src : Bytes) : P RpResult :=
  if src.length ≥ RpPacket.maxLen then do
    let raw ← slice src 0 RpPacket.maxLen
    let src' ← advance src RpPacket.maxLen
    .ok (.error ⟨.rpNoEtx, raw⟩, src')
  else .ok (.ok none, src)

/-- pkt.rs:366-406: the `while let` loop and what follows it, at position `pos` with `data`
collected so far.  `fuel` bounds the iterations (each advances `pos`); `RpPacket.decode` supplies
enough. -/
def RpPacket.decodeLoop (src buf : Bytes) : Nat → Nat → Bytes → P RpResult
  | 0, _, _ => .error .unreachable
  | fuel + 1, pos, data => do
    let tail ← sliceFrom buf pos
    match memchr 0x10 tail with
    | none => RpPacket.decodeUnfinished src
    | some rel =>
      match buf[pos + rel + 1]? with
      | none => RpPacket.decodeUnfinished src
      | some b =>
        if b = 0x10 then do
          let s ← slice buf pos (pos + rel + 1)
          RpPacket.decodeLoop src buf fuel (pos + rel + 2) (data ++ s)
        else if b = 0x03 then do
          let s ← slice buf pos (pos + rel)
          let data := data ++ s
          match getTo buf (pos + rel + 4) with
          | none => .ok (.ok none, src)
          | some frame =>
            match last2 frame with
            | none => .ok (.ok none, src)
            | some (hi, lo) => do
              let crc := fromBeBytes hi lo
              let expected := RpPacket.crc data
              let pkt ← if expected ≠ crc then do
                  let raw ← slice buf 0 (pos + rel + 4)
                  Except.ok (Except.error ⟨.rpCrc expected, raw⟩)
                else Except.ok (Except.ok (some ⟨data⟩))
              let src' ← advance src (pos + rel + 4)
              .ok (pkt, src')
        else do
          let pos := pos + rel + 1
          let raw ← slice src 0 pos
          let src' ← advance src pos
          .ok (.error ⟨.rpBadEscape b, raw⟩, src')

/-- pkt.rs:359-407 `RpPacket::decode`. -/
def RpPacket.decode (src : Bytes) : P RpResult := do
  if src.length < 2 then .error .assertion          -- line 360
  else do
    let h ← slice src 0 2
    if h ≠ rpHeader then .error .assertion          -- line 361
    else do
      let buf ← slice src 0 (min src.length RpPacket.maxLen)
      RpPacket.decodeLoop src buf (buf.length + 1) 2 []

/-- pkt.rs:64-75: the scan for the next plausible packet start; `none` is the `return None` at
line 67.  `left` is the number of iterations `pos < MAX_LEN` still allows. -/
def Packet.scanLoop (src : Bytes) : Nat → Nat → P (Option Nat)
  | 0, pos => .ok (some pos)
  | left + 1, pos =>
    if pos + 2 = src.length then .ok none
    else do
      let tail ← sliceFrom src pos
      if startsWith tail rpHeader then .ok (some pos)
      else do
        let a ← idx src pos
        let b ← idx src (pos + 1)
        if (dehexByte a b).isSome then .ok (some pos)
        else Packet.scanLoop src left (pos + 1)

/-- pkt.rs:45-48, the RP branch of `Packet::decode`. -/
def Packet.decodeRp (src : Bytes) : P (Option Packet × Bytes) := do
  let (r, src') ← RpPacket.decode src
  match r with
  | .ok none => .ok (none, src')
  | .ok (some p) => .ok (some (.rp p), src')
  | .error i => .ok (some (.invalid i), src')

/-- pkt.rs:49-61, the ASCII branch of `Packet::decode`, with the decoded length byte. -/
def Packet.decodeAscii (src : Bytes) (n : UInt8) : P (Option Packet × Bytes) :=
  let len := 4 + n.toNat
  match getTo src len with
  | none => .ok (none, src)
  | some raw => do
    let r ← AsciiPacket.decode raw
    let pkt := match r with
      | .ok p => Packet.ascii p
      | .error e => Packet.invalid ⟨e, raw⟩
    let src' ← advance src len
    .ok (some pkt, src')

/-- pkt.rs:62-82, the resynchronisation branch of `Packet::decode`. -/
def Packet.decodeScan (src : Bytes) : P (Option Packet × Bytes) := do
  match ← Packet.scanLoop src InvalidPacket.maxLen 0 with
  | none => .ok (none, src)
  | some pos => do
    let raw ← slice src 0 pos
    let src' ← advance src pos
    .ok (some (.invalid ⟨.noPrefix, raw⟩), src')

/-- pkt.rs:41-83 `Packet::decode`: the result and the buffer afterwards. -/
def Packet.decode (src : Bytes) : P (Option Packet × Bytes) :=
  if src.length < 2 then .ok (none, src)
  else if startsWith src rpHeader then Packet.decodeRp src
  else do
    let a ← idx src 0
    let b ← idx src 1
    match dehexByte a b with
    | some n => Packet.decodeAscii src n
    | none => Packet.decodeScan src

/-- pkt.rs:85-91 `Packet::encode`: the bytes appended to `to`. -/
def Packet.encode : Packet → P Bytes
  | .ascii p => p.encode
  | .rp p => p.encode
  | .invalid p => .ok p.raw

end Elk
