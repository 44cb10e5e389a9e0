import Verif.Model.Msg
/-!
# Model of `fuzz/fuzz_targets/*.rs` and of the `Arbitrary` generators in `msg.rs`

The fuzz targets are part of the repository: they are its own statement of what must always hold.
A target that panics is a reported crash.

Simplifications.  The crate `arbitrary` turns the fuzzer's input into values.  Its source is not
part of the repository, so its primitives are modelled by what they document: `bytes n` and
`fill_buffer` give any bytes, `int_in_range` any number in the range, a derived implementation any
variant and any values of the fields.  Which input leads to which of these choices is left out, as
are the size hints (msg.rs:451-454, 530-532, 661-663, 917-919, 1385-1387), which say nothing about
the values.
-/

namespace Elk

/-! ## Generators -/

/-- A computation in `arbitrary::Result` over an `Unstructured` input. -/
inductive Gen (α : Type) : Type where
  | ret (a : α)
  /-- `Err(_)`: the input does not give a value; the fuzzer rejects it. -/
  | fail
  /-- `u.bytes(n)`, `u.fill_buffer(&mut [0; n])` -/
  | bytes (n : Nat) (k : Vector UInt8 n → Gen α)
  /-- `u.int_in_range(lo..=hi)` at type `u8` -/
  | range (lo hi : UInt8) (k : UInt8 → Gen α)
  /-- The choice of a variant in a derived implementation; `bool`, `Option`. -/
  | choose (n : Nat) (k : Fin n → Gen α)

/-- The values that a generator can give. -/
inductive Gen.Yields {α : Type} : Gen α → α → Prop
  | ret (a) : Yields (.ret a) a
  | bytes {n k a} (v : Vector UInt8 n) : Yields (k v) a → Yields (.bytes n k) a
  | range {lo hi k a} (x : UInt8) : lo ≤ x → x ≤ hi → Yields (k x) a → Yields (.range lo hi k) a
  | choose {n k a} (i : Fin n) : Yields (k i) a → Yields (.choose n k) a

/-- `?` -/
def Gen.bind {α β : Type} : Gen α → (α → Gen β) → Gen β
  | .ret a, f => f a
  | .fail, _ => .fail
  | .bytes n k, f => .bytes n fun v => (k v).bind f
  | .range lo hi k, f => .range lo hi fun x => (k x).bind f
  | .choose n k, f => .choose n fun i => (k i).bind f

instance : Monad Gen where
  pure := .ret
  bind := .bind

/-- `u8::arbitrary` -/
def Gen.u8 : Gen UInt8 := .bytes 1 fun v => .ret v[0]

/-- `bool::arbitrary` -/
def Gen.bool : Gen Bool := .choose 2 fun i => .ret (i == 1)

/-- `Option::<T>::arbitrary` -/
def Gen.option {α : Type} (g : Gen α) : Gen (Option α) :=
  .choose 2 fun i => if i = 0 then .ret none else do let a ← g; .ret (some a)

/-- `<[T; N]>::arbitrary` -/
def Gen.array {α : Type} (g : Gen α) : (n : Nat) → Gen (Vector α n)
  | 0 => .ret #v[]
  | n + 1 => do
    let v ← Gen.array g n
    let a ← g
    .ret (v.push a)

/-- msg.rs:303, 346 the derived generator of an enum without fields. -/
def Gen.enum {α : Type} [ByteEnum α] : Gen α :=
  .choose (ByteEnum.all (α := α)).length fun i => .ret ((ByteEnum.all (α := α)).get i)

/-- msg.rs:445-449 `ArmCode::arbitrary`. -/
def ArmCode.arbitrary : Gen ArmCode :=
  .bytes 3 fun buf =>
    let n : UInt32 := (buf[0].toUInt32 <<< 24) ||| (buf[1].toUInt32 <<< 16) ||| buf[2].toUInt32
    match ArmCode.tryFromNum n with
    | .ok c => .ret c
    | .error _ => .fail

/-- msg.rs:526-528 `arbitrary` of the limited numbers. -/
def Limited.arbitrary (max : UInt8) : Gen (Limited max.toNat) := .range 1 max fun x => .ret ⟨x⟩

/-- msg.rs:651-660 `DateTime::arbitrary`. -/
def DateTime.arbitrary : Gen DateTime :=
  .range 0 99 fun year =>
  .range 1 12 fun month =>
  .range 1 31 fun day =>
  .range 0 23 fun hour =>
  .range 0 59 fun minute =>
  .range 0 59 fun second =>
  .ret ⟨year, month, day, hour, minute, second⟩

/-- msg.rs:708 derived for `RtcData`. -/
def RtcData.arbitrary : Gen RtcData := do
  let datetime ← DateTime.arbitrary
  let weekday ← Gen.enum
  let dst ← Gen.bool
  let clockDisplay ← Gen.enum
  let dateDisplay ← Gen.enum
  .ret ⟨datetime, weekday, dst, clockDisplay, dateDisplay⟩

/-- msg.rs:909-915 `ZoneStatus::arbitrary`. -/
def ZoneStatus.arbitrary : Gen ZoneStatus :=
  .bytes 1 fun buf => if buf[0] &&& 0xF0 ≠ 0 then .fail else .ret ⟨buf[0]⟩

/-- msg.rs:1378-1383 `TextDescription::arbitrary`. -/
def TextDescription.arbitrary : Gen TextDescription :=
  .bytes 16 fun buf =>
    match checkPrintable buf.toList with
    | .ok _ => .ret ⟨buf⟩
    | .error _ => .fail

/-- msg.rs:83, 116-120 derived. -/
def ArmRequest.arbitrary : Gen ArmRequest := do
  let area ← Limited.arbitrary 8
  let level ← Gen.enum
  let code ← ArmCode.arbitrary
  .ret ⟨area, level, code⟩

/-- msg.rs:83, 130-135 derived. -/
def ArmingStatusReport.arbitrary : Gen ArmingStatusReport := do
  let armingStatus ← Gen.array Gen.enum 8
  let upState ← Gen.array Gen.enum 8
  let alarmState ← Gen.array Gen.enum 8
  let firstExitTime ← Gen.u8
  .ret ⟨armingStatus, upState, alarmState, firstExitTime⟩

/-- msg.rs:83, 140-149 derived. -/
def SendTimeData.arbitrary : Gen SendTimeData := do
  let area ← Limited.arbitrary 8
  let ty ← Gen.enum
  let timer1 ← Gen.u8
  let timer2 ← Gen.u8
  let armedState ← Gen.option Gen.enum
  .ret ⟨area, ty, timer1, timer2, armedState⟩

/-- msg.rs:83, 154-168 derived. -/
def SendCode.arbitrary : Gen SendCode := do
  let code ← Gen.array Gen.u8 6
  let user ← Gen.u8
  let keypad ← Limited.arbitrary 16
  .ret ⟨code, user, keypad⟩

/-- msg.rs:83, 186-189 derived. -/
def StringDescriptionRequest.arbitrary : Gen StringDescriptionRequest := do
  let ty ← Gen.enum
  let num ← Gen.u8
  .ret ⟨ty, num⟩

/-- msg.rs:83, 194-198 derived. -/
def StringDescriptionResponse.arbitrary : Gen StringDescriptionResponse := do
  let ty ← Gen.enum
  let num ← Gen.u8
  let text ← TextDescription.arbitrary
  .ret ⟨ty, num, text⟩

/-- msg.rs:83, 224-227 derived. -/
def ZoneChange.arbitrary : Gen ZoneChange := do
  let zone ← Limited.arbitrary 208
  let status ← ZoneStatus.arbitrary
  .ret ⟨zone, status⟩

/-- msg.rs:83, 236-238 derived. -/
def ZoneStatusReport.arbitrary : Gen ZoneStatusReport := do
  let zones ← Gen.array ZoneStatus.arbitrary 208
  .ret ⟨zones⟩

/-- msg.rs:47 derived: one generator for each variant, in order. -/
def Message.generators : List (Gen Message) := [
  do let m ← ArmRequest.arbitrary; .ret (.armRequest m),
  .ret .armingStatusRequest,
  do let m ← ArmingStatusReport.arbitrary; .ret (.armingStatusReport m),
  do let m ← SendTimeData.arbitrary; .ret (.sendTimeData m),
  do let m ← SendCode.arbitrary; .ret (.sendCode m),
  .ret .rtcRequest,
  do let m ← RtcData.arbitrary; .ret (.rtcResponse m),
  do let m ← StringDescriptionRequest.arbitrary; .ret (.stringDescriptionRequest m),
  do let m ← StringDescriptionResponse.arbitrary; .ret (.stringDescriptionResponse m),
  do let m ← Limited.arbitrary 32; .ret (.activateTask m),
  do let m ← Limited.arbitrary 32; .ret (.taskChange m),
  do let m ← RtcData.arbitrary; .ret (.heartbeat m),
  do let m ← ZoneChange.arbitrary; .ret (.zoneChange m),
  .ret .zoneStatusRequest,
  do let m ← ZoneStatusReport.arbitrary; .ret (.zoneStatusReport m)]

/-- msg.rs:47 derived for `Message`. -/
def Message.arbitrary : Gen Message :=
  .choose Message.generators.length fun i => Message.generators.get i

/-! ## Targets -/

/-- `assert!` -/
def assertP (c : Bool) : P Unit := if c then .ok () else .error .assertion

/-- depkt.rs:16-20 the loop: what is in `out` and `left` after it.  `fuel` bounds the iterations;
`Fuzz.depkt` supplies enough. -/
def Fuzz.depktLoop : Nat → Bytes → Bytes → P (Bytes × Bytes)
  | 0, _, _ => .error .unreachable
  | fuel + 1, left, out => do
    let (r, left) ← Packet.decode left
    match r with
    | none => .ok (out, left)
    | some pkt =>
      match Message.parse pkt with
      | .error (.panic p) => .error p
      | _ => do
        let w ← pkt.encode
        Fuzz.depktLoop fuel left (out ++ w)

/-- depkt.rs:13-24. -/
def Fuzz.depkt (data : Bytes) : P Unit := do
  let (out, left) ← Fuzz.depktLoop (data.length + 1) data []
  assertP (out ++ left == data)

/-- pkt.rs:13-17 the packet to try. -/
def Fuzz.pktOf : Bytes → Option (Except Reason Packet)
  | 0 :: body => some ((AsciiPacket.tryFrom body).map .ascii)
  | 1 :: body => some ((RpPacket.tryFrom body).map .rp)
  | _ => none

/-- pkt.rs:12-26. -/
def Fuzz.pkt (data : Bytes) : P Unit :=
  match Fuzz.pktOf data with
  | none => .ok ()
  | some (.error _) => .ok ()
  | some (.ok pkt) => do
    let buf ← pkt.encode
    let (r, buf) ← Packet.decode buf
    match r with
    | none => .error .expect
    | some q => do
      assertP (q == pkt)
      assertP (buf == [])

/-- msg.rs:12-15 (fuzz_targets). -/
def Fuzz.msg (m : Message) : P Unit := do
  let pkt ← m.toPkt
  match Message.parse pkt with
  | .error (.panic p) => .error p
  | .error (.err _) => .error .expect
  | .ok none => .error .expect
  | .ok (some q) => assertP (m == q)

end Elk
