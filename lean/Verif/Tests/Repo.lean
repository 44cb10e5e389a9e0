import Verif.Model.Init
/-!
# The unit tests of the repository, run on the model

Every `#[test]` and `#[tokio::test]` of /repo, transcribed: where the repository says what its code
does, the model does the same.  (These are tests of the model, not properties.)
-/

namespace Elk.Tests

/-- Whether a computation succeeds with a result that passes. -/
def passes {ε α : Type} (x : Except ε α) (f : α → Bool) : Bool :=
  match x with
  | .ok a => f a
  | .error _ => false

/-! ## elkm1/src/pkt.rs -/

/-- Decodes one packet that is the whole of the bytes, and encodes it again. -/
def roundTrip (bytes : Bytes) (p : Packet) : Bool :=
  passes (Packet.decode bytes) (fun x => decide (x = (some p, []))) &&
    passes p.encode (fun b => decide (b = bytes))

/-- pkt.rs:507-516 `valid_ascii`. -/
example : passes (AsciiPacket.tryFrom (bs "EE11030000100")) (fun p =>
    roundTrip (bs "0FEE11030000100EA\r\n") (.ascii p)) = true := by decide +kernel

/-- pkt.rs:518-528 `valid_rp`. -/
example : passes (RpPacket.tryFrom (bs "foo")) (fun p =>
    roundTrip ([0x10, 0x02] ++ bs "foo" ++ [0x10, 0x03, 0xaf, 0x96]) (.rp p)) = true := by
  decide +kernel

/-- pkt.rs:530-540 `valid_rp_with_escape`. -/
example : passes (RpPacket.tryFrom (bs "foo" ++ [0x10] ++ bs "bar")) (fun p =>
    roundTrip ([0x10, 0x02] ++ bs "foo" ++ [0x10, 0x10] ++ bs "bar" ++ [0x10, 0x03, 0x7c, 0x63])
      (.rp p)) = true := by decide +kernel

/-- pkt.rs:542-555 `bad_prefix`. -/
example :
    let dead : Bytes := [0xde, 0xad, 0xbe, 0xef]
    passes (Packet.decode (dead ++ bs "0FEE11030000100EA\r\n" ++ dead)) (fun x =>
      match x with
      | (some (.invalid _), rest) =>
        passes (Packet.decode rest) (fun y =>
          decide (y.1 = some (.ascii ⟨bs "EE11030000100"⟩)) &&
          passes (Packet.decode y.2) (fun z => decide (z.1 = none)))
      | _ => false) = true := by decide +kernel

/-! ## elkm1/src/msg.rs -/

/-- The text is read as the message, and the message is written as the text. -/
def reads (text : String) (m : Message) : Bool :=
  passes (AsciiPacket.tryFrom (bs text)) fun p =>
    passes (Message.parse (.ascii p)) (fun x => decide (x = some m)) &&
      passes m.toPkt (fun q => decide (q = .ascii p))

/-- The same everywhere. -/
def same (a : ArmingStatus) (u : ArmUpState) : ArmingStatusReport :=
  ⟨Vector.replicate 8 a, Vector.replicate 8 u, Vector.replicate 8 .noAlarmActive, 0⟩

/-- With another status in the first area. -/
def first (r : ArmingStatusReport) (a : ArmingStatus) (u : ArmUpState) : ArmingStatusReport :=
  { r with armingStatus := r.armingStatus.set 0 a, upState := r.upState.set 0 u }

/-- msg.rs:1515-1529 `valid_as_report_with_timer`. -/
example : reads "AS2000000031111111000000003B" (.armingStatusReport
    { first (same .disarmed .readyToArm) .armedStay .armedWithExitTimer with
      firstExitTime := 59 }) = true := by decide +kernel

/-- msg.rs:1531-1546 `valid_old_ee_report`. -/
example : reads "EE1103000000" (.sendTimeData ⟨⟨1⟩, .entry, 30, 0, none⟩) = true := by
  decide +kernel

/-- msg.rs:1548-1563 `valid_new_ee_report`. -/
example : reads "EE11030000100" (.sendTimeData ⟨⟨1⟩, .entry, 30, 0, some .armedAway⟩) = true := by
  decide +kernel

/-- msg.rs:1565-1578 `valid_new_ic_report`. -/
example : reads "IC0000010203040000100" (.sendCode ⟨#v[0, 0, 1, 2, 3, 4], 0, ⟨1⟩⟩) = true := by
  decide +kernel

/-- msg.rs:1580-1592 `valid_sd_req`. -/
example : reads "sd0100100" (.stringDescriptionRequest ⟨.area, 1⟩) = true := by decide +kernel

/-- msg.rs:1594-1607 `valid_sd_report`. -/
example : passes (TextDescription.new (bs "Garage Door")) (fun t =>
    reads "SD05001Garage Door     00" (.stringDescriptionResponse ⟨.task, 1, t⟩)) = true := by
  decide +kernel

/-- msg.rs:1609-1621 `valid_zc_report`. -/
example : reads "ZC016900" (.zoneChange ⟨⟨16⟩, ZoneStatus.new .violated .opened⟩) = true := by
  decide +kernel

/-- msg.rs:1623-1649 `suspicious`. -/
example :
    let disarmed := same .disarmed .readyToArm
    let arming := first disarmed .armedStay .armedWithExitTimer
    let armed := first disarmed .armedStay .armedFully
    disarmed.isTransitionSuspicious arming = false ∧ disarmed.isTransitionSuspicious armed = true ∧
    arming.isTransitionSuspicious armed = false ∧ armed.isTransitionSuspicious disarmed = false := by
  decide +kernel

/-- msg.rs:1651-1667 `rtc`. -/
example : passes (RtcData.fromAscii (bs "0059107251205110")) (fun r =>
    passes (DateTime.fromIso8601 (bs "2005-12-25T10:59:00")) (fun d =>
      decide (r = ⟨d, .sat, true, .twelveHour, .monthFirst⟩)) &&
    decide (r.toAscii = bs "0059107251205110")) = true := by decide +kernel

/-! ## elkm1/src/state.rs -/

/-- A poll. -/
def now : Cx := ⟨1, 0, 0⟩

/-- state.rs:545-549 `send_ascii`: the bytes of a packet. -/
def asciiBytes (text : String) : P Bytes := (Packet.ascii ⟨bs text⟩).encode

/-- state.rs:565-585 the answer of `serve_init` to a request. -/
def serve (state : PanelState) : Message → Option Message
  | .armingStatusRequest => state.armingStatus.map .armingStatusReport
  | .zoneStatusRequest => state.zoneStatuses.map .zoneStatusReport
  | .stringDescriptionRequest ⟨ty, num⟩ =>
    (state.names ty).map fun names =>
      let i := num.toNat - 1 + ((names.drop (num.toNat - 1)).takeWhile (·.isEmpty)).length
      match names[i]? with
      | some text => .stringDescriptionResponse ⟨ty, UInt8.ofNat i + 1, text⟩
      | none => .stringDescriptionResponse ⟨ty, 0, .empty⟩
  | _ => none

/-- state.rs:561-588, 612-614 `serve_init` and `with_connection` joined: for every request an
asynchronous message, then the answer. -/
def joined (state : PanelState) : Nat → Phase → P Phase
  | 0, ph => .ok ph
  | _ + 1, .finished r => .ok (.finished r)
  | n + 1, .asking i =>
    match serve state i.send with
    | none => .error .unreachable
    | some m => do
      let pkt ← m.toPkt
      let bytes ← pkt.encode
      let other ← asciiBytes "XK384014409022200000"
      let (_, ph) ← Phase.run [.tick now, .writable (.accept 100), .tick now,
        .arrive (.data (other ++ bytes)), .tick now, .tick now] (.asking i)
      joined state n ph

/-- state.rs:590-616 `init`. -/
example : passes (TextDescription.new (bs "front door")) (fun name =>
    let state : PanelState := { PanelState.default with
      armingStatus := some (same .disarmed .notReadyToArm)
      zoneStatuses := some ⟨(Vector.replicate 208 .unconfigured).set 0 (ZoneStatus.new .normal .eol)⟩
      zoneNames := (Vector.replicate 208 .empty).set 1 name }
    passes (Init.start {} >>= joined state 10) (fun ph =>
      match ph with
      | .finished (.ok p) => decide (p.state = state)
      | _ => false)) = true := by decide +kernel

/-- state.rs:642-653, 736-747 `INITIAL`. -/
def initial : PanelState := { PanelState.default with
  armingStatus := some (same .disarmed .readyToArm)
  zoneStatuses := some .allUnconfigured }

/-- state.rs:655-660, 748-753 the panel. -/
def panel : Panel := ⟨{}, initial, none, .idle⟩

/-- state.rs:622-637 `follow_activities`. -/
def follow : List (String × (Event → Panel → Bool)) → Panel → P Bool
  | [], _ => .ok true
  | (msg, checker) :: t, p => do
    let bytes ← asciiBytes msg
    let (_, p) ← p.step (.arrive (.data bytes))
    let (r, _, p) ← p.pollNext now
    match r with
    | .ready (some (.ok ev)) =>
      let rest ← follow t p
      .ok (decide (ev.pkt = some (.ascii ⟨bs msg⟩)) && checker ev p && rest)
    | _ => .ok false

/-- state.rs:639-731 `follow_arm_with_delay`. -/
example : passes (follow [
    ("IC0000000000000010200", fun ev _ => decide (ev.change = none)),
    ("LD117300111354021400022200", fun ev _ => decide (ev.change = none)),
    ("AS00000000111111110000000000", fun ev p => decide (ev.change = none ∧ p.pendingArm = none)),
    ("AM00000000", fun ev _ => decide (ev.change = none)),
    ("AS20000000411111110000000000", fun ev p =>
      decide (p.state = initial) && p.pendingArm.isSome && decide (ev.change = none)),
    ("AM00000000", fun ev _ => decide (ev.change = none)),
    ("AS20000000411111110000000000", fun ev p =>
      (match ev.change with
        | some (.armingStatus _) => true
        | _ => false) && decide (p.pendingArm = none) &&
      (match p.state.armingStatus with
        | some r => decide (r.armingStatus[0] = .armedStay)
        | none => false))] panel) id = true := by decide +kernel

/-- state.rs:733-777 `arm_bad_code`. -/
example : passes (ArmCode.tryFromNum 1234) (fun code =>
    passes (Panel.run [.pollReady now, .startSend (.arm ⟨⟨1⟩, .armedStay, code⟩),
        .writable (.accept 100), .pollFlush now] panel) (fun x =>
      passes (Packet.decode x.2.conn.sock.sent) (fun y =>
        match y.1 with
        | some pkt => passes (Message.parse pkt) (fun m =>
            match m with
            | some (.armRequest _) => true
            | _ => false)
        | none => false) &&
      (match x.2.cmdState with
        | .busy _ true _ => true
        | _ => false) &&
      passes (asciiBytes "IC0001020304140000100") (fun bytes =>
        passes (x.2.step (.arrive (.data bytes))) (fun y =>
          passes (y.2.pollNext now) (fun z =>
            (match z.1 with
              | .ready (some (.ok ev)) =>
                match ev.msg with
                | some (.ok (.sendCode _)) => true
                | _ => false
              | _ => false) &&
            decide (z.2.2.cmdState = .idle)))))) = true := by decide +kernel

end Elk.Tests
