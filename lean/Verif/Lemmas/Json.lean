import Verif.Model.Json
import Verif.Lemmas.Msg
import Verif.Props.Msg
/-!
# Lemmas about the serde representation of events
-/

namespace Elk
open Spec

theorem toU8_of (n : UInt8) : (Json.ofU8 n).toU8 = .ok n := by
  unfold Json.ofU8 Json.toU8
  dsimp only
  rw [if_pos n.toNat_lt, UInt8.ofNat_toNat]

theorem toBytes_of (l : Bytes) : (Json.ofBytes l).toBytes = .ok l := by
  unfold Json.ofBytes Json.toBytes
  dsimp only
  induction l with
  | nil => rfl
  | cons a l ih => rw [List.map_cons, List.mapM_cons, toU8_of, bind_ok, ih, bind_ok]; rfl

theorem toArr_of {α : Type} {n : Nat} {f : α → Json} {g : Json → R α} (h : ∀ a, g (f a) = .ok a)
    (v : Vector α n) : (Json.ofArr f v).toArr g n = .ok v := by
  unfold Json.ofArr Json.toArr
  dsimp only
  rw [R_bind_ok]
  refine ⟨(), failIf_ok.mpr (by simp), fillM_ok.mpr fun i hi => ?_⟩
  rw [R_bind_ok]
  refine ⟨f v[i], okOr_ok.mpr ?_, h _⟩
  simp [hi]

/-- A struct's field is found by its name. -/
theorem field_of {k : String} {l : List (Bytes × Json)} {j : Json} (h : l.lookup (bs k) = some j) :
    (Json.obj l).field k = .ok j := by
  unfold Json.field
  dsimp only
  rw [h]; rfl

theorem enum_of {α : Type} [Named α] (h : ∀ a : α,
    (ByteEnum.all (α := α)).find? (fun v => bs (Named.name v) == bs (Named.name a)) = some a)
    (a : α) : ByteEnum.deserialize (ByteEnum.serialize a) = .ok a := by
  unfold ByteEnum.deserialize ByteEnum.serialize
  dsimp only
  rw [h a]; rfl

theorem armLevel_of (a : ArmLevel) : ByteEnum.deserialize (ByteEnum.serialize a) = .ok a :=
  enum_of (by intro a; cases a <;> decide +kernel) a
theorem timeDataType_of (a : TimeDataType) : ByteEnum.deserialize (ByteEnum.serialize a) = .ok a :=
  enum_of (by intro a; cases a <;> decide +kernel) a
theorem armedState_of (a : ArmedState) : ByteEnum.deserialize (ByteEnum.serialize a) = .ok a :=
  enum_of (by intro a; cases a <;> decide +kernel) a
theorem weekday_of (a : Weekday) : ByteEnum.deserialize (ByteEnum.serialize a) = .ok a :=
  enum_of (by intro a; cases a <;> decide +kernel) a
theorem clock_of (a : ClockDisplayMode) : ByteEnum.deserialize (ByteEnum.serialize a) = .ok a :=
  enum_of (by intro a; cases a <;> decide +kernel) a
theorem date_of (a : DateDisplayMode) : ByteEnum.deserialize (ByteEnum.serialize a) = .ok a :=
  enum_of (by intro a; cases a <;> decide +kernel) a
theorem armingStatus_of (a : ArmingStatus) : ByteEnum.deserialize (ByteEnum.serialize a) = .ok a :=
  enum_of (by intro a; cases a <;> decide +kernel) a
theorem armUpState_of (a : ArmUpState) : ByteEnum.deserialize (ByteEnum.serialize a) = .ok a :=
  enum_of (by intro a; cases a <;> decide +kernel) a
theorem alarmState_of (a : AlarmState) : ByteEnum.deserialize (ByteEnum.serialize a) = .ok a :=
  enum_of (by intro a; cases a <;> decide +kernel) a
theorem textType_of (a : TextDescriptionType) :
    ByteEnum.deserialize (ByteEnum.serialize a) = .ok a :=
  enum_of (by intro a; cases a <;> decide +kernel) a

theorem limited_of {max : Nat} (x : Limited max) : Limited.ofJson max x.serialize = .ok x := by
  unfold Limited.ofJson Limited.serialize
  rw [toU8_of]; rfl

theorem zoneStatus_of (s : ZoneStatus) : ZoneStatus.ofJson s.serialize = .ok s := by
  unfold ZoneStatus.ofJson ZoneStatus.serialize
  rw [toU8_of]; rfl

theorem armCode_of (c : ArmCode) : ArmCode.ofJson c.serialize = .ok c := by
  unfold ArmCode.ofJson ArmCode.serialize
  rw [toArr_of toU8_of]; rfl

theorem text_of (t : TextDescription) : TextDescription.ofJson t.serialize = .ok t := by
  unfold TextDescription.ofJson TextDescription.serialize
  rw [toArr_of toU8_of]; rfl

theorem dateTime_of {d : DateTime} (h : WfDateTime d) :
    DateTime.ofJson .memory d.serialize = .ok d := by
  unfold DateTime.ofJson DateTime.serialize Json.toRefStr
  dsimp only
  rw [if_pos rfl, bind_ok]
  unfold DateTime.deserialize
  exact Props.C26_roundtrip_partial d h

/-- The fields of a struct literal. -/
macro "fields" : tactic => `(tactic| (rw [field_of (by rfl)]; rw [bind_ok]))

theorem rtcData_of {r : RtcData} (h : WfDateTime r.datetime) :
    RtcData.ofJson .memory r.serialize = .ok r := by
  unfold RtcData.ofJson RtcData.serialize
  fields; rw [dateTime_of h, bind_ok]
  fields; rw [weekday_of, bind_ok]
  fields; rw [show (Json.bool r.dst).toBool = .ok r.dst from rfl, bind_ok]
  fields; rw [clock_of, bind_ok]
  fields; rw [date_of, bind_ok]

theorem armRequest_of (m : ArmRequest) : ArmRequest.ofJson m.serialize = .ok m := by
  unfold ArmRequest.ofJson ArmRequest.serialize
  fields; rw [limited_of, bind_ok]
  fields; rw [armLevel_of, bind_ok]
  fields; rw [armCode_of, bind_ok]

theorem report_of (m : ArmingStatusReport) : ArmingStatusReport.ofJson m.serialize = .ok m := by
  unfold ArmingStatusReport.ofJson ArmingStatusReport.serialize
  fields; rw [toArr_of armingStatus_of, bind_ok]
  fields; rw [toArr_of armUpState_of, bind_ok]
  fields; rw [toArr_of alarmState_of, bind_ok]
  fields; rw [toU8_of, bind_ok]

theorem toOption_null {α : Type} {f : Json → R α} {k : String} {l : List (Bytes × Json)}
    (h : l.lookup (bs k) = some .null) : (Json.obj l).toOption f k = .ok none := by
  unfold Json.toOption
  dsimp only
  rw [h]

theorem toOption_some {α : Type} {f : Json → R α} {k : String} {l : List (Bytes × Json)} {j : Json}
    {a : α} (h : l.lookup (bs k) = some j) (hj : j ≠ .null) (ha : f j = .ok a) :
    (Json.obj l).toOption f k = .ok (some a) := by
  unfold Json.toOption
  dsimp only
  rw [h]
  cases j with
  | null => exact absurd rfl hj
  | _ => dsimp only; rw [ha, bind_ok]

theorem sendTimeData_of (m : SendTimeData) : SendTimeData.ofJson m.serialize = .ok m := by
  unfold SendTimeData.ofJson SendTimeData.serialize
  fields; rw [limited_of, bind_ok]
  fields; rw [timeDataType_of, bind_ok]
  fields; rw [toU8_of, bind_ok]
  fields; rw [toU8_of, bind_ok]
  obtain ⟨a, t, x, y, s⟩ := m
  cases s with
  | none => rw [toOption_null (by rfl), bind_ok]
  | some s =>
    rw [toOption_some (by rfl) (by unfold ByteEnum.serialize; simp) (armedState_of s), bind_ok]

theorem sendCode_of (m : SendCode) : SendCode.ofJson m.serialize = .ok m := by
  unfold SendCode.ofJson SendCode.serialize
  fields; rw [toArr_of toU8_of, bind_ok]
  fields; rw [toU8_of, bind_ok]
  fields; rw [limited_of, bind_ok]

theorem sdRequest_of (m : StringDescriptionRequest) :
    StringDescriptionRequest.ofJson m.serialize = .ok m := by
  unfold StringDescriptionRequest.ofJson StringDescriptionRequest.serialize
  fields; rw [textType_of, bind_ok]
  fields; rw [toU8_of, bind_ok]

theorem sdResponse_of (m : StringDescriptionResponse) :
    StringDescriptionResponse.ofJson m.serialize = .ok m := by
  unfold StringDescriptionResponse.ofJson StringDescriptionResponse.serialize
  fields; rw [textType_of, bind_ok]
  fields; rw [toU8_of, bind_ok]
  fields; rw [text_of, bind_ok]

theorem zoneChange_of (m : ZoneChange) : ZoneChange.ofJson m.serialize = .ok m := by
  unfold ZoneChange.ofJson ZoneChange.serialize
  fields; rw [limited_of, bind_ok]
  fields; rw [zoneStatus_of, bind_ok]

/-- The value is read back only from the variant it was written as. -/
theorem variant_of (k : String) (j : Json) : (Json.variant k j).toVariant = .ok (bs k, j) := rfl

/-- Only the dates of the clock messages need to be in range, and to be read from memory. -/
def Readable (src : Json.Source) : Message → Prop
  | .rtcResponse r => src = .memory ∧ WfDateTime r.datetime
  | .heartbeat r => src = .memory ∧ WfDateTime r.datetime
  | .zoneStatusReport _ => False
  | _ => True

/-- Reading a variant back, by its name. -/
macro "variants" : tactic => `(tactic|
  (unfold Message.ofJson
   rw [variant_of, bind_ok]
   dsimp only
   unfold Message.ofVariant
   repeat rw [if_neg (by decide)]
   rw [if_pos rfl]))

theorem message_of {src : Json.Source} {m : Message} (h : Readable src m) :
    ∃ j, m.serialize = .ok j ∧ j ≠ .null ∧ Message.ofJson src j = .ok m := by
  cases m with
  | zoneStatusReport r => exact absurd h id
  | rtcResponse r =>
    obtain ⟨rfl, hd⟩ := h
    refine ⟨_, rfl, by unfold Json.variant; simp, ?_⟩
    variants
    fields; rw [rtcData_of hd, bind_ok]
  | heartbeat r =>
    obtain ⟨rfl, hd⟩ := h
    refine ⟨_, rfl, by unfold Json.variant; simp, ?_⟩
    variants
    fields; rw [rtcData_of hd, bind_ok]
  | armRequest m =>
    refine ⟨_, rfl, by unfold Json.variant; simp, ?_⟩
    variants; rw [armRequest_of, bind_ok]
  | armingStatusReport m =>
    refine ⟨_, rfl, by unfold Json.variant; simp, ?_⟩
    variants; rw [report_of, bind_ok]
  | sendTimeData m =>
    refine ⟨_, rfl, by unfold Json.variant; simp, ?_⟩
    variants; rw [sendTimeData_of, bind_ok]
  | sendCode m =>
    refine ⟨_, rfl, by unfold Json.variant; simp, ?_⟩
    variants; rw [sendCode_of, bind_ok]
  | stringDescriptionRequest m =>
    refine ⟨_, rfl, by unfold Json.variant; simp, ?_⟩
    variants; rw [sdRequest_of, bind_ok]
  | stringDescriptionResponse m =>
    refine ⟨_, rfl, by unfold Json.variant; simp, ?_⟩
    variants; rw [sdResponse_of, bind_ok]
  | activateTask t =>
    refine ⟨_, rfl, by unfold Json.variant; simp, ?_⟩
    variants; fields; rw [limited_of, bind_ok]
  | taskChange t =>
    refine ⟨_, rfl, by unfold Json.variant; simp, ?_⟩
    variants; fields; rw [limited_of, bind_ok]
  | zoneChange m =>
    refine ⟨_, rfl, by unfold Json.variant; simp, ?_⟩
    variants; rw [zoneChange_of, bind_ok]
  | armingStatusRequest =>
    refine ⟨_, rfl, by unfold Json.variant; simp, ?_⟩
    variants; rfl
  | rtcRequest =>
    refine ⟨_, rfl, by unfold Json.variant; simp, ?_⟩
    variants; rfl
  | zoneStatusRequest =>
    refine ⟨_, rfl, by unfold Json.variant; simp, ?_⟩
    variants; rfl

theorem packet_of (p : Packet) : p.serialize ≠ .null ∧ Packet.ofJson p.serialize = .ok p := by
  cases p with
  | ascii p =>
    refine ⟨by unfold Packet.serialize Json.variant; simp, ?_⟩
    unfold Packet.ofJson Packet.serialize
    rw [variant_of, bind_ok]
    dsimp only
    rw [if_pos rfl]; rfl
  | rp p =>
    refine ⟨by unfold Packet.serialize Json.variant; simp, ?_⟩
    unfold Packet.ofJson Packet.serialize
    rw [variant_of, bind_ok]
    dsimp only
    rw [if_neg (by decide), if_pos rfl, toBytes_of]; rfl
  | invalid p =>
    refine ⟨by unfold Packet.serialize Json.variant; simp, ?_⟩
    unfold Packet.ofJson Packet.serialize
    rw [variant_of, bind_ok]
    dsimp only
    rw [if_neg (by decide), if_neg (by decide), if_pos rfl]
    fields
    rw [show (Json.str p.reason).toStr = .ok p.reason from rfl, bind_ok]
    fields; rw [toBytes_of, bind_ok]

theorem change_of (c : Change) : c.serialize ≠ .null ∧ Change.ofJson c.serialize = .ok c := by
  cases c with
  | zoneChange z s =>
    refine ⟨by unfold Change.serialize Json.variant; simp, ?_⟩
    unfold Change.ofJson Change.serialize
    rw [variant_of, bind_ok]
    dsimp only
    rw [if_pos rfl]
    fields; rw [limited_of, bind_ok]
    fields; rw [zoneStatus_of, bind_ok]
  | armingStatus r =>
    refine ⟨by unfold Change.serialize Json.variant; simp, ?_⟩
    unfold Change.ofJson Change.serialize
    rw [variant_of, bind_ok]
    dsimp only
    rw [if_neg (by decide), if_pos rfl]
    fields; rw [report_of, bind_ok]

theorem result_of {src : Json.Source} {r : Except Bytes Message}
    (h : ∀ m, r = .ok m → Readable src m) :
    ∃ j, serializeResult r = .ok j ∧ j ≠ .null ∧ resultOfJson src j = .ok r := by
  cases r with
  | error e =>
    refine ⟨_, rfl, by unfold Json.variant; simp, ?_⟩
    unfold resultOfJson
    rw [variant_of, bind_ok]
    dsimp only
    rw [if_neg (by decide), if_pos rfl]; rfl
  | ok m =>
    obtain ⟨j, h1, _, h2⟩ := message_of (h m rfl)
    refine ⟨.variant "Ok" j, ?_, by unfold Json.variant; simp, ?_⟩
    · unfold serializeResult
      dsimp only
      rw [h1, bind_ok]
    · unfold resultOfJson
      rw [variant_of, bind_ok]
      dsimp only
      rw [if_pos rfl, h2, bind_ok]

/-- An optional field, written and read back. -/
theorem option_of {α : Type} {f : α → P Json} {g : Json → R α} {o : Option α}
    (h : ∀ a, o = some a → ∃ j, f a = .ok j ∧ j ≠ .null ∧ g j = .ok a) :
    ∃ j, Json.ofOption f o = .ok j ∧
      ∀ k l, List.lookup (bs k) l = some j → (Json.obj l).toOption g k = .ok o := by
  cases o with
  | none => exact ⟨.null, rfl, fun k l hl => toOption_null hl⟩
  | some a =>
    obtain ⟨j, h1, h2, h3⟩ := h a rfl
    exact ⟨j, h1, fun k l hl => toOption_some hl h2 h3⟩

theorem event_of {src : Json.Source} {e : Event}
    (hm : ∀ m, e.msg = some (.ok m) → Readable src m)
    (hc : ∀ m, e.completes = some m → Readable src m) :
    ∃ j, e.serialize = .ok j ∧ Event.ofJson src j = .ok e := by
  obtain ⟨jp, p1, p2⟩ := option_of (o := e.pkt) (f := fun p => .ok p.serialize) (g := Packet.ofJson)
    fun p _ => ⟨_, rfl, packet_of p⟩
  obtain ⟨jm, m1, m2⟩ := option_of (o := e.msg) (f := serializeResult) (g := resultOfJson src)
    fun r hr => result_of fun m h => hm m (by rw [hr, h])
  obtain ⟨jc, c1, c2⟩ := option_of (o := e.completes) (f := Message.serialize)
    (g := Message.ofJson src) fun m h => message_of (hc m h)
  obtain ⟨jx, x1, x2⟩ := option_of (o := e.change) (f := fun c => .ok c.serialize)
    (g := Change.ofJson) fun c _ => ⟨_, rfl, change_of c⟩
  refine ⟨.obj [(bs "pkt", jp), (bs "msg", jm), (bs "completes", jc), (bs "change", jx)], ?_, ?_⟩
  · unfold Event.serialize
    rw [p1, bind_ok, m1, bind_ok, c1, bind_ok, x1, bind_ok]
  · unfold Event.ofJson
    rw [p2 _ _ (by rfl), bind_ok, m2 _ _ (by rfl), bind_ok, c2 _ _ (by rfl), bind_ok,
      x2 _ _ (by rfl), bind_ok]

end Elk
