import Verif.Lemmas.JsonText
import Verif.Lemmas.Json
/-!
# Lemmas: the length of printed JSON
-/

namespace Elk
open Elk.Spec

theorem newline_length (d : Nat) : (newline d).length = 1 + 2 * d := by
  simp [newline]; omega

/-! ## At least -/

theorem elems_ge (d c : Nat) (l : List Json) (h : ∀ x ∈ l, c ≤ (x.pretty d).length) :
    l.length * (2 + 2 * d + c) ≤ (Json.prettyElems d l).length := by
  induction l with
  | nil => simp
  | cons x l ih =>
    have h1 := ih fun y hy => h y (List.mem_cons_of_mem _ hy)
    have h2 := h x List.mem_cons_self
    rw [Json.prettyElems]
    simp only [List.length_append, List.length_nil, newline_length, List.length_cons,
      Nat.add_mul, Nat.one_mul]
    omega

theorem arr_ge (d c : Nat) (l : List Json) (h : ∀ x ∈ l, c ≤ (x.pretty (d + 1)).length) :
    l.length * (4 + 2 * d + c) ≤ ((Json.arr l).pretty d).length := by
  cases l with
  | nil => simp
  | cons x l =>
    have h1 := elems_ge (d + 1) c l fun y hy => h y (List.mem_cons_of_mem _ hy)
    rw [show 2 + 2 * (d + 1) + c = 4 + 2 * d + c by omega] at h1
    have h2 := h x List.mem_cons_self
    rw [Json.pretty]
    simp only [List.length_append, List.length_nil, newline_length, List.length_cons,
      Nat.add_mul, Nat.one_mul] at h1 ⊢
    omega

/-! ## At most -/

theorem elems_le (d c : Nat) (l : List Json) (h : ∀ x ∈ l, (x.pretty d).length ≤ c) :
    (Json.prettyElems d l).length ≤ l.length * (2 + 2 * d + c) := by
  induction l with
  | nil => simp [Json.prettyElems]
  | cons x l ih =>
    have h1 := ih fun y hy => h y (List.mem_cons_of_mem _ hy)
    have h2 := h x List.mem_cons_self
    rw [Json.prettyElems]
    simp only [List.length_append, List.length_nil, newline_length, List.length_cons,
      Nat.add_mul, Nat.one_mul]
    omega

theorem arr_le (d c : Nat) (l : List Json) (h : ∀ x ∈ l, (x.pretty (d + 1)).length ≤ c) :
    ((Json.arr l).pretty d).length ≤ 3 + 2 * d + l.length * (4 + 2 * d + c) := by
  cases l with
  | nil => rw [Json.pretty]; simp [show (bs "[]").length = 2 from rfl]; omega
  | cons x l =>
    have h1 := elems_le (d + 1) c l fun y hy => h y (List.mem_cons_of_mem _ hy)
    rw [show 2 + 2 * (d + 1) + c = 4 + 2 * d + c by omega] at h1
    have h2 := h x List.mem_cons_self
    rw [Json.pretty]
    simp only [List.length_append, List.length_nil, newline_length, List.length_cons,
      Nat.add_mul, Nat.one_mul] at h1 ⊢
    omega

theorem escape_le : ∀ b : UInt8, (jsonEscape b).length ≤ 6 := by
  apply forall_u8; decide +kernel

theorem escape_le_printable : ∀ b : UInt8, 0x20 ≤ b.toNat → (jsonEscape b).length ≤ 2 := by
  apply forall_u8; decide +kernel

theorem flatMap_le {c : Nat} (s : Bytes) (h : ∀ b ∈ s, (jsonEscape b).length ≤ c) :
    (s.flatMap jsonEscape).length ≤ c * s.length := by
  induction s with
  | nil => simp
  | cons b s ih =>
    have h1 := ih fun y hy => h y (List.mem_cons_of_mem _ hy)
    have h2 := h b List.mem_cons_self
    simp only [List.flatMap_cons, List.length_append, List.length_cons, Nat.mul_add, Nat.mul_one]
    omega

theorem string_le (s : Bytes) : (jsonString s).length ≤ 6 * s.length + 2 := by
  have := flatMap_le s fun b _ => escape_le b
  unfold jsonString
  simp only [List.length_append, List.length_singleton]
  omega

theorem string_le_printable (s : Bytes) (h : ∀ b ∈ s, 0x20 ≤ b.toNat) :
    (jsonString s).length ≤ 2 * s.length + 2 := by
  have := flatMap_le s fun b hb => escape_le_printable b (h b hb)
  unfold jsonString
  simp only [List.length_append, List.length_singleton]
  omega

theorem u8_le : ∀ n : UInt8, (decStr n.toNat).length ≤ 3 := by
  apply forall_u8; decide +kernel

theorem u8_pretty_le (d : Nat) (n : UInt8) : ((Json.ofU8 n).pretty d).length ≤ 3 := by
  unfold Json.ofU8; rw [Json.pretty]; exact u8_le n

theorem u8_arr_le (d : Nat) {n : Nat} (v : Vector UInt8 n) :
    ((Json.ofArr .ofU8 v).pretty d).length ≤ 3 + 2 * d + n * (7 + 2 * d) := by
  have := arr_le d 3 (v.toList.map Json.ofU8) (by
    intro x hx
    obtain ⟨b, _, rfl⟩ := List.mem_map.mp hx
    exact u8_pretty_le _ b)
  simp only [List.length_map, Vector.length_toList] at this
  unfold Json.ofArr
  rw [show 7 + 2 * d = 4 + 2 * d + 3 by omega]
  exact this

theorem bytes_le (d : Nat) (v : Bytes) :
    ((Json.ofBytes v).pretty d).length ≤ 3 + 2 * d + v.length * (7 + 2 * d) := by
  have := arr_le d 3 (v.map Json.ofU8) (by
    intro x hx
    obtain ⟨b, _, rfl⟩ := List.mem_map.mp hx
    exact u8_pretty_le _ b)
  simp only [List.length_map] at this
  unfold Json.ofBytes
  rw [show 7 + 2 * d = 4 + 2 * d + 3 by omega]
  exact this

/-- Names of variants are short. -/
class Short (α : Type) [Named α] : Prop where
  short : ∀ a : α, (jsonString (bs (Named.name a))).length ≤ 36

instance : Short ArmLevel := ⟨fun a => by cases a <;> decide +kernel⟩
instance : Short TimeDataType := ⟨fun a => by cases a <;> decide +kernel⟩
instance : Short ArmedState := ⟨fun a => by cases a <;> decide +kernel⟩
instance : Short Weekday := ⟨fun a => by cases a <;> decide +kernel⟩
instance : Short ClockDisplayMode := ⟨fun a => by cases a <;> decide +kernel⟩
instance : Short DateDisplayMode := ⟨fun a => by cases a <;> decide +kernel⟩
instance : Short ArmingStatus := ⟨fun a => by cases a <;> decide +kernel⟩
instance : Short ArmUpState := ⟨fun a => by cases a <;> decide +kernel⟩
instance : Short AlarmState := ⟨fun a => by cases a <;> decide +kernel⟩
instance : Short TextDescriptionType := ⟨fun a => by cases a <;> decide +kernel⟩

theorem enum_le {α : Type} [Named α] [Short α] (d : Nat) (a : α) :
    ((ByteEnum.serialize a).pretty d).length ≤ 36 := by
  unfold ByteEnum.serialize; rw [Json.pretty]; exact Short.short a

theorem enum_arr_le {α : Type} [Named α] [Short α] (d : Nat) {n : Nat} (v : Vector α n) :
    ((Json.ofArr ByteEnum.serialize v).pretty d).length ≤ 3 + 2 * d + n * (40 + 2 * d) := by
  have := arr_le d 36 (v.toList.map ByteEnum.serialize) (by
    intro x hx
    obtain ⟨b, _, rfl⟩ := List.mem_map.mp hx
    exact enum_le _ b)
  simp only [List.length_map, Vector.length_toList] at this
  unfold Json.ofArr
  rw [show 40 + 2 * d = 4 + 2 * d + 36 by omega]
  exact this

/-! ## Names of fields -/

theorem key_pkt : (jsonString (bs "pkt")).length = 5 := by decide +kernel
theorem key_msg : (jsonString (bs "msg")).length = 5 := by decide +kernel
theorem key_completes : (jsonString (bs "completes")).length = 11 := by decide +kernel
theorem key_change : (jsonString (bs "change")).length = 8 := by decide +kernel
theorem key_ascii : (jsonString (bs "ascii")).length = 7 := by decide +kernel
theorem key_rp : (jsonString (bs "rp")).length = 4 := by decide +kernel
theorem key_invalid : (jsonString (bs "invalid")).length = 9 := by decide +kernel
theorem key_reason : (jsonString (bs "reason")).length = 8 := by decide +kernel
theorem key_raw : (jsonString (bs "raw")).length = 5 := by decide +kernel
theorem key_Ok : (jsonString (bs "Ok")).length = 4 := by decide +kernel
theorem key_Err : (jsonString (bs "Err")).length = 5 := by decide +kernel
theorem key_zoneChange : (jsonString (bs "zoneChange")).length = 12 := by decide +kernel
theorem key_armingStatus : (jsonString (bs "armingStatus")).length = 14 := by decide +kernel
theorem key_zone : (jsonString (bs "zone")).length = 6 := by decide +kernel
theorem key_prior : (jsonString (bs "prior")).length = 7 := by decide +kernel
theorem key_upState : (jsonString (bs "upState")).length = 9 := by decide +kernel
theorem key_alarmState : (jsonString (bs "alarmState")).length = 12 := by decide +kernel
theorem key_firstExitTime : (jsonString (bs "firstExitTime")).length = 15 := by decide +kernel
theorem key_area : (jsonString (bs "area")).length = 6 := by decide +kernel
theorem key_ty : (jsonString (bs "ty")).length = 4 := by decide +kernel
theorem key_timer1 : (jsonString (bs "timer1")).length = 8 := by decide +kernel
theorem key_timer2 : (jsonString (bs "timer2")).length = 8 := by decide +kernel
theorem key_armedState : (jsonString (bs "armedState")).length = 12 := by decide +kernel
theorem key_code : (jsonString (bs "code")).length = 6 := by decide +kernel
theorem key_user : (jsonString (bs "user")).length = 6 := by decide +kernel
theorem key_keypad : (jsonString (bs "keypad")).length = 8 := by decide +kernel
theorem key_num : (jsonString (bs "num")).length = 5 := by decide +kernel
theorem key_text : (jsonString (bs "text")).length = 6 := by decide +kernel
theorem key_status : (jsonString (bs "status")).length = 8 := by decide +kernel
theorem key_datetime : (jsonString (bs "datetime")).length = 10 := by decide +kernel
theorem key_weekday : (jsonString (bs "weekday")).length = 9 := by decide +kernel
theorem key_dst : (jsonString (bs "dst")).length = 5 := by decide +kernel
theorem key_clock_display : (jsonString (bs "clock_display")).length = 15 := by decide +kernel
theorem key_date_display : (jsonString (bs "date_display")).length = 14 := by decide +kernel
theorem key_level : (jsonString (bs "level")).length = 7 := by decide +kernel
theorem key_rtcData : (jsonString (bs "rtcData")).length = 9 := by decide +kernel
theorem key_task : (jsonString (bs "task")).length = 6 := by decide +kernel
theorem key_armRequest : (jsonString (bs "armRequest")).length = 12 := by decide +kernel
theorem key_armingStatusRequest : (jsonString (bs "armingStatusRequest")).length = 21 := by decide +kernel
theorem key_armingStatusReport : (jsonString (bs "armingStatusReport")).length = 20 := by decide +kernel
theorem key_sendTimeData : (jsonString (bs "sendTimeData")).length = 14 := by decide +kernel
theorem key_sendCode : (jsonString (bs "sendCode")).length = 10 := by decide +kernel
theorem key_rtcRequest : (jsonString (bs "rtcRequest")).length = 12 := by decide +kernel
theorem key_rtcResponse : (jsonString (bs "rtcResponse")).length = 13 := by decide +kernel
theorem key_stringDescriptionRequest : (jsonString (bs "stringDescriptionRequest")).length = 26 := by decide +kernel
theorem key_stringDescriptionResponse : (jsonString (bs "stringDescriptionResponse")).length = 27 := by decide +kernel
theorem key_activateTask : (jsonString (bs "activateTask")).length = 14 := by decide +kernel
theorem key_taskChange : (jsonString (bs "taskChange")).length = 12 := by decide +kernel
theorem key_heartbeat : (jsonString (bs "heartbeat")).length = 11 := by decide +kernel
theorem key_zoneStatusRequest : (jsonString (bs "zoneStatusRequest")).length = 19 := by decide +kernel
theorem key_manufacturer : (jsonString (bs "manufacturer")).length = 14 := by decide +kernel
theorem key_model : (jsonString (bs "model")).length = 7 := by decide +kernel
theorem key_identifiers : (jsonString (bs "identifiers")).length = 13 := by decide +kernel
theorem key_availability_topic : (jsonString (bs "availability_topic")).length = 20 := by decide +kernel
theorem key_state_topic : (jsonString (bs "state_topic")).length = 13 := by decide +kernel
theorem key_command_topic : (jsonString (bs "command_topic")).length = 15 := by decide +kernel
theorem key_unique_id : (jsonString (bs "unique_id")).length = 11 := by decide +kernel
theorem key_name : (jsonString (bs "name")).length = 6 := by decide +kernel
theorem key_device : (jsonString (bs "device")).length = 8 := by decide +kernel
theorem key_device_class : (jsonString (bs "device_class")).length = 14 := by decide +kernel

theorem key_colon : (bs ": ").length = 2 := rfl

/-- Computes the length of a document from those of its parts. -/
macro "lengths" : tactic => `(tactic|
  simp only [Json.variant, Json.pretty, Json.prettyFields, Json.prettyElems, List.length_append, List.length_cons,
    List.length_nil, newline_length, key_colon,
    key_pkt, key_msg, key_completes, key_change, key_ascii,
    key_rp, key_invalid, key_reason, key_raw, key_Ok,
    key_Err, key_zoneChange, key_armingStatus, key_zone, key_prior,
    key_upState, key_alarmState, key_firstExitTime, key_area, key_ty,
    key_timer1, key_timer2, key_armedState, key_code, key_user,
    key_keypad, key_num, key_text, key_status, key_datetime,
    key_weekday, key_dst, key_clock_display, key_date_display, key_level,
    key_rtcData, key_task, key_armRequest, key_armingStatusRequest, key_armingStatusReport,
    key_sendTimeData, key_sendCode, key_rtcRequest, key_rtcResponse, key_stringDescriptionRequest,
    key_stringDescriptionResponse, key_activateTask, key_taskChange, key_heartbeat, key_zoneStatusRequest,
    key_manufacturer, key_model, key_identifiers, key_availability_topic, key_state_topic,
    key_command_topic, key_unique_id, key_name, key_device, key_device_class])

theorem null_le (d : Nat) : (Json.null.pretty d).length = 4 := by
  rw [Json.pretty]; rfl

theorem bool_le (d : Nat) (b : Bool) : ((Json.bool b).pretty d).length ≤ 5 := by
  cases b <;> rw [Json.pretty] <;> decide

theorem report_le (d : Nat) (r : ArmingStatusReport) :
    (r.serialize.pretty d).length ≤ 1200 + 100 * d := by
  have h1 := enum_arr_le (d + 1) r.armingStatus
  have h2 := enum_arr_le (d + 1) r.upState
  have h3 := enum_arr_le (d + 1) r.alarmState
  have h4 := u8_pretty_le (d + 1) r.firstExitTime
  unfold ArmingStatusReport.serialize
  lengths
  omega

theorem iso_le (x : DateTime) : x.toIso8601.length ≤ 40 := by
  have h : ∀ n : UInt8, (padDec 2 n.toNat).length ≤ 3 := by apply forall_u8; decide +kernel
  have h1 := h x.year
  have h2 := h x.month
  have h3 := h x.day
  have h4 := h x.hour
  have h5 := h x.minute
  have h6 := h x.second
  unfold DateTime.toIso8601
  simp only [List.length_append, List.length_cons, List.length_nil]
  omega

theorem rtc_le (d : Nat) (r : RtcData) :
    (r.serialize.pretty d).length ≤ 600 + 100 * d := by
  have h1 := string_le r.datetime.toIso8601
  have h2 := iso_le r.datetime
  have h3 := enum_le (d + 1) r.weekday
  have h4 := bool_le (d + 1) r.dst
  have h5 := enum_le (d + 1) r.clockDisplay
  have h6 := enum_le (d + 1) r.dateDisplay
  unfold RtcData.serialize DateTime.serialize
  lengths
  omega

theorem limited_le (d : Nat) {max : Nat} (x : Limited max) :
    (x.serialize.pretty d).length ≤ 3 := u8_pretty_le d x.val

theorem message_le (d : Nat) (m : Message) (j : Json) (h : m.serialize = .ok j) :
    (j.pretty d).length ≤ 1600 + 200 * d := by
  cases m with
  | armRequest m =>
    cases h
    have h1 := limited_le (d + 1 + 1) m.area
    have h2 := enum_le (d + 1 + 1) m.level
    have h3 := u8_arr_le (d + 1 + 1) m.code.code
    unfold ArmRequest.serialize ArmCode.serialize
    lengths
    omega
  | armingStatusRequest => cases h; lengths; rw [show (bs "{}").length = 2 from rfl]; omega
  | rtcRequest => cases h; lengths; rw [show (bs "{}").length = 2 from rfl]; omega
  | zoneStatusRequest => cases h; lengths; rw [show (bs "{}").length = 2 from rfl]; omega
  | armingStatusReport m =>
    cases h
    have h1 := report_le (d + 1) m
    lengths
    omega
  | sendTimeData m =>
    cases h
    have h1 := limited_le (d + 1 + 1) m.area
    have h2 := enum_le (d + 1 + 1) m.ty
    have h3 := u8_pretty_le (d + 1 + 1) m.timer1
    have h4 := u8_pretty_le (d + 1 + 1) m.timer2
    unfold SendTimeData.serialize
    cases m.armedState with
    | none => 
      have := null_le (d + 1 + 1)
      rw [Json.pretty] at this
      lengths; omega
    | some a =>
      have h5 := enum_le (d + 1 + 1) a
      lengths; omega
  | sendCode m =>
    cases h
    have h1 := limited_le (d + 1 + 1) m.keypad
    have h2 := u8_pretty_le (d + 1 + 1) m.user
    have h3 := u8_arr_le (d + 1 + 1) m.code
    unfold SendCode.serialize
    lengths
    omega
  | rtcResponse r =>
    cases h
    have h1 := rtc_le (d + 1 + 1) r
    lengths
    omega
  | heartbeat r =>
    cases h
    have h1 := rtc_le (d + 1 + 1) r
    lengths
    omega
  | stringDescriptionRequest m =>
    cases h
    have h1 := enum_le (d + 1 + 1) m.ty
    have h2 := u8_pretty_le (d + 1 + 1) m.num
    unfold StringDescriptionRequest.serialize
    lengths
    omega
  | stringDescriptionResponse m =>
    cases h
    have h1 := enum_le (d + 1 + 1) m.ty
    have h2 := u8_pretty_le (d + 1 + 1) m.num
    have h3 := u8_arr_le (d + 1 + 1) m.text.text
    unfold StringDescriptionResponse.serialize TextDescription.serialize
    lengths
    omega
  | activateTask x =>
    cases h
    have h1 := limited_le (d + 1 + 1) x
    lengths
    omega
  | taskChange x =>
    cases h
    have h1 := limited_le (d + 1 + 1) x
    lengths
    omega
  | zoneChange m =>
    cases h
    have h1 := limited_le (d + 1 + 1) m.zone
    have h2 := u8_pretty_le (d + 1 + 1) m.status.val
    unfold ZoneChange.serialize ZoneStatus.serialize
    lengths
    omega
  | zoneStatusReport m => cases h

theorem change_le (d : Nat) (c : Change) :
    (c.serialize.pretty d).length ≤ 1600 + 200 * d := by
  cases c with
  | zoneChange z p =>
    have h1 := limited_le (d + 1 + 1) z
    have h2 := u8_pretty_le (d + 1 + 1) p.val
    unfold Change.serialize ZoneStatus.serialize
    lengths
    omega
  | armingStatus p =>
    have h1 := report_le (d + 1 + 1) p
    unfold Change.serialize
    lengths
    omega

/-! ## Events -/

theorem packet_small_le (d : Nat) (p : AsciiPacket) (hp : ∀ b ∈ p.body, 0x20 ≤ b.toNat)
    (hl : p.body.length ≤ 253) :
    ((Packet.ascii p).serialize.pretty d).length ≤ 600 + 10 * d := by
  have h := string_le_printable p.body hp
  unfold Packet.serialize
  lengths
  omega

theorem packet_rp_le (p : RpPacket) {n : Nat} (hl : p.body.length ≤ n) :
    ((Packet.rp p).serialize.pretty 1).length ≤ 100 + 11 * n := by
  have h := bytes_le (1 + 1) p.body
  unfold Packet.serialize
  lengths
  omega

theorem packet_invalid_le (p : InvalidPacket) {n : Nat} (hl : p.raw.length ≤ n)
    (hr : (p.reason).length ≤ 100) :
    ((Packet.invalid p).serialize.pretty 1).length ≤ 800 + 13 * n := by
  have h := bytes_le (1 + 1 + 1) p.raw
  have h2 := string_le (p.reason)
  unfold Packet.serialize
  lengths
  omega

theorem packet_invalid_ge (p : InvalidPacket) :
    11 * p.raw.length ≤ ((Packet.invalid p).serialize.pretty 1).length := by
  have h := arr_ge (1 + 1 + 1) 1 (p.raw.map Json.ofU8) (fun x _ => pretty_pos _ x)
  unfold Packet.serialize Json.ofBytes
  rw [List.length_map] at h
  lengths
  omega

theorem big_digits : ∀ n : UInt8, 100 ≤ n.toNat → 3 ≤ (decStr n.toNat).length := by
  apply forall_u8; decide +kernel

theorem packet_rp_ge (p : RpPacket) (hb : ∀ b ∈ p.body, 100 ≤ b.toNat) :
    11 * p.body.length ≤ ((Packet.rp p).serialize.pretty 1).length := by
  have h := arr_ge (1 + 1) 3 (p.body.map Json.ofU8) (by
    intro x hx
    obtain ⟨b, hbm, rfl⟩ := List.mem_map.mp hx
    unfold Json.ofU8
    rw [Json.pretty]
    exact big_digits b (hb b hbm))
  unfold Packet.serialize Json.ofBytes
  rw [List.length_map] at h
  lengths
  omega

end Elk
