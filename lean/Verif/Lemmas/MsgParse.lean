import Verif.Lemmas.Msg
/-! # `Message::parse` and `Message::to_pkt` -/

namespace Elk
open Spec

/-- What `parse_ascii` accepts (msg.rs:250-281), by type of message. -/
def Accepts (cmd data : Bytes) : Message → Prop
  | .armRequest m => cmd ∈ armCmds ∧ ∃ b, idx cmd 1 = .ok b ∧ ArmRequest.fromAscii b data = .ok m
  | .armingStatusRequest => cmd = cmd2 'a' 's'
  | .armingStatusReport m => cmd = cmd2 'A' 'S' ∧ ArmingStatusReport.fromAsciiData data = .ok m
  | .sendTimeData m => cmd = cmd2 'E' 'E' ∧ SendTimeData.fromAsciiData data = .ok m
  | .sendCode m => cmd = cmd2 'I' 'C' ∧ SendCode.fromAsciiData data = .ok m
  | .rtcRequest => cmd = cmd2 'r' 'r'
  | .rtcResponse m => cmd = cmd2 'R' 'R' ∧ RtcData.fromAscii data = .ok m
  | .stringDescriptionRequest m => cmd = cmd2 's' 'd' ∧
      StringDescriptionRequest.fromAsciiData data = .ok m
  | .stringDescriptionResponse m => cmd = cmd2 'S' 'D' ∧
      StringDescriptionResponse.fromAsciiData data = .ok m
  | .activateTask m => cmd = cmd2 't' 'n' ∧ taskFromAsciiData data = .ok m
  | .taskChange m => cmd = cmd2 'T' 'C' ∧ taskFromAsciiData data = .ok m
  | .heartbeat m => cmd = cmd2 'X' 'K' ∧ RtcData.fromAscii data = .ok m
  | .zoneChange m => cmd = cmd2 'Z' 'C' ∧ ZoneChange.fromAsciiData data = .ok m
  | .zoneStatusRequest => cmd = cmd2 'z' 's'
  | .zoneStatusReport m => cmd = cmd2 'Z' 'S' ∧ ZoneStatusReport.fromAsciiData data = .ok m

theorem bind_some_ok {α : Type} {x : R α} {f : α → Message} {m : Message}
    (h : (do Except.ok (some (f (← x))) : R (Option Message)) = .ok (some m)) :
    ∃ a, x = .ok a ∧ f a = m := by
  rw [R_bind_ok] at h
  obtain ⟨a, ha, h⟩ := h
  injection h with h; injection h with h
  exact ⟨a, ha, h⟩

theorem ite_elim {c : Prop} [Decidable c] {α : Type} {a b x : α} {q : Prop}
    (h : (if c then a else b) = x) (h1 : c → a = x → q) (h2 : ¬c → b = x → q) : q := by
  by_cases hc : c
  · rw [if_pos hc] at h; exact h1 hc h
  · rw [if_neg hc] at h; exact h2 hc h

theorem NoPanic.ite {c : Prop} [Decidable c] {α : Type} {a b : R α}
    (h1 : c → NoPanic a) (h2 : NoPanic b) : NoPanic (if c then a else b) := by
  by_cases hc : c
  · rw [if_pos hc]; exact h1 hc
  · rw [if_neg hc]; exact h2

theorem dispatch_accepts {cmd data : Bytes} {m : Message}
    (h : Message.dispatch cmd data = .ok (some m)) : Accepts cmd data m := by
  unfold Message.dispatch at h
  refine ite_elim h (fun hc h => ?_) (fun hn h => ?_)
  · simp only [R_bind_ok, liftP_ok] at h
    obtain ⟨b, hb, m', hm, h⟩ := h
    injection h with h; injection h with h
    subst h
    exact ⟨hc, b, hb, hm⟩
  refine ite_elim h (fun hc h => ?_) (fun hn h => ?_)
  · cases h; assumption
  refine ite_elim h (fun hc h => ?_) (fun hn h => ?_)
  · obtain ⟨x, hx, rfl⟩ := bind_some_ok h; exact ⟨by assumption, hx⟩
  refine ite_elim h (fun hc h => ?_) (fun hn h => ?_)
  · obtain ⟨x, hx, rfl⟩ := bind_some_ok h; exact ⟨by assumption, hx⟩
  refine ite_elim h (fun hc h => ?_) (fun hn h => ?_)
  · obtain ⟨x, hx, rfl⟩ := bind_some_ok h; exact ⟨by assumption, hx⟩
  refine ite_elim h (fun hc h => ?_) (fun hn h => ?_)
  · cases h; assumption
  refine ite_elim h (fun hc h => ?_) (fun hn h => ?_)
  · obtain ⟨x, hx, rfl⟩ := bind_some_ok h; exact ⟨by assumption, hx⟩
  refine ite_elim h (fun hc h => ?_) (fun hn h => ?_)
  · obtain ⟨x, hx, rfl⟩ := bind_some_ok h; exact ⟨by assumption, hx⟩
  refine ite_elim h (fun hc h => ?_) (fun hn h => ?_)
  · obtain ⟨x, hx, rfl⟩ := bind_some_ok h; exact ⟨by assumption, hx⟩
  refine ite_elim h (fun hc h => ?_) (fun hn h => ?_)
  · obtain ⟨x, hx, rfl⟩ := bind_some_ok h; exact ⟨by assumption, hx⟩
  refine ite_elim h (fun hc h => ?_) (fun hn h => ?_)
  · obtain ⟨x, hx, rfl⟩ := bind_some_ok h; exact ⟨by assumption, hx⟩
  refine ite_elim h (fun hc h => ?_) (fun hn h => ?_)
  · obtain ⟨x, hx, rfl⟩ := bind_some_ok h; exact ⟨by assumption, hx⟩
  refine ite_elim h (fun hc h => ?_) (fun hn h => ?_)
  · obtain ⟨x, hx, rfl⟩ := bind_some_ok h; exact ⟨by assumption, hx⟩
  refine ite_elim h (fun hc h => ?_) (fun hn h => ?_)
  · cases h; assumption
  refine ite_elim h (fun hc h => ?_) (fun hn h => ?_)
  · obtain ⟨x, hx, rfl⟩ := bind_some_ok h; exact ⟨by assumption, hx⟩
  · cases h

theorem accepts_dispatch {cmd data : Bytes} {m : Message} (h : Accepts cmd data m) :
    Message.dispatch cmd data = .ok (some m) := by
  cases m with
  | armRequest m =>
    obtain ⟨hc, b, hb, hm⟩ := h
    unfold Message.dispatch
    rw [if_pos hc, hb]
    simp only [liftP, R_ok_bind, hm]
  | armingStatusRequest => rw [show cmd = _ from h]; rfl
  | rtcRequest => rw [show cmd = _ from h]; rfl
  | zoneStatusRequest => rw [show cmd = _ from h]; rfl
  | _ =>
    obtain ⟨hc, hm⟩ := h
    subst hc
    unfold Message.dispatch
    repeat rw [if_neg (by decide)]
    rw [if_pos rfl, hm]
    rfl

theorem dispatch_iff {cmd data : Bytes} {m : Message} :
    Message.dispatch cmd data = .ok (some m) ↔ Accepts cmd data m :=
  ⟨dispatch_accepts, accepts_dispatch⟩

theorem parse_iff {body : Bytes} {m : Message} :
    Message.parse (.ascii ⟨body⟩) = .ok (some m) ↔
      4 ≤ body.length ∧ Accepts (body.take 2) (body.drop 2) m := by
  unfold Message.parse Message.parseAscii
  dsimp only
  split
  · rename_i h
    constructor
    · intro h; cases h
    · intro h; omega
  · rename_i h
    rw [dispatch_iff]
    exact ⟨fun h' => ⟨by omega, h'⟩, fun h' => h'.2⟩

theorem armCmds_iff {cmd : Bytes} :
    cmd ∈ armCmds ↔ ∃ l : ArmLevel, cmd = [b' 'a', ByteEnum.code l] := by
  constructor
  · intro h
    simp only [armCmds, List.mem_cons, List.not_mem_nil, or_false] at h
    rcases h with h | h | h | h | h | h | h | h | h | h | h
    · exact ⟨.disarm, h⟩
    · exact ⟨.armedAway, h⟩
    · exact ⟨.armedStay, h⟩
    · exact ⟨.armedStayInstant, h⟩
    · exact ⟨.armedNight, h⟩
    · exact ⟨.armedNightInstant, h⟩
    · exact ⟨.armedVacation, h⟩
    · exact ⟨.armToNextAwayMode, h⟩
    · exact ⟨.armToNextStayMode, h⟩
    · exact ⟨.forceArmToAway, h⟩
    · exact ⟨.forceArmToStay, h⟩
  · rintro ⟨l, rfl⟩
    cases l <;> decide

theorem clock_plus {r : RtcData} {x : Bytes} (h : ClockWritten r x) : PlusEq x (rtcText r) := by
  obtain ⟨s, mi, hr, d, mo, y, h1, h2, h3, h4, h5, h6, rfl⟩ := h
  unfold rtcText
  exact (((((((((two_plus h1).append (two_plus h2)).append (two_plus h3)).append (.refl _)).append
    (two_plus h4)).append (two_plus h5)).append (two_plus h6)).append (.refl _)).append
    (.refl _)).append (.refl _)

theorem written_plus {m : Message} {x : Bytes} (h : Written m x) : PlusEq x (msgData m) := by
  cases m with
  | sendTimeData m =>
    obtain ⟨t1, t2, h1, h2, rfl⟩ := h
    exact (((Spec.PlusEq.refl _).append (three_plus h1)).append (three_plus h2)).append (.refl _)
  | sendCode m =>
    obtain ⟨u, k, h1, h2, rfl⟩ := h
    exact ((Spec.PlusEq.refl _).append (three_plus h1)).append (two_plus h2)
  | rtcResponse m => exact clock_plus h
  | heartbeat m => exact clock_plus h
  | stringDescriptionRequest m =>
    obtain ⟨t, n, h1, h2, rfl⟩ := h
    exact (two_plus h1).append (three_plus h2)
  | stringDescriptionResponse m =>
    obtain ⟨t, n, h1, h2, rfl⟩ := h
    exact ((two_plus h1).append (three_plus h2)).append (.refl _)
  | activateTask t => exact three_plus h
  | taskChange t => exact three_plus h
  | zoneChange m =>
    obtain ⟨z, h1, rfl⟩ := h
    exact (three_plus h1).append (.refl _)
  | _ => rw [show x = _ from h]; exact .refl _

theorem clock_canon {r : RtcData} (h : WfDateTime r.datetime) : ClockWritten r (rtcText r) := by
  obtain ⟨hy, hmo, hd, hh, hmi, hs⟩ := h
  exact ⟨_, _, _, _, _, _, two_canon (by omega), two_canon (by omega), two_canon (by omega),
    two_canon (by omega), two_canon (by omega), two_canon (by omega), rfl⟩

/-- The canonical text is one of those understood. -/
theorem written_canon {m : Message} (h : WfMessage m) : Written m (msgData m) := by
  cases m with
  | sendTimeData m => exact ⟨_, _, three_canon _, three_canon _, rfl⟩
  | sendCode m => exact ⟨_, _, three_canon _, two_canon (by have := h.2; omega), rfl⟩
  | rtcResponse m => exact clock_canon h
  | heartbeat m => exact clock_canon h
  | stringDescriptionRequest m =>
    exact ⟨_, _, two_canon (by rw [textType_num]; exact textType_lt _), three_canon _, rfl⟩
  | stringDescriptionResponse m =>
    exact ⟨_, _, two_canon (by rw [textType_num]; exact textType_lt _), three_canon _, rfl⟩
  | activateTask t => exact three_canon _
  | taskChange t => exact three_canon _
  | zoneChange m => exact ⟨_, three_canon _, rfl⟩
  | _ => rfl

theorem accepts_fwd {m : Message} (h : WfMessage m) {x y : Bytes} (hx : Written m x)
    (hy : TailOk m y) : Accepts [b' (msgCode m).1, b' (msgCode m).2] (x ++ y) m := by
  cases m with
  | armRequest m =>
    refine ⟨armCmds_iff.mpr ⟨m.level, by rw [← armLevel_char]; rfl⟩, b' (armLevelChar m.level), rfl, ?_⟩
    rw [show x = _ from hx]
    exact armRequest_fwd h hy
  | armingStatusRequest => rfl
  | rtcRequest => rfl
  | zoneStatusRequest => rfl
  | armingStatusReport m => exact ⟨rfl, by rw [show x = _ from hx]; exact arming_fwd m y⟩
  | sendTimeData m => exact ⟨rfl, sendTimeData_fwd h hx hy⟩
  | sendCode m => exact ⟨rfl, sendCode_fwd h hx hy⟩
  | rtcResponse m => exact ⟨rfl, rtc_fwd h hx y⟩
  | stringDescriptionRequest m => exact ⟨rfl, sdRequest_fwd hx y⟩
  | stringDescriptionResponse m => exact ⟨rfl, sdResponse_fwd hx y⟩
  | activateTask m => exact ⟨rfl, task_fwd h hx y⟩
  | taskChange m => exact ⟨rfl, task_fwd h hx y⟩
  | heartbeat m => exact ⟨rfl, rtc_fwd h hx y⟩
  | zoneChange m => exact ⟨rfl, zoneChange_fwd h hx y⟩
  | zoneStatusReport m => exact ⟨rfl, by rw [show x = _ from hx]; exact zoneStatusReport_fwd h y⟩

theorem accepts_bwd {cmd data : Bytes} {m : Message} (h : Accepts cmd data m)
    (hp : ∀ b ∈ data, Printable b) (hd : 2 ≤ data.length) :
    cmd = [b' (msgCode m).1, b' (msgCode m).2] ∧ WfMessage m ∧
      ∃ x y, data = x ++ y ∧ Written m x ∧ TailOk m y := by
  cases m with
  | armRequest m =>
    obtain ⟨hc, b, hb, h⟩ := h
    obtain ⟨l, rfl⟩ := armCmds_iff.mp hc
    simp [idx] at hb
    obtain ⟨h1, h2, x, y, h3, h4, h5⟩ := armRequest_bwd h
    refine ⟨?_, h2, x, y, h3, h4, h5⟩
    rw [hb, h1]; rfl
  | armingStatusRequest => exact ⟨h, trivial, [], data, rfl, rfl, hd⟩
  | rtcRequest => exact ⟨h, trivial, [], data, rfl, rfl, hd⟩
  | zoneStatusRequest => exact ⟨h, trivial, [], data, rfl, rfl, hd⟩
  | armingStatusReport m =>
    obtain ⟨x, y, h1, h2⟩ := arming_bwd h.2
    exact ⟨h.1, trivial, x, y, h1, h2, trivial⟩
  | sendTimeData m => exact ⟨h.1, sendTimeData_bwd h.2⟩
  | sendCode m => exact ⟨h.1, sendCode_bwd h.2⟩
  | rtcResponse m =>
    obtain ⟨hw, x, y, h1, h2⟩ := rtc_bwd h.2
    exact ⟨h.1, hw, x, y, h1, h2, trivial⟩
  | stringDescriptionRequest m =>
    obtain ⟨x, y, h1, h2⟩ := sdRequest_bwd h.2
    exact ⟨h.1, trivial, x, y, h1, h2, trivial⟩
  | stringDescriptionResponse m =>
    obtain ⟨hw, x, y, h1, h2⟩ := sdResponse_bwd h.2
    exact ⟨h.1, fun b hb => hp b (hw b hb), x, y, h1, h2, trivial⟩
  | activateTask m =>
    obtain ⟨hw, x, y, h1, h2⟩ := task_bwd h.2
    exact ⟨h.1, hw, x, y, h1, h2, trivial⟩
  | taskChange m =>
    obtain ⟨hw, x, y, h1, h2⟩ := task_bwd h.2
    exact ⟨h.1, hw, x, y, h1, h2, trivial⟩
  | heartbeat m =>
    obtain ⟨hw, x, y, h1, h2⟩ := rtc_bwd h.2
    exact ⟨h.1, hw, x, y, h1, h2, trivial⟩
  | zoneChange m =>
    obtain ⟨hw, x, y, h1, h2⟩ := zoneChange_bwd h.2
    exact ⟨h.1, hw, x, y, h1, h2, trivial⟩
  | zoneStatusReport m =>
    obtain ⟨hw, x, y, h1, h2⟩ := zoneStatusReport_bwd h.2
    exact ⟨h.1, hw, x, y, h1, h2, trivial⟩

theorem NoPanic.dispatch (cmd data : Bytes) : NoPanic (Message.dispatch cmd data) := by
  unfold Message.dispatch
  refine NoPanic.ite (fun hc => ?_) ?_
  · obtain ⟨l, rfl⟩ := armCmds_iff.mp hc
    refine NoPanic.bind (NoPanic.idx (by simp)) fun b hb => ?_
    rw [liftP_ok, idx_ok_iff] at hb
    simp at hb
    exact NoPanic.bind (NoPanic.armRequest ⟨l, hb⟩ _) fun _ _ => NoPanic.ok _
  refine NoPanic.ite (fun _ => ?_) ?_
  · exact NoPanic.ok _
  refine NoPanic.ite (fun _ => ?_) ?_
  · exact NoPanic.bind (NoPanic.arming _) fun _ _ => NoPanic.ok _
  refine NoPanic.ite (fun _ => ?_) ?_
  · exact NoPanic.bind (NoPanic.sendTimeData _) fun _ _ => NoPanic.ok _
  refine NoPanic.ite (fun _ => ?_) ?_
  · exact NoPanic.bind (NoPanic.sendCode _) fun _ _ => NoPanic.ok _
  refine NoPanic.ite (fun _ => ?_) ?_
  · exact NoPanic.ok _
  refine NoPanic.ite (fun _ => ?_) ?_
  · exact NoPanic.bind (NoPanic.rtc _) fun _ _ => NoPanic.ok _
  refine NoPanic.ite (fun _ => ?_) ?_
  · exact NoPanic.bind (NoPanic.sdRequest _) fun _ _ => NoPanic.ok _
  refine NoPanic.ite (fun _ => ?_) ?_
  · exact NoPanic.bind (NoPanic.sdResponse _) fun _ _ => NoPanic.ok _
  refine NoPanic.ite (fun _ => ?_) ?_
  · exact NoPanic.bind (NoPanic.task _) fun _ _ => NoPanic.ok _
  refine NoPanic.ite (fun _ => ?_) ?_
  · exact NoPanic.bind (NoPanic.task _) fun _ _ => NoPanic.ok _
  refine NoPanic.ite (fun _ => ?_) ?_
  · exact NoPanic.bind (NoPanic.rtc _) fun _ _ => NoPanic.ok _
  refine NoPanic.ite (fun _ => ?_) ?_
  · exact NoPanic.bind (NoPanic.zoneChange _) fun _ _ => NoPanic.ok _
  refine NoPanic.ite (fun _ => ?_) ?_
  · exact NoPanic.ok _
  refine NoPanic.ite (fun _ => ?_) ?_
  · exact NoPanic.bind (NoPanic.zoneStatusReport _) fun _ _ => NoPanic.ok _
  · exact NoPanic.ok _

/-! ## Printing -/

theorem dig_printable {n : Nat} (h : n < 10) : Printable (dig n) := by
  have : ∀ n : Fin 10, 0x20 ≤ (dig n).toNat ∧ (dig n).toNat ≤ 0x7e := by decide +kernel
  exact this ⟨n, h⟩

theorem hexDigit_printable {n : Nat} (h : n < 16) : Printable (hexDigit n) := by
  have : ∀ n : Fin 16, 0x20 ≤ (hexDigit n).toNat ∧ (hexDigit n).toNat ≤ 0x7e := by decide +kernel
  exact this ⟨n, h⟩

theorem dec2_printable {n : UInt8} (h : n.toNat < 100) : ∀ b ∈ dec2 n, Printable b := by
  intro b hb
  simp [dec2] at hb
  rcases hb with rfl | rfl
  · exact dig_printable (by omega)
  · exact dig_printable (by omega)

theorem dec3_printable (n : UInt8) : ∀ b ∈ dec3 n, Printable b := by
  intro b hb
  have := n.toNat_lt
  simp [dec3] at hb
  rcases hb with rfl | rfl | rfl
  · exact dig_printable (by omega)
  · exact dig_printable (by omega)
  · exact dig_printable (by omega)

theorem hex2_printable (n : UInt8) : ∀ b ∈ hex2 n.toNat, Printable b := by
  intro b hb
  have := n.toNat_lt
  simp [hex2] at hb
  rcases hb with rfl | rfl
  · exact hexDigit_printable (by omega)
  · exact hexDigit_printable (by omega)

theorem code_printable {α : Type} [ByteEnum α] (f : α → Char)
    (h : ∀ a : α, Printable (b' (f a))) (l : List α) :
    ∀ b ∈ l.map (fun a => b' (f a)), Printable b := by
  intro b hb
  obtain ⟨a, _, rfl⟩ := List.mem_map.mp hb
  exact h a

theorem forall_append {p : UInt8 → Prop} {a b : Bytes} (ha : ∀ x ∈ a, p x) (hb : ∀ x ∈ b, p x) :
    ∀ x ∈ a ++ b, p x := by
  intro x hx
  rcases List.mem_append.mp hx with h | h
  · exact ha x h
  · exact hb x h

theorem forall_single {p : UInt8 → Prop} {a : UInt8} (ha : p a) : ∀ x ∈ [a], p x := by
  intro x hx; rw [List.mem_singleton.mp hx]; exact ha

theorem rtcText_printable {r : RtcData} (h : WfDateTime r.datetime) :
    ∀ b ∈ rtcText r, Printable b := by
  obtain ⟨hy, hmo, hd, hh, hmi, hs⟩ := h
  unfold rtcText
  refine forall_append (forall_append (forall_append (forall_append (forall_append (forall_append
    (forall_append (forall_append (forall_append ?_ ?_) ?_) ?_) ?_) ?_) ?_) ?_) ?_) ?_
  · exact dec2_printable (by omega)
  · exact dec2_printable (by omega)
  · exact dec2_printable (by omega)
  · exact forall_single (by cases r.weekday <;> (unfold Printable; decide))
  · exact dec2_printable (by omega)
  · exact dec2_printable (by omega)
  · exact dec2_printable (by omega)
  · exact forall_single (by cases r.dst <;> (unfold Printable; decide))
  · exact forall_single (by cases r.clockDisplay <;> (unfold Printable; decide))
  · exact forall_single (by cases r.dateDisplay <;> (unfold Printable; decide))

theorem msgData_printable {m : Message} (h : WfMessage m) : ∀ b ∈ msgData m, Printable b := by
  cases m with
  | armRequest m =>
    refine forall_append (forall_single (dig_printable (by have := h.1.2; omega))) ?_
    intro b hb
    have := h.2 b hb
    unfold IsDigit at this
    unfold Printable; omega
  | armingStatusRequest => simp [msgData]
  | rtcRequest => simp [msgData]
  | zoneStatusRequest => simp [msgData]
  | armingStatusReport m =>
    refine forall_append (forall_append (forall_append ?_ ?_) ?_) (hex2_printable _)
    · exact code_printable _ (by intro a; cases a <;> (unfold Printable; decide)) _
    · exact code_printable _ (by intro a; cases a <;> (unfold Printable; decide)) _
    · exact code_printable _ (by intro a; cases a <;> (unfold Printable; decide)) _
  | sendTimeData m =>
    refine forall_append (forall_append (forall_append ?_ (dec3_printable _)) (dec3_printable _)) ?_
    · intro b hb
      simp at hb
      rcases hb with rfl | rfl
      · exact dig_printable (by have := h.2; omega)
      · cases m.ty <;> (unfold Printable; decide)
    · exact code_printable _ (by intro a; cases a <;> (unfold Printable; decide)) _
  | sendCode m =>
    refine forall_append (forall_append ?_ (dec3_printable _)) (dec2_printable ?_)
    · intro b hb
      obtain ⟨c, _, hc⟩ := List.mem_flatMap.mp hb
      exact hex2_printable c b hc
    · have := h.2; omega
  | rtcResponse m => exact rtcText_printable h
  | stringDescriptionRequest m =>
    refine forall_append (dec2_printable ?_) (dec3_printable _)
    rw [textType_num]; exact textType_lt _
  | stringDescriptionResponse m =>
    refine forall_append (forall_append (dec2_printable ?_) (dec3_printable _)) h
    rw [textType_num]; exact textType_lt _
  | activateTask m => exact dec3_printable _
  | taskChange m => exact dec3_printable _
  | heartbeat m => exact rtcText_printable h
  | zoneChange m => exact forall_append (dec3_printable _) (forall_single (hexDigit_printable h.2))
  | zoneStatusReport m =>
    intro b hb
    obtain ⟨z, hz, rfl⟩ := List.mem_map.mp hb
    exact hexDigit_printable (h z hz)

theorem msgData_length (m : Message) : (msgData m).length ≤ 208 := by
  cases m <;> simp [msgData, rtcText, dec2, dec3, hex2, List.length_flatMap, List.map_const']
  rename_i m
  cases m.armedState <;> simp

theorem msgCode_printable (m : Message) :
    Printable (b' (msgCode m).1) ∧ Printable (b' (msgCode m).2) := by
  cases m with
  | armRequest m => exact ⟨by show Printable (b' 'a'); unfold Printable; decide, by
      show Printable (b' (armLevelChar m.level)); cases m.level <;> (unfold Printable; decide)⟩
  | _ => simp only [msgCode]; unfold Printable; decide

theorem sentText_valid {m : Message} (h : WfMessage m) : ValidAsciiBody (sentText m) := by
  have hl := msgData_length m
  have hr : reservedLen m ≤ 3 := by cases m <;> simp [reservedLen]
  refine ⟨by simp [sentText, msgText], by simp [sentText, msgText]; omega, ?_⟩
  unfold sentText msgText
  refine forall_append (forall_append ?_ (msgData_printable h)) ?_
  · intro b hb
    simp at hb
    rcases hb with rfl | rfl
    · exact (msgCode_printable m).1
    · exact (msgCode_printable m).2
  · intro b hb
    rw [List.eq_of_mem_replicate hb]; unfold Printable; decide

theorem decStr_digit : ∀ n : UInt8, n.toNat < 10 → decStr n.toNat = [dig n.toNat] := by
  apply forall_u8; decide +kernel

theorem utf8Go_ascii : ∀ l : Bytes, (∀ b ∈ l, Printable b) → utf8Go [] l = true
  | [], _ => rfl
  | b :: r, h => by
    have hb := (h b (by simp)).2
    have : b < 0x80 := by rw [UInt8.lt_iff_toNat_lt]; simp; omega
    rw [utf8Go, if_pos this]
    exact utf8Go_ascii r fun x hx => h x (by simp [hx])

theorem asPaddedStr_wf {t : TextDescription} (h : WfText t) :
    t.asPaddedStr = .ok t.text.toList := by
  unfold TextDescription.asPaddedStr utf8Valid
  rw [utf8Go_ascii _ h]; rfl

theorem addU8_area : ∀ n : UInt8, n.toNat ≤ 8 → addU8 n (b' '0') = .ok (dig n.toNat) := by
  have : ∀ n : UInt8, n.toNat ≤ 8 → n.toNat + (b' '0').toNat < 256 ∧ n + b' '0' = dig n.toNat := by
    apply forall_u8; decide +kernel
  intro n h
  unfold addU8
  rw [if_pos (this n h).1, (this n h).2]

theorem rtc_toAscii {r : RtcData} (h : WfDateTime r.datetime) : r.toAscii = rtcText r := by
  obtain ⟨hy, hmo, hd, hh, hmi, hs⟩ := h
  unfold RtcData.toAscii rtcText
  rw [padDec2 _ (by omega), padDec2 _ (by omega), padDec2 _ (by omega), padDec2 _ (by omega),
    padDec2 _ (by omega), padDec2 _ (by omega), weekday_char, clock_char, date_char]

theorem upperHex_digit : ∀ n : UInt8, n.toNat < 16 → upperHex n = [hexDigit n.toNat] := by
  apply forall_u8; decide +kernel

theorem toPkt_eq {m : Message} (h : WfMessage m) : m.toPkt = .ok (.ascii ⟨sentText m⟩) := by
  have hv := expectAscii_ok (sentText_valid h)
  have key : ∀ {x : P AsciiPacket}, x = .ok ⟨sentText m⟩ →
      (do let p ← x; Except.ok (Packet.ascii p) : P Packet) = .ok (.ascii ⟨sentText m⟩) := by
    intro x hx; rw [hx]; rfl
  unfold Message.toPkt
  apply key
  rw [← hv]
  cases m with
  | armRequest m =>
    show m.toAscii = _
    unfold ArmRequest.toAscii
    rw [addU8_area _ h.1.2]
    show expectAscii _ = _
    congr 1
    simp [sentText, msgText, msgData, msgCode, reservedLen, zeros2, armLevel_char, List.replicate]
  | armingStatusRequest => rfl
  | rtcRequest => rfl
  | zoneStatusRequest => rfl
  | armingStatusReport m =>
    show m.toAscii = _
    unfold ArmingStatusReport.toAscii
    congr 1
    simp [sentText, msgText, msgData, msgCode, reservedLen, cmd2, armingStatus_char, armUp_char,
      alarm_char, hex2_eq]
  | sendTimeData m =>
    show m.toAscii = _
    unfold SendTimeData.toAscii
    congr 1
    rw [decStr_digit _ (by have := h.2; omega), padDec3, padDec3]
    obtain ⟨a, ty, t1, t2, st⟩ := m
    cases st <;>
    simp [sentText, msgText, msgData, msgCode, reservedLen, cmd2, zeros2, timeType_char,
      armedState_char, List.replicate]
  | sendCode m =>
    show m.toAscii = _
    unfold SendCode.toAscii
    congr 1
    rw [padDec3, padDec2 _ (by have := h.2; omega)]
    simp [sentText, msgText, msgData, msgCode, reservedLen, cmd2, zeros2, List.replicate, hex2_eq]
  | rtcResponse m =>
    show RtcResponse.toAscii m = _
    unfold RtcResponse.toAscii
    rw [rtc_toAscii h]
    simp [sentText, msgText, msgData, msgCode, reservedLen, cmd2]
  | heartbeat m =>
    show Heartbeat.toAscii m = _
    unfold Heartbeat.toAscii
    rw [rtc_toAscii h]
    simp [sentText, msgText, msgData, msgCode, reservedLen, cmd2]
  | stringDescriptionRequest m =>
    show m.toAscii = _
    unfold StringDescriptionRequest.toAscii
    rw [padDec3, padDec2 _ (textType_lt _)]
    simp [sentText, msgText, msgData, msgCode, reservedLen, cmd2, zeros2, List.replicate,
      textType_num]
  | stringDescriptionResponse m =>
    show m.toAscii = _
    unfold StringDescriptionResponse.toAscii
    rw [padDec3, padDec2 _ (textType_lt _), asPaddedStr_wf h]
    show expectAscii _ = _
    simp [sentText, msgText, msgData, msgCode, reservedLen, cmd2, zeros2, List.replicate,
      textType_num]
  | activateTask m =>
    show ActivateTask.toAscii m = _
    unfold ActivateTask.toAscii
    rw [padDec3]
    simp [sentText, msgText, msgData, msgCode, reservedLen, cmd2, zeros2, List.replicate]
  | taskChange m =>
    show TaskChange.toAscii m = _
    unfold TaskChange.toAscii
    rw [padDec3]
    simp [sentText, msgText, msgData, msgCode, reservedLen, cmd2, List.replicate]
  | zoneChange m =>
    show m.toAscii = _
    unfold ZoneChange.toAscii
    rw [padDec3, upperHex_digit _ h.2]
    simp [sentText, msgText, msgData, msgCode, reservedLen, cmd2, zeros2, List.replicate]
  | zoneStatusReport m =>
    show m.toAscii = _
    unfold ZoneStatusReport.toAscii
    congr 1
    have : m.zones.toList.map ZoneStatus.toAscii
        = m.zones.toList.map fun z => hexDigit z.val.toNat := by
      apply List.map_congr_left
      intro z hz
      exact (hexDigit_nibble _ (h z hz)).symm
    rw [this]
    simp [sentText, msgText, msgData, msgCode, reservedLen, cmd2, zeros2, List.replicate]

end Elk
