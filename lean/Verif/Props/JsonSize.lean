import Verif.Lemmas.JsonSize
import Verif.Props.JsonText
import Verif.Props.Complaint
import Verif.Props.Diagnosis
/-!
# Properties of the size of what is published (C100)
-/

namespace Elk.Props
open Elk.Spec

theorem event_pretty_ge {e : Event} {j : Json} (h : e.serialize = .ok j) {p : Packet}
    (hp : e.pkt = some p) :
    (p.serialize.pretty 1).length ≤ (j.toStringPretty).length := by
  obtain ⟨jp, jm, jc, jx, h1, _, _, _, rfl⟩ := event_serialize_cases h
  rw [hp] at h1; cases h1
  unfold Json.toStringPretty
  lengths
  simp only [Nat.zero_add]
  omega

theorem handled_published {cfg : Cfg} {p0 : Panel} (hc : Connected p0) (hw : WfView p0)
    {b0 : Bridge} (hs : Bridge.start cfg p0 = .ok b0) {ops : List BOp}
    {obs : List BObs} {b : Bridge} (hr : Bridge.run ops b0 = .ok (obs, b)) {e : Event}
    (he : e ∈ handled obs) : ∃ j, e.serialize = .ok j ∧
      ⟨cfg.prefix ++ bs "/event", false, .json j⟩ ∈ b.log := by
  have hg := start_good_bridge hc hw hs
  have hh := bhist_of_run hr
  obtain ⟨e1, _, _⟩ := start_no_event hc hw hs
  obtain ⟨js, h3, _, h5⟩ := published_events hh hg
  have : e.serialize ∈ js.map Except.ok := by rw [← h5]; exact List.mem_map_of_mem he
  obtain ⟨j, hj, hje⟩ := List.mem_map.mp this
  refine ⟨j, hje.symm, ?_⟩
  rw [(bhist_static hh).2.2.2]
  refine List.mem_append_right _ ?_
  rw [e1] at h3
  have hm : (⟨eventTopic cfg.prefix, false, .json j⟩ : Published) ∈
      (published obs).filter (fun m => m.topic == eventTopic cfg.prefix) := by
    rw [h3]; exact List.mem_map_of_mem hj
  exact (List.mem_filter.mp hm).1

/-- **C100** is false of the code: whenever bytes are read that are no packet, 931 of them together,
the event published about them is larger than the MQTT client takes, whatever the bytes. -/
theorem C100_noise {cfg : Cfg} {p0 : Panel} (hc : Connected p0) (hw : WfView p0)
    {b0 : Bridge} (hs : Bridge.start cfg p0 = .ok b0) {ops : List BOp}
    {obs : List BObs} {b : Bridge} (hr : Bridge.run ops b0 = .ok (obs, b)) {e : Event}
    (he : e ∈ handled obs) {p : InvalidPacket} (hp : e.pkt = some (.invalid p))
    (hl : 931 ≤ p.raw.length) :
    ∃ m ∈ b.log, m.topic = cfg.prefix ++ bs "/event" ∧ packetLimit < packetSize m := by
  obtain ⟨j, hj, hm⟩ := handled_published hc hw hs hr he
  refine ⟨_, hm, rfl, ?_⟩
  have h1 := event_pretty_ge hj hp
  have h2 := packet_invalid_ge p
  unfold packetLimit packetSize Payload.bytes
  dsimp only
  omega

/-- **C100** is false of the code also for packets of the remote programming software, when their
bytes have three digits. -/
theorem C100_programming {cfg : Cfg} {p0 : Panel} (hc : Connected p0) (hw : WfView p0)
    {b0 : Bridge} (hs : Bridge.start cfg p0 = .ok b0) {ops : List BOp}
    {obs : List BObs} {b : Bridge} (hr : Bridge.run ops b0 = .ok (obs, b)) {e : Event}
    (he : e ∈ handled obs) {p : RpPacket} (hp : e.pkt = some (.rp p))
    (hl : 931 ≤ p.body.length) (hb : ∀ x ∈ p.body, 100 ≤ x.toNat) :
    ∃ m ∈ b.log, m.topic = cfg.prefix ++ bs "/event" ∧ packetLimit < packetSize m := by
  obtain ⟨j, hj, hm⟩ := handled_published hc hw hs hr he
  refine ⟨_, hm, rfl, ?_⟩
  have h1 := event_pretty_ge hj hp
  have h2 := packet_rp_ge p hb
  unfold packetLimit packetSize Payload.bytes
  dsimp only
  omega

/-! ## What fits -/

/-- The kinds of events. -/
def Shape (e : Event) : Prop :=
  (e.pkt = none ∧ e.msg = none ∧ e.completes = none) ∨
  (∃ p, e.pkt = some (.ascii p) ∧ ValidAsciiBody p.body ∧
    ∀ x, e.msg = some (.error x) → Message.parse (.ascii p) = .error (.err x)) ∨
  (e.msg = none ∧ e.completes = none ∧ e.change = none ∧
    ((∃ p, e.pkt = some (.rp p)) ∨
      ∃ p, e.pkt = some (.invalid p) ∧ ∃ rest, Diagnosis p.raw rest p.reason))

theorem areaText_le (r : ArmingStatusReport) (i : Fin 8) : (areaText r i).length ≤ 20 ∧
    ∀ b ∈ areaText r i, b.toNat < 128 := by
  unfold areaText
  split
  · decide
  · split
    · decide
    · split
      · decide
      · unfold haMode; split <;> decide

theorem zoneText_le (n : Nat) : (bs (zoneText n)).length ≤ 20 ∧
    ∀ b ∈ bs (zoneText n), b.toNat < 128 := by
  unfold zoneText
  split
  · decide
  · split <;> decide

theorem published_kinds {b b' : Bridge} {ops obs} (h : BHist b ops obs b') (hg : BGood b) :
    ∀ m ∈ published obs,
      (∃ e ∈ handled obs, ∃ j, e.serialize = .ok j ∧ Shape e ∧
        m = ⟨eventTopic b.cfg.prefix, false, .json j⟩) ∨
      (∃ x, m.payload = .text x ∧ x.length ≤ 20 ∧ ∀ b ∈ x, b.toNat < 128) ∧
        ((∃ a ∈ b.cfg.elk.areas, m.topic = areaStateTopic b.cfg.prefix a.2.name) ∨
          ∃ a ∈ b.cfg.elk.zones, m.topic = zoneStateTopic b.cfg.prefix a.2.name) := by
  induction h with
  | nil => intro m h; cases h
  | @cons b op o b1 ops os b2 hc _ ih =>
    intro m hm
    rw [published_cons] at hm
    rcases List.mem_append.mp hm with h | h
    · cases hc with
      | event cx pf ev out w panel hw hn ho =>
        simp only [published, List.flatMap_cons, List.flatMap_nil, List.append_nil] at h
        rcases publishEvent_iff hg hn with ⟨_, _, h1⟩ | ⟨_, json, ch, hj, hch, h1⟩
        · rw [h1] at ho; cases ho
        · rw [h1] at ho
          cases ho
          have hsc := step_cases hg.good.sane (next_step.mpr hn)
          rcases List.mem_cons.mp h with rfl | h
          · refine .inl ⟨ev, ?_, json, hj, ?_, rfl⟩
            · rw [handled_cons]; exact List.mem_append_left _ (by simp [handled])
            · cases hsc with
              | next _ new _ _ _ hn =>
                cases hn with
                | packet pkt c ev w _ hns hi =>
                  have hdc := hns.packet pkt rfl
                  have hd := decode_some_cond hdc
                  cases pkt with
                  | ascii p =>
                    have hv : ValidAsciiBody p.body := by
                      rcases hd with hd | ⟨i, hi, _⟩
                      · exact hd
                      · cases hi
                    cases hi with
                    | bad e he =>
                      exact .inr (.inl ⟨p, rfl, hv, fun x hx => by cases hx; exact he⟩)
                    | skip _ => exact .inr (.inl ⟨p, rfl, hv, fun x hx => by cases hx⟩)
                    | msg m ch q comp w _ he _ _ _ =>
                      exact .inr (.inl ⟨p, rfl, hv, fun x hx => by cases hx⟩)
                  | rp p =>
                    cases hi with
                    | bad e he => cases he
                    | skip _ => exact .inr (.inr ⟨rfl, rfl, rfl, .inl ⟨p, rfl⟩⟩)
                    | msg m ch q comp w _ he _ _ _ => cases he
                  | invalid p =>
                    cases hi with
                    | bad e he => cases he
                    | skip _ => exact .inr (.inr ⟨rfl, rfl, rfl, .inr ⟨p, rfl, _, (C102_true hdc).2⟩⟩)
                    | msg m ch q comp w _ he _ _ _ => cases he
                | fire _ _ _ _ _ _ _ => exact .inl ⟨rfl, rfl, rfl⟩
          · right
            have g' := step_good hg.good hsc
            have w' := step_wf hsc hg.wf
            obtain ⟨a', ha'⟩ := Option.ne_none_iff_exists'.mp g'.has
            obtain ⟨z', hz'⟩ := Option.ne_none_iff_exists'.mp g'.zones
            unfold publishChange at hch
            split at hch
            · rw [((publishAreaStates_ok (arming_iff.mpr ha')).mp hch).2] at h
              obtain ⟨a, ha, rfl⟩ := List.mem_map.mp h
              exact ⟨⟨_, rfl, areaText_le _ _⟩, .inl ⟨a, ha, rfl⟩⟩
            · rename_i zone prior he
              obtain ⟨i, hi⟩ := change_zone hg.good hn he
              split at hch
              · cases hch; cases h
              · rename_i zc hl
                rw [((publishZoneState_ok (zones_iff.mpr hz') (w' z' hz') hi).mp hch).2] at h
                rw [List.mem_singleton.mp h]
                exact ⟨⟨_, rfl, zoneText_le _⟩, .inr ⟨_, lookup_mem hl, rfl⟩⟩
            · cases hch; cases h
      | _ => simp [published] at h
    · have := ih (bcase_good hc hg) m h
      rw [(bcase_static hc).1] at this
      rcases this with ⟨e, he, this⟩ | this
      · exact .inl ⟨e, by rw [handled_cons]; exact List.mem_append_right _ he, this⟩
      · exact .inr this

theorem option_le {α : Type} {f : α → P Json} {o : Option α} {j : Json} {n : Nat}
    (h : Json.ofOption f o = .ok j) (hn : 4 ≤ n)
    (hf : ∀ a, o = some a → ∀ j, f a = .ok j → (j.pretty 1).length ≤ n) :
    (j.pretty 1).length ≤ n := by
  cases o with
  | none => cases h; rw [null_le]; exact hn
  | some a => exact hf a rfl j h

theorem elems_le (l : Bytes) : (debugElems l).length ≤ 5 * l.length := by
  induction l with
  | nil => simp [debugElems]
  | cons b l ih =>
    have := u8_le b
    have e : (bs ", ").length = 2 := by decide
    rw [debugElems, List.length_append, List.length_append, e, List.length_cons]
    omega

theorem listed_le (l : Bytes) : (listed l).length ≤ 5 * l.length + 2 := by
  rw [← debugBytes_listed]
  cases l with
  | nil => decide
  | cons b l =>
    have h1 := u8_le b
    have h2 := elems_le l
    have e1 : (bs "[").length = 1 := by decide
    have e2 : (bs "]").length = 1 := by decide
    rw [debugBytes]
    simp only [List.length_append, List.length_cons, e1, e2]
    omega

theorem digitsGo_lt (l : Bytes) (h : ∀ b ∈ l, IsDigit b) (n : Nat) :
    l.foldl (fun n b => 10 * n + (b.toNat - 48)) n < (n + 1) * 10 ^ l.length := by
  induction l generalizing n with
  | nil => simp
  | cons b l ih =>
    have := h b (by simp)
    unfold IsDigit at this
    have h1 := ih (fun c hc => h c (by simp [hc])) (10 * n + (b.toNat - 48))
    rw [List.foldl_cons, List.length_cons, Nat.pow_succ, Nat.mul_comm (10 ^ l.length) 10, ← Nat.mul_assoc]
    exact Nat.lt_of_lt_of_le h1 (Nat.mul_le_mul_right _ (by omega))

theorem value_le {s : Bytes} {v k : Nat} (h : Reads s v) (hk : s.length ≤ k) : v < 10 ^ k := by
  obtain ⟨ds, hs, _, hd, rfl⟩ := h
  have h1 := digitsGo_lt ds hd 0
  rw [Nat.zero_add, Nat.one_mul] at h1
  refine Nat.lt_of_lt_of_le h1 (Nat.pow_le_pow_right (by omega) ?_)
  rcases hs with rfl | rfl
  · exact hk
  · rw [List.length_cons] at hk; omega

theorem quoted_le (b : UInt8) : (quoted b).length ≤ 4 := by
  unfold quoted; split <;> simp

theorem complains_le {cmd data e : Bytes} (hd : data.length < 1000) (h : Complains cmd data e) :
    e.length ≤ 120 := by
  have hdl := num_le _ hd
  have hf : ∀ i n, (fieldAt data i n).length ≤ n := fun i n => by
    unfold fieldAt; rw [List.length_take]; omega
  cases h with
  | few need n hn hle hlt =>
    have := num_le n (by cases hn <;> omega)
    have e1 : (bs "expected at least ").length = 18 := by decide
    have e2 : (bs " bytes, got ").length = 12 := by decide
    simp only [List.length_append, e1, e2]
    omega
  | fewArm l _ hl =>
    have e1 : (bs "Expected ArmRequest to have at least 9 bytes of data, got ").length = 58 := by decide
    rw [List.length_append, e1]; omega
  | number name i n hn _ _ =>
    have h1 := listed_le (fieldAt data i n)
    have h2 := hf i n
    have e1 : (bs " expected to be decimal in [0, 255); got ").length = 41 := by decide
    have h3 : n ≤ 3 ∧ (bs name).length ≤ 6 := by cases hn <;> decide
    simp only [List.length_append, e1]
    omega
  | range i n max v hn hr _ =>
    have h3 : n ≤ 3 ∧ max < 1000 := by cases hn <;> omega
    have h1 := num_le v (value_le (k := 3) hr (Nat.le_trans (hf i n) h3.1))
    have h2 := num_le max h3.2
    have e1 : (bs " not in expected t range of [1, ").length = 32 := by decide
    have e2 : (bs "]").length = 1 := by decide
    simp only [List.length_append, e1, e2]
    omega
  | clock name i lo hi v _ hn => cases hn <;> decide
  | letter name i letters b hn =>
    have h1 := quoted_le b
    have h3 : (bs name).length ≤ 16 := by cases hn <;> decide
    have e1 : (bs "bad ").length = 4 := by decide
    have e2 : (bs " ").length = 1 := by decide
    simp only [List.length_append, e1, e2]
    omega
  | type v _ hr _ =>
    have h1 := num_le v (value_le (k := 3) hr (Nat.le_trans (hf 0 2) (by decide)))
    have e1 : (bs "bad TextDescriptionType ").length = 24 := by decide
    rw [List.length_append, e1]; omega
  | timerArea b =>
    have h1 := num_le b.toNat (by have := b.toNat_lt; omega)
    have e1 : (bs "expected area in [1, 8], got ").length = 29 := by decide
    rw [List.length_append, e1]; omega
  | zone i b =>
    have h1 := quoted_le b
    have e1 : (bs "bad zone status ").length = 16 := by decide
    rw [List.length_append, e1]; omega
  | _ => decide

theorem error_le {p : AsciiPacket} (hv : ValidAsciiBody p.body) {e : Bytes}
    (h : Message.parse (.ascii p) = .error (.err e)) : e.length ≤ 120 := by
  by_cases hs : p.body.take 2 = bs "SD" ∧ 7 ≤ p.body.length ∧ p.body.length < 23
  · rw [C103_text hs.1 hs.2.1 hs.2.2] at h
    cases h
    have := num_le (p.body.length - 2) (by omega)
    have e : (bs "expected at least 5 bytes, got ").length = 31 := by decide
    rw [List.length_append, e]; omega
  · have := hv.2.1
    exact complains_le (by rw [List.length_drop]; omega) (C103_true_partial hv h hs)

theorem event_le {e : Event} {j : Json} (h : e.serialize = .ok j)
    (hs : Shape e) (hl : ¬ HasLong 700 e) : (j.toStringPretty).length ≤ 10100 := by
  obtain ⟨jp, jm, jc, jx, h1, h2, h3, h4, rfl⟩ := event_serialize_cases h
  unfold Json.toStringPretty
  have hc : (jc.pretty 1).length ≤ 1800 :=
    option_le h3 (by omega) fun m _ j hj => message_le 1 m j hj
  have hx : (jx.pretty 1).length ≤ 1800 :=
    option_le h4 (by omega) fun c _ j hj => by cases hj; exact change_le 1 c
  have hm : (jm.pretty 1).length ≤ 2200 := by
    refine option_le h2 (by omega) fun r hr j hj => ?_
    rcases serializeResult_cases hj with ⟨m, j', _, hm, rfl⟩ | ⟨x, hx, rfl⟩
    · have := message_le (1 + 1) m j' hm
      lengths
      omega
    · have := string_le x
      have : x.length ≤ 120 := by
        rw [hx] at hr
        rcases hs with ⟨_, g, _⟩ | ⟨p, _, hv, hp⟩ | ⟨g, _⟩
        · rw [g] at hr; cases hr
        · exact error_le hv (hp x hr)
        · rw [g] at hr; cases hr
      lengths
      omega
  lengths
  simp only [Nat.zero_add]
  rcases hs with ⟨hp, _⟩ | ⟨p, hp, hv, _⟩ | ⟨g1, g2, g3, g4⟩
  · rw [hp] at h1; cases h1
    have := null_le 1
    omega
  · rw [hp] at h1; cases h1
    have := packet_small_le 1 p (fun b hb => (hv.2.2 b hb).1) hv.2.1
    omega
  · rw [g1] at h2; cases h2
    rw [g2] at h3; cases h3
    rw [g3] at h4; cases h4
    have := null_le 1
    rcases g4 with ⟨p, hp⟩ | ⟨p, hp, _, hd⟩
    · rw [hp] at h1; cases h1
      have hn : p.body.length ≤ 700 := Nat.le_of_not_lt fun hc => hl (.inl ⟨p, hp, hc⟩)
      have := packet_rp_le p hn
      omega
    · rw [hp] at h1; cases h1
      have hn : p.raw.length ≤ 700 := Nat.le_of_not_lt fun hc => hl (.inr ⟨p, hp, hc⟩)
      have := packet_invalid_le p hn (Nat.le_trans (C102_short hd) (by decide))
      omega

theorem size_le {m : Published}
    (h : m.topic.length + (m.payload.bytes).length ≤ 10233) : packetSize m ≤ packetLimit := by
  unfold packetSize packetLimit lengthBytes
  dsimp only
  split
  · omega
  · rw [if_pos (by omega)]; omega

theorem device_le (d : Nat) {serial : Bytes} (h : serial.length ≤ 100) :
    ((deviceConfig serial).pretty d).length ≤ 800 + 20 * d := by
  have h1 := string_le serial
  have h2 : (jsonString (bs "Elk Products")).length = 14 := by decide +kernel
  have h3 : (jsonString (bs "M1")).length = 4 := by decide +kernel
  unfold deviceConfig
  lengths
  omega

theorem discovery_le {cfg : Cfg} (h : ShortCfg cfg 100) :
    ∀ m ∈ discoveryLog cfg, m.topic.length + (m.payload.bytes).length ≤ 10233 := by
  intro m hm
  unfold discoveryLog at hm
  split at hm
  · rename_i ha hha
    have l1 := h.ha ha hha
    have l2 := h.pre
    have l3 := h.serial
    have l4 := device_le 1 l3
    unfold discoveryMsgs at hm
    rcases List.mem_append.mp hm with hm | hm <;> obtain ⟨a, ham, rfl⟩ := List.mem_map.mp hm
    · have l5 := h.areas a ham
      have l6 := u8_le a.1
      have s1 := string_le (availabilityTopic cfg.prefix)
      have s2 := string_le (areaStateTopic cfg.prefix a.2.name)
      have s3 := string_le (areaCommandTopic cfg.prefix a.2.name)
      have s4 := string_le (areaUniqueId cfg.elk.serialNumber a.1)
      have s5 := string_le a.2.name
      have t1 : (availabilityTopic cfg.prefix).length = cfg.prefix.length + 13 := by
        simp [availabilityTopic]
      have t2 : (areaStateTopic cfg.prefix a.2.name).length = cfg.prefix.length + a.2.name.length + 15 := by
        simp only [areaStateTopic, List.length_append, show (bs "/area/").length = 6 from rfl,
          show (bs "/ha_state").length = 9 from rfl]; omega
      have t3 : (areaCommandTopic cfg.prefix a.2.name).length =
          cfg.prefix.length + a.2.name.length + 17 := by
        simp only [areaCommandTopic, List.length_append, show (bs "/area/").length = 6 from rfl,
          show (bs "/ha_command").length = 11 from rfl]; omega
      have t4 : (areaUniqueId cfg.elk.serialNumber a.1).length ≤ cfg.elk.serialNumber.length + 13 := by
        simp only [areaUniqueId, List.length_append, show (bs "elk-").length = 4 from rfl,
          show (bs "-area-").length = 6 from rfl]; omega
      have t5 : (areaDiscoveryTopic ha (areaUniqueId cfg.elk.serialNumber a.1)).length ≤
          ha.length + (areaUniqueId cfg.elk.serialNumber a.1).length + 28 := by
        simp only [areaDiscoveryTopic, List.length_append,
          show (bs "/alarm_control_panel/").length = 21 from rfl,
          show (bs "/config").length = 7 from rfl]; omega
      unfold Payload.bytes Json.toStringPretty alarmPanelConfig
      lengths
      simp only [Nat.zero_add]
      omega
    · obtain ⟨l5, l7⟩ := h.zones a ham
      have l6 := u8_le a.1
      have s1 := string_le (availabilityTopic cfg.prefix)
      have s2 := string_le (zoneStateTopic cfg.prefix a.2.name)
      have s4 := string_le (zoneUniqueId cfg.elk.serialNumber a.1)
      have s5 := string_le a.2.name
      have s6 := string_le a.2.binarySensorDeviceClass
      have t1 : (availabilityTopic cfg.prefix).length = cfg.prefix.length + 13 := by
        simp [availabilityTopic]
      have t2 : (zoneStateTopic cfg.prefix a.2.name).length = cfg.prefix.length + a.2.name.length + 15 := by
        simp only [zoneStateTopic, List.length_append, show (bs "/zone/").length = 6 from rfl,
          show (bs "/ha_state").length = 9 from rfl]; omega
      have t4 : (zoneUniqueId cfg.elk.serialNumber a.1).length ≤ cfg.elk.serialNumber.length + 13 := by
        simp only [zoneUniqueId, List.length_append, show (bs "elk-").length = 4 from rfl,
          show (bs "-zone-").length = 6 from rfl]; omega
      have t5 : (zoneDiscoveryTopic ha (zoneUniqueId cfg.elk.serialNumber a.1)).length ≤
          ha.length + (zoneUniqueId cfg.elk.serialNumber a.1).length + 22 := by
        simp only [zoneDiscoveryTopic, List.length_append,
          show (bs "/binary_sensor/").length = 15 from rfl,
          show (bs "/config").length = 7 from rfl]; omega
      unfold Payload.bytes Json.toStringPretty binarySensorConfig
      lengths
      simp only [Nat.zero_add]
      omega
  · cases hm

theorem state_le {cfg : Cfg} (h : ShortCfg cfg 100) {m : Published}
    (hx : ∃ x, m.payload = .text x ∧ x.length ≤ 20 ∧ ∀ b ∈ x, b.toNat < 128)
    (ht : (∃ a ∈ cfg.elk.areas, m.topic = areaStateTopic cfg.prefix a.2.name) ∨
      (∃ a ∈ cfg.elk.zones, m.topic = zoneStateTopic cfg.prefix a.2.name) ∨
      m.topic = availabilityTopic cfg.prefix) :
    m.topic.length + (m.payload.bytes).length ≤ 10233 := by
  obtain ⟨x, hx, hl, _⟩ := hx
  have l2 := h.pre
  rw [hx, Payload.bytes]
  rcases ht with ⟨a, ha, hm⟩ | ⟨a, ha, hm⟩ | hm
  · have := h.areas a ha
    rw [hm]
    simp only [areaStateTopic, List.length_append, show (bs "/area/").length = 6 from rfl,
      show (bs "/ha_state").length = 9 from rfl]
    omega
  · have := (h.zones a ha).1
    rw [hm]
    simp only [zoneStateTopic, List.length_append, show (bs "/zone/").length = 6 from rfl,
      show (bs "/ha_state").length = 9 from rfl]
    omega
  · rw [hm]
    simp only [availabilityTopic, List.length_append, show (bs "/availability").length = 13 from rfl]
    omega

/-- **C100** (partial) With configured strings of at most 100 bytes, everything the bridge publishes
fits the MQTT client's limit, except the events of packets that are not ASCII and have more than 700
bytes.  Missing: those (`C100_noise`, `C100_programming`). -/
theorem C100_fits_partial {cfg : Cfg} {p0 : Panel} (hc : Connected p0) (hw : WfView p0)
    {b0 : Bridge} (hs : Bridge.start cfg p0 = .ok b0) {ops : List BOp}
    {obs : List BObs} {b : Bridge} (hr : Bridge.run ops b0 = .ok (obs, b))
    (hshort : ShortCfg cfg 100)
    (hl : ∀ e ∈ handled obs, ¬ HasLong 700 e) : ∀ m ∈ b.log, packetSize m ≤ packetLimit := by
  intro m hm
  apply size_le
  have hg := start_good_bridge hc hw hs
  have hh := bhist_of_run hr
  obtain ⟨e1, _, _⟩ := start_no_event hc hw hs
  rw [(bhist_static hh).2.2.2] at hm
  rcases List.mem_append.mp hm with hm | hm
  · obtain ⟨r, hr⟩ := hc.arming
    obtain ⟨z, hz⟩ := hc.zones
    obtain ⟨_, code, _, rfl⟩ := (start_iff hr hz (hw z hz)).mp hs
    rcases List.mem_append.mp hm with hm | hm
    · rcases List.mem_append.mp hm with hm | hm
      · rcases List.mem_append.mp hm with hm | hm
        · exact discovery_le hshort m hm
        · obtain ⟨a, ha, rfl⟩ := List.mem_map.mp hm
          exact state_le hshort ⟨_, rfl, areaText_le _ _⟩ (.inl ⟨a, ha, rfl⟩)
      · obtain ⟨a, ha, rfl⟩ := List.mem_map.mp hm
        exact state_le hshort ⟨_, rfl, zoneText_le _⟩ (.inr (.inl ⟨a, ha, rfl⟩))
    · rw [List.mem_singleton.mp hm]
      exact state_le hshort ⟨_, rfl, by decide, by decide⟩ (.inr (.inr rfl))
  · have := published_kinds hh hg m hm
    rw [e1] at this
    rcases this with ⟨e, he, j, hj, hsh, rfl⟩ | ⟨hx, h⟩
    · have h1 := event_le hj hsh (hl e he)
      have h2 := hshort.pre
      simp only [eventTopic, Payload.bytes, List.length_append, show (bs "/event").length = 6 from rfl]
      omega
    · exact state_le hshort hx (by
        rcases h with h | h
        · exact .inl h
        · exact .inr (.inl h))

/-- Noise on the line: it begins like a packet of the programming software. -/
def lineNoise : Bytes := 0x10 :: 0x02 :: List.replicate 1022 0xff

theorem lineNoise_read : holds (Bridge.start sampleCfg (samplePanel []) >>= fun b =>
    Bridge.run [.arrive (.data lineNoise), .tick ⟨1, 0, 0⟩ true] b)
    (fun x => (handled x.1).any fun e => match e.pkt with
      | some (.invalid p) => decide (931 ≤ p.raw.length)
      | _ => false) = true := by
  decide +kernel

/-- Non-vacuity, and a witness against C100: noise of 1024 bytes is read, and the bridge publishes a
message the client does not take. -/
theorem C100_false : ∃ b0 obs b, Bridge.start sampleCfg (samplePanel []) = .ok b0 ∧
    Bridge.run [.arrive (.data lineNoise), .tick ⟨1, 0, 0⟩ true] b0 = .ok (obs, b) ∧
    ∃ m ∈ b.log, packetLimit < packetSize m := by
  obtain ⟨⟨obs, b⟩, h1, h2⟩ := of_holds lineNoise_read
  obtain ⟨b0, h0, h1⟩ := P_bind_ok.mp h1
  refine ⟨b0, obs, b, h0, h1, ?_⟩
  obtain ⟨e, he, h3⟩ := List.any_eq_true.mp h2
  split at h3
  · rename_i p hp
    obtain ⟨m, hm, _, h4⟩ := C100_noise (samplePanel_connected _) (samplePanel_view _) h0 h1 he hp
      (by simpa using h3)
    exact ⟨m, hm, h4⟩
  · cases h3

end Elk.Props
