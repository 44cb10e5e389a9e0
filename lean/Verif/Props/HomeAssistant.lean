import Verif.Props.Main
import Verif.Spec.HomeAssistant
/-!
# Properties of what Home Assistant makes of the bridge (C85–C87)

Home Assistant knows the bridge's entities from the discovery documents; each theorem is about a
document the broker holds and what it holds for the topics named there, at any time.
-/

namespace Elk.Props
open Elk.Spec

/-- Fields that the documents do not have. -/
theorem area_lacks {pre s : Bytes} {id cfg} {k : String}
    (h : bs k ∉ [bs "availability_topic", bs "state_topic", bs "command_topic", bs "unique_id",
      bs "name", bs "device"]) :
    stringField k (.json (alarmPanelConfig pre s id cfg)) = none := by
  simp only [List.mem_cons, List.not_mem_nil, or_false, not_or] at h
  obtain ⟨h1, h2, h3, h4, h5, h6⟩ := h
  unfold stringField alarmPanelConfig
  dsimp only
  have e : ∀ {x y : Bytes}, x ≠ y → (x == y) = false := fun h => beq_eq_false_iff_ne.mpr h
  simp only [List.lookup, e h1, e h2, e h3, e h4, e h5, e h6]

theorem zone_lacks {pre s : Bytes} {id cfg} {k : String}
    (h : bs k ∉ [bs "availability_topic", bs "state_topic", bs "unique_id", bs "name", bs "device",
      bs "device_class"]) :
    stringField k (.json (binarySensorConfig pre s id cfg)) = none := by
  simp only [List.mem_cons, List.not_mem_nil, or_false, not_or] at h
  obtain ⟨h1, h2, h3, h4, h5, h6⟩ := h
  unfold stringField binarySensorConfig
  dsimp only
  have e : ∀ {x y : Bytes}, x ≠ y → (x == y) = false := fun h => beq_eq_false_iff_ne.mpr h
  simp only [List.lookup, e h1, e h2, e h3, e h4, e h5, e h6]

theorem areaState_known {r : ArmingStatusReport} {a : Area} {t : Bytes}
    (h : haAreaState r a = .ok t) : t ∈ haAlarmStates := by
  have mode : ∀ s : ArmingStatus, haMode s ∈ haAlarmStates := by
    intro s
    cases s <;> decide
  unfold haAreaState at h
  simp only [P_bind_ok] at h
  obtain ⟨i, _, x, _, y, _, z, _, h⟩ := h
  split at h
  · cases h; decide
  · split at h
    · cases h; decide
    · split at h
      · cases h; decide
      · cases h; exact mode x

theorem areaConfig_topic (ha serial : Bytes) (id : UInt8) :
    areaDiscoveryTopic ha (areaUniqueId serial id) =
      ha ++ bs "/alarm_control_panel/elk-" ++ serial ++ bs "-area-" ++ decStr id.toNat ++
        bs "/config" := by
  have : bs "/alarm_control_panel/elk-" = bs "/alarm_control_panel/" ++ bs "elk-" := rfl
  unfold areaDiscoveryTopic areaUniqueId
  rw [this]
  simp only [List.append_assoc]

theorem zoneConfig_topic (ha serial : Bytes) (id : UInt8) :
    zoneDiscoveryTopic ha (zoneUniqueId serial id) =
      ha ++ bs "/binary_sensor/elk-" ++ serial ++ bs "-zone-" ++ decStr id.toNat ++
        bs "/config" := by
  have : bs "/binary_sensor/elk-" = bs "/binary_sensor/" ++ bs "elk-" := rfl
  unfold zoneDiscoveryTopic zoneUniqueId
  rw [this]
  simp only [List.append_assoc]

/-! ## C85: areas -/

/-- **C85** At any time the broker holds, for the state topic of every area Home Assistant was told
of, a state it understands, and for the availability topic what it takes for available; and the
will of the program is on that topic and is taken for not available. -/
theorem C85_areas {cfg : Cfg} {p0 : Panel} (hc : Connected p0) (hw : WfView p0)
    (hm : MapCfg cfg) (hd : DistinctNames cfg) {ha : Bytes}
    (hp : cfg.mqtt.haDiscoveryPrefix = some ha)
    {b0 : Bridge} (hs : Bridge.start cfg p0 = .ok b0) {ops : List BOp}
    {obs : List BObs} {b : Bridge} (hr : Bridge.run ops b0 = .ok (obs, b))
    {a : UInt8 × AreaCfg} (hmem : a ∈ cfg.elk.areas) :
    ∃ doc st at' t v, retained b.log (ha ++ bs "/alarm_control_panel/elk-" ++
        cfg.elk.serialNumber ++ bs "-area-" ++ decStr a.1.toNat ++ bs "/config") = some doc ∧
      stringField "state_topic" doc = some st ∧ retained b.log st = some (.text t) ∧
      t ∈ haAlarmStates ∧
      stringField "availability_topic" doc = some at' ∧ retained b.log at' = some (.text v) ∧
      haAvailable doc v = some true ∧
      ∀ c : Setup, c.cfg = cfg → ∃ v', c.will = ⟨at', true, .text v'⟩ ∧
        haAvailable doc v' = some false := by
  obtain ⟨r, z, _, _, h2, _, _⟩ := C49_tracks hc hw hm hd hs hr
  obtain ⟨t, ht, h3⟩ := h2 a hmem
  have hdoc := (discovery_held hc hw hm hp hs hr).1 a hmem
  rw [areaConfig_topic] at hdoc
  have l1 : haPayload (.json (alarmPanelConfig cfg.prefix cfg.elk.serialNumber a.1 a.2))
      "payload_available" "online" = bs "online" := by
    unfold haPayload
    rw [area_lacks (by decide)]
    rfl
  have l2 : haPayload (.json (alarmPanelConfig cfg.prefix cfg.elk.serialNumber a.1 a.2))
      "payload_not_available" "offline" = bs "offline" := by
    unfold haPayload
    rw [area_lacks (by decide)]
    rfl
  refine ⟨_, _, _, t, bs "online", hdoc, area_fields "state_topic" (by simp), h3,
    areaState_known ht, area_fields "availability_topic" (by simp),
    C66_online_stays hc hw hs hr, ?_, ?_⟩
  · unfold haAvailable
    rw [l1, if_pos rfl]
  · intro c e
    refine ⟨bs "offline", ?_, ?_⟩
    · unfold Setup.will
      rw [e]
      rfl
    · unfold haAvailable
      rw [l1, l2, if_neg (by decide), if_pos rfl]

/-- Non-vacuity: not every text is a state. -/
example : bs "triggered" ∈ haAlarmStates ∧ bs "armed" ∉ haAlarmStates ∧
    bs "Disarmed" ∉ haAlarmStates := by decide

/-! ## C86: zones -/

/-- **C86** is false of the code, at all times and for all zones: what the broker holds for the state
topic of a zone is never a payload Home Assistant understands.  (The bridge publishes `on`, `off`
and `offline`, its document names no payloads, and the defaults are `ON` and `OFF`.) -/
theorem C86_never {cfg : Cfg} {p0 : Panel} (hc : Connected p0) (hw : WfView p0)
    (hm : MapCfg cfg) (hd : DistinctNames cfg) {ha : Bytes}
    (hp : cfg.mqtt.haDiscoveryPrefix = some ha)
    {b0 : Bridge} (hs : Bridge.start cfg p0 = .ok b0) {ops : List BOp}
    {obs : List BObs} {b : Bridge} (hr : Bridge.run ops b0 = .ok (obs, b))
    {a : UInt8 × ZoneCfg} (hmem : a ∈ cfg.elk.zones) :
    ∃ doc st t, retained b.log (ha ++ bs "/binary_sensor/elk-" ++
        cfg.elk.serialNumber ++ bs "-zone-" ++ decStr a.1.toNat ++ bs "/config") = some doc ∧
      stringField "state_topic" doc = some st ∧ retained b.log st = some (.text t) ∧
      haBinary doc t = none := by
  obtain ⟨r, z, _, _, _, _, h2⟩ := C49_tracks hc hw hm hd hs hr
  obtain ⟨i, hi, h3⟩ := h2 a hmem
  have hdoc := (discovery_held hc hw hm hp hs hr).2 a hmem
  rw [zoneConfig_topic] at hdoc
  refine ⟨_, _, _, hdoc, zone_fields "state_topic" (by simp), h3, ?_⟩
  unfold haBinary haPayload
  rw [zone_lacks (by decide), zone_lacks (by decide)]
  have hon : ∀ n, bs (zoneText n) ≠ bs "ON" ∧ bs (zoneText n) ≠ bs "OFF" := by
    intro n
    unfold zoneText
    split
    · decide
    · split <;> decide
  rw [Option.getD_none, Option.getD_none, if_neg (hon _).1, if_neg (hon _).2]

/-- **C86** (partial) With payloads `on` and `off` configured by hand, a violated or bypassed zone is
shown as on and a normal one as off.  Missing: the document does not say so (`C86_never`), and the
payload for a zone in trouble is not understood. -/
theorem C86_by_hand_partial {doc : Payload} (hon : stringField "payload_on" doc = some (bs "on"))
    (hoff : stringField "payload_off" doc = some (bs "off")) (s : ZoneLogicalStatus) :
    haBinary doc (haZoneState s) =
      match s with
      | .normal => some false
      | .violated => some true
      | .bypassed => some true
      | .trouble => none := by
  unfold haBinary haPayload
  rw [hon, hoff]
  cases s <;> decide

/-- Non-vacuity, and a witness against C86: a violated zone, when all messages have reached the
broker. -/
theorem C86_false : ∃ s0 ops doc st, Initial s0 ∧ (Site.run ops s0).queue = [] ∧
    retained (Site.run ops s0).broker
      (bs "homeassistant/binary_sensor/elk-42-zone-1/config") = some doc ∧
    stringField "state_topic" doc = some st ∧
    retained (Site.run ops s0).broker st = some (.text (bs (zoneText 8))) ∧
    haBinary doc (bs (zoneText 8)) = none := by
  let ops := sampleLife sampleFile 7
  have key : (Site.run ops sampleSite).queue.length = 0 ∧
      (retained (Site.run ops sampleSite).broker
        (bs "homeassistant/binary_sensor/elk-42-zone-1/config")).any (fun doc =>
          stringField "state_topic" doc = some (bs "elkm1/42/zone/door/ha_state") ∧
          haBinary doc (bs (zoneText 8)) = none) = true ∧
      textOf (retained (Site.run ops sampleSite).broker (bs "elkm1/42/zone/door/ha_state")) =
        some (bs (zoneText 8)) := by
    decide +kernel
  obtain ⟨h1, h2, h3⟩ := key
  rw [Option.any_eq_true] at h2
  obtain ⟨doc, h4, h5⟩ := h2
  rw [decide_eq_true_eq] at h5
  exact ⟨sampleSite, ops, doc, _, sampleSite_initial, List.length_eq_zero_iff.mp h1, h4, h5.1,
    textOf_some h3, h5.2⟩

/-! ## C87: actions -/

/-- **C87** (partial) The actions disarm, arm home and arm away that Home Assistant offers for an area
are carried out with the corresponding level.  Missing: the other actions with a corresponding
level, which are offered as well (`C87_offered`) and ignored (`C87_ignored`). -/
theorem C87_actions_partial {cfg : Cfg} {p0 : Panel} (hc : Connected p0) (hw : WfView p0)
    (hm : MapCfg cfg) {ha : Bytes}
    (hp : cfg.mqtt.haDiscoveryPrefix = some ha)
    {b0 : Bridge} (hs : Bridge.start cfg p0 = .ok b0) {ops : List BOp}
    {obs : List BObs} {b : Bridge} (hr : Bridge.run ops b0 = .ok (obs, b))
    {a : UInt8 × AreaCfg} (hmem : a ∈ cfg.elk.areas) :
    ∃ doc ct, retained b.log (ha ++ bs "/alarm_control_panel/elk-" ++
        cfg.elk.serialNumber ++ bs "-area-" ++ decStr a.1.toNat ++ bs "/config") = some doc ∧
      stringField "command_topic" doc = some ct ∧
      ∀ act lv, act = .disarm ∨ act = .armHome ∨ act = .armAway → haActionLevel act = some lv →
        Asks cfg b.code ⟨ct, haActionPayload doc act⟩ (some (.arm ⟨⟨a.1⟩, lv, b.code⟩)) := by
  have hdoc := (discovery_held hc hw hm hp hs hr).1 a hmem
  rw [areaConfig_topic] at hdoc
  refine ⟨_, _, hdoc, area_fields "command_topic" (by simp), ?_⟩
  rintro act lv (rfl | rfl | rfl) h <;> cases h <;> refine .arm a _ hmem rfl ?_ <;>
    unfold haActionPayload haPayload <;> dsimp only <;> rw [area_lacks (by decide)]
  · exact .disarm
  · exact .home
  · exact .away

/-- **C87** All actions are offered for every area: the document does not restrict them. -/
theorem C87_offered {cfg : Cfg} {p0 : Panel} (hc : Connected p0) (hw : WfView p0)
    (hm : MapCfg cfg) {ha : Bytes}
    (hp : cfg.mqtt.haDiscoveryPrefix = some ha)
    {b0 : Bridge} (hs : Bridge.start cfg p0 = .ok b0) {ops : List BOp}
    {obs : List BObs} {b : Bridge} (hr : Bridge.run ops b0 = .ok (obs, b))
    {a : UInt8 × AreaCfg} (hmem : a ∈ cfg.elk.areas) :
    ∃ doc ct, retained b.log (ha ++ bs "/alarm_control_panel/elk-" ++
        cfg.elk.serialNumber ++ bs "-area-" ++ decStr a.1.toNat ++ bs "/config") = some doc ∧
      ¬ haRestricts doc ∧ stringField "command_topic" doc = some ct ∧
      haActionPayload doc .armNight = bs "ARM_NIGHT" ∧
      haActionPayload doc .armVacation = bs "ARM_VACATION" := by
  have hdoc := (discovery_held hc hw hm hp hs hr).1 a hmem
  rw [areaConfig_topic] at hdoc
  refine ⟨_, _, hdoc, ?_, area_fields "command_topic" (by simp), ?_, ?_⟩
  · unfold haRestricts alarmPanelConfig
    dsimp only
    intro h
    have : ∀ (x1 x2 x3 x4 x5 x6 : Json),
        ([(bs "availability_topic", x1), (bs "state_topic", x2), (bs "command_topic", x3),
          (bs "unique_id", x4), (bs "name", x5), (bs "device", x6)] : List (Bytes × Json)).lookup
            (bs "supported_features") = none := fun _ _ _ _ _ _ => rfl
    rw [this] at h
    cases h
  · unfold haActionPayload haPayload
    dsimp only
    rw [area_lacks (by decide)]
    rfl
  · unfold haActionPayload haPayload
    dsimp only
    rw [area_lacks (by decide)]
    rfl

/-- **C87** is false of the code, in all histories: the actions arm night and arm vacation, for which
the panel has levels, lead to nothing. -/
theorem C87_ignored {cfg : Cfg} {p0 : Panel} (hc : Connected p0) (hw : WfView p0)
    {b0 : Bridge} (hs : Bridge.start cfg p0 = .ok b0) {ops : List BOp}
    {obs : List BObs} {b : Bridge} (hr : Bridge.run ops b0 = .ok (obs, b)) {p : Publish}
    {c : Option Command} (h : .taken p c ∈ obs)
    (hp : p.payload = bs "ARM_NIGHT" ∨ p.payload = bs "ARM_VACATION") : c = none := by
  obtain ⟨code, _, _, h1, _⟩ := C50_commands hc hw hs hr
  cases h1 p c h with
  | arm a lv ha ht hl =>
    rcases hp with hp | hp <;> rw [hp] at hl <;> generalize hx : bs _ = x at hl <;> cases hl <;>
      exact absurd hx (by decide)
  | otherTopic _ => rfl
  | otherPayload _ => rfl

/-- A witness: `ARM_NIGHT` for a configured area is taken up, and nothing is handed to the panel. -/
theorem C87_false : ∃ cfg p0 b0 ops obs b p, Connected p0 ∧ WfView p0 ∧
    Bridge.start cfg p0 = .ok b0 ∧ Bridge.run ops b0 = .ok (obs, b) ∧
    (∃ a ∈ cfg.elk.areas, p = ⟨cfg.prefix ++ bs "/area/" ++ a.2.name ++ bs "/ha_command",
      bs "ARM_NIGHT"⟩) ∧
    takenUp obs = [p] ∧ given obs = [] ∧ b.waiting = .select := by
  let ops : List BOp := [.deliver ⟨bs "elkm1/42/area/home/ha_command", bs "ARM_NIGHT"⟩,
    .tick ⟨1, 0, 0⟩ true]
  have key : holds (Bridge.start sampleCfg (samplePanel []) >>= fun b =>
      Bridge.run ops b >>= fun x => .ok (b, x)) (fun x =>
        decide (takenUp x.2.1 = [⟨bs "elkm1/42/area/home/ha_command", bs "ARM_NIGHT"⟩] ∧
          given x.2.1 = [] ∧ x.2.2.waiting = .select)) = true := by
    decide +kernel
  obtain ⟨⟨b0, obs, b⟩, h1, h2⟩ := of_holds key
  rw [P_bind_ok] at h1
  obtain ⟨b0', h3, h4⟩ := h1
  rw [P_bind_ok] at h4
  obtain ⟨x, h5, h6⟩ := h4
  cases h6
  simp only [decide_eq_true_eq] at h2
  obtain ⟨h7, h8, h9⟩ := h2
  exact ⟨sampleCfg, samplePanel [], b0, ops, obs, b, _, samplePanel_connected _,
    samplePanel_view _, h3, h5, ⟨_, List.mem_singleton_self _, by decide +kernel⟩, h7, h8, h9⟩

end Elk.Props
