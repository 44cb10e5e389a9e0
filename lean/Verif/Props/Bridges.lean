import Verif.Props.World
import Verif.Spec.Bridges
/-!
# Several bridges, and the device (C93, C94)
-/

namespace Elk.Props
open Elk.Spec

/-! ## C93: one device -/

theorem ofDevice_config {serial : Bytes} {doc : Payload}
    (h : field "device" doc = some (deviceConfig serial)) : OfDevice serial doc := by
  have key : ∀ x1 x2 x3 : Json,
      let l := [(bs "manufacturer", x1), (bs "model", x2), (bs "identifiers", x3)]
      l.lookup (bs "manufacturer") = some x1 ∧ l.lookup (bs "model") = some x2 ∧
        l.lookup (bs "identifiers") = some x3 := fun _ _ _ => ⟨rfl, rfl, rfl⟩
  refine ⟨_, h, ?_, ?_, ?_⟩
  · unfold stringField deviceConfig
    dsimp only
    rw [(key _ _ _).1]
  · unfold stringField deviceConfig
    dsimp only
    rw [(key _ _ _).2.1]
  · unfold field deviceConfig
    dsimp only
    rw [(key _ _ _).2.2]

theorem area_device {pre s : Bytes} {id cfg} :
    stringField "name" (.json (alarmPanelConfig pre s id cfg)) = some cfg.name ∧
    OfDevice s (.json (alarmPanelConfig pre s id cfg)) := by
  have key : ∀ (x1 x2 x3 x4 x5 x6 : Json),
      let l := [(bs "availability_topic", x1), (bs "state_topic", x2), (bs "command_topic", x3),
        (bs "unique_id", x4), (bs "name", x5), (bs "device", x6)]
      l.lookup (bs "name") = some x5 ∧ l.lookup (bs "device") = some x6 :=
    fun _ _ _ _ _ _ => ⟨rfl, rfl⟩
  constructor
  · unfold stringField alarmPanelConfig
    dsimp only
    rw [(key _ _ _ _ _ _).1]
  · apply ofDevice_config
    unfold field alarmPanelConfig
    dsimp only
    rw [(key _ _ _ _ _ _).2]

theorem zone_device {pre s : Bytes} {id cfg} :
    stringField "name" (.json (binarySensorConfig pre s id cfg)) = some cfg.name ∧
    OfDevice s (.json (binarySensorConfig pre s id cfg)) := by
  have key : ∀ (x1 x2 x3 x4 x5 x6 : Json),
      let l := [(bs "availability_topic", x1), (bs "state_topic", x2), (bs "unique_id", x3),
        (bs "name", x4), (bs "device", x5), (bs "device_class", x6)]
      l.lookup (bs "name") = some x4 ∧ l.lookup (bs "device") = some x5 :=
    fun _ _ _ _ _ _ => ⟨rfl, rfl⟩
  constructor
  · unfold stringField binarySensorConfig
    dsimp only
    rw [(key _ _ _ _ _ _).1]
  · apply ofDevice_config
    unfold field binarySensorConfig
    dsimp only
    rw [(key _ _ _ _ _ _).2]

/-- **C93** At any time, the discovery documents that the broker holds for the configured areas and
zones carry the configured names and belong to one device, which is identified by the panel's serial
number and by nothing else. -/
theorem C93_device {cfg : Cfg} {p0 : Panel} (hc : Connected p0) (hw : WfView p0)
    (hm : MapCfg cfg) {ha : Bytes} (hp : cfg.mqtt.haDiscoveryPrefix = some ha)
    {b0 : Bridge} (hs : Bridge.start cfg p0 = .ok b0) {ops : List BOp}
    {obs : List BObs} {b : Bridge} (hr : Bridge.run ops b0 = .ok (obs, b)) :
    (∀ a ∈ cfg.elk.areas, ∃ doc, retained b.log (ha ++ bs "/alarm_control_panel/elk-" ++
        cfg.elk.serialNumber ++ bs "-area-" ++ decStr a.1.toNat ++ bs "/config") = some doc ∧
      stringField "name" doc = some a.2.name ∧ OfDevice cfg.elk.serialNumber doc) ∧
    (∀ a ∈ cfg.elk.zones, ∃ doc, retained b.log (ha ++ bs "/binary_sensor/elk-" ++
        cfg.elk.serialNumber ++ bs "-zone-" ++ decStr a.1.toNat ++ bs "/config") = some doc ∧
      stringField "name" doc = some a.2.name ∧ OfDevice cfg.elk.serialNumber doc) := by
  obtain ⟨h1, h2⟩ := discovery_held hc hw hm hp hs hr
  constructor
  · intro a ha'
    refine ⟨.json (alarmPanelConfig cfg.prefix cfg.elk.serialNumber a.1 a.2), ?_, area_device⟩
    rw [← h1 a ha']
    congr 1
    have : bs "/alarm_control_panel/elk-" = bs "/alarm_control_panel/" ++ bs "elk-" := rfl
    unfold areaDiscoveryTopic areaUniqueId
    rw [this]
    simp only [List.append_assoc]
  · intro a ha'
    refine ⟨.json (binarySensorConfig cfg.prefix cfg.elk.serialNumber a.1 a.2), ?_, zone_device⟩
    rw [← h2 a ha']
    congr 1
    have : bs "/binary_sensor/elk-" = bs "/binary_sensor/" ++ bs "elk-" := rfl
    unfold zoneDiscoveryTopic zoneUniqueId
    rw [this]
    simp only [List.append_assoc]

/-! ## C94: two bridges -/

/-- Two ways of cutting a string at the last occurrence of a character are the same. -/
theorem last_split {c : UInt8} {A B u v : Bytes} (hu : c ∉ u) (hv : c ∉ v)
    (h : A ++ c :: u = B ++ c :: v) : A = B ∧ u = v := by
  induction A generalizing B with
  | nil =>
    match B with
    | [] => injection h with _ h; exact ⟨rfl, h⟩
    | b :: B =>
      injection h with _ h
      exact absurd (by rw [h]; simp) hu
  | cons a A ih =>
    match B with
    | [] =>
      injection h with _ h
      exact absurd (by rw [← h]; simp) hv
    | b :: B =>
      injection h with h1 h
      obtain ⟨h2, h3⟩ := ih h
      exact ⟨by rw [h1, h2], h3⟩

theorem digits_no {n : Nat} {c : UInt8} (h : ¬ IsDigit c) : c ∉ decStr n :=
  fun hx => h ((decStr_spec n).1 _ hx)

/-- Neither a discovery topic nor a command topic. -/
def NotOver (t : Bytes) : Prop :=
  ¬ (∃ y, t = y ++ bs "/config") ∧ ¬ ∃ y, t = y ++ bs "/ha_command"

/-- The topics of a bridge. -/
theorem log_topics {cfg : Cfg} {p0 : Panel} (hc : Connected p0) (hw : WfView p0)
    {b0 : Bridge} (hs : Bridge.start cfg p0 = .ok b0) {ops : List BOp}
    {obs : List BObs} {b : Bridge} (hr : Bridge.run ops b0 = .ok (obs, b)) :
    ∀ m ∈ b.log,
      (∃ x, m.topic = cfg.prefix ++ b' '/' :: x ∧ NotOver m.topic) ∨
      (∃ ha id, m.topic = areaDiscoveryTopic ha (areaUniqueId cfg.elk.serialNumber id) ∨
        m.topic = zoneDiscoveryTopic ha (zoneUniqueId cfg.elk.serialNumber id)) := by
  have hg := start_good_bridge hc hw hs
  have hh := bhist_of_run hr
  obtain ⟨r0, hr0⟩ := hc.arming
  obtain ⟨z0, hz0⟩ := hc.zones
  obtain ⟨_, code, _, rfl⟩ := (start_iff hr0 hz0 (hw z0 hz0)).mp hs
  have area : ∀ n, NotOver (areaStateTopic cfg.prefix n) := fun n =>
    ⟨fun ⟨y, h⟩ => end_ne (by decide) (by decide) (by decide) h,
     fun ⟨y, h⟩ => end_ne (by decide) (by decide) (by decide) h⟩
  have zone : ∀ n, NotOver (zoneStateTopic cfg.prefix n) := fun n =>
    ⟨fun ⟨y, h⟩ => end_ne (by decide) (by decide) (by decide) h,
     fun ⟨y, h⟩ => end_ne (by decide) (by decide) (by decide) h⟩
  have avail : NotOver (availabilityTopic cfg.prefix) :=
    ⟨fun ⟨y, h⟩ => end_ne (by decide) (by decide) (by decide) h,
     fun ⟨y, h⟩ => end_ne (by decide) (by decide) (by decide) h⟩
  have event : NotOver (eventTopic cfg.prefix) :=
    ⟨fun ⟨y, h⟩ => end_ne (by decide) (by decide) (by decide) h,
     fun ⟨y, h⟩ => end_ne (by decide) (by decide) (by decide) h⟩
  have eA : ∀ n, ∃ x, areaStateTopic cfg.prefix n = cfg.prefix ++ b' '/' :: x := fun n =>
    ⟨bs "area/" ++ n ++ bs "/ha_state", by unfold areaStateTopic; simp [bs]⟩
  have eZ : ∀ n, ∃ x, zoneStateTopic cfg.prefix n = cfg.prefix ++ b' '/' :: x := fun n =>
    ⟨bs "zone/" ++ n ++ bs "/ha_state", by unfold zoneStateTopic; simp [bs]⟩
  intro m hm
  rw [(bhist_static hh).2.2.2] at hm
  simp only [List.mem_append, List.mem_singleton] at hm
  rcases hm with ((((h | h) | h) | h)) | h
  · right
    unfold discoveryLog at h
    split at h
    · rename_i ha _
      unfold discoveryMsgs at h
      rcases List.mem_append.mp h with h | h
      · obtain ⟨a, _, rfl⟩ := List.mem_map.mp h
        exact ⟨ha, a.1, .inl rfl⟩
      · obtain ⟨a, _, rfl⟩ := List.mem_map.mp h
        exact ⟨ha, a.1, .inr rfl⟩
    · cases h
  · left
    obtain ⟨n, hn⟩ := areaMsgs_topic h
    obtain ⟨x, hx⟩ := eA n
    exact ⟨x, by rw [hn, hx], by rw [hn]; exact area n⟩
  · left
    obtain ⟨n, hn⟩ := zoneMsgs_topic h
    obtain ⟨x, hx⟩ := eZ n
    exact ⟨x, by rw [hn, hx], by rw [hn]; exact zone n⟩
  · left
    subst h
    exact ⟨bs "availability", rfl, avail⟩
  · left
    rcases published_topics hh hg m h with ⟨_, h⟩ | ⟨_, ⟨a, _, h⟩ | ⟨a, _, h⟩⟩
    · exact ⟨bs "event", by rw [h]; rfl, by rw [h]; exact event⟩
    · obtain ⟨x, hx⟩ := eA a.2.name
      exact ⟨x, by rw [h]; exact hx, by rw [h]; exact area _⟩
    · obtain ⟨x, hx⟩ := eZ a.2.name
      exact ⟨x, by rw [h]; exact hx, by rw [h]; exact zone _⟩


theorem uid_serial {s t : Bytes} {i j : UInt8} (h : areaUniqueId s i = areaUniqueId t j ∨
    areaUniqueId s i = zoneUniqueId t j ∨ zoneUniqueId s i = zoneUniqueId t j) : s = t := by
  have nd : ∀ n, b' '-' ∉ decStr n := fun n => digits_no (by unfold IsDigit; decide)
  have ea : ∀ (s : Bytes) (i : UInt8), areaUniqueId s i =
      (bs "elk-" ++ s ++ bs "-area") ++ b' '-' :: decStr i.toNat := by
    intro s i
    have : bs "-area-" = bs "-area" ++ [b' '-'] := rfl
    unfold areaUniqueId
    rw [this]
    simp
  have ez : ∀ (s : Bytes) (i : UInt8), zoneUniqueId s i =
      (bs "elk-" ++ s ++ bs "-zone") ++ b' '-' :: decStr i.toNat := by
    intro s i
    have : bs "-zone-" = bs "-zone" ++ [b' '-'] := rfl
    unfold zoneUniqueId
    rw [this]
    simp
  rcases h with h | h | h
  · rw [ea, ea] at h
    have := (last_split (nd _) (nd _) h).1
    simpa using this
  · rw [ea, ez] at h
    exact absurd (last_split (nd _) (nd _) h).1 (end_ne (by decide) (by decide) (by decide))
  · rw [ez, ez] at h
    have := (last_split (nd _) (nd _) h).1
    simpa using this

theorem uid_slash {s : Bytes} (hs : b' '/' ∉ s) (i : UInt8) :
    b' '/' ∉ areaUniqueId s i ∧ b' '/' ∉ zoneUniqueId s i := by
  have nd : b' '/' ∉ decStr i.toNat := digits_no (by unfold IsDigit; decide)
  unfold areaUniqueId zoneUniqueId
  simp only [List.mem_append, not_or]
  exact ⟨⟨⟨⟨by decide, hs⟩, by decide⟩, nd⟩, ⟨⟨⟨by decide, hs⟩, by decide⟩, nd⟩⟩

theorem disc_uid {ha ha' u v : Bytes} (hu : b' '/' ∉ u) (hv : b' '/' ∉ v)
    (h : areaDiscoveryTopic ha u = areaDiscoveryTopic ha' v ∨
      areaDiscoveryTopic ha u = zoneDiscoveryTopic ha' v ∨
      zoneDiscoveryTopic ha u = zoneDiscoveryTopic ha' v) : u = v := by
  have e1 : bs "/alarm_control_panel/" = bs "/alarm_control_panel" ++ [b' '/'] := rfl
  have e2 : bs "/binary_sensor/" = bs "/binary_sensor" ++ [b' '/'] := rfl
  unfold areaDiscoveryTopic zoneDiscoveryTopic at h
  rw [e1, e2] at h
  simp only [List.append_cancel_right_eq] at h
  have key : ∀ {a b a' b' : Bytes} {c : UInt8}, c ∉ u → c ∉ v →
      a ++ (b ++ [c]) ++ u = a' ++ (b' ++ [c]) ++ v → u = v := by
    intro a b a' b' c hu hv h
    have h' : (a ++ b) ++ c :: u = (a' ++ b') ++ c :: v := by simpa using h
    exact (last_split hu hv h').2
  rcases h with h | h | h
  · exact key hu hv h
  · exact key hu hv h
  · exact key hu hv h

/-- The discovery topics of panels with different serial numbers are different. -/
theorem disc_serial {ha ha' s t : Bytes} {i j : UInt8} (hs : b' '/' ∉ s) (ht : b' '/' ∉ t)
    {x y : Bytes}
    (hx : x = areaDiscoveryTopic ha (areaUniqueId s i) ∨ x = zoneDiscoveryTopic ha (zoneUniqueId s i))
    (hy : y = areaDiscoveryTopic ha' (areaUniqueId t j) ∨
      y = zoneDiscoveryTopic ha' (zoneUniqueId t j)) (h : x = y) : s = t := by
  have us := uid_slash hs i
  have ut := uid_slash ht j
  rcases hx with rfl | rfl <;> rcases hy with rfl | rfl
  · exact uid_serial (.inl (disc_uid us.1 ut.1 (.inl h)))
  · exact uid_serial (.inr (.inl (disc_uid us.1 ut.2 (.inr (.inl h)))))
  · exact (uid_serial (.inr (.inl (disc_uid ut.1 us.2 (.inr (.inl h.symm)))))).symm
  · exact uid_serial (.inr (.inr (disc_uid us.2 ut.2 (.inr (.inr h)))))

theorem shuffle_comm {α : Type} {l1 l2 l : List α} (h : Shuffle l1 l2 l) : Shuffle l2 l1 l := by
  induction h with
  | nil => exact .nil
  | left _ ih => exact .right ih
  | right _ ih => exact .left ih

theorem retained_cons (m : Published) (l : List Published) (t : Bytes) :
    retained (m :: l) t = (retained l t).or (retained [m] t) := by
  rw [← List.singleton_append, retained_append]

theorem retained_shuffle {l1 l2 l : List Published} (h : Shuffle l1 l2 l) {t : Bytes}
    (ht : ∀ m ∈ l2, m.topic ≠ t) : retained l t = retained l1 t := by
  induction h with
  | nil => rfl
  | @left x l1 l2 l _ ih => rw [retained_cons x l, retained_cons x l1, ih ht]
  | @right x l1 l2 l _ ih =>
    rw [retained_cons x l, ih fun m hm => ht m (List.mem_cons_of_mem _ hm), retained_none (l := [x])]
    · simp
    · intro m hm _
      rw [List.mem_singleton.mp hm]
      exact ht x (List.mem_cons_self ..)

/-- A bridge that was started with this configuration and has run for some time. -/
def RunsWith (cfg : Cfg) (b : Bridge) : Prop :=
  ∃ p0 b0 ops obs, Connected p0 ∧ WfView p0 ∧ Bridge.start cfg p0 = .ok b0 ∧
    Bridge.run ops b0 = .ok (obs, b)

theorem runs_subscribed {cfg : Cfg} {b : Bridge} (h : RunsWith cfg b) :
    b.subscribed = cfg.elk.areas.map fun a => areaCommandTopic cfg.prefix a.2.name := by
  obtain ⟨p0, b0, ops, obs, hc, hw, hs, hr⟩ := h
  obtain ⟨_, _, _, _, _, _, _, _, _, hsub⟩ := C66_online_last hc hw hs
  rw [(bhist_static (bhist_of_run hr)).2.2.1, hsub]
  rfl

theorem apart_logs {c1 c2 : Cfg} {b1 b2 : Bridge} (h1 : RunsWith c1 b1) (h2 : RunsWith c2 b2)
    (hp : Apart c1.prefix c2.prefix) (hs : c1.elk.serialNumber ≠ c2.elk.serialNumber)
    (hs1 : b' '/' ∉ c1.elk.serialNumber) (hs2 : b' '/' ∉ c2.elk.serialNumber) :
    ∀ m1 ∈ b1.log, ∀ m2 ∈ b2.log, m1.topic ≠ m2.topic := by
  obtain ⟨_, _, _, _, hc1, hw1, hst1, hr1⟩ := h1
  obtain ⟨_, _, _, _, hc2, hw2, hst2, hr2⟩ := h2
  have cfgA : ∀ ha u, ∃ y, areaDiscoveryTopic ha u = y ++ bs "/config" := fun ha u => ⟨_, rfl⟩
  have cfgZ : ∀ ha u, ∃ y, zoneDiscoveryTopic ha u = y ++ bs "/config" := fun ha u => ⟨_, rfl⟩
  intro m1 hm1 m2 hm2 he
  rcases log_topics hc1 hw1 hst1 hr1 m1 hm1 with ⟨x, hx, hn⟩ | ⟨ha, i, hx⟩ <;>
    rcases log_topics hc2 hw2 hst2 hr2 m2 hm2 with ⟨y, hy, hn'⟩ | ⟨ha', j, hy⟩
  · rw [hx, hy] at he
    exact hp x y he
  · apply hn.1
    rw [he]
    rcases hy with hy | hy <;> rw [hy]
    · exact cfgA _ _
    · exact cfgZ _ _
  · apply hn'.1
    rw [← he]
    rcases hx with hx | hx <;> rw [hx]
    · exact cfgA _ _
    · exact cfgZ _ _
  · exact hs (disc_serial hs1 hs2 hx hy he)

/-- **C94** Two bridges for panels with different serial numbers, whose topic prefixes are apart, do
not disturb each other, whatever the order in which the broker receives their messages: it holds
for each what it would hold without the other, no message of the one is on a topic the other has
subscribed to, and no command is for both. -/
theorem C94_undisturbed {c1 c2 : Cfg} {b1 b2 : Bridge} (h1 : RunsWith c1 b1) (h2 : RunsWith c2 b2)
    (hp : Apart c1.prefix c2.prefix) (hs : c1.elk.serialNumber ≠ c2.elk.serialNumber)
    (hs1 : b' '/' ∉ c1.elk.serialNumber) (hs2 : b' '/' ∉ c2.elk.serialNumber)
    {log : List Published} (hl : Shuffle b1.log b2.log log) :
    (∀ m ∈ b1.log, retained log m.topic = retained b1.log m.topic) ∧
    (∀ m ∈ b2.log, retained log m.topic = retained b2.log m.topic) ∧
    (∀ t ∈ b1.subscribed ++ b2.subscribed, ∀ m ∈ log, m.topic ≠ t) ∧
    (∀ t ∈ b1.subscribed, t ∉ b2.subscribed) := by
  have key := apart_logs h1 h2 hp hs hs1 hs2
  have hmem : ∀ {l1 l2 l : List Published}, Shuffle l1 l2 l → ∀ m ∈ l, m ∈ l1 ∨ m ∈ l2 := by
    intro l1 l2 l h
    induction h with
    | nil => intro m hm; cases hm
    | left _ ih =>
      intro m hm
      rcases List.mem_cons.mp hm with rfl | hm
      · exact .inl (List.mem_cons_self ..)
      · exact (ih m hm).imp (List.mem_cons_of_mem _) id
    | right _ ih =>
      intro m hm
      rcases List.mem_cons.mp hm with rfl | hm
      · exact .inr (List.mem_cons_self ..)
      · exact (ih m hm).imp id (List.mem_cons_of_mem _)
  have notCmd : ∀ {c : Cfg} {b : Bridge}, RunsWith c b → ∀ m ∈ b.log,
      ¬ ∃ y, m.topic = y ++ bs "/ha_command" := by
    intro c b ⟨p0, b0, ops, obs, hc, hw, hst, hr⟩ m hm
    rcases log_topics hc hw hst hr m hm with ⟨_, _, hn⟩ | ⟨ha, i, hx⟩
    · exact hn.2
    · rintro ⟨y, hy⟩
      rw [hy] at hx
      rcases hx with hx | hx
      · exact end_ne (by decide) (by decide) (by decide) hx
      · exact end_ne (by decide) (by decide) (by decide) hx
  refine ⟨?_, ?_, ?_, ?_⟩
  · intro m hm
    exact retained_shuffle hl fun m2 hm2 h => key m hm m2 hm2 h.symm
  · intro m hm
    exact retained_shuffle (shuffle_comm hl) fun m1 hm1 h => key m1 hm1 m hm h
  · intro t ht m hm he
    have hm' : ¬ ∃ y, m.topic = y ++ bs "/ha_command" :=
      (hmem hl m hm).elim (notCmd h1 m) (notCmd h2 m)
    apply hm'
    rw [he]
    rcases List.mem_append.mp ht with ht | ht
    · rw [runs_subscribed h1] at ht
      obtain ⟨a, _, rfl⟩ := List.mem_map.mp ht
      exact ⟨_, rfl⟩
    · rw [runs_subscribed h2] at ht
      obtain ⟨a, _, rfl⟩ := List.mem_map.mp ht
      exact ⟨_, rfl⟩
  · intro t ht ht'
    rw [runs_subscribed h1] at ht
    rw [runs_subscribed h2] at ht'
    obtain ⟨a, _, rfl⟩ := List.mem_map.mp ht
    obtain ⟨a', _, h⟩ := List.mem_map.mp ht'
    refine hp (bs "area/" ++ a.2.name ++ bs "/ha_command") (bs "area/" ++ a'.2.name ++ bs "/ha_command") ?_
    have e : ∀ pre n, areaCommandTopic pre n = pre ++ b' '/' :: (bs "area/" ++ n ++ bs "/ha_command") := by
      intro pre n
      unfold areaCommandTopic
      simp [bs]
    rw [← e, ← e, h]

/-- **C94** The default prefixes of panels with different serial numbers are apart. -/
theorem C94_default {c1 c2 : Cfg} (h1 : c1.mqtt.topicPrefix = none) (h2 : c2.mqtt.topicPrefix = none)
    (hs : c1.elk.serialNumber ≠ c2.elk.serialNumber)
    (hs1 : b' '/' ∉ c1.elk.serialNumber) (hs2 : b' '/' ∉ c2.elk.serialNumber) :
    Apart c1.prefix c2.prefix := by
  intro x y h
  unfold Cfg.prefix at h
  rw [h1, h2] at h
  dsimp only at h
  rw [List.append_assoc, List.append_assoc, List.append_cancel_left_eq] at h
  apply hs
  generalize c1.elk.serialNumber = s at hs1 h
  generalize c2.elk.serialNumber = t at hs2 h
  clear hs h1 h2
  induction s generalizing t with
  | nil =>
    match t with
    | [] => rfl
    | b :: t =>
      injection h with h _
      exact absurd (by rw [h]; exact List.mem_cons_self ..) hs2
  | cons a s ih =>
    match t with
    | [] =>
      injection h with h _
      exact absurd (by rw [h]; exact List.mem_cons_self ..) hs1
    | b :: t =>
      injection h with h h'
      rw [h, ih (fun hm => hs1 (List.mem_cons_of_mem _ hm)) t (fun hm => hs2 (List.mem_cons_of_mem _ hm)) h']

/-- Non-vacuity: two bridges with the default prefixes, for panels 42 and 43. -/
def otherCfg : Cfg := { sampleCfg with elk := { sampleCfg.elk with serialNumber := bs "43" } }

theorem other_runs : ∃ b, RunsWith otherCfg b := by
  obtain ⟨b, hb, _⟩ := of_holds (x := Bridge.start otherCfg (samplePanel []))
    (f := fun _ => true) (by decide +kernel)
  exact ⟨b, _, b, [], [], samplePanel_connected [], samplePanel_view [], hb, rfl⟩

example : ∃ b1 b2, RunsWith sampleCfg b1 ∧ RunsWith otherCfg b2 ∧
    Apart sampleCfg.prefix otherCfg.prefix ∧ b1.log ≠ [] := by
  obtain ⟨b, hb, h⟩ := of_holds (x := Bridge.start sampleCfg (samplePanel []))
    (f := fun b => !b.log.isEmpty) (by decide +kernel)
  obtain ⟨b2, h2⟩ := other_runs
  refine ⟨b, b2, ⟨_, b, [], [], samplePanel_connected [], samplePanel_view [], hb, rfl⟩, h2,
    C94_default rfl rfl (by decide) (by decide) (by decide), ?_⟩
  intro h'
  rw [h'] at h
  cases h

end Elk.Props
