import Verif.Lemmas.Main
/-!
# Properties of the whole bridge program and the broker (C79–C81)

Histories are those of a site: the program is started (with any configuration), connects to the panel
and the broker, runs, and is ended by a panic, by losing the broker or by being killed, any number
of times.  Messages reach the broker some time after they are published, or not at all when the
program ends first.
-/

namespace Elk.Props
open Elk.Spec

/-! ## C79: availability -/

/-- **C79** Whenever the broker holds `online` for a bridge, that bridge is running: the panel is
connected, the bridge is in its loop with just this topic prefix, and it is connected to the
broker. -/
theorem C79_online_running {s0 : Site} (h0 : Initial s0) (ops : List SOp) {pre : Bytes}
    (h : retained (Site.run ops s0).broker (pre ++ bs "/availability") =
      some (.text (bs "online"))) :
    ∃ c b, Running (Site.run ops s0) c b ∧ c.cfg.prefix = pre ∧ (Site.run ops s0).link = true := by
  have hg := site_run_good (ops := ops) (initial_good h0)
  generalize Site.run ops s0 = s at *
  cases hp : s.prog with
  | none => exact absurd h ((hg.idle hp).2.2 pre)
  | some p =>
    obtain ⟨_, old, sent, hb, hl, hpg, hold⟩ := hg.busy p hp
    rw [hb, retained_append] at h
    rcases prog_avail hpg pre with hn | ⟨hn, hpre, c, b, rfl⟩
    · have e : retained sent (pre ++ bs "/availability") = none := hn
      rw [e] at h
      exact absurd h (hold pre)
    · refine ⟨c, b, hp, hpre.symm, ?_⟩
      cases hlink : s.link with
      | true => rfl
      | false =>
        rw [hl hlink] at hn
        cases hn

/-- **C79** Conversely, while the bridge is running and all it published has reached the broker, the
broker holds `online` for it. -/
theorem C79_running_online {s0 : Site} (h0 : Initial s0) (ops : List SOp) {c : Setup} {b : Bridge}
    (h : Running (Site.run ops s0) c b) (hq : (Site.run ops s0).queue = []) :
    retained (Site.run ops s0).broker (c.cfg.prefix ++ bs "/availability") =
      some (.text (bs "online")) := by
  have hg := site_run_good (ops := ops) (initial_good h0)
  generalize Site.run ops s0 = s at *
  obtain ⟨⟨p0, b0, bops, obs, hc, hw, hs, hr⟩, _, old, sent, hb, _, hl, _⟩ := running_reached hg h
  rw [hq, List.append_nil] at hl
  rw [hb, hl, retained_append, C66_online_stays hc hw hs hr]
  rfl

/-- **C79** When a program that was connected to the broker ends, for whatever reason, the broker
holds `offline` for it. -/
theorem C79_gone {s0 : Site} (ops : List SOp) {op : SOp} {p : Prog}
    (hp : (Site.run ops s0).prog = some p) (hl : (Site.run ops s0).link = true)
    (h : (Site.run (ops ++ [op]) s0).prog = none) :
    retained (Site.run (ops ++ [op]) s0).broker (p.setup.cfg.prefix ++ bs "/availability") =
      some (.text (bs "offline")) := by
  rw [site_snoc] at *
  generalize Site.run ops s0 = s at *
  have dead : (s.die p).broker = s.broker ++ [p.setup.will] := by
    unfold Site.die
    rw [hl]
    rfl
  have fin : retained (s.die p).broker (p.setup.cfg.prefix ++ bs "/availability") =
      some (.text (bs "offline")) := by
    rw [dead, retained_append]
    unfold Setup.will retained availabilityTopic
    simp
  match op with
  | .launch args file =>
    unfold Site.step at h
    rw [hp] at h
    dsimp only at h
    rw [hp] at h
    cases h
  | .prog q =>
    unfold Site.step at h ⊢
    rw [hp] at h ⊢
    dsimp only at h ⊢
    split at h
    · cases h
    · exact fin
  | .link =>
    unfold Site.step at h
    rw [hp] at h
    dsimp only at h
    cases h
  | .transmit =>
    unfold Site.step at h
    dsimp only at h
    split at h <;> (have h : s.prog = none := h; rw [hp] at h; cases h)
  | .unlink =>
    unfold Site.step
    rw [hp]
    exact fin
  | .kill =>
    unfold Site.step
    rw [hp]
    exact fin

/-- What a panel without names says when it is asked. -/
def sampleDialogue : Bytes :=
  msgBytes (.armingStatusReport (sameReport .disarmed .readyToArm)) ++
  msgBytes (.zoneStatusReport violatedReport) ++
  msgBytes (.stringDescriptionResponse ⟨.area, 0, .empty⟩) ++
  msgBytes (.stringDescriptionResponse ⟨.task, 0, .empty⟩) ++
  msgBytes (.stringDescriptionResponse ⟨.zone, 0, .empty⟩)

/-- The program is started with this file and connects; then `n` messages are transmitted. -/
def sampleLife (file : Bytes) (n : Nat) : List SOp :=
  [.launch [bs "cfg.json"] (fun _ => some file), .link, .prog (.dialed (.ok ())),
    .prog (.op (.arrive (.data sampleDialogue)))] ++
  List.replicate 5 (.prog (.op (.writable (.accept 1000)))) ++
  List.replicate 15 (.prog (.op (.tick ⟨1, 0, 0⟩ true))) ++ List.replicate n .transmit

/-- Nothing has happened yet. -/
def sampleSite : Site := ⟨none, [], false, []⟩

theorem sampleSite_initial : Initial sampleSite :=
  ⟨rfl, rfl, rfl, fun _ h => by cases h⟩

/-- The configuration of the bridge, if it is in its loop. -/
def runningWith (s : Site) : Option Cfg :=
  match s.prog with
  | some (.running _ b) => some b.cfg
  | _ => none

theorem runningWith_some {s : Site} {k : Cfg} (hg : SiteGood s) (h : runningWith s = some k) :
    ∃ c b, Running s c b ∧ c.cfg = k := by
  unfold runningWith at h
  split at h
  · rename_i c b hp
    cases h
    exact ⟨c, b, hp, (reached_good (running_reached hg hp).1).2.symm⟩
  · cases h

/-- Non-vacuity: the bridge starts; with six messages transmitted it is not yet shown as available,
with seven it is; and when it is killed it is shown as unavailable. -/
example :
    let six := Site.run (sampleLife sampleFile 6) sampleSite
    let seven := Site.run (sampleLife sampleFile 7) sampleSite
    let gone := Site.run (sampleLife sampleFile 7 ++ [.kill]) sampleSite
    runningWith six = some sampleSetup.cfg ∧ runningWith seven = some sampleSetup.cfg ∧
    textOf (retained six.broker (bs "elkm1/42/availability")) = none ∧
    textOf (retained seven.broker (bs "elkm1/42/availability")) = some (bs "online") ∧
    seven.queue.length = 0 ∧ seven.link = true ∧
    textOf (retained seven.broker (bs "elkm1/42/zone/door/ha_state")) = some (bs "on") ∧
    gone.prog.isNone = true ∧
    textOf (retained gone.broker (bs "elkm1/42/availability")) = some (bs "offline") := by
  decide +kernel

/-! ## C80: what is shown while the bridge is available -/

/-- Once the announcement has reached the broker, it holds for each topic what the program had
published at some moment of this run. -/
theorem online_part {s0 : Site} (h0 : Initial s0) (ops : List SOp) {c : Setup} {b : Bridge}
    (hr : Running (Site.run ops s0) c b) (hd : DistinctNames c.cfg)
    (hon : retained (Site.run ops s0).broker (c.cfg.prefix ++ bs "/availability") =
      some (.text (bs "online"))) :
    MapCfg c.cfg ∧ ∀ t, ∃ before b1, before <+: ops ∧ Throughout s0 c before ops ∧
      Reached c.cfg b1 ∧ Running (Site.run before s0) c b1 ∧
      ∀ v, retained b1.log t = some v → retained (Site.run ops s0).broker t = some v := by
  have hg0 := initial_good h0
  obtain ⟨hre, hm, old, sent, hb, _, hl, hold⟩ := running_reached (site_run_good hg0) hr
  have hin : onlineMsg c.cfg ∈ sent := by
    rw [hb, retained_append] at hon
    rcases sent_avail hre hl c.cfg.prefix with h | ⟨h, _⟩
    · have h : retained sent (c.cfg.prefix ++ bs "/availability") = none := h
      rw [h] at hon
      exact absurd hon (hold _)
    · obtain ⟨m, h1, h2, h3, h4⟩ := retained_some h
      have : m = onlineMsg c.cfg := by
        unfold onlineMsg
        cases m
        dsimp only at h2 h3 h4
        rw [h2, h3, h4]
      rw [← this]
      exact h1
  refine ⟨hm, fun t => ?_⟩
  obtain ⟨before, b1, h1, h2, h3, h4⟩ := part_of_run hg0 h0.prog ops hr hd (part := sent)
    ⟨(Site.run ops s0).queue, hl⟩ hin t
  refine ⟨before, b1, h1, h2, (running_reached (site_run_good hg0) h3).1, h3, ?_⟩
  intro v hv
  rw [hb, retained_append, h4, hv]
  rfl

/-- **C80** While the broker holds `online`, what it holds for each configured area and zone is the
state at some moment of the current run of the program, even if earlier messages are still on
their way; nothing left behind by an earlier run is shown. -/
theorem C80_current_run {s0 : Site} (h0 : Initial s0) (ops : List SOp) {c : Setup} {b : Bridge}
    (hr : Running (Site.run ops s0) c b) (hd : DistinctNames c.cfg)
    (hon : retained (Site.run ops s0).broker (c.cfg.prefix ++ bs "/availability") =
      some (.text (bs "online"))) :
    (∀ a ∈ c.cfg.elk.areas, ∃ before b1 r t, before <+: ops ∧ Throughout s0 c before ops ∧
      Running (Site.run before s0) c b1 ∧ b1.panel.armingStatus = .ok r ∧
      haAreaState r ⟨a.1⟩ = .ok t ∧
      retained (Site.run ops s0).broker (c.cfg.prefix ++ bs "/area/" ++ a.2.name ++ bs "/ha_state") =
        some (.text t)) ∧
    ∀ a ∈ c.cfg.elk.zones, ∃ before b1 z, ∃ i : Fin 208, before <+: ops ∧
      Throughout s0 c before ops ∧ Running (Site.run before s0) c b1 ∧
      b1.panel.zoneStatuses = .ok z ∧ a.1.toNat = i.val + 1 ∧
      retained (Site.run ops s0).broker (c.cfg.prefix ++ bs "/zone/" ++ a.2.name ++ bs "/ha_state") =
        some (.text (bs (zoneText z.zones[i].val.toNat))) := by
  obtain ⟨hm, key⟩ := online_part h0 ops hr hd hon
  constructor
  · intro a ha
    obtain ⟨before, b1, h1, h2, ⟨p0, b0, bops, obs, hc, hw, hs, hrun⟩, h3, h4⟩ :=
      key (c.cfg.prefix ++ bs "/area/" ++ a.2.name ++ bs "/ha_state")
    obtain ⟨r, z, e1, _, e2, _, _⟩ := C49_tracks hc hw hm hd hs hrun
    obtain ⟨t, e3, e4⟩ := e2 a ha
    exact ⟨before, b1, r, t, h1, h2, h3, e1, e3, h4 _ e4⟩
  · intro a ha
    obtain ⟨before, b1, h1, h2, ⟨p0, b0, bops, obs, hc, hw, hs, hrun⟩, h3, h4⟩ :=
      key (c.cfg.prefix ++ bs "/zone/" ++ a.2.name ++ bs "/ha_state")
    obtain ⟨r, z, _, e1, _, _, e2⟩ := C49_tracks hc hw hm hd hs hrun
    obtain ⟨i, e3, e4⟩ := e2 a ha
    exact ⟨before, b1, z, i, h1, h2, h3, e1, e3, h4 _ e4⟩

/-! ## C81: discovery documents across restarts -/

/-- **C81** (partial) While the broker holds `online`, it holds for every configured area a discovery
document that belongs to the current configuration: it names the topics this run uses.  Missing:
documents for areas and zones that are no longer configured, which stay (`C81_left_behind`). -/
theorem C81_documents_partial {s0 : Site} (h0 : Initial s0) (ops : List SOp) {c : Setup} {b : Bridge}
    (hr : Running (Site.run ops s0) c b) (hd : DistinctNames c.cfg) {ha : Bytes}
    (hp : c.cfg.mqtt.haDiscoveryPrefix = some ha)
    (hon : retained (Site.run ops s0).broker (c.cfg.prefix ++ bs "/availability") =
      some (.text (bs "online"))) :
    (∀ a ∈ c.cfg.elk.areas, ∃ doc, retained (Site.run ops s0).broker (ha ++
        bs "/alarm_control_panel/elk-" ++ c.cfg.elk.serialNumber ++ bs "-area-" ++
        decStr a.1.toNat ++ bs "/config") = some doc ∧
      stringField "state_topic" doc =
        some (c.cfg.prefix ++ bs "/area/" ++ a.2.name ++ bs "/ha_state") ∧
      stringField "command_topic" doc =
        some (c.cfg.prefix ++ bs "/area/" ++ a.2.name ++ bs "/ha_command") ∧
      stringField "availability_topic" doc = some (c.cfg.prefix ++ bs "/availability")) ∧
    ∀ a ∈ c.cfg.elk.zones, ∃ doc, retained (Site.run ops s0).broker (ha ++
        bs "/binary_sensor/elk-" ++ c.cfg.elk.serialNumber ++ bs "-zone-" ++
        decStr a.1.toNat ++ bs "/config") = some doc ∧
      stringField "state_topic" doc =
        some (c.cfg.prefix ++ bs "/zone/" ++ a.2.name ++ bs "/ha_state") ∧
      stringField "device_class" doc = some a.2.binarySensorDeviceClass ∧
      stringField "availability_topic" doc = some (c.cfg.prefix ++ bs "/availability") := by
  obtain ⟨hm, key⟩ := online_part h0 ops hr hd hon
  constructor
  · intro a ha'
    have etopic : areaDiscoveryTopic ha (areaUniqueId c.cfg.elk.serialNumber a.1) =
        ha ++ bs "/alarm_control_panel/elk-" ++ c.cfg.elk.serialNumber ++ bs "-area-" ++
          decStr a.1.toNat ++ bs "/config" := by
      have : bs "/alarm_control_panel/elk-" = bs "/alarm_control_panel/" ++ bs "elk-" := rfl
      unfold areaDiscoveryTopic areaUniqueId
      rw [this]
      simp only [List.append_assoc]
    rw [← etopic]
    obtain ⟨_, b1, _, _, ⟨p0, b0, bops, obs, hc, hw, hs, hrun⟩, _, h4⟩ :=
      key (areaDiscoveryTopic ha (areaUniqueId c.cfg.elk.serialNumber a.1))
    exact ⟨_, h4 _ ((discovery_held hc hw hm hp hs hrun).1 a ha'),
      area_fields "state_topic" (by simp), area_fields "command_topic" (by simp),
      area_fields "availability_topic" (by simp)⟩
  · intro a ha'
    have etopic : zoneDiscoveryTopic ha (zoneUniqueId c.cfg.elk.serialNumber a.1) =
        ha ++ bs "/binary_sensor/elk-" ++ c.cfg.elk.serialNumber ++ bs "-zone-" ++
          decStr a.1.toNat ++ bs "/config" := by
      have : bs "/binary_sensor/elk-" = bs "/binary_sensor/" ++ bs "elk-" := rfl
      unfold zoneDiscoveryTopic zoneUniqueId
      rw [this]
      simp only [List.append_assoc]
    rw [← etopic]
    obtain ⟨_, b1, _, _, ⟨p0, b0, bops, obs, hc, hw, hs, hrun⟩, _, h4⟩ :=
      key (zoneDiscoveryTopic ha (zoneUniqueId c.cfg.elk.serialNumber a.1))
    exact ⟨_, h4 _ ((discovery_held hc hw hm hp hs hrun).2 a ha'),
      zone_fields "state_topic" (by simp), zone_fields "device_class" (by simp),
      zone_fields "availability_topic" (by simp)⟩

/-- A sample file with area 2 instead of area 1. -/
def otherFile : Bytes :=
  [123, 10, 32, 32, 34, 101, 108, 107, 34, 58, 32, 123, 10, 32, 32, 32, 32, 34, 115, 101, 114,
   105, 97, 108, 78, 117, 109, 98, 101, 114, 34, 58, 32, 34, 52, 50, 34, 44, 10, 32, 32, 32, 32,
   34, 99, 111, 100, 101, 34, 58, 32, 49, 50, 51, 52, 44, 10, 32, 32, 32, 32, 34, 104, 111, 115,
   116, 80, 111, 114, 116, 34, 58, 32, 34, 101, 108, 107, 58, 50, 49, 48, 49, 34, 44, 10, 32, 32,
   32, 32, 34, 97, 114, 101, 97, 115, 34, 58, 32, 123, 34, 50, 34, 58, 32, 123, 34, 110, 97, 109,
   101, 34, 58, 32, 34, 115, 104, 101, 100, 34, 125, 125, 44, 10, 32, 32, 32, 32, 34, 122, 111,
   110, 101, 115, 34, 58, 32, 123, 34, 49, 34, 58, 32, 123, 34, 110, 97, 109, 101, 34, 58, 32, 34,
   100, 111, 111, 114, 34, 44, 32, 34, 98, 105, 110, 97, 114, 121, 83, 101, 110, 115, 111, 114,
   68, 101, 118, 105, 99, 101, 67, 108, 97, 115, 115, 34, 58, 32, 34, 100, 111, 111, 114, 34, 125,
   125, 10, 32, 32, 125, 44, 10, 32, 32, 34, 109, 113, 116, 116, 34, 58, 32, 123, 34, 104, 111,
   115, 116, 34, 58, 32, 34, 98, 114, 111, 107, 101, 114, 34, 44, 32, 34, 104, 97, 68, 105, 115,
   99, 111, 118, 101, 114, 121, 80, 114, 101, 102, 105, 120, 34, 58, 32, 34, 104, 111, 109, 101,
   97, 115, 115, 105, 115, 116, 97, 110, 116, 34, 125, 10, 125, 10]

theorem textOf_some {o : Option Payload} {t : Bytes} (h : textOf o = some t) :
    o = some (.text t) := by
  unfold textOf at h
  split at h
  · cases h; rfl
  · cases h

/-- **C81** is false of the code: an area is removed from the configuration and the program is
restarted.  When all is settled the broker still holds the discovery document of the removed area,
with an availability topic under which it holds `online`, and a last state that nobody will ever
update. -/
theorem C81_left_behind : ∃ s0 ops c b doc, Initial s0 ∧ Running (Site.run ops s0) c b ∧
    (Site.run ops s0).queue = [] ∧ (∀ a ∈ c.cfg.elk.areas, a.1 ≠ 1) ∧
    retained (Site.run ops s0).broker
      (bs "homeassistant/alarm_control_panel/elk-42-area-1/config") = some doc ∧
    ∃ at' st, stringField "availability_topic" doc = some at' ∧
      retained (Site.run ops s0).broker at' = some (.text (bs "online")) ∧
      stringField "state_topic" doc = some st ∧
      retained (Site.run ops s0).broker st = some (.text (bs "disarmed")) := by
  let ops := sampleLife sampleFile 7 ++ [.kill] ++ sampleLife otherFile 5
  have key : (runningWith (Site.run ops sampleSite)).map (·.elk.areas) = some [(2, ⟨bs "shed"⟩)] ∧
      (Site.run ops sampleSite).queue.length = 0 ∧
      (retained (Site.run ops sampleSite).broker
        (bs "homeassistant/alarm_control_panel/elk-42-area-1/config")).any (fun doc =>
          stringField "availability_topic" doc = some (bs "elkm1/42/availability") ∧
          stringField "state_topic" doc = some (bs "elkm1/42/area/home/ha_state")) = true ∧
      textOf (retained (Site.run ops sampleSite).broker (bs "elkm1/42/availability")) =
        some (bs "online") ∧
      textOf (retained (Site.run ops sampleSite).broker (bs "elkm1/42/area/home/ha_state")) =
        some (bs "disarmed") := by
    decide +kernel
  obtain ⟨h1, h2, h3, h4, h5⟩ := key
  rw [Option.map_eq_some_iff] at h1
  obtain ⟨k, h1, hk⟩ := h1
  obtain ⟨c, b, hr, rfl⟩ := runningWith_some (site_run_good (initial_good sampleSite_initial)) h1
  rw [Option.any_eq_true] at h3
  obtain ⟨doc, h6, h7⟩ := h3
  rw [decide_eq_true_eq] at h7
  exact ⟨sampleSite, ops, c, b, doc, sampleSite_initial, hr, List.length_eq_zero_iff.mp h2,
    by rw [hk]; simp, h6, _, _, h7.1, textOf_some h4, h7.2, textOf_some h5⟩

end Elk.Props
