import Verif.Lemmas.MqttRun
import Verif.Props.Init
/-!
# Properties of the MQTT bridge (C48–C53, C65–C68)

Histories are those of the bridge from its start on a connected panel: answers of the panel's
socket, deliveries of the broker and polls of the program, in any order.
-/

namespace Elk.Props
open Elk.Spec

/-! ## C48: the state of an area -/

/-- **C48** (partial) The state published for an area is `triggered` in every alarm, `pending` in the
abort delay, `arming` in the exit delay and the mode otherwise; for every report and area, unless
the area is in fire alarm.  Missing: fire alarm, for which it is false of the code
(`C48_fire_unseen`). -/
theorem C48_area_state_partial (r : ArmingStatusReport) (a : Area) (i : Fin 8)
    (hi : a.val.toNat = i.val + 1) (hf : r.alarmState[i] ≠ .fireAlarm) :
    ∃ t, haAreaState r a = .ok (bs t) ∧
      AreaShows r.armingStatus[i] r.upState[i] r.alarmState[i] t := by
  rw [haAreaState_ok hi]
  unfold areaText
  have h28 := C28_is_firing_partial _ hf
  generalize r.alarmState[i] = s at *
  generalize r.upState[i] = u
  generalize r.armingStatus[i] = m
  split
  · rename_i h; exact ⟨_, rfl, .triggered (h28.mp h)⟩
  · rename_i h
    have hn : ¬ IsAlarm s := fun hx => h (h28.mpr hx)
    split
    · rename_i hp; exact ⟨_, rfl, .pending hp⟩
    · rename_i hp
      split
      · rename_i hu; exact ⟨_, rfl, .arming hn hp hu⟩
      · rename_i hu
        refine ⟨modeText m, ?_, .mode hn hp hu⟩
        cases m <;> rfl

/-- The specification of the state leaves no choice. -/
theorem C48_unique {m u s t t'} (h : AreaShows m u s t) (h' : AreaShows m u s t') : t = t' := by
  cases h with
  | triggered h1 =>
    cases h' with
    | triggered _ => rfl
    | pending h2 => subst h2; exact absurd h1 (by unfold IsAlarm; simp)
    | arming h2 _ _ => exact absurd h1 h2
    | mode h2 _ _ => exact absurd h1 h2
  | pending h1 =>
    cases h' with
    | triggered h2 => subst h1; exact absurd h2 (by unfold IsAlarm; simp)
    | pending _ => rfl
    | arming _ h2 _ => exact absurd h1 h2
    | mode _ h2 _ => exact absurd h1 h2
  | arming h1 h2 h3 =>
    cases h' with
    | triggered h4 => exact absurd h4 h1
    | pending h4 => exact absurd h4 h2
    | arming _ _ _ => rfl
    | mode _ _ h4 => exact absurd h3 h4
  | mode h1 h2 h3 =>
    cases h' with
    | triggered h4 => exact absurd h4 h1
    | pending h4 => exact absurd h4 h2
    | arming _ _ h4 => exact absurd h4 h3
    | mode _ _ _ => rfl

/-- A report of a fire, all areas being disarmed. -/
def fireReport : ArmingStatusReport :=
  { sameReport .disarmed .readyToArm with alarmState := Vector.replicate 8 .fireAlarm }

/-- **C48** is false of the code: with an area in fire alarm, the area is shown as disarmed (or
whatever mode it is in). -/
theorem C48_fire_unseen : ∃ r a, InRange a ∧ r.alarmState[0] = .fireAlarm ∧
    haAreaState r a = .ok (bs "disarmed") ∧
    ¬ ∃ t, haAreaState r a = .ok (bs t) ∧
      AreaShows r.armingStatus[0] r.upState[0] r.alarmState[0] t := by
  have h : haAreaState fireReport ⟨1⟩ = .ok (bs "disarmed") := rfl
  refine ⟨fireReport, ⟨1⟩, ⟨by decide, by decide⟩, rfl, h, ?_⟩
  rintro ⟨t, ht, hs⟩
  have : t = "triggered" := C48_unique hs (.triggered (by trivial))
  subst this
  rw [h] at ht
  simp only [Except.ok.injEq] at ht
  exact absurd ht (by decide)

/-- Non-vacuity of the partial form: a burglary. -/
example : haAreaState { sameReport .armedAway .armedFully with
    alarmState := Vector.replicate 8 .burglarAlarm } ⟨2⟩ = .ok (bs "triggered") := rfl

/-! ## C49: the retained topics track the panel -/

/-- **C49** At every moment of every history of the bridge, for every configuration whose names are
distinct, the broker holds for each configured area the state of that area, and for each configured
zone the state of that zone, in the panel's current views.  (When a zone status report comes, the
bridge ends: `C51_dies_partial`.) -/
theorem C49_tracks {cfg : Cfg} {p0 : Panel} (hc : Connected p0) (hw : WfView p0) (hm : MapCfg cfg)
    (hd : DistinctNames cfg) {b0 : Bridge} (hs : Bridge.start cfg p0 = .ok b0) {ops : List BOp}
    {obs : List BObs} {b : Bridge} (hr : Bridge.run ops b0 = .ok (obs, b)) :
    ∃ r z, b.panel.armingStatus = .ok r ∧ b.panel.zoneStatuses = .ok z ∧
      (∀ a ∈ cfg.elk.areas, ∃ t, haAreaState r ⟨a.1⟩ = .ok t ∧
        retained b.log (cfg.prefix ++ bs "/area/" ++ a.2.name ++ bs "/ha_state") =
          some (.text t)) ∧
      (∀ a ∈ cfg.elk.areas, ∀ i : Fin 8, a.1.toNat = i.val + 1 → r.alarmState[i] ≠ .fireAlarm →
        ∃ t, AreaShows r.armingStatus[i] r.upState[i] r.alarmState[i] t ∧
          retained b.log (cfg.prefix ++ bs "/area/" ++ a.2.name ++ bs "/ha_state") =
            some (.text (bs t))) ∧
      ∀ a ∈ cfg.elk.zones, ∃ i : Fin 208, a.1.toNat = i.val + 1 ∧
        retained b.log (cfg.prefix ++ bs "/zone/" ++ a.2.name ++ bs "/ha_state") =
          some (.text (bs (zoneText z.zones[i].val.toNat))) := by
  have hg := start_good_bridge hc hw hs
  have hh := bhist_of_run hr
  obtain ⟨r0, hr0⟩ := hc.arming
  obtain ⟨z0, hz0⟩ := hc.zones
  have e0 : b0.cfg = cfg := by
    obtain ⟨_, _, _, rfl⟩ := (start_iff hr0 hz0 (hw z0 hz0)).mp hs
    rfl
  have e : b.cfg = cfg := (bhist_static hh).1.trans e0
  have hg' := bhist_good hh hg
  have hsh := bhist_shown hh hg (by rw [e0]; exact hm) (by rw [e0]; exact hd)
    (start_shown hc hw hd hs)
  obtain ⟨r, z, h1, h2, h3, h4⟩ := hsh
  rw [e] at h3 h4
  have hu := hg'.usable
  rw [e] at hu
  refine ⟨r, z, h1, h2, ?_, ?_, ?_⟩
  · intro a ha
    have := hu.areas a ha
    exact ⟨_, haAreaState_ok (ofId_spec (n := 8) this.1 this.2), h3 a ha⟩
  · intro a ha i hi hf
    obtain ⟨t, ht, hshow⟩ := C48_area_state_partial r ⟨a.1⟩ i hi hf
    refine ⟨t, hshow, ?_⟩
    have h5 := h3 a ha
    rw [← ofId_eq hi] at h5
    rw [haAreaState_ok (a := ⟨a.1⟩) hi] at ht
    rw [Except.ok.injEq] at ht
    rw [ht] at h5
    exact h5
  · intro a ha
    have := hu.zones a ha
    exact ⟨_, ofId_spec (n := 208) this.1 this.2, h4 a ha⟩

/-- A configuration with one area and two zones. -/
def sampleCfg : Cfg :=
  { elk := { serialNumber := bs "42", code := 1234, areas := [(1, ⟨bs "home"⟩)],
             zones := [(1, ⟨bs "door", bs "door"⟩), (2, ⟨bs "hall", bs "motion"⟩)] }
    mqtt := { topicPrefix := none, haDiscoveryPrefix := some (bs "homeassistant") } }

theorem sampleCfg_map : MapCfg sampleCfg := ⟨by decide, by decide⟩
theorem sampleCfg_distinct : DistinctNames sampleCfg := ⟨by decide +kernel, by decide +kernel⟩

theorem samplePanel_view (q : List ReadItem) : WfView (samplePanel q) := by
  intro z hz
  cases hz
  intro s hs
  have : s = .unconfigured := by
    unfold ZoneStatusReport.allUnconfigured at hs
    simp only [Vector.toList_replicate, List.mem_replicate] at hs
    exact hs.2
  subst this
  unfold WfZoneStatus
  decide

/-- The text a payload consists of, if it is not JSON. -/
def textOf : Option Payload → Option Bytes
  | some (.text t) => some t
  | _ => none

/-- Non-vacuity: the bridge starts, shows zone 1 as off, then zone 1 is violated and shown as on. -/
example : ∃ x, (Bridge.start sampleCfg (samplePanel [.data (msgBytes (.zoneChange ⟨⟨1⟩, ⟨9⟩⟩))]) >>=
      fun b => Bridge.run [.tick ⟨1, 0, 0⟩ true] b >>= fun y => .ok (b, y.2)) = .ok x ∧
    decide (textOf (retained x.1.log (bs "elkm1/42/zone/door/ha_state")) = some (bs "off") ∧
      textOf (retained x.2.log (bs "elkm1/42/zone/door/ha_state")) = some (bs "on") ∧
      textOf (retained x.2.log (bs "elkm1/42/area/home/ha_state")) = some (bs "disarmed")) = true :=
  of_holds (by decide +kernel)

/-! ## C50: commands -/

theorem asks_of {cfg : Cfg} {code : ArmCode} {p : Publish} {c : Option Command}
    (hr : ∀ a ∈ cfg.elk.areas, 1 ≤ a.1.toNat ∧ a.1.toNat ≤ 8)
    (h : commandFor cfg.prefix code p cfg.elk.areas = .ok c) : Asks cfg code p c := by
  rcases commandFor_cases (pre := cfg.prefix) (code := code) (p := p) hr with ⟨h1, h2⟩ |
    ⟨a, ha, ht, ⟨_, h1⟩ | ⟨_, hn, h1⟩ | ⟨lv, hl, h1⟩⟩
  · rw [h1] at h; cases h; exact .otherTopic h2
  · rw [h1] at h; cases h
  · rw [h1] at h; cases h; exact .otherPayload hn
  · rw [h1] at h; cases h; exact .arm a lv ha ht hl

/-- What a message asks for is determined: nothing else can be asked by it. -/
theorem C50_asks_unique {cfg : Cfg} (hd : DistinctNames cfg) {code : ArmCode} {p : Publish}
    {c c' : Option Command} (h : Asks cfg code p c) (h' : Asks cfg code p c') : c = c' := by
  cases h with
  | arm a lv ha ht hl =>
    cases h' with
    | arm a' lv' ha' ht' hl' =>
      have hn : a.2.name = a'.2.name := areaCommand_inj (ht.symm.trans ht')
      have := nodup_key hd.areas ha ha' hn
      subst this
      have := (level_iff.mpr hl).symm.trans (level_iff.mpr hl')
      cases this
      rfl
    | otherTopic h => exact absurd ht (h a ha)
    | otherPayload h => exact absurd hl (h lv)
  | otherTopic h =>
    cases h' with
    | arm a lv ha ht hl => exact absurd ht (h a ha)
    | otherTopic _ => rfl
    | otherPayload _ => rfl
  | otherPayload h =>
    cases h' with
    | arm a lv ha ht hl => exact absurd hl (h lv)
    | otherTopic _ => rfl
    | otherPayload _ => rfl

/-- The command waiting to be handed over. -/
def held : Waiting → List Command
  | .ready c => [c]
  | _ => []

theorem asked_hist {b b' : Bridge} {ops obs} (h : BHist b ops obs b') :
    held b.waiting ++ asked obs = given obs ++ held b'.waiting := by
  induction h with
  | nil => simp [asked, given]
  | @cons b op o b1 ops os b2 hc _ ih =>
    rw [asked_cons, given_cons]
    have : held b.waiting ++ asked [o] = given [o] ++ held b1.waiting := by
      cases hc with
      | accepted _ _ c _ _ hw _ _ => rw [hw]; rfl
      | asked _ _ _ _ _ _ _ c hw _ _ _ => rw [hw]; rfl
      | sent _ _ _ hw _ => rw [hw]; rfl
      | _ => simp [asked, given]
    rw [← List.append_assoc, this, List.append_assoc, ih, List.append_assoc]

theorem taken_hist {b b' : Bridge} {ops obs} (h : BHist b ops obs b') :
    takenUp obs ++ b'.inbox = b.inbox ++ delivered ops := by
  induction h with
  | nil => simp [takenUp, delivered]
  | @cons b op o b1 ops os b2 hc _ ih =>
    rw [takenUp_cons, delivered_cons, List.append_assoc, ih]
    rw [← List.append_assoc, ← List.append_assoc]
    congr 1
    cases hc with
    | deliver p => simp [takenUp, delivered]
    | ignored _ _ p inbox _ _ _ _ hi _ _ => simp [takenUp, delivered, hi]
    | asked _ _ p inbox _ _ _ _ _ hi _ _ => simp [takenUp, delivered, hi]
    | _ => simp [takenUp, delivered]

theorem given_wf {b b' : Bridge} {ops obs} (h : BHist b ops obs b') (hg : BGood b) :
    ∀ c ∈ given obs, WfCommand c := by
  induction h with
  | nil => intro c h; cases h
  | @cons b op o b1 ops os b2 hc _ ih =>
    intro c hc'
    rw [given_cons] at hc'
    rcases List.mem_append.mp hc' with h | h
    · cases hc with
      | accepted _ _ c0 _ _ hw _ _ =>
        simp only [given, List.filterMap_cons, List.filterMap_nil, List.mem_singleton] at h
        subst h
        exact hg.cmd c hw
      | _ => simp [given] at h
    · exact ih (bcase_good hc hg) c h

theorem taken_asks {b b' : Bridge} {ops obs} (h : BHist b ops obs b') (hg : BGood b) :
    ∀ p c, .taken p c ∈ obs → Asks b.cfg b.code p c := by
  induction h with
  | nil => intro p c h; cases h
  | @cons b op o b1 ops os b2 hc _ ih =>
    intro p c hm
    rcases List.mem_cons.mp hm with h | h
    · cases hc with
      | ignored _ _ p0 inbox _ _ _ _ hi _ hf => cases h; exact asks_of hg.usable.areas hf
      | asked _ _ p0 inbox _ _ _ _ _ hi _ hf => cases h; exact asks_of hg.usable.areas hf
      | _ => cases h
    · have := ih (bcase_good hc hg) p c h
      rw [(bcase_static hc).1, (bcase_static hc).2.1] at this
      exact this

/-- **C50** In every history of the bridge: messages are taken up in the order they were delivered,
none twice and none skipped; each that is taken up is found to ask for exactly what its topic and
payload say, and every command asked for is handed to the panel, once, in order (but for the last,
which may still be waiting), and nothing else is; what is written to the panel is exactly the
encodings of these commands, each an arm request for that area, with the matching level and the
configured code. -/
theorem C50_commands {cfg : Cfg} {p0 : Panel} (hc : Connected p0) (hw : WfView p0)
    {b0 : Bridge} (hs : Bridge.start cfg p0 = .ok b0) {ops : List BOp}
    {obs : List BObs} {b : Bridge} (hr : Bridge.run ops b0 = .ok (obs, b)) :
    ∃ code, ArmCode.tryFromNum cfg.elk.code = .ok code ∧
      takenUp obs ++ b.inbox = delivered ops ∧
      (∀ p c, .taken p c ∈ obs → Asks cfg code p c) ∧
      asked obs = given obs ++ held b.waiting ∧
      ∃ new, b.panel.conn.sock.sent = p0.conn.sock.sent ++ new ∧
        new ++ b.panel.conn.wbuf = (given obs).flatMap commandBytes := by
  have hg := start_good_bridge hc hw hs
  have hh := bhist_of_run hr
  obtain ⟨r0, hr0⟩ := hc.arming
  obtain ⟨z0, hz0⟩ := hc.zones
  obtain ⟨_, code, hcode, rfl⟩ := (start_iff hr0 hz0 (hw z0 hz0)).mp hs
  refine ⟨code, hcode, ?_, taken_asks hh hg, ?_, ?_⟩
  · have := taken_hist hh
    simpa using this
  · have := asked_hist hh
    simpa [held] using this
  · obtain ⟨pops, outs, h1, h2, _⟩ := bhist_panel hh
    rw [← h2]
    exact C44_wire_is_commands hc h1 (by rw [h2]; exact given_wf hh hg)

/-- Non-vacuity: `ARM_AWAY` for area 1 is written to the panel. -/
example : ∃ x, (Bridge.start sampleCfg (samplePanel []) >>= fun b =>
      Bridge.run [.deliver ⟨bs "elkm1/42/area/home/ha_command", bs "ARM_AWAY"⟩,
        .tick ⟨1, 0, 0⟩ true, .tick ⟨1, 0, 0⟩ true, .writable (.accept 100),
        .tick ⟨1, 0, 0⟩ true] b) = .ok x ∧
    decide (given x.1 = [.arm ⟨⟨1⟩, .armedAway, ⟨#v[48, 48, 49, 50, 51, 52]⟩⟩] ∧
      x.2.panel.conn.sock.sent = bs "0Da11001234003F\r\n") = true :=
  of_holds (by decide +kernel)

/-! ## C51: what ends the bridge -/

theorem pollPanel_error {b : Bridge} (hg : BGood b) (hw : b.waiting = .select) {cx q}
    (h : b.pollPanel cx = .error q) : Fatal b cx := by
  unfold Bridge.pollPanel at h
  obtain ⟨⟨r, w, panel⟩, _, hn, _⟩ := pollNext_cases b.panel cx hg.good.sane.rd hg.good.sane.arming
  rw [hn] at h
  simp only [bind_ok] at h
  match r, h with
  | .pending, h => cases h
  | .ready none, _ => exact .ended w panel hw hn
  | .ready (some (.error e)), _ => exact .failed e w panel hw hn
  | .ready (some (.ok ev)), h =>
    dsimp only at h
    rcases publishEvent_iff hg hn with ⟨r, hm, _⟩ | ⟨_, _, _, _, _, ho⟩
    · exact .zoneReport ev r w panel hw hn hm
    · rw [ho] at h; cases h

theorem pollInbox_error {b : Bridge} (hg : BGood b) (hw : b.waiting = .select) {cx q}
    (h : b.pollInbox = .error q) : Fatal b cx := by
  unfold Bridge.pollInbox at h
  split at h
  · cases h
  · rename_i p inbox hi
    rw [P_bind_error] at h
    rcases h with h | ⟨c, _, h⟩
    · rcases commandFor_cases (pre := b.cfg.prefix) (code := b.code) (p := p) hg.usable.areas with
        ⟨h1, _⟩ | ⟨a, ha, ht, ⟨hu, _⟩ | ⟨_, _, h1⟩ | ⟨lv, _, h1⟩⟩
      · rw [h1] at h; cases h
      · exact .notText p inbox a hw hi ha ht hu
      · rw [h1] at h; cases h
      · rw [h1] at h; cases h
    · match c, h with
      | none, h => cases h
      | some _, h => cases h

/-- What ends a bridge that satisfies the invariant. -/
theorem dies {b : Bridge} (hg : BGood b) {op : BOp} {q : Panic} (h : b.step op = .error q) :
    ∃ cx pf, op = .tick cx pf ∧ Fatal b cx := by
  match op with
  | .arrive _ => cases h
  | .writable _ => cases h
  | .deliver _ => cases h
  | .tick cx pf =>
    refine ⟨cx, pf, rfl, ?_⟩
    have h : b.tick cx pf = .error q := h
    unfold Bridge.tick at h
    split at h
    · rename_i hw
      unfold Bridge.select at h
      split at h
      · rw [P_bind_error] at h
        rcases h with h | ⟨⟨o, b1⟩, h1, h2⟩
        · exact pollPanel_error hg hw h
        · rcases pollPanel_ok h1 with ⟨w, panel, hn, rfl, rfl⟩ | ⟨ev, w, panel, out, _, _, rfl, rfl⟩
          · dsimp only at h2
            rw [P_bind_error] at h2
            rcases h2 with h2 | ⟨_, _, h2⟩
            · have h2' : b.pollInbox = .error q := by
                unfold Bridge.pollInbox at h2 ⊢
                dsimp only at h2
                split at h2
                · cases h2
                · rename_i p inbox hi
                  rw [P_bind_error] at h2 ⊢
                  rcases h2 with h2 | ⟨c, h3, h4⟩
                  · exact .inl h2
                  · match c, h4 with
                    | none, h4 => cases h4
                    | some _, h4 => cases h4
              exact pollInbox_error hg hw h2'
            · cases h2
          · cases h2
      · rw [P_bind_error] at h
        rcases h with h | ⟨⟨o, b1⟩, h1, h2⟩
        · exact pollInbox_error hg hw h
        · rcases pollInbox_ok h1 with ⟨_, rfl, rfl⟩ | ⟨_, _, _, _, rfl, _⟩ | ⟨_, _, _, _, _, rfl, _⟩
          · dsimp only at h2
            rw [P_bind_error] at h2
            rcases h2 with h2 | ⟨_, _, h2⟩
            · exact pollPanel_error hg hw h2
            · cases h2
          · cases h2
          · cases h2
    · rename_i c hw
      split at h
      · cases h
      · rename_i e p hr; exact .notReady c e p hw hr
      · rename_i p1 hr
        have hc := pollReady_cases b.panel cx
        rw [hr] at hc
        cases hc with
        | idle hi =>
          rw [startSend_wf (hg.cmd c hw) hi] at h
          cases h
    · rename_i hw
      split at h
      · cases h
      · rename_i e p hr; exact .notFlushed e p hw hr
      · cases h

/-- **C51** (partial) In every history of the bridge, the only thing that can end it is a poll when
the connection to the panel has ended or fails, when the panel sends a zone status report, or when
a message to a command topic is not text: no other message of the panel, and no other message of
the broker, ends it.  Missing: zone status reports, for which the property is false of the code
(`C51_zone_report_ends`). -/
theorem C51_dies_partial {cfg : Cfg} {p0 : Panel} (hc : Connected p0) (hw : WfView p0)
    {b0 : Bridge} (hs : Bridge.start cfg p0 = .ok b0) {ops : List BOp}
    {obs : List BObs} {b : Bridge} (hr : Bridge.run ops b0 = .ok (obs, b)) {op : BOp} {q : Panic}
    (h : b.step op = .error q) : ∃ cx pf, op = .tick cx pf ∧ Fatal b cx :=
  dies (bhist_good (bhist_of_run hr) (start_good_bridge hc hw hs)) h

/-- **C51** (partial) Conversely, each of these does end it (for one of the two orders in which
`select!` polls its branches). -/
theorem C51_fatal_partial {cfg : Cfg} {p0 : Panel} (hc : Connected p0) (hw : WfView p0)
    {b0 : Bridge} (hs : Bridge.start cfg p0 = .ok b0) {ops : List BOp}
    {obs : List BObs} {b : Bridge} (hr : Bridge.run ops b0 = .ok (obs, b)) {cx : Cx}
    (hd : DistinctNames cfg) (h : Fatal b cx) : ∃ pf q, b.step (.tick cx pf) = .error q := by
  have hh := bhist_of_run hr
  have hg := bhist_good hh (start_good_bridge hc hw hs)
  have hd' : DistinctNames b.cfg := by
    obtain ⟨r0, hr0⟩ := hc.arming
    obtain ⟨z0, hz0⟩ := hc.zones
    obtain ⟨_, _, _, rfl⟩ := (start_iff hr0 hz0 (hw z0 hz0)).mp hs
    rw [(bhist_static hh).1]
    exact hd
  cases h with
  | ended w p hs hn =>
    refine ⟨true, .expect, ?_⟩
    show b.tick cx true = _
    unfold Bridge.tick Bridge.select Bridge.pollPanel
    rw [hs, hn]; rfl
  | failed e w p hs hn =>
    refine ⟨true, .expect, ?_⟩
    show b.tick cx true = _
    unfold Bridge.tick Bridge.select Bridge.pollPanel
    rw [hs, hn]; rfl
  | zoneReport ev r w p hs hn hm =>
    refine ⟨true, .todo, ?_⟩
    show b.tick cx true = _
    rcases publishEvent_iff hg hn with ⟨_, _, ho⟩ | ⟨hz, _⟩
    · unfold Bridge.tick Bridge.select Bridge.pollPanel
      rw [hs, hn]
      simp only [bind_ok, if_true]
      rw [ho]; rfl
    · exact absurd hm (hz r)
  | notText p rest a hs hi ha ht hu =>
    refine ⟨false, .expect, ?_⟩
    show b.tick cx false = _
    have hf : commandFor b.cfg.prefix b.code p b.cfg.elk.areas = .error .expect := by
      rcases commandFor_cases (pre := b.cfg.prefix) (code := b.code) (p := p) hg.usable.areas with
        ⟨_, h2⟩ | ⟨a', ha', ht', ⟨_, h1⟩ | ⟨hu', _, _⟩ | ⟨lv, hl, _⟩⟩
      · exact absurd ht (h2 a ha)
      · exact h1
      · rw [hu] at hu'; cases hu'
      · have := level_text hl; rw [hu] at this; cases this
    unfold Bridge.tick Bridge.select Bridge.pollInbox
    rw [hs, hi]
    simp only [if_neg (show ¬ (false = true) by simp)]
    rw [hf]
    rfl
  | notReady c e p hs hp =>
    refine ⟨true, .expect, ?_⟩
    show b.tick cx true = _
    unfold Bridge.tick
    rw [hs]
    dsimp only
    rw [hp]
  | notFlushed e p hs hp =>
    refine ⟨true, .expect, ?_⟩
    show b.tick cx true = _
    unfold Bridge.tick
    rw [hs]
    dsimp only
    rw [hp]

/-- **C51** is false of the code: a zone status report, which any other client of the panel can
cause, ends the bridge. -/
theorem C51_zone_report_ends : ∃ cfg p0 b0 cx pf, Connected p0 ∧ WfView p0 ∧ MapCfg cfg ∧
    DistinctNames cfg ∧ Bridge.start cfg p0 = .ok b0 ∧ b0.step (.tick cx pf) = .error .todo := by
  let p0 := samplePanel [.data (msgBytes (.zoneStatusReport violatedReport))]
  have key : holds (Bridge.start sampleCfg p0) (fun b =>
      match b.step (.tick ⟨1, 0, 0⟩ true) with
      | .error .todo => true
      | _ => false) = true := by decide +kernel
  obtain ⟨b, hb, h⟩ := of_holds key
  refine ⟨sampleCfg, p0, b, ⟨1, 0, 0⟩, true, samplePanel_connected _, samplePanel_view _,
    sampleCfg_map, sampleCfg_distinct, hb, ?_⟩
  revert h
  split
  · rename_i h; intro _; exact h
  · intro h; cases h

/-! ## C52: commands while another awaits its reply -/

/-- The state a bridge is stuck in: it waits to hand over a command, while the panel awaits the
reply to another. -/
def Jammed (b : Bridge) (c : Command) : Prop :=
  b.waiting = .ready c ∧ ∃ r, outstanding b.panel.cmdState = some r

/-- **C52** is false of the code, in general: a bridge that takes up a command while the panel awaits
the reply to another never does anything again: it hands over no command, takes up no message and
handles no event, whatever arrives (including that reply) and however often it is polled. -/
theorem C52_stuck_forever {b b' : Bridge} {c : Command} (hs : Jammed b c) {ops : List BOp}
    {obs : List BObs} (hr : Bridge.run ops b = .ok (obs, b')) :
    Jammed b' c ∧ given obs = [] ∧ takenUp obs = [] ∧ handled obs = [] ∧ published obs = [] := by
  have hh := bhist_of_run hr
  clear hr
  induction hh with
  | nil => exact ⟨hs, rfl, rfl, rfl, rfl⟩
  | @cons b op o b1 ops os b2 hc _ ih =>
    obtain ⟨hw, r, ho⟩ := hs
    have key : Jammed b1 c ∧ given [o] = [] ∧ takenUp [o] = [] ∧ handled [o] = [] ∧
        published [o] = [] := by
      cases hc with
      | arrive _ => exact ⟨⟨hw, r, ho⟩, rfl, rfl, rfl, rfl⟩
      | writable _ => exact ⟨⟨hw, r, ho⟩, rfl, rfl, rfl, rfl⟩
      | deliver _ => exact ⟨⟨hw, r, ho⟩, rfl, rfl, rfl, rfl⟩
      | event _ _ _ _ _ _ h _ _ => rw [hw] at h; cases h
      | ignored _ _ _ _ _ _ _ h _ _ _ => rw [hw] at h; cases h
      | asked _ _ _ _ _ _ _ _ h _ _ _ => rw [hw] at h; cases h
      | idle _ _ _ _ h _ _ => rw [hw] at h; cases h
      | notReady cx pf c' panel h hp =>
        refine ⟨⟨hw, r, ?_⟩, rfl, rfl, rfl, rfl⟩
        have hrc := pollReady_cases b.panel cx
        rw [hp] at hrc
        exact (busy_step (.ready cx _ _ hrc) (by intro cx h; cases h) ho).1
      | accepted cx pf c' p1 panel h hp _ =>
        have hrc := pollReady_cases b.panel cx
        rw [hp] at hrc
        exact absurd rfl
          ((busy_step (.ready cx _ _ hrc) (by intro cx h; cases h) ho).2 cx rfl)
      | notFlushed _ _ _ h _ => rw [hw] at h; cases h
      | sent _ _ _ h _ => rw [hw] at h; cases h
    obtain ⟨k1, k2, k3, k4, k5⟩ := key
    obtain ⟨i1, i2, i3, i4, i5⟩ := ih k1
    refine ⟨i1, ?_, ?_, ?_, ?_⟩
    · rw [given_cons, k2, i2]; rfl
    · rw [takenUp_cons, k3, i3]; rfl
    · rw [handled_cons, k4, i4]; rfl
    · rw [published_cons, k5, i5]; rfl

/-- **C52** is false of the code: two commands one after the other, and the bridge is stuck for
ever. -/
theorem C52_deadlock : ∃ cfg p0 b0 ops obs b c, Connected p0 ∧ WfView p0 ∧ MapCfg cfg ∧
    DistinctNames cfg ∧ Bridge.start cfg p0 = .ok b0 ∧ Bridge.run ops b0 = .ok (obs, b) ∧
    (delivered ops).length = 2 ∧ (given obs).length = 1 ∧
    ∀ ops' obs' b', Bridge.run ops' b = .ok (obs', b') →
      b'.waiting = .ready c ∧ given obs' = [] ∧ takenUp obs' = [] ∧ handled obs' = [] := by
  let ops : List BOp := [.writable (.accept 100),
    .deliver ⟨bs "elkm1/42/area/home/ha_command", bs "ARM_AWAY"⟩,
    .deliver ⟨bs "elkm1/42/area/home/ha_command", bs "DISARM"⟩,
    .tick ⟨1, 0, 0⟩ true, .tick ⟨1, 0, 0⟩ true, .tick ⟨1, 0, 0⟩ true, .tick ⟨1, 0, 0⟩ true]
  let c : Command := .arm ⟨⟨1⟩, .disarm, ⟨#v[48, 48, 49, 50, 51, 52]⟩⟩
  have key : holds (Bridge.start sampleCfg (samplePanel []) >>= fun b =>
      Bridge.run ops b >>= fun x => .ok (b, x)) (fun x =>
        decide (x.2.2.waiting = .ready c ∧ (outstanding x.2.2.panel.cmdState).isSome = true ∧
          (given x.2.1).length = 1)) = true := by
    decide +kernel
  obtain ⟨⟨b0, obs, b⟩, h1, h2⟩ := of_holds key
  rw [P_bind_ok] at h1
  obtain ⟨b0', h3, h4⟩ := h1
  rw [P_bind_ok] at h4
  obtain ⟨x, h5, h6⟩ := h4
  cases h6
  simp only [decide_eq_true_eq] at h2
  obtain ⟨h7, h8, h9⟩ := h2
  refine ⟨sampleCfg, samplePanel [], b0, ops, obs, b, c, samplePanel_connected _,
    samplePanel_view _, sampleCfg_map, sampleCfg_distinct, h3, h5, rfl, h9, ?_⟩
  intro ops' obs' b' hr
  obtain ⟨k1, k2, k3, k4, _⟩ := C52_stuck_forever ⟨h7, Option.isSome_iff_exists.mp h8⟩ hr
  exact ⟨k1.1, k2, k3, k4⟩

/-- The socket will take the bytes written next. -/
def Willing (b : Bridge) (n : Nat) : Prop :=
  ∃ k q, b.panel.conn.sock.writes = .accept k :: q ∧ n ≤ k

/-- **C52** (partial) A command that is next to be taken up while the panel awaits no reply is handed
over and sent in three polls, if the socket takes it: from every reachable state, whichever other
messages wait.  Missing: commands taken up while the panel awaits a reply, for which the property
is false of the code (`C52_stuck_forever`). -/
theorem C52_progress_partial {cfg : Cfg} {p0 : Panel} (hc : Connected p0) (hw : WfView p0)
    {b0 : Bridge} (hs : Bridge.start cfg p0 = .ok b0) {ops : List BOp}
    {obs : List BObs} {b : Bridge} (hr : Bridge.run ops b0 = .ok (obs, b))
    {p : Publish} {rest : List Publish} {c : Command} {cx1 cx2 cx3 : Cx} {pf2 pf3 : Bool}
    (hd : DistinctNames cfg) (hsel : b.waiting = .select)
    (hidle : outstanding b.panel.cmdState = none) (hi : b.inbox = p :: rest)
    (ha : Asks cfg b.code p (some c)) (hwill : Willing b (commandBytes c).length) :
    ∃ b', Bridge.run [.tick cx1 false, .tick cx2 pf2, .tick cx3 pf3] b =
        .ok ([.taken p (some c), .accepted c, .sent], b') ∧
      b'.waiting = .select ∧ b'.inbox = rest ∧
      b'.panel.conn.sock.sent = b.panel.conn.sock.sent ++ commandBytes c := by
  have hh := bhist_of_run hr
  have hg := bhist_good hh (start_good_bridge hc hw hs)
  have e : b.cfg = cfg := by
    obtain ⟨r0, hr0⟩ := hc.arming
    obtain ⟨z0, hz0⟩ := hc.zones
    obtain ⟨_, _, _, rfl⟩ := (start_iff hr0 hz0 (hw z0 hz0)).mp hs
    exact (bhist_static hh).1
  have hi' : b.panel.cmdState = .idle := by
    cases h : b.panel.cmdState with
    | idle => rfl
    | busy r f w => rw [h] at hidle; cases hidle
  have hf : commandFor b.cfg.prefix b.code p b.cfg.elk.areas = .ok (some c) := by
    rw [e]
    have hu := hg.usable.areas
    rw [e] at hu
    rcases commandFor_cases (pre := cfg.prefix) (code := b.code) (p := p) hu with
      ⟨h1, h2⟩ | ⟨a', ha', ht', ⟨hx, h1⟩ | ⟨_, hn, h1⟩ | ⟨lv, hl, h1⟩⟩
    · exact absurd (C50_asks_unique hd ha (asks_of hu h1)) (by simp)
    · cases ha with
      | arm a lv _ _ hl => have := level_text hl; rw [hx] at this; cases this
    · exact absurd (C50_asks_unique hd ha (asks_of hu h1)) (by simp)
    · rw [h1, C50_asks_unique hd ha (asks_of hu h1)]
  have hwf : WfCommand c := commandFor_wf hg.usable.areas ((C25_number _).2.2 _ hg.code).1 hf
  have hempty := hg.empty (by rw [hsel]; simp)
  have s1 : b.step (.tick cx1 false) = .ok (.taken p (some c),
      { b with inbox := rest, waiting := .ready c }) := by
    show b.tick cx1 false = _
    unfold Bridge.tick Bridge.select Bridge.pollInbox
    rw [hsel, hi]
    simp only [if_neg (show ¬ (false = true) by simp)]
    rw [hf]
    rfl
  let b2 : Bridge := { b with
    inbox := rest, waiting := .flush,
    panel := { b.panel with conn := { b.panel.conn with wbuf := commandBytes c },
                            cmdState := .busy c.intoMsg false none } }
  have s2 : Bridge.step { b with inbox := rest, waiting := .ready c } (.tick cx2 pf2) =
      .ok (.accepted c, b2) := by
    show Bridge.tick { b with inbox := rest, waiting := .ready c } cx2 pf2 = _
    unfold Bridge.tick
    dsimp only
    have : b.panel.pollReady cx2 = (.ready (.ok ()), b.panel) := by
      unfold Panel.pollReady
      rw [hi']
    rw [this]
    dsimp only
    rw [startSend_wf hwf hi', hempty]
    rfl
  obtain ⟨k, q, hq, hk⟩ := hwill
  have hfl : flushLoop b.panel.conn.sock.writes (commandBytes c) b.panel.conn.sock.sent =
      ⟨.ready (.ok ()), [], q, b.panel.conn.sock.sent ++ commandBytes c⟩ := by
    have hpos : (commandBytes c).length ≠ 0 := by
      unfold commandBytes asciiFrame
      simp
    unfold flushLoop
    rw [if_neg hpos, hq]
    dsimp only
    rw [Nat.min_eq_right hk, if_neg hpos, List.drop_length, List.take_length]
    unfold flushLoop
    simp
  have s3 : ∃ b3, b2.step (.tick cx3 pf3) = .ok (.sent, b3) ∧ b3.waiting = .select ∧
      b3.inbox = rest ∧ b3.panel.conn.sock.sent = b.panel.conn.sock.sent ++ commandBytes c := by
    have hpf : ∃ pn, b2.panel.pollFlush cx3 = (.ready (.ok ()), pn) ∧
        pn.conn.sock.sent = b.panel.conn.sock.sent ++ commandBytes c := by
      refine ⟨(b2.panel.pollFlush cx3).2, ?_, ?_⟩ <;>
      · unfold Panel.pollFlush Connection.pollFlush
        dsimp only [b2]
        rw [hfl]
    obtain ⟨pn, hpn, hsent⟩ := hpf
    refine ⟨{ b2 with panel := pn, waiting := .select }, ?_, rfl, rfl, hsent⟩
    show b2.tick cx3 pf3 = _
    unfold Bridge.tick
    dsimp only [b2]
    dsimp only [b2] at hpn
    rw [hpn]
  obtain ⟨b3, s3, r1, r2, r3⟩ := s3
  refine ⟨b3, brun_cons.mpr ⟨_, _, _, s1, brun_cons.mpr ⟨_, _, _, s2,
    brun_cons.mpr ⟨_, _, _, s3, rfl, rfl⟩, rfl⟩, rfl⟩, r1, r2, r3⟩

/-- **C52** (partial) A poll in the main loop with messages waiting takes up the next one, or handles
an event of the panel, unless it ends the bridge. -/
theorem C52_select_partial {b b' : Bridge} {cx : Cx} {pf : Bool} {o : BObs} {p : Publish}
    {rest : List Publish} (hsel : b.waiting = .select) (hi : b.inbox = p :: rest)
    (hr : b.step (.tick cx pf) = .ok (o, b')) :
    (∃ c, o = .taken p c) ∨ (∃ ev out w, o = .event ev out w) := by
  have h := bstep_cases hr
  generalize hop : BOp.tick cx pf = op at h
  cases h with
  | event _ _ ev out w _ _ _ _ => exact .inr ⟨ev, out, w, rfl⟩
  | ignored _ _ p' _ _ _ _ _ hi' _ _ => rw [hi] at hi'; cases hi'; exact .inl ⟨none, rfl⟩
  | asked _ _ p' _ _ _ _ c _ hi' _ _ => rw [hi] at hi'; cases hi'; exact .inl ⟨some c, rfl⟩
  | idle _ _ _ _ _ hi' _ => rw [hi] at hi'; cases hi'
  | notReady _ _ _ _ hw _ => rw [hsel] at hw; cases hw
  | accepted _ _ _ _ _ hw _ _ => rw [hsel] at hw; cases hw
  | notFlushed _ _ _ hw _ => rw [hsel] at hw; cases hw
  | sent _ _ _ hw _ => rw [hsel] at hw; cases hw
  | arrive _ => cases hop
  | writable _ => cases hop
  | deliver _ => cases hop

/-! ## C53: discovery identifiers -/

theorem decStr_u8_inj {a b : UInt8} (h : decStr a.toNat = decStr b.toNat) : a = b := by
  have h1 := (decStr_spec a.toNat).2.1
  rw [h, (decStr_spec b.toNat).2.1] at h1
  exact UInt8.toNat_inj.mp h1.symm

theorem areaUid_inj {s : Bytes} {a b : UInt8} (h : areaUniqueId s a = areaUniqueId s b) : a = b := by
  unfold areaUniqueId at h
  rw [List.append_cancel_left_eq] at h
  exact decStr_u8_inj h

theorem zoneUid_inj {s : Bytes} {a b : UInt8} (h : zoneUniqueId s a = zoneUniqueId s b) : a = b := by
  unfold zoneUniqueId at h
  rw [List.append_cancel_left_eq] at h
  exact decStr_u8_inj h

theorem uid_ne {s : Bytes} {a b : UInt8} : areaUniqueId s a ≠ zoneUniqueId s b := by
  unfold areaUniqueId zoneUniqueId
  intro h
  simp only [List.append_assoc, List.append_cancel_left_eq] at h
  have h1 : bs "-area-" = [45, 97, 114, 101, 97, 45] := rfl
  have h2 : bs "-zone-" = [45, 122, 111, 110, 101, 45] := rfl
  rw [h1, h2] at h
  simp at h

theorem areaDisc_inj {ha s : Bytes} {a b : UInt8} (h : areaDiscoveryTopic ha (areaUniqueId s a) =
    areaDiscoveryTopic ha (areaUniqueId s b)) : a = b := by
  unfold areaDiscoveryTopic at h
  rw [List.append_cancel_right_eq, List.append_cancel_left_eq] at h
  exact areaUid_inj h

theorem zoneDisc_inj {ha s : Bytes} {a b : UInt8} (h : zoneDiscoveryTopic ha (zoneUniqueId s a) =
    zoneDiscoveryTopic ha (zoneUniqueId s b)) : a = b := by
  unfold zoneDiscoveryTopic at h
  rw [List.append_cancel_right_eq, List.append_cancel_left_eq] at h
  exact zoneUid_inj h

theorem disc_ne {ha u v : Bytes} : areaDiscoveryTopic ha u ≠ zoneDiscoveryTopic ha v := by
  unfold areaDiscoveryTopic zoneDiscoveryTopic
  intro h
  rw [List.append_assoc, List.append_assoc, List.append_assoc ha, List.append_assoc ha,
    List.append_cancel_left_eq] at h
  have h1 : bs "/alarm_control_panel/" = 47 :: 97 :: (bs "/alarm_control_panel/").drop 2 := rfl
  have h2 : bs "/binary_sensor/" = 47 :: 98 :: (bs "/binary_sensor/").drop 2 := rfl
  rw [h1, h2] at h
  simp at h

theorem uid_area {pre s : Bytes} {id cfg} :
    stringField "unique_id" (.json (alarmPanelConfig pre s id cfg)) =
      some (areaUniqueId s id) := by
  unfold stringField alarmPanelConfig
  have : ∀ (x1 x2 x3 x4 x5 x6 : Json), List.lookup (bs "unique_id")
      [(bs "availability_topic", x1), (bs "state_topic", x2), (bs "command_topic", x3),
       (bs "unique_id", x4), (bs "name", x5), (bs "device", x6)] = some x4 := fun _ _ _ _ _ _ => rfl
  dsimp only
  rw [this]

theorem uid_zone {pre s : Bytes} {id cfg} :
    stringField "unique_id" (.json (binarySensorConfig pre s id cfg)) =
      some (zoneUniqueId s id) := by
  unfold stringField binarySensorConfig
  have : ∀ (x1 x2 x3 x4 x5 x6 : Json), List.lookup (bs "unique_id")
      [(bs "availability_topic", x1), (bs "state_topic", x2), (bs "unique_id", x3),
       (bs "name", x4), (bs "device", x5), (bs "device_class", x6)] = some x3 :=
    fun _ _ _ _ _ _ => rfl
  dsimp only
  rw [this]

/-- **C53** For every configuration (its areas and its zones being maps), discovery publishes one
retained document per area and zone, under distinct topics and with distinct unique ids. -/
theorem C53_unique {cfg : Cfg} (hm : MapCfg cfg) {pre ha : Bytes} {out : List Published}
    (h : publishHaDiscovery pre ha cfg.elk = .ok out) :
    out.length = cfg.elk.areas.length + cfg.elk.zones.length ∧
      (∀ m ∈ out, m.retain = true) ∧ (out.map (·.topic)).Nodup ∧
      ∃ ids : List Bytes, out.map (fun m => stringField "unique_id" m.payload) = ids.map some ∧ ids.Nodup := by
  obtain ⟨_, rfl⟩ := publishHaDiscovery_ok.mp h
  unfold discoveryMsgs
  refine ⟨by simp, ?_, ?_, ?_⟩
  · intro m hm
    rcases List.mem_append.mp hm with h | h <;> obtain ⟨_, _, rfl⟩ := List.mem_map.mp h <;> rfl
  · rw [List.map_append, List.map_map, List.map_map]
    refine List.nodup_append.mpr ⟨?_, ?_, ?_⟩
    · exact nodup_map_inj (f := fun a : UInt8 × AreaCfg => a.1)
        (g := fun i => areaDiscoveryTopic ha (areaUniqueId cfg.elk.serialNumber i)) hm.areas
        fun _ _ => areaDisc_inj
    · exact nodup_map_inj (f := fun a : UInt8 × ZoneCfg => a.1)
        (g := fun i => zoneDiscoveryTopic ha (zoneUniqueId cfg.elk.serialNumber i)) hm.zones
        fun _ _ => zoneDisc_inj
    · intro x hx y hy
      obtain ⟨_, _, rfl⟩ := List.mem_map.mp hx
      obtain ⟨_, _, rfl⟩ := List.mem_map.mp hy
      exact disc_ne
  · refine ⟨cfg.elk.areas.map (fun a => areaUniqueId cfg.elk.serialNumber a.1) ++
      cfg.elk.zones.map (fun a => zoneUniqueId cfg.elk.serialNumber a.1), ?_, ?_⟩
    · rw [List.map_append, List.map_append, List.map_map, List.map_map, List.map_map, List.map_map]
      congr 1
    · refine List.nodup_append.mpr ⟨?_, ?_, ?_⟩
      · exact nodup_map_inj (f := fun a : UInt8 × AreaCfg => a.1)
          (g := fun i => areaUniqueId cfg.elk.serialNumber i) hm.areas fun _ _ => areaUid_inj
      · exact nodup_map_inj (f := fun a : UInt8 × ZoneCfg => a.1)
          (g := fun i => zoneUniqueId cfg.elk.serialNumber i) hm.zones fun _ _ => zoneUid_inj
      · intro x hx y hy
        obtain ⟨_, _, rfl⟩ := List.mem_map.mp hx
        obtain ⟨_, _, rfl⟩ := List.mem_map.mp hy
        exact uid_ne

/-- Non-vacuity: area 1 and zone 1 of the sample. -/
example : ∃ out, publishHaDiscovery (bs "p") (bs "homeassistant") sampleCfg.elk = .ok out ∧
    decide (out.map (·.topic) = [bs "homeassistant/alarm_control_panel/elk-42-area-1/config",
      bs "homeassistant/binary_sensor/elk-42-zone-1/config",
      bs "homeassistant/binary_sensor/elk-42-zone-2/config"] ∧
      out.map (fun m => stringField "unique_id" m.payload) =
        [some (bs "elk-42-area-1"), some (bs "elk-42-zone-1"), some (bs "elk-42-zone-2")]) = true :=
  of_holds (by decide +kernel)

/-! ## C65: which configurations work -/

/-- **C65** With a connected panel the bridge reaches its main loop exactly for the usable
configurations: the code has at most six digits, there are areas, the areas and zones exist, and
neither the prefixes nor the names nor (if it is used) the serial number contain MQTT wildcards. -/
theorem C65_starts {cfg : Cfg} {p : Panel} (hc : Connected p) (hw : WfView p) :
    (∃ b, Bridge.start cfg p = .ok b) ↔ UsableCfg cfg := by
  obtain ⟨r, hr⟩ := hc.arming
  obtain ⟨z, hz⟩ := hc.zones
  constructor
  · rintro ⟨b, h⟩
    exact ((start_iff hr hz (hw z hz)).mp h).1
  · intro hu
    obtain ⟨code, hcode⟩ := (C25_number cfg.elk.code).2.1.mpr hu.code
    exact ⟨_, (start_iff hr hz (hw z hz)).mpr ⟨hu, code, hcode, rfl⟩⟩

/-- **C65** Every panel that `connect` returns meets these requirements. -/
theorem C65_connect {c : Connection} (hc : Fresh c) {ops outs p}
    (h : Init.connect c ops = .ok (outs, .finished (.ok p))) : Connected p ∧ WfView p :=
  ⟨C36_connect_establishes c hc _ _ p h, connect_wfView hc h⟩

/-- Non-vacuity: the sample configuration is usable. -/
example : UsableCfg sampleCfg :=
  (C65_starts (samplePanel_connected []) (samplePanel_view [])).mp
    (by
      obtain ⟨b, hb, _⟩ := of_holds (x := Bridge.start sampleCfg (samplePanel []))
        (f := fun _ => true) (by decide +kernel)
      exact ⟨b, hb⟩)

/-! ## C66: availability -/

/-- What the bridge publishes once it runs. -/
theorem published_topics {b b' : Bridge} {ops obs} (h : BHist b ops obs b') (hg : BGood b) :
    ∀ m ∈ published obs, (m.retain = false ∧ m.topic = eventTopic b.cfg.prefix) ∨
      (m.retain = true ∧ ((∃ a ∈ b.cfg.elk.areas, m.topic = areaStateTopic b.cfg.prefix a.2.name) ∨
        ∃ a ∈ b.cfg.elk.zones, m.topic = zoneStateTopic b.cfg.prefix a.2.name)) := by
  induction h with
  | nil => intro m h; cases h
  | @cons b op o b1 ops os b2 hc _ ih =>
    intro m hm
    rw [published_cons] at hm
    rcases List.mem_append.mp hm with h | h
    · cases hc with
      | event cx pf ev out w panel hw hn ho =>
        simp only [published, List.flatMap_cons, List.flatMap_nil, List.append_nil] at h
        rcases publishEvent_iff hg hn with ⟨_, _, h1⟩ | ⟨_, json, ch, _, hch, h1⟩
        · rw [h1] at ho; cases ho
        · rw [h1] at ho
          cases ho
          rcases List.mem_cons.mp h with rfl | h
          · exact .inl ⟨rfl, rfl⟩
          · right
            have hsc := step_cases hg.good.sane (next_step.mpr hn)
            have g' := step_good hg.good hsc
            have w' := step_wf hsc hg.wf
            obtain ⟨a', ha'⟩ := Option.ne_none_iff_exists'.mp g'.has
            obtain ⟨z', hz'⟩ := Option.ne_none_iff_exists'.mp g'.zones
            unfold publishChange at hch
            split at hch
            · rw [((publishAreaStates_ok (arming_iff.mpr ha')).mp hch).2] at h
              obtain ⟨a, ha, rfl⟩ := List.mem_map.mp h
              exact ⟨rfl, .inl ⟨a, ha, rfl⟩⟩
            · rename_i zone prior he
              obtain ⟨i, hi⟩ := change_zone hg.good hn he
              split at hch
              · cases hch; cases h
              · rename_i zc hl
                rw [((publishZoneState_ok (zones_iff.mpr hz') (w' z' hz') hi).mp hch).2] at h
                rw [List.mem_singleton.mp h]
                exact ⟨rfl, .inr ⟨_, lookup_mem hl, rfl⟩⟩
            · cases hch; cases h
      | _ => simp [published] at h
    · have := ih (bcase_good hc hg) m h
      rw [(bcase_static hc).1] at this
      exact this

/-- **C66** The bridge reports itself online last: when it enters its main loop it has published,
retained, the state of every area and zone before, it has subscribed to the command topics of
exactly the configured areas, and there was no earlier message about its availability. -/
theorem C66_online_last {cfg : Cfg} {p : Panel} (hc : Connected p) (hw : WfView p) {b : Bridge}
    (h : Bridge.start cfg p = .ok b) :
    ∃ before m, b.log = before ++ [m] ∧ m.topic = cfg.prefix ++ bs "/availability" ∧
      m.retain = true ∧ m.payload = .text (bs "online") ∧
      (∀ x ∈ before, x.topic ≠ cfg.prefix ++ bs "/availability") ∧
      (∀ a ∈ cfg.elk.areas, ∃ x ∈ before, x.retain = true ∧
        x.topic = cfg.prefix ++ bs "/area/" ++ a.2.name ++ bs "/ha_state") ∧
      (∀ a ∈ cfg.elk.zones, ∃ x ∈ before, x.retain = true ∧
        x.topic = cfg.prefix ++ bs "/zone/" ++ a.2.name ++ bs "/ha_state") ∧
      b.subscribed = cfg.elk.areas.map fun a =>
        cfg.prefix ++ bs "/area/" ++ a.2.name ++ bs "/ha_command" := by
  obtain ⟨r, hr⟩ := hc.arming
  obtain ⟨z, hz⟩ := hc.zones
  obtain ⟨_, code, _, rfl⟩ := (start_iff hr hz (hw z hz)).mp h
  refine ⟨_, _, rfl, rfl, rfl, rfl, ?_, ?_, ?_, rfl⟩
  · intro x hx
    rcases List.mem_append.mp hx with hx | hx
    · rcases List.mem_append.mp hx with hx | hx
      · unfold discoveryLog at hx
        split at hx
        · unfold discoveryMsgs at hx
          rcases List.mem_append.mp hx with h | h <;> obtain ⟨_, _, rfl⟩ := List.mem_map.mp h
          · exact fun h => avail_ne_config.1 h.symm
          · exact fun h => avail_ne_config.2 h.symm
        · cases hx
      · obtain ⟨n, hn⟩ := areaMsgs_topic hx
        rw [hn]; exact area_ne_avail
    · obtain ⟨n, hn⟩ := zoneMsgs_topic hx
      rw [hn]; exact zone_ne_avail
  · intro a ha
    exact ⟨_, List.mem_append_left _ (List.mem_append_right _ (List.mem_map_of_mem ha)), rfl, rfl⟩
  · intro a ha
    exact ⟨_, List.mem_append_right _ (List.mem_map_of_mem ha), rfl, rfl⟩

/-- **C66** and as long as it runs the broker holds `online`. -/
theorem C66_online_stays {cfg : Cfg} {p0 : Panel} (hc : Connected p0) (hw : WfView p0)
    {b0 : Bridge} (hs : Bridge.start cfg p0 = .ok b0) {ops : List BOp}
    {obs : List BObs} {b : Bridge} (hr : Bridge.run ops b0 = .ok (obs, b)) :
    retained b.log (cfg.prefix ++ bs "/availability") = some (.text (bs "online")) := by
  have hg := start_good_bridge hc hw hs
  have hh := bhist_of_run hr
  obtain ⟨r0, hr0⟩ := hc.arming
  obtain ⟨z0, hz0⟩ := hc.zones
  obtain ⟨_, code, _, rfl⟩ := (start_iff hr0 hz0 (hw z0 hz0)).mp hs
  rw [(bhist_static hh).2.2.2, retained_append, retained_none (l := published obs)]
  · rw [retained_append]
    unfold retained
    simp [availabilityTopic]
  · intro m hm hret
    rcases published_topics hh hg m hm with ⟨h, _⟩ | ⟨_, ⟨a, _, h⟩ | ⟨a, _, h⟩⟩
    · rw [h] at hret; cases hret
    · rw [h]; exact area_ne_avail
    · rw [h]; exact zone_ne_avail

/-! ## C67: discovery documents -/

/-- The fields of the document of an area. -/
theorem area_fields {pre s : Bytes} {id cfg} (k : String)
    (h : k = "state_topic" ∨ k = "command_topic" ∨ k = "availability_topic") :
    stringField k (.json (alarmPanelConfig pre s id cfg)) = some (
      if k = "state_topic" then areaStateTopic pre cfg.name
      else if k = "command_topic" then areaCommandTopic pre cfg.name
      else availabilityTopic pre) := by
  have key : ∀ (x1 x2 x3 x4 x5 x6 : Json),
      let l := [(bs "availability_topic", x1), (bs "state_topic", x2), (bs "command_topic", x3),
        (bs "unique_id", x4), (bs "name", x5), (bs "device", x6)]
      l.lookup (bs "state_topic") = some x2 ∧ l.lookup (bs "command_topic") = some x3 ∧
        l.lookup (bs "availability_topic") = some x1 := fun _ _ _ _ _ _ => ⟨rfl, rfl, rfl⟩
  unfold stringField alarmPanelConfig
  dsimp only
  rcases h with rfl | rfl | rfl
  · rw [(key _ _ _ _ _ _).1]; rfl
  · rw [(key _ _ _ _ _ _).2.1]; rfl
  · rw [(key _ _ _ _ _ _).2.2]; rfl

/-- The fields of the document of a zone. -/
theorem zone_fields {pre s : Bytes} {id cfg} (k : String)
    (h : k = "state_topic" ∨ k = "availability_topic" ∨ k = "device_class") :
    stringField k (.json (binarySensorConfig pre s id cfg)) = some (
      if k = "state_topic" then zoneStateTopic pre cfg.name
      else if k = "device_class" then cfg.binarySensorDeviceClass
      else availabilityTopic pre) := by
  have key : ∀ (x1 x2 x3 x4 x5 x6 : Json),
      let l := [(bs "availability_topic", x1), (bs "state_topic", x2), (bs "unique_id", x3),
        (bs "name", x4), (bs "device", x5), (bs "device_class", x6)]
      l.lookup (bs "state_topic") = some x2 ∧ l.lookup (bs "device_class") = some x6 ∧
        l.lookup (bs "availability_topic") = some x1 := fun _ _ _ _ _ _ => ⟨rfl, rfl, rfl⟩
  unfold stringField binarySensorConfig
  dsimp only
  rcases h with rfl | rfl | rfl
  · rw [(key _ _ _ _ _ _).1]; rfl
  · rw [(key _ _ _ _ _ _).2.2]; rfl
  · rw [(key _ _ _ _ _ _).2.1]; rfl

/-- What the broker holds for discovery, at any time. -/
theorem discovery_held {cfg : Cfg} {p0 : Panel} (hc : Connected p0) (hw : WfView p0)
    (hm : MapCfg cfg) {ha : Bytes} (hp : cfg.mqtt.haDiscoveryPrefix = some ha)
    {b0 : Bridge} (hs : Bridge.start cfg p0 = .ok b0) {ops : List BOp}
    {obs : List BObs} {b : Bridge} (hr : Bridge.run ops b0 = .ok (obs, b)) :
    (∀ a ∈ cfg.elk.areas, retained b.log
      (areaDiscoveryTopic ha (areaUniqueId cfg.elk.serialNumber a.1)) =
        some (.json (alarmPanelConfig cfg.prefix cfg.elk.serialNumber a.1 a.2))) ∧
    (∀ a ∈ cfg.elk.zones, retained b.log
      (zoneDiscoveryTopic ha (zoneUniqueId cfg.elk.serialNumber a.1)) =
        some (.json (binarySensorConfig cfg.prefix cfg.elk.serialNumber a.1 a.2))) := by
  have hg := start_good_bridge hc hw hs
  have hh := bhist_of_run hr
  obtain ⟨r0, hr0⟩ := hc.arming
  obtain ⟨z0, hz0⟩ := hc.zones
  obtain ⟨_, code, _, rfl⟩ := (start_iff hr0 hz0 (hw z0 hz0)).mp hs
  have drop : ∀ t, (∀ pre n, areaStateTopic pre n ≠ t ∧ zoneStateTopic pre n ≠ t) →
      availabilityTopic cfg.prefix ≠ t →
      retained b.log t = retained (discoveryLog cfg) t := by
    intro t h1 h2
    rw [(bhist_static hh).2.2.2, retained_append, retained_none (l := published obs)]
    · dsimp only
      rw [retained_append, retained_append, retained_append, retained_none (l := [_]),
        retained_none (l := zoneMsgs _ _ _), retained_none (l := areaMsgs _ _ _)]
      · simp
      · intro m hm _
        obtain ⟨n, hn⟩ := areaMsgs_topic hm
        rw [hn]; exact (h1 _ _).1
      · intro m hm _
        obtain ⟨n, hn⟩ := zoneMsgs_topic hm
        rw [hn]; exact (h1 _ _).2
      · intro m hm _
        rw [List.mem_singleton.mp hm]; exact h2
    · intro m hm hret
      rcases published_topics hh hg m hm with ⟨h, _⟩ | ⟨_, ⟨a, _, h⟩ | ⟨a, _, h⟩⟩
      · rw [h] at hret; cases hret
      · rw [h]; exact (h1 _ _).1
      · rw [h]; exact (h1 _ _).2
  constructor
  · intro a ha'
    rw [drop _ (fun _ _ => ⟨area_ne_config.1, zone_ne_config.1⟩) avail_ne_config.1]
    unfold discoveryLog
    rw [hp]
    dsimp only
    unfold discoveryMsgs
    rw [retained_append, retained_map
      (f := fun a : UInt8 × AreaCfg =>
        areaDiscoveryTopic ha (areaUniqueId cfg.elk.serialNumber a.1))
      (g := fun a => .json (alarmPanelConfig cfg.prefix cfg.elk.serialNumber a.1 a.2))
      (nodup_map_inj (f := fun a : UInt8 × AreaCfg => a.1)
        (g := fun i => areaDiscoveryTopic ha (areaUniqueId cfg.elk.serialNumber i)) hm.areas
        fun _ _ => areaDisc_inj) ha', retained_none]
    · rfl
    · intro m hm _
      obtain ⟨_, _, rfl⟩ := List.mem_map.mp hm
      exact fun h => disc_ne h.symm
  · intro a ha'
    rw [drop _ (fun _ _ => ⟨area_ne_config.2, zone_ne_config.2⟩) avail_ne_config.2]
    unfold discoveryLog
    rw [hp]
    dsimp only
    unfold discoveryMsgs
    rw [retained_append, retained_map
      (f := fun a : UInt8 × ZoneCfg =>
        zoneDiscoveryTopic ha (zoneUniqueId cfg.elk.serialNumber a.1))
      (g := fun a => .json (binarySensorConfig cfg.prefix cfg.elk.serialNumber a.1 a.2))
      (nodup_map_inj (f := fun a : UInt8 × ZoneCfg => a.1)
        (g := fun i => zoneDiscoveryTopic ha (zoneUniqueId cfg.elk.serialNumber i)) hm.zones
        fun _ _ => zoneDisc_inj) ha']
    rfl

/-- **C67** At any time, the discovery document the broker holds for a configured area names as state
topic the one under which the broker holds that area's state (`C49_tracks`), as command topic one
the bridge is subscribed to and takes commands for that very area from, and as availability topic
the one under which the broker holds `online`. -/
theorem C67_area_document {cfg : Cfg} {p0 : Panel} (hc : Connected p0) (hw : WfView p0)
    (hm : MapCfg cfg) (hd : DistinctNames cfg) {ha : Bytes}
    (hp : cfg.mqtt.haDiscoveryPrefix = some ha)
    {b0 : Bridge} (hs : Bridge.start cfg p0 = .ok b0) {ops : List BOp}
    {obs : List BObs} {b : Bridge} (hr : Bridge.run ops b0 = .ok (obs, b))
    {a : UInt8 × AreaCfg} (hmem : a ∈ cfg.elk.areas) :
    ∃ doc st ct at' r t, retained b.log (ha ++ bs "/alarm_control_panel/elk-" ++
        cfg.elk.serialNumber ++ bs "-area-" ++ decStr a.1.toNat ++ bs "/config") = some doc ∧
      stringField "state_topic" doc = some st ∧ stringField "command_topic" doc = some ct ∧
      stringField "availability_topic" doc = some at' ∧
      b.panel.armingStatus = .ok r ∧ haAreaState r ⟨a.1⟩ = .ok t ∧
      retained b.log st = some (.text t) ∧
      ct ∈ b.subscribed ∧
      (∀ pl lv, Level pl lv → Asks cfg b.code ⟨ct, pl⟩ (some (.arm ⟨⟨a.1⟩, lv, b.code⟩))) ∧
      retained b.log at' = some (.text (bs "online")) := by
  obtain ⟨r, z, h1, _, h2, _, _⟩ := C49_tracks hc hw hm hd hs hr
  obtain ⟨t, ht, h3⟩ := h2 a hmem
  have hdoc := (discovery_held hc hw hm hp hs hr).1 a hmem
  have etopic : areaDiscoveryTopic ha (areaUniqueId cfg.elk.serialNumber a.1) =
      ha ++ bs "/alarm_control_panel/elk-" ++ cfg.elk.serialNumber ++ bs "-area-" ++
        decStr a.1.toNat ++ bs "/config" := by
    have : bs "/alarm_control_panel/elk-" = bs "/alarm_control_panel/" ++ bs "elk-" := rfl
    unfold areaDiscoveryTopic areaUniqueId
    rw [this]
    simp only [List.append_assoc]
  rw [etopic] at hdoc
  refine ⟨_, _, _, _, r, t, hdoc, area_fields "state_topic" (by simp),
    area_fields "command_topic" (by simp), area_fields "availability_topic" (by simp), h1, ht, h3,
    ?_, ?_, C66_online_stays hc hw hs hr⟩
  · obtain ⟨_, _, _, _, _, _, _, _, _, hsub⟩ := C66_online_last hc hw hs
    rw [(bhist_static (bhist_of_run hr)).2.2.1, hsub]
    exact List.mem_map_of_mem hmem
  · intro pl lv hl
    exact .arm a lv hmem rfl hl

/-- **C67** The document of a configured zone names as state topic the one under which the broker
holds that zone's state, and the availability topic and the configured device class. -/
theorem C67_zone_document {cfg : Cfg} {p0 : Panel} (hc : Connected p0) (hw : WfView p0)
    (hm : MapCfg cfg) (hd : DistinctNames cfg) {ha : Bytes}
    (hp : cfg.mqtt.haDiscoveryPrefix = some ha)
    {b0 : Bridge} (hs : Bridge.start cfg p0 = .ok b0) {ops : List BOp}
    {obs : List BObs} {b : Bridge} (hr : Bridge.run ops b0 = .ok (obs, b))
    {a : UInt8 × ZoneCfg} (hmem : a ∈ cfg.elk.zones) :
    ∃ doc st at' z, ∃ i : Fin 208, retained b.log (ha ++ bs "/binary_sensor/elk-" ++
        cfg.elk.serialNumber ++ bs "-zone-" ++ decStr a.1.toNat ++ bs "/config") = some doc ∧
      stringField "state_topic" doc = some st ∧ stringField "availability_topic" doc = some at' ∧
      stringField "device_class" doc = some a.2.binarySensorDeviceClass ∧
      b.panel.zoneStatuses = .ok z ∧ a.1.toNat = i.val + 1 ∧
      retained b.log st = some (.text (bs (zoneText z.zones[i].val.toNat))) ∧
      retained b.log at' = some (.text (bs "online")) := by
  obtain ⟨r, z, _, h1, _, _, h2⟩ := C49_tracks hc hw hm hd hs hr
  obtain ⟨i, hi, h3⟩ := h2 a hmem
  have hdoc := (discovery_held hc hw hm hp hs hr).2 a hmem
  have etopic : zoneDiscoveryTopic ha (zoneUniqueId cfg.elk.serialNumber a.1) =
      ha ++ bs "/binary_sensor/elk-" ++ cfg.elk.serialNumber ++ bs "-zone-" ++
        decStr a.1.toNat ++ bs "/config" := by
    have : bs "/binary_sensor/elk-" = bs "/binary_sensor/" ++ bs "elk-" := rfl
    unfold zoneDiscoveryTopic zoneUniqueId
    rw [this]
    simp only [List.append_assoc]
  rw [etopic] at hdoc
  exact ⟨_, _, _, z, i, hdoc, zone_fields "state_topic" (by simp),
    zone_fields "availability_topic" (by simp), zone_fields "device_class" (by simp), h1, hi, h3,
    C66_online_stays hc hw hs hr⟩

end Elk.Props
