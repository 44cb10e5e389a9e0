import Verif.Props.Mqtt
import Verif.Props.Config
/-!
# Lemmas about the whole bridge program and the broker
-/

namespace Elk
open Spec Props

/-! ## The program -/

theorem phase_snoc {ops : List InitOp} : ∀ {ph : Phase} {i : Init} {outs : List Obs} {op : InitOp} {o ph'},
    Phase.run ops ph = .ok (outs, .asking i) → i.step op = .ok (o, ph') →
    Phase.run (ops ++ [op]) ph = .ok (outs ++ [o], ph') := by
  induction ops with
  | nil =>
    intro ph i outs op o ph' h1 h2
    cases h1
    rw [List.nil_append, phase_cons, P_bind_ok]
    refine ⟨_, h2, ?_⟩
    cases ph' <;> rfl
  | cons q ops ih =>
    intro ph i outs op o ph' h1 h2
    match ph with
    | .finished r => cases h1
    | .asking i0 =>
      rw [phase_cons, P_bind_ok] at h1
      obtain ⟨x, h3, h4⟩ := h1
      rw [P_bind_ok] at h4
      obtain ⟨⟨os, ph1⟩, h5, h6⟩ := h4
      cases h6
      rw [List.cons_append, phase_cons, P_bind_ok]
      refine ⟨x, h3, ?_⟩
      rw [P_bind_ok]
      exact ⟨_, ih h5 h2, rfl⟩

theorem connect_snoc {c : Connection} {ops : List InitOp} {i : Init} {outs op o ph'}
    (h1 : Init.connect c ops = .ok (outs, .asking i)) (h2 : i.step op = .ok (o, ph')) :
    Init.connect c (ops ++ [op]) = .ok (outs ++ [o], ph') := by
  unfold Init.connect at *
  rw [P_bind_ok] at *
  obtain ⟨ph, h3, h4⟩ := h1
  exact ⟨ph, h3, phase_snoc h4 h2⟩

theorem brun_snoc {ops : List BOp} : ∀ {b0 b b' : Bridge} {obs : List BObs} {op o},
    Bridge.run ops b0 = .ok (obs, b) → b.step op = .ok (o, b') →
    Bridge.run (ops ++ [op]) b0 = .ok (obs ++ [o], b') := by
  induction ops with
  | nil =>
    intro b0 b b' obs op o h1 h2
    cases h1
    exact brun_cons.mpr ⟨o, b', [], h2, rfl, rfl⟩
  | cons q ops ih =>
    intro b0 b b' obs op o h1 h2
    obtain ⟨o1, b1, os, h3, h4, rfl⟩ := brun_cons.mp h1
    exact brun_cons.mpr ⟨o1, b1, os ++ [o], h3, ih h4 h2, rfl⟩

/-- A bridge that was started with this configuration on a connected panel. -/
def Reached (cfg : Cfg) (b : Bridge) : Prop :=
  ∃ p0 b0 ops obs, Connected p0 ∧ WfView p0 ∧ Bridge.start cfg p0 = .ok b0 ∧
    Bridge.run ops b0 = .ok (obs, b)

/-- What holds of the program when it has published `out`. -/
def ProgGood (out : List Published) : Prog → Prop
  | .dialing _ => out = []
  | .connecting _ i => out = [] ∧ ∃ ops outs, Init.connect {} ops = .ok (outs, .asking i)
  | .running s b => out = b.log ∧ Reached s.cfg b

theorem fresh_empty : Fresh {} := ⟨rfl, rfl, rfl, rfl⟩

theorem connected_good_prog {s : Setup} {ops : List InitOp} {outs ph out p'}
    (hc : Init.connect {} ops = .ok (outs, ph)) (h : Prog.connected s ph = .ok (out, p')) :
    ProgGood out p' ∧ p'.setup = s := by
  match ph with
  | .asking i => cases h; exact ⟨⟨rfl, ops, outs, hc⟩, rfl⟩
  | .finished (.error e) => cases h
  | .finished (.ok p) =>
    have h : (Bridge.start s.cfg p >>= fun b => Except.ok (b.log, Prog.running s b)) =
      .ok (out, p') := h
    rw [P_bind_ok] at h
    obtain ⟨b, h1, h2⟩ := h
    cases h2
    obtain ⟨hc1, hc2⟩ := C65_connect fresh_empty hc
    exact ⟨⟨rfl, p, b, [], [], hc1, hc2, h1, rfl⟩, rfl⟩

theorem out_published (o : BObs) : o.out = published [o] := by
  cases o <;> simp [BObs.out, published]

theorem prog_good {p p' : Prog} {out o : List Published} {op : POp} (hg : ProgGood out p)
    (h : p.step op = .ok (o, p')) : ProgGood (out ++ o) p' ∧ p'.setup = p.setup := by
  have asking : ∀ {s : Setup} {i : Init} {q : InitOp} {o p'}, ProgGood out (.connecting s i) →
      (i.step q >>= fun x => Prog.connected s x.2) = .ok (o, p') →
      ProgGood (out ++ o) p' ∧ p'.setup = s := by
    intro s i q o p' hg h
    obtain ⟨rfl, ops, outs, hc⟩ := hg
    rw [P_bind_ok] at h
    obtain ⟨⟨ob, ph⟩, h1, h2⟩ := h
    exact connected_good_prog (connect_snoc hc h1) h2
  match p, op with
  | .dialing s, .dialed (.error _) => cases h
  | .dialing s, .dialed (.ok ()) =>
    have hg : out = [] := hg
    subst hg
    have h : (Init.start {} >>= fun ph => Prog.connected s ph) = .ok (o, p') := h
    rw [P_bind_ok] at h
    obtain ⟨ph, h1, h2⟩ := h
    refine connected_good_prog (ops := []) (outs := []) (ph := ph) ?_ h2
    unfold Init.connect
    rw [h1]
    cases ph <;> rfl
  | .dialing s, .op _ => cases h; rw [List.append_nil]; exact ⟨hg, rfl⟩
  | .connecting s i, .dialed _ => cases h; rw [List.append_nil]; exact ⟨hg, rfl⟩
  | .connecting s i, .op (.arrive r) => exact asking hg h
  | .connecting s i, .op (.writable w) => exact asking hg h
  | .connecting s i, .op (.tick cx pf) => exact asking hg h
  | .connecting s i, .op (.deliver q) => cases h; rw [List.append_nil]; exact ⟨hg, rfl⟩
  | .running s b, .dialed _ => cases h; rw [List.append_nil]; exact ⟨hg, rfl⟩
  | .running s b, .op op =>
    have h : (b.step op >>= fun x => Except.ok (x.1.out, Prog.running s x.2)) = .ok (o, p') := h
    rw [P_bind_ok] at h
    obtain ⟨⟨ob, b'⟩, h1, h2⟩ := h
    cases h2
    obtain ⟨rfl, p0, b0, ops, obs, hc, hw, hs, hr⟩ := hg
    refine ⟨⟨?_, p0, b0, ops ++ [op], obs ++ [ob], hc, hw, hs, brun_snoc hr h1⟩, rfl⟩
    rw [(bcase_static (bstep_cases h1)).2.2.2, out_published]

/-! ## What a bridge has published about its availability -/

/-- The message with which a bridge announces itself. -/
def onlineMsg (cfg : Cfg) : Published := ⟨availabilityTopic cfg.prefix, true, .text (bs "online")⟩

theorem avail_inj {a b : Bytes} (h : availabilityTopic a = availabilityTopic b) : a = b :=
  List.append_cancel_right h

/-- The log of a bridge: a beginning and a continuation that do not concern any availability, and
between them the announcement. -/
theorem reached_log {cfg : Cfg} {b : Bridge} (h : Reached cfg b) :
    b.cfg = cfg ∧ ∃ before after, b.log = before ++ onlineMsg cfg :: after ∧
      ∀ m, m ∈ before ∨ m ∈ after → m.retain = true → ∀ pre, m.topic ≠ availabilityTopic pre := by
  obtain ⟨p0, b0, ops, obs, hc, hw, hs, hr⟩ := h
  have hg := start_good_bridge hc hw hs
  have hh := bhist_of_run hr
  obtain ⟨r0, hr0⟩ := hc.arming
  obtain ⟨z0, hz0⟩ := hc.zones
  obtain ⟨_, code, _, rfl⟩ := (start_iff hr0 hz0 (hw z0 hz0)).mp hs
  obtain ⟨e1, _, _, e2⟩ := bhist_static hh
  refine ⟨e1, discoveryLog cfg ++ areaMsgs cfg.prefix r0 cfg.elk.areas ++
    zoneMsgs cfg.prefix z0 cfg.elk.zones, published obs, ?_, ?_⟩
  · rw [e2]
    simp [onlineMsg]
  · rintro m (hm | hm) hret pre
    · rcases List.mem_append.mp hm with hm | hm
      · rcases List.mem_append.mp hm with hm | hm
        · unfold discoveryLog at hm
          split at hm
          · unfold discoveryMsgs at hm
            rcases List.mem_append.mp hm with h | h <;> obtain ⟨_, _, rfl⟩ := List.mem_map.mp h
            · exact fun h => avail_ne_config.1 h.symm
            · exact fun h => avail_ne_config.2 h.symm
          · cases hm
        · obtain ⟨n, hn⟩ := areaMsgs_topic hm
          rw [hn]; exact area_ne_avail
      · obtain ⟨n, hn⟩ := zoneMsgs_topic hm
        rw [hn]; exact zone_ne_avail
    · rcases published_topics hh hg m hm with ⟨h, _⟩ | ⟨_, ⟨a, _, h⟩ | ⟨a, _, h⟩⟩
      · rw [h] at hret; cases hret
      · rw [h]; exact area_ne_avail
      · rw [h]; exact zone_ne_avail

/-- What the messages transmitted so far say about availability. -/
theorem sent_avail {cfg : Cfg} {b : Bridge} (h : Reached cfg b) {sent queue : List Published}
    (hl : sent ++ queue = b.log) (pre : Bytes) :
    (retained sent (availabilityTopic pre) = none ∨
      (retained sent (availabilityTopic pre) = some (.text (bs "online")) ∧ pre = cfg.prefix)) := by
  obtain ⟨_, before, after, hlog, hno⟩ := reached_log h
  by_cases hp : pre = cfg.prefix
  · subst hp
    have hpre : sent <+: before ++ onlineMsg cfg :: after := ⟨queue, by rw [hl, hlog]⟩
    by_cases hlen : sent.length ≤ before.length
    · left
      have : sent <+: before := by
        have h1 : before <+: before ++ onlineMsg cfg :: after := List.prefix_append _ _
        exact List.prefix_of_prefix_length_le hpre h1 hlen
      refine retained_none fun m hm hret => ?_
      exact hno m (.inl (this.subset hm)) hret _
    · right
      refine ⟨?_, rfl⟩
      have h1 : before ++ [onlineMsg cfg] <+: before ++ onlineMsg cfg :: after :=
        ⟨after, by simp⟩
      obtain ⟨x, rfl⟩ := List.prefix_of_prefix_length_le h1 hpre (by simp; omega)
      obtain ⟨y, hy⟩ := hpre
      have hx : ∀ m ∈ x, m ∈ after := by
        simp only [List.append_assoc, List.cons_append, List.nil_append,
          List.append_cancel_left_eq, List.cons.injEq, true_and] at hy
        intro m hm
        rw [← hy]
        exact List.mem_append_left _ hm
      rw [retained_append, retained_none (l := x), retained_append]
      · unfold retained onlineMsg
        simp
      · intro m hm hret
        exact hno m (.inr (hx m hm)) hret _
  · left
    refine retained_none fun m hm hret => ?_
    have : m ∈ b.log := by rw [← hl]; exact List.mem_append_left _ hm
    rw [hlog] at this
    rcases List.mem_append.mp this with h1 | h1
    · exact hno m (.inl h1) hret _
    · rcases List.mem_cons.mp h1 with rfl | h1
      · intro he
        exact hp (avail_inj he).symm
      · exact hno m (.inr h1) hret _

/-! ## The site -/

/-- What holds at a site: while the program runs, the broker has what it had before the program
started, and then what the program has transmitted. -/
structure SiteGood (s : Site) : Prop where
  idle : s.prog = none → s.queue = [] ∧ s.link = false ∧
    ∀ pre, retained s.broker (availabilityTopic pre) ≠ some (.text (bs "online"))
  busy : ∀ p, s.prog = some p → MapCfg p.setup.cfg ∧ ∃ old sent, s.broker = old ++ sent ∧
    (s.link = false → sent = []) ∧ ProgGood (sent ++ s.queue) p ∧
    ∀ pre, retained old (availabilityTopic pre) ≠ some (.text (bs "online"))

theorem initial_good {s : Site} (h : Initial s) : SiteGood s :=
  ⟨fun _ => ⟨h.queue, h.link, h.offline⟩, fun p hp => by rw [h.prog] at hp; cases hp⟩

/-- What the transmitted messages of any program say about availability. -/
theorem prog_avail {p : Prog} {sent queue : List Published} (h : ProgGood (sent ++ queue) p)
    (pre : Bytes) : retained sent (availabilityTopic pre) = none ∨
      (retained sent (availabilityTopic pre) = some (.text (bs "online")) ∧
        pre = p.setup.cfg.prefix ∧ ∃ c b, p = .running c b) := by
  match p with
  | .dialing s =>
    have h : sent ++ queue = [] := h
    rw [(List.append_eq_nil_iff.mp h).1]
    exact .inl rfl
  | .connecting s i =>
    obtain ⟨h, _⟩ := h
    rw [(List.append_eq_nil_iff.mp h).1]
    exact .inl rfl
  | .running s b =>
    obtain ⟨h, hr⟩ := h
    rcases sent_avail hr h pre with h | ⟨h, h'⟩
    · exact .inl h
    · exact .inr ⟨h, h', s, b, rfl⟩

theorem die_good {s : Site} (hg : SiteGood s) {p : Prog} (hp : s.prog = some p) :
    SiteGood (s.die p) := by
  refine ⟨fun _ => ⟨rfl, rfl, ?_⟩, fun q hq => by cases hq⟩
  intro pre
  obtain ⟨_, old, sent, hb, hl, hpg, hold⟩ := hg.busy p hp
  unfold Site.die
  dsimp only
  rw [hb]
  cases hlink : s.link with
  | false =>
    rw [hl hlink]
    simpa using hold pre
  | true =>
    rw [if_pos rfl, retained_append]
    by_cases he : pre = p.setup.cfg.prefix
    · subst he
      unfold Setup.will
      have : retained [⟨availabilityTopic p.setup.cfg.prefix, true, .text (bs "offline")⟩]
          (availabilityTopic p.setup.cfg.prefix) = some (.text (bs "offline")) := by
        unfold retained; simp
      rw [this]
      intro h
      have : bs "offline" = bs "online" := by
        simpa using h
      exact absurd this (by decide)
    · rw [retained_none (l := [p.setup.will])]
      · rw [retained_append]
        rcases prog_avail hpg pre with h | ⟨_, h, _⟩
        · rw [h]; exact hold pre
        · exact absurd h he
      · intro m hm _
        rw [List.mem_singleton.mp hm]
        exact fun h => he (avail_inj h).symm

theorem site_good {s : Site} (hg : SiteGood s) (op : SOp) : SiteGood (s.step op) := by
  match op with
  | .launch args file =>
    unfold Site.step
    dsimp only
    split
    · rename_i p hp hm
      obtain ⟨_, _, hoff⟩ := hg.idle hp
      refine ⟨fun h => (by cases h), ?_⟩
      rintro q hq
      cases hq
      obtain ⟨path, t, j, c, _, _, _, h3, _, rfl⟩ := (C78_main _ _ _).mp hm
      exact ⟨C77_map h3, s.broker, [], by simp, fun _ => rfl, rfl, hoff⟩
    · exact hg
  | .prog op =>
    unfold Site.step
    dsimp only
    split
    · exact hg
    · rename_i p hp
      split
      · rename_i out p' hs
        refine ⟨fun h => (by cases h), ?_⟩
        rintro q hq
        cases hq
        obtain ⟨hm, old, sent, hb, hl, hpg, hold⟩ := hg.busy p hp
        obtain ⟨h1, h2⟩ := prog_good hpg hs
        refine ⟨by rw [h2]; exact hm, old, sent, hb, hl, ?_, hold⟩
        rw [List.append_assoc] at h1
        exact h1
      · exact die_good hg hp
  | .link =>
    unfold Site.step
    dsimp only
    split
    · rename_i hs
      refine ⟨fun h => ?_, ?_⟩
      · have h : s.prog = none := h
        rw [h] at hs; cases hs
      · rintro q hq
        obtain ⟨hm, old, sent, hb, hl, hpg, hold⟩ := hg.busy q hq
        exact ⟨hm, old, sent, hb, (fun h => by cases h), hpg, hold⟩
    · exact hg
  | .transmit =>
    unfold Site.step
    dsimp only
    split
    · rename_i m queue hlink hq
      refine ⟨fun h => ?_, ?_⟩
      · obtain ⟨h1, _⟩ := hg.idle h
        rw [h1] at hq; cases hq
      · rintro p hp
        obtain ⟨hm, old, sent, hb, hl, hpg, hold⟩ := hg.busy p hp
        refine ⟨hm, old, sent ++ [m], by rw [hb, List.append_assoc], ?_, ?_, hold⟩
        · intro h
          have h : s.link = false := h
          rw [hlink] at h; cases h
        · rw [hq] at hpg
          simpa using hpg
    · exact hg
  | .unlink =>
    unfold Site.step
    dsimp only
    split
    · exact hg
    · rename_i p hp; exact die_good hg hp
  | .kill =>
    unfold Site.step
    dsimp only
    split
    · exact hg
    · rename_i p hp; exact die_good hg hp

theorem site_run_good {ops : List SOp} : ∀ {s : Site}, SiteGood s → SiteGood (Site.run ops s) := by
  induction ops with
  | nil => intro s h; exact h
  | cons op ops ih => intro s h; exact ih (site_good h op)

theorem site_snoc (ops : List SOp) (op : SOp) (s : Site) :
    Site.run (ops ++ [op]) s = (Site.run ops s).step op := by
  unfold Site.run
  rw [List.foldl_append]
  rfl

/-! ## Parts of what is published -/

theorem retained_some {l : List Published} {t : Bytes} {x : Payload} (h : retained l t = some x) :
    ∃ m ∈ l, m.retain = true ∧ m.topic = t ∧ m.payload = x := by
  unfold retained at h
  rw [Option.map_eq_some_iff] at h
  obtain ⟨m, h1, h2⟩ := h
  have := List.mem_filter.mp (List.mem_of_getLast? h1)
  simp only [Bool.and_eq_true, beq_iff_eq] at this
  exact ⟨m, this.1, this.2.1, this.2.2, h2⟩

/-- With distinct topics, the first part of a list of messages says the same about a topic as the
whole list, or nothing. -/
theorem retained_part {x y : List Published} (t : Bytes)
    (h : ((x ++ y).map (·.topic)).Nodup) :
    retained x t = none ∨ retained x t = retained (x ++ y) t := by
  cases hx : retained x t with
  | none => exact .inl rfl
  | some v =>
    right
    obtain ⟨m, hm, _, ht, _⟩ := retained_some hx
    rw [retained_append, retained_none (l := y), hx]
    · rfl
    · intro m' hm' _ he
      rw [List.map_append, List.nodup_append] at h
      exact h.2.2 _ (List.mem_map_of_mem hm) _ (List.mem_map_of_mem hm') (ht.trans he.symm)

/-- The same for what is published for an event. -/
theorem event_part {b : Bridge} (hg : BGood b) (hd : DistinctNames b.cfg) {cx w ev panel}
    (hn : b.panel.pollNext cx = .ok (.ready (some (.ok ev)), w, panel)) {x y : List Published}
    (ho : publishEvent panel b.cfg ev = .ok (x ++ y)) (t : Bytes) :
    retained x t = none ∨ retained x t = retained (x ++ y) t := by
  rcases publishEvent_iff hg hn with ⟨_, _, h⟩ | ⟨_, json, ch, _, hch, h⟩
  · rw [h] at ho; cases ho
  · rw [h, Except.ok.injEq] at ho
    cases x with
    | nil => exact .inl rfl
    | cons m x =>
      rw [List.cons_append] at ho
      injection ho with h1 h2
      subst h1
      rw [List.cons_append, retained_event, retained_event]
      apply retained_part
      rw [← h2]
      have hsc := step_cases hg.good.sane (next_step.mpr hn)
      have g' := step_good hg.good hsc
      have w' := step_wf hsc hg.wf
      obtain ⟨a', ha'⟩ := Option.ne_none_iff_exists'.mp g'.has
      obtain ⟨z', hz'⟩ := Option.ne_none_iff_exists'.mp g'.zones
      unfold publishChange at hch
      split at hch
      · rw [((publishAreaStates_ok (arming_iff.mpr ha')).mp hch).2]
        unfold areaMsgs
        rw [List.map_map]
        exact nodup_map_inj (f := fun a : UInt8 × AreaCfg => a.2.name)
          (g := fun n => areaStateTopic b.cfg.prefix n) hd.areas fun _ _ => areaState_inj
      · rename_i zone prior he
        obtain ⟨i, hi⟩ := change_zone hg.good hn he
        split at hch
        · cases hch; simp
        · rw [((publishZoneState_ok (zones_iff.mpr hz') (w' z' hz') hi).mp hch).2]
          simp
      · cases hch; simp

theorem reached_good {cfg : Cfg} {b : Bridge} (h : Reached cfg b) : BGood b ∧ b.cfg = cfg := by
  refine ⟨?_, (reached_log h).1⟩
  obtain ⟨p0, b0, ops, obs, hc, hw, hs, hr⟩ := h
  exact bhist_good (bhist_of_run hr) (start_good_bridge hc hw hs)

/-- A part of the log of a bridge after one more step. -/
theorem step_part {b b' : Bridge} (hg : BGood b) (hd : DistinctNames b.cfg) {op o}
    (h : b.step op = .ok (o, b')) {x : List Published} (hx : b.log ++ x <+: b'.log) (t : Bytes) :
    retained (b.log ++ x) t = retained b.log t ∨
      retained (b.log ++ x) t = retained b'.log t := by
  have hc := bstep_cases h
  have hlog := (bcase_static hc).2.2.2
  obtain ⟨y, hy⟩ := hx
  rw [hlog, List.append_assoc, List.append_cancel_left_eq] at hy
  have main : retained x t = none ∨ retained x t = retained (x ++ y) t := by
    cases hc with
    | event cx pf ev out w panel hw hn ho =>
      have : x ++ y = out := by rw [hy]; simp [published]
      rw [← this] at ho
      exact event_part hg hd hn ho t
    | _ =>
      have : x ++ y = [] := by rw [hy]; simp [published]
      rw [(List.append_eq_nil_iff.mp this).1]
      exact .inl rfl
  rw [hlog, ← hy, retained_append, retained_append]
  rcases main with h | h
  · left; rw [h]; rfl
  · right; rw [h]

/-! ## Steps of a site on which the bridge is running -/

theorem prog_running {out : List Published} {p : Prog} (hg : ProgGood out p) {op : POp} {o c b'}
    (h : p.step op = .ok (o, .running c b')) :
    (∃ b, p = .running c b ∧ (b' = b ∨ ∃ q ob, b.step q = .ok (ob, b'))) ∨
    ∃ p0, Connected p0 ∧ WfView p0 ∧ Bridge.start c.cfg p0 = .ok b' := by
  have conn : ∀ {s : Setup} {ops outs ph}, Init.connect {} ops = .ok (outs, ph) →
      Prog.connected s ph = .ok (o, .running c b') →
      ∃ p0, Connected p0 ∧ WfView p0 ∧ Bridge.start c.cfg p0 = .ok b' := by
    intro s ops outs ph hc h
    match ph with
    | .asking i => cases h
    | .finished (.error e) => cases h
    | .finished (.ok p) =>
      have h : (Bridge.start s.cfg p >>= fun b => Except.ok (b.log, Prog.running s b)) =
        .ok (o, .running c b') := h
      rw [P_bind_ok] at h
      obtain ⟨b, h1, h2⟩ := h
      cases h2
      obtain ⟨hc1, hc2⟩ := C65_connect fresh_empty hc
      exact ⟨p, hc1, hc2, h1⟩
  have asking : ∀ {s : Setup} {i : Init} {q : InitOp}, ProgGood out (.connecting s i) →
      (i.step q >>= fun x => Prog.connected s x.2) = .ok (o, .running c b') →
      ∃ p0, Connected p0 ∧ WfView p0 ∧ Bridge.start c.cfg p0 = .ok b' := by
    intro s i q hg h
    obtain ⟨rfl, ops, outs, hc⟩ := hg
    rw [P_bind_ok] at h
    obtain ⟨⟨ob, ph⟩, h1, h2⟩ := h
    exact conn (connect_snoc hc h1) h2
  match p, op with
  | .dialing s, .dialed (.error _) => cases h
  | .dialing s, .dialed (.ok ()) =>
    have h : (Init.start {} >>= fun ph => Prog.connected s ph) = .ok (o, .running c b') := h
    rw [P_bind_ok] at h
    obtain ⟨ph, h1, h2⟩ := h
    refine .inr (conn (ops := []) (outs := []) (ph := ph) ?_ h2)
    unfold Init.connect
    rw [h1]
    cases ph <;> rfl
  | .dialing s, .op _ => cases h
  | .connecting s i, .dialed _ => cases h
  | .connecting s i, .op (.arrive r) => exact .inr (asking hg h)
  | .connecting s i, .op (.writable w) => exact .inr (asking hg h)
  | .connecting s i, .op (.tick cx pf) => exact .inr (asking hg h)
  | .connecting s i, .op (.deliver q) => cases h
  | .running s b, .dialed _ => cases h; exact .inl ⟨_, rfl, .inl rfl⟩
  | .running s b, .op op =>
    have h : (b.step op >>= fun x => Except.ok (x.1.out, Prog.running s x.2)) =
      .ok (o, .running c b') := h
    rw [P_bind_ok] at h
    obtain ⟨⟨ob, b1⟩, h1, h2⟩ := h
    cases h2
    exact .inl ⟨b, rfl, .inr ⟨op, ob, h1⟩⟩

theorem site_running {s : Site} (hg : SiteGood s) {op : SOp} {c b'}
    (h : Running (s.step op) c b') :
    (∃ b, Running s c b ∧ (b' = b ∨ ∃ q ob, b.step q = .ok (ob, b'))) ∨
    ∃ p0, Connected p0 ∧ WfView p0 ∧ Bridge.start c.cfg p0 = .ok b' := by
  have keep : s.prog = some (.running c b') → ∃ b, Running s c b ∧
      (b' = b ∨ ∃ q ob, b.step q = .ok (ob, b')) := fun h => ⟨b', h, .inl rfl⟩
  match op with
  | .launch args file =>
    unfold Running Site.step at h
    dsimp only at h
    split at h
    · rename_i p hp hm
      obtain ⟨_, _, _, _, _, _, _, _, _, rfl⟩ := (C78_main _ _ _).mp hm
      cases h
    · exact .inl (keep h)
  | .prog op =>
    unfold Running Site.step at h
    dsimp only at h
    split at h
    · exact .inl (keep h)
    · rename_i p hp
      split at h
      · rename_i out p' hs
        have h : some p' = some (.running c b') := h
        cases h
        obtain ⟨_, old, sent, _, _, hpg, _⟩ := hg.busy p hp
        rcases prog_running hpg hs with ⟨b, rfl, h⟩ | h
        · exact .inl ⟨b, hp, h⟩
        · exact .inr h
      · cases h
  | .link =>
    unfold Running Site.step at h
    dsimp only at h
    split at h <;> exact .inl (keep h)
  | .transmit =>
    unfold Running Site.step at h
    dsimp only at h
    split at h <;> exact .inl (keep h)
  | .unlink =>
    unfold Running Site.step at h
    dsimp only at h
    split at h
    · exact .inl (keep h)
    · cases h
  | .kill =>
    unfold Running Site.step at h
    dsimp only at h
    split at h
    · exact .inl (keep h)
    · cases h

theorem running_reached {s : Site} (hg : SiteGood s) {c b} (h : Running s c b) :
    Reached c.cfg b ∧ MapCfg c.cfg ∧ ∃ old sent, s.broker = old ++ sent ∧
      (s.link = false → sent = []) ∧ sent ++ s.queue = b.log ∧
      ∀ pre, retained old (availabilityTopic pre) ≠ some (.text (bs "online")) := by
  obtain ⟨h1, old, sent, h2, h3, h4, h5⟩ := hg.busy _ h
  exact ⟨h4.2, h1, old, sent, h2, h3, h4.1, h5⟩

theorem snoc_induction {α : Type} {motive : List α → Prop} (nil : motive [])
    (snoc : ∀ l a, motive l → motive (l ++ [a])) (l : List α) : motive l := by
  have : ∀ r : List α, motive r.reverse := by
    intro r
    induction r with
    | nil => exact nil
    | cons a r ih => rw [List.reverse_cons]; exact snoc _ _ ih
  have h := this l.reverse
  rwa [List.reverse_reverse] at h

/-- Each part of the log that contains the announcement agrees, for each topic, with the log at some
moment of the current run of the program. -/
theorem part_of_run {s0 : Site} (h0 : SiteGood s0) (hn : s0.prog = none) (ops : List SOp) :
    ∀ {c b}, Running (Site.run ops s0) c b → DistinctNames c.cfg → ∀ {part : List Published},
      part <+: b.log → onlineMsg c.cfg ∈ part → ∀ t, ∃ before b1, before <+: ops ∧
        Throughout s0 c before ops ∧ Running (Site.run before s0) c b1 ∧
        retained part t = retained b1.log t := by
  have extend : ∀ {ops : List SOp} {op : SOp} {c b before},
      Running (Site.run (ops ++ [op]) s0) c b → before <+: ops → Throughout s0 c before ops →
      before <+: ops ++ [op] ∧ Throughout s0 c before (ops ++ [op]) := by
    intro ops op c b before hr hp ht
    refine ⟨hp.trans (List.prefix_append _ _), ?_⟩
    intro mid h1 h2
    rcases List.prefix_concat_iff.mp h2 with rfl | h2
    · exact ⟨b, hr⟩
    · exact ht mid h1 h2
  have self : ∀ {ops : List SOp} {c b}, Running (Site.run ops s0) c b →
      Throughout s0 c ops ops := by
    intro ops c b hr mid h1 h2
    have : mid = ops := h2.eq_of_length_le h1.length_le
    subst this
    exact ⟨b, hr⟩
  induction ops using snoc_induction with
  | nil =>
    intro c b hr
    have hr : s0.prog = some (.running c b) := hr
    rw [hn] at hr
    cases hr
  | snoc ops op ih =>
    intro c b' hr hd part hpart hon t
    have hr' := hr
    rw [site_snoc] at hr'
    rcases site_running (site_run_good h0) hr' with ⟨b, hb, rfl | ⟨q, ob, hs⟩⟩ |
      ⟨p0, hc, hw, hst⟩
    · obtain ⟨before, b1, i1, i2, i3, i4⟩ := ih hb hd hpart hon t
      obtain ⟨e1, e2⟩ := extend hr i1 i2
      exact ⟨before, b1, e1, e2, i3, i4⟩
    · obtain ⟨hre, _⟩ := running_reached (site_run_good h0) hb
      obtain ⟨hg, hcfg⟩ := reached_good hre
      have hlog := (bcase_static (bstep_cases hs)).2.2.2
      by_cases hlen : part.length ≤ b.log.length
      · have : part <+: b.log := List.prefix_of_prefix_length_le hpart
          (by rw [hlog]; exact List.prefix_append _ _) hlen
        obtain ⟨before, b1, i1, i2, i3, i4⟩ := ih hb hd this hon t
        obtain ⟨e1, e2⟩ := extend hr i1 i2
        exact ⟨before, b1, e1, e2, i3, i4⟩
      · have : b.log <+: part := List.prefix_of_prefix_length_le
          (by rw [hlog]; exact List.prefix_append _ _) hpart (by omega)
        obtain ⟨x, rfl⟩ := this
        rcases step_part hg (by rw [hcfg]; exact hd) hs hpart t with h | h
        · obtain ⟨e1, e2⟩ := extend hr (List.prefix_refl _) (self hb)
          exact ⟨ops, b, e1, e2, hb, h⟩
        · exact ⟨ops ++ [op], b', List.prefix_refl _, self hr, hr, h⟩
    · refine ⟨ops ++ [op], b', List.prefix_refl _, self hr, hr, ?_⟩
      have : part = b'.log := by
        obtain ⟨before, m, h1, h2, h3, h4, h5, _⟩ := C66_online_last hc hw hst
        by_cases hlen : part.length ≤ before.length
        · have hsub : part <+: before := List.prefix_of_prefix_length_le hpart
            (by rw [h1]; exact List.prefix_append _ _) hlen
          exact absurd rfl (h5 _ (hsub.subset hon))
        · refine hpart.eq_of_length_le ?_
          rw [h1, List.length_append, List.length_singleton]
          omega
      rw [this]

end Elk
