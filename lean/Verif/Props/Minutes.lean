import Verif.Props.Log
import Verif.Props.Desk
import Verif.Props.Greeting
import Verif.Spec.Minutes
/-!
# What the bridge, connecting and `watch` log (C129-C131)
-/

namespace Elk.Props
open Elk.Spec

theorem enabled_nothing {on : Callsite → Bool} {l : List Record}
    (h : ∀ r ∈ l, on r.site = false) : enabled on l = [] :=
  List.filter_eq_nil_iff.mpr fun r hr => by simp [h r hr]

theorem evLog_ok {ev : Event} (h : WfEvent ev) (s : Callsite) (name : String) :
    ∃ d, ev.debug = .ok d ∧ evLog s name ev = [jot s [(name, d)]] := by
  obtain ⟨d, hd, _⟩ := event_shown h
  refine ⟨d, hd, ?_⟩
  unfold evLog
  rw [hd]

/-! ## C129: the bridge -/

theorem taskLog_cases {pre : Bytes} {p : Publish} : ∀ {l : List (UInt8 × AreaCfg)},
    ((∀ a ∈ l, p.topic ≠ pre ++ bs "/area/" ++ a.2.name ++ bs "/ha_command") ∧
      taskLog pre p l = [⟨.unknownTopic, [("publish.topic", .text p.topic)]⟩]) ∨
    ∃ a ∈ l, p.topic = pre ++ bs "/area/" ++ a.2.name ++ bs "/ha_command" ∧
      (((∀ level, ¬ Level p.payload level) ∧ taskLog pre p l =
        [wanted a.2.name p, ⟨.unknownLevel, [("ha_level", .text p.payload)]⟩]) ∨
      ∃ level, Level p.payload level ∧ taskLog pre p l = [wanted a.2.name p]) := by
  intro l
  induction l with
  | nil => exact .inl ⟨by simp, rfl⟩
  | cons a l ih =>
    obtain ⟨id, cfg⟩ := a
    unfold taskLog
    by_cases ht : p.topic = areaCommandTopic pre cfg.name
    · rw [if_pos ht]
      refine .inr ⟨(id, cfg), List.mem_cons_self .., ht, ?_⟩
      cases hl : haLevel p.payload with
      | none =>
        refine .inl ⟨fun level h => ?_, rfl⟩
        rw [level_iff.mpr h] at hl
        cases hl
      | some level => exact .inr ⟨level, level_iff.mp hl, rfl⟩
    · rw [if_neg ht]
      rcases ih with ⟨h1, h2⟩ | ⟨a, h1, h2⟩
      · refine .inl ⟨?_, h2⟩
        intro a ha
        rcases List.mem_cons.mp ha with rfl | ha
        · exact ht
        · exact h1 a ha
      · exact .inr ⟨a, List.mem_cons_of_mem _ h1, h2⟩

theorem notices_of_step {b b' : Bridge} {op : BOp} {o : BObs} {v : View} (hg : Showable b)
    (hl : Looks b.panel v) (h : b.step op = .ok (o, b')) :
    Notices b.cfg v op o (bridgeLog b o) := by
  have hc := bstep_cases h
  cases hc with
  | event cx pf ev out w panel _ hn _ =>
    obtain ⟨d, hd, he⟩ := evLog_ok (next_event hg.good.good hg.good.wf hg.busy hn) .panelEvent
      "panel_event"
    show Notices _ _ _ _ (nextLog _ _ ++ evLog _ _ _)
    rw [he]
    exact .event (jots_of_step hg.good.good hl (fun c h => nomatch h) (next_step.mpr hn)) hd
  | ignored cx pf p inbox ops outs panel _ _ _ hcf =>
    show Notices _ _ _ _ (mailed p :: taskLog _ _ _)
    rcases taskLog_cases (pre := b.cfg.prefix) (p := p) (l := b.cfg.elk.areas) with
      ⟨h1, h2⟩ | ⟨a, ha, ht, ⟨h1, h2⟩ | ⟨level, h1, h2⟩⟩
    · rw [h2]
      exact .unknown fun ⟨a, ha, h⟩ => h1 a ha h
    · rw [h2]
      exact .ignored ha ht h1
    · exfalso
      rcases commandFor_cases (pre := b.cfg.prefix) (code := b.code) (p := p) hg.good.usable.areas with
        ⟨_, h⟩ | ⟨a', _, _, ⟨_, h⟩ | ⟨_, h, _⟩ | ⟨_, _, h⟩⟩
      · exact h a ha ht
      · rw [hcf] at h; cases h
      · exact h _ h1
      · rw [hcf] at h; cases h
  | asked cx pf p inbox ops outs panel c _ _ _ hcf =>
    show Notices _ _ _ _ (mailed p :: taskLog _ _ _)
    rcases taskLog_cases (pre := b.cfg.prefix) (p := p) (l := b.cfg.elk.areas) with
      ⟨h1, h2⟩ | ⟨a, ha, ht, ⟨h1, h2⟩ | ⟨level, h1, h2⟩⟩
    · exfalso
      rcases commandFor_cases (pre := b.cfg.prefix) (code := b.code) (p := p) hg.good.usable.areas with
        ⟨h, _⟩ | ⟨a', ha, ht, _⟩
      · rw [hcf] at h; cases h
      · exact h1 a' ha ht
    · exfalso
      rcases commandFor_cases (pre := b.cfg.prefix) (code := b.code) (p := p) hg.good.usable.areas with
        ⟨h, _⟩ | ⟨a', _, _, ⟨_, h⟩ | ⟨_, _, h⟩ | ⟨_, h, _⟩⟩
      · rw [hcf] at h; cases h
      · rw [hcf] at h; cases h
      · rw [hcf] at h; cases h
      · exact h1 _ h
    · rw [h2]
      exact .asked ha ht h1
  | accepted cx pf c p1 panel hw _ _ =>
    obtain ⟨d, hd⟩ := C105_message _ (hg.good.cmd c hw)
    show Notices _ _ _ _ (cmdLog c)
    unfold cmdLog
    rw [hd]
    exact .hands (.send hd)
  | _ => exact .quiet (fun _ _ _ h => nomatch h) (fun _ _ h => nomatch h) (fun _ h => nomatch h)

theorem minutes_of_run {ops : List BOp} : ∀ {b b' : Bridge} {d : Desk} {obs : List BObs}, Showable b →
    Sits b d → Bridge.run ops b = .ok (obs, b') →
    ∃ l d', Minutes b.cfg b.code d l d' ∧ Sits b' d' ∧ ops = l.map (fun x => x.1.op) ∧
      obs = l.map (fun x => x.1.out) ∧
      b'.panel.conn.sock.received = b.panel.conn.sock.received ++ l.flatMap (fun x => x.1.rd) ∧
      b'.panel.conn.sock.sent = b.panel.conn.sock.sent ++ l.flatMap (fun x => x.1.wr) ∧
      ∀ on, Bridge.runL on ops b = .ok (enabled on (l.flatMap Prod.snd), obs, b') := by
  induction ops with
  | nil =>
    intro b b' d obs hg hs h
    cases h
    exact ⟨[], d, .nil, hs, rfl, rfl, by simp, by simp, fun _ => rfl⟩
  | cons op ops ih =>
    intro b b' d obs hg hs h
    obtain ⟨o, b1, os, h1, h2, rfl⟩ := brun_cons.mp h
    have hc := step_comes hg.good hs op
    rw [h1] at hc
    obtain ⟨rd, wr, d1, a1, a2, a3, a4⟩ := hc
    have hb := bstep_cases h1
    obtain ⟨l, d', c1, c2, c3, c4, c5, c6, c7⟩ := ih (showable_step h1 hg) a2 h2
    rw [(bcase_static hb).1, (bcase_static hb).2.1] at c1
    refine ⟨(⟨op, rd, wr, o⟩, bridgeLog b o) :: l, d', .cons a1 (notices_of_step hg hs.view h1) c1, c2,
      by rw [c3]; rfl, by rw [c4]; rfl, ?_, ?_, fun on => ?_⟩
    · rw [c5, a3, List.flatMap_cons, List.append_assoc]
    · rw [c6, a4, List.flatMap_cons, List.append_assoc]
    · rw [Bridge.runL, bridgeStepL_eq on hg op, h1]
      simp only [bind_ok]
      rw [c7 on]
      simp only [bind_ok]
      rw [← enabled_append]
      rfl

/-- **C129** What the bridge logs, in every history, whatever is enabled: that the panel is
initialised, and then for each operation of the machine (`C124`) exactly the records given by
`Notices`. -/
theorem C129_minutes {cfg : Cfg} {p0 : Panel} (hc : Connected p0) (hw : WfView p0) {b0 : Bridge}
    (hs : Bridge.start cfg p0 = .ok b0) {ops : List BOp} {obs : List BObs} {b : Bridge}
    (hr : Bridge.run ops b0 = .ok (obs, b)) :
    ∃ code v0 l d, ArmCode.tryFromNum cfg.elk.code = .ok code ∧ Looks p0 v0 ∧
      Minutes cfg code ⟨v0, [], .select⟩ l d ∧ Sits b d ∧ ops = l.map (fun x => x.1.op) ∧
      obs = l.map (fun x => x.1.out) ∧
      b.panel.conn.sock.received = p0.conn.sock.received ++ l.flatMap (fun x => x.1.rd) ∧
      b.panel.conn.sock.sent = p0.conn.sock.sent ++ l.flatMap (fun x => x.1.wr) ∧
      (∀ on, Bridge.startL on cfg p0 = .ok (enabled on [⟨.initialized, []⟩], b0)) ∧
      ∀ on, Bridge.runL on ops b0 = .ok (enabled on (l.flatMap Prod.snd), obs, b) := by
  obtain ⟨v0, h1, h2, h3, _⟩ := C124_opens hc hw hs
  obtain ⟨l, d, c1, c2, c3, c4, c5, c6, c7⟩ := minutes_of_run (start_showable hc hw hs) h2 hr
  have e : ∀ on, Bridge.startL on cfg p0 = .ok (enabled on [⟨.initialized, []⟩], b0) := by
    intro on
    unfold Bridge.startL
    rw [emit_ok, hs]
    rfl
  obtain ⟨_, code, hcode, rfl⟩ := (start_iff h1.shown h1.zones (hw _ h1.zones)).mp hs
  exact ⟨code, v0, l, d, hcode, h1, c1, c2, c3, c4, c5, c6, e, c7⟩

theorem topic_name {pre n n' : Bytes} (h : pre ++ bs "/area/" ++ n ++ bs "/ha_command" =
    pre ++ bs "/area/" ++ n' ++ bs "/ha_command") : n = n' := by
  rw [List.append_assoc _ n, List.append_assoc _ n', List.append_cancel_left_eq,
    List.append_cancel_right_eq] at h
  exact h

/-- **C129** What is observed settles what is logged. -/
theorem C129_one {cfg : Cfg} {v : View} {op : BOp} {o : BObs} {l l' : List Record}
    (h : Notices cfg v op o l) (h' : Notices cfg v op o l') : l = l' := by
  cases h with
  | event h hd =>
    cases h' with
    | event h' hd' =>
      rw [hd] at hd'
      cases hd'
      rw [C126_one h h']
    | quiet h1 _ _ => exact absurd rfl (h1 _ _ _)
  | unknown h =>
    cases h' with
    | unknown _ => rfl
    | ignored ha ht _ => exact absurd ⟨_, ha, ht⟩ h
    | quiet _ h1 _ => exact absurd rfl (h1 _ _)
  | ignored ha ht hn =>
    cases h' with
    | unknown h => exact absurd ⟨_, ha, ht⟩ h
    | ignored ha' ht' _ => rw [topic_name (ht.symm.trans ht')]
    | quiet _ h1 _ => exact absurd rfl (h1 _ _)
  | asked ha ht hn =>
    cases h' with
    | asked ha' ht' _ => rw [topic_name (ht.symm.trans ht')]
    | quiet _ h1 _ => exact absurd rfl (h1 _ _)
  | hands h =>
    cases h' with
    | hands h' => exact C126_one h h'
    | quiet _ _ h1 => exact absurd rfl (h1 _)
  | quiet h1 h2 h3 =>
    cases h' with
    | quiet _ _ _ => rfl
    | event _ _ => exact absurd rfl (h1 _ _ _)
    | unknown _ => exact absurd rfl (h2 _ _)
    | ignored _ _ _ => exact absurd rfl (h2 _ _)
    | asked _ _ _ => exact absurd rfl (h2 _ _)
    | hands _ => exact absurd rfl (h3 _)

/-! ## C130: connecting -/

theorem comments_of_log {p : Panel} {g : Greet} (hk : Knows p g) (m : Message) :
    Comments g m (msgLog p (some (.ok m))) := by
  have h2 := hk.shown
  have h4 := hk.held
  cases m with
  | armingStatusReport m =>
    unfold msgLog armLog
    dsimp only
    cases hs : g.shown with
    | none =>
      rw [h2, hs]
      exact .first hs
    | some s =>
      rw [h2, hs]
      dsimp only
      by_cases hsu : Suspicious s m
      · rw [if_pos ((suspicious_iff _ _).mpr hsu)]
        cases hp : p.pendingArm with
        | none => rw [hp] at h4; exact .withheld hs h4.symm hsu
        | some pa => rw [hp] at h4; exact .twice hs h4.symm hsu
      · rw [if_neg (fun h => hsu ((suspicious_iff _ _).mp h))]
        exact .plain hs hsu
  | _ => exact .other (fun r h => nomatch h)

theorem stands_waiting {i : Init} {w : Where} {g : Greet} (h : Stands (.asking i) (.asking w g))
    (ha : i.await = .reply) : w = .waiting i.send ∧ Knows i.panel g := by
  cases h with
  | toAsk h _ => rw [ha] at h; cases h
  | sending h _ => rw [ha] at h; cases h
  | waiting _ k => exact ⟨rfl, k⟩

theorem stands_ready {i : Init} {w : Where} {g : Greet} {pkt : Packet}
    (h : Stands (.asking i) (.asking w g)) (ha : i.await = .ready pkt) : w = .toAsk i.send := by
  cases h with
  | toAsk h _ => rfl
  | sending h _ => rw [ha] at h; cases h
  | waiting h _ => rw [ha] at h; cases h

theorem utters_of_step {i : Init} {op : InitOp} {o : Obs} {ph : Phase} {w : Where} {g : Greet}
    {x : Outcome} (hg : InitGood i) (hz : WfZones i.panel.state)
    (hs : Stands (.asking i) (.asking w g)) (hc : InitCase i op (o, ph)) (hx : Stands ph x) :
    Utters g w o x (tickLog i o ph) := by
  have wfev : ∀ {c new pkt ev w p' cx}, NextSpec i.panel.conn cx (.ready (some (.ok pkt))) c new →
      InterpCase { i.panel with conn := c } cx.now pkt (ev, w, p') → WfEvent ev ∧ ev.pkt = some pkt := by
    intro c new pkt ev w p' cx hn hi
    obtain ⟨h1, h2⟩ := interp_event hi hz
    refine ⟨⟨h1, fun m hm => (by rw [Props.interp_idle hi hg.idle] at hm; cases hm), h2⟩, ?_⟩
    cases hi <;> rfl
  cases hc with
  | tick cx _ h =>
    cases h with
    | ask ha _ =>
      rw [stands_ready hs ha]
      exact .ask
    | other c new pkt ev w' p' ha hn hi hr =>
      obtain ⟨rfl, hk⟩ := stands_waiting hs ha
      obtain ⟨hev, hpk⟩ := wfev hn hi
      unfold tickLog nextLog
      dsimp only
      rw [hpk]
      dsimp only
      obtain ⟨epkt, msg, done, ch⟩ := ev
      dsimp only at hpk hr ⊢
      subst hpk
      match msg, hr, hev with
      | none, _, _ => exact .packet (fun m h => nomatch h)
      | some (.error e), _, _ => exact .packet (fun m h => nomatch h)
      | some (.ok m), hr, hev =>
        obtain ⟨d, hd, he⟩ := evLog_ok hev .unrelated "msg"
        have hn : ¬ m.isResponseTo i.send = true := fun h => hr m rfl ((C23_responds _ _).mp h)
        dsimp only
        rw [if_neg hn, he]
        exact .unrelated rfl rfl (comments_of_log hk m) (hr m rfl) hd
    | reply c new pkt ev w' p' m ph ha hn hi hm hr hp =>
      obtain ⟨rfl, hk⟩ := stands_waiting hs ha
      obtain ⟨hev, hpk⟩ := wfev hn hi
      obtain ⟨d, hd, he⟩ := evLog_ok hev .reply "msg"
      unfold tickLog nextLog
      dsimp only
      rw [hpk, hm]
      dsimp only
      rw [if_pos ((C23_responds _ _).mpr hr), he]
      cases hp with
      | ask p'' st' _ _ _ =>
        obtain ⟨d', hd'⟩ := C105_message _ (stageQ_wf st')
        have : startLog (.asking (asking p'' st')) = [jot .asking [("msg", d')]] := by
          show (match (stageQ st').debug with
            | .ok d => [jot .asking [("msg", d)]]
            | .error _ => []) = _
          rw [hd']
        rw [this]
        cases hx with
        | toAsk _ _ =>
          exact .reply hpk hm (comments_of_log hk m) hr hd hd'
        | sending h _ => cases h
        | waiting h _ => cases h
      | done _ _ _ =>
        cases hx with
        | done _ =>
          show Utters _ _ _ _ (_ ++ (_ ++ []))
          rw [List.append_nil]
          exact .last hpk hm (comments_of_log hk m) hr hd
    | _ => exact .quiet (fun _ h => nomatch h) (fun _ h => nomatch h)
  | _ => exact .quiet (fun _ h => nomatch h) (fun _ h => nomatch h)

theorem tale_of_run {ops : List InitOp} : ∀ {ph ph' : Phase} {outs : List Obs} {x : Outcome},
    PhaseGood ph → PhaseWf ph → Stands ph x → Phase.run ops ph = .ok (outs, ph') →
    ∃ l y rest, Tale x l y ∧ Stands ph' y ∧ ops = l.map (fun x => x.1.op) ++ rest ∧
      (rest ≠ [] → ∃ r, ph' = .finished r) ∧ outs = l.map (fun x => x.1.out) ∧
      ∀ on, Phase.runL on ops ph = .ok (enabled on (l.flatMap Prod.snd), outs, ph') := by
  induction ops with
  | nil =>
    intro ph ph' outs x hg hw hs h
    cases h
    exact ⟨[], x, [], .nil, hs, rfl, fun h => absurd rfl h, rfl, fun _ => rfl⟩
  | cons op ops ih =>
    intro ph ph' outs x hg hw hs h
    match ph, hg, hw, hs with
    | .finished r, hg, _, hs =>
      cases h
      exact ⟨[], x, op :: ops, .nil, hs, rfl, fun _ => ⟨r, rfl⟩, rfl, fun _ => rfl⟩
    | .asking i, hg, hw, hs =>
      rw [phase_cons] at h
      rcases init_cases hg op with ⟨⟨o, ph1⟩, h1, h2⟩ | ⟨cx, _, h1, _⟩
      · rw [h1] at h
        simp only [bind_ok] at h
        cases h3 : Phase.run ops ph1 with
        | error e => rw [h3] at h; cases h
        | ok y =>
          obtain ⟨os, ph2⟩ := y
          rw [h3] at h
          simp only [bind_ok, Except.ok.injEq, Prod.mk.injEq] at h
          obtain ⟨rfl, rfl⟩ := h
          obtain ⟨w, g, rfl⟩ := stands_asking hs
          obtain ⟨rd, wr, x1, a, b, _⟩ := asks_of_step hg hs h1
          obtain ⟨l, y, rest, d, e, f, f', f'', k⟩ := ih (init_good hg h2) (init_wf h2 hw) b h3
          refine ⟨(⟨op, rd, wr, o⟩, tickLog i o ph1) :: l, y, rest,
            .cons a (utters_of_step hg hw hs h2 b) d, e, by simp [f], f', by simp [f''],
            fun on => ?_⟩
          rw [Phase.runL, initStepL_eq on hg hw op, h1]
          simp only [bind_ok]
          rw [k on]
          simp only [bind_ok]
          rw [← enabled_append]
          rfl
      · rw [h1] at h; cases h

/-- **C130** What connecting logs, in every history, whatever is enabled: the first question, and
then for each operation of the machine (`C123`) exactly the records given by `Utters`. -/
theorem C130_tale (c : Connection) (hc : Fresh c) (ops : List InitOp) (outs : List Obs)
    (ph : Phase) (h : Init.connect c ops = .ok (outs, ph)) :
    ∃ l y rest d, Tale (.asking (.toAsk .armingStatusRequest) .new) l y ∧ Stands ph y ∧
      ops = l.map (fun x => x.1.op) ++ rest ∧ (rest ≠ [] → ∃ r, ph = .finished r) ∧
      outs = l.map (fun x => x.1.out) ∧ Message.debug .armingStatusRequest = .ok d ∧
      ∀ on, Init.connectL on c ops =
        .ok (enabled on (jot .asking [("msg", d)] :: l.flatMap Prod.snd), outs, ph) := by
  rw [connect_run] at h
  obtain ⟨l, y, rest, a, b, d, e, f, g⟩ := tale_of_run (ph := .asking _) (start_good hc)
    (fun z hz => nomatch hz) (start_stands hc) h
  obtain ⟨dd, hd⟩ := C105_message _ (stageQ_wf .arming)
  refine ⟨l, y, rest, dd, a, b, d, e, f, hd, fun on => ?_⟩
  unfold Init.connectL Init.startL
  rw [start_ok]
  simp only [bind_ok]
  rw [startedL_eq on (by rintro i ⟨⟩; exact stageQ_wf .arming)]
  simp only [bind_ok]
  rw [g on]
  simp only [bind_ok]
  rw [← enabled_append]
  have : startLog (.asking (asking ⟨c, PanelState.default, none, .idle⟩ .arming)) =
      [jot .asking [("msg", dd)]] := by
    show (match (stageQ .arming).debug with
      | .ok d => [jot .asking [("msg", d)]]
      | .error _ => []) = _
    rw [hd]
  rw [this]
  rfl

theorem comments_one {g : Greet} {m : Message} {l l' : List Record} (h : Comments g m l)
    (h' : Comments g m l') : l = l' := by
  cases h <;> cases h' <;> simp_all

/-- **C130** What is observed, and what comes of it, settles what is logged. -/
theorem C130_one {g : Greet} {w : Where} {o : Obs} {x : Outcome} {l l' : List Record}
    (h : Utters g w o x l) (h' : Utters g w o x l') : l = l' := by
  cases h with
  | ask =>
    cases h' with
    | ask => rfl
    | quiet h1 _ => exact absurd rfl (h1 _)
  | packet hm =>
    cases h' with
    | packet _ => rfl
    | unrelated _ h _ _ _ => exact absurd h (hm _)
    | reply _ h _ _ _ _ => exact absurd h (hm _)
    | last _ h _ _ _ => exact absurd h (hm _)
    | quiet _ h1 => exact absurd rfl (h1 _)
  | unrelated hp hm hc hr hd =>
    cases h' with
    | packet h => exact absurd hm (h _)
    | unrelated hp' hm' hc' _ hd' =>
      rw [hp] at hp'; rw [hm] at hm'; rw [hd] at hd'
      cases hp'; cases hm'; cases hd'
      rw [comments_one hc hc']
    | reply _ hm' _ hr' _ _ => rw [hm] at hm'; cases hm'; exact absurd hr' hr
    | last _ hm' _ hr' _ => rw [hm] at hm'; cases hm'; exact absurd hr' hr
    | quiet _ h1 => exact absurd rfl (h1 _)
  | reply hp hm hc hr hd hq =>
    cases h' with
    | packet h => exact absurd hm (h _)
    | unrelated _ hm' _ hr' _ => rw [hm] at hm'; cases hm'; exact absurd hr hr'
    | reply hp' hm' hc' _ hd' hq' =>
      rw [hp] at hp'; rw [hm] at hm'; rw [hd] at hd'; rw [hq] at hq'
      cases hp'; cases hm'; cases hd'; cases hq'
      rw [comments_one hc hc']
    | quiet _ h1 => exact absurd rfl (h1 _)
  | last hp hm hc hr hd =>
    cases h' with
    | packet h => exact absurd hm (h _)
    | unrelated _ hm' _ hr' _ => rw [hm] at hm'; cases hm'; exact absurd hr hr'
    | last hp' hm' hc' _ hd' =>
      rw [hp] at hp'; rw [hm] at hm'; rw [hd] at hd'
      cases hp'; cases hm'; cases hd'
      rw [comments_one hc hc']
    | quiet _ h1 => exact absurd rfl (h1 _)
  | quiet h1 h2 =>
    cases h' with
    | quiet _ _ => rfl
    | ask => exact absurd rfl (h1 _)
    | _ => exact absurd rfl (h2 _)

/-! ## C131: `watch` -/

theorem lineRecord_eq (l : WatchLine) : lineRecord l = lineShown l := by
  cases l <;> rfl

theorem sees_of_step {p : Panel} {v : View} (hg : Unasked p) (hl : Looks p v) (op : InitOp)
    {areas : Fin 8 → Bytes} {zones : Fin 208 → Bytes} (ha : areaShown p = areas)
    (hz : zoneShown p = zones) :
    (∃ o w io v', Cli.watchStep p op = .ok (o, w) ∧ Sees areas zones v op io o v' ∧
      Looks w.panel v' ∧ Prints v op o (watchLog p o) ∧
      w.panel.conn.sock.received = p.conn.sock.received ++ io ∧
      w.panel.conn.sock.sent = p.conn.sock.sent ∧
      ((∃ p', w = .watching p' ∧ o ≠ .returned ∧ areaShown p' = areas ∧ zoneShown p' = zones) ∨
        ∃ p', w = .done p' ∧ o = .returned)) ∨
    (∃ cx io e v', op = .tick cx ∧ Cli.watchStep p op = .error .expect ∧
      Reading cx v io (.ready (some (.error e))) v') := by
  obtain ⟨v1, v2, v3, v4, v5, v6⟩ := id hl
  match op with
  | .arrive r =>
    exact .inl ⟨_, _, [], v, rfl, .arrive, ⟨v1, v2, v3, v4, v5, v6⟩, .quiet (fun _ _ h => nomatch h),
      by simp [Watch.panel]; rfl, rfl, .inl ⟨_, rfl, (fun h => nomatch h), ha, hz⟩⟩
  | .writable r =>
    exact .inl ⟨_, _, [], v, rfl, .writable, ⟨v1, v2, v3, v4, v5, v6⟩, .quiet (fun _ _ h => nomatch h),
      by simp [Watch.panel]; rfl, rfl, .inl ⟨_, rfl, (fun h => nomatch h), ha, hz⟩⟩
  | .tick cx =>
    have hgood := hg.watched.good
    obtain ⟨⟨o, p'⟩, hst⟩ := step_total hgood.sane (.pollNext cx) (by intro c h; cases h)
    obtain ⟨io, v', hacts, hl', hrd, hsn⟩ := acts_of_step hgood hl (by intro c h; cases h) hst
    have hj := jots_of_step hgood hl (by intro c h; cases h) hst
    obtain ⟨n1, n2⟩ := next_names hgood hst
    have ea : areaShown p' = areas := by
      rw [← ha]; unfold areaShown; rw [n1]
    have ez : zoneShown p' = zones := by
      rw [← hz]; unfold zoneShown; rw [n2]
    cases hacts with
    | next hread =>
      rename_i r w
      have hp := next_step.mp hst
      have e : ∀ {q}, q = Cli.watchTick p cx → Cli.watchStep p (.tick cx) = q := fun h => h.symm
      have hrd' : p'.conn.sock.received = p.conn.sock.received ++ io := by
        rw [hrd]; simp [bytesRead]
      have hsn' : p'.conn.sock.sent = p.conn.sock.sent := by
        rw [hsn]; simp [bytesWritten]
      match r, hread, hp, hst, hj with
      | .pending, hread, hp, _, _ =>
        refine .inl ⟨.pending, .watching p', io, v', ?_, .idle hread, hl',
          .quiet (fun _ _ h => nomatch h), hrd', hsn', .inl ⟨p', rfl, (fun h => nomatch h), ea, ez⟩⟩
        show Cli.watchTick p cx = _
        unfold Cli.watchTick
        rw [hp]
        rfl
      | .ready none, hread, hp, _, _ =>
        refine .inl ⟨.returned, .done p', io, v', ?_, .ended hread, hl',
          .quiet (fun _ _ h => nomatch h), hrd', hsn', .inr ⟨p', rfl, rfl⟩⟩
        show Cli.watchTick p cx = _
        unfold Cli.watchTick
        rw [hp]
        rfl
      | .ready (some (.error er)), hread, hp, _, _ =>
        refine .inr ⟨cx, io, er, v', rfl, ?_, hread⟩
        show Cli.watchTick p cx = _
        unfold Cli.watchTick
        rw [hp]
        rfl
      | .ready (some (.ok ev)), hread, hp, hst, hj =>
        obtain ⟨a, a', z, z', zl, h1, h2, h3, h4, h5, h6, h7, _⟩ := event_lines hg.watched hst
        rw [v2] at h1; rw [hl'.shown] at h2; rw [v3] at h3; rw [hl'.zones] at h4
        cases h1; cases h2; cases h3; cases h4
        rw [ha] at h5
        rw [hz] at h6
        have hev : WfEvent ev := next_event hgood (wfView_iff.mp hg.watched.view)
          (by rw [hg.idle]; intro r h; cases h) hp
        obtain ⟨d, hd, he⟩ := evLog_ok hev .polled "pkt"
        have hw : Cli.watchStep p (.tick cx) =
            .ok (.event ev (areaDiff areas v.shown v'.shown ++ zl), .watching p') := by
          show Cli.watchTick p cx = _
          unfold Cli.watchTick
          rw [hp]
          simp only [bind_ok]
          rw [h5]
          rfl
        have hpr : Prints v (.tick cx) (.event ev (areaDiff areas v.shown v'.shown ++ zl))
            (watchLog p (.event ev (areaDiff areas v.shown v'.shown ++ zl))) := by
          show Prints _ _ _ (nextLog _ _ ++ evLog _ _ _ ++ List.map lineRecord _)
          rw [he, List.map_congr_left (fun l _ => lineRecord_eq l)]
          exact .event hj hd
        by_cases hzs : ∃ r, ev.msg = some (.ok (.zoneStatusReport r))
        · obtain ⟨r, hr⟩ := hzs
          have ez0 := h7 r hr
          obtain ⟨q1, q2⟩ := report_next hgood hst hr
          rw [v2, hl'.shown] at q2
          injection q2 with q2
          rw [ez0, q2, areaDiff_self, List.append_nil] at hw hpr
          exact .inl ⟨_, _, io, v', hw, .report hread hr, hl', hpr, hrd', hsn',
            .inl ⟨p', rfl, (fun h => nomatch h), ea, ez⟩⟩
        · have hzs' : ∀ r, ev.msg ≠ some (.ok (.zoneStatusReport r)) := fun r h => hzs ⟨r, h⟩
          have ez0 := h6 hzs'
          subst ez0
          exact .inl ⟨_, _, io, v', hw, .event hread hzs', hl', hpr, hrd', hsn',
            .inl ⟨p', rfl, (fun h => nomatch h), ea, ez⟩⟩

theorem diary_of_run {ops : List InitOp} {areas : Fin 8 → Bytes} {zones : Fin 208 → Bytes} :
    ∀ {p : Panel} {v : View} {obs : List WObs} {w : Watch}, Unasked p → Looks p v →
    areaShown p = areas → zoneShown p = zones → Watch.run ops (.watching p) = .ok (obs, w) →
    ∃ l v' rest, Diary areas zones v l v' ∧ Looks w.panel v' ∧ ops = l.map (fun x => x.1.op) ++ rest ∧
      (rest ≠ [] → ∃ p', w = .done p') ∧ obs = l.map (fun x => x.1.out) ∧
      w.panel.conn.sock.received = p.conn.sock.received ++ l.flatMap (fun x => x.1.rd) ∧
      w.panel.conn.sock.sent = p.conn.sock.sent ∧
      ∀ on, Watch.runL on ops (.watching p) = .ok (enabled on (l.flatMap Prod.snd), w) := by
  induction ops with
  | nil =>
    intro p v obs w hg hl ha hz h
    cases h
    exact ⟨[], v, [], .nil, hl, rfl, fun h => absurd rfl h, rfl, by simp [Watch.panel], rfl,
      fun _ => rfl⟩
  | cons op ops ih =>
    intro p v obs w hg hl ha hz h
    rw [watch_cons] at h
    rcases sees_of_step hg hl op ha hz with
      ⟨o, w1, io, v1, h1, h2, h3, h4, h5, h6, h7⟩ | ⟨_, _, _, _, _, h1, _⟩
    · rw [h1] at h
      simp only [bind_ok] at h
      have e : ∀ on, Watch.runL on (op :: ops) (.watching p) =
          Watch.runL on ops w1 >>= fun y => .ok (enabled on (watchLog p o) ++ y.1, y.2) := by
        intro on
        rw [Watch.runL, watchStepL_eq on hg op, h1]
        rfl
      rcases h7 with ⟨p1, rfl, hne, ea, ez⟩ | ⟨p1, rfl, rfl⟩
      · cases h8 : Watch.run ops (.watching p1) with
        | error e => rw [h8] at h; cases h
        | ok y =>
          obtain ⟨os, w2⟩ := y
          rw [h8] at h
          simp only [bind_ok, Except.ok.injEq, Prod.mk.injEq] at h
          obtain ⟨rfl, rfl⟩ := h
          obtain ⟨l, v', rest, d, f1, f2, f3, f4, f5, f6, f7⟩ := ih (unasked_step hg h1) h3 ea ez h8
          refine ⟨(⟨op, io, o⟩, watchLog p o) :: l, v', rest, .cons h2 h4 (fun h => absurd h hne) d, f1,
            by simp [f2], f3, by simp [f4], ?_, ?_, fun on => ?_⟩
          · rw [f5]
            rw [show p1.conn.sock.received = _ from h5]
            simp
          · exact f6.trans h6
          · rw [e, f7 on]
            simp only [bind_ok]
            rw [← enabled_append]
            rfl
      · have h8 : Watch.run ops (.done p1) = .ok ([], .done p1) := by cases ops <;> rfl
        have h9 : ∀ on, Watch.runL on ops (.done p1) = .ok ([], .done p1) := by
          intro on; cases ops <;> rfl
        rw [h8] at h
        simp only [bind_ok, Except.ok.injEq, Prod.mk.injEq] at h
        obtain ⟨rfl, rfl⟩ := h
        refine ⟨[(⟨op, io, .returned⟩, watchLog p .returned)], v1, ops,
          .cons h2 h4 (fun _ => rfl) .nil, h3, rfl, fun _ => ⟨p1, rfl⟩, rfl, ?_, h6, fun on => ?_⟩
        · rw [h5]
          simp
        · rw [e, h9 on]
          rfl
    · rw [h1] at h
      cases h

/-- **C131** `watch` is a small machine over that of a panel: in every history there are the bytes
read by each operation, which make up what was read, and with them the machine observes what `watch`
does, and what is logged, whatever is enabled, is exactly what `Prints` says; nothing is written.
(Operations after the end have no effect.) -/
theorem C131_follows {p0 : Panel} (hc : Connected p0) (hv : WfView p0) (hn : WfNames p0)
    {ops : List InitOp} {obs : List WObs} {w : Watch}
    (hr : Watch.run ops (.watching p0) = .ok (obs, w)) :
    ∃ v0 l v rest, Looks p0 v0 ∧ Diary (areaShown p0) (zoneShown p0) v0 l v ∧ Looks w.panel v ∧
      ops = l.map (fun x => x.1.op) ++ rest ∧ (rest ≠ [] → ∃ p', w = .done p') ∧
      obs = l.map (fun x => x.1.out) ∧
      w.panel.conn.sock.received = p0.conn.sock.received ++ l.flatMap (fun x => x.1.rd) ∧
      w.panel.conn.sock.sent = p0.conn.sock.sent ∧
      ∀ on, Watch.runL on ops (.watching p0) = .ok (enabled on (l.flatMap Prod.snd), w) := by
  obtain ⟨v0, h0⟩ := looks_of_good (connected_good hc)
  obtain ⟨l, v, rest, h⟩ :=
    diary_of_run ⟨⟨connected_good hc, hv, hn⟩, hc.idle⟩ h0 rfl rfl hr
  exact ⟨v0, l, v, rest, h0, h⟩

/-- **C131** `watch` panics only where reading fails. -/
theorem C131_panics {p0 : Panel} (hc : Connected p0) (hv : WfView p0) (hn : WfNames p0)
    {ops : List InitOp} {e : Panic} (hr : Watch.run ops (.watching p0) = .error e) :
    ∃ v0 l v cx io er v' ops₂, Looks p0 v0 ∧ Diary (areaShown p0) (zoneShown p0) v0 l v ∧
      ops = l.map (fun x => x.1.op) ++ .tick cx :: ops₂ ∧
      Reading cx v io (.ready (some (.error er))) v' := by
  obtain ⟨v0, h0⟩ := looks_of_good (connected_good hc)
  refine ⟨v0, ?_⟩
  have hg : Unasked p0 := ⟨⟨connected_good hc, hv, hn⟩, hc.idle⟩
  clear hc hv hn
  suffices h : ∀ {areas zones}, areaShown p0 = areas → zoneShown p0 = zones →
      ∃ l v cx io er v' ops₂, Diary areas zones v0 l v ∧
        ops = l.map (fun x => x.1.op) ++ .tick cx :: ops₂ ∧
        Reading cx v io (.ready (some (.error er))) v' by
    obtain ⟨l, v, cx, io, er, v', ops₂, h⟩ := h rfl rfl
    exact ⟨l, v, cx, io, er, v', ops₂, h0, h⟩
  intro areas zones ha hz
  induction ops generalizing p0 v0 with
  | nil => cases hr
  | cons op ops ih =>
    rw [watch_cons] at hr
    rcases sees_of_step hg h0 op ha hz with
      ⟨o, w1, io, v1, h1, h2, h3, h4, h5, h6, h7⟩ | ⟨cx, io, er, v', rfl, h1, h2⟩
    · rw [h1] at hr
      simp only [bind_ok] at hr
      rcases h7 with ⟨p1, rfl, hne, ea, ez⟩ | ⟨p1, rfl, rfl⟩
      · cases h8 : Watch.run ops (.watching p1) with
        | ok y => rw [h8] at hr; cases hr
        | error e' =>
          rw [h8] at hr
          cases hr
          obtain ⟨l, v, cx, io', er, v', ops₂, d, f1, f2⟩ :=
            ih h8 v1 h3 (unasked_step hg h1) ea ez
          exact ⟨(⟨op, io, o⟩, _) :: l, v, cx, io', er, v', ops₂,
            .cons h2 h4 (fun h => absurd h hne) d, by rw [f1]; rfl, f2⟩
      · have h8 : Watch.run ops (.done p1) = .ok ([], .done p1) := by cases ops <;> rfl
        rw [h8] at hr
        cases hr
    · exact ⟨[], v0, cx, io, er, v', ops, .nil, rfl, h2⟩

theorem jots_event_one {v : View} {cx : Cx} {r : Poll PanelItem} {w w' : List Waker}
    {l l' : List Record} (h : Jots v (.pollNext cx) (.next r w) l)
    (h' : Jots v (.pollNext cx) (.next r w') l') : l = l' := by
  have : Jots v (.pollNext cx) (.next r w') l := by
    cases h with
    | message h => exact .message h
    | packet h => exact .packet h
    | late h => exact .late h
    | quiet h => exact .quiet h
    | other h _ => exact absurd rfl (h _)
  exact C126_one this h'

/-- **C131** What is observed settles what is logged. -/
theorem C131_one {v : View} {op : InitOp} {o : WObs} {l l' : List Record} (h : Prints v op o l)
    (h' : Prints v op o l') : l = l' := by
  cases h with
  | event h hd =>
    cases h' with
    | event h' hd' =>
      rw [hd] at hd'
      cases hd'
      rw [jots_event_one h h']
    | quiet h1 => exact absurd rfl (h1 _ _)
  | quiet h1 =>
    cases h' with
    | quiet _ => rfl
    | event _ _ => exact absurd rfl (h1 _ _)

/-- What a panel logs while it is polled. -/
theorem jots_levels {v : View} {cx : Cx} {r : Poll PanelItem} {w : List Waker} {l : List Record}
    (h : Jots v (.pollNext cx) (.next r w) l) : ∀ x ∈ l, x.site.level ≠ .info := by
  have key : ∀ {m l}, Remarks v m l → ∀ x ∈ l, x.site.level ≠ .info := by
    intro m l h
    cases h <;> simp [jot, Callsite.level]
  cases h with
  | message h =>
    intro x hx
    rcases List.mem_cons.mp hx with rfl | hx
    · simp [jot, Callsite.level]
    · exact key h x hx
  | other h _ => exact absurd rfl (h _)
  | _ => simp [jot, Callsite.level]

/-- **C131** The records at level `info` are the lines, no more and no less: they tell exactly the
differences between what was shown before and after. -/
theorem C131_info {v v' : View} {areas : Fin 8 → Bytes} {zones : Fin 208 → Bytes}
    {l : List (Look × List Record)} (h : Diary areas zones v l v') :
    enabled (fun s => s.level = .info) (l.flatMap Prod.snd) =
      (logged (l.map fun x => x.1.out)).map lineShown := by
  induction h with
  | nil => rfl
  | @cons _ _ _ t j l _ hp _ _ ih =>
    have e : enabled (fun s => s.level = .info) j = (logged [t.out]).map lineShown := by
      generalize t.op = op at hp
      generalize t.out = o at hp ⊢
      cases hp with
      | event hj hd =>
        rw [enabled_append, enabled_append, enabled_nothing fun r hr => by
          simpa using jots_levels hj r hr]
        rw [enabled_nothing (l := [jot .polled _]) fun r hr => by
          simp at hr; subst hr; rfl]
        simp only [List.nil_append]
        unfold enabled
        rw [List.filter_eq_self.mpr]
        · simp [logged]
        · intro r hr
          obtain ⟨x, _, rfl⟩ := List.mem_map.mp hr
          cases x <;> rfl
      | quiet h1 => 
        cases o with
        | event ev l => exact absurd rfl (h1 _ _)
        | _ => rfl
    rw [List.flatMap_cons, enabled_append, ih, e, ← List.map_append]
    congr 1
    simp [logged]

/-- Non-vacuity: a history of `watch` whose log has nine records at level `info`. -/
example : ∃ v0 l v, Diary (fun _ => []) (fun _ => []) v0 l v ∧
    (enabled (fun s => s.level = .info) (l.flatMap Prod.snd)).length = 9 := by
  obtain ⟨⟨obs, w⟩, hr, hd⟩ := of_holds (x := Watch.run
      [.tick ⟨1, 0, 0⟩, .tick ⟨1, 0, 0⟩, .tick ⟨1, 6000, 6000⟩]
      (.watching (samplePanel [.data (msgBytes (.armingStatusReport armedReport)),
        .data (msgBytes (.zoneChange ⟨⟨3⟩, ⟨9⟩⟩))])))
    (f := fun r => decide ((logged r.1).length = 9)) (by decide +kernel)
  obtain ⟨v0, l, v, rest, _, h, _, _, _, ho, _⟩ := C131_follows (samplePanel_connected _)
    (samplePanel_view _) (wfNames_of default_namesOk) hr
  have ea : areaShown (samplePanel [.data (msgBytes (.armingStatusReport armedReport)),
      .data (msgBytes (.zoneChange ⟨⟨3⟩, ⟨9⟩⟩))]) = fun _ => [] :=
    funext fun i => by revert i; decide +kernel
  have ez : zoneShown (samplePanel [.data (msgBytes (.armingStatusReport armedReport)),
      .data (msgBytes (.zoneChange ⟨⟨3⟩, ⟨9⟩⟩))]) = fun _ => [] :=
    funext fun i => by revert i; decide +kernel
  rw [ea, ez] at h
  refine ⟨v0, l, v, h, ?_⟩
  rw [C131_info h, List.length_map, ← ho]
  exact of_decide_eq_true hd

/-- Non-vacuity: the tale of a whole conversation. -/
example : ∃ l g, Tale (.asking (.toAsk .armingStatusRequest) .new) l (.done g) := by
  obtain ⟨outs, p, h⟩ := sampleConnect_succeeds
  obtain ⟨l, y, _, _, h1, h2, _⟩ := C130_tale {} ⟨rfl, rfl, rfl, rfl⟩ _ _ _ h
  cases h2 with
  | done _ => exact ⟨l, _, h1⟩

/-- Non-vacuity: the minutes of a bridge that was asked to arm. -/
example : ∃ cfg code d l d', Minutes cfg code d l d' ∧
    (l.flatMap Prod.snd).map Record.site = [.publish, .matched, .command, .sending] := by
  obtain ⟨⟨b0, obs, b⟩, h, hd⟩ := of_holds (x := Bridge.start sampleCfg (samplePanel []) >>= fun b =>
      Bridge.run [.deliver ⟨bs "elkm1/42/area/home/ha_command", bs "ARM_AWAY"⟩,
        .tick ⟨1, 0, 0⟩ true, .tick ⟨1, 0, 0⟩ true] b >>= fun y => .ok (b, y))
    (f := fun r => (match Bridge.runL (fun _ => true)
        [.deliver ⟨bs "elkm1/42/area/home/ha_command", bs "ARM_AWAY"⟩,
        .tick ⟨1, 0, 0⟩ true, .tick ⟨1, 0, 0⟩ true] r.1 with
      | .ok x => decide (x.1.map Record.site = [.publish, .matched, .command, .sending])
      | .error _ => false)) (by decide +kernel)
  rw [P_bind_ok] at h
  obtain ⟨b0', h1, h⟩ := h
  rw [P_bind_ok] at h
  obtain ⟨y, h2, h⟩ := h
  cases h
  obtain ⟨code, v0, l, d, _, _, hm, _, _, _, _, _, _, hl⟩ :=
    C129_minutes (samplePanel_connected _) (samplePanel_view _) h1 h2
  dsimp only at hd
  rw [hl] at hd
  refine ⟨_, _, _, l, d, hm, ?_⟩
  have := of_decide_eq_true hd
  have e : enabled (fun _ => true) (l.flatMap Prod.snd) = l.flatMap Prod.snd :=
    List.filter_eq_self.mpr fun _ _ => rfl
  rw [e] at this
  exact this

end Elk.Props
