import Verif.Lemmas.LogRun
import Verif.Props.Documented
/-!
# Properties of the log
-/

namespace Elk.Props
open Spec

/-! ## C125: logging changes nothing -/

/-- **C125** Whatever is done to a panel, and whichever calls are enabled: with logging it returns
what it returns without (so that no call panics either), and what is logged is what is logged if all
calls are enabled, less the calls that are not. -/
theorem C125_panel (p : Panel) (ops : List Op) (hw : ∀ c ∈ commands ops, WfCommand c) :
    ∃ lg, ∀ on, Panel.runL on ops p = Panel.run ops p >>= fun x => .ok (enabled on lg, x) := by
  induction ops generalizing p with
  | nil => exact ⟨[], fun _ => rfl⟩
  | cons op ops ih =>
    have h1 : ∀ c, op = .startSend c → WfCommand c := by
      rintro c rfl
      exact hw c (List.mem_filterMap.mpr ⟨_, List.mem_cons_self .., rfl⟩)
    have h2 : ∀ c ∈ commands ops, WfCommand c := by
      intro c hc
      obtain ⟨o, ho, h⟩ := List.mem_filterMap.mp hc
      exact hw c (List.mem_filterMap.mpr ⟨o, List.mem_cons_of_mem _ ho, h⟩)
    cases hs : p.step op with
    | error e =>
      refine ⟨[], fun on => ?_⟩
      rw [Panel.runL, Panel.run, stepL_eq on p op h1, hs]
      rfl
    | ok x =>
      obtain ⟨o, p1⟩ := x
      obtain ⟨lg, h⟩ := ih p1 h2
      refine ⟨stepLog p op o ++ lg, fun on => ?_⟩
      rw [Panel.runL, Panel.run, stepL_eq on p op h1, hs]
      simp only [bind_ok]
      rw [h on]
      cases Panel.run ops p1 with
      | error e => rfl
      | ok y =>
        simp only [bind_ok]
        rw [enabled_append]

/-- Non-vacuity: a suspicious report is delayed and takes effect, and a command is sent; the records
of each level. -/
example : ∃ r, Panel.runL (fun _ => true) [.pollNext ⟨1, 100, 100⟩, .pollNext ⟨1, 5100, 5100⟩,
      .startSend (.activateTask ⟨1⟩)]
      (samplePanel [.data (msgBytes (.armingStatusReport armedReport))]) = .ok r ∧
    decide (r.1.map Record.site = [.received, .delaying, .deferred, .command, .sending] ∧
      (enabled Callsite.byDefault r.1).map Record.site = [.deferred]) = true :=
  of_holds (by decide +kernel)

theorem phase_log (ops : List InitOp) : ∀ ph, PhaseGood ph → PhaseWf ph →
    ∃ lg, ∀ on, Phase.runL on ops ph = Phase.run ops ph >>= fun x => .ok (enabled on lg, x) := by
  induction ops with
  | nil => exact fun _ _ _ => ⟨[], fun _ => rfl⟩
  | cons op ops ih =>
    intro ph hg hw
    match ph, hg, hw with
    | .finished r, _, _ => exact ⟨[], fun _ => rfl⟩
    | .asking i, hg, hw =>
      have e := fun on => initStepL_eq on hg hw op
      cases hs : i.step op with
      | error q =>
        refine ⟨[], fun on => ?_⟩
        rw [Phase.runL, Phase.run, e, hs]
        rfl
      | ok x =>
        obtain ⟨o, ph1⟩ := x
        have hc : InitCase i op (o, ph1) := by
          rcases init_cases hg op with ⟨x, h1, h2⟩ | ⟨_, _, h1, _⟩
          · rw [hs] at h1; cases h1; exact h2
          · rw [hs] at h1; cases h1
        obtain ⟨lg, h⟩ := ih ph1 (init_good hg hc) (init_wf hc hw)
        refine ⟨tickLog i o ph1 ++ lg, fun on => ?_⟩
        rw [Phase.runL, Phase.run, e, hs]
        simp only [bind_ok]
        rw [h on]
        cases Phase.run ops ph1 with
        | error e => rfl
        | ok y =>
          simp only [bind_ok]
          rw [enabled_append]

/-- **C125** Nor does it while connecting. -/
theorem C125_connect (c : Connection) (hc : Fresh c) (ops : List InitOp) :
    ∃ lg, ∀ on, Init.connectL on c ops = Init.connect c ops >>= fun x => .ok (enabled on lg, x) := by
  obtain ⟨lg, h⟩ := phase_log ops (.asking (asking ⟨c, PanelState.default, none, .idle⟩ .arming))
    (start_good hc) (fun z hz => nomatch hz)
  refine ⟨startLog (.asking (asking ⟨c, PanelState.default, none, .idle⟩ .arming)) ++ lg,
    fun on => ?_⟩
  unfold Init.connectL Init.connect Init.startL
  rw [start_ok]
  simp only [bind_ok]
  rw [startedL_eq on (by rintro i ⟨⟩; exact stageQ_wf .arming)]
  simp only [bind_ok]
  rw [h on]
  cases Phase.run ops (.asking (asking ⟨c, PanelState.default, none, .idle⟩ .arming)) with
  | error e => rfl
  | ok y =>
    simp only [bind_ok]
    rw [enabled_append]

/-- Non-vacuity: a whole conversation. -/
example : ∃ r, Init.connectL (fun _ => true) {} sampleConnect = .ok r ∧
    decide (r.1.map Record.site =
      (List.replicate 5 [.asking, .sending, .received, .reply]).flatten) = true :=
  of_holds (by decide +kernel)

theorem bridge_log (ops : List BOp) : ∀ b, Showable b →
    ∃ lg, ∀ on, Bridge.runL on ops b = Bridge.run ops b >>= fun x => .ok (enabled on lg, x) := by
  induction ops with
  | nil => exact fun _ _ => ⟨[], fun _ => rfl⟩
  | cons op ops ih =>
    intro b hg
    have e := fun on => bridgeStepL_eq on hg op
    cases hs : b.step op with
    | error q =>
      refine ⟨[], fun on => ?_⟩
      rw [Bridge.runL, Bridge.run, e, hs]
      rfl
    | ok x =>
      obtain ⟨o, b1⟩ := x
      obtain ⟨lg, h⟩ := ih b1 (showable_step hs hg)
      refine ⟨bridgeLog b o ++ lg, fun on => ?_⟩
      rw [Bridge.runL, Bridge.run, e, hs]
      simp only [bind_ok]
      rw [h on]
      cases Bridge.run ops b1 with
      | error e => rfl
      | ok y =>
        simp only [bind_ok]
        rw [enabled_append]

theorem start_showable {cfg : Cfg} {p : Panel} (hc : Connected p) (hw : WfView p) {b : Bridge}
    (h : Bridge.start cfg p = .ok b) : Showable b := by
  have hg := start_good_bridge hc hw h
  obtain ⟨r, hr⟩ := hc.arming
  obtain ⟨z, hz⟩ := hc.zones
  obtain ⟨_, code, _, rfl⟩ := (start_iff hr hz (hw z hz)).mp h
  refine ⟨hg, ?_⟩
  intro r h
  rw [hc.idle] at h
  cases h

/-- **C125** Nor does it in the bridge, from the connected panel on. -/
theorem C125_bridge (cfg : Cfg) (p : Panel) (hc : Connected p) (hw : WfView p) (ops : List BOp) :
    ∃ lg, ∀ on, (do
      let (l, b) ← Bridge.startL on cfg p
      let (l', x) ← Bridge.runL on ops b
      .ok (l ++ l', x)) =
      (do
        let b ← Bridge.start cfg p
        let x ← Bridge.run ops b
        .ok (enabled on lg, x) : P (List Record × List BObs × Bridge)) := by
  cases hs : Bridge.start cfg p with
  | error e =>
    refine ⟨[], fun on => ?_⟩
    unfold Bridge.startL
    rw [emit_ok, hs]
    rfl
  | ok b =>
    obtain ⟨lg, h⟩ := bridge_log ops b (start_showable hc hw hs)
    refine ⟨⟨.initialized, []⟩ :: lg, fun on => ?_⟩
    unfold Bridge.startL
    rw [emit_ok, hs]
    simp only [bind_ok]
    rw [h on]
    cases Bridge.run ops b with
    | error e => rfl
    | ok y =>
      simp only [bind_ok]
      rw [← enabled_append]
      rfl

/-- Non-vacuity: a request to arm, one of an unknown level, one to an unknown area, and a zone. -/
example : ∃ r, (Bridge.start sampleCfg (samplePanel []) >>= fun b =>
      Bridge.runL (fun _ => true) [.deliver ⟨bs "elkm1/42/area/home/ha_command", bs "ARM_AWAY"⟩,
        .tick ⟨1, 0, 0⟩ true, .tick ⟨1, 0, 0⟩ true, .writable (.accept 100), .tick ⟨1, 0, 0⟩ true,
        .deliver ⟨bs "elkm1/42/area/home/ha_command", bs "ARM"⟩, .tick ⟨1, 0, 0⟩ false,
        .deliver ⟨bs "elkm1/42/area/away/ha_command", bs "DISARM"⟩, .tick ⟨1, 0, 0⟩ false,
        .arrive (.data (msgBytes (.zoneChange ⟨⟨3⟩, ⟨9⟩⟩))), .tick ⟨1, 0, 0⟩ true] b) = .ok r ∧
    decide (r.1.map Record.site = [.publish, .matched, .command, .sending, .publish, .matched,
      .unknownLevel, .publish, .unknownTopic, .received, .panelEvent]) = true :=
  of_holds (by decide +kernel)

theorem watch_log (ops : List InitOp) : ∀ p, Unasked p →
    ∃ lg, ∀ on, Watch.runL on ops (.watching p) =
      Watch.run ops (.watching p) >>= fun x => .ok (enabled on lg, x.2) := by
  induction ops with
  | nil => exact fun _ _ => ⟨[], fun _ => rfl⟩
  | cons op ops ih =>
    intro p hg
    have e := fun on => watchStepL_eq on hg op
    cases hs : Cli.watchStep p op with
    | error q =>
      refine ⟨[], fun on => ?_⟩
      rw [Watch.runL, Watch.run, e, hs]
      rfl
    | ok x =>
      obtain ⟨o, w⟩ := x
      cases w with
      | done p1 =>
        refine ⟨watchLog p o, fun on => ?_⟩
        rw [Watch.runL, Watch.run, e, hs]
        simp only [bind_ok]
        cases ops <;> simp [Watch.run, Watch.runL, bind_ok]
      | watching p1 =>
        obtain ⟨lg, h⟩ := ih p1 (unasked_step hg hs)
        refine ⟨watchLog p o ++ lg, fun on => ?_⟩
        rw [Watch.runL, Watch.run, e, hs]
        simp only [bind_ok]
        rw [h on]
        cases Watch.run ops (.watching p1) with
        | error e => rfl
        | ok y =>
          simp only [bind_ok]
          rw [enabled_append]

/-- **C125** Nor does it in `watch`, of which this is the output. -/
theorem C125_watch (p : Panel) (hc : Connected p) (hv : WfView p) (hn : WfNames p)
    (ops : List InitOp) :
    ∃ lg, ∀ on, Watch.runL on ops (.watching p) =
      Watch.run ops (.watching p) >>= fun x => .ok (enabled on lg, x.2) :=
  watch_log ops p ⟨⟨connected_good hc, hv, hn⟩, hc.idle⟩

/-- Non-vacuity: a zone and, later, the eight areas. -/
example : ∃ r, Watch.runL (fun _ => true) [.tick ⟨1, 0, 0⟩, .tick ⟨1, 0, 0⟩, .tick ⟨1, 6000, 6000⟩]
      (.watching (samplePanel [.data (msgBytes (.armingStatusReport armedReport)),
        .data (msgBytes (.zoneChange ⟨⟨3⟩, ⟨9⟩⟩))])) = .ok r ∧
    decide (r.1.map Record.site = [.received, .delaying, .polled, .received, .polled, .zoneLine,
      .deferred, .polled] ++ List.replicate 8 .areaLine) = true :=
  of_holds (by decide +kernel)

/-! ## C126: what a panel logs -/

theorem remarks_of_log {p : Panel} {v : View} (hl : Looks p v) (m : Message) :
    Remarks v m (msgLog p (some (.ok m))) := by
  obtain ⟨_, h2, _, h4, _, _⟩ := hl
  cases m with
  | armingStatusReport m =>
    unfold msgLog armLog
    dsimp only
    rw [arming_iff.mp h2]
    dsimp only
    by_cases hs : Suspicious v.shown m
    · rw [if_pos ((suspicious_iff _ _).mpr hs)]
      cases hp : p.pendingArm with
      | none => rw [hp] at h4; exact .withheld h4.symm hs
      | some pa => rw [hp] at h4; exact .twice h4.symm hs
    · rw [if_neg (fun h => hs ((suspicious_iff _ _).mp h))]
      exact .plain hs
  | _ => exact .other (fun r h => nomatch h)

theorem jots_of_step {p p' : Panel} {op : Op} {o : Out} {v : View} (hg : Good p) (hl : Looks p v)
    (hw : ∀ c, op = .startSend c → WfCommand c) (hst : p.step op = .ok (o, p')) :
    Jots v op o (stepLog p op o) := by
  have h := step_cases hg.sane hst
  cases h with
  | next cx new r w p' hn =>
    show Jots v _ _ (nextLog p r)
    cases hn with
    | packet pkt c ev w _ _ hi =>
      cases hi with
      | bad e _ => exact .packet (fun m h => nomatch h)
      | skip _ => exact .packet (fun m h => nomatch h)
      | msg m ch q comp w _ _ _ _ _ => exact .message (remarks_of_log hl m)
    | fire c pa prior _ hp _ ha =>
      have h4 := hl.held
      have h2 := arming_iff.mp hl.shown
      have e : nextLog p (.ready (some (.ok ⟨none, none, none, some (.armingStatus prior)⟩))) =
          [jot .deferred [("prior", v.shown.debug), ("pending", pa.report.debug)]] := by
        unfold nextLog timerLog
        dsimp only
        rw [hp, h2]
      rw [e]
      rw [hp] at h4
      exact .late h4.symm
    | error e c _ => exact .quiet (fun ev h => nomatch h)
    | ended c _ => exact .quiet (fun ev h => nomatch h)
    | idle c _ _ => exact .quiet (fun ev h => nomatch h)
    | wait c pa _ _ _ => exact .quiet (fun ev h => nomatch h)
  | send c _ _ _ _ _ =>
    obtain ⟨d, hd⟩ := C105_message _ (hw c rfl)
    show Jots v _ _ (cmdLog c)
    unfold cmdLog
    rw [hd]
    exact .send hd
  | _ => exact .other (fun _ h => nomatch h) (fun _ h => nomatch h)

/-- **C126** What is logged in a history of a panel follows, together with what it returns, from the
bytes it read and wrote and from the clock. -/
theorem C126_chronicle {p0 p : Panel} (hc : Connected p0) {ops : List Op} {outs : List Out}
    (hw : ∀ c ∈ commands ops, WfCommand c) (hr : Panel.run ops p0 = .ok (outs, p)) :
    ∃ v0 v l, Looks p0 v0 ∧ Looks p v ∧ Chronicle v0 l v ∧ l.map (fun x => x.1.op) = ops ∧
      l.map (fun x => x.1.out) = outs ∧
      p.conn.sock.received = p0.conn.sock.received ++ bytesRead (l.map Prod.fst) ∧
      p.conn.sock.sent = p0.conn.sock.sent ++ bytesWritten (l.map Prod.fst) ∧
      ∀ on, Panel.runL on ops p0 = .ok (enabled on (l.flatMap Prod.snd), outs, p) := by
  have hg := connected_good hc
  clear hc
  obtain ⟨v0, h0⟩ := looks_of_good hg
  suffices h : ∃ v l, Looks p v ∧ Chronicle v0 l v ∧ l.map (fun x => x.1.op) = ops ∧
      l.map (fun x => x.1.out) = outs ∧
      p.conn.sock.received = p0.conn.sock.received ++ bytesRead (l.map Prod.fst) ∧
      p.conn.sock.sent = p0.conn.sock.sent ++ bytesWritten (l.map Prod.fst) ∧
      ∀ on, Panel.runL on ops p0 = .ok (enabled on (l.flatMap Prod.snd), outs, p) by
    obtain ⟨v, l, h⟩ := h; exact ⟨v0, v, l, h0, h⟩
  induction ops generalizing p0 v0 outs with
  | nil => cases hr; exact ⟨v0, [], h0, .nil, rfl, rfl, by simp [bytesRead], by simp [bytesWritten],
      fun _ => rfl⟩
  | cons op ops ih =>
    obtain ⟨o, p1, os, h1, h2, rfl⟩ := run_cons.mp hr
    have w1 : ∀ c, op = .startSend c → WfCommand c := by
      rintro c rfl
      exact hw c (List.mem_filterMap.mpr ⟨_, List.mem_cons_self .., rfl⟩)
    have w2 : ∀ c ∈ commands ops, WfCommand c := by
      intro c hc
      obtain ⟨o, ho, h⟩ := List.mem_filterMap.mp hc
      exact hw c (List.mem_filterMap.mpr ⟨o, List.mem_cons_of_mem _ ho, h⟩)
    obtain ⟨io, v1, ha, hl1, hrd, hsn⟩ := acts_of_step hg h0 w1 h1
    obtain ⟨v, l, i1, i2, i3, i4, i5, i6, i7⟩ :=
      ih w2 h2 (step_good hg (step_cases hg.sane h1)) v1 hl1
    have hj := jots_of_step hg h0 w1 h1
    refine ⟨v, (⟨op, io, o⟩, stepLog p0 op o) :: l, i1, .cons ha hj i2, by simp [i3], by simp [i4],
      ?_, ?_, fun on => ?_⟩
    · rw [i5, hrd]
      simp [bytesRead]
    · rw [i6, hsn]
      simp [bytesWritten]
    · rw [Panel.runL, stepL_eq on p0 op w1, h1]
      simp only [bind_ok]
      rw [i7 on]
      simp only [bind_ok]
      rw [← enabled_append]
      rfl

theorem remarks_one {v : View} {m : Message} {l l' : List Record} (h : Remarks v m l)
    (h' : Remarks v m l') : l = l' := by
  cases h with
  | withheld a b =>
    cases h' with
    | withheld => rfl
    | twice a' _ => rw [a] at a'; cases a'
    | plain b' => exact absurd b b'
    | other a' => exact absurd rfl (a' _)
  | twice a b =>
    cases h' with
    | withheld a' => rw [a] at a'; cases a'
    | twice a' _ => rw [a] at a'; cases a'; rfl
    | plain b' => exact absurd b b'
    | other a' => exact absurd rfl (a' _)
  | plain b =>
    cases h' with
    | withheld _ b' => exact absurd b' b
    | twice _ b' => exact absurd b' b
    | plain => rfl
    | other a' => rfl
  | other a =>
    cases h' with
    | withheld => exact absurd rfl (a _)
    | twice => exact absurd rfl (a _)
    | plain => rfl
    | other => rfl

/-- **C126** What an operation logs is settled by what it returns. -/
theorem C126_one {v : View} {op : Op} {o : Out} {l l' : List Record} (h : Jots v op o l)
    (h' : Jots v op o l') : l = l' := by
  cases h with
  | message r =>
    cases h' with
    | message r' => rw [remarks_one r r']
    | packet a => exact absurd rfl (a _)
    | quiet a => exact absurd rfl (a _)
    | other a _ => exact absurd rfl (a _)
  | packet a =>
    cases h' with
    | message r' => exact absurd rfl (a _)
    | packet => rfl
    | quiet a => exact absurd rfl (a _)
    | other a _ => exact absurd rfl (a _)
  | late a =>
    cases h' with
    | late a' => rw [a] at a'; cases a'; rfl
    | quiet a => exact absurd rfl (a _)
    | other a _ => exact absurd rfl (a _)
  | quiet a =>
    cases h' with
    | message => exact absurd rfl (a _)
    | packet => exact absurd rfl (a _)
    | late => exact absurd rfl (a _)
    | quiet => rfl
    | other => rfl
  | send a =>
    cases h' with
    | send a' => rw [a] at a'; cases a'; rfl
    | other _ a => exact absurd rfl (a _)
  | other a b =>
    cases h' with
    | message => exact absurd rfl (a _)
    | packet => exact absurd rfl (a _)
    | late => exact absurd rfl (a _)
    | quiet => rfl
    | send => exact absurd rfl (b _)
    | other => rfl

/-! ## C127: the trace accounts for every byte -/

theorem traced_none {s : Callsite} {l : List Record} (h : ∀ r ∈ l, r.site ≠ s) :
    Traced s l [] [] :=
  ⟨List.filter_eq_nil_iff.mpr fun r hr => by simpa using h r hr, [], rfl, rfl⟩

theorem traced_cons {s : Callsite} {l : List Record} {p : Packet} {w : Bytes}
    (hw : p.encode = .ok w) {ps : List Packet} {b : Bytes} (h : Traced s l ps b) :
    Traced s (jot s [("pkt", p.debug)] :: l) (p :: ps) (w ++ b) := by
  obtain ⟨h1, ws, h2, rfl⟩ := h
  refine ⟨?_, w :: ws, ?_, rfl⟩
  · unfold enabled at h1 ⊢
    rw [List.filter_cons_of_pos (by simp [jot]), h1]
    rfl
  · rw [List.mapM_cons, hw, h2]
    rfl

theorem traced_append {s : Callsite} {l l' : List Record} {ps ps' : List Packet} {b b' : Bytes}
    (h : Traced s l ps b) (h' : Traced s l' ps' b') : Traced s (l ++ l') (ps ++ ps') (b ++ b') := by
  obtain ⟨h1, ws, h2, rfl⟩ := h
  obtain ⟨h1', ws', h2', rfl⟩ := h'
  refine ⟨by rw [enabled_append, h1, h1', List.map_append], ws ++ ws', ?_, by simp⟩
  rw [List.mapM_append, h2, h2']
  rfl

theorem remarks_sites {v : View} {m : Message} {l : List Record} (h : Remarks v m l) :
    ∀ r ∈ l, r.site = .delaying ∨ r.site = .alsoSuspicious := by
  cases h <;> simp [jot]

theorem flushing_unread {v v' : View} {io : Bytes} {r} (h : Flushing v io r v') :
    v'.unread = v.unread := by
  cases h <;> rfl

theorem flushing_unsent {v v' : View} {io : Bytes} {r} (h : Flushing v io r v') :
    v.unsent = io ++ v'.unsent := by
  cases h with
  | nothing _ h => rw [h]; rfl
  | flushed _ h => exact h.1
  | stuck _ _ h => exact h.1

theorem jots_received {v v' : View} {op : Op} {io : Bytes} {o : Out} {l : List Record}
    (ha : Acts v op io o v') (hj : Jots v op o l) :
    ∃ ps b, Traced .received l ps b ∧
      v.unread ++ bytesRead [⟨op, io, o⟩] = b ++ v'.unread := by
  have quiet : (∀ r ∈ l, r.site ≠ .received) →
      v.unread ++ bytesRead [⟨op, io, o⟩] = v'.unread → ∃ ps b, Traced .received l ps b ∧
        v.unread ++ bytesRead [⟨op, io, o⟩] = b ++ v'.unread :=
    fun h1 h2 => ⟨[], [], traced_none h1, h2⟩
  cases ha with
  | next hr =>
    have e : ∀ cx io o, bytesRead [⟨.pollNext cx, io, o⟩] = io := by simp [bytesRead]
    rw [e]
    rw [e] at quiet
    cases hr with
    | event hf ht =>
      obtain ⟨hu, hp⟩ := tells_unread ht
      obtain ⟨w, hw, hs, _⟩ := (C05_progress _).1 _ _ (C117_decode.mpr hf)
      cases hj with
      | message hm =>
        cases hp
        refine ⟨_, _, traced_cons hw (traced_none fun r hr => ?_), ?_⟩
        · rcases remarks_sites hm r hr with h | h <;> rw [h] <;> decide
        · rw [hs, hu, List.append_nil]
      | packet _ =>
        cases hp
        exact ⟨_, _, traced_cons hw (traced_none fun r hr => nomatch hr), by
          rw [hs, hu, List.append_nil]⟩
      | late _ => cases hp
      | quiet h => exact absurd rfl (h _)
      | other h _ => exact absurd rfl (h _)
    | failed _ =>
      cases hj with
      | quiet h => exact quiet (fun r hr => nomatch hr) rfl
      | other h _ => exact absurd rfl (h _)
    | ended _ =>
      cases hj with
      | quiet h => exact quiet (fun r hr => nomatch hr) rfl
      | other h _ => exact absurd rfl (h _)
    | quiet _ _ =>
      cases hj with
      | quiet h => exact quiet (fun r hr => nomatch hr) rfl
      | other h _ => exact absurd rfl (h _)
    | late _ _ _ =>
      cases hj with
      | late h => exact quiet (by simp [jot]) rfl
      | quiet h => exact absurd rfl (h _)
      | other h _ => exact absurd rfl (h _)
  | send _ =>
    cases hj with
    | send _ => exact quiet (by simp [jot]) (by simp [bytesRead])
    | other _ h => exact absurd rfl (h _)
  | arrive =>
    cases hj with
    | other => exact quiet (fun r hr => nomatch hr) (by simp [bytesRead])
  | writable =>
    cases hj with
    | other => exact quiet (fun r hr => nomatch hr) (by simp [bytesRead])
  | ready h =>
    cases hj with
    | other =>
      refine quiet (fun r hr => nomatch hr) ?_
      simp only [bytesRead, List.flatMap_cons, List.flatMap_nil, List.append_nil]
      cases h with
      | idle => rfl
      | flushed _ h => exact (flushing_unread h).symm
      | stuck _ _ h => exact (flushing_unread h).symm
  | flush h =>
    cases hj with
    | other =>
      refine quiet (fun r hr => nomatch hr) ?_
      simp only [bytesRead, List.flatMap_cons, List.flatMap_nil, List.append_nil]
      exact (flushing_unread h).symm
  | close h _ =>
    cases hj with
    | other =>
      refine quiet (fun r hr => nomatch hr) ?_
      simp only [bytesRead, List.flatMap_cons, List.flatMap_nil, List.append_nil]
      exact (flushing_unread h).symm
  | closeStuck _ h =>
    cases hj with
    | other =>
      refine quiet (fun r hr => nomatch hr) ?_
      simp only [bytesRead, List.flatMap_cons, List.flatMap_nil, List.append_nil]
      exact (flushing_unread h).symm

theorem jots_sending {v v' : View} {op : Op} {io : Bytes} {o : Out} {l : List Record}
    (hw : ∀ c, op = .startSend c → WfCommand c)
    (ha : Acts v op io o v') (hj : Jots v op o l) :
    ∃ ps b, Traced .sending l ps b ∧
      v.unsent ++ b = bytesWritten [⟨op, io, o⟩] ++ v'.unsent := by
  have quiet : (∀ r ∈ l, r.site ≠ .sending) →
      v.unsent = bytesWritten [⟨op, io, o⟩] ++ v'.unsent → ∃ ps b, Traced .sending l ps b ∧
        v.unsent ++ b = bytesWritten [⟨op, io, o⟩] ++ v'.unsent :=
    fun h1 h2 => ⟨[], [], traced_none h1, by rw [List.append_nil]; exact h2⟩
  cases ha with
  | next hr =>
    have hu : v'.unsent = v.unsent := by
      cases hr with
      | event _ ht =>
        cases ht with
        | message _ hl hc =>
          have h1 : ∀ {v v' : View} {now m ch}, Learns now v m ch v' → v'.unsent = v.unsent := by
            intro v v' now m ch h; cases h <;> rfl
          have h2 : ∀ {v v' : View} {m r}, Completes v m r v' → v'.unsent = v.unsent := by
            intro v v' m r h; cases h <;> rfl
          rw [h2 hc, h1 hl]
        | fault _ => rfl
        | nothing _ => rfl
      | _ => rfl
    have hs : ∀ r ∈ l, r.site ≠ .sending := by
      cases hj with
      | message hm =>
        intro r hr
        rcases List.mem_cons.mp hr with rfl | hr
        · simp [jot]
        · rcases remarks_sites hm r hr with h | h <;> rw [h] <;> decide
      | packet _ => simp [jot]
      | late _ => simp [jot]
      | quiet _ => exact fun r hr => nomatch hr
      | other h _ => exact absurd rfl (h _)
    exact quiet hs (by simp [bytesWritten, hu])
  | @send c _ =>
    cases hj with
    | @send _ d _ =>
      have hv : (Packet.ascii ⟨sentText c.intoMsg⟩).encode = .ok (commandBytes c) := by
        rw [encode_valid (p := .ascii ⟨sentText c.intoMsg⟩) (sentText_valid (hw c rfl))]
        rfl
      have h := traced_append (s := .sending) (l := [jot .command [("msg", d)]])
        (traced_none (by simp [jot])) (traced_cons hv (traced_none (l := []) fun r hr => nomatch hr))
      refine ⟨_, _, h, ?_⟩
      simp [bytesWritten]
    | other _ h => exact absurd rfl (h _)
  | arrive =>
    cases hj with
    | other => exact quiet (fun r hr => nomatch hr) (by simp [bytesWritten])
  | writable =>
    cases hj with
    | other => exact quiet (fun r hr => nomatch hr) (by simp [bytesWritten])
  | ready h =>
    cases hj with
    | other =>
      refine quiet (fun r hr => nomatch hr) ?_
      simp only [bytesWritten, List.flatMap_cons, List.flatMap_nil, List.append_nil]
      cases h with
      | idle _ h => rw [h]; rfl
      | flushed _ h => exact flushing_unsent h
      | stuck _ _ h => exact flushing_unsent h
  | flush h =>
    cases hj with
    | other =>
      refine quiet (fun r hr => nomatch hr) ?_
      simp only [bytesWritten, List.flatMap_cons, List.flatMap_nil, List.append_nil]
      exact flushing_unsent h
  | close h h' =>
    cases hj with
    | other =>
      refine quiet (fun r hr => nomatch hr) ?_
      simp only [bytesWritten, List.flatMap_cons, List.flatMap_nil, List.append_nil]
      rw [flushing_unsent h, h'.1, List.append_assoc]
  | closeStuck _ h =>
    cases hj with
    | other =>
      refine quiet (fun r hr => nomatch hr) ?_
      simp only [bytesWritten, List.flatMap_cons, List.flatMap_nil, List.append_nil]
      exact flushing_unsent h

theorem chronicle_traced {v0 v : View} {l : List (Deed × List Record)} (h : Chronicle v0 l v)
    (hw : ∀ c ∈ commands (l.map fun x => x.1.op), WfCommand c) :
    ∃ ps b qs c, Traced .received (l.flatMap Prod.snd) ps b ∧
      Traced .sending (l.flatMap Prod.snd) qs c ∧
      v0.unread ++ bytesRead (l.map Prod.fst) = b ++ v.unread ∧
      v0.unsent ++ c = bytesWritten (l.map Prod.fst) ++ v.unsent := by
  induction h with
  | nil => exact ⟨[], [], [], [], traced_none (fun r hr => nomatch hr),
      traced_none (fun r hr => nomatch hr), by simp [bytesRead], by simp [bytesWritten]⟩
  | @cons v v' v'' d j l ha hj _ ih =>
    obtain ⟨ps, b, hp, hb⟩ := jots_received ha hj
    obtain ⟨qs, c, hq, hc⟩ := jots_sending
      (fun c h => hw c (List.mem_filterMap.mpr ⟨_, List.mem_cons_self .., by dsimp only; rw [h]⟩)) ha hj
    obtain ⟨ps', b', qs', c', hp', hq', hb', hc'⟩ := ih (fun c h => by
      obtain ⟨o, ho, h⟩ := List.mem_filterMap.mp h
      exact hw c (List.mem_filterMap.mpr ⟨o, List.mem_cons_of_mem _ ho, h⟩))
    have e1 : bytesRead (d :: l.map Prod.fst) = bytesRead [d] ++ bytesRead (l.map Prod.fst) := by
      simp [bytesRead]
    have e2 : bytesWritten (d :: l.map Prod.fst) =
        bytesWritten [d] ++ bytesWritten (l.map Prod.fst) := by
      simp [bytesWritten]
    have hb : v.unread ++ bytesRead [d] = b ++ v'.unread := hb
    have hc : v.unsent ++ c = bytesWritten [d] ++ v'.unsent := hc
    refine ⟨_, _, _, _, traced_append hp hp', traced_append hq hq', ?_, ?_⟩
    · rw [List.map_cons, e1, ← List.append_assoc, hb, List.append_assoc, hb', List.append_assoc]
    · rw [List.map_cons, e2, ← List.append_assoc, hc, List.append_assoc, hc', List.append_assoc]

/-- **C127** In every history of a connected panel, the packets shown by `received packet` are spelled
by the bytes that were buffered and read, up to those still buffered; the packets shown by
`sending packet` are spelled by the bytes written and those still to be. -/
theorem C127_trace {p0 p : Panel} (hc : Connected p0) {ops : List Op} {outs : List Out}
    (hw : ∀ c ∈ commands ops, WfCommand c) (hr : Panel.run ops p0 = .ok (outs, p)) :
    ∃ lg new io ps b qs c, Panel.runL (fun _ => true) ops p0 = .ok (lg, outs, p) ∧
      Traced .received lg ps b ∧ Traced .sending lg qs c ∧
      p.conn.sock.received = p0.conn.sock.received ++ new ∧
      p.conn.sock.sent = p0.conn.sock.sent ++ io ∧
      p0.conn.rd.buffer ++ new = b ++ p.conn.rd.buffer ∧ c = io ++ p.conn.wbuf := by
  obtain ⟨v0, v, l, h0, h1, hch, ho, _, hrd, hsn, hl⟩ := C126_chronicle hc hw hr
  obtain ⟨ps, b, qs, c, t1, t2, t3, t4⟩ := chronicle_traced hch (by rw [ho]; exact hw)
  refine ⟨l.flatMap Prod.snd, _, _, ps, b, qs, c, ?_, t1, t2, hrd, hsn, ?_, ?_⟩
  · rw [hl]
    simp [enabled]
  · rw [h0.unread, h1.unread]; exact t3
  · rw [h1.unsent, ← t4, ← h0.unsent, hc.flushed]
    rfl

/-- **C127** Different packets are shown differently: the trace determines the bytes. -/
theorem C127_determines {s : Callsite} {l : List Record} {ps qs : List Packet} {b c : Bytes}
    (h : Traced s l ps b) (h' : Traced s l qs c) : ps = qs ∧ b = c := by
  obtain ⟨h1, ws, h2, rfl⟩ := h
  obtain ⟨h1', ws', h2', rfl⟩ := h'
  rw [h1] at h1'
  have e : ps = qs := by
    clear h1 h2 h2'
    induction ps generalizing qs with
    | nil => cases qs with
      | nil => rfl
      | cons q qs => cases h1'
    | cons p ps ih =>
      cases qs with
      | nil => cases h1'
      | cons q qs =>
        simp only [List.map_cons, List.cons.injEq, jot, Record.mk.injEq, List.map_nil, Prod.mk.injEq,
          FieldValue.debug.injEq, true_and, and_true] at h1'
        rw [packet_told h1'.1, ih h1'.2]
  subst e
  rw [h2] at h2'
  cases h2'
  exact ⟨rfl, rfl⟩

end Elk.Props
