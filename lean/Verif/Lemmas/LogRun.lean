import Verif.Lemmas.Log
import Verif.Props.Debug
import Verif.Props.Cli
/-!
# Lemmas about the log: steps and histories
-/

namespace Elk
open Spec Props

/-! ## Operations on a panel -/

/-- What is logged of a command. -/
def cmdLog (c : Command) : List Record :=
  match c.intoMsg.debug with
  | .ok d => sendLog c d
  | .error _ => []

/-- What is logged of an event by a call. -/
def evLog (s : Callsite) (name : String) (ev : Event) : List Record :=
  match ev.debug with
  | .ok d => [jot s [(name, d)]]
  | .error _ => []

theorem evL_eq (on : Callsite → Bool) (s : Callsite) (name : String) {ev : Event} (h : WfEvent ev) :
    emit on s (oneField name ev.debug) = .ok (enabled on (evLog s name ev)) := by
  obtain ⟨d, hd, _⟩ := Props.event_shown h
  rw [oneField_ok hd, emit_ok]
  unfold evLog
  rw [hd]
  rfl

theorem cmdL_eq (on : Callsite → Bool) (p : Panel) {c : Command} (hc : WfCommand c) :
    p.startSendL on c = p.startSend c >>= fun x => .ok (enabled on (cmdLog c), x) := by
  obtain ⟨d, hd⟩ := C105_message _ hc
  rw [panelSendL_eq on p hc hd]
  unfold cmdLog
  rw [hd]

/-- What an operation on a panel logs, given what it returns. -/
def stepLog (p : Panel) : Op → Out → List Record
  | .pollNext _, .next r _ => nextLog p r
  | .startSend c, .accepted => cmdLog c
  | _, _ => []

theorem stepL_eq (on : Callsite → Bool) (p : Panel) (op : Op)
    (hop : ∀ c, op = .startSend c → WfCommand c) :
    p.stepL on op = p.step op >>= fun x => .ok (enabled on (stepLog p op x.1), x) := by
  cases op with
  | pollNext cx =>
    unfold Panel.stepL Panel.step
    dsimp only
    rw [panelNextL_eq]
    cases p.pollNext cx with
    | error e => rfl
    | ok x => rfl
  | startSend c =>
    unfold Panel.stepL Panel.step
    dsimp only
    rw [cmdL_eq on p (hop c rfl)]
    cases p.startSend c with
    | error e => rfl
    | ok x => rfl
  | _ => rfl

/-- A predicate that holds of the request that is outstanding goes on to. -/
theorem outstanding_keep {Q : Message → Prop} {p p1 : Panel} {op o} (hs : StepCase p op (o, p1))
    (hop : ∀ c, op = .startSend c → Q c.intoMsg)
    (h : ∀ r, outstanding p.cmdState = some r → Q r) :
    ∀ r, outstanding p1.cmdState = some r → Q r := by
  by_cases hn : ∀ cx, op ≠ .pollNext cx
  · cases ho : outstanding p.cmdState with
    | some r =>
      rw [(busy_step hs hn ho).1]
      rw [ho] at h; exact h
    | none =>
      cases hs with
      | send cmd _ _ _ _ _ => intro r hr; cases hr; exact hop _ rfl
      | arrive _ => exact h
      | writable _ => exact h
      | next cx _ _ _ _ _ => exact absurd rfl (hn cx)
      | ready cx _ _ hr =>
        cases hr with
        | idle hi => exact h
        | wait rq w hb => rw [hb] at ho; cases ho
        | flushed rq w c hb _ => rw [hb] at ho; cases ho
        | blocked rq w c hb _ => rw [hb] at ho; cases ho
        | failed rq w c e hb _ => rw [hb] at ho; cases ho
      | flush cx _ _ hf => rw [flush_outstanding hf]; exact h
      | close cx _ _ hc =>
        cases hc with
        | flushed q r c hf _ => dsimp only; rw [flush_outstanding hf]; exact h
        | stuck r _ _ hf => rw [flush_outstanding hf]; exact h
  · cases hs with
    | next cx new r w _ hn =>
      cases hn with
      | packet pkt c ev w _ _ hi =>
        rcases (interp_keeps hi).2.1 with h2 | h2
        · rw [h2]; exact h
        · rw [h2]; intro r hr; cases hr
      | error _ _ _ => exact h
      | ended _ _ => exact h
      | idle _ _ _ => exact h
      | wait _ _ _ _ _ => exact h
      | fire _ _ _ _ _ _ _ => exact h
    | _ => exact absurd (by intro cx h; cases h) hn

/-- What is completed was outstanding. -/
theorem completes_was {p p1 : Panel} {op o} (hs : StepCase p op (o, p1)) {ev : Event} {m : Message}
    (he : eventOf o = some ev) (hm : ev.completes = some m) : outstanding p.cmdState = some m := by
  cases hs with
  | next cx new r w _ hn =>
    cases hn with
    | packet pkt c ev' w _ _ hi =>
      cases he
      cases hi with
      | bad e _ => cases hm
      | skip _ => cases hm
      | msg m' ch q comp w _ _ _ ht hc =>
        have hq := (track_keeps ht).2.1
        cases hc with
        | done r f w h _ =>
          rw [hq] at h
          cases hm
          show outstanding p.cmdState = _
          have h : p.cmdState = _ := h
          rw [h]; rfl
        | busy r f w h _ => cases hm
        | idle _ => cases hm
    | fire c pa prior _ _ _ _ => cases he; cases hm
    | _ => cases he
  | _ => cases he

/-- What a panel yields is well-formed, if what is outstanding is. -/
theorem next_event {p p1 : Panel} (hg : Good p) (hw : WfZones p.state)
    (hb : ∀ r, outstanding p.cmdState = some r → WfMessage r) {cx ev w}
    (h : p.pollNext cx = .ok (.ready (some (.ok ev)), w, p1)) : WfEvent ev := by
  have hs := step_cases hg.sane (next_step.mpr h)
  obtain ⟨h1, h2⟩ := step_event hs hw (ev := ev) rfl
  exact ⟨h1, fun m hm => hb m (completes_was hs rfl hm), h2⟩

/-! ## Connecting -/

/-- What is logged when a question is about to be asked. -/
def startLog : Phase → List Record
  | .asking i =>
    match i.send.debug with
    | .ok d => [jot .asking [("msg", d)]]
    | .error _ => []
  | .finished _ => []

theorem startedL_eq (on : Callsite → Bool) {ph : Phase}
    (h : ∀ i, ph = .asking i → WfMessage i.send) :
    ph.startedL on = .ok (enabled on (startLog ph)) := by
  cases ph with
  | finished r => rfl
  | asking i =>
    obtain ⟨d, hd⟩ := C105_message _ (h i rfl)
    unfold Phase.startedL startLog
    dsimp only
    rw [oneField_ok hd, emit_ok, hd]
    rfl

/-- What a poll of `connect` logs, given what it does. -/
def tickLog (i : Init) : Obs → Phase → List Record
  | .asked q, _ => [jot .sending [("pkt", (Packet.ascii ⟨sentText q⟩).debug)]]
  | .got ev, ph =>
    nextLog i.panel (.ready (some (.ok ev))) ++
      match ev.msg with
      | some (.ok m) =>
        if m.isResponseTo i.send then evLog .reply "msg" ev ++ startLog ph
        else evLog .unrelated "msg" ev
      | _ => []
  | _, _ => []

theorem receivedL_eq (on : Callsite → Bool) {i : Init} (hg : InitGood i)
    (hw : WfZones i.panel.state) {c : Connection} {now : Nat} {pkt : Packet}
    (hp : ∀ m, Message.parse pkt = .ok (some m) → WfMessage m) :
    i.receivedL on { i.panel with conn := c } now pkt =
      i.received { i.panel with conn := c } now pkt >>= fun x =>
        .ok (enabled on ((tickLog i x.1 x.2).drop 1), x) := by
  obtain ⟨⟨ev, w, p'⟩, hi, hc⟩ := interpret_cases { i.panel with conn := c } now pkt hp
  unfold Init.receivedL Init.received
  rw [interpretL_eq, hi]
  simp only [bind_ok]
  have hpk : ev.pkt = some pkt := interp_pkt hi
  have hev : WfEvent ev := by
    obtain ⟨h1, h2⟩ := interp_event hc hw
    exact ⟨h1, fun m hm => (by rw [Props.interp_idle hc hg.idle] at hm; cases hm), h2⟩
  have key : ∀ ph, (tickLog i (.got ev) ph).drop 1 = msgLog i.panel ev.msg ++
      (match ev.msg with
      | some (.ok m) =>
        if m.isResponseTo i.send then evLog .reply "msg" ev ++ startLog ph
        else evLog .unrelated "msg" ev
      | _ => []) := by
    intro ph
    unfold tickLog nextLog
    dsimp only
    rw [hpk]
    rfl
  have hl : msgLog { i.panel with conn := c } ev.msg = msgLog i.panel ev.msg := rfl
  rw [hl]
  match hm : ev.msg with
  | none =>
    dsimp only
    simp only [bind_ok]
    rw [key, hm]
    simp only [List.append_nil]
  | some (.error e) =>
    dsimp only
    simp only [bind_ok]
    rw [key, hm]
    simp only [List.append_nil]
  | some (.ok m) =>
    dsimp only
    by_cases hr : m.isResponseTo i.send = true
    · rw [if_pos hr, if_pos hr, evL_eq on _ _ hev]
      simp only [bind_ok]
      rcases replied_cases p' hg.stage (m := m) (hg.send ▸ (C23_responds _ _).mp hr) with
        ⟨ph, h1, h2⟩ | ⟨h1, _⟩
      · rw [h1]
        simp only [bind_ok]
        have hq : ∀ j, ph = .asking j → WfMessage j.send := by
          intro j hj
          cases h2 with
          | ask p'' st' _ _ _ => cases hj; exact stageQ_wf _
          | done _ _ _ => cases hj
        rw [startedL_eq on hq]
        simp only [bind_ok]
        rw [key, hm]
        dsimp only
        rw [if_pos hr]
        simp only [enabled_append, List.append_assoc]
      · rw [h1]; rfl
    · rw [if_neg hr, if_neg hr, evL_eq on _ _ hev]
      simp only [bind_ok]
      rw [key, hm]
      dsimp only
      rw [if_neg hr]
      simp only [enabled_append]

theorem initStepL_eq (on : Callsite → Bool) {i : Init} (hg : InitGood i)
    (hw : WfZones i.panel.state) (op : InitOp) :
    i.stepL on op = i.step op >>= fun x => .ok (enabled on (tickLog i x.1 x.2), x) := by
  match op with
  | .arrive r => rfl
  | .writable r => rfl
  | .tick cx =>
    show i.tickL on cx = i.tick cx >>= _
    match ha : i.await with
    | .ready pkt =>
      obtain ⟨rfl, _⟩ := hg.ready pkt ha
      unfold Init.tickL Init.tick
      rw [ha]
      dsimp only
      generalize i.panel.conn.pollReady cx = x
      match x with
      | (.pending, c) => rfl
      | (.ready (.error e), c) => rfl
      | (.ready (.ok ()), c) =>
        dsimp only
        rw [connSendL_eq]
        cases c.startSend (.ascii ⟨sentText i.send⟩) with
        | error e => rfl
        | ok y => rfl
    | .flush =>
      unfold Init.tickL
      rw [ha]
      dsimp only
      rcases tick_cases hg cx with ⟨⟨o, ph⟩, h1, h2⟩ | ⟨h1, _⟩
      · rw [h1]
        simp only [bind_ok]
        have : tickLog i o ph = [] := by
          cases h2 with
          | ask h _ => rw [ha] at h; cases h
          | other _ _ _ _ _ _ h _ _ _ => rw [ha] at h; cases h
          | reply _ _ _ _ _ _ _ _ h _ _ _ _ _ => rw [ha] at h; cases h
          | _ => rfl
        rw [this]
        rfl
      · rw [h1]; rfl
    | .reply =>
      obtain ⟨r, c, new, h, hs⟩ := connNext_spec i.panel.conn cx hg.rd
      unfold Init.tickL Init.tick
      rw [ha]
      dsimp only
      rw [connNextL_eq, h]
      simp only [bind_ok]
      match r, hs with
      | .pending, hs => rfl
      | .ready none, hs => rfl
      | .ready (some (.error e)), hs => rfl
      | .ready (some (.ok pkt)), hs =>
        have hp := parsed_wf (hs.packet pkt rfl)
        dsimp only
        rw [receivedL_eq on hg hw hp]
        cases hx : i.received { i.panel with conn := c } cx.now pkt with
        | error e => rfl
        | ok y =>
          obtain ⟨o, ph⟩ := y
          simp only [bind_ok]
          rw [← enabled_append]
          have : tickLog i o ph = recvLog (.ready (some (.ok pkt))) ++ (tickLog i o ph).drop 1 := by
            obtain ⟨⟨ev, w, p'⟩, hi, _⟩ := interpret_cases { i.panel with conn := c } cx.now pkt hp
            unfold Init.received at hx
            rw [hi] at hx
            simp only [bind_ok] at hx
            have ho : o = .got ev := by
              match hm : ev.msg, hx with
              | none, hx => cases hx; rfl
              | some (.error e), hx => cases hx; rfl
              | some (.ok m), hx =>
                dsimp only at hx
                split at hx
                · obtain ⟨q, _, hx⟩ := P_bind_ok.mp hx
                  cases hx; rfl
                · cases hx; rfl
            subst ho
            unfold tickLog nextLog
            dsimp only
            rw [interp_pkt hi]
            rfl
          rw [← this]

/-! ## The bridge -/

/-- What is logged of a message of the broker. -/
def taskLog (pre : Bytes) (p : Publish) : List (UInt8 × AreaCfg) → List Record
  | [] => [⟨.unknownTopic, [("publish.topic", .text p.topic)]⟩]
  | (_, cfg) :: areas =>
    if p.topic = areaCommandTopic pre cfg.name then
      ⟨.matched, [("area.name", .text cfg.name), ("publish.topic", .text p.topic)]⟩ ::
        (if haLevel p.payload = none then [⟨.unknownLevel, [("ha_level", .text p.payload)]⟩] else [])
    else taskLog pre p areas

theorem commandForL_eq (on : Callsite → Bool) (pre : Bytes) (code : ArmCode) (p : Publish) :
    ∀ l, commandForL on pre code p l = commandFor pre code p l >>= fun x =>
      .ok (enabled on (taskLog pre p l), x) := by
  intro l
  induction l with
  | nil =>
    unfold commandForL
    rw [emit_ok]; rfl
  | cons a l ih =>
    obtain ⟨id, cfg⟩ := a
    unfold commandForL commandFor taskLog
    by_cases ht : p.topic = areaCommandTopic pre cfg.name
    · rw [if_neg (fun h => h ht), if_neg (fun h => h ht), if_pos ht, emit_ok]
      simp only [bind_ok]
      by_cases hu : utf8Valid p.payload = false
      · rw [if_pos hu, if_pos hu]; rfl
      · rw [if_neg hu, if_neg hu]
        cases hl : haLevel p.payload with
        | none =>
          dsimp only
          rw [emit_ok]
          simp only [bind_ok, if_true]
          rw [← enabled_append]
          rfl
        | some lv =>
          dsimp only
          rw [if_neg (by simp)]
          cases (unwrapR (Limited.tryFrom id) : P (Limited 8)) with
          | error e => rfl
          | ok a => rfl
    · rw [if_pos ht, if_pos ht, if_neg ht]
      exact ih

/-- What a step of the bridge logs, given what it does. -/
def bridgeLog (b : Bridge) : BObs → List Record
  | .event ev _ _ => nextLog b.panel (.ready (some (.ok ev))) ++ evLog .panelEvent "panel_event" ev
  | .taken p _ => ⟨.publish, [("publish", .publish p.topic p.payload.length),
      ("payload", .bytes p.payload)]⟩ :: taskLog b.cfg.prefix p b.cfg.elk.areas
  | .accepted c => cmdLog c
  | _ => []

theorem pollPanelL_eq (on : Callsite → Bool) {b : Bridge}
    (hev : ∀ cx ev w p1, b.panel.pollNext cx = .ok (.ready (some (.ok ev)), w, p1) → WfEvent ev)
    (cx : Cx) :
    b.pollPanelL on cx = b.pollPanel cx >>= fun x =>
      .ok (enabled on (bridgeLog b (x.1.getD .pending)), x) := by
  unfold Bridge.pollPanelL Bridge.pollPanel
  rw [panelNextL_eq]
  cases hn : b.panel.pollNext cx with
  | error e => rfl
  | ok x =>
    obtain ⟨r, w, panel⟩ := x
    simp only [bind_ok]
    match r, hn with
    | .pending, _ => rfl
    | .ready none, _ => rfl
    | .ready (some (.error e)), _ => rfl
    | .ready (some (.ok ev)), hn =>
      dsimp only
      rw [evL_eq on _ _ (hev cx ev w panel hn)]
      simp only [bind_ok]
      cases publishEvent panel b.cfg ev with
      | error e => rfl
      | ok out =>
        simp only [bind_ok]
        rw [← enabled_append]
        rfl

theorem pollInboxL_eq (on : Callsite → Bool) (b : Bridge) :
    b.pollInboxL on = b.pollInbox >>= fun x =>
      .ok (enabled on (bridgeLog b (x.1.getD .pending)), x) := by
  unfold Bridge.pollInboxL Bridge.pollInbox
  cases b.inbox with
  | nil => rfl
  | cons p inbox =>
    dsimp only
    rw [emit_ok, commandForL_eq]
    simp only [bind_ok]
    cases commandFor b.cfg.prefix b.code p b.cfg.elk.areas with
    | error e => rfl
    | ok c =>
      cases c with
      | none =>
        simp only [bind_ok]
        rw [← enabled_append]
        rfl
      | some c =>
        simp only [bind_ok]
        rw [← enabled_append]
        rfl

theorem selectL_eq (on : Callsite → Bool) {b : Bridge}
    (hev : ∀ cx ev w p1, b.panel.pollNext cx = .ok (.ready (some (.ok ev)), w, p1) → WfEvent ev)
    (cx : Cx) (pf : Bool) :
    b.selectL on cx pf = b.select cx pf >>= fun x => .ok (enabled on (bridgeLog b x.1), x) := by
  unfold Bridge.selectL Bridge.select
  cases pf with
  | true =>
    simp only [if_true]
    rw [pollPanelL_eq on hev]
    cases hp : b.pollPanel cx with
    | error e => rfl
    | ok x =>
      obtain ⟨o, b'⟩ := x
      simp only [bind_ok]
      cases o with
      | some o => rfl
      | none =>
        dsimp only
        rw [pollInboxL_eq]
        rcases pollPanel_ok hp with ⟨w, panel, _, _, rfl⟩ | ⟨_, _, _, _, _, _, h, _⟩
        · cases hi : Bridge.pollInbox { b with panel } with
          | error e => rfl
          | ok y =>
            obtain ⟨o, b''⟩ := y
            rcases pollInbox_ok hi with ⟨_, rfl, _⟩ | ⟨_, _, _, _, rfl, _⟩ | ⟨_, _, _, _, _, rfl, _⟩ <;>
            rfl
        · cases h
  | false =>
    simp only [Bool.false_eq_true, if_false]
    rw [pollInboxL_eq]
    cases hp : b.pollInbox with
    | error e => rfl
    | ok x =>
      obtain ⟨o, b'⟩ := x
      simp only [bind_ok]
      cases o with
      | some o => rfl
      | none =>
        dsimp only
        rcases pollInbox_ok hp with ⟨_, _, rfl⟩ | ⟨_, _, _, _, h, _⟩ | ⟨_, _, _, _, _, h, _⟩
        · rw [pollPanelL_eq on hev]
          cases b'.pollPanel cx with
          | error e => rfl
          | ok y =>
            obtain ⟨o, b''⟩ := y
            cases o <;> rfl
        · cases h
        · cases h

/-- The request that is outstanding can be shown. -/
structure Showable (b : Bridge) : Prop where
  good : BGood b
  busy : ∀ r, outstanding b.panel.cmdState = some r → WfMessage r

theorem bridgeStepL_eq (on : Callsite → Bool) {b : Bridge} (hg : Showable b) (op : BOp) :
    b.stepL on op = b.step op >>= fun x => .ok (enabled on (bridgeLog b x.1), x) := by
  match op with
  | .arrive r => rfl
  | .writable r => rfl
  | .deliver p => rfl
  | .tick cx pf =>
    show b.tickL on cx pf = b.tick cx pf >>= _
    unfold Bridge.tickL
    match hw : b.waiting with
    | .select =>
      dsimp only
      rw [selectL_eq on fun cx ev w p1 h => next_event hg.good.good hg.good.wf hg.busy h]
      unfold Bridge.tick
      rw [hw]
    | .ready c =>
      unfold Bridge.tick
      rw [hw]
      dsimp only
      generalize b.panel.pollReady cx = x
      match x with
      | (.pending, p) => rfl
      | (.ready (.error e), p) => rfl
      | (.ready (.ok ()), p) =>
        dsimp only
        rw [cmdL_eq on p (hg.good.cmd c hw)]
        cases p.startSend c with
        | error e => rfl
        | ok y => rfl
    | .flush =>
      dsimp only
      unfold Bridge.tick
      rw [hw]
      dsimp only
      generalize b.panel.pollFlush cx = x
      match x with
      | (.pending, p) => rfl
      | (.ready (.error e), p) => rfl
      | (.ready (.ok ()), p) => rfl

theorem hist_outstanding {Q : Message → Prop} {p p1 : Panel} {ops outs} (hh : Hist p ops outs p1)
    (hop : ∀ c ∈ commands ops, Q c.intoMsg)
    (h : ∀ r, outstanding p.cmdState = some r → Q r) :
    ∀ r, outstanding p1.cmdState = some r → Q r := by
  induction hh with
  | nil _ => exact h
  | @cons p op o p1 ops os p2 _ hc _ ih =>
    refine ih (fun c hc => hop c ?_) (outstanding_keep hc (fun c ho => hop c ?_) h)
    · unfold commands at hc ⊢
      rw [List.mem_filterMap] at hc ⊢
      exact hc.imp fun _ h => ⟨List.mem_cons_of_mem _ h.1, h.2⟩
    · subst ho
      exact List.mem_filterMap.mpr ⟨_, List.mem_cons_self .., rfl⟩

theorem showable_step {b b' : Bridge} {op o} (h : b.step op = .ok (o, b')) (hg : Showable b) :
    Showable b' := by
  have hc := bstep_cases h
  refine ⟨bcase_good hc hg.good, ?_⟩
  obtain ⟨ops, outs, hr, hcm, _⟩ := bcase_panel hc
  refine hist_outstanding (hist_of_run hg.good.good hr) ?_ hg.busy
  intro c hcc
  rw [hcm] at hcc
  cases hc with
  | accepted cx pf c' p1 panel hw _ _ =>
    have : c = c' := by simpa [given] using hcc
    subst this
    exact hg.good.cmd c hw
  | _ => cases hcc

/-! ## `watch` -/

/-- A line of `watch`, as it is logged. -/
def lineRecord : WatchLine → Record
  | .zone name prior new => ⟨.zoneLine, [("zone.name", .text name),
      ("prior.state", .debug (.tuple (bs "ZoneStatus") [Variants.debug prior.1, Variants.debug prior.2])),
      ("new.state", .debug (.tuple (bs "ZoneStatus") [Variants.debug new.1, Variants.debug new.2]))]⟩
  | .area name a b => ⟨.areaLine, [("area.name", .text name),
      ("prior.arming_status", .debug (Variants.debug a.armingStatus)),
      ("prior.up_state", .debug (Variants.debug a.upState)),
      ("prior.alarm_state", .debug (Variants.debug a.alarmState)),
      ("new.arming_status", .debug (Variants.debug b.armingStatus)),
      ("new.up_state", .debug (Variants.debug b.upState)),
      ("new.alarm_state", .debug (Variants.debug b.alarmState))]⟩

theorem areaLineL_eq (on : Callsite → Bool) {prior cur : ArmingStatusReport}
    {names : Vector TextDescription 8} {i : Nat} {l : List WatchLine}
    (h : Cli.areaLine prior cur names i = .ok l) :
    Cli.areaLineL on prior cur names i = .ok (enabled on (l.map lineRecord)) := by
  unfold Cli.areaLine at h
  unfold Cli.areaLineL
  obtain ⟨a, ha, h⟩ := P_bind_ok.mp h
  obtain ⟨b, hb, h⟩ := P_bind_ok.mp h
  rw [ha, hb]
  simp only [bind_ok]
  by_cases hne : a = b
  · rw [if_neg (fun h => h hne)] at h ⊢
    cases h
    rfl
  · rw [if_pos hne] at h ⊢
    obtain ⟨t, ht, h⟩ := P_bind_ok.mp h
    obtain ⟨n, hn, h⟩ := P_bind_ok.mp h
    cases h
    rw [ht]
    simp only [bind_ok]
    rw [hn]
    simp only [bind_ok]
    rw [emit_ok]
    rfl

theorem areaLinesL_eq (on : Callsite → Bool) {prior cur : ArmingStatusReport}
    {names : Vector TextDescription 8} {is : List Nat} : ∀ {l : List WatchLine},
    Cli.areaLines prior cur names is = .ok l →
    Cli.areaLinesL on prior cur names is = .ok (enabled on (l.map lineRecord)) := by
  induction is with
  | nil => intro l h; cases h; rfl
  | cons i is ih =>
    intro l h
    unfold Cli.areaLines at h
    obtain ⟨x, hx, h⟩ := P_bind_ok.mp h
    obtain ⟨y, hy, h⟩ := P_bind_ok.mp h
    cases h
    unfold Cli.areaLinesL
    rw [areaLineL_eq on hx, ih hy]
    simp only [bind_ok]
    rw [List.map_append, enabled_append]

theorem debugTree_ok {s : ZoneStatus} {x} (h : s.debug = .ok x) :
    s.debugTree = .ok (.tuple (bs "ZoneStatus") [Variants.debug x.1, Variants.debug x.2]) := by
  unfold ZoneStatus.debugTree
  rw [h]
  rfl

theorem linesL_eq (on : Callsite → Bool) {panel : Panel} {ev : Event} {l : List WatchLine}
    (h : Cli.lines panel ev = .ok l) :
    Cli.linesL on panel ev = .ok (enabled on (l.map lineRecord)) := by
  unfold Cli.lines at h
  unfold Cli.linesL
  match hc : ev.change, h with
  | none, h => cases h; rfl
  | some (.armingStatus prior), h =>
    dsimp only at h ⊢
    obtain ⟨cur, hcur, h⟩ := P_bind_ok.mp h
    rw [hcur]
    simp only [bind_ok]
    exact areaLinesL_eq on h
  | some (.zoneChange zone prior), h =>
    dsimp only at h ⊢
    obtain ⟨t, h1, h⟩ := P_bind_ok.mp h
    obtain ⟨n, h2, h⟩ := P_bind_ok.mp h
    obtain ⟨pr, h3, h⟩ := P_bind_ok.mp h
    obtain ⟨st, h4, h⟩ := P_bind_ok.mp h
    obtain ⟨i, h5, h⟩ := P_bind_ok.mp h
    obtain ⟨nw, h6, h⟩ := P_bind_ok.mp h
    obtain ⟨nx, h7, h⟩ := P_bind_ok.mp h
    cases h
    rw [h1]; simp only [bind_ok]
    rw [h2]; simp only [bind_ok]
    rw [debugTree_ok h3]; simp only [bind_ok]
    rw [h4]; simp only [bind_ok]
    rw [h5]; simp only [bind_ok]
    rw [h6]; simp only [bind_ok]
    rw [debugTree_ok h7]; simp only [bind_ok]
    rw [emit_ok]
    rfl

/-- What a step of `watch` logs, given what it does. -/
def watchLog (p : Panel) : WObs → List Record
  | .event ev lines =>
    nextLog p (.ready (some (.ok ev))) ++ evLog .polled "pkt" ev ++ lines.map lineRecord
  | _ => []

/-- Invariant of the panel of `watch`: nothing was sent to it. -/
structure Unasked (p : Panel) : Prop where
  watched : Watched p
  idle : p.cmdState = .idle

theorem watchStepL_eq (on : Callsite → Bool) {p : Panel} (hg : Unasked p) (op : InitOp) :
    Cli.watchStepL on p op = Cli.watchStep p op >>= fun x =>
      .ok (enabled on (watchLog p x.1), x.2) := by
  match op with
  | .arrive r => rfl
  | .writable r => rfl
  | .tick cx =>
    show Cli.watchTickL on p cx = Cli.watchTick p cx >>= _
    unfold Cli.watchTickL Cli.watchTick
    rw [panelNextL_eq]
    cases hn : p.pollNext cx with
    | error e => rfl
    | ok x =>
      obtain ⟨r, w, p'⟩ := x
      simp only [bind_ok]
      match r, hn with
      | .pending, _ => rfl
      | .ready none, _ => rfl
      | .ready (some (.error e)), _ => rfl
      | .ready (some (.ok ev)), hn =>
        dsimp only
        have hw : WfEvent ev := next_event hg.watched.good (wfView_iff.mp hg.watched.view)
          (by rw [hg.idle]; intro r h; cases h) hn
        obtain ⟨a, a', z, z', zl, _, _, _, _, hl, _⟩ := event_lines hg.watched (next_step.mpr hn)
        rw [evL_eq on _ _ hw, hl, linesL_eq on hl]
        simp only [bind_ok]
        rw [← enabled_append, ← enabled_append]
        rfl

theorem unasked_step {p p' : Panel} (hg : Unasked p) {op : InitOp} {o} 
    (h : Cli.watchStep p op = .ok (o, .watching p')) : Unasked p' := by
  obtain ⟨o', p1, hs, hc⟩ := watchStep_cases hg.watched op
  have hsc := step_cases hg.watched.good.sane hs
  have hi : p1.cmdState = .idle := by
    have := outstanding_keep (Q := fun _ => False) hsc
      (by intro c h; cases op <;> cases h) (by rw [hg.idle]; intro r h; cases h)
    cases hq : p1.cmdState with
    | idle => rfl
    | busy r f w => rw [hq] at this; exact absurd rfl (fun h => this r h)
  have e : p' = p1 := by
    rcases hc with ⟨_, _, w, l, h1, _⟩ | ⟨_, h1⟩ | ⟨_, _, h1⟩
    · rw [h1] at h; cases h; rfl
    · rw [h1] at h; cases h
    · rw [h1] at h; cases h
  subst e
  exact ⟨watched_step hg.watched hs, hi⟩

end Elk
