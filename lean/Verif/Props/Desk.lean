import Verif.Props.Json
import Verif.Props.Machine
import Verif.Lemmas.Utf8
import Verif.Lemmas.Document
import Verif.Spec.Desk
/-!
# C124: the bridge is the reference machine
-/

namespace Elk.Props
open Elk Spec

/-! ## What is published -/

theorem seen_firing (s : AlarmState) : (s.isFiring = true ↔ IsAlarm (Seen s)) ∧
    (s = .alarmAbortDelayActive ↔ Seen s = .alarmAbortDelayActive) := by
  cases s <;> simp [AlarmState.isFiring, Seen, IsAlarm] <;> decide

theorem areaText_shows (r : ArmingStatusReport) (i : Fin 8) : ∃ t, areaText r i = bs t ∧
    AreaShows r.armingStatus[i] r.upState[i] (Seen r.alarmState[i]) t := by
  unfold areaText
  obtain ⟨h1, h2⟩ := seen_firing r.alarmState[i]
  split
  · rename_i h; exact ⟨_, rfl, .triggered (h1.mp h)⟩
  · rename_i h
    split
    · rename_i hp; exact ⟨_, rfl, .pending (h2.mp hp)⟩
    · rename_i hp
      split
      · rename_i hu
        exact ⟨_, rfl, .arming (fun hx => h (h1.mpr hx)) (fun hx => hp (h2.mpr hx)) hu⟩
      · rename_i hu
        refine ⟨modeText r.armingStatus[i], ?_,
          .mode (fun hx => h (h1.mpr hx)) (fun hx => hp (h2.mpr hx)) hu⟩
        generalize r.armingStatus[i] = m
        cases m <;> rfl

theorem areaMsgs_each {pre : Bytes} {r : ArmingStatusReport} {l : List (UInt8 × AreaCfg)}
    (h : ∀ a ∈ l, 1 ≤ a.1.toNat ∧ a.1.toNat ≤ 8) : Each (AreaLine pre r) l (areaMsgs pre r l) := by
  induction l with
  | nil => exact .nil
  | cons a l ih =>
    refine .cons ?_ (ih fun x hx => h x (List.mem_cons_of_mem _ hx))
    have ha := h a (List.mem_cons_self ..)
    obtain ⟨t, ht, hs⟩ := areaText_shows r (ofId 8 a.1)
    dsimp only
    rw [ht]
    exact .state (hi := (ofId 8 a.1).isLt) (ofId_spec ha.1 ha.2) hs

theorem zoneMsgs_each {pre : Bytes} {z : ZoneStatusReport} {l : List (UInt8 × ZoneCfg)}
    (h : ∀ a ∈ l, 1 ≤ a.1.toNat ∧ a.1.toNat ≤ 208) : Each (ZoneLine pre z) l (zoneMsgs pre z l) := by
  induction l with
  | nil => exact .nil
  | cons a l ih =>
    refine .cons ?_ (ih fun x hx => h x (List.mem_cons_of_mem _ hx))
    have ha := h a (List.mem_cons_self ..)
    exact .state (hi := (ofId 208 a.1).isLt) (ofId_spec ha.1 ha.2)

/-- What is published for an event. -/
theorem announces_of {b : Bridge} (hg : BGood b) {cx w ev panel out v'}
    (hn : b.panel.pollNext cx = .ok (.ready (some (.ok ev)), w, panel))
    (ho : publishEvent panel b.cfg ev = .ok out) (hl : Looks panel v') :
    (∀ r, ev.msg ≠ some (.ok (.zoneStatusReport r))) ∧ Announces b.cfg v' ev out := by
  rcases publishEvent_iff hg hn with ⟨_, _, h1⟩ | ⟨hz, json, ch, hj, hch, h1⟩
  · rw [h1] at ho; cases ho
  rw [h1] at ho
  cases ho
  refine ⟨hz, .mk ?_ ?_⟩
  · rw [← doc_event ?_ ?_]
    · exact written_ok.mp hj
    · intro m hm
      have hsc := step_cases hg.good.sane (next_step.mpr hn)
      cases hsc with
      | next _ new _ _ _ hn =>
        cases hn with
        | packet pkt c ev w _ _ hi =>
          cases hi with
          | bad e _ => cases hm
          | skip _ => cases hm
          | msg m ch q comp w _ _ hw _ _ => cases hm; exact hw
        | fire _ _ _ _ _ _ _ => cases hm
    · intro m hm
      obtain ⟨c, hc, rfl⟩ := completes_command hg.good hg.busy hn hm
      exact hc
  · have hsc := step_cases hg.good.sane (next_step.mpr hn)
    have w' := step_wf hsc hg.wf
    unfold publishChange at hch
    split at hch
    · rename_i prior he
      rw [he, ((publishAreaStates_ok hl.shown).mp hch).2]
      exact .areas (areaMsgs_each hg.usable.areas)
    · rename_i zone prior he
      obtain ⟨i, hi⟩ := change_zone hg.good hn he
      rw [he]
      split at hch
      · rename_i hlk
        cases hch
        exact .other fun c hc => lookup_none hlk _ hc rfl
      · rename_i zc hlk
        rw [((publishZoneState_ok hl.zones (w' _ (zones_iff.mp hl.zones)) hi).mp hch).2]
        exact .zone (lookup_mem hlk) (.state (hi := i.isLt) hi)
    · rename_i he
      rw [he]; cases hch; exact .nothing

/-! ## The panel's part -/

/-- Polling the panel's stream, for the machine. -/
theorem next_reading {p : Panel} {v : View} (hg : Good p) (hl : Looks p v) {cx r w p'}
    (h : p.pollNext cx = .ok (r, w, p')) :
    ∃ io v', Reading cx v io r v' ∧ Looks p' v' ∧
      p'.conn.sock.received = p.conn.sock.received ++ io ∧
      p'.conn.sock.sent = p.conn.sock.sent := by
  obtain ⟨x, new, hx, hn⟩ := pollNext_cases p cx hg.sane.rd hg.sane.arming
  rw [h] at hx
  cases hx
  obtain ⟨v', a, b, c, d⟩ := reading_of_next hl hn (panel_dry hg.rd h)
  exact ⟨new, v', a, b, c, d⟩

/-- `handle_publish`, for the machine. -/
theorem inbox_of {b : Bridge} (hg : BGood b) (p : Publish) :
    (∃ c, commandFor b.cfg.prefix b.code p b.cfg.elk.areas = .ok c ∧ Asks b.cfg b.code p c ∧
      (ForCommands b.cfg p.topic → Rfc.Utf8 p.payload)) ∨
    ((∃ q, commandFor b.cfg.prefix b.code p b.cfg.elk.areas = .error q) ∧
      ForCommands b.cfg p.topic ∧ ¬ Rfc.Utf8 p.payload) := by
  rcases commandFor_cases (pre := b.cfg.prefix) (code := b.code) (p := p) hg.usable.areas with
    ⟨h1, h2⟩ | ⟨a, ha, ht, ⟨hu, h1⟩ | ⟨hu, hn, h1⟩ | ⟨lv, hl, h1⟩⟩
  · exact .inl ⟨_, h1, .otherTopic h2, fun ⟨a, ha, ht⟩ => absurd ht (h2 a ha)⟩
  · refine .inr ⟨⟨_, h1⟩, ⟨a, ha, ht⟩, fun hx => ?_⟩
    rw [(utf8Valid_iff _).mpr hx] at hu
    cases hu
  · exact .inl ⟨_, h1, .otherPayload hn, fun _ => (utf8Valid_iff _).mp hu⟩
  · exact .inl ⟨_, h1, .arm a lv ha ht hl, fun _ => (utf8Valid_iff _).mp (level_text hl)⟩

/-! ## One operation -/

/-- What an operation of the bridge comes to, for the machine. -/
def Comes (b : Bridge) (d : Desk) (op : BOp) : P (BObs × Bridge) → Prop
  | .ok (o, b') => ∃ rd wr d', Serves b.cfg b.code d op rd wr o d' ∧ Sits b' d' ∧
      b'.panel.conn.sock.received = b.panel.conn.sock.received ++ rd ∧
      b'.panel.conn.sock.sent = b.panel.conn.sock.sent ++ wr
  | .error _ => ∃ rd wr, Stops b.cfg d op rd wr

/-- The panel's branch of `select!`. -/
theorem panel_comes {b : Bridge} {d : Desk} (hg : BGood b) (hs : Sits b d)
    (hw : b.waiting = .select) (cx : Cx) (pf : Bool) (hi : pf = false → b.inbox = []) :
    (∃ w panel io v', b.pollPanel cx = .ok (none, { b with panel }) ∧
      b.panel.pollNext cx = .ok (.pending, w, panel) ∧
      Reading cx d.view io .pending v' ∧ Looks panel v' ∧
      panel.conn.sock.received = b.panel.conn.sock.received ++ io ∧
      panel.conn.sock.sent = b.panel.conn.sock.sent) ∨
    (∃ o b', b.pollPanel cx = .ok (some o, b') ∧ Comes b d (.tick cx pf) (.ok (o, b'))) ∨
    (∃ q, b.pollPanel cx = .error q ∧ Comes b d (.tick cx pf) (.error q)) := by
  obtain ⟨⟨r, w, panel⟩, _, hn, _⟩ := pollNext_cases b.panel cx hg.good.sane.rd hg.good.sane.arming
  obtain ⟨io, v', h1, h2, h3, h4⟩ := next_reading hg.good hs.view hn
  have hsel : d.doing = .select := hs.doing.symm.trans hw
  have hin : pf = false → d.inbox = [] := fun h => hs.inbox.symm.trans (hi h)
  match r, hn, h1 with
  | .pending, hn, h1 =>
    refine .inl ⟨w, panel, io, v', ?_, hn, h1, h2, h3, h4⟩
    unfold Bridge.pollPanel
    rw [hn]; rfl
  | .ready none, hn, h1 =>
    refine .inr (.inr ⟨.expect, ?_, io, [], .over hsel hin h1 (fun _ h => nomatch h)⟩)
    unfold Bridge.pollPanel
    rw [hn]; rfl
  | .ready (some (.error e)), hn, h1 =>
    refine .inr (.inr ⟨.expect, ?_, io, [], .over hsel hin h1 (fun _ h => nomatch h)⟩)
    unfold Bridge.pollPanel
    rw [hn]; rfl
  | .ready (some (.ok ev)), hn, h1 =>
    have e : b.pollPanel cx = publishEvent panel b.cfg ev >>= fun out =>
        .ok (some (.event ev out w), { b with panel, log := b.log ++ out }) := by
      unfold Bridge.pollPanel
      rw [hn]; rfl
    rcases publishEvent_iff hg hn with ⟨r, hm, ho⟩ | ⟨_, j, ch, _, _, ho⟩
    · exact .inr (.inr ⟨.todo, by rw [e, ho]; rfl, io, [], .report hsel hin h1 hm⟩)
    · obtain ⟨a1, a2⟩ := announces_of hg hn ho h2
      refine .inr (.inl ⟨_, { b with panel, log := b.log ++ _ }, by rw [e, ho]; rfl, io, [], _,
        .event hsel hin h1 a1 a2, ⟨h2, hs.inbox, hs.doing⟩, h3, ?_⟩)
      rw [List.append_nil]; exact h4

/-- The inbox' branch of `select!`, after the panel was perhaps looked at in vain. -/
theorem inbox_comes {b : Bridge} {d : Desk} (hg : BGood b) (hs : Sits b d)
    (hw : b.waiting = .select) {cx : Cx} {pf : Bool} {io v'} {panel : Panel}
    (hlk : Looked cx d.view pf io v') (hlv : Looks panel v')
    (h3 : panel.conn.sock.received = b.panel.conn.sock.received ++ io)
    (h4 : panel.conn.sock.sent = b.panel.conn.sock.sent) :
    (b.inbox = [] ∧ ({ b with panel } : Bridge).pollInbox = .ok (none, { b with panel })) ∨
    (∃ o b', ({ b with panel } : Bridge).pollInbox = .ok (some o, b') ∧
      Comes b d (.tick cx pf) (.ok (o, b'))) ∨
    (∃ q, ({ b with panel } : Bridge).pollInbox = .error q ∧ Comes b d (.tick cx pf) (.error q)) := by
  have hsel : d.doing = .select := hs.doing.symm.trans hw
  obtain hi | ⟨p, rest, hi⟩ : b.inbox = [] ∨ ∃ p rest, b.inbox = p :: rest := by
    cases b.inbox <;> simp
  · refine .inl ⟨hi, ?_⟩
    unfold Bridge.pollInbox
    dsimp only
    rw [hi]
  · have hin : d.inbox = p :: rest := hs.inbox.symm.trans hi
    have e : ({ b with panel } : Bridge).pollInbox =
        commandFor b.cfg.prefix b.code p b.cfg.elk.areas >>= fun cmd =>
          match cmd with
          | none => .ok (some (.taken p none), { b with panel, inbox := rest })
          | some c => .ok (some (.taken p (some c)),
              { b with panel, inbox := rest, waiting := .ready c }) := by
      unfold Bridge.pollInbox
      dsimp only
      rw [hi]
      rfl
    rcases inbox_of hg p with ⟨c, h1, ha, hu⟩ | ⟨⟨q, h1⟩, ht, hu⟩
    · match c, h1, ha with
      | none, h1, ha =>
        refine .inr (.inl ⟨_, { b with panel, inbox := rest }, by rw [e, h1]; rfl, io, [], _,
          .ignores hsel hin hlk ha hu, ⟨hlv, rfl, hs.doing⟩, h3, ?_⟩)
        rw [List.append_nil]; exact h4
      | some c, h1, ha =>
        refine .inr (.inl ⟨_, { b with panel, inbox := rest, waiting := .ready c },
          by rw [e, h1]; rfl, io, [], _, .takes hsel hin hlk ha, ⟨hlv, rfl, rfl⟩, h3, ?_⟩)
        rw [List.append_nil]; exact h4
    · exact .inr (.inr ⟨q, by rw [e, h1]; rfl, io, [], .garbage hsel hin hlk ht hu⟩)

theorem step_comes {b : Bridge} {d : Desk} (hg : BGood b) (hs : Sits b d) (op : BOp) :
    Comes b d op (b.step op) := by
  obtain ⟨v1, v2, v3, v4, v5, v6⟩ := id hs.view
  match op with
  | .arrive r =>
    exact ⟨[], [], d, .arrive, ⟨⟨v1, v2, v3, v4, v5, v6⟩, hs.inbox, hs.doing⟩, by simp, by simp⟩
  | .writable r =>
    exact ⟨[], [], d, .writable, ⟨⟨v1, v2, v3, v4, v5, v6⟩, hs.inbox, hs.doing⟩, by simp, by simp⟩
  | .deliver p =>
    exact ⟨[], [], _, .deliver, ⟨hs.view, congrArg (· ++ [p]) hs.inbox, hs.doing⟩, by simp, by simp⟩
  | .tick cx pf =>
    show Comes b d (.tick cx pf) (b.tick cx pf)
    unfold Bridge.tick
    split
    · rename_i hw
      have hsel : d.doing = .select := hs.doing.symm.trans hw
      unfold Bridge.select
      cases pf with
      | true =>
        rw [if_pos rfl]
        rcases panel_comes hg hs hw cx true (fun h => nomatch h) with
          ⟨w, panel, io, v', h1, h2, h3, h4, h5, h6⟩ | ⟨o, b', h1, h2⟩ | ⟨q, h1, h2⟩
        · rw [h1]
          simp only [bind_ok]
          rcases inbox_comes hg hs hw (.yes h3) h4 h5 h6 with ⟨hi, e⟩ | ⟨o, b', e, h7⟩ | ⟨q, e, h7⟩
          · rw [e]
            exact ⟨io, [], _, .idle hsel (hs.inbox.symm.trans hi) h3, ⟨h4, hs.inbox, hs.doing⟩, h5,
              by rw [List.append_nil]; exact h6⟩
          · rw [e]; exact h7
          · rw [e]; exact h7
        · rw [h1]; exact h2
        · rw [h1]; exact h2
      | false =>
        rw [if_neg (by simp)]
        rcases inbox_comes (panel := b.panel) hg hs hw (.no (cx := cx)) hs.view (by simp) rfl with
          ⟨hi, e⟩ | ⟨o, b', e, h7⟩ | ⟨q, e, h7⟩
        · have e : b.pollInbox = .ok (none, b) := e
          rw [e]
          simp only [bind_ok]
          rcases panel_comes hg hs hw cx false (fun _ => hi) with
            ⟨w, panel, io, v', h1, h2, h3, h4, h5, h6⟩ | ⟨o, b', h1, h2⟩ | ⟨q, h1, h2⟩
          · rw [h1]
            exact ⟨io, [], _, .idle hsel (hs.inbox.symm.trans hi) h3, ⟨h4, hs.inbox, hs.doing⟩, h5,
              by rw [List.append_nil]; exact h6⟩
          · rw [h1]; exact h2
          · rw [h1]; exact h2
        · have e : b.pollInbox = .ok (some o, b') := e
          rw [e]; exact h7
        · have e : b.pollInbox = .error q := e
          rw [e]; exact h7
    · rename_i c hw
      have hd : d.doing = .ready c := hs.doing.symm.trans hw
      have hc := pollReady_cases b.panel cx
      split
      · rename_i panel hr
        rw [hr] at hc
        obtain ⟨io, v', a1, a2, a3, a4⟩ := readying_of_ready hs.view hc
        exact ⟨[], io, _, .waits hd a1, ⟨a2, hs.inbox, hs.doing⟩,
          by rw [List.append_nil]; exact a3, a4⟩
      · rename_i e panel hr
        rw [hr] at hc
        obtain ⟨io, v', a1, _⟩ := readying_of_ready hs.view hc
        exact ⟨[], io, .unready hd a1⟩
      · rename_i p1 hr
        rw [hr] at hc
        cases hc with
        | idle hi =>
          have hask : d.view.asked = none := by rw [← v5, hi]
          rw [startSend_wf (hg.cmd c hw) hi]
          exact ⟨[], [], _, .hands hd hask, ⟨⟨v1, v2, v3, v4, rfl, by
            show b.panel.conn.wbuf ++ _ = _
            rw [v6]⟩, hs.inbox, rfl⟩, by simp, by simp⟩
    · rename_i hw
      have hd : d.doing = .flush := hs.doing.symm.trans hw
      have hc := pollFlush_cases b.panel cx
      split
      · rename_i panel hr
        rw [hr] at hc
        obtain ⟨io, v', a1, a2, a3, a4⟩ := flushing_of_flush hs.view hc
        exact ⟨[], io, _, .sending hd a1, ⟨a2, hs.inbox, hs.doing⟩,
          by rw [List.append_nil]; exact a3, a4⟩
      · rename_i e panel hr
        rw [hr] at hc
        obtain ⟨io, v', a1, _⟩ := flushing_of_flush hs.view hc
        exact ⟨[], io, .unsent hd a1⟩
      · rename_i panel hr
        rw [hr] at hc
        obtain ⟨io, v', a1, a2, a3, a4⟩ := flushing_of_flush hs.view hc
        exact ⟨[], io, _, .sent hd a1, ⟨a2, hs.inbox, rfl⟩,
          by rw [List.append_nil]; exact a3, a4⟩

/-! ## Histories -/

theorem working_of_run {ops : List BOp} : ∀ {b b' : Bridge} {d : Desk} {obs : List BObs}, BGood b →
    Sits b d → Bridge.run ops b = .ok (obs, b') →
    ∃ l d', Working b.cfg b.code d l d' ∧ Sits b' d' ∧ ops = l.map Turn.op ∧ obs = l.map Turn.out ∧
      b'.panel.conn.sock.received = b.panel.conn.sock.received ++ l.flatMap Turn.rd ∧
      b'.panel.conn.sock.sent = b.panel.conn.sock.sent ++ l.flatMap Turn.wr := by
  induction ops with
  | nil =>
    intro b b' d obs hg hs h
    cases h
    exact ⟨[], d, .nil, hs, rfl, rfl, by simp, by simp⟩
  | cons op ops ih =>
    intro b b' d obs hg hs h
    obtain ⟨o, b1, os, h1, h2, rfl⟩ := brun_cons.mp h
    have hc := step_comes hg hs op
    rw [h1] at hc
    obtain ⟨rd, wr, d1, a1, a2, a3, a4⟩ := hc
    have hb := bstep_cases h1
    obtain ⟨l, d', c1, c2, c3, c4, c5, c6⟩ := ih (bcase_good hb hg) a2 h2
    rw [(bcase_static hb).1, (bcase_static hb).2.1] at c1
    refine ⟨⟨op, rd, wr, o⟩ :: l, d', .cons a1 c1, c2, by rw [c3]; rfl, by rw [c4]; rfl, ?_, ?_⟩
    · rw [c5, a3, List.flatMap_cons, List.append_assoc]
    · rw [c6, a4, List.flatMap_cons, List.append_assoc]

/-- **C124** When the bridge comes to its loop it has published, in this order, the documents for
discovery (if wanted), the state of every area, the state of every zone, and that it is there; and it
has subscribed to the topics for commands of exactly the configured areas.  It gets there exactly for
usable configurations (`C65_starts`). -/
theorem C124_opens {cfg : Cfg} {p0 : Panel} (hc : Connected p0) (hw : WfView p0) {b0 : Bridge}
    (hs : Bridge.start cfg p0 = .ok b0) :
    ∃ v0, Looks p0 v0 ∧ Sits b0 ⟨v0, [], .select⟩ ∧ Opens cfg v0 b0.log ∧
      b0.subscribed = cfg.elk.areas.map fun a =>
        cfg.prefix ++ bs "/area/" ++ a.2.name ++ bs "/ha_command" := by
  obtain ⟨v0, hl⟩ := looks_of_good (connected_good hc)
  obtain ⟨hu, code, _, rfl⟩ := (start_iff hl.shown hl.zones (hw _ hl.zones)).mp hs
  refine ⟨v0, hl, ⟨hl, rfl, rfl⟩, .mk ?_ ?_ (areaMsgs_each hu.areas) (zoneMsgs_each hu.zones), rfl⟩
  · intro ha h
    unfold discoveryLog
    rw [h]
    rfl
  · intro h
    unfold discoveryLog
    rw [h]

/-- **C124** Every history of the bridge is a history of the machine: there are the bytes read and
written by each operation, which make up what was read from and written to the panel, and with them
the machine goes from what the panel looked like to what the bridge is, observing the same; and the
broker was handed what was published at first and then what the machine publishes. -/
theorem C124_follows {cfg : Cfg} {p0 : Panel} (hc : Connected p0) (hw : WfView p0) {b0 : Bridge}
    (hs : Bridge.start cfg p0 = .ok b0) {ops : List BOp} {obs : List BObs} {b : Bridge}
    (hr : Bridge.run ops b0 = .ok (obs, b)) :
    ∃ code v0 l d, ArmCode.tryFromNum cfg.elk.code = .ok code ∧ Looks p0 v0 ∧
      Working cfg code ⟨v0, [], .select⟩ l d ∧ Sits b d ∧ ops = l.map Turn.op ∧
      obs = l.map Turn.out ∧
      b.panel.conn.sock.received = p0.conn.sock.received ++ l.flatMap Turn.rd ∧
      b.panel.conn.sock.sent = p0.conn.sock.sent ++ l.flatMap Turn.wr ∧
      Opens cfg v0 b0.log ∧ b.log = b0.log ++ published obs := by
  have hg := start_good_bridge hc hw hs
  obtain ⟨v0, h1, h2, h3, _⟩ := C124_opens hc hw hs
  obtain ⟨l, d, c1, c2, c3, c4, c5, c6⟩ := working_of_run hg h2 hr
  have hst := (bhist_static (bhist_of_run hr)).2.2.2
  obtain ⟨_, code, hcode, rfl⟩ := (start_iff h1.shown h1.zones (hw _ h1.zones)).mp hs
  exact ⟨code, v0, l, d, hcode, h1, c1, c2, c3, c4, c5, c6, h3, hst⟩

theorem run_stops {ops : List BOp} : ∀ {b : Bridge} {d : Desk} {q : Panic}, BGood b →
    Sits b d → Bridge.run ops b = .error q →
    ∃ l d' op ops₂ rd wr, Working b.cfg b.code d l d' ∧ ops = l.map Turn.op ++ op :: ops₂ ∧
      Stops b.cfg d' op rd wr := by
  induction ops with
  | nil => intro b d q _ _ h; cases h
  | cons op ops ih =>
    intro b d q hg hs h
    have hc := step_comes hg hs op
    unfold Bridge.run at h
    match h1 : b.step op, h with
    | .error q', h =>
      rw [h1] at hc
      obtain ⟨rd, wr, a⟩ := hc
      exact ⟨[], d, op, ops, rd, wr, .nil, rfl, a⟩
    | .ok (o, b1), h =>
      rw [h1] at hc
      obtain ⟨rd, wr, d1, a1, a2, a3, a4⟩ := hc
      have hb := bstep_cases h1
      have h2 : Bridge.run ops b1 = .error q := by
        rw [bind_ok] at h
        dsimp only at h
        match h2 : Bridge.run ops b1, h with
        | .error q', h => cases h; rfl
        | .ok x, h => cases h
      obtain ⟨l, d', op', ops₂, rd', wr', c1, c2, c3⟩ := ih (bcase_good hb hg) a2 h2
      rw [(bcase_static hb).1] at c3
      rw [(bcase_static hb).1, (bcase_static hb).2.1] at c1
      exact ⟨⟨op, rd, wr, o⟩ :: l, d', op', ops₂, rd', wr', .cons a1 c1, by rw [c2]; rfl, c3⟩

/-- **C124** The bridge ends only where the machine stops: reading or writing fails or the connection
has ended, a report on all zones is received, or a message on a topic for commands is not text. -/
theorem C124_stops {cfg : Cfg} {p0 : Panel} (hc : Connected p0) (hw : WfView p0) {b0 : Bridge}
    (hs : Bridge.start cfg p0 = .ok b0) {ops : List BOp} {q : Panic}
    (hr : Bridge.run ops b0 = .error q) :
    ∃ code v0 l d op ops₂ rd wr, ArmCode.tryFromNum cfg.elk.code = .ok code ∧ Looks p0 v0 ∧
      Working cfg code ⟨v0, [], .select⟩ l d ∧ ops = l.map Turn.op ++ op :: ops₂ ∧
      Stops cfg d op rd wr := by
  have hg := start_good_bridge hc hw hs
  obtain ⟨v0, h1, h2, h3, _⟩ := C124_opens hc hw hs
  obtain ⟨l, d, op, ops₂, rd, wr, c1, c2, c3⟩ := run_stops hg h2 hr
  obtain ⟨_, code, hcode, rfl⟩ := (start_iff h1.shown h1.zones (hw _ h1.zones)).mp hs
  exact ⟨code, v0, l, d, op, ops₂, rd, wr, hcode, h1, c1, c2, c3⟩

/-! ## The machine leaves no choice -/

theorem each_one {α β : Type} {r : α → β → Prop} (hr : ∀ a b b', r a b → r a b' → b = b')
    {l : List α} {x y : List β} (hx : Each r l x) (hy : Each r l y) : x = y := by
  induction hx generalizing y with
  | nil => cases hy; rfl
  | cons h _ ih =>
    cases hy with
    | cons h' hy => rw [hr _ _ _ h h', ih hy]

theorem areaLine_one {pre : Bytes} {r : ArmingStatusReport} (a : UInt8 × AreaCfg) (x y : Published)
    (hx : AreaLine pre r a x) (hy : AreaLine pre r a y) : x = y := by
  cases hx with
  | @state i hi t e hs =>
    cases hy with
    | @state j hj t' e' hs' =>
      obtain rfl : i = j := by omega
      rw [C48_unique hs hs']

theorem zoneLine_one {pre : Bytes} {z : ZoneStatusReport} (a : UInt8 × ZoneCfg) (x y : Published)
    (hx : ZoneLine pre z a x) (hy : ZoneLine pre z a y) : x = y := by
  cases hx with
  | @state i hi e =>
    cases hy with
    | @state j hj e' =>
      obtain rfl : i = j := by omega
      rfl

theorem updates_one {cfg : Cfg} (hm : MapCfg cfg) {v : View} {c : Option Change}
    {x y : List Published} (hx : Updates cfg v c x) (hy : Updates cfg v c y) : x = y := by
  cases hx with
  | nothing => cases hy; rfl
  | areas h =>
    cases hy with
    | areas h' => exact each_one areaLine_one h h'
  | @zone zone prior c m hc hl =>
    cases hy with
    | @zone _ _ c' m' hc' hl' =>
      have := nodup_key hm.zones hc hc' rfl
      cases this
      rw [zoneLine_one _ _ _ hl hl']
    | other h => exact absurd hc (h c)
  | other h =>
    cases hy with
    | zone hc' _ => exact absurd hc' (h _)
    | other _ => rfl

/-- **C124** What is published at first follows from what the panel looks like. -/
theorem C124_opens_one {cfg : Cfg} {v : View} {x y : List Published} (hx : Opens cfg v x)
    (hy : Opens cfg v y) : x = y := by
  cases hx with
  | mk a1 a2 a3 a4 =>
    cases hy with
    | mk b1 b2 b3 b4 =>
      rw [each_one areaLine_one a3 b3, each_one zoneLine_one a4 b4]
      cases h : cfg.mqtt.haDiscoveryPrefix with
      | none => rw [a2 h, b2 h]
      | some ha => rw [a1 ha h, b1 ha h]

theorem writes_one {u io : Bytes} {r r' : Poll (Except IoErr Unit)} {u₁ u₂ : Bytes}
    (h₁ : Writes u io r u₁) (h₂ : Writes u io r' u₂) : u₁ = u₂ :=
  List.append_cancel_left (h₁.1.symm.trans h₂.1)

/-- Success and more to write exclude each other. -/
theorem flushing_one {v v₁ v₂ : View} {io : Bytes} {r₁ r₂ : Poll (Except IoErr Unit)}
    (h₁ : Flushing v io r₁ v₁) (h₂ : Flushing v io r₂ v₂)
    (g₁ : ∀ e, r₁ ≠ .ready (.error e)) (g₂ : ∀ e, r₂ ≠ .ready (.error e)) : r₁ = r₂ ∧ v₁ = v₂ := by
  have pend : ∀ {r : Poll (Except IoErr Unit)}, r ≠ .ready (.ok ()) →
      (∀ e, r ≠ .ready (.error e)) → r = .pending := by
    intro r a b
    match r with
    | .pending => rfl
    | .ready (.ok ()) => exact absurd rfl a
    | .ready (.error e) => exact absurd rfl (b e)
  cases h₁ with
  | nothing n i =>
    cases h₂ with
    | nothing => exact ⟨rfl, rfl⟩
    | flushed a => exact absurd a (n _)
    | stuck a => exact absurd a (n _)
  | flushed a w =>
    cases h₂ with
    | nothing n => exact absurd a (n _)
    | flushed a' w' => rw [a] at a'; cases a'; rw [writes_one w w']; exact ⟨rfl, rfl⟩
    | stuck a' n w' =>
      cases pend n g₂
      exact absurd (writes_one w w' ▸ w.2.1 rfl) (w'.2.2 rfl)
  | stuck a n w =>
    cases pend n g₁
    cases h₂ with
    | nothing n' => exact absurd a (n' _)
    | flushed a' w' => exact absurd (writes_one w' w ▸ w'.2.1 rfl) (w.2.2 rfl)
    | stuck a' n' w' =>
      cases pend n' g₂
      rw [writes_one w w']; exact ⟨rfl, rfl⟩

theorem waiting_one {v v₁ v₂ : View} {io : Bytes} (h₁ : Readying v io .pending v₁)
    (h₂ : Readying v io .pending v₂) : v₁ = v₂ := by
  cases h₁ with
  | flushed n f =>
    cases h₂ with
    | flushed n' f' => exact (flushing_one f f' (fun _ h => nomatch h) (fun _ h => nomatch h)).2
    | stuck n' r' f' => cases (flushing_one f f' (fun _ h => nomatch h) (fun _ h => nomatch h)).1
  | stuck n r f =>
    cases h₂ with
    | flushed n' f' => cases (flushing_one f f' (fun _ h => nomatch h) (fun _ h => nomatch h)).1
    | stuck n' r' f' => exact (flushing_one f f' (fun _ h => nomatch h) (fun _ h => nomatch h)).2

/-- With the same bytes read, `poll_next` returns the same. -/
theorem reading_one {cx : Cx} {v v₁ v₂ : View} {io : Bytes} {r₁ r₂ : Poll PanelItem}
    (h₁ : Reading cx v io r₁ v₁) (h₂ : Reading cx v io r₂ v₂)
    (g₁ : r₁ ≠ .ready none ∧ ∀ e, r₁ ≠ .ready (some (.error e)))
    (g₂ : r₂ ≠ .ready none ∧ ∀ e, r₂ ≠ .ready (some (.error e))) :
    v₁ = v₂ ∧ r₁ = r₂ := by
  by_cases hf : ∃ pkt rest, Front (v.unread ++ io) (some pkt) rest
  · obtain ⟨pkt, rest, hf⟩ := hf
    obtain ⟨a, b, _⟩ := C122_packet hf h₁ h₂
    exact ⟨a, b⟩
  · have hw : Spec.Waits (v.unread ++ io) := by
      cases h₁ with
      | event f => exact absurd ⟨_, _, f⟩ hf
      | failed w => exact w
      | ended w => exact w
      | quiet w => exact w
      | late w => exact w
    exact C122_waits hw h₁ h₂ g₁ g₂

/-- The same is observed, but for the tasks woken. -/
inductive SameObs : BObs → BObs → Prop
  | same {o} : SameObs o o
  | env {w w'} : SameObs (.env w) (.env w')
  | event {e out w w'} : SameObs (.event e out w) (.event e out w')

/-- **C124** With the same bytes read and written, the machine observes the same and goes to the same place. -/
theorem C124_settled {cfg : Cfg} (hm : MapCfg cfg) (hd : DistinctNames cfg) {code : ArmCode}
    {d d₁ d₂ : Desk} {op : BOp} {rd wr : Bytes} {o₁ o₂ : BObs}
    (h₁ : Serves cfg code d op rd wr o₁ d₁) (h₂ : Serves cfg code d op rd wr o₂ d₂) :
    d₁ = d₂ ∧ SameObs o₁ o₂ := by
  have ok1 : ∀ {ev : Event}, (.ready (some (.ok ev)) : Poll PanelItem) ≠ .ready none ∧
      ∀ e, (.ready (some (.ok ev)) : Poll PanelItem) ≠ .ready (some (.error e)) :=
    ⟨(fun h => nomatch h), (fun _ h => nomatch h)⟩
  have ok2 : (.pending : Poll PanelItem) ≠ .ready none ∧
      ∀ e, (.pending : Poll PanelItem) ≠ .ready (some (.error e)) :=
    ⟨(fun h => nomatch h), (fun _ h => nomatch h)⟩
  have same : ∀ {cx io v₁ v₂}, Reading cx d.view io .pending v₁ → Reading cx d.view io .pending v₂ →
      v₁ = v₂ := fun a b => (reading_one a b ok2 ok2).1
  have apart : ∀ {cx io ev v₁ v₂}, Reading cx d.view io (.ready (some (.ok ev))) v₁ →
      ¬ Reading cx d.view io .pending v₂ := by
    intro cx io ev v₁ v₂ a b
    cases (reading_one a b ok1 ok2).2
  have looked : ∀ {cx pf io v₁ v₂}, Looked cx d.view pf io v₁ → Looked cx d.view pf io v₂ →
      v₁ = v₂ := by
    intro cx pf io v₁ v₂ a b
    cases a with
    | no => cases b; rfl
    | yes a => cases b with
      | yes b => exact same a b
  have away : ∀ {cx pf io ev v₁ v₂}, Reading cx d.view io (.ready (some (.ok ev))) v₁ →
      (pf = false → d.inbox = []) → d.inbox ≠ [] → ¬ Looked cx d.view pf io v₂ := by
    intro cx pf io ev v₁ v₂ a b c h
    cases h with
    | no => exact c (b rfl)
    | yes h => exact apart a h
  have differ : ∀ {x y : Waiting}, d.doing = x → d.doing = y → x ≠ y → False :=
    fun a b c => c (a.symm.trans b)
  cases h₁ with
  | arrive => cases h₂; exact ⟨rfl, .env⟩
  | writable => cases h₂; exact ⟨rfl, .env⟩
  | deliver => cases h₂; exact ⟨rfl, .same⟩
  | @event _ _ _ e₁ _ _ _ a1 a2 a3 a4 a5 =>
    cases h₂ with
    | @event _ _ _ e₂ _ _ _ b1 b2 b3 b4 b5 =>
      obtain ⟨rfl, h⟩ := reading_one a3 b3 ok1 ok1
      cases h
      refine ⟨rfl, ?_⟩
      cases a5 with
      | mk a6 a7 =>
        cases b5 with
        | mk b6 b7 =>
          rw [updates_one hm a7 b7]
          rw [a6] at b6; cases b6
          exact .event
    | ignores b1 b2 b3 => exact absurd b3 (away a3 a2 (by rw [b2]; simp))
    | takes b1 b2 b3 => exact absurd b3 (away a3 a2 (by rw [b2]; simp))
    | idle b1 b2 b3 => exact absurd b3 (apart a3)
    | waits b1 => exact (differ a1 b1 (by simp)).elim
    | hands b1 => exact (differ a1 b1 (by simp)).elim
    | sending b1 => exact (differ a1 b1 (by simp)).elim
    | sent b1 => exact (differ a1 b1 (by simp)).elim
  | ignores a1 a2 a3 a4 a5 =>
    cases h₂ with
    | event b1 b2 b3 => exact absurd a3 (away b3 b2 (by rw [a2]; simp))
    | ignores b1 b2 b3 b4 b5 =>
      rw [a2] at b2; cases b2
      rw [looked a3 b3]; exact ⟨rfl, .same⟩
    | takes b1 b2 b3 b4 =>
      rw [a2] at b2; cases b2
      cases C50_asks_unique hd a4 b4
    | idle b1 b2 => rw [a2] at b2; cases b2
    | waits b1 => exact (differ a1 b1 (by simp)).elim
    | hands b1 => exact (differ a1 b1 (by simp)).elim
    | sending b1 => exact (differ a1 b1 (by simp)).elim
    | sent b1 => exact (differ a1 b1 (by simp)).elim
  | takes a1 a2 a3 a4 =>
    cases h₂ with
    | event b1 b2 b3 => exact absurd a3 (away b3 b2 (by rw [a2]; simp))
    | ignores b1 b2 b3 b4 b5 =>
      rw [a2] at b2; cases b2
      cases C50_asks_unique hd a4 b4
    | takes b1 b2 b3 b4 =>
      rw [a2] at b2; cases b2
      cases C50_asks_unique hd a4 b4
      rw [looked a3 b3]; exact ⟨rfl, .same⟩
    | idle b1 b2 => rw [a2] at b2; cases b2
    | waits b1 => exact (differ a1 b1 (by simp)).elim
    | hands b1 => exact (differ a1 b1 (by simp)).elim
    | sending b1 => exact (differ a1 b1 (by simp)).elim
    | sent b1 => exact (differ a1 b1 (by simp)).elim
  | idle a1 a2 a3 =>
    cases h₂ with
    | event b1 b2 b3 => exact absurd a3 (apart b3)
    | ignores b1 b2 => rw [a2] at b2; cases b2
    | takes b1 b2 => rw [a2] at b2; cases b2
    | idle b1 b2 b3 => rw [same a3 b3]; exact ⟨rfl, .same⟩
    | waits b1 => exact (differ a1 b1 (by simp)).elim
    | hands b1 => exact (differ a1 b1 (by simp)).elim
    | sent b1 => exact (differ a1 b1 (by simp)).elim
    | sending b1 => exact (differ a1 b1 (by simp)).elim
  | waits a1 a2 =>
    cases h₂ with
    | idle b1 => exact (differ a1 b1 (by simp)).elim
    | waits b1 b2 => rw [waiting_one a2 b2]; exact ⟨rfl, .same⟩
    | hands b1 b2 =>
      cases a2 with
      | flushed n _ => exact absurd b2 n
      | stuck n _ _ => exact absurd b2 n
    | sending b1 => exact (differ a1 b1 (by simp)).elim
    | sent b1 => exact (differ a1 b1 (by simp)).elim
    | event b1 => exact (differ a1 b1 (by simp)).elim
    | ignores b1 => exact (differ a1 b1 (by simp)).elim
    | takes b1 => exact (differ a1 b1 (by simp)).elim
  | hands a1 a2 =>
    cases h₂ with
    | event b1 => exact (differ a1 b1 (by simp)).elim
    | ignores b1 => exact (differ a1 b1 (by simp)).elim
    | takes b1 => exact (differ a1 b1 (by simp)).elim
    | idle b1 => exact (differ a1 b1 (by simp)).elim
    | waits b1 b2 =>
      cases b2 with
      | flushed n _ => exact absurd a2 n
      | stuck n _ _ => exact absurd a2 n
    | hands b1 b2 => rw [a1] at b1; cases b1; exact ⟨rfl, .same⟩
    | sending b1 => exact (differ a1 b1 (by simp)).elim
    | sent b1 => exact (differ a1 b1 (by simp)).elim
  | sending a1 a2 =>
    cases h₂ with
    | event b1 => exact (differ a1 b1 (by simp)).elim
    | ignores b1 => exact (differ a1 b1 (by simp)).elim
    | takes b1 => exact (differ a1 b1 (by simp)).elim
    | idle b1 => exact (differ a1 b1 (by simp)).elim
    | waits b1 => exact (differ a1 b1 (by simp)).elim
    | hands b1 => exact (differ a1 b1 (by simp)).elim
    | sending b1 b2 =>
      rw [(flushing_one a2 b2 (fun _ h => nomatch h) (fun _ h => nomatch h)).2]; exact ⟨rfl, .same⟩
    | sent b1 b2 => cases (flushing_one a2 b2 (fun _ h => nomatch h) (fun _ h => nomatch h)).1
  | sent a1 a2 =>
    cases h₂ with
    | event b1 => exact (differ a1 b1 (by simp)).elim
    | ignores b1 => exact (differ a1 b1 (by simp)).elim
    | takes b1 => exact (differ a1 b1 (by simp)).elim
    | idle b1 => exact (differ a1 b1 (by simp)).elim
    | waits b1 => exact (differ a1 b1 (by simp)).elim
    | hands b1 => exact (differ a1 b1 (by simp)).elim
    | sending b1 b2 => cases (flushing_one a2 b2 (fun _ h => nomatch h) (fun _ h => nomatch h)).1
    | sent b1 b2 =>
      rw [(flushing_one a2 b2 (fun _ h => nomatch h) (fun _ h => nomatch h)).2]; exact ⟨rfl, .same⟩

/-- **C124** Where a report on all zones is received, or a message on a topic for commands is not
text, the machine does nothing but stop: there the bridge ends. -/
theorem C124_fatal {cfg : Cfg} {code : ArmCode} {d d' : Desk} {cx : Cx} {pf : Bool} {rd wr : Bytes}
    {o : BObs} (hsel : d.doing = .select)
    (h : (∃ ev r v', (pf = false → d.inbox = []) ∧ Reading cx d.view rd (.ready (some (.ok ev))) v' ∧
        ev.msg = some (.ok (.zoneStatusReport r))) ∨
      (∃ p rest v', d.inbox = p :: rest ∧ Looked cx d.view pf rd v' ∧ ForCommands cfg p.topic ∧
        ¬ Rfc.Utf8 p.payload)) :
    ¬ Serves cfg code d (.tick cx pf) rd wr o d' := by
  have ok1 : ∀ {ev : Event}, (.ready (some (.ok ev)) : Poll PanelItem) ≠ .ready none ∧
      ∀ e, (.ready (some (.ok ev)) : Poll PanelItem) ≠ .ready (some (.error e)) :=
    ⟨(fun h => nomatch h), (fun _ h => nomatch h)⟩
  have ok2 : (.pending : Poll PanelItem) ≠ .ready none ∧
      ∀ e, (.pending : Poll PanelItem) ≠ .ready (some (.error e)) :=
    ⟨(fun h => nomatch h), (fun _ h => nomatch h)⟩
  have apart : ∀ {cx io ev v₁ v₂}, Reading cx d.view io (.ready (some (.ok ev))) v₁ →
      ¬ Reading cx d.view io .pending v₂ := by
    intro cx io ev v₁ v₂ a b
    cases (reading_one a b ok1 ok2).2
  have away : ∀ {cx pf io ev v₁ v₂}, Reading cx d.view io (.ready (some (.ok ev))) v₁ →
      (pf = false → d.inbox = []) → d.inbox ≠ [] → ¬ Looked cx d.view pf io v₂ := by
    intro cx pf io ev v₁ v₂ a b c h
    cases h with
    | no => exact c (b rfl)
    | yes h => exact apart a h
  have differ : ∀ {y : Waiting}, d.doing = y → Waiting.select ≠ y → False :=
    fun b c => c (hsel.symm.trans b)
  intro hs
  rcases h with ⟨ev, r, v', h1, h2, h3⟩ | ⟨p, rest, v', h1, h2, h3, h4⟩
  · cases hs with
    | event _ _ b3 b4 =>
      cases (reading_one h2 b3 ok1 ok1).2
      exact b4 _ h3
    | ignores _ b2 b3 => exact away h2 h1 (by rw [b2]; simp) b3
    | takes _ b2 b3 => exact away h2 h1 (by rw [b2]; simp) b3
    | idle _ _ b3 => exact apart h2 b3
    | waits b1 => exact differ b1 (by simp)
    | hands b1 => exact differ b1 (by simp)
    | sending b1 => exact differ b1 (by simp)
    | sent b1 => exact differ b1 (by simp)
  · cases hs with
    | event _ b2 b3 => exact away b3 b2 (by rw [h1]; simp) h2
    | ignores _ b2 _ _ b5 => rw [h1] at b2; cases b2; exact h4 (b5 h3)
    | takes _ b2 _ b4 =>
      rw [h1] at b2; cases b2
      cases b4 with
      | arm a lv _ _ hl => exact h4 ((utf8Valid_iff _).mp (level_text hl))
    | idle _ b2 => rw [h1] at b2; cases b2
    | waits b1 => exact differ b1 (by simp)
    | hands b1 => exact differ b1 (by simp)
    | sending b1 => exact differ b1 (by simp)
    | sent b1 => exact differ b1 (by simp)

/-- Non-vacuity: a zone change is published and a command is handed over and written. -/
example : ∃ x, (Bridge.start sampleCfg (samplePanel []) >>= fun b =>
      Bridge.run [.arrive (.data (msgBytes (.zoneChange ⟨⟨1⟩, ⟨9⟩⟩))), .tick ⟨1, 0, 0⟩ false,
        .deliver ⟨bs "elkm1/42/area/home/ha_command", bs "ARM_AWAY"⟩, .tick ⟨1, 0, 0⟩ true,
        .tick ⟨1, 0, 0⟩ true, .writable (.accept 100), .tick ⟨1, 0, 0⟩ true] b) = .ok x ∧
    decide ((handled x.1).length = 1 ∧ (published x.1).length = 2 ∧
      x.2.panel.conn.sock.sent = bs "0Da11001234003F\r\n") = true :=
  of_holds (by decide +kernel)

/-- Non-vacuity: bytes that are not text end the bridge. -/
example : (match Bridge.start sampleCfg (samplePanel []) with
    | .ok b => match Bridge.run [.deliver ⟨bs "elkm1/42/area/home/ha_command", [255]⟩,
          .tick ⟨1, 0, 0⟩ true] b with
      | .error .expect => true
      | _ => false
    | .error _ => false) = true := by decide +kernel

end Elk.Props
