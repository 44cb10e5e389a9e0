import Verif.Lemmas.DebugMsg
import Verif.Spec.Debug
import Verif.Props.InitRun
/-!
# Properties of what is logged and printed
-/

namespace Elk.Props
open Spec

/-! ## C105: logging never panics -/

/-- **C105** `{:?}` of a well-formed message does not panic. -/
theorem C105_message (m : Message) (h : WfMessage m) : ∃ d, m.debug = .ok d :=
  (message_shown h).imp fun _ h => h.1

/-- **C105** In particular of every message that is parsed from a valid packet. -/
theorem C105_parsed (p : Packet) (m : Message) (hp : ValidPacket p)
    (h : Message.parse p = .ok (some m)) : ∃ d, m.debug = .ok d :=
  C105_message m (C19_parsed_wellformed p m hp h)

theorem change_shown {ev : Event} (h : WfEvent ev) :
    ∃ d, Dbg.opt Change.debug ev.change = .ok d ∧ d.Fine := by
  refine opt_ok fun c hc => ?_
  cases c with
  | zoneChange z s =>
    obtain ⟨x, h1, h2⟩ := zone_fine (h.prior z s hc)
    unfold Change.debug
    dsimp only
    rw [h1]
    refine ⟨_, rfl, struct_fine (by decide) (by simp) ?_⟩
    simp only [List.mem_cons, List.not_mem_nil, or_false]
    rintro f (rfl | rfl)
    · exact ⟨by dsimp only; decide, limited_fine _⟩
    · exact ⟨by dsimp only; decide, h2⟩
  | armingStatus r => exact ⟨_, rfl, single_fine (by decide) (by decide) (asr_fine r)⟩

theorem packet_shown (p : Packet) : p.debug.Fine := by
  have hex : ∀ b, (Dbg.hex b).Fine := fun b => by rw [Dbg.Fine]; trivial
  cases p with
  | ascii p => exact wrap_fine (by decide) (wrap_fine (by decide) (str_fine _))
  | rp p => exact wrap_fine (by decide) (wrap_fine (by decide) (hex _))
  | invalid p =>
    refine wrap_fine (by decide) (struct_fine (by decide) (by simp) ?_)
    simp only [List.mem_cons, List.not_mem_nil, or_false]
    rintro f (rfl | rfl)
    · exact ⟨by dsimp only; decide, str_fine _⟩
    · exact ⟨by dsimp only; decide, hex _⟩

theorem result_shown {r : Except Bytes Message} (h : ∀ m, r = .ok m → WfMessage m) :
    ∃ d, debugResult r = .ok d ∧ d.Fine := by
  cases r with
  | error e => exact ⟨_, rfl, wrap_fine (by decide) (wrap_fine (by decide) (str_fine _))⟩
  | ok m =>
    obtain ⟨d, h1, h2⟩ := message_shown (h m rfl)
    unfold debugResult
    dsimp only
    rw [h1]
    exact ⟨_, rfl, wrap_fine (by decide) h2⟩

theorem event_shown {ev : Event} (h : WfEvent ev) : ∃ d, ev.debug = .ok d ∧ d.Fine := by
  obtain ⟨d1, h1, f1⟩ := opt_ok (f := fun p => .ok (Packet.debug p)) (o := ev.pkt)
    fun p _ => ⟨_, rfl, packet_shown p⟩
  obtain ⟨d2, h2, f2⟩ := opt_ok (f := debugResult) (o := ev.msg)
    fun r hr => result_shown fun m hm => h.msg m (by rw [hr, hm])
  obtain ⟨d3, h3, f3⟩ := opt_ok (f := Message.debug) (o := ev.completes)
    fun m hm => message_shown (h.completes m hm)
  obtain ⟨d4, h4, f4⟩ := change_shown h
  unfold Event.debug
  rw [h1, h2, h3, h4]
  refine ⟨_, rfl, struct_fine (by decide) (by simp) ?_⟩
  simp only [List.mem_cons, List.not_mem_nil, or_false]
  rintro f (rfl | rfl | rfl | rfl)
  · exact ⟨by dsimp only; decide, f1⟩
  · exact ⟨by dsimp only; decide, f2⟩
  · exact ⟨by dsimp only; decide, f3⟩
  · exact ⟨by dsimp only; decide, f4⟩

/-- What `interpret` returns. -/
theorem interp_event {p p1 : Panel} {now pkt ev w} (h : InterpCase p now pkt (ev, w, p1))
    (hw : WfZones p.state) :
    (∀ m, ev.msg = some (.ok m) → WfMessage m) ∧
    ∀ z s, ev.change = some (.zoneChange z s) → WfZoneStatus s := by
  cases h with
  | bad e _ => exact ⟨fun _ h => (by cases h), fun _ _ h => (by cases h)⟩
  | skip _ => exact ⟨fun _ h => (by cases h), fun _ _ h => (by cases h)⟩
  | msg m ch q comp w _ _ hm ht _ =>
    refine ⟨fun _ h => by cases h; exact hm, fun z s h => ?_⟩
    dsimp only at h
    subst h
    generalize hc : some (Change.zoneChange z s) = c at ht
    cases ht with
    | zcSet m zs i hi hz he =>
      split at hc
      · injection hc with hc
        injection hc with h1 h2
        subst h2
        exact hw zs hz _ (Vector.mem_toList_iff.mpr (Vector.getElem_mem hi))
      · cases hc
    | _ => cases hc

/-- What a step of a panel returns. -/
theorem step_event {p p1 : Panel} {op o} (h : StepCase p op (o, p1)) (hw : WfZones p.state)
    {ev : Event} (he : eventOf o = some ev) :
    (∀ m, ev.msg = some (.ok m) → WfMessage m) ∧
    ∀ z s, ev.change = some (.zoneChange z s) → WfZoneStatus s := by
  cases h with
  | next _ new _ _ _ hn =>
    cases hn with
    | packet pkt c ev' w _ _ hi =>
      cases he
      exact interp_event hi hw
    | fire c pa prior _ _ _ _ =>
      cases he
      exact ⟨fun _ h => (by cases h), fun _ _ h => (by cases h)⟩
    | _ => cases he
  | _ => cases he

theorem hist_event {p p' : Panel} {ops outs} (h : Hist p ops outs p') (hw : WfZones p.state) :
    ∀ ev ∈ events outs, (∀ m, ev.msg = some (.ok m) → WfMessage m) ∧
      ∀ z s, ev.change = some (.zoneChange z s) → WfZoneStatus s := by
  induction h with
  | nil _ => intro ev h; cases h
  | cons _ hc _ ih =>
    intro ev hev
    unfold events at hev
    rw [List.mem_filterMap] at hev
    obtain ⟨o, ho, he⟩ := hev
    rcases List.mem_cons.mp ho with rfl | ho
    · exact step_event hc hw he
    · exact ih (step_wf hc hw) ev (List.mem_filterMap.mpr ⟨o, ho, he⟩)

/-- The events of a panel to which well-formed commands were sent are well-formed. -/
theorem events_wf {p0 p : Panel} (hc : Connected p0) (hw : WfView p0) {ops : List Op}
    {outs : List Out} (hr : Panel.run ops p0 = .ok (outs, p)) (hcmd : ∀ c ∈ commands ops, WfCommand c) :
    ∀ ev ∈ events outs, WfEvent ev := by
  intro ev hev
  have hh := hist_of_run (connected_good hc) hr
  obtain ⟨h1, h2⟩ := hist_event hh (wfView_iff.mp hw) ev hev
  refine ⟨h1, fun m hm => ?_, h2⟩
  obtain ⟨o, hf⟩ := C40_flow hc hr
  have ha := flow_account hf
  have hl : ops.length = outs.length := (run_length hr).symm
  rw [List.map_fst_zip (by omega), List.map_snd_zip (by omega)] at ha
  have : m ∈ completions outs := List.mem_filterMap.mpr ⟨ev, hev, hm⟩
  have : m ∈ (commands ops).map Command.intoMsg := by
    have h3 : m ∈ completions outs ++ o.toList := List.mem_append_left _ this
    rw [← ha] at h3
    simpa using h3
  obtain ⟨c, hc1, rfl⟩ := List.mem_map.mp this
  exact hcmd c hc1

/-- **C105** In every history of a panel that is connected, `{:?}` of every event it yields is a text:
logging events (as the MQTT bridge and the library do) does not panic. -/
theorem C105_event {p0 p : Panel} (hc : Connected p0) (hw : WfView p0) {ops : List Op}
    {outs : List Out} (hr : Panel.run ops p0 = .ok (outs, p)) (hcmd : ∀ c ∈ commands ops, WfCommand c) :
    ∀ ev ∈ events outs, ∃ d, ev.debug = .ok d :=
  fun ev hev => (event_shown (events_wf hc hw hr hcmd ev hev)).imp fun _ h => h.1

/-- While connecting no command is outstanding. -/
theorem interp_idle {p p1 : Panel} {now pkt ev w} (h : InterpCase p now pkt (ev, w, p1))
    (hi : p.cmdState = .idle) : ev.completes = none := by
  cases h with
  | bad e _ => rfl
  | skip _ => rfl
  | msg m ch q comp w _ _ hm ht hc =>
    have hq := (track_keeps ht).2.1
    cases hc with
    | done r f w h _ => rw [hq, hi] at h; cases h
    | busy r f w h _ => rfl
    | idle _ => rfl

theorem ihist_events {ph ph' : Phase} {ops outs} (h : IHist ph ops outs ph') (hw : PhaseWf ph) :
    ∀ ev ∈ gotten outs, WfEvent ev := by
  induction h with
  | nil _ => intro ev h; cases h
  | finished _ => intro ev h; cases h
  | @cons i op o ph ops os ph' hg hc _ ih =>
    intro ev hev
    rw [gotten_cons] at hev
    rcases List.mem_append.mp hev with hev | hev
    · have key : ∀ {c : Connection} {now pkt e w p'},
          InterpCase { i.panel with conn := c } now pkt (e, w, p') → WfEvent e := by
        intro c now pkt e w p' hi
        obtain ⟨h1, h2⟩ := interp_event hi hw
        exact ⟨h1, fun m hm => (by rw [interp_idle hi hg.idle] at hm; cases hm), h2⟩
      have hgot : ∀ {e : Event}, ev ∈ gotten [Obs.got e] → ev = e := by
        intro e h
        simpa [gotten] using h
      cases hc with
      | arrive r => cases hev
      | writable r => cases hev
      | tick cx _ ht =>
        cases ht with
        | other c new pkt e w p' _ _ hi _ => rw [hgot hev]; exact key hi
        | reply c new pkt e w p' m _ _ _ hi _ _ _ => rw [hgot hev]; exact key hi
        | _ => cases hev
    · exact ih (init_wf hc hw) ev hev

/-- The question that is waited for is the one asked last. -/
theorem waiting_last {s x : Talk} {outs : List Obs} (h : Dialogue s outs x) {q : Message}
    (hx : x = .waiting q) : (questions outs).getLast? = some q ∨
      questions outs = [] ∧ s = .waiting q := by
  induction h with
  | nil => exact .inr ⟨rfl, hx⟩
  | @ask q' l x _ ih =>
    rw [questions_cons]
    refine .inl ?_
    rcases ih hx with h | ⟨h, h'⟩
    · rw [List.getLast?_append, h]; rfl
    · cases h'; rw [h]; rfl
  | reply _ _ _ _ ih =>
    rcases ih hx with h | ⟨_, h'⟩
    · exact .inl h
    · cases h'
  | last _ _ _ => cases hx
  | other _ _ ih => exact ih hx
  | flushed _ ih => exact ih hx
  | pending _ ih => exact ih hx
  | env _ ih => exact ih hx
  | failed => cases hx

/-- **C105** While connecting, everything that is logged can be shown: the questions and the events.
If the stream ends, the error is a text that names the question asked last. -/
theorem C105_connecting (c : Connection) (hc : Fresh c) (ops : List InitOp) (outs : List Obs)
    (ph : Phase) (h : Init.connect c ops = .ok (outs, ph)) :
    (∀ ev ∈ gotten outs, ∃ d, ev.debug = .ok d) ∧ (∀ q ∈ questions outs, ∃ d, q.debug = .ok d) ∧
    ∀ i cx c', ph = .asking i → i.await = .reply →
      i.panel.conn.pollNext cx = .ok (.ready none, c') →
      i.tick cx = .ok (.failed .unexpectedEof, .finished (.error .unexpectedEof)) ∧
      ∃ q d, (questions outs).getLast? = some q ∧ q.debug = .ok d ∧
        i.eofText = .ok (bs "EOF while expecting reply to " ++ d.text) := by
  have hh := connect_hist hc h
  refine ⟨fun ev hev => (event_shown (ihist_events hh ?_ ev hev)).imp fun _ h => h.1, ?_, ?_⟩
  · intro z hz
    cases hz
  · intro q hq
    have hall : ∀ q ∈ allQuestions, WfMessage q := by
      intro q hq
      simp only [allQuestions, List.mem_append, List.mem_cons, List.not_mem_nil, or_false,
        List.mem_map] at hq
      rcases hq with (((rfl | rfl) | ⟨n, _, rfl⟩) | ⟨n, _, rfl⟩) | ⟨n, _, rfl⟩ <;> trivial
    exact C105_message q (hall q ((C37_questions c hc ops outs ph h).1.subset hq))
  · intro i cx c' hp ha hn
    subst hp
    constructor
    · unfold Init.tick
      rw [ha]
      dsimp only
      rw [hn]
      rfl
    · have hd := dialogue_of_hist hh
      rw [talk_wait (.inr ha), talk_asking] at hd
      rcases waiting_last hd rfl with hl | ⟨_, h'⟩
      · have hg : InitGood i := hh.good
        obtain ⟨d, h1⟩ := C105_message i.send (by rw [hg.send]; exact stageQ_wf _)
        refine ⟨_, d, hl, h1, ?_⟩
        unfold Init.eofText
        rw [h1]
        rfl
      · cases h'

/-- Non-vacuity: the panel hangs up before its first answer. -/
example : ∃ x, (do
    let (_, ph) ← Init.connect {} ([InitOp.writable (.accept 1000), .arrive .eof] ++ sampleTicks 2)
    match ph with
    | .asking i => i.eofText
    | _ => .error .unreachable) = .ok x ∧
    decide (x = bs "EOF while expecting reply to ArmingStatusRequest(ArmingStatusRequest)") = true :=
  of_holds (by decide +kernel)

/-- **C105** It takes values that break their own types' rules (C30): an arm code, a description and a
zone status read from JSON can make `{:?}` panic. -/
theorem C105_forged : (∃ v, (ArmCode.deserialize v).debug = .error .expect) ∧
    (∃ v, (TextDescription.deserialize v).debug = .error .expect) ∧
    ∃ v, (ZoneStatus.deserialize v).debugTree = .error .unreachable :=
  ⟨⟨Vector.replicate 6 255, rfl⟩, ⟨Vector.replicate 16 255, rfl⟩, ⟨16, rfl⟩⟩

/-- Non-vacuity: what is shown of a zone change. -/
example : ∃ d, (Message.zoneChange ⟨⟨1⟩, ⟨9⟩⟩).debug = .ok d ∧
    decide (d.text = bs "ZoneChange(ZoneChange { zone: 1, status: ZoneStatus(Violated, Open) })") =
      true :=
  of_holds (by decide +kernel)

/-- Non-vacuity: and of an arm request. -/
example : ∃ d, (Message.armRequest ⟨⟨1⟩, .armedAway, ⟨#v[48, 49, 50, 51, 52, 53]⟩⟩).debug = .ok d ∧
    decide (d.text =
      bs "ArmRequest(ArmRequest { area: 1, level: ArmedAway, code: \"012345\" })") = true :=
  of_holds (by decide +kernel)

/-! ## C106: what is logged tells messages and events apart -/

theorem text_eq {t u : Dbg} (ht : t.Fine) (hu : u.Fine) (h : t.text = u.text) : t = u :=
  (text_cancel t u (x := []) (y := []) ht hu trivial trivial (by rw [h])).1

/-- **C106** Different well-formed messages are shown differently. -/
theorem C106_message {m m' : Message} (hm : WfMessage m) (hm' : WfMessage m') {d d' : Dbg}
    (h : m.debug = .ok d) (h' : m'.debug = .ok d') (ht : d.text = d'.text) : m = m' := by
  obtain ⟨x, h1, h2⟩ := message_shown hm
  obtain ⟨x', h1', h2'⟩ := message_shown hm'
  rw [h] at h1; cases h1
  rw [h'] at h1'; cases h1'
  have := text_eq h2 h2' ht
  subst this
  exact message_told hm hm' h h'

theorem packet_told {p p' : Packet} (h : p.debug = p'.debug) : p = p' := by
  cases p with
  | ascii p =>
    cases p' with
    | ascii p' =>
      have h := (wrap_inj (wrap_inj h).2).2
      injection h with h
      obtain ⟨b⟩ := p
      obtain ⟨b'⟩ := p'
      have h : b = b' := h
      rw [h]
    | rp p' => exact absurd (wrap_inj h).1 (by decide)
    | invalid p' => exact absurd (wrap_inj h).1 (by decide)
  | rp p =>
    cases p' with
    | ascii p' => exact absurd (wrap_inj h).1 (by decide)
    | rp p' =>
      have h := (wrap_inj (wrap_inj h).2).2
      injection h with h
      obtain ⟨b⟩ := p
      obtain ⟨b'⟩ := p'
      have h : b = b' := h
      rw [h]
    | invalid p' => exact absurd (wrap_inj h).1 (by decide)
  | invalid p =>
    cases p' with
    | ascii p' => exact absurd (wrap_inj h).1 (by decide)
    | rp p' => exact absurd (wrap_inj h).1 (by decide)
    | invalid p' =>
      have h := struct_inj (wrap_inj h).2
      simp only [List.map_cons, List.map_nil, List.cons.injEq, and_true] at h
      obtain ⟨h1, h2⟩ := h
      injection h1 with h1
      injection h2 with h2
      obtain ⟨_, _⟩ := p
      obtain ⟨_, _⟩ := p'
      simp_all

/-- **C106** Different packets are shown differently. -/
theorem C106_packet {p p' : Packet} (h : p.debug.text = p'.debug.text) : p = p' :=
  packet_told (text_eq (packet_shown p) (packet_shown p') h)

theorem result_told {r r' : Except Bytes Message} (hr : ∀ m, r = .ok m → WfMessage m)
    (hr' : ∀ m, r' = .ok m → WfMessage m) {d : Dbg} (h : debugResult r = .ok d)
    (h' : debugResult r' = .ok d) : r = r' := by
  cases r with
  | error e =>
    cases h
    cases r' with
    | error e' =>
      injection h' with h'
      have h := (wrap_inj (wrap_inj h').2).2
      injection h with h
      rw [h]
    | ok m =>
      obtain ⟨x, _, h'⟩ := P_bind_ok.mp h'
      injection h' with h'
      exact absurd (wrap_inj h').1 (by decide)
  | ok m =>
    obtain ⟨x, h1, h⟩ := P_bind_ok.mp h
    cases h
    cases r' with
    | error e' =>
      injection h' with h'
      exact absurd (wrap_inj h').1 (by decide)
    | ok m' =>
      obtain ⟨x', h1', h'⟩ := P_bind_ok.mp h'
      injection h' with h'
      obtain ⟨_, rfl⟩ := wrap_inj h'
      rw [message_told (hr m rfl) (hr' m' rfl) h1 h1']

theorem struct_name {name name' : String} {l l' : List (String × Dbg)}
    (h : Dbg.struct name l = Dbg.struct name' l') : bs name = bs name' := by
  unfold Dbg.struct at h
  injection h

theorem change_told {c c' : Change} (hc : ∀ z s, c = .zoneChange z s → WfZoneStatus s)
    (hc' : ∀ z s, c' = .zoneChange z s → WfZoneStatus s) {d : Dbg} (h : c.debug = .ok d)
    (h' : c'.debug = .ok d) : c = c' := by
  cases c with
  | zoneChange z s =>
    obtain ⟨x, h1, h⟩ := P_bind_ok.mp h
    cases h
    cases c' with
    | zoneChange z' s' =>
      obtain ⟨x', h1', h'⟩ := P_bind_ok.mp h'
      injection h' with h'
      have h := struct_inj h'
      simp only [List.map_cons, List.map_nil, List.cons.injEq, and_true] at h
      obtain ⟨h2, rfl⟩ := h
      rw [zone_inj (hc z s rfl) (hc' z' s' rfl) h1 h1', limited_inj h2]
    | armingStatus r =>
      injection h' with h'
      exact absurd (struct_name h') (by decide)
  | armingStatus r =>
    cases h
    cases c' with
    | zoneChange z' s' =>
      obtain ⟨x', h1', h'⟩ := P_bind_ok.mp h'
      injection h' with h'
      exact absurd (struct_name h') (by decide)
    | armingStatus r' =>
      injection h' with h'
      have h := struct_inj h'
      simp only [List.map_cons, List.map_nil, List.cons.injEq, and_true] at h
      rw [asr_inj h]

/-- **C106** Different well-formed events are shown differently. -/
theorem C106_event {e e' : Event} (he : WfEvent e) (he' : WfEvent e') {d d' : Dbg}
    (h : e.debug = .ok d) (h' : e'.debug = .ok d') (ht : d.text = d'.text) : e = e' := by
  obtain ⟨x, h1, h2⟩ := event_shown he
  obtain ⟨x', h1', h2'⟩ := event_shown he'
  rw [h] at h1; cases h1
  rw [h'] at h1'; cases h1'
  have := text_eq h2 h2' ht
  subst this
  unfold Event.debug at h h'
  obtain ⟨a1, k1, h⟩ := P_bind_ok.mp h
  obtain ⟨a2, k2, h⟩ := P_bind_ok.mp h
  obtain ⟨a3, k3, h⟩ := P_bind_ok.mp h
  obtain ⟨a4, k4, h⟩ := P_bind_ok.mp h
  obtain ⟨b1, l1, h'⟩ := P_bind_ok.mp h'
  obtain ⟨b2, l2, h'⟩ := P_bind_ok.mp h'
  obtain ⟨b3, l3, h'⟩ := P_bind_ok.mp h'
  obtain ⟨b4, l4, h'⟩ := P_bind_ok.mp h'
  cases h
  injection h' with h'
  have h := struct_inj h'
  simp only [List.map_cons, List.map_nil, List.cons.injEq, and_true] at h
  obtain ⟨rfl, rfl, rfl, rfl⟩ := h
  have e1 : e.pkt = e'.pkt := opt_inj (fun a a' y _ _ ha ha' => by
    rw [← ha'] at ha
    injection ha with ha
    exact packet_told ha) k1 l1
  have e2 : e.msg = e'.msg := opt_inj (fun a a' y ho ho' ha ha' =>
    result_told (fun m hm => he.msg m (by rw [ho, hm])) (fun m hm => he'.msg m (by rw [ho', hm]))
      ha ha') k2 l2
  have e3 : e.completes = e'.completes := opt_inj (fun a a' y ho ho' ha ha' =>
    message_told (he.completes a ho) (he'.completes a' ho') ha ha') k3 l3
  have e4 : e.change = e'.change := opt_inj (fun a a' y ho ho' ha ha' =>
    change_told (fun z s hz => he.prior z s (by rw [ho, hz]))
      (fun z s hz => he'.prior z s (by rw [ho', hz])) ha ha') k4 l4
  obtain ⟨_, _, _, _⟩ := e
  obtain ⟨_, _, _, _⟩ := e'
  simp_all

/-- **C106** So in two histories of panels that are connected, events shown alike are the same. -/
theorem C106_log {p0 p q0 q : Panel} (hp : Connected p0) (hp' : WfView p0) (hq : Connected q0)
    (hq' : WfView q0) {ops ops' : List Op} {outs outs' : List Out}
    (hr : Panel.run ops p0 = .ok (outs, p)) (hr' : Panel.run ops' q0 = .ok (outs', q))
    (hc : ∀ c ∈ commands ops, WfCommand c) (hc' : ∀ c ∈ commands ops', WfCommand c)
    {e e' : Event} (he : e ∈ events outs) (he' : e' ∈ events outs') {d d' : Dbg}
    (h : e.debug = .ok d) (h' : e'.debug = .ok d') (ht : d.text = d'.text) : e = e' :=
  C106_event (events_wf hp hp' hr hc e he) (events_wf hq hq' hr' hc' e' he') h h' ht

/-! ## C107: `read` -/

theorem line_follows (x : Bytes) : Follows ([0x0a] ++ x) :=
  ⟨by decide, by decide, by decide, fun h => absurd h (by decide)⟩

/-- The kind of a packet is the first letter of what is shown. -/
theorem packet_letter (p : Packet) : p.debug.text.head? = some (b' 'A') ∨
    p.debug.text.head? = some (b' 'R') ∨ p.debug.text.head? = some (b' 'I') := by
  cases p with
  | ascii p =>
    left
    unfold Packet.debug Dbg.wrap
    dsimp only
    rw [Dbg.text]
    simp only [List.append_assoc]
    rfl
  | rp p =>
    right; left
    unfold Packet.debug Dbg.wrap
    dsimp only
    rw [Dbg.text]
    simp only [List.append_assoc]
    rfl
  | invalid p =>
    right; right
    unfold Packet.debug Dbg.wrap
    dsimp only
    rw [Dbg.text]
    simp only [List.append_assoc]
    rfl

theorem printed_ne (p : Packet) (left x y : Bytes) :
    Printed.text (.packet p) ++ x ≠ Printed.text (.incomplete left) ++ y := by
  intro h
  have h1 := congrArg List.head? h
  unfold Printed.text at h1
  dsimp only at h1
  simp only [List.append_assoc] at h1
  have h1 : (p.debug.text ++ ([10] ++ x)).head? = some (b' 'i') := h1
  have h2 := packet_letter p
  cases ht : p.debug.text with
  | nil => rw [ht] at h2; revert h2; decide
  | cons c l =>
    rw [ht] at h1 h2
    simp only [List.cons_append, List.head?_cons] at h1 h2
    rw [h1] at h2
    revert h2
    decide

theorem printed_cancel {a b : Printed} {x y : Bytes} (h : a.text ++ x = b.text ++ y) :
    a = b ∧ x = y := by
  cases a with
  | packet p =>
    cases b with
    | packet q =>
      unfold Printed.text at h
      dsimp only at h
      rw [List.append_assoc, List.append_assoc] at h
      obtain ⟨h1, h2⟩ := text_cancel _ _ (packet_shown p) (packet_shown q) (line_follows x)
        (line_follows y) h
      exact ⟨by rw [packet_told h1], List.append_cancel_left h2⟩
    | incomplete l => exact absurd h (printed_ne p l x y)
  | incomplete l =>
    cases b with
    | packet q => exact absurd h.symm (printed_ne q l y x)
    | incomplete l' =>
      unfold Printed.text at h
      dsimp only at h
      simp only [List.append_assoc] at h
      obtain ⟨h1, h2⟩ := hexDump_cancel (List.append_cancel_left h)
      exact ⟨by rw [h1], List.append_cancel_left h2⟩

theorem printed_ne_nil (a : Printed) : a.text ≠ [] := by
  cases a <;> (unfold Printed.text; dsimp only; simp)

theorem lines_inj : ∀ {l l' : List Printed}, l.flatMap Printed.text = l'.flatMap Printed.text → l = l'
  | [], [], _ => rfl
  | [], b :: l', h => by
    rw [List.flatMap_nil, List.flatMap_cons] at h
    exact absurd (List.append_eq_nil_iff.mp h.symm).1 (printed_ne_nil b)
  | a :: l, [], h => by
    rw [List.flatMap_nil, List.flatMap_cons] at h
    exact absurd (List.append_eq_nil_iff.mp h).1 (printed_ne_nil a)
  | a :: l, b :: l', h => by
    rw [List.flatMap_cons, List.flatMap_cons] at h
    obtain ⟨h1, h2⟩ := printed_cancel h
    rw [h1, lines_inj h2]

/-- The packets and the rest among the lines. -/
theorem split_lines {ps qs : List Packet} {l m : Bytes}
    (h : ps.map Printed.packet ++ (if l = [] then [] else [Printed.incomplete l]) =
      qs.map Printed.packet ++ (if m = [] then [] else [Printed.incomplete m])) : ps = qs ∧ l = m := by
  induction ps generalizing qs with
  | nil =>
    cases qs with
    | nil =>
      refine ⟨rfl, ?_⟩
      simp only [List.map_nil, List.nil_append] at h
      split at h <;> split at h
      · rename_i h1 h2; rw [h1, h2]
      · cases h
      · cases h
      · injection h with h; injection h
    | cons q qs =>
      rw [List.map_nil, List.map_cons] at h
      split at h
      · cases h
      · injection h with h; cases h
  | cons p ps ih =>
    cases qs with
    | nil =>
      rw [List.map_nil, List.map_cons] at h
      split at h
      · split at h
        · cases h
        · injection h with h; cases h
      · split at h
        · cases h
        · injection h with h; cases h
    | cons q qs =>
      rw [List.map_cons, List.map_cons] at h
      injection h with h1 h2
      injection h1 with h1
      obtain ⟨h3, h4⟩ := ih h2
      exact ⟨by rw [h1, h3], h4⟩

/-- **C107** `read` writes a text for every file, and from the text the file can be told, byte by
byte: no two files are shown alike. -/
theorem C107_read (f : Bytes) : (∃ t, Cli.output (.ok f) = .ok t) ∧
    ∀ g t, Cli.output (.ok f) = .ok t → Cli.output (.ok g) = .ok t → f = g := by
  obtain ⟨ps, l, ws, _, h1, _, h2, h3⟩ := C54_read f
  refine ⟨⟨_, by unfold Cli.output; rw [h1]; rfl⟩, ?_⟩
  intro g t hf hg
  obtain ⟨qs, m, vs, _, k1, _, k2, k3⟩ := C54_read g
  unfold Cli.output at hf hg
  rw [h1] at hf
  rw [k1] at hg
  cases hf
  injection hg with hg
  obtain ⟨rfl, rfl⟩ := split_lines (lines_inj hg)
  rw [h2] at k2
  cases k2
  rw [← h3, ← k3]

/-- Non-vacuity: what is printed of a file with an invalid packet, a packet and a rest. -/
example : ∃ t, Cli.output (.ok (bs "06zs004D\r\n06zs004E\r\n06")) = .ok t ∧
    decide (t = bs "Ascii(AsciiPacket(\"zs00\"))\n" ++
      bs "Invalid(InvalidPacket { reason: \"ASCII packet doesn't have expected checksum 4D\", " ++
      bs "raw: Length: 10 (0xa) bytes\n" ++
      bs "0000:   30 36 7a 73  30 30 34 45  0d 0a                      06zs004E.. })\n" ++
      bs "incomplete data: Length: 2 (0x2) bytes\n" ++
      bs "0000:   30 36                                                06\n") = true :=
  of_holds (by decide +kernel)

/-! ## C108: JSON and `{:?}` -/

theorem alike_u8 {called} (n : UInt8) : Alike called (.num n.toNat) (.ofU8 n) := .num n

theorem alike_limited {called} {max : Nat} (x : Limited max) : Alike called x.debug x.serialize :=
  .num x.val

/-- The names of variants in JSON are those of the variants in `camelCase`. -/
class Camel (α : Type) [Variants α] [Named α] : Prop where
  name : ∀ a : α, bs (Named.name a) = camelVariant (bs (Variants.variant a))

instance : Camel ArmLevel := ⟨by intro a; cases a <;> decide⟩
instance : Camel TimeDataType := ⟨by intro a; cases a <;> decide⟩
instance : Camel ArmedState := ⟨by intro a; cases a <;> decide⟩
instance : Camel Weekday := ⟨by intro a; cases a <;> decide⟩
instance : Camel ClockDisplayMode := ⟨by intro a; cases a <;> decide⟩
instance : Camel DateDisplayMode := ⟨by intro a; cases a <;> decide⟩
instance : Camel ArmingStatus := ⟨by intro a; cases a <;> decide⟩
instance : Camel ArmUpState := ⟨by intro a; cases a <;> decide⟩
instance : Camel AlarmState := ⟨by intro a; cases a <;> decide⟩
instance : Camel TextDescriptionType := ⟨by intro a; cases a <;> decide⟩

theorem alike_enum {called} {α : Type} [Variants α] [Named α] [Camel α] (a : α) :
    Alike called (Variants.debug a) (ByteEnum.serialize a) := by
  unfold Variants.debug Dbg.unit ByteEnum.serialize
  rw [Camel.name a]
  exact .unit _

theorem alike_items {called} {α : Type} {f : α → Dbg} {g : α → Json} (h : ∀ a, Alike called (f a) (g a)) :
    ∀ l : List α, AlikeItems called (l.map f) (l.map g)
  | [] => .nil
  | a :: l => .cons _ _ _ _ (h a) (alike_items h l)

theorem alike_arr {called} {α : Type} {n : Nat} {f : α → Dbg} {g : α → Json}
    (h : ∀ a, Alike called (f a) (g a)) (v : Vector α n) :
    Alike called (.arr f v) (.ofArr g v) := .seq _ _ (alike_items h _)

theorem alike_field {called : Bytes → Bytes → Bytes} {f : Bytes → Bytes} {k k' : String} {d : Dbg}
    {j : Json} {fields : List (String × Dbg)} {l : List (Bytes × Json)} (hk : bs k' = f (bs k))
    (h : Alike called d j)
    (hl : AlikeFields called f (fields.map fun g => (bs g.1, g.2)) l) :
    AlikeFields called f (((k, d) :: fields).map fun g => (bs g.1, g.2)) ((bs k', j) :: l) := by
  rw [List.map_cons, hk]
  exact .cons _ _ _ _ _ _ h hl

theorem alike_struct {called : Bytes → Bytes → Bytes} {name : String}
    {fields : List (String × Dbg)} {l : List (Bytes × Json)}
    (h : AlikeFields called (called (bs name)) (fields.map fun g => (bs g.1, g.2)) l) :
    Alike called (.struct name fields) (.obj l) := .record _ _ _ h

theorem alike_variant {called : Bytes → Bytes → Bytes} {name k : String} {d : Dbg} {j : Json}
    (hk : bs k = camelVariant (bs name)) (h : Alike called d j) :
    Alike called (.wrap name d) (.variant k j) := by
  unfold Dbg.wrap Json.variant
  rw [hk]
  exact .variant _ _ _ h

theorem alike_zone {called} {s : ZoneStatus} (h : WfZoneStatus s) {d : Dbg}
    (hd : s.debugTree = .ok d) : Alike called d s.serialize := by
  rw [zone_ok h] at hd
  cases hd
  exact .zone s h

theorem alike_rtc (r : RtcData) : Alike usual r.debug r.serialize := by
  refine alike_struct ?_
  refine alike_field (by decide) (.text _) ?_
  refine alike_field (by decide) (alike_enum _) ?_
  refine alike_field (by decide) (.bool _) ?_
  refine alike_field (by decide) (alike_enum _) ?_
  exact alike_field (by decide) (alike_enum _) (.nil _)

theorem alike_asr (m : ArmingStatusReport) : Alike usual m.debug m.serialize := by
  refine alike_struct ?_
  refine alike_field (by decide) (alike_arr alike_enum _) ?_
  refine alike_field (by decide) (alike_arr alike_enum _) ?_
  refine alike_field (by decide) (alike_arr alike_enum _) ?_
  exact alike_field (by decide) (alike_u8 _) (.nil _)

/-- **C108** (partial) The JSON form of a message says the same as its `{:?}`, with the names of
variants and fields in `camelCase`; missing: the fields of `RtcData` keep their names
(`C108_names_false`). -/
theorem C108_message_partial {m : Message} (hm : WfMessage m) {d : Dbg} {j : Json}
    (hd : m.debug = .ok d) (hj : m.serialize = .ok j) : Alike usual d j := by
  cases m with
  | armRequest m =>
    unfold Message.debug ArmRequest.debug at hd
    dsimp only at hd
    rw [code_ok hm.2] at hd
    cases hd; cases hj
    refine alike_variant (by decide) (alike_struct ?_)
    refine alike_field (by decide) (alike_limited _) ?_
    refine alike_field (by decide) (alike_enum _) ?_
    refine alike_field (by decide) ?_ (.nil _)
    have := Alike.padded (called := usual) m.code.code.toList 0
    rw [List.replicate_zero, List.append_nil] at this
    exact this
  | armingStatusRequest => cases hd; cases hj; exact alike_variant (by decide) (.empty _)
  | armingStatusReport m => cases hd; cases hj; exact alike_variant (by decide) (alike_asr m)
  | sendTimeData m =>
    cases hd; cases hj
    refine alike_variant (by decide) (alike_struct ?_)
    refine alike_field (by decide) (alike_limited _) ?_
    refine alike_field (by decide) (alike_enum _) ?_
    refine alike_field (by decide) (alike_u8 _) ?_
    refine alike_field (by decide) (alike_u8 _) ?_
    refine alike_field (by decide) ?_ (.nil _)
    cases m.armedState with
    | none => exact .none
    | some s => exact .some _ _ (alike_enum s)
  | sendCode m =>
    cases hd; cases hj
    refine alike_variant (by decide) (alike_struct ?_)
    refine alike_field (by decide) (alike_arr alike_u8 _) ?_
    refine alike_field (by decide) (alike_u8 _) ?_
    exact alike_field (by decide) (alike_limited _) (.nil _)
  | rtcRequest => cases hd; cases hj; exact alike_variant (by decide) (.empty _)
  | rtcResponse r =>
    cases hd; cases hj
    refine alike_variant (by decide) (alike_struct ?_)
    exact alike_field (by decide) (alike_rtc r) (.nil _)
  | stringDescriptionRequest m =>
    cases hd; cases hj
    refine alike_variant (by decide) (alike_struct ?_)
    refine alike_field (by decide) (alike_enum _) ?_
    exact alike_field (by decide) (alike_u8 _) (.nil _)
  | stringDescriptionResponse m =>
    unfold Message.debug StringDescriptionResponse.debug TextDescription.debug at hd
    dsimp only at hd
    rw [asStr_wf hm] at hd
    cases hd; cases hj
    refine alike_variant (by decide) (alike_struct ?_)
    refine alike_field (by decide) (alike_enum _) ?_
    refine alike_field (by decide) (alike_u8 _) ?_
    refine alike_field (by decide) ?_ (.nil _)
    obtain ⟨⟨n, hn⟩, _⟩ := trimEnd_spec m.text.text.toList
    have := Alike.padded (called := usual) (trimEndSpaces m.text.text.toList) n
    have he : trimEndSpaces m.text.text.toList ++ List.replicate n (b' ' ') = m.text.text.toList :=
      hn.symm
    rw [he] at this
    exact this
  | activateTask t =>
    cases hd; cases hj
    refine alike_variant (by decide) (alike_struct ?_)
    exact alike_field (by decide) (alike_limited _) (.nil _)
  | taskChange t =>
    cases hd; cases hj
    refine alike_variant (by decide) (alike_struct ?_)
    exact alike_field (by decide) (alike_limited _) (.nil _)
  | heartbeat r =>
    cases hd; cases hj
    refine alike_variant (by decide) (alike_struct ?_)
    exact alike_field (by decide) (alike_rtc r) (.nil _)
  | zoneChange m =>
    unfold Message.debug ZoneChange.debug at hd
    dsimp only at hd
    obtain ⟨x, hx, hd⟩ := P_bind_ok.mp hd
    cases hd; cases hj
    obtain ⟨y, hy, hx⟩ := P_bind_ok.mp hx
    cases hx
    refine alike_variant (by decide) (alike_struct ?_)
    refine alike_field (by decide) (alike_limited _) ?_
    exact alike_field (by decide) (alike_zone hm.2 hy) (.nil _)
  | zoneStatusRequest => cases hd; cases hj; exact alike_variant (by decide) (.empty _)
  | zoneStatusReport m => cases hj

theorem alike_packet (p : Packet) : Alike usual p.debug p.serialize := by
  cases p with
  | ascii p => exact alike_variant (by decide) (.newtype _ _ _ (by simp) (.text _))
  | rp p => exact alike_variant (by decide) (.newtype _ _ _ (by simp) (.bytes _))
  | invalid p =>
    refine alike_variant (by decide) (alike_struct ?_)
    refine alike_field (by decide) (.text _) ?_
    exact alike_field (by decide) (.bytes _) (.nil _)

theorem alike_result {r : Except Bytes Message} (hr : ∀ m, r = .ok m → WfMessage m) {d : Dbg} {j : Json}
    (hd : debugResult r = .ok d) (hj : serializeResult r = .ok j) : Alike usual d j := by
  cases r with
  | error e =>
    cases hd; cases hj
    exact .result _ _ _ (.inr rfl) (.newtype _ _ _ (by simp) (.text e))
  | ok m =>
    obtain ⟨x, hx, hd⟩ := P_bind_ok.mp hd
    obtain ⟨y, hy, hj⟩ := P_bind_ok.mp hj
    cases hd; cases hj
    exact .result _ _ _ (.inl rfl) (C108_message_partial (hr m rfl) hx hy)

theorem alike_change {c : Change} (hc : ∀ z s, c = .zoneChange z s → WfZoneStatus s) {d : Dbg}
    (hd : c.debug = .ok d) : Alike usual d c.serialize := by
  cases c with
  | zoneChange z s =>
    obtain ⟨x, hx, hd⟩ := P_bind_ok.mp hd
    cases hd
    refine .variantFields (bs "ZoneChange") _ _ ?_
    refine alike_field (k := "zone") (by decide) (alike_limited _) ?_
    exact alike_field (k := "prior") (by decide) (alike_zone (hc z s rfl) hx) (.nil _)
  | armingStatus r =>
    cases hd
    refine .variantFields (bs "ArmingStatus") _ _ ?_
    exact alike_field (k := "prior") (by decide) (alike_asr r) (.nil _)

theorem alike_opt {α : Type} {f : α → P Dbg} {g : α → P Json} {o : Option α} {d : Dbg} {j : Json}
    (h : ∀ a x y, o = some a → f a = .ok x → g a = .ok y → Alike usual x y)
    (hd : Dbg.opt f o = .ok d) (hj : Json.ofOption g o = .ok j) : Alike usual d j := by
  cases o with
  | none => cases hd; cases hj; exact .none
  | some a =>
    obtain ⟨x, hx, hd⟩ := P_bind_ok.mp hd
    cases hd
    exact .some _ _ (h a x j rfl hx hj)

/-- **C108** (partial) The same for events. -/
theorem C108_event_partial {e : Event} (he : WfEvent e) {d : Dbg} {j : Json}
    (hd : e.debug = .ok d) (hj : e.serialize = .ok j) : Alike usual d j := by
  unfold Event.debug at hd
  unfold Event.serialize at hj
  obtain ⟨a1, k1, hd⟩ := P_bind_ok.mp hd
  obtain ⟨a2, k2, hd⟩ := P_bind_ok.mp hd
  obtain ⟨a3, k3, hd⟩ := P_bind_ok.mp hd
  obtain ⟨a4, k4, hd⟩ := P_bind_ok.mp hd
  obtain ⟨b1, l1, hj⟩ := P_bind_ok.mp hj
  obtain ⟨b2, l2, hj⟩ := P_bind_ok.mp hj
  obtain ⟨b3, l3, hj⟩ := P_bind_ok.mp hj
  obtain ⟨b4, l4, hj⟩ := P_bind_ok.mp hj
  cases hd; cases hj
  refine alike_struct ?_
  refine alike_field (by decide) (alike_opt (fun p x y _ hx hy => ?_) k1 l1) ?_
  · cases hx; cases hy; exact alike_packet p
  refine alike_field (by decide) (alike_opt (fun r x y hr hx hy => ?_) k2 l2) ?_
  · exact alike_result (fun m hm => he.msg m (by rw [hr, hm])) hx hy
  refine alike_field (by decide) (alike_opt (fun m x y hm hx hy => ?_) k3 l3) ?_
  · exact C108_message_partial (he.completes m hm) hx hy
  refine alike_field (by decide) (alike_opt (fun c x y hc hx hy => ?_) k4 l4) (.nil _)
  cases hy
  exact alike_change (fun z s hz => he.prior z s (by rw [hc, hz])) hx

/-- **C108** is false of the code: the JSON form of dates is not in `camelCase` throughout. -/
theorem C108_names_false (r : RtcData) : ∃ l, r.serialize = .obj l ∧
    l.map (·.1) = [bs "datetime", bs "weekday", bs "dst", bs "clock_display", bs "date_display"] ∧
    ¬ Alike (fun _ => camelField) r.debug r.serialize := by
  refine ⟨_, rfl, rfl, ?_⟩
  intro h
  unfold RtcData.debug RtcData.serialize Dbg.struct at h
  cases h with
  | record _ _ _ h =>
    have key : ∀ {f : Bytes → Bytes} {fs l}, AlikeFields (fun _ => camelField) f fs l →
        l.map (·.1) = fs.map fun g => f g.1 := by
      intro f fs
      induction fs with
      | nil => intro l h; cases h; rfl
      | cons g fs ih =>
        intro l h
        cases h with
        | cons _ _ _ _ _ _ _ h => rw [List.map_cons, List.map_cons, ih h]
    have h := key h
    simp only [List.map_cons, List.map_nil] at h
    exact absurd h (by decide)

end Elk.Props
