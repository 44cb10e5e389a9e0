import Verif.Lemmas.Json
import Verif.Props.Mqtt
/-!
# Properties of the JSON form of messages and events (C68, C69)
-/

namespace Elk.Props
open Elk.Spec

/-! ## C69: messages and events survive serialisation -/

/-- The messages with a date in them. -/
def HasDate : Message → Prop
  | .rtcResponse _ => True
  | .heartbeat _ => True
  | _ => False

theorem readable_memory {m : Message} (hm : WfMessage m) (hz : ∀ r, m ≠ .zoneStatusReport r) :
    Readable .memory m := by
  cases m with
  | zoneStatusReport r => exact absurd rfl (hz r)
  | rtcResponse r => exact ⟨rfl, hm⟩
  | heartbeat r => exact ⟨rfl, hm⟩
  | _ => trivial

/-- **C69** (partial) Every well-formed message but a zone status report serialises, and what is
written reads back as the message, from memory; without a date in it, also from elsewhere.  Missing:
zone status reports (`C69_zone_report`), dates read from elsewhere (`C69_date_elsewhere`). -/
theorem C69_message_partial (src : Json.Source) (m : Message) (hm : WfMessage m)
    (hz : ∀ r, m ≠ .zoneStatusReport r) (hs : src = .memory ∨ ¬ HasDate m) :
    ∃ j, m.serialize = .ok j ∧ Message.ofJson src j = .ok m := by
  have hr : Readable src m := by
    rcases hs with rfl | hs
    · exact readable_memory hm hz
    · cases m with
      | zoneStatusReport r => exact absurd rfl (hz r)
      | rtcResponse r => exact absurd trivial hs
      | heartbeat r => exact absurd trivial hs
      | _ => trivial
  obtain ⟨j, h1, _, h2⟩ := message_of hr
  exact ⟨j, h1, h2⟩

/-- **C69** (partial) The same for events; for every combination of packet, message, completed request
and change. -/
theorem C69_event_partial (ev : Event)
    (hm : ∀ m, ev.msg = some (.ok m) → WfMessage m ∧ ∀ r, m ≠ .zoneStatusReport r)
    (hc : ∀ m, ev.completes = some m → WfMessage m ∧ ∀ r, m ≠ .zoneStatusReport r) :
    ∃ j, ev.serialize = .ok j ∧ Event.ofJson .memory j = .ok ev :=
  event_of (fun m h => readable_memory (hm m h).1 (hm m h).2)
    (fun m h => readable_memory (hc m h).1 (hc m h).2)

/-- **C69** Different messages are written differently. -/
theorem C69_injective {m m' : Message} (hm : WfMessage m) (hm' : WfMessage m') {j : Json}
    (h : m.serialize = .ok j) (h' : m'.serialize = .ok j) : m = m' := by
  have key : ∀ {m : Message}, WfMessage m → m.serialize = .ok j → Message.ofJson .memory j = .ok m := by
    intro m hm h
    have hz : ∀ r, m ≠ .zoneStatusReport r := by rintro r rfl; cases h
    obtain ⟨j', h1, h2⟩ := C69_message_partial .memory m hm hz (.inl rfl)
    rw [h] at h1; cases h1
    exact h2
  have h1 := key hm h
  rw [key hm' h'] at h1
  cases h1; rfl

/-- **C69** is false of the code for zone status reports: writing one panics (`todo!()`), whatever
the zones, and so does reading whatever calls itself one. -/
theorem C69_zone_report (r : ZoneStatusReport) (src : Json.Source) (j : Json) :
    (Message.zoneStatusReport r).serialize = .error .todo ∧
    Message.ofJson src (.obj [(bs "zoneStatusReport", j)]) = .error (.panic .todo) := by
  refine ⟨rfl, ?_⟩
  unfold Message.ofJson
  rw [show (Json.obj [(bs "zoneStatusReport", j)]).toVariant = .ok (bs "zoneStatusReport", j) from rfl,
    bind_ok]
  dsimp only
  unfold Message.ofVariant
  repeat rw [if_neg (by decide)]
  rw [if_pos rfl]

/-- **C69** is false of the code for dates: no message with a date in it can be read back from a
reader or from a `serde_json::Value`. -/
theorem C69_date_elsewhere (m : Message) (h : HasDate m) :
    ∃ j e, m.serialize = .ok j ∧ Message.ofJson .elsewhere j = .error (.err e) := by
  cases m with
  | rtcResponse r =>
    refine ⟨_, bs "expected a borrowed string", rfl, ?_⟩
    variants
    fields
    unfold RtcData.ofJson RtcData.serialize
    fields
    rfl
  | heartbeat r =>
    refine ⟨_, bs "expected a borrowed string", rfl, ?_⟩
    variants
    fields
    unfold RtcData.ofJson RtcData.serialize
    fields
    rfl
  | _ => exact absurd h id

/-- Non-vacuity: a heartbeat is written and read back. -/
example : ∃ j, (Message.heartbeat ⟨⟨22, 2, 28, 23, 59, 1⟩, .mon, true, .twelveHour, .dayFirst⟩).serialize
    = .ok j ∧ Message.ofJson .memory j =
      .ok (.heartbeat ⟨⟨22, 2, 28, 23, 59, 1⟩, .mon, true, .twelveHour, .dayFirst⟩) :=
  C69_message_partial .memory _ (by unfold WfMessage WfDateTime; decide) (by simp) (.inl rfl)

/-! ## C68: the event topic -/

theorem intoMsg_wf {c : Command} (h : WfCommand c) : WfMessage c.intoMsg := by
  cases c <;> exact h

theorem event_ne_state {pre n pre' : Bytes} : areaStateTopic pre n ≠ eventTopic pre' ∧
    zoneStateTopic pre n ≠ eventTopic pre' :=
  ⟨end_ne (by decide) (by decide) (by decide), end_ne (by decide) (by decide) (by decide)⟩

theorem start_no_event {cfg : Cfg} {p : Panel} (hc : Connected p) (hw : WfView p) {b : Bridge}
    (h : Bridge.start cfg p = .ok b) : b.cfg = cfg ∧ b.panel = p ∧
      ∀ m ∈ b.log, m.topic ≠ eventTopic cfg.prefix := by
  obtain ⟨r, hr⟩ := hc.arming
  obtain ⟨z, hz⟩ := hc.zones
  obtain ⟨_, code, _, rfl⟩ := (start_iff hr hz (hw z hz)).mp h
  refine ⟨rfl, rfl, ?_⟩
  intro m hm
  rcases List.mem_append.mp hm with hm | hm
  · rcases List.mem_append.mp hm with hm | hm
    · rcases List.mem_append.mp hm with hm | hm
      · unfold discoveryLog at hm
        split at hm
        · unfold discoveryMsgs at hm
          rcases List.mem_append.mp hm with h | h <;> obtain ⟨_, _, rfl⟩ := List.mem_map.mp h <;>
            exact end_ne (by decide) (by decide) (by decide)
        · cases hm
      · obtain ⟨n, hn⟩ := areaMsgs_topic hm
        rw [hn]; exact event_ne_state.1
    · obtain ⟨n, hn⟩ := zoneMsgs_topic hm
      rw [hn]; exact event_ne_state.2
  · rw [List.mem_singleton.mp hm]
    exact end_ne (by decide) (by decide) (by decide)

theorem published_one {b b' : Bridge} {op o} (h : BCase b op o b') (hg : BGood b) :
    ∃ js : List Json, (published [o]).filter (fun m => m.topic == eventTopic b.cfg.prefix) =
        js.map (fun j => ⟨eventTopic b.cfg.prefix, false, .json j⟩) ∧
      js.map (Event.ofJson .memory) = (handled [o]).map .ok ∧
      (handled [o]).map Event.serialize = js.map .ok := by
  cases h with
  | event cx pf ev out w panel hw hn hp =>
    rcases publishEvent_iff hg hn with ⟨_, _, h1⟩ | ⟨hz, json, ch, hj, hch, h1⟩
    · rw [h1] at hp; cases hp
    · rw [h1] at hp
      cases hp
      simp only [published, List.flatMap_cons, List.flatMap_nil, List.append_nil]
      refine ⟨[json], ?_, ?_, by simp [handled, hj]⟩
      · rw [List.filter_cons_of_pos (by simp)]
        refine congrArg _ ?_
        rw [List.map_nil, List.filter_eq_nil_iff]
        intro m hm ht
        have hne : ∀ a' ∈ ch, a'.topic ≠ eventTopic b.cfg.prefix := by
          intro x hx
          have hsc := step_cases hg.good.sane (next_step.mpr hn)
          have g' := step_good hg.good hsc
          have w' := step_wf hsc hg.wf
          obtain ⟨a', ha'⟩ := Option.ne_none_iff_exists'.mp g'.has
          obtain ⟨z', hz'⟩ := Option.ne_none_iff_exists'.mp g'.zones
          unfold publishChange at hch
          split at hch
          · rw [((publishAreaStates_ok (arming_iff.mpr ha')).mp hch).2] at hx
            obtain ⟨n, hn⟩ := areaMsgs_topic hx
            rw [hn]; exact event_ne_state.1
          · rename_i zone prior he
            obtain ⟨i, hi⟩ := change_zone hg.good hn he
            split at hch
            · cases hch; cases hx
            · rename_i zc hl
              rw [((publishZoneState_ok (zones_iff.mpr hz') (w' z' hz') hi).mp hch).2] at hx
              rw [List.mem_singleton.mp hx]
              exact event_ne_state.2
          · cases hch; cases hx
        exact hne m hm (by simpa using ht)
      · have : ∃ j, ev.serialize = .ok j ∧ Event.ofJson .memory j = .ok ev := by
          refine event_of ?_ ?_
          · intro m hm
            refine readable_memory ?_ (fun r h => hz r (by rw [hm, h]))
            have hsc := step_cases hg.good.sane (next_step.mpr hn)
            cases hsc with
            | next _ new _ _ _ hn =>
              cases hn with
              | packet pkt c ev w _ _ hi =>
                cases hi with
                | bad e _ => cases hm
                | skip _ => cases hm
                | msg m ch q comp w _ _ hw _ _ => cases hm; exact hw
              | fire _ _ _ _ _ _ _ => cases hm
          · intro m hm
            obtain ⟨c, _, rfl⟩ := completes_command hg.good hg.busy hn hm
            cases c <;> trivial
        obtain ⟨j, h2, h3⟩ := this
        rw [hj] at h2; cases h2
        simp [h3, handled]
  | _ => exact ⟨[], by simp [published], by simp [handled], by simp [handled]⟩

theorem published_events {b b' : Bridge} {ops obs} (h : BHist b ops obs b') (hg : BGood b) :
    ∃ js : List Json, (published obs).filter (fun m => m.topic == eventTopic b.cfg.prefix) =
        js.map (fun j => ⟨eventTopic b.cfg.prefix, false, .json j⟩) ∧
      js.map (Event.ofJson .memory) = (handled obs).map .ok ∧
      (handled obs).map Event.serialize = js.map .ok := by
  induction h with
  | nil => exact ⟨[], rfl, rfl, rfl⟩
  | @cons b op o b1 ops os b2 hc _ ih =>
    obtain ⟨j1, h1, h2, h5⟩ := published_one hc hg
    obtain ⟨j2, h3, h4, h6⟩ := ih (bcase_good hc hg)
    rw [(bcase_static hc).1] at h3
    refine ⟨j1 ++ j2, ?_, ?_, ?_⟩
    · rw [published_cons, List.filter_append, h1, h3, List.map_append]
    · rw [handled_cons, List.map_append, List.map_append, h2, h4]
    · rw [handled_cons, List.map_append, List.map_append, h5, h6]

/-- **C68** In every history of the bridge, the messages it has published to its event topic are the
events of its panel, fed with what arrived from the socket, each once and in order, none of them
retained, each in a form that reads back as the event. -/
theorem C68_events {cfg : Cfg} {p0 : Panel} (hc : Connected p0) (hw : WfView p0)
    {b0 : Bridge} (hs : Bridge.start cfg p0 = .ok b0) {ops : List BOp}
    {obs : List BObs} {b : Bridge} (hr : Bridge.run ops b0 = .ok (obs, b)) :
    ∃ (pops : List Op) (outs : List Out) (js : List Json),
      Panel.run pops p0 = .ok (outs, b.panel) ∧ arrived pops = arrivedAt ops ∧
      b.log.filter (fun m => m.topic == cfg.prefix ++ bs "/event") =
        js.map (fun j => ⟨cfg.prefix ++ bs "/event", false, .json j⟩) ∧
      js.map (Event.ofJson .memory) = (events outs).map .ok := by
  have hg := start_good_bridge hc hw hs
  have hh := bhist_of_run hr
  obtain ⟨e1, e2, e3⟩ := start_no_event hc hw hs
  obtain ⟨pops, outs, h1, _, h2, h5⟩ := bhist_panel hh
  obtain ⟨js, h3, h4, _⟩ := published_events hh hg
  refine ⟨pops, outs, js, by rw [← e2]; exact h1, h5, ?_, by rw [h2]; exact h4⟩
  rw [(bhist_static hh).2.2.2, List.filter_append]
  have : b0.log.filter (fun m => m.topic == cfg.prefix ++ bs "/event") = [] := by
    rw [List.filter_eq_nil_iff]
    intro m hm ht
    exact e3 m hm (by simpa [eventTopic] using ht)
  rw [this, List.nil_append]
  rw [e1] at h3
  exact h3

/-- Non-vacuity: two messages arrive, and two events are published, in order. -/
example : ∃ x, (Bridge.start sampleCfg (samplePanel []) >>= fun b =>
      Bridge.run [.arrive (.data (msgBytes (.zoneChange ⟨⟨1⟩, ⟨9⟩⟩) ++ msgBytes (.taskChange ⟨2⟩))),
        .tick ⟨1, 0, 0⟩ true, .tick ⟨1, 0, 0⟩ true] b) = .ok x ∧
    decide ((x.2.log.filterMap fun m =>
      match m.payload with
      | .json j =>
        match Event.ofJson .memory j with
        | .ok ev => match ev.msg with
          | some (.ok m) => some m
          | _ => none
        | .error _ => none
      | .text _ => none) = [.zoneChange ⟨⟨1⟩, ⟨9⟩⟩, .taskChange ⟨2⟩]) = true :=
  of_holds (by decide +kernel)

end Elk.Props
