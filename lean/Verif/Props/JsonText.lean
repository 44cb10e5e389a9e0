import Verif.Lemmas.JsonText
import Verif.Props.Json
/-!
# Properties of the JSON text that is published (C99)
-/

namespace Elk.Props
open Elk.Spec

/-! ## C99: the text can be read back -/

/-- **C99** What `to_string_pretty` writes is JSON text of the value. -/
theorem C99_text (j : Json) : readText j.toStringPretty = some j := by
  unfold readText Json.toStringPretty
  have h := read_pretty 0 j (j.pretty 0).length [] (by omega) (fun _ _ h => by cases h)
  rw [List.append_nil] at h
  rw [h]
  rfl

theorem text_inj {j j' : Json} (h : j.toStringPretty = j'.toStringPretty) : j = j' := by
  have h1 := C99_text j
  rw [h, C99_text j'] at h1
  injection h1 with h1
  exact h1.symm

/-- **C99** Different messages have different texts. -/
theorem C99_message {m m' : Message} (hm : WfMessage m) (hm' : WfMessage m')
    {j j' : Json} (h : m.serialize = .ok j) (h' : m'.serialize = .ok j')
    (ht : j.toStringPretty = j'.toStringPretty) : m = m' := by
  have := text_inj ht
  subst this
  exact C69_injective hm hm' h h'

/-! ### Events -/

theorem serializeResult_cases {r : Except Bytes Message} {j : Json} (h : serializeResult r = .ok j) :
    (∃ m j', r = .ok m ∧ m.serialize = .ok j' ∧ j = .variant "Ok" j') ∨
      ∃ e, r = .error e ∧ j = .variant "Err" (.str e) := by
  cases r with
  | error e => cases h; exact .inr ⟨e, rfl, rfl⟩
  | ok m =>
    unfold serializeResult at h
    dsimp only at h
    cases hm : m.serialize with
    | error e => rw [hm] at h; cases h
    | ok j' => rw [hm] at h; cases h; exact .inl ⟨m, j', rfl, hm, rfl⟩

theorem event_serialize_cases {e : Event} {j : Json} (h : e.serialize = .ok j) :
    ∃ jp jm jc jx, Json.ofOption (fun p => .ok p.serialize) e.pkt = .ok jp ∧
      Json.ofOption serializeResult e.msg = .ok jm ∧
      Json.ofOption Message.serialize e.completes = .ok jc ∧
      Json.ofOption (fun c => .ok c.serialize) e.change = .ok jx ∧
      j = .obj [(bs "pkt", jp), (bs "msg", jm), (bs "completes", jc), (bs "change", jx)] := by
  unfold Event.serialize at h
  simp only [P_bind_ok] at h
  obtain ⟨jp, h1, jm, h2, jc, h3, jx, h4, h5⟩ := h
  cases h5
  exact ⟨jp, jm, jc, jx, h1, h2, h3, h4, rfl⟩

/-- What a reader of the event topic makes of a text. -/
def readEvent (s : Bytes) : Option Event := readText s >>= fun j => (Event.ofJson .memory j).toOption

theorem readEvent_of {e : Event} {j : Json}
    (hm : ∀ m, e.msg = some (.ok m) → Readable .memory m)
    (hc : ∀ m, e.completes = some m → Readable .memory m)
    (h : e.serialize = .ok j) : readEvent j.toStringPretty = some e := by
  obtain ⟨j', h1, h2⟩ := event_of hm hc
  rw [h] at h1; cases h1
  unfold readEvent
  rw [C99_text]
  show (Event.ofJson .memory j).toOption = some e
  rw [h2]; rfl

theorem handled_readable {b b' : Bridge} {ops obs} (h : BHist b ops obs b') (hg : BGood b) :
    ∀ e ∈ handled obs, (∀ m, e.msg = some (.ok m) → Readable .memory m) ∧
      ∀ m, e.completes = some m → Readable .memory m := by
  induction h with
  | nil => intro e he; cases he
  | @cons b op o b1 ops os b2 hc _ ih =>
    intro e he
    rw [handled_cons] at he
    rcases List.mem_append.mp he with he | he
    · cases hc with
      | event cx pf ev out w panel hw hn hp =>
        simp [handled] at he
        subst he
        rcases publishEvent_iff hg hn with ⟨_, _, h1⟩ | ⟨hz, _⟩
        · rw [h1] at hp; cases hp
        · refine ⟨?_, ?_⟩
          · intro m hm
            refine readable_memory ?_ (fun r h => hz r (by rw [hm, h]))
            have hsc := step_cases hg.good.sane (next_step.mpr hn)
            cases hsc with
            | next _ new _ _ _ hn =>
              cases hn with
              | packet pkt c ev w _ _ hi =>
                cases hi with
                | bad e _ => cases hm
                | skip _ => cases hm
                | msg m ch q comp w _ _ hw _ _ => cases hm; exact hw
              | fire _ _ _ _ _ _ _ => cases hm
          · intro m hm
            obtain ⟨c, _, rfl⟩ := completes_command hg.good hg.busy hn hm
            cases c <;> trivial
      | _ => simp [handled] at he
    · exact ih (bcase_good hc hg) e he

theorem textsOn_events {cfg : Cfg} {p0 : Panel} (hc : Connected p0) (hw : WfView p0)
    {b0 : Bridge} (hs : Bridge.start cfg p0 = .ok b0) {ops : List BOp}
    {obs : List BObs} {b : Bridge} (hr : Bridge.run ops b0 = .ok (obs, b)) :
    ∃ js : List Json, (handled obs).map Event.serialize = js.map .ok ∧
      textsOn (cfg.prefix ++ bs "/event") b.log = js.map Json.toStringPretty := by
  have hg := start_good_bridge hc hw hs
  have hh := bhist_of_run hr
  obtain ⟨e1, e2, e3⟩ := start_no_event hc hw hs
  obtain ⟨js, h3, _, h5⟩ := published_events hh hg
  refine ⟨js, h5, ?_⟩
  unfold textsOn
  rw [(bhist_static hh).2.2.2, List.filter_append]
  have : b0.log.filter (fun m => m.topic == cfg.prefix ++ bs "/event") = [] := by
    rw [List.filter_eq_nil_iff]
    intro m hm ht
    exact e3 m hm (by simpa [eventTopic] using ht)
  rw [e1] at h3
  have h3 : (published obs).filter (fun m => m.topic == cfg.prefix ++ bs "/event") = _ := h3
  rw [this, List.nil_append, h3, List.map_map]
  rfl

/-- **C99** The text of an event determines the event. -/
theorem C99_event {e : Event} {j : Json} (hm : ∀ m, e.msg = some (.ok m) → WfMessage m)
    (hc : ∀ m, e.completes = some m → WfMessage m) (h : e.serialize = .ok j) :
    readEvent j.toStringPretty = some e := by
  obtain ⟨jp, jm, jc, jx, _, h2, h3, _, _⟩ := event_serialize_cases h
  refine readEvent_of (fun m h => readable_memory (hm m h) ?_)
    (fun m h => readable_memory (hc m h) ?_) h
  · rintro r rfl
    rw [h] at h2; cases h2
  · rintro r rfl
    rw [h] at h3; cases h3

/-- **C99** Whoever reads the texts on the bridge's event topic has read of the panel's events, in
order, none missing, and of nothing else. -/
theorem C99_reader {cfg : Cfg} {p0 : Panel} (hc : Connected p0) (hw : WfView p0)
    {b0 : Bridge} (hs : Bridge.start cfg p0 = .ok b0) {ops : List BOp}
    {obs : List BObs} {b : Bridge} (hr : Bridge.run ops b0 = .ok (obs, b)) :
    (textsOn (cfg.prefix ++ bs "/event") b.log).map readEvent = (handled obs).map some := by
  obtain ⟨js, h1, h2⟩ := textsOn_events hc hw hs hr
  rw [h2, List.map_map]
  have hrd := handled_readable (bhist_of_run hr) (start_good_bridge hc hw hs)
  revert hrd h1
  generalize handled obs = l
  clear h2
  induction l generalizing js with
  | nil => intro h1 _; cases js with
    | nil => rfl
    | cons => cases h1
  | cons e l ih =>
    intro h1 hrd
    cases js with
    | nil => cases h1
    | cons j js =>
      simp only [List.map_cons, List.cons.injEq] at h1 ⊢
      exact ⟨readEvent_of (hrd e List.mem_cons_self).1 (hrd e List.mem_cons_self).2 h1.1,
        ih js h1.2 fun e he => hrd e (List.mem_cons_of_mem _ he)⟩

/-- **C99** If the texts on the event topics of two bridges are the same, then so are the events. -/
theorem C99_bridge {cfg : Cfg} {p0 : Panel} (hc : Connected p0) (hw : WfView p0)
    {b0 : Bridge} (hs : Bridge.start cfg p0 = .ok b0) {ops : List BOp}
    {obs : List BObs} {b : Bridge} (hr : Bridge.run ops b0 = .ok (obs, b))
    {cfg' : Cfg} {p0' : Panel} (hc' : Connected p0') (hw' : WfView p0')
    {b0' : Bridge} (hs' : Bridge.start cfg' p0' = .ok b0') {ops' : List BOp}
    {obs' : List BObs} {b' : Bridge} (hr' : Bridge.run ops' b0' = .ok (obs', b'))
    (ht : textsOn (cfg.prefix ++ bs "/event") b.log =
      textsOn (cfg'.prefix ++ bs "/event") b'.log) : handled obs = handled obs' := by
  have h := C99_reader hc hw hs hr
  rw [ht, C99_reader hc' hw' hs' hr'] at h
  exact (List.map_inj_right fun _ _ => Option.some.inj).mp h.symm

/-- Non-vacuity: the text of a request. -/
example : (∃ j, (Message.armRequest ⟨⟨1⟩, .armedStay, ⟨⟨(bs "007531").toArray, rfl⟩⟩⟩).serialize = .ok j) ∧
    ((Message.zoneChange ⟨⟨7⟩, ⟨9⟩⟩).serialize.toOption.map Json.toStringPretty) =
    some (bs "{\n  \"zoneChange\": {\n    \"zone\": 7,\n    \"status\": 9\n  }\n}") :=
  ⟨⟨_, rfl⟩, by decide +kernel⟩

end Elk.Props
