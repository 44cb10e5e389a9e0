import Verif.Lemmas.Secret
import Verif.Props.Json
/-!
# The secrecy of the configured code (C70)
-/

namespace Elk.Props
open Elk.Spec

theorem maskEv_none {e e' : Event} (h : maskEv e = maskEv e') (hc : e.completes = none) : e = e' := by
  obtain ⟨p, m, c, x⟩ := e
  obtain ⟨p', m', c', x'⟩ := e'
  dsimp only at hc
  subst hc
  simp only [maskEv, Event.mk.injEq] at h
  obtain ⟨rfl, rfl, hc, rfl⟩ := h
  cases c' with
  | none => rfl
  | some c => cases hc

/-- Observations alike: the same is published, except for events. -/
theorem published_alike {t : Bytes} : ∀ {obs obs' : List BObs},
    obs.map maskObs = obs'.map maskObs →
    (∀ ev out w, BObs.event ev out w ∈ obs → ∃ j, ev.serialize = .ok j ∧
      out = ⟨t, false, .json j⟩ :: out.drop 1) →
    (∀ ev out w, BObs.event ev out w ∈ obs' → ∃ j, ev.serialize = .ok j ∧
      out = ⟨t, false, .json j⟩ :: out.drop 1) →
    (published obs).filter (fun m => !(m.topic == t)) =
      (published obs').filter (fun m => !(m.topic == t)) ∧
    ((∀ ev ∈ handled obs, ev.completes = none) → published obs = published obs') := by
  intro obs
  induction obs with
  | nil =>
    intro obs' h _ _
    cases obs' with
    | nil => exact ⟨rfl, fun _ => rfl⟩
    | cons o os => cases h
  | cons o os ih =>
    intro obs' h h1 h2
    cases obs' with
    | nil => cases h
    | cons o' os' =>
      simp only [List.map_cons, List.cons.injEq] at h
      obtain ⟨ho, hos⟩ := h
      obtain ⟨ih1, ih2⟩ := ih hos (fun ev out w hm => h1 ev out w (List.mem_cons_of_mem _ hm))
        (fun ev out w hm => h2 ev out w (List.mem_cons_of_mem _ hm))
      have key : (published [o]).filter (fun m => !(m.topic == t)) =
          (published [o']).filter (fun m => !(m.topic == t)) ∧
          ((∀ ev ∈ handled [o], ev.completes = none) → published [o] = published [o']) := by
        cases o with
        | event ev out w =>
          cases o' with
          | event ev' out' w' =>
            obtain ⟨j, hj, e1⟩ := h1 ev out w (List.mem_cons_self ..)
            obtain ⟨j', hj', e1'⟩ := h2 ev' out' w' (List.mem_cons_self ..)
            simp only [maskObs, BObs.event.injEq] at ho
            obtain ⟨he, ht, _⟩ := ho
            simp only [published, List.flatMap_cons, List.flatMap_nil, List.append_nil]
            constructor
            · rw [e1, e1', List.filter_cons_of_neg (by simp), List.filter_cons_of_neg (by simp), ht]
            · intro hc
              have := maskEv_none he (hc ev (by simp [handled]))
              subst this
              rw [hj] at hj'
              cases hj'
              rw [e1, e1', ht]
          | _ => simp [maskObs] at ho
        | _ =>
          cases o' with
          | event _ _ _ => simp [maskObs] at ho
          | _ => exact ⟨rfl, fun _ => rfl⟩
      rw [published_cons o os, published_cons o' os', List.filter_append, List.filter_append,
        key.1, ih1]
      refine ⟨rfl, fun hc => ?_⟩
      rw [handled_cons] at hc
      rw [key.2 fun ev h => hc ev (List.mem_append_left _ h),
        ih2 fun ev h => hc ev (List.mem_append_right _ h)]

theorem start_alike {cfg cfg' : Cfg} (he : maskCfg cfg = maskCfg cfg')
    (hu' : cfg'.elk.code.toNat < 1000000) {p0 : Panel} (hc : Connected p0) (hw : WfView p0)
    {b0 : Bridge} (hs : Bridge.start cfg p0 = .ok b0) :
    ∃ b0', Bridge.start cfg' p0 = .ok b0' ∧ Alike b0 b0' ∧ b0.log = b0'.log ∧ b0.cfg = cfg ∧
      b0'.cfg = cfg' := by
  obtain ⟨r, hr⟩ := hc.arming
  obtain ⟨z, hz⟩ := hc.zones
  obtain ⟨hu, code, _, rfl⟩ := (start_iff hr hz (hw z hz)).mp hs
  obtain ⟨code', hcode'⟩ := (C25_number cfg'.elk.code).2.1.mpr hu'
  obtain ⟨e1, e2, e3, e4, e5⟩ := cfg_parts he
  have hu'' : UsableCfg cfg' :=
    ⟨hu', e2 ▸ hu.nonempty, e2 ▸ hu.areas, e3 ▸ hu.zones, e1 ▸ hu.pre, e2 ▸ hu.areaNames, e3 ▸ hu.zoneNames, by
      rw [← e2, ← e3, ← e4, ← e5]; exact hu.discovery⟩
  refine ⟨_, (start_iff hr hz (hw z hz)).mpr ⟨hu'', code', hcode', rfl⟩,
    ⟨he, rfl, rfl, by simp only [e1, e2], rfl⟩, ?_, rfl, rfl⟩
  have : discoveryLog cfg = discoveryLog cfg' := by
    unfold discoveryLog discoveryMsgs
    rw [e1, e2, e3, e4, e5]
  simp only [this, e1, e2, e3]

/-- **C70** (partial) Take any history of the bridge, and configure another code: then the same can
happen, and on every topic but the event topic exactly the same is published.  If in addition no
event reports the completion of a request, exactly the same is published on all topics.  Missing:
events that report a completed request to arm, which disclose the code (`C70_disclosed`). -/
theorem C70_secret_partial {cfg : Cfg} {c' : UInt32} (hc' : c'.toNat < 1000000) {p0 : Panel}
    (hc : Connected p0) (hw : WfView p0) {b0 : Bridge} (hs : Bridge.start cfg p0 = .ok b0)
    {ops : List BOp} {obs : List BObs} {b : Bridge} (hr : Bridge.run ops b0 = .ok (obs, b)) :
    ∃ b0' obs' b', Bridge.start { cfg with elk := { cfg.elk with code := c' } } p0 = .ok b0' ∧
      Bridge.run ops b0' = .ok (obs', b') ∧
      b.log.filter (fun m => !(m.topic == cfg.prefix ++ bs "/event")) =
        b'.log.filter (fun m => !(m.topic == cfg.prefix ++ bs "/event")) ∧
      ((∀ ev ∈ handled obs, ev.completes = none) → b'.log = b.log) := by
  obtain ⟨b0', hs', ha, hl, e1, e2⟩ := start_alike (cfg := cfg)
    (cfg' := { cfg with elk := { cfg.elk with code := c' } }) rfl hc' hc hw hs
  have hg := start_good_bridge hc hw hs
  have hg' := start_good_bridge hc hw hs'
  obtain ⟨obs', b', hr', ho, _⟩ := brun_alike hg hg' ha hr
  have hh := bhist_of_run hr
  have hh' := bhist_of_run hr'
  have hd := bhist_head hh hg
  have hd' := bhist_head hh' hg'
  rw [e1] at hd
  rw [e2] at hd'
  obtain ⟨k1, k2⟩ := published_alike (t := eventTopic cfg.prefix) ho hd hd'
  refine ⟨b0', obs', b', hs', hr', ?_, fun hn => ?_⟩
  · rw [(bhist_static hh).2.2.2, (bhist_static hh').2.2.2, List.filter_append, List.filter_append,
      hl]
    exact congrArg _ k1
  · rw [(bhist_static hh).2.2.2, (bhist_static hh').2.2.2, hl, k2 hn]

/-- The code in the completed request of an event published. -/
def codeIn (m : Published) : Option ArmCode :=
  match m.payload with
  | .json j =>
    match Event.ofJson .memory j with
    | .ok ev =>
      match ev.completes with
      | some (.armRequest r) => some r.code
      | _ => none
    | .error _ => none
  | .text _ => none

/-- The panel's reply to a request to arm: a valid code was sent at keypad 1. -/
def sampleIC : Message := .sendCode ⟨#v[0, 0, 0, 0, 0, 0], 1, ⟨1⟩⟩

/-- **C70** is false of the code: once the panel has answered a request to arm, the configured code
can be read off the event topic. -/
theorem C70_disclosed : ∃ cfg p0 b0 ops obs b, Connected p0 ∧ WfView p0 ∧ MapCfg cfg ∧
    DistinctNames cfg ∧ Bridge.start cfg p0 = .ok b0 ∧ Bridge.run ops b0 = .ok (obs, b) ∧
    ∃ m ∈ b.log, m.topic = cfg.prefix ++ bs "/event" ∧
      ∃ code, codeIn m = some code ∧ ArmCode.tryFromNum cfg.elk.code = .ok code := by
  have key : holds (Bridge.start sampleCfg (samplePanel []) >>= fun b =>
      Bridge.run [.deliver ⟨bs "elkm1/42/area/home/ha_command", bs "ARM_AWAY"⟩,
        .tick ⟨1, 0, 0⟩ true, .tick ⟨1, 0, 0⟩ true, .writable (.accept 100),
        .tick ⟨1, 0, 0⟩ true, .arrive (.data (msgBytes sampleIC)), .tick ⟨1, 0, 0⟩ true] b >>=
      fun y => .ok (b, y)) (fun x =>
        x.2.2.log.any fun m => decide (m.topic = bs "elkm1/42/event") &&
          decide (codeIn m = some ⟨#v[48, 48, 49, 50, 51, 52]⟩)) = true := by decide +kernel
  obtain ⟨⟨b0, obs, b⟩, h, hk⟩ := of_holds key
  rw [P_bind_ok] at h
  obtain ⟨b0', h1, h⟩ := h
  rw [P_bind_ok] at h
  obtain ⟨⟨obs', b'⟩, h2, h⟩ := h
  cases h
  simp only [List.any_eq_true, Bool.and_eq_true, decide_eq_true_eq] at hk
  obtain ⟨m, hm, ht, hcode⟩ := hk
  exact ⟨sampleCfg, _, b0, _, obs, b, samplePanel_connected _, samplePanel_view _, sampleCfg_map,
    sampleCfg_distinct, h1, h2, m, hm, ht, _, hcode, rfl⟩

/-- Non-vacuity of the partial form: a request to arm is sent with either code, the panel reports a
zone, and the logs, which are not empty, agree. -/
example : ∃ x, (Bridge.start sampleCfg (samplePanel []) >>= fun b =>
      Bridge.run [.deliver ⟨bs "elkm1/42/area/home/ha_command", bs "ARM_AWAY"⟩,
        .tick ⟨1, 0, 0⟩ true, .tick ⟨1, 0, 0⟩ true, .writable (.accept 100),
        .tick ⟨1, 0, 0⟩ true, .arrive (.data (msgBytes (.zoneChange ⟨⟨1⟩, ⟨9⟩⟩))),
        .tick ⟨1, 0, 0⟩ true] b) = .ok x ∧
    ((handled x.1).all (fun ev => ev.completes.isNone) &&
      decide ((handled x.1).length = 1) && decide (x.2.panel.conn.sock.sent ≠ [])) = true :=
  of_holds (by decide +kernel)

end Elk.Props
