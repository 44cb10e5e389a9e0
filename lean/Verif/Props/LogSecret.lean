import Verif.Props.Log
import Verif.Props.Secret
/-!
# The configured code and the log (C128)
-/

namespace Elk.Props
open Elk.Spec

/-- The calls that show commands. -/
def showsCommands (s : Callsite) : Bool := s = .command ∨ s = .sending

theorem cmdLog_sites (c : Command) : ∀ r ∈ cmdLog c, showsCommands r.site = true := by
  unfold cmdLog
  split
  · simp [sendLog, jot, showsCommands]
  · exact fun r hr => nomatch hr

theorem enabled_none {on : Callsite → Bool} {l : List Record} (h : ∀ r ∈ l, on r.site = false) :
    enabled on l = [] := List.filter_eq_nil_iff.mpr fun r hr => by simp [h r hr]

theorem nextLog_alike {b b' : Bridge} (h : Elk.Alike b b') {ev ev' : Event} (he : maskEv ev = maskEv ev') :
    nextLog b.panel (.ready (some (.ok ev))) = nextLog b'.panel (.ready (some (.ok ev'))) := by
  have h1 : b.panel.state = b'.panel.state := state_of_mask h.panel
  have h2 : b.panel.pendingArm = b'.panel.pendingArm := by
    have := congrArg Panel.pendingArm h.panel
    exact this
  have h3 : ev.pkt = ev'.pkt := by
    have := congrArg Event.pkt he
    exact this
  have h4 : ev.msg = ev'.msg := by
    have := congrArg Event.msg he
    exact this
  have h5 : ∀ m, msgLog b.panel m = msgLog b'.panel m := by
    intro m
    unfold msgLog armLog
    rw [h1, h2]
  unfold nextLog timerLog
  dsimp only
  rw [h1, h2, h3, h4, h5]

theorem bridgeLog_alike {b b' : Bridge} (h : Elk.Alike b b') {o o' : BObs} (ho : maskObs o = maskObs o') :
    enabled (fun s => s ≠ .panelEvent ∧ showsCommands s = false) (bridgeLog b o) =
      enabled (fun s => s ≠ .panelEvent ∧ showsCommands s = false) (bridgeLog b' o') ∧
    ((∀ ev ∈ handled [o], ev.completes = none) →
      enabled (fun s => showsCommands s = false) (bridgeLog b o) =
        enabled (fun s => showsCommands s = false) (bridgeLog b' o')) := by
  obtain ⟨c1, c2, _⟩ := cfg_parts h.cfg
  have none_of : ∀ ev, enabled (fun s => s ≠ .panelEvent ∧ showsCommands s = false)
      (evLog .panelEvent "panel_event" ev) = [] := by
    intro ev
    refine enabled_none fun r hr => ?_
    unfold evLog at hr
    split at hr
    · simp only [List.mem_cons, List.not_mem_nil, or_false] at hr
      subst hr
      simp [jot]
    · cases hr
  cases o with
  | event ev out w =>
    cases o' <;> try (simp [maskObs] at ho; done)
    rename_i ev' out' w'
    simp only [maskObs] at ho; injection ho with he _ _
    refine ⟨?_, fun hc => ?_⟩
    · show enabled _ (nextLog _ _ ++ _) = enabled _ (nextLog _ _ ++ _)
      rw [enabled_append, enabled_append, none_of, none_of, nextLog_alike h he]
    · have hev := maskEv_none he (hc ev (List.mem_cons_self ..))
      subst hev
      show enabled _ (nextLog _ _ ++ _) = enabled _ (nextLog _ _ ++ _)
      rw [nextLog_alike h he]
  | taken p c =>
    cases o' <;> try (simp [maskObs] at ho; done)
    simp only [maskObs] at ho; injection ho with hp _
    subst hp
    unfold bridgeLog
    dsimp only
    rw [c1, c2]
    exact ⟨rfl, fun _ => rfl⟩
  | accepted c =>
    cases o' <;> try (simp [maskObs] at ho; done)
    rename_i c'
    have h1 : ∀ (f : Callsite → Bool) c, (∀ s, showsCommands s = true → f s = false) →
        enabled f (cmdLog c) = [] := fun f c hf => enabled_none fun r hr => hf _ (cmdLog_sites c r hr)
    refine ⟨?_, fun _ => ?_⟩
    · show enabled _ (cmdLog c) = enabled _ (cmdLog c')
      rw [h1 _ c (fun s hs => by simp [hs]), h1 _ c' (fun s hs => by simp [hs])]
    · show enabled _ (cmdLog c) = enabled _ (cmdLog c')
      rw [h1 _ c (fun s hs => by simp [hs]), h1 _ c' (fun s hs => by simp [hs])]
  | _ =>
    cases o' <;> try (simp [maskObs] at ho; done)
    exact ⟨rfl, fun _ => rfl⟩

theorem logs_alike {ops : List BOp} : ∀ {b b' b1 : Bridge} {obs : List BObs}, Showable b →
    Showable b' → Elk.Alike b b' → Bridge.run ops b = .ok (obs, b1) →
    ∃ lg lg' obs' b1', (∀ on, Bridge.runL on ops b = .ok (enabled on lg, obs, b1)) ∧
      (∀ on, Bridge.runL on ops b' = .ok (enabled on lg', obs', b1')) ∧
      enabled (fun s => s ≠ .panelEvent ∧ showsCommands s = false) lg =
        enabled (fun s => s ≠ .panelEvent ∧ showsCommands s = false) lg' ∧
      ((∀ ev ∈ handled obs, ev.completes = none) →
        enabled (fun s => showsCommands s = false) lg =
          enabled (fun s => showsCommands s = false) lg') := by
  induction ops with
  | nil =>
    intro b b' b1 obs _ _ h hr
    cases hr
    exact ⟨[], [], [], b', fun _ => rfl, fun _ => rfl, rfl, fun _ => rfl⟩
  | cons op ops ih =>
    intro b b' b1 obs hg hg' h hr
    obtain ⟨o, c, os, h1, h2, rfl⟩ := brun_cons.mp hr
    obtain ⟨o', c', h1', ho, hc⟩ := bstep_alike hg.good hg'.good h h1
    obtain ⟨lg, lg', os', b1', e1, e2, e3, e4⟩ :=
      ih (showable_step h1 hg) (showable_step h1' hg') hc h2
    obtain ⟨k1, k2⟩ := bridgeLog_alike h ho
    refine ⟨bridgeLog b o ++ lg, bridgeLog b' o' ++ lg', o' :: os', b1', fun on => ?_, fun on => ?_,
      ?_, fun hn => ?_⟩
    · rw [Bridge.runL, bridgeStepL_eq on hg op, h1]
      simp only [bind_ok]
      rw [e1 on]
      simp only [bind_ok]
      rw [enabled_append]
    · rw [Bridge.runL, bridgeStepL_eq on hg' op, h1']
      simp only [bind_ok]
      rw [e2 on]
      simp only [bind_ok]
      rw [enabled_append]
    · rw [enabled_append, enabled_append, k1, e3]
    · rw [handled_cons] at hn
      rw [enabled_append, enabled_append, k2 fun ev h => hn ev (List.mem_append_left _ h),
        e4 fun ev h => hn ev (List.mem_append_right _ h)]

theorem enabled_both {on on' : Callsite → Bool} (h : ∀ s, on s = true → on' s = true)
    (l : List Record) : enabled on l = enabled on (enabled on' l) := by
  unfold enabled
  rw [List.filter_filter]
  refine List.filter_congr fun r _ => ?_
  cases ho : on r.site with
  | false => rfl
  | true => rw [h _ ho]; rfl

/-- **C128** (partial) Take any history of the bridge, and configure another code: then the same can
happen, and the calls other than `panel event`, `sending message` and `sending packet` log exactly the
same.  If in addition no event reports the completion of a request, exactly the same is logged at the
level that is the default.  Missing: events that report a completed request, which disclose the code
(`C128_disclosed`). -/
theorem C128_log_partial {cfg : Cfg} {c' : UInt32} (hc' : c'.toNat < 1000000) {p0 : Panel}
    (hc : Connected p0) (hw : WfView p0) {b0 : Bridge} (hs : Bridge.start cfg p0 = .ok b0)
    {ops : List BOp} {obs : List BObs} {b : Bridge} (hr : Bridge.run ops b0 = .ok (obs, b)) :
    ∃ lg b0' lg' obs' b', (∀ on, Bridge.runL on ops b0 = .ok (enabled on lg, obs, b)) ∧
      Bridge.start { cfg with elk := { cfg.elk with code := c' } } p0 = .ok b0' ∧
      (∀ on, Bridge.runL on ops b0' = .ok (enabled on lg', obs', b')) ∧
      (∀ on : Callsite → Bool, on .panelEvent = false → on .command = false → on .sending = false →
        enabled on lg = enabled on lg') ∧
      ((∀ ev ∈ handled obs, ev.completes = none) →
        enabled Callsite.byDefault lg = enabled Callsite.byDefault lg') := by
  obtain ⟨b0', hs', ha, _⟩ := start_alike (cfg := cfg)
    (cfg' := { cfg with elk := { cfg.elk with code := c' } }) rfl hc' hc hw hs
  obtain ⟨lg, lg', obs', b', h1, h2, h3, h4⟩ := logs_alike (start_showable hc hw hs)
    (start_showable hc hw hs') ha hr
  refine ⟨lg, b0', lg', obs', b', h1, hs', h2, fun on o1 o2 o3 => ?_, fun hn => ?_⟩
  · have hon : ∀ s, on s = true →
        decide (s ≠ .panelEvent ∧ showsCommands s = false) = true := by
      intro s h
      rw [decide_eq_true_eq]
      refine ⟨fun e => (by rw [e, o1] at h; cases h), ?_⟩
      unfold showsCommands
      rw [decide_eq_false_iff_not]
      rintro (rfl | rfl)
      · rw [o2] at h; cases h
      · rw [o3] at h; cases h
    rw [enabled_both hon lg, h3, ← enabled_both hon lg']
  · have hon : ∀ s : Callsite, s.byDefault = true → decide (showsCommands s = false) = true := by
      intro s; cases s <;> decide
    rw [enabled_both hon lg, h4 hn, ← enabled_both hon lg']

/-- **C128** is false of the code: once the panel has answered a request to arm, the configured code
can be read off the log, at the level that is the default. -/
theorem C128_disclosed : ∃ cfg p0 b0 ops lg x, Connected p0 ∧ WfView p0 ∧ MapCfg cfg ∧
    DistinctNames cfg ∧ Bridge.start cfg p0 = .ok b0 ∧
    Bridge.runL Callsite.byDefault ops b0 = .ok (lg, x) ∧
    ∃ code, ArmCode.tryFromNum cfg.elk.code = .ok code ∧
      ∃ r ∈ lg, r.site = .panelEvent ∧ ∃ d, ("panel_event", FieldValue.debug d) ∈ r.fields ∧
        code.code.toList <:+: d.text := by
  have key : holds (Bridge.start sampleCfg (samplePanel []) >>= fun b =>
      Bridge.runL Callsite.byDefault [.deliver ⟨bs "elkm1/42/area/home/ha_command", bs "ARM_AWAY"⟩,
        .tick ⟨1, 0, 0⟩ true, .tick ⟨1, 0, 0⟩ true, .writable (.accept 100),
        .tick ⟨1, 0, 0⟩ true, .arrive (.data (msgBytes sampleIC)), .tick ⟨1, 0, 0⟩ true] b >>=
      fun y => .ok (b, y)) (fun x =>
        x.2.1.any fun r => decide (r.site = .panelEvent) &&
          match r.fields with
          | [(n, .debug d)] => decide (n = "panel_event") &&
              decide ([48, 48, 49, 50, 51, 52] <:+: d.text)
          | _ => false) = true := by decide +kernel
  obtain ⟨⟨b0, lg, x⟩, h, hk⟩ := of_holds key
  rw [P_bind_ok] at h
  obtain ⟨b0', h1, h⟩ := h
  rw [P_bind_ok] at h
  obtain ⟨y, h2, h⟩ := h
  cases h
  rw [List.any_eq_true] at hk
  obtain ⟨r, hr, hk⟩ := hk
  simp only [Bool.and_eq_true, decide_eq_true_eq] at hk
  obtain ⟨hs, hk⟩ := hk
  refine ⟨sampleCfg, samplePanel [], b0, _, lg, x, samplePanel_connected _, samplePanel_view _,
    sampleCfg_map, sampleCfg_distinct, h1, h2, ⟨#v[48, 48, 49, 50, 51, 52]⟩, rfl, r, hr, hs, ?_⟩
  split at hk
  · rename_i n d he
    simp only [Bool.and_eq_true, decide_eq_true_eq] at hk
    obtain ⟨rfl, hk⟩ := hk
    exact ⟨d, by rw [he]; exact List.mem_cons_self .., hk⟩
  · cases hk

/-- Non-vacuity of the partial form: a request to arm is sent and the panel reports a zone, no event
reports a completion, and something is logged. -/
example : ∃ x, (Bridge.start sampleCfg (samplePanel []) >>= fun b =>
      Bridge.runL Callsite.byDefault [.deliver ⟨bs "elkm1/42/area/home/ha_command", bs "ARM_AWAY"⟩,
        .tick ⟨1, 0, 0⟩ true, .tick ⟨1, 0, 0⟩ true, .writable (.accept 100),
        .tick ⟨1, 0, 0⟩ true, .arrive (.data (msgBytes (.zoneChange ⟨⟨1⟩, ⟨9⟩⟩))),
        .tick ⟨1, 0, 0⟩ true] b) = .ok x ∧
    ((handled x.2.1).all (fun ev => ev.completes.isNone) &&
      decide (x.1.map Record.site = [.publish, .matched, .panelEvent])) = true :=
  of_holds (by decide +kernel)

end Elk.Props
