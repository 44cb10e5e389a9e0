import Verif.Lemmas.MqttPub
/-!
# Lemmas about the MQTT bridge: its invariant, and what it publishes for an event
-/

namespace Elk
open Spec Props

/-! ## The invariant of the bridge -/

/-- What holds of the bridge throughout. -/
structure BGood (b : Bridge) : Prop where
  good : Good b.panel
  wf : WfZones b.panel.state
  usable : UsableCfg b.cfg
  code : ArmCode.tryFromNum b.cfg.elk.code = .ok b.code
  busy : ∀ r, outstanding b.panel.cmdState = some r → ∃ c : Command, WfCommand c ∧ r = c.intoMsg
  cmd : ∀ c, b.waiting = .ready c → WfCommand c
  empty : b.waiting ≠ .flush → b.panel.conn.wbuf = []
  flushing : b.waiting = .flush → ∃ r f w, b.panel.cmdState = .busy r f w

theorem level_iff {p : Bytes} {l : ArmLevel} : haLevel p = some l ↔ Level p l := by
  unfold haLevel
  constructor
  · intro h
    split at h
    · rename_i hp; subst hp; cases h; exact .disarm
    · split at h
      · rename_i hp; subst hp; cases h; exact .away
      · split at h
        · rename_i hp; subst hp; cases h; exact .home
        · cases h
  · intro h
    cases h <;> rfl

theorem level_text {p : Bytes} {l : ArmLevel} (h : Level p l) : utf8Valid p = true := by
  cases h <;> decide +kernel

/-- What `handle_publish` decides, when the areas are in range. -/
theorem commandFor_cases {pre : Bytes} {code : ArmCode} {p : Publish} :
    ∀ {l : List (UInt8 × AreaCfg)}, (∀ a ∈ l, 1 ≤ a.1.toNat ∧ a.1.toNat ≤ 8) →
    (commandFor pre code p l = .ok none ∧ ∀ a ∈ l, p.topic ≠ areaCommandTopic pre a.2.name) ∨
    ∃ a ∈ l, p.topic = areaCommandTopic pre a.2.name ∧
      ((utf8Valid p.payload = false ∧ commandFor pre code p l = .error .expect) ∨
       (utf8Valid p.payload = true ∧ (∀ lv, ¬ Level p.payload lv) ∧
        commandFor pre code p l = .ok none) ∨
       ∃ lv, Level p.payload lv ∧
        commandFor pre code p l = .ok (some (.arm ⟨⟨a.1⟩, lv, code⟩))) := by
  intro l
  induction l with
  | nil => intro _; exact .inl ⟨rfl, by simp⟩
  | cons a l ih =>
    intro hr
    obtain ⟨id, cfg⟩ := a
    unfold commandFor
    by_cases ht : p.topic = areaCommandTopic pre cfg.name
    · rw [if_neg (by simpa using ht)]
      refine .inr ⟨(id, cfg), List.mem_cons_self .., ht, ?_⟩
      by_cases hu : utf8Valid p.payload = false
      · rw [if_pos hu]; exact .inl ⟨hu, rfl⟩
      · rw [if_neg hu]
        simp only [Bool.not_eq_false] at hu
        cases hl : haLevel p.payload with
        | none =>
          refine .inr (.inl ⟨hu, ?_, rfl⟩)
          intro lv hx
          rw [level_iff.mpr hx] at hl
          cases hl
        | some lv =>
          refine .inr (.inr ⟨lv, level_iff.mp hl, ?_⟩)
          have := hr (id, cfg) (List.mem_cons_self ..)
          have e : unwrapR (Limited.tryFrom (max := 8) id) = .ok ⟨id⟩ := by
            rw [unwrapR_ok, tryFrom_ok]; exact ⟨this, rfl⟩
          dsimp only
          rw [e]
          rfl
    · rw [if_pos ht]
      rcases ih fun a ha => hr a (List.mem_cons_of_mem _ ha) with ⟨h1, h2⟩ | ⟨a, ha, h⟩
      · refine .inl ⟨h1, ?_⟩
        intro a ha
        rcases List.mem_cons.mp ha with rfl | ha
        · exact ht
        · exact h2 a ha
      · exact .inr ⟨a, List.mem_cons_of_mem _ ha, h⟩

theorem commandFor_wf {pre : Bytes} {code : ArmCode} {p : Publish} {l : List (UInt8 × AreaCfg)}
    (hr : ∀ a ∈ l, 1 ≤ a.1.toNat ∧ a.1.toNat ≤ 8) (hc : WfArmCode code) {c : Command}
    (h : commandFor pre code p l = .ok (some c)) : WfCommand c := by
  rcases commandFor_cases (pre := pre) (code := code) (p := p) hr with ⟨h1, _⟩ |
    ⟨a, ha, _, ⟨_, h1⟩ | ⟨_, _, h1⟩ | ⟨lv, _, h1⟩⟩
  · rw [h1] at h; cases h
  · rw [h1] at h; cases h
  · rw [h1] at h; cases h
  · rw [h1] at h; cases h
    exact ⟨hr a ha, hc⟩

theorem start_good_bridge {cfg : Cfg} {p : Panel} (hc : Connected p) (hw : WfView p) {b : Bridge}
    (h : Bridge.start cfg p = .ok b) : BGood b := by
  obtain ⟨r, hr⟩ := hc.arming
  obtain ⟨z, hz⟩ := hc.zones
  obtain ⟨hu, code, h1, rfl⟩ := (start_iff hr hz (hw z hz)).mp h
  refine ⟨connected_good hc, wfView_iff.mp hw, hu, h1, ?_, ?_, fun _ => hc.flushed, ?_⟩
  · intro r h; rw [hc.idle] at h; cases h
  · intro c h; cases h
  · intro h; cases h

/-- The outstanding request is always a command's. -/
theorem busy_keep {p p1 : Panel} {op o} (hs : StepCase p op (o, p1))
    (hwf : ∀ c, op = .startSend c → WfCommand c)
    (h : ∀ r, outstanding p.cmdState = some r → ∃ c : Command, WfCommand c ∧ r = c.intoMsg) :
    ∀ r, outstanding p1.cmdState = some r → ∃ c : Command, WfCommand c ∧ r = c.intoMsg := by
  by_cases hop : ∀ cx, op ≠ .pollNext cx
  · cases ho : outstanding p.cmdState with
    | some r =>
      rw [(busy_step hs hop ho).1]
      rw [ho] at h; exact h
    | none =>
      cases hs with
      | send cmd _ _ _ _ _ => intro r hr; cases hr; exact ⟨cmd, hwf cmd rfl, rfl⟩
      | arrive _ => exact h
      | writable _ => exact h
      | next cx _ _ _ _ _ => exact absurd rfl (hop cx)
      | ready cx _ _ hr =>
        cases hr with
        | idle hi => exact h
        | wait rq w hb => rw [hb] at ho; cases ho
        | flushed rq w c hb _ => rw [hb] at ho; cases ho
        | blocked rq w c hb _ => rw [hb] at ho; cases ho
        | failed rq w c e hb _ => rw [hb] at ho; cases ho
      | flush cx _ _ hf => rw [flush_outstanding hf]; exact h
      | close cx _ _ hc =>
        cases hc with
        | flushed q r c hf _ => dsimp only; rw [flush_outstanding hf]; exact h
        | stuck r _ _ hf => rw [flush_outstanding hf]; exact h
  · cases hs with
    | next cx new r w _ hn =>
      cases hn with
      | packet pkt c ev w _ _ hi =>
        rcases (interp_keeps hi).2.1 with h2 | h2
        · rw [h2]; exact h
        · rw [h2]; intro r hr; cases hr
      | error _ _ _ => exact h
      | ended _ _ => exact h
      | idle _ _ _ => exact h
      | wait _ _ _ _ _ => exact h
      | fire _ _ _ _ _ _ _ => exact h
    | _ => exact absurd (by intro cx h; cases h) hop

theorem busy_hist_bridge {p p1 : Panel} {ops outs} (hh : Hist p ops outs p1)
    (hwf : ∀ c ∈ commands ops, WfCommand c)
    (h : ∀ r, outstanding p.cmdState = some r → ∃ c : Command, WfCommand c ∧ r = c.intoMsg) :
    ∀ r, outstanding p1.cmdState = some r → ∃ c : Command, WfCommand c ∧ r = c.intoMsg := by
  induction hh with
  | nil _ => exact h
  | cons _ hc _ ih =>
    refine ih (fun c hc => hwf c ?_) (busy_keep hc (fun c ho => hwf c ?_) h)
    · unfold commands at hc ⊢
      rw [List.mem_filterMap] at hc ⊢
      exact hc.imp fun _ h => ⟨List.mem_cons_of_mem _ h.1, h.2⟩
    · subst ho
      exact List.mem_filterMap.mpr ⟨_, List.mem_cons_self .., rfl⟩

/-- With no command accepted, an empty write buffer stays empty. -/
theorem empty_keep {p p1 : Panel} {ops outs} (hh : Hist p ops outs p1) (hc : commands ops = [])
    (he : p.conn.wbuf = []) : p1.conn.wbuf = [] := by
  obtain ⟨h1, new, h2⟩ := bytes_hist hh (by rw [hc]; simp)
  rw [hc, he, h2, List.append_assoc] at h1
  simp only [List.flatMap_nil, List.append_nil] at h1
  have h3 : new ++ p1.conn.wbuf = [] := List.append_right_eq_self.mp h1
  exact (List.append_eq_nil_iff.mp h3).2

theorem bcase_good {b b' : Bridge} {op o} (h : BCase b op o b') (hg : BGood b) : BGood b' := by
  obtain ⟨ops, outs, hr, hcm, _⟩ := bcase_panel h
  have hh := hist_of_run hg.good hr
  obtain ⟨s1, s2, _, _⟩ := bcase_static h
  have hcw : ∀ c ∈ commands ops, WfCommand c := by
    intro c hcc
    rw [hcm] at hcc
    cases h with
    | accepted cx pf c' p1 panel hw _ _ =>
      have : c = c' := by simpa [given] using hcc
      subst this
      exact hg.cmd c hw
    | _ => cases hcc
  have key : (∀ c, b'.waiting = .ready c → WfCommand c) ∧
      (b'.waiting ≠ .flush → b'.panel.conn.wbuf = []) ∧
      (b'.waiting = .flush → ∃ r f w, b'.panel.cmdState = .busy r f w) := by
    cases h with
    | asked cx pf p inbox ops outs panel c hw hi hp hc =>
      refine ⟨?_, fun _ => empty_keep hh hcm (hg.empty (by rw [hw]; simp)), by simp⟩
      intro c' h'
      cases h'
      exact commandFor_wf hg.usable.areas ((C25_number _).2.2 _ hg.code).1 hc
    | notReady cx pf c panel hw hr =>
      exact ⟨hg.cmd, fun _ => empty_keep hh hcm (hg.empty (by rw [hw]; simp)), by rw [hw]; simp⟩
    | arrive _ => exact ⟨hg.cmd, hg.empty, hg.flushing⟩
    | writable _ => exact ⟨hg.cmd, hg.empty, hg.flushing⟩
    | deliver _ => exact ⟨hg.cmd, hg.empty, hg.flushing⟩
    | event _ _ _ _ _ _ hw _ _ =>
      exact ⟨hg.cmd, fun _ => empty_keep hh hcm (hg.empty (by rw [hw]; simp)), by rw [hw]; simp⟩
    | ignored _ _ _ _ _ _ _ hw _ _ _ =>
      exact ⟨hg.cmd, fun _ => empty_keep hh hcm (hg.empty (by rw [hw]; simp)), by rw [hw]; simp⟩
    | idle _ _ _ _ hw _ _ =>
      exact ⟨hg.cmd, fun _ => empty_keep hh hcm (hg.empty (by rw [hw]; simp)), by rw [hw]; simp⟩
    | accepted cx pf c p1 panel hw hr hs =>
      refine ⟨by simp, by simp, fun _ => ?_⟩
      rcases startSend_cases p1 c with ⟨_, _, _, _, h⟩ | ⟨_, ⟨_, _, _, _, h⟩ | ⟨_, h⟩⟩
      · rw [h] at hs; cases hs
      · rw [h] at hs; cases hs; exact ⟨_, _, _, rfl⟩
      · rw [h] at hs; cases hs
    | notFlushed cx pf panel hw hf =>
      refine ⟨hg.cmd, by rw [hw]; simp, fun _ => ?_⟩
      have hfc := pollFlush_cases b.panel cx
      rw [hf] at hfc
      cases hfc with
      | blocked r w c hb _ => exact ⟨r, false, w, hb⟩
    | sent cx pf panel hw hf =>
      refine ⟨by simp, fun _ => ?_, by simp⟩
      have hfc := pollFlush_cases b.panel cx
      rw [hf] at hfc
      cases hfc with
      | nothing hn =>
        obtain ⟨r, f, w, hb⟩ := hg.flushing hw
        cases f with
        | false => exact absurd hb (hn r w)
        | true => exact hg.good.flushed r w hb
      | flushed r w c hb hs => exact hs.done rfl
  exact ⟨hh.good, hist_wf hh hg.wf, by rw [s1]; exact hg.usable, by rw [s1, s2]; exact hg.code,
    busy_hist_bridge hh hcw hg.busy, key.1, key.2.1, key.2.2⟩

theorem bhist_good {b b' : Bridge} {ops obs} (h : BHist b ops obs b') (hg : BGood b) : BGood b' := by
  induction h with
  | nil => exact hg
  | cons hc _ ih => exact ih (bcase_good hc hg)

/-! ## Events -/

/-- Which messages can be serialized. -/
theorem message_serialize (m : Message) :
    (∃ r, m = .zoneStatusReport r ∧ m.serialize = .error .todo) ∨
    ((∀ r, m ≠ .zoneStatusReport r) ∧ ∃ j, m.serialize = .ok j) := by
  cases m with
  | zoneStatusReport r => exact .inl ⟨r, rfl, rfl⟩
  | _ => exact .inr ⟨by simp, _, rfl⟩

theorem event_serialize (ev : Event) (hc : ∀ r, ev.completes ≠ some (.zoneStatusReport r)) :
    (∃ r, ev.msg = some (.ok (.zoneStatusReport r)) ∧ ev.serialize = .error .todo) ∨
    ((∀ r, ev.msg ≠ some (.ok (.zoneStatusReport r))) ∧ ∃ j, ev.serialize = .ok j) := by
  obtain ⟨pkt, msg, completes, change⟩ := ev
  have h1 : ∃ j, Json.ofOption (fun p : Packet => .ok p.serialize) pkt = .ok j := by
    cases pkt <;> exact ⟨_, rfl⟩
  have h3 : ∃ j, Json.ofOption Message.serialize completes = .ok j := by
    cases completes with
    | none => exact ⟨_, rfl⟩
    | some m =>
      rcases message_serialize m with ⟨r, rfl, _⟩ | ⟨_, h⟩
      · exact absurd rfl (hc r)
      · exact h
  have h4 : ∃ j, Json.ofOption (fun c : Change => .ok c.serialize) change = .ok j := by
    cases change <;> exact ⟨_, rfl⟩
  obtain ⟨j1, h1⟩ := h1
  obtain ⟨j3, h3⟩ := h3
  obtain ⟨j4, h4⟩ := h4
  unfold Event.serialize
  dsimp only
  rw [h1]
  simp only [bind_ok]
  match msg with
  | none => refine .inr ⟨by simp, ?_⟩; simp only [Json.ofOption, bind_ok] at h3 h4 ⊢; rw [h3, h4]; exact ⟨_, rfl⟩
  | some (.error e) =>
    refine .inr ⟨by simp, ?_⟩
    simp only [Json.ofOption, serializeResult, bind_ok] at h3 h4 ⊢
    rw [h3, h4]; exact ⟨_, rfl⟩
  | some (.ok m) =>
    rcases message_serialize m with ⟨r, rfl, h⟩ | ⟨hn, j, h⟩
    · exact .inl ⟨r, rfl, rfl⟩
    · refine .inr ⟨by simpa using hn, ?_⟩
      simp only [Json.ofOption, serializeResult, bind_ok] at h3 h4 ⊢
      rw [h]
      simp only [bind_ok]
      rw [h3, h4]; exact ⟨_, rfl⟩

/-- What a completed request is. -/
theorem completes_command {p p1 : Panel} {cx w ev} (hg : Good p)
    (hb : ∀ r, outstanding p.cmdState = some r → ∃ c : Command, WfCommand c ∧ r = c.intoMsg)
    (h : p.pollNext cx = .ok (.ready (some (.ok ev)), w, p1)) {r : Message}
    (hr : ev.completes = some r) : ∃ c : Command, WfCommand c ∧ r = c.intoMsg := by
  have hs := step_cases hg.sane (next_step.mpr h)
  cases hs with
  | next _ new _ _ _ hn =>
    cases hn with
    | packet pkt c ev w _ _ hi =>
      cases hi with
      | bad e _ => cases hr
      | skip _ => cases hr
      | msg m ch q comp w _ _ _ ht hc =>
        cases hc with
        | done rq f w hq _ =>
          cases hr
          refine hb _ ?_
          rw [(track_keeps ht).2.1] at hq
          dsimp only at hq
          rw [hq]; rfl
        | busy _ _ _ _ _ => cases hr
        | idle _ => cases hr
    | fire _ _ _ _ _ _ _ => cases hr

theorem command_ne {c : Command} (r : ZoneStatusReport) : c.intoMsg ≠ .zoneStatusReport r := by
  cases c <;> simp [Command.intoMsg]

/-- The zone of a change is in range. -/
theorem change_zone {p p1 : Panel} {cx w ev} (hg : Good p)
    (h : p.pollNext cx = .ok (.ready (some (.ok ev)), w, p1)) {zone : Zone} {prior}
    (hz : ev.change = some (.zoneChange zone prior)) :
    ∃ i : Fin 208, zone.val.toNat = i.val + 1 := by
  have hs := step_cases hg.sane (next_step.mpr h)
  cases hs with
  | next _ new _ _ _ hn =>
    cases hn with
    | packet pkt c ev w _ _ hi =>
      cases hi with
      | bad e _ => cases hz
      | skip _ => cases hz
      | msg m ch q comp w _ _ _ ht hc =>
        dsimp only at hz
        subst hz
        generalize hch : some (Change.zoneChange zone prior) = ch at ht
        cases ht with
        | zcSet m z i hi _ he =>
          split at hch
          · cases hch; exact ⟨⟨i, hi⟩, he⟩
          · cases hch
        | asNew _ _ _ _ _ => cases hch
        | _ => cases hch
    | fire _ _ _ _ _ _ _ => cases hz

theorem lookup_mem {β : Type} {k : UInt8} : ∀ {l : List (UInt8 × β)} {v : β},
    l.lookup k = some v → (k, v) ∈ l := by
  intro l
  induction l with
  | nil => intro v h; cases h
  | cons a l ih =>
    intro v h
    obtain ⟨k', v'⟩ := a
    rw [List.lookup_cons] at h
    split at h
    · rename_i hk
      simp only [beq_iff_eq] at hk
      cases h; subst hk; exact List.mem_cons_self ..
    · exact List.mem_cons_of_mem _ (ih h)

theorem lookup_none {β : Type} {k : UInt8} : ∀ {l : List (UInt8 × β)},
    l.lookup k = none → ∀ a ∈ l, a.1 ≠ k := by
  intro l
  induction l with
  | nil => intro _ a h; cases h
  | cons a l ih =>
    intro h b hb
    obtain ⟨k', v'⟩ := a
    rw [List.lookup_cons] at h
    split at h
    · cases h
    · rename_i hk
      simp only [beq_eq_false_iff_ne, ne_eq] at hk
      rcases List.mem_cons.mp hb with rfl | hb
      · exact fun h => hk h.symm
      · exact ih h b hb

/-- What is published for an event, and when that succeeds. -/
theorem publishEvent_iff {b : Bridge} (hg : BGood b) {cx w ev panel}
    (hn : b.panel.pollNext cx = .ok (.ready (some (.ok ev)), w, panel)) :
    (∃ r, ev.msg = some (.ok (.zoneStatusReport r)) ∧
      publishEvent panel b.cfg ev = .error .todo) ∨
    ((∀ r, ev.msg ≠ some (.ok (.zoneStatusReport r))) ∧
      ∃ json ch, ev.serialize = .ok json ∧ publishChange panel b.cfg ev.change = .ok ch ∧
        publishEvent panel b.cfg ev =
          .ok (⟨eventTopic b.cfg.prefix, false, .json json⟩ :: ch)) := by
  have hcc : ∀ r, ev.completes ≠ some (.zoneStatusReport r) := by
    intro r h
    obtain ⟨c, _, hc⟩ := completes_command hg.good hg.busy hn h
    exact command_ne r hc.symm
  rcases event_serialize ev hcc with ⟨r, h1, h2⟩ | ⟨h1, j, h2⟩
  · refine .inl ⟨r, h1, ?_⟩
    unfold publishEvent
    rw [h2]; rfl
  · refine .inr ⟨h1, j, ?_⟩
    have hsc := step_cases hg.good.sane (next_step.mpr hn)
    have g' := step_good hg.good hsc
    have w' := step_wf hsc hg.wf
    obtain ⟨a', ha'⟩ := Option.ne_none_iff_exists'.mp g'.has
    obtain ⟨z', hz'⟩ := Option.ne_none_iff_exists'.mp g'.zones
    have : ∃ ch, publishChange panel b.cfg ev.change = .ok ch := by
      unfold publishChange
      split
      · exact ⟨_, (publishAreaStates_ok (arming_iff.mpr ha')).mpr ⟨fun a ha =>
          ⟨hg.usable.areas a ha, areaTopic_noWildcard.mpr ⟨hg.usable.pre, hg.usable.areaNames a ha⟩⟩,
          rfl⟩⟩
      · rename_i zone prior he
        obtain ⟨i, hi⟩ := change_zone hg.good hn he
        split
        · exact ⟨_, rfl⟩
        · rename_i z hl
          have hm := lookup_mem hl
          exact ⟨_, (publishZoneState_ok (zones_iff.mpr hz') (w' z' hz') hi).mpr
            ⟨zoneTopic_noWildcard.mpr ⟨hg.usable.pre, hg.usable.zoneNames _ hm⟩, rfl⟩⟩
      · exact ⟨_, rfl⟩
    obtain ⟨ch, hch⟩ := this
    refine ⟨ch, h2, hch, ?_⟩
    unfold publishEvent
    have : publish (eventTopic b.cfg.prefix) false (.json j) =
        .ok [⟨eventTopic b.cfg.prefix, false, .json j⟩] :=
      publish_ok.mpr ⟨event_noWildcard.mpr hg.usable.pre, rfl⟩
    rw [h2]
    simp only [bind_ok]
    rw [this]
    simp only [bind_ok]
    rw [hch]
    rfl

/-! ## The retained states -/

/-- The broker holds, for every configured area and zone, the state derived from the views. -/
def Shown (b : Bridge) : Prop :=
  ∃ r z, b.panel.armingStatus = .ok r ∧ b.panel.zoneStatuses = .ok z ∧
    (∀ a ∈ b.cfg.elk.areas, retained b.log (areaStateTopic b.cfg.prefix a.2.name) =
      some (.text (areaText r (ofId 8 a.1)))) ∧
    (∀ a ∈ b.cfg.elk.zones, retained b.log (zoneStateTopic b.cfg.prefix a.2.name) =
      some (.text (bs (zoneText z.zones[ofId 208 a.1].val.toNat))))

theorem nodup_map_inj {α β γ : Type} {l : List α} {f : α → β} {g : β → γ}
    (h : (l.map f).Nodup) (hg : ∀ x y, g x = g y → x = y) : (l.map fun a => g (f a)).Nodup := by
  have : (l.map fun a => g (f a)) = (l.map f).map g := by simp
  rw [this]
  exact List.Pairwise.map g (fun a b hab h => hab (hg a b h)) h

/-- Two elements with the same key are the same. -/
theorem nodup_key {α β : Type} {l : List α} {f : α → β} (h : (l.map f).Nodup) {a b : α}
    (ha : a ∈ l) (hb : b ∈ l) (he : f a = f b) : a = b := by
  induction l with
  | nil => cases ha
  | cons c l ih =>
    rw [List.map_cons, List.nodup_cons] at h
    rcases List.mem_cons.mp ha with h1 | h1 <;> rcases List.mem_cons.mp hb with h2 | h2
    · rw [h1, h2]
    · exact absurd (by rw [← h1, he]; exact List.mem_map_of_mem h2) h.1
    · exact absurd (by rw [← h2, ← he]; exact List.mem_map_of_mem h1) h.1
    · exact ih h.2 h1 h2

theorem retained_areas {cfg : Cfg} (hd : DistinctNames cfg) (r : ArmingStatusReport)
    {a : UInt8 × AreaCfg} (ha : a ∈ cfg.elk.areas) :
    retained (areaMsgs cfg.prefix r cfg.elk.areas) (areaStateTopic cfg.prefix a.2.name) =
      some (.text (areaText r (ofId 8 a.1))) :=
  retained_map (f := fun a : UInt8 × AreaCfg => areaStateTopic cfg.prefix a.2.name)
    (g := fun a => .text (areaText r (ofId 8 a.1)))
    (nodup_map_inj hd.areas fun _ _ => areaState_inj) ha

theorem retained_zones {cfg : Cfg} (hd : DistinctNames cfg) (z : ZoneStatusReport)
    {a : UInt8 × ZoneCfg} (ha : a ∈ cfg.elk.zones) :
    retained (zoneMsgs cfg.prefix z cfg.elk.zones) (zoneStateTopic cfg.prefix a.2.name) =
      some (.text (bs (zoneText z.zones[ofId 208 a.1].val.toNat))) :=
  retained_map (f := fun a : UInt8 × ZoneCfg => zoneStateTopic cfg.prefix a.2.name)
    (g := fun a => .text (bs (zoneText z.zones[ofId 208 a.1].val.toNat)))
    (nodup_map_inj hd.zones fun _ _ => zoneState_inj) ha

theorem areaMsgs_topic {pre : Bytes} {r : ArmingStatusReport} {l : List (UInt8 × AreaCfg)} {m}
    (h : m ∈ areaMsgs pre r l) : ∃ n, m.topic = areaStateTopic pre n := by
  obtain ⟨a, _, rfl⟩ := List.mem_map.mp h
  exact ⟨_, rfl⟩

theorem zoneMsgs_topic {pre : Bytes} {z : ZoneStatusReport} {l : List (UInt8 × ZoneCfg)} {m}
    (h : m ∈ zoneMsgs pre z l) : ∃ n, m.topic = zoneStateTopic pre n := by
  obtain ⟨a, _, rfl⟩ := List.mem_map.mp h
  exact ⟨_, rfl⟩

theorem start_shown {cfg : Cfg} {p : Panel} (hc : Connected p) (hw : WfView p)
    (hd : DistinctNames cfg) {b : Bridge} (h : Bridge.start cfg p = .ok b) : Shown b := by
  obtain ⟨r, hr⟩ := hc.arming
  obtain ⟨z, hz⟩ := hc.zones
  obtain ⟨hu, code, h1, rfl⟩ := (start_iff hr hz (hw z hz)).mp h
  refine ⟨r, z, hr, hz, ?_, ?_⟩
  · intro a ha
    dsimp only at ha ⊢
    rw [retained_append, retained_append, retained_append, retained_areas hd r ha]
    rw [retained_none (l := zoneMsgs _ _ _), retained_none (l := [_])]
    · rfl
    · intro m hm _
      rw [List.mem_singleton.mp hm]
      exact fun h => area_ne_avail h.symm
    · intro m hm _
      obtain ⟨n, hn⟩ := zoneMsgs_topic hm
      rw [hn]; exact fun h => area_ne_zone h.symm
  · intro a ha
    dsimp only at ha ⊢
    rw [retained_append, retained_append, retained_zones hd z ha]
    rw [retained_none (l := [_])]
    · rfl
    · intro m hm _
      rw [List.mem_singleton.mp hm]
      exact fun h => zone_ne_avail h.symm

theorem retained_event (t : Bytes) (j : Payload) (l : List Published) (t' : Bytes) :
    retained (⟨t, false, j⟩ :: l) t' = retained l t' := by
  rw [← List.singleton_append, retained_append, retained_none (l := [_])]
  · simp
  · intro m hm hr
    rw [List.mem_singleton.mp hm] at hr
    cases hr

theorem event_shown {b : Bridge} (hg : BGood b) (hm : MapCfg b.cfg) (hd : DistinctNames b.cfg)
    (hs : Shown b) {cx w ev panel out}
    (hn : b.panel.pollNext cx = .ok (.ready (some (.ok ev)), w, panel))
    (ho : publishEvent panel b.cfg ev = .ok out) :
    Shown { b with panel, log := b.log ++ out } := by
  rcases publishEvent_iff hg hn with ⟨_, _, h⟩ | ⟨hzs, json, ch, _, hch, h⟩
  · rw [h] at ho; cases ho
  · rw [h] at ho
    cases ho
    obtain ⟨r, z, hr, hz, hA, hZ⟩ := hs
    obtain ⟨a, a', z1, z', ha, ha', hz1, hz', ht⟩ := change_next hg.good (next_step.mpr hn) hzs
    rw [hr] at ha
    rw [hz] at hz1
    cases ha
    cases hz1
    have hsc := step_cases hg.good.sane (next_step.mpr hn)
    have w' := step_wf hsc hg.wf
    refine ⟨a', z', ha', hz', ?_, ?_⟩
    · intro a ha
      dsimp only at ha ⊢
      rw [retained_append, retained_event]
      unfold publishChange at hch
      split at hch
      · rw [((publishAreaStates_ok ha').mp hch).2, retained_areas hd a' ha]
        rfl
      · rename_i zone prior he
        rw [he] at ht
        rw [show a' = r from ht.1]
        split at hch
        · cases hch
          rw [retained_nil, hA a ha]; rfl
        · obtain ⟨i, hi⟩ := change_zone hg.good hn he
          rw [((publishZoneState_ok hz' (w' z' (zones_iff.mp hz')) hi).mp hch).2]
          rw [retained_none (l := [_]), hA a ha]
          · rfl
          · intro m hm _
            rw [List.mem_singleton.mp hm]
            exact fun h => area_ne_zone h.symm
      · rename_i he
        cases hch
        rw [he] at ht
        rw [show a' = r from ht.1, retained_nil, hA a ha]; rfl
    · intro a ha
      dsimp only at ha ⊢
      rw [retained_append, retained_event]
      unfold publishChange at hch
      split at hch
      · rename_i prior he
        rw [he] at ht
        rw [((publishAreaStates_ok ha').mp hch).2, retained_none, show z' = z from ht.2.2, hZ a ha]
        · rfl
        · intro m hm _
          obtain ⟨n, hn⟩ := areaMsgs_topic hm
          rw [hn]; exact area_ne_zone
      · rename_i zone prior he
        rw [he] at ht
        obtain ⟨_, i, hi, hzi, _, _, hj⟩ := ht
        have hu := hg.usable.zones a ha
        have hid := ofId_spec (n := 208) hu.1 hu.2
        have same : a.1 ≠ zone.val → z'.zones[ofId 208 a.1] = z.zones[ofId 208 a.1] := by
          intro hne
          refine hj _ (ofId 208 a.1).isLt ?_
          intro he
          apply hne
          apply UInt8.toNat_inj.mp
          omega
        split at hch
        · rename_i hl
          cases hch
          rw [retained_nil, same (lookup_none hl a ha), hZ a ha]; rfl
        · rename_i zc hl
          have hmem := lookup_mem hl
          rw [((publishZoneState_ok hz' (w' z' (zones_iff.mp hz')) (i := ⟨i, hi⟩) hzi).mp hch).2]
          by_cases hk : a.1 = zone.val
          · have : a = (zone.val, zc) := nodup_key hm.zones ha hmem hk
            subst this
            have hiz : (ofId 208 zone.val).val = i := by
              rw [← ofId_eq (n := 208) (i := ⟨i, hi⟩) hzi]
            unfold retained
            simp only [Fin.getElem_fin, hiz]
            simp
          · rw [retained_none (l := [_]), same hk, hZ a ha]
            · rfl
            · intro m hm' _
              rw [List.mem_singleton.mp hm']
              intro he
              have hname := zoneState_inj he
              exact hk (congrArg Prod.fst (nodup_key hd.zones ha hmem hname.symm))
      · rename_i he
        cases hch
        rw [he] at ht
        rw [show z' = z from ht.2, retained_nil, hZ a ha]; rfl

theorem bcase_shown {b b' : Bridge} {op o} (h : BCase b op o b') (hg : BGood b)
    (hm : MapCfg b.cfg) (hd : DistinctNames b.cfg) (hs : Shown b) : Shown b' := by
  have quiet : ∀ {b' : Bridge}, b'.cfg = b.cfg → b'.log = b.log →
      b'.panel.armingStatus = b.panel.armingStatus ∧
        b'.panel.zoneStatuses = b.panel.zoneStatuses → Shown b' := by
    intro b' h1 h2 h3
    unfold Shown at *
    rw [h1, h2, h3.1, h3.2]
    exact hs
  have polled : ∀ {cx ops outs panel}, Polled b.panel cx ops outs panel →
      panel.armingStatus = b.panel.armingStatus ∧ panel.zoneStatuses = b.panel.zoneStatuses := by
    intro cx ops outs panel hp
    cases hp with
    | no => exact ⟨rfl, rfl⟩
    | yes w _ h => exact views_next hg.good (next_step.mpr h) rfl
  cases h with
  | event cx pf ev out w panel hw hn ho => exact event_shown hg hm hd hs hn ho
  | arrive _ => exact quiet rfl rfl ⟨rfl, rfl⟩
  | writable _ => exact quiet rfl rfl ⟨rfl, rfl⟩
  | deliver _ => exact quiet rfl rfl ⟨rfl, rfl⟩
  | ignored _ _ _ _ _ _ _ _ _ hp _ => exact quiet rfl rfl (polled hp)
  | asked _ _ _ _ _ _ _ _ _ _ hp _ => exact quiet rfl rfl (polled hp)
  | idle cx pf w panel _ _ hn => exact quiet rfl rfl (polled (.yes w panel hn))
  | notReady cx pf c panel hw hr =>
    have hs : b.panel.step (.pollReady cx) = .ok (.sink .pending, panel) := by
      unfold Panel.step; dsimp only; rw [hr]
    exact quiet rfl rfl (views_next hg.good hs rfl)
  | accepted cx pf c p1 panel hw hr hs =>
    have hs1 : b.panel.step (.pollReady cx) = .ok (.sink (.ready (.ok ())), p1) := by
      unfold Panel.step; dsimp only; rw [hr]
    have hs2 : p1.step (.startSend c) = .ok (.accepted, panel) := by
      unfold Panel.step; dsimp only; rw [hs]; rfl
    have h1 := views_next hg.good hs1 rfl
    have h2 := views_next (step_good hg.good (step_cases hg.good.sane hs1)) hs2 rfl
    exact quiet rfl rfl ⟨h2.1.trans h1.1, h2.2.trans h1.2⟩
  | notFlushed cx pf panel hw hf =>
    have hs : b.panel.step (.pollFlush cx) = .ok (.sink .pending, panel) := by
      unfold Panel.step; dsimp only; rw [hf]
    exact quiet rfl rfl (views_next hg.good hs rfl)
  | sent cx pf panel hw hf =>
    have hs : b.panel.step (.pollFlush cx) = .ok (.sink (.ready (.ok ())), panel) := by
      unfold Panel.step; dsimp only; rw [hf]
    exact quiet rfl rfl (views_next hg.good hs rfl)

theorem bhist_shown {b b' : Bridge} {ops obs} (h : BHist b ops obs b') (hg : BGood b)
    (hm : MapCfg b.cfg) (hd : DistinctNames b.cfg) (hs : Shown b) : Shown b' := by
  induction h with
  | nil => exact hs
  | cons hc _ ih =>
    have e := (bcase_static hc).1
    exact ih (bcase_good hc hg) (by rw [e]; exact hm) (by rw [e]; exact hd)
      (bcase_shown hc hg hm hd hs)

end Elk
