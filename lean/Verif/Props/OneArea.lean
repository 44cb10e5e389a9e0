import Verif.Spec.OneArea
import Verif.Props.OneZone
import Verif.Props.Calm
/-!
# C164: how areas influence each other

A report on all areas is withheld because of one of them; but for that, areas do not influence each
other.
-/

namespace Elk.Props

open Elk.Spec

/-! ## In the end -/

theorem last_said (i : Fin 8) (ms : List Message) :
    (ms.filterMap (areaSaid i)).getLast? = (lastOnAreas ms).map (areaWord i) := by
  unfold lastOnAreas
  rw [← List.getLast?_map, List.map_filterMap]
  rfl

/-- **C164** (partial) A settled session shows for each area the last word on it. Missing: sessions that
are not settled, for which it is false of the code (`C164_influenced`). -/
theorem C164_settled_partial {p : Panel} (s : Session p) (hs : SettledSession s) {ms : List Message}
    (hm : Messages p.conn.sock.received ms) (i : Fin 8) :
    ∃ r, p.armingStatus = .ok r ∧ (ms.filterMap (areaSaid i)).getLast? = some (areaWord i r) := by
  obtain ⟨r, h1, h2⟩ := C162_areas s hs hm
  exact ⟨r, h1, by rw [last_said, h2]; rfl⟩

/-! ## What is published -/

theorem news_cons {α : Type} [DecidableEq α] (x t : α) {l l' : List α} (h : news t l = news t l') :
    news x (t :: l) = news x (t :: l') := by
  unfold news
  split
  · next e => rw [e]; exact h
  · rw [h]

theorem areaTexts_append (cfg : Cfg) (name : Bytes) (a b : List Published) :
    areaTexts cfg name (a ++ b) = areaTexts cfg name a ++ areaTexts cfg name b := by
  unfold areaTexts
  rw [List.filter_append, List.filter_append, List.map_append]

theorem areaTexts_nil {cfg : Cfg} {name : Bytes} {l : List Published}
    (h : ∀ m ∈ l, m.topic ≠ areaStateTopic cfg.prefix name) : areaTexts cfg name l = [] := by
  unfold areaTexts
  rw [List.filter_eq_nil_iff.mpr]
  · rfl
  · intro m hm
    rw [decide_eq_true_eq]
    exact h m (List.mem_filter.mp hm).1

/-- A text for each status of an area. -/
theorem texts_exist : ∃ text : AreaWord → String,
    ∀ w, AreaShows w.arming w.up (Seen w.alarm) (text w) := by
  have h : ∀ w : AreaWord, ∃ t, AreaShows w.arming w.up (Seen w.alarm) t := by
    intro w
    by_cases h1 : IsAlarm (Seen w.alarm)
    · exact ⟨_, .triggered h1⟩
    · by_cases h2 : Seen w.alarm = .alarmAbortDelayActive
      · exact ⟨_, .pending h2⟩
      · by_cases h3 : w.up = .armedWithExitTimer
        · exact ⟨_, .arming h1 h2 h3⟩
        · exact ⟨_, .mode h1 h2 h3⟩
  exact ⟨fun w => (h w).choose, fun w => (h w).choose_spec⟩

theorem areaLines_texts {cfg : Cfg} {as : List (UInt8 × AreaCfg)} {r : ArmingStatusReport}
    {out : List Published} (h : Each (AreaLine cfg.prefix r) as out)
    (hd : (as.map (·.2.name)).Nodup) {a : UInt8 × AreaCfg} (ha : a ∈ as) {i : Fin 8}
    (hi : a.1.toNat = i.val + 1) {text : AreaWord → String}
    (ht : ∀ w, AreaShows w.arming w.up (Seen w.alarm) (text w)) :
    areaTexts cfg a.2.name out = [some (bs (text (areaWord i r)))] := by
  have other : ∀ {as : List (UInt8 × AreaCfg)} {out : List Published},
      Each (AreaLine cfg.prefix r) as out → a.2.name ∉ as.map (·.2.name) →
      areaTexts cfg a.2.name out = [] := by
    intro as out h hn
    refine areaTexts_nil fun m hm e => hn ?_
    induction h with
    | nil => cases hm
    | cons x _ ih =>
      rw [List.map_cons, List.mem_cons, not_or] at hn
      rcases List.mem_cons.mp hm with rfl | hm
      · cases x with
        | state _ _ => exact absurd (areaState_inj e).symm hn.1
      · exact List.mem_cons_of_mem _ (ih hn.2 hm)
  induction h with
  | nil => cases ha
  | @cons x m as out hx hs ih =>
    rw [List.map_cons, List.nodup_cons] at hd
    rw [← List.singleton_append, areaTexts_append]
    rcases List.mem_cons.mp ha with rfl | hm
    · rw [other hs hd.1]
      have hl : AreaLine cfg.prefix r a
          ⟨cfg.prefix ++ bs "/area/" ++ a.2.name ++ bs "/ha_state", true,
            .text (bs (text (areaWord i r)))⟩ :=
        .state (i := i.val) (hi := i.isLt) hi (ht (areaWord i r))
      rw [areaLine_one _ _ _ hx hl]
      unfold areaTexts
      rw [List.filter_cons_of_pos rfl, List.filter_cons, if_pos (decide_eq_true (by rfl))]
      rfl
    · rw [ih hd.2 hm]
      cases hx with
      | state _ _ =>
        rw [areaTexts_nil]
        · rfl
        · intro m' hm' e
          rw [List.mem_singleton.mp hm'] at e
          exact hd.1 (List.mem_map.mpr ⟨a, hm, (areaState_inj e).symm⟩)

theorem picks_texts {cfg : Cfg} (hd : DistinctNames cfg) {a : UInt8 × AreaCfg}
    (ha : a ∈ cfg.elk.areas) {i : Fin 8} (hi : a.1.toNat = i.val + 1) {text : AreaWord → String}
    (ht : ∀ w, AreaShows w.arming w.up (Seen w.alarm) (text w)) {s s' : Vista} {ps : List Packet}
    {l : List (Event × Vista)} {out : List Published} (h : PicksAll s ps l s')
    (hp : Posts cfg l out) (hv : ∀ p ∈ ps, ValidPacket p ∨ ∃ i, p = .invalid i) :
    news (some (bs (text (areaWord i s.shown)))) (areaTexts cfg a.2.name out) =
      news (some (bs (text (areaWord i s.shown))))
        (((ps.filterMap says).filterMap (areaSaid i)).map fun w => some (bs (text w))) := by
  induction h generalizing out with
  | nil => cases hp; rfl
  | @cons s s₁ s₂ pkt ps ev l hh _ ih =>
    cases hp with
    | @cons _ _ o o' hu hp =>
      have ih := ih hp fun p hp => hv p (List.mem_cons_of_mem _ hp)
      have hv := hv _ List.mem_cons_self
      have said : ∀ {m}, Means pkt (some (.ok m)) →
          ((pkt :: ps).filterMap says) = m :: ps.filterMap says := fun a =>
        List.filterMap_cons_some (says_of_means hv a)
      have zone : ∀ {z : Zone} {prior}, Updates cfg s₁.view (some (.zoneChange z prior)) o →
          areaTexts cfg a.2.name o = [] := by
        intro z prior h
        refine areaTexts_nil fun m hm e => ?_
        cases h with
        | zone _ hz =>
          rw [List.mem_singleton.mp hm] at e
          cases hz with
          | state _ => exact area_ne_zone e.symm
        | other _ => cases hm
      have none : Updates cfg s₁.view none o → areaTexts cfg a.2.name o = [] := by
        intro h
        cases h
        rfl
      rw [areaTexts_append]
      cases hh with
      | @report m hm hne =>
        rw [said hm, List.filterMap_cons_some (show areaSaid i (.armingStatusReport m) =
          some (areaWord i m) from rfl), List.map_cons]
        cases hu with
        | areas hu =>
          rw [areaLines_texts hu hd.areas ha hi ht, List.singleton_append]
          exact news_cons _ _ ih
      | again hm =>
        rw [said hm, List.filterMap_cons_some (show areaSaid i (.armingStatusReport s.shown) =
          some (areaWord i s.shown) from rfl), List.map_cons, none hu, List.nil_append, ih]
        conv => rhs; unfold news
        rw [if_pos rfl]
      | zone hm _ _ =>
        rw [said hm, List.filterMap_cons_none (by rfl), zone hu, List.nil_append]
        exact ih
      | zoneSame hm _ _ =>
        rw [said hm, List.filterMap_cons_none (by rfl), none hu, List.nil_append]
        exact ih
      | zones hm =>
        rw [said hm, List.filterMap_cons_none (by rfl), none hu, List.nil_append]
        exact ih
      | other hm n1 n2 n3 =>
        rw [none hu, List.nil_append]
        match hs : says pkt with
        | .none => rw [List.filterMap_cons_none hs]; exact ih
        | .some m =>
          have hw : areaSaid i m = .none := by
            have e := means_one hv hm ((means_of_parse hv).1 m (says_some hs))
            unfold areaSaid armingSaid
            split
            · exact absurd e (n1 _)
            · rfl
          rw [List.filterMap_cons_some hs, List.filterMap_cons_none hw]
          exact ih

theorem opens_texts {cfg : Cfg} (hd : DistinctNames cfg) {a : UInt8 × AreaCfg}
    (ha : a ∈ cfg.elk.areas) {i : Fin 8} (hi : a.1.toNat = i.val + 1) {text : AreaWord → String}
    (ht : ∀ w, AreaShows w.arming w.up (Seen w.alarm) (text w)) {v : View} {out : List Published}
    (h : Opens cfg v out) : areaTexts cfg a.2.name out = [some (bs (text (areaWord i v.shown)))] := by
  cases h with
  | @mk docs as zs d1 d2 h1 h2 =>
    rw [areaTexts_append, areaTexts_append, areaTexts_append, areaLines_texts h1 hd.areas ha hi ht]
    rw [areaTexts_nil (l := docs), areaTexts_nil (l := zs), areaTexts_nil (l := [_])]
    · rfl
    · intro m hm e
      rw [List.mem_singleton.mp hm] at e
      exact area_ne_avail e.symm
    · intro m hm e
      clear h1 d1 d2
      generalize cfg.elk.zones = l at h2
      induction h2 with
      | nil => cases hm
      | cons x _ ih =>
        rcases List.mem_cons.mp hm with rfl | hm
        · cases x with
          | state _ => exact area_ne_zone e.symm
        · exact ih hm
    · intro m hm e
      match hx : cfg.mqtt.haDiscoveryPrefix with
      | none => rw [d2 hx] at hm; cases hm
      | some x =>
        rw [d1 x hx] at hm
        rcases List.mem_append.mp hm with hm | hm
        · obtain ⟨y, _, rfl⟩ := List.mem_map.mp hm
          exact area_ne_config.1 e.symm
        · obtain ⟨y, _, rfl⟩ := List.mem_map.mp hm
          exact area_ne_config.2 e.symm

/-- **C164** (partial) If no report is suspicious: all that a bridge ever publishes on the topic of an
area, apart from repetitions, is the text for the status of that area when it got connected, and then
the texts for the words on this area, apart from repetitions. Missing: streams with suspicious reports,
for which it is false of the code (`C164_influenced`). -/
theorem C164_topic_partial {cfg : Cfg} (hd : DistinctNames cfg) {b : Bridge} (s : Service cfg b)
    (hc : CalmBytes b.panel.conn.sock.received) {a : UInt8 × AreaCfg} (ha : a ∈ cfg.elk.areas)
    {i : Fin 8} (hi : a.1.toNat = i.val + 1) {text : AreaWord → String}
    (ht : ∀ w, AreaShows w.arming w.up (Seen w.alarm) (text w)) :
    ∃ r texts, s.p0.armingStatus = .ok r ∧
      areaTexts cfg a.2.name b.log = some (bs (text (areaWord i r))) :: texts ∧
      news (some (bs (text (areaWord i r)))) texts =
        news (some (bs (text (areaWord i r))))
          (((((handled s.obs).filterMap (·.pkt)).filterMap says).filterMap (areaSaid i)).map
            fun w => some (bs (text w))) := by
  have hk := service_taken s
  have hv := taken_valid hk
  obtain ⟨v, l, s', out, c1, _, h1, h2, h3, h4⟩ := service_picks s (calm_taken hc hk)
  obtain ⟨_, e⟩ := connected_calm s.fresh s.connected
    (fun p hp => hv p (List.mem_append_left _ hp)) c1
  refine ⟨v.shown, areaTexts cfg a.2.name out, arming_iff.mpr e, ?_,
    picks_texts (s := v.vista) hd ha hi ht h1 h2 fun p hp => hv p (List.mem_append_right _ hp)⟩
  have e1 : ∀ x y : List Published, x.filter (·.retain) = y.filter (·.retain) →
      areaTexts cfg a.2.name x = areaTexts cfg a.2.name y := fun x y h => by
    unfold areaTexts
    rw [h]
  have e2 : out.filter (·.retain) = out := by
    have : ∀ m ∈ b.log.filter (·.retain), m.retain = true := fun m hm => (List.mem_filter.mp hm).2
    rw [h4] at this
    exact List.filter_eq_self.mpr fun m hm => this m (List.mem_append_right _ hm)
  rw [e1 b.log (s.b0.log ++ out) (by rw [List.filter_append, e2, h4]), areaTexts_append,
    opens_texts hd ha hi ht h3]
  rfl

/-- **C164** (partial) If no report is suspicious: two bridges that started with the same status of an
area and have been told the same on it have published the same on its topic, apart from repetitions,
whatever they were told on the other areas. -/
theorem C164_apart_partial {cfg : Cfg} (hd : DistinctNames cfg) {b b' : Bridge} (s : Service cfg b)
    (s' : Service cfg b') (hc : CalmBytes b.panel.conn.sock.received)
    (hc' : CalmBytes b'.panel.conn.sock.received) {a : UInt8 × AreaCfg} (ha : a ∈ cfg.elk.areas)
    {i : Fin 8} (hi : a.1.toNat = i.val + 1)
    (h0 : ∀ r r', s.p0.armingStatus = .ok r → s'.p0.armingStatus = .ok r' →
      areaWord i r = areaWord i r')
    (hw : (((handled s.obs).filterMap (·.pkt)).filterMap says).filterMap (areaSaid i) =
      (((handled s'.obs).filterMap (·.pkt)).filterMap says).filterMap (areaSaid i)) :
    ∃ t texts texts', areaTexts cfg a.2.name b.log = t :: texts ∧
      areaTexts cfg a.2.name b'.log = t :: texts' ∧ news t texts = news t texts' := by
  obtain ⟨text, ht⟩ := texts_exist
  obtain ⟨r, x, h1, h2, h3⟩ := C164_topic_partial hd s hc ha hi ht
  obtain ⟨r', x', h1', h2', h3'⟩ := C164_topic_partial hd s' hc' ha hi ht
  rw [← h0 r r' h1 h1'] at h2' h3'
  refine ⟨_, x, x', h2, h2', h3.trans ?_⟩
  rw [h3', hw]

/-- Not vacuous: a bridge whose panel sent a calm stream, and the texts on the topic of an area. -/
example : ∃ b, ∃ _ : Service sampleCfg b, CalmBytes b.panel.conn.sock.received ∧
    areaTexts sampleCfg (bs "home") b.log =
      [some (bs "disarmed"), some (bs "arming"), some (bs "armed_away")] := by
  obtain ⟨b, s, _, _, a⟩ := service_of (cfg := sampleCfg) (ops := sampleConnect)
    (later := [.arrive (.data calmNews), .tick ⟨1, 0, 0⟩ true, .tick ⟨1, 0, 0⟩ true,
      .tick ⟨1, 0, 0⟩ true])
    (f := fun r => decide (r.2.panel.conn.sock.received = sampleDialogue ++ calmNews ∧
      areaTexts sampleCfg (bs "home") r.2.log =
        [some (bs "disarmed"), some (bs "arming"), some (bs "armed_away")])) (by decide +kernel)
  rw [decide_eq_true_eq] at a
  have e : b.panel.conn.sock.received = _ := a.1
  exact ⟨b, s, by rw [e]; exact calmNews_calm, a.2⟩

/-! ## False of the code -/

/-- As `armedAndAlarm`, with the first area left alone. -/
def onlyAlarm : ArmingStatusReport where
  armingStatus := Vector.replicate 8 ArmingStatus.disarmed
  upState := Vector.replicate 8 ArmUpState.readyToArm
  alarmState := (Vector.replicate 8 AlarmState.noAlarmActive).set 1 .burglarAlarm
  firstExitTime := 0

theorem session_from {ops : List InitOp} {later : List Op} {f : List Out × Panel → Bool}
    (hw : commands later = []) (h : holds (session ops later) f = true) :
    ∃ p, ∃ s : Session p, Init.connect {} ops = .ok (s.outs, .finished (.ok s.p0)) ∧
      s.later = later ∧ f (s.outs', p) = true := by
  obtain ⟨⟨outs', p⟩, h1, h2⟩ := of_holds h
  unfold session at h1
  match hc : Init.connect {} ops with
  | .error e => rw [hc] at h1; cases h1
  | .ok (outs, ph) =>
    rw [hc] at h1
    change (match ph with
      | .finished (.ok p0) => Panel.run later p0
      | _ => .error .expect) = _ at h1
    split at h1
    · exact ⟨p, ⟨{}, ⟨rfl, rfl, rfl, rfl⟩, ops, outs, _, hc, later, outs', by rw [hw]; simp, h1⟩,
        rfl, rfl, h2⟩
    · cases h1

theorem connected_one {c : Connection} {ops : List InitOp} {outs outs' : List Obs} {p q : Panel}
    (h : Init.connect c ops = .ok (outs, .finished (.ok p)))
    (h' : Init.connect c ops = .ok (outs', .finished (.ok q))) : p = q := by
  rw [h] at h'
  cases h'
  rfl

/-- **C164 is false of the code**: two sessions have been connected alike, and have been told the same on
the second area: that there is a burglar alarm. Both have polled for all that came. The one shows the
alarm, the other does not, because of what it was told on the first area. -/
theorem C164_influenced : ∃ p q, ∃ sp : Session p, ∃ sq : Session q, sp.p0 = sq.p0 ∧
    Spec.Waits p.conn.rd.buffer ∧ Spec.Waits q.conn.rd.buffer ∧
    ((packets sp.outs').filterMap says).filterMap (areaSaid 1) =
      ((packets sq.outs').filterMap says).filterMap (areaSaid 1) ∧
    ∃ r r', p.armingStatus = .ok r ∧ q.armingStatus = .ok r' ∧
      (areaWord 1 r).alarm = .noAlarmActive ∧ (areaWord 1 r').alarm = .burglarAlarm := by
  obtain ⟨p, sp, a1, _, a⟩ := session_from (ops := sampleConnect)
    (later := [.arrive (.data (msgBytes (.armingStatusReport armedAndAlarm))), .pollNext ⟨1, 0, 0⟩,
      .pollNext ⟨1, 0, 0⟩])
    (f := fun r => decide (((packets r.1).filterMap says).filterMap (areaSaid 1) =
        [⟨.disarmed, .readyToArm, .burglarAlarm⟩] ∧ r.2.conn.rd.buffer = [] ∧
      r.2.state.armingStatus = some (sameReport .disarmed .readyToArm))) rfl (by decide +kernel)
  obtain ⟨q, sq, b1, _, b⟩ := session_from (ops := sampleConnect)
    (later := [.arrive (.data (msgBytes (.armingStatusReport onlyAlarm))), .pollNext ⟨1, 0, 0⟩,
      .pollNext ⟨1, 0, 0⟩])
    (f := fun r => decide (((packets r.1).filterMap says).filterMap (areaSaid 1) =
        [⟨.disarmed, .readyToArm, .burglarAlarm⟩] ∧ r.2.conn.rd.buffer = [] ∧
      r.2.state.armingStatus = some onlyAlarm)) rfl (by decide +kernel)
  rw [decide_eq_true_eq] at a b
  have e : sp.p0 = sq.p0 := connected_one a1 b1
  have a2 : p.conn.rd.buffer = [] := a.2.1
  have b2 : q.conn.rd.buffer = [] := b.2.1
  refine ⟨p, q, sp, sq, e, ?_, ?_, a.1.trans b.1.symm, _, _, arming_iff.mpr a.2.2,
    arming_iff.mpr b.2.2, ?_, ?_⟩
  · rw [a2]; exact (waits_of_decode (rest := []) (by rfl)).2
  · rw [b2]; exact (waits_of_decode (rest := []) (by rfl)).2
  · decide +kernel
  · decide +kernel

end Elk.Props
