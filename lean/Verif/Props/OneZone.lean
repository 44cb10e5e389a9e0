import Verif.Spec.OneZone
import Verif.Props.FinalSay
/-!
# C163: zones do not influence each other

What is told and published of a zone depends on what its status was and what has been said on it.
-/

namespace Elk.Props

open Elk.Spec

/-- The news of a zone, by what was said on it. -/
theorem senses_follows {z z' : ZoneStatusReport} {ps : List Packet} {n : List ZoneNews}
    (h : SensesAll z ps n z') (hv : ∀ p ∈ ps, ValidPacket p ∨ ∃ i, p = .invalid i) (i : Fin 208) :
    (n.filter fun n => decide (n.zone.val.toNat = i.val + 1)).map (fun n => (n.prior, n.now)) =
      follows z.zones[i] ((ps.filterMap says).filterMap (zoneWord i)) := by
  induction h with
  | nil => rfl
  | @cons z z₁ z₂ pkt ps n l a _ ih =>
    have ih := ih fun p hp => hv p (List.mem_cons_of_mem _ hp)
    have hv := hv _ List.mem_cons_self
    rw [List.filter_append, List.map_append, ih]
    cases a with
    | @change m j hj a e ne =>
      have hs : ((pkt :: ps).filterMap says) = .zoneChange m :: ps.filterMap says :=
        List.filterMap_cons_some (says_of_means hv a)
      rw [hs]
      by_cases hi : j = i.val
      · have hw : zoneWord i (.zoneChange m) = some (.change m.status) := if_pos (by omega)
        rw [List.filterMap_cons_some hw, List.filter_cons, if_pos (decide_eq_true (by
          show m.zone.val.toNat = _; omega))]
        subst hi
        have e1 : (z.zones.set i.val m.status hj)[i] = m.status := by
          show (z.zones.set i.val m.status hj)[i.val] = _
          rw [Vector.getElem_set, if_pos rfl]
        rw [e1, follows, if_neg (show ¬ z.zones[i] = m.status from ne)]
        rfl
      · have hw : zoneWord i (.zoneChange m) = none := if_neg (by omega)
        rw [List.filterMap_cons_none hw, List.filter_cons, if_neg (by
          rw [decide_eq_true_eq]; show ¬ m.zone.val.toNat = _; omega)]
        have e1 : (z.zones.set j m.status hj)[i] = z.zones[i] := by
          show (z.zones.set j m.status hj)[i.val] = _
          rw [Vector.getElem_set, if_neg hi]
          rfl
        rw [e1]
        rfl
    | @same m j hj a e eq =>
      have hs : ((pkt :: ps).filterMap says) = .zoneChange m :: ps.filterMap says :=
        List.filterMap_cons_some (says_of_means hv a)
      rw [hs]
      by_cases hi : j = i.val
      · have hw : zoneWord i (.zoneChange m) = some (.change m.status) := if_pos (by omega)
        subst hi
        rw [List.filterMap_cons_some hw, follows, if_pos (show z.zones[i] = m.status from eq)]
        rfl
      · have hw : zoneWord i (.zoneChange m) = none := if_neg (by omega)
        rw [List.filterMap_cons_none hw]
        rfl
    | @report m a =>
      have hs : ((pkt :: ps).filterMap says) = .zoneStatusReport z₁ :: ps.filterMap says :=
        List.filterMap_cons_some (says_of_means hv a)
      have hw : zoneWord i (.zoneStatusReport z₁) = some (.report z₁.zones[i]) := rfl
      rw [hs, List.filterMap_cons_some hw, follows]
      rfl
    | @other r a n1 n2 =>
      match hs : says pkt with
      | none => rw [List.filterMap_cons_none hs]; rfl
      | some m =>
        have hw : zoneWord i m = none := by
          have hm := means_one hv a ((means_of_parse hv).1 m (says_some hs))
          unfold zoneWord
          split
          · exact absurd hm (n2 _)
          · exact absurd hm (n1 _)
          · rfl
        rw [List.filterMap_cons_some hs, List.filterMap_cons_none hw]
        rfl

/-- The changes told of a zone. -/
theorem filter_told (n : List ZoneNews) (i : Fin 208) :
    (n.map fun n => (n.zone, n.prior)).filter (fun t => decide (t.1.val.toNat = i.val + 1)) =
      ((n.filter fun n => decide (n.zone.val.toNat = i.val + 1)).map
        (fun n => (n.prior, n.now))).map
        fun c => ((⟨UInt8.ofNat (i.val + 1)⟩ : Zone), c.1) := by
  induction n with
  | nil => rfl
  | cons a n ih =>
    rw [List.map_cons, List.filter_cons, List.filter_cons]
    by_cases h : a.zone.val.toNat = i.val + 1
    · rw [if_pos (decide_eq_true h), if_pos (decide_eq_true h), ih, List.map_cons, List.map_cons]
      have : a.zone = ⟨UInt8.ofNat (i.val + 1)⟩ := by
        rw [← h, UInt8.ofNat_toNat]
      rw [← this]
    · rw [if_neg (by rw [decide_eq_true_eq]; exact h), if_neg (by rw [decide_eq_true_eq]; exact h), ih]

/-- **C163** What a session tells of a zone is what follows from the status of that zone when it got
connected and what the packets that it handed over since then say on it. -/
theorem C163_told {p : Panel} (s : Session p) (i : Fin 208) : ∃ z, s.p0.zoneStatuses = .ok z ∧
    (zonesTold (events s.outs')).filter (fun t => decide (t.1.val.toNat = i.val + 1)) =
      (follows z.zones[i] (((packets s.outs').filterMap says).filterMap (zoneWord i))).map
        fun c => (⟨UInt8.ofNat (i.val + 1)⟩, c.1) := by
  obtain ⟨z, n, z', h1, h2, h3⟩ := session_senses s
  refine ⟨z, zones_iff.mpr h1, ?_⟩
  rw [h3, filter_told, senses_follows h2
    (fun p hp => taken_valid (taken_session s) p (List.mem_append_right _ hp)) i]

/-- **C163** Two sessions that started with the same status of a zone, and have been told the same on
it, tell the same of it, whatever they have been told on the other zones, the areas and everything
else, and whenever. -/
theorem C163_apart {p q : Panel} (sp : Session p) (sq : Session q) (i : Fin 208)
    (h0 : ∀ z z', sp.p0.zoneStatuses = .ok z → sq.p0.zoneStatuses = .ok z' →
      z.zones[i] = z'.zones[i])
    (hw : ((packets sp.outs').filterMap says).filterMap (zoneWord i) =
      ((packets sq.outs').filterMap says).filterMap (zoneWord i)) :
    (zonesTold (events sp.outs')).filter (fun t => decide (t.1.val.toNat = i.val + 1)) =
      (zonesTold (events sq.outs')).filter (fun t => decide (t.1.val.toNat = i.val + 1)) := by
  obtain ⟨z, h1, h2⟩ := C163_told sp i
  obtain ⟨z', h1', h2'⟩ := C163_told sq i
  rw [h2, h2', h0 z z' h1 h1', hw]

theorem follows_new (s : ZoneStatus) (ws : List Word) : follows s ws = follows s (newWords s ws) := by
  induction ws generalizing s with
  | nil => rfl
  | cons w ws ih =>
    unfold newWords
    split
    · next e =>
      rw [← ih]
      cases w with
      | report t =>
        cases e
        rfl
      | change t => exact if_pos e
    · next e =>
      cases w with
      | report t => exact ih t
      | change t =>
        have e : ¬ s = t := e
        show (if s = t then _ else _) = if s = t then _ else _
        rw [if_neg e, if_neg e, ih t]
        rfl

/-- **C163** It makes no difference how often, and in which kind of message, a panel repeats what it said
on a zone: only the words that say something new count. -/
theorem C163_repeats {p q : Panel} (sp : Session p) (sq : Session q) (i : Fin 208)
    {z z' : ZoneStatusReport} (hz : sp.p0.zoneStatuses = .ok z) (hz' : sq.p0.zoneStatuses = .ok z')
    (h0 : z.zones[i] = z'.zones[i])
    (hw : newWords z.zones[i] (((packets sp.outs').filterMap says).filterMap (zoneWord i)) =
      newWords z.zones[i] (((packets sq.outs').filterMap says).filterMap (zoneWord i))) :
    (zonesTold (events sp.outs')).filter (fun t => decide (t.1.val.toNat = i.val + 1)) =
      (zonesTold (events sq.outs')).filter (fun t => decide (t.1.val.toNat = i.val + 1)) := by
  obtain ⟨y, h1, h2⟩ := C163_told sp i
  obtain ⟨y', h1', h2'⟩ := C163_told sq i
  rw [hz] at h1
  rw [hz'] at h1'
  cases h1
  cases h1'
  rw [h2, h2', follows_new, hw, ← follows_new, h0]

/-! ## What is published -/

theorem filter_name {l : List (UInt8 × ZoneCfg)} (hd : (l.map fun a => a.2.name).Nodup)
    {a : UInt8 × ZoneCfg} (ha : a ∈ l) :
    l.filter (fun x => decide (x.2.name = a.2.name)) = [a] := by
  induction l with
  | nil => cases ha
  | cons x l ih =>
    rw [List.map_cons, List.nodup_cons] at hd
    rcases List.mem_cons.mp ha with rfl | hm
    · rw [List.filter_cons, if_pos (decide_eq_true rfl)]
      congr 1
      refine List.filter_eq_nil_iff.mpr fun y hy => ?_
      rw [decide_eq_true_eq]
      exact fun h => hd.1 (List.mem_map.mpr ⟨y, hy, h⟩)
    · rw [List.filter_cons, if_neg (by
        rw [decide_eq_true_eq]
        exact fun h => hd.1 (List.mem_map.mpr ⟨a, hm, h.symm⟩))]
      exact ih hd.2 hm

theorem topic_iff {cfg : Cfg} {n m : Bytes} :
    cfg.prefix ++ bs "/zone/" ++ n ++ bs "/ha_state" = cfg.prefix ++ bs "/zone/" ++ m ++ bs "/ha_state" ↔
      n = m := ⟨zoneState_inj, fun h => by rw [h]⟩

theorem topicLog_out {cfg : Cfg} (hd : DistinctNames cfg) {a : UInt8 × ZoneCfg}
    (ha : a ∈ cfg.elk.zones) (n : ZoneNews) : topicLog cfg a.2.name (zoneOut cfg n) =
      if n.zone.val = a.1 then [topicLine cfg a.2.name n.now] else [] := by
  have e : topicLog cfg a.2.name (zoneOut cfg n) =
      (((cfg.elk.zones.filter fun x => decide (x.2.name = a.2.name)).filter
        fun x => x.1 == n.zone.val).map fun x => topicLine cfg x.2.name n.now) := by
    unfold topicLog zoneOut
    rw [List.filter_map, List.filter_filter, List.filter_filter]
    refine congrArg (List.map _) (List.filter_congr fun x _ => ?_)
    rw [Bool.and_comm]
    congr 1
    exact decide_eq_decide.mpr topic_iff
  rw [e, filter_name hd.zones ha]
  by_cases h : n.zone.val = a.1
  · rw [if_pos h, List.filter_cons, if_pos (beq_iff_eq.mpr h.symm)]
    rfl
  · rw [if_neg h, List.filter_cons, if_neg (fun c => h (beq_iff_eq.mp c).symm)]
    rfl

theorem topicLog_append (cfg : Cfg) (name : Bytes) (a b : List Published) :
    topicLog cfg name (a ++ b) = topicLog cfg name a ++ topicLog cfg name b := List.filter_append ..

theorem topicLog_news {cfg : Cfg} (hd : DistinctNames cfg) {a : UInt8 × ZoneCfg}
    (ha : a ∈ cfg.elk.zones) {i : Fin 208} (hi : a.1.toNat = i.val + 1) (n : List ZoneNews) :
    topicLog cfg a.2.name (n.flatMap (zoneOut cfg)) =
      ((n.filter fun n => decide (n.zone.val.toNat = i.val + 1)).map
        (fun n => (n.prior, n.now))).map fun c => topicLine cfg a.2.name c.2 := by
  induction n with
  | nil => rfl
  | cons x n ih =>
    rw [List.flatMap_cons, topicLog_append, ih, topicLog_out hd ha, List.filter_cons]
    by_cases h : x.zone.val = a.1
    · rw [if_pos h, if_pos (decide_eq_true (by rw [h, hi]))]
      rfl
    · rw [if_neg h, if_neg (by
        rw [decide_eq_true_eq]
        exact fun c => h (UInt8.toNat_inj.mp (c.trans hi.symm)))]
      rfl

theorem topicLog_zoneLog (cfg : Cfg) (name : Bytes) (l : List Published) :
    topicLog cfg name (zoneLog cfg l) = topicLog cfg name l := by
  unfold topicLog zoneLog
  rw [List.filter_filter]
  refine List.filter_congr fun m _ => ?_
  by_cases h : m.topic = cfg.prefix ++ bs "/zone/" ++ name ++ bs "/ha_state"
  · rw [decide_eq_true h, Bool.true_and, h, decide_eq_true]
    exact ⟨name ++ bs "/ha_state", by rw [List.append_assoc (cfg.prefix ++ bs "/zone/")]⟩
  · rw [decide_eq_false h, Bool.false_and]

/-- What is on the topic of a zone when the bridge has started. -/
theorem topicLog_start {cfg : Cfg} (hd : DistinctNames cfg) {b : Bridge}
    (s : Service cfg b) {z : ZoneStatusReport} (hz : s.p0.zoneStatuses = .ok z)
    {a : UInt8 × ZoneCfg} (ha : a ∈ cfg.elk.zones) {i : Fin 208} (hi : a.1.toNat = i.val + 1) :
    topicLog cfg a.2.name s.b0.log = [topicLine cfg a.2.name z.zones[i]] := by
  have hc := C36_connect_establishes _ s.fresh _ _ _ s.connected
  have hw := connect_wfView s.fresh s.connected
  obtain ⟨r, hr⟩ := hc.arming
  obtain ⟨hu, code, h1, e⟩ := (start_iff hr hz (hw z hz)).mp s.started
  rw [e]
  dsimp only
  rw [topicLog_append, topicLog_append, topicLog_append]
  have n1 : topicLog cfg a.2.name (discoveryLog cfg) = [] := by
    refine List.filter_eq_nil_iff.mpr fun m hm' => ?_
    rw [decide_eq_true_eq]
    intro h
    unfold discoveryLog at hm'
    split at hm'
    · rcases List.mem_append.mp hm' with hm' | hm'
      · obtain ⟨x, _, rfl⟩ := List.mem_map.mp hm'
        exact zone_ne_config.1 h.symm
      · obtain ⟨x, _, rfl⟩ := List.mem_map.mp hm'
        exact zone_ne_config.2 h.symm
    · cases hm'
  have n2 : topicLog cfg a.2.name (areaMsgs cfg.prefix r cfg.elk.areas) = [] := by
    refine List.filter_eq_nil_iff.mpr fun m hm' => ?_
    rw [decide_eq_true_eq]
    intro h
    obtain ⟨n, hn⟩ := areaMsgs_topic hm'
    exact area_ne_zone (hn.symm.trans h)
  have n3 : topicLog cfg a.2.name
      [⟨availabilityTopic cfg.prefix, true, .text (bs "online")⟩] = [] := by
    refine List.filter_eq_nil_iff.mpr fun m hm' => ?_
    rw [decide_eq_true_eq, List.mem_singleton.mp hm']
    exact fun h => zone_ne_avail h.symm
  rw [n1, n2, n3, List.nil_append, List.nil_append, List.append_nil]
  unfold topicLog zoneMsgs
  rw [List.filter_map]
  have e : cfg.elk.zones.filter ((fun m : Published => decide (m.topic =
      cfg.prefix ++ bs "/zone/" ++ a.2.name ++ bs "/ha_state")) ∘ fun a =>
        ⟨zoneStateTopic cfg.prefix a.2.name, true,
          .text (bs (zoneText z.zones[ofId 208 a.1].val.toNat))⟩) = [a] := by
    rw [← filter_name hd.zones ha]
    exact List.filter_congr fun x _ => decide_eq_decide.mpr topic_iff
  rw [e]
  obtain rfl := ofId_eq hi
  rfl

/-- **C163** All that a bridge ever publishes on the topic of a zone: the text for the status when it
got connected, and then the text for each change that follows from the words on this zone. -/
theorem C163_topic {cfg : Cfg} (hm : MapCfg cfg) (hd : DistinctNames cfg) {b : Bridge}
    (s : Service cfg b) {a : UInt8 × ZoneCfg} (ha : a ∈ cfg.elk.zones) {i : Fin 208}
    (hi : a.1.toNat = i.val + 1) : ∃ z, s.p0.zoneStatuses = .ok z ∧
    topicLog cfg a.2.name b.log = topicLine cfg a.2.name z.zones[i] ::
      (follows z.zones[i] ((((handled s.obs).filterMap (·.pkt)).filterMap says).filterMap
        (zoneWord i))).map fun c => topicLine cfg a.2.name c.2 := by
  obtain ⟨v0, n, z', h1, h2, h3, _, h4⟩ := service_senses hm s
  have hz := zones_iff.mpr h1
  refine ⟨v0.zones, hz, ?_⟩
  rw [← topicLog_zoneLog, h4, topicLog_append, topicLog_zoneLog, topicLog_start hd s hz ha hi,
    topicLog_news hd ha hi, senses_follows h3
      (fun p hp => taken_valid h2 p (List.mem_append_right _ hp)) i]
  rfl

/-- **C163** Two bridges that started with the same status of a zone and have been told the same on it
have published the same on its topic. Even their configurations may differ but for that topic. -/
theorem C163_topics_apart {cfg cfg' : Cfg} (hm : MapCfg cfg) (hd : DistinctNames cfg)
    (hm' : MapCfg cfg') (hd' : DistinctNames cfg') (hp : cfg.prefix = cfg'.prefix) {b b' : Bridge}
    (s : Service cfg b) (s' : Service cfg' b') {a : UInt8 × ZoneCfg} (ha : a ∈ cfg.elk.zones)
    {a' : UInt8 × ZoneCfg} (ha' : a' ∈ cfg'.elk.zones) (hn : a.2.name = a'.2.name) {i : Fin 208}
    (hi : a.1.toNat = i.val + 1) (hi' : a'.1.toNat = i.val + 1)
    (h0 : ∀ z z', s.p0.zoneStatuses = .ok z → s'.p0.zoneStatuses = .ok z' →
      z.zones[i] = z'.zones[i])
    (hw : (((handled s.obs).filterMap (·.pkt)).filterMap says).filterMap (zoneWord i) =
      (((handled s'.obs).filterMap (·.pkt)).filterMap says).filterMap (zoneWord i)) :
    topicLog cfg a.2.name b.log = topicLog cfg' a'.2.name b'.log := by
  obtain ⟨z, h1, h2⟩ := C163_topic hm hd s ha hi
  obtain ⟨z', h1', h2'⟩ := C163_topic hm' hd' s' ha' hi'
  have e : ∀ st, topicLine cfg a.2.name st = topicLine cfg' a'.2.name st := fun st => by
    unfold topicLine
    rw [hp, hn]
  rw [h2, h2', h0 z z' h1 h1', hw, e]
  congr 1
  exact List.map_congr_left fun c _ => e c.2

/-! ## Not vacuous -/

/-- Repetitions say nothing new. -/
example : newWords ⟨9⟩ [.change ⟨2⟩, .change ⟨2⟩, .report ⟨2⟩, .change ⟨9⟩] =
    [.change ⟨2⟩, .change ⟨9⟩] := by decide

/-- The change of a zone. -/
def apart₁ : Bytes := msgBytes (.zoneChange ⟨⟨1⟩, ⟨2⟩⟩)

/-- The same change, after that of another zone and a report on the areas. -/
def apart₂ : Bytes := msgBytes (.zoneChange ⟨⟨2⟩, ⟨2⟩⟩) ++
  msgBytes (.armingStatusReport (sameReport .armedAway .armedWithExitTimer)) ++
  msgBytes (.zoneChange ⟨⟨1⟩, ⟨2⟩⟩)

/-- The status that a zone had, from the change told. -/
theorem started_with {p : Panel} (s : Session p)
    (hw : ((packets s.outs').filterMap says).filterMap (zoneWord 0) = [.change ⟨2⟩])
    (ht : (zonesTold (events s.outs')).filter (fun t => decide (t.1.val.toNat = 1)) = [(⟨1⟩, ⟨9⟩)])
    {z : ZoneStatusReport} (hz : s.p0.zoneStatuses = .ok z) : z.zones[(0 : Fin 208)] = ⟨9⟩ := by
  obtain ⟨z', h1, h2⟩ := C163_told s 0
  rw [h1] at hz
  cases hz
  rw [hw] at h2
  have h3 := ht.symm.trans h2
  unfold follows at h3
  split at h3
  · cases h3
  · injection h3 with h3 _
    injection h3 with _ h3
    exact h3.symm

/-- Two sessions that tell the same of the first zone, and not the same of the second. -/
example : ∃ p q, ∃ sp : Session p, ∃ sq : Session q,
    (∀ z z', sp.p0.zoneStatuses = .ok z → sq.p0.zoneStatuses = .ok z' →
      z.zones[(0 : Fin 208)] = z'.zones[(0 : Fin 208)]) ∧
    ((packets sp.outs').filterMap says).filterMap (zoneWord 0) =
      ((packets sq.outs').filterMap says).filterMap (zoneWord 0) ∧
    (zonesTold (events sp.outs')).filter (fun t => decide (t.1.val.toNat = 1)) = [(⟨1⟩, ⟨9⟩)] ∧
    zonesTold (events sp.outs') ≠ zonesTold (events sq.outs') := by
  obtain ⟨p, sp, _, _, a⟩ := session_of (ops := sampleConnect)
    (later := [.arrive (.data apart₁), .pollNext ⟨1, 0, 0⟩])
    (f := fun r => decide (((packets r.1).filterMap says).filterMap (zoneWord 0) = [.change ⟨2⟩] ∧
      zonesTold (events r.1) = [(⟨1⟩, ⟨9⟩)])) rfl (by decide +kernel)
  obtain ⟨q, sq, _, _, b⟩ := session_of (ops := sampleConnect)
    (later := [.arrive (.data apart₂), .pollNext ⟨1, 0, 0⟩, .pollNext ⟨1, 0, 0⟩, .pollNext ⟨1, 0, 0⟩])
    (f := fun r => decide (((packets r.1).filterMap says).filterMap (zoneWord 0) = [.change ⟨2⟩] ∧
      zonesTold (events r.1) = [(⟨2⟩, ⟨0⟩), (⟨1⟩, ⟨9⟩)])) rfl (by decide +kernel)
  rw [decide_eq_true_eq] at a b
  have a2 : zonesTold (events sp.outs') = _ := a.2
  have b2 : zonesTold (events sq.outs') = _ := b.2
  refine ⟨p, q, sp, sq, fun z z' hz hz' => ?_, a.1.trans b.1.symm, ?_, ?_⟩
  · exact (started_with sp a.1 (by rw [a2]; decide) hz).trans
      (started_with sq b.1 (by rw [b2]; decide) hz').symm
  · rw [a2]; decide
  · rw [a2, b2]; decide

/-- A bridge with two lines on the topic of the first zone. -/
example : ∃ b, ∃ _ : Service sampleCfg b,
    (topicLog sampleCfg (bs "door") b.log).length = 2 := by
  obtain ⟨b, s, _, _, a⟩ := service_of (cfg := sampleCfg) (ops := sampleConnect)
    (later := [.arrive (.data apart₂), .tick ⟨1, 0, 0⟩ true, .tick ⟨1, 0, 0⟩ true,
      .tick ⟨1, 0, 0⟩ true])
    (f := fun r => decide ((topicLog sampleCfg (bs "door") r.2.log).length = 2)) (by decide +kernel)
  rw [decide_eq_true_eq] at a
  exact ⟨b, s, a⟩

end Elk.Props
