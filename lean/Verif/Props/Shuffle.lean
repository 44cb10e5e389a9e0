import Verif.Spec.Shuffle
import Verif.Props.FinalSay
import Verif.Props.ZoneNews
/-!
# C165: the order of the maps makes no difference

The configuration has hash maps, whose order is another in each run.
-/

namespace Elk.Props

open Elk.Spec

theorem Shuffled.same_prefix {c c' : Cfg} (h : Shuffled c c') : c.prefix = c'.prefix := by
  unfold Cfg.prefix
  rw [h.mqtt, h.serial]

theorem Shuffled.map {c c' : Cfg} (h : Shuffled c c') (hm : MapCfg c) : MapCfg c' :=
  ⟨(h.areas.map (·.1)).nodup_iff.mp hm.areas, (h.zones.map (·.1)).nodup_iff.mp hm.zones⟩

theorem Shuffled.names {c c' : Cfg} (h : Shuffled c c') (hd : DistinctNames c) : DistinctNames c' :=
  ⟨(h.areas.map (·.2.name)).nodup_iff.mp hd.areas, (h.zones.map (·.2.name)).nodup_iff.mp hd.zones⟩

theorem Shuffled.symm {c c' : Cfg} (h : Shuffled c c') : Shuffled c' c :=
  ⟨h.mqtt.symm, h.serial.symm, h.code.symm, h.areas.symm, h.zones.symm⟩

/-- **C165** The same is asked by a message of the broker. -/
theorem C165_asks {c c' : Cfg} (h : Shuffled c c') {code : ArmCode} {p : Publish}
    {cmd : Option Command} : Asks c code p cmd ↔ Asks c' code p cmd := by
  have key : ∀ {c c' : Cfg}, Shuffled c c' → Asks c code p cmd → Asks c' code p cmd := by
    intro c c' h ha
    have e := Shuffled.same_prefix h
    cases ha with
    | arm a lv hm ht hl => exact .arm a lv (h.areas.mem_iff.mp hm) (e ▸ ht) hl
    | otherTopic hn => exact .otherTopic fun a hm => e ▸ hn a (h.areas.mem_iff.mpr hm)
    | otherPayload hn => exact .otherPayload hn
  exact ⟨key h, key (Shuffled.symm h)⟩

/-! ## The start -/

theorem discovery_perm {c c' : Cfg} (h : Shuffled c c') :
    (discoveryLog c).Perm (discoveryLog c') := by
  unfold discoveryLog
  rw [← h.mqtt, ← Shuffled.same_prefix h]
  split
  · unfold discoveryMsgs
    rw [← h.serial]
    exact (h.areas.map _).append (h.zones.map _)
  · exact .nil

/-- **C165** From the same panel, the bridge starts with the one order exactly if it does with the other;
it then has published the same messages and subscribed to the same topics, in another order. -/
theorem C165_starts {c c' : Cfg} (h : Shuffled c c') {p : Panel} (hc : Connected p) (hw : WfView p)
    {b : Bridge} (hs : Bridge.start c p = .ok b) : ∃ b', Bridge.start c' p = .ok b' ∧
      b.log.Perm b'.log ∧ b.subscribed.Perm b'.subscribed ∧ b.code = b'.code := by
  obtain ⟨r, hr⟩ := hc.arming
  obtain ⟨z, hz⟩ := hc.zones
  obtain ⟨hu, code, h1, rfl⟩ := (start_iff hr hz (hw z hz)).mp hs
  have hu' : UsableCfg c' := by
    refine ⟨h.code ▸ hu.code, fun e => hu.nonempty ?_, fun a ha => hu.areas a (h.areas.mem_iff.mpr ha),
      fun a ha => hu.zones a (h.zones.mem_iff.mpr ha), Shuffled.same_prefix h ▸ hu.pre,
      fun a ha => hu.areaNames a (h.areas.mem_iff.mpr ha),
      fun a ha => hu.zoneNames a (h.zones.mem_iff.mpr ha), fun ha e _ => ?_⟩
    · have := h.areas
      rw [e] at this
      exact List.perm_nil.mp this
    · exact h.serial ▸ hu.discovery ha (h.mqtt ▸ e) (.inl hu.nonempty)
  refine ⟨_, (start_iff hr hz (hw z hz)).mpr ⟨hu', code, h.code ▸ h1, rfl⟩, ?_, ?_, rfl⟩
  · dsimp only
    rw [← Shuffled.same_prefix h]
    exact (((discovery_perm h).append (h.areas.map _)).append (h.zones.map _)).append (.refl _)
  · dsimp only
    rw [← Shuffled.same_prefix h]
    exact h.areas.map _

/-! ## What is retained -/

/-- All that a bridge publishes. -/
theorem service_parts {cfg : Cfg} {b : Bridge} (s : Service cfg b) : ∃ pub : List Published,
    b.log = s.b0.log ++ pub ∧ (∀ m ∈ pub, m.retain = true →
      (∃ a ∈ cfg.elk.areas, m.topic = areaStateTopic cfg.prefix a.2.name) ∨
        ∃ a ∈ cfg.elk.zones, m.topic = zoneStateTopic cfg.prefix a.2.name) ∧
    ∃ r z, s.b0.log = discoveryLog cfg ++ areaMsgs cfg.prefix r cfg.elk.areas ++
      zoneMsgs cfg.prefix z cfg.elk.zones ++
      [⟨availabilityTopic cfg.prefix, true, .text (bs "online")⟩] := by
  have hcon := C36_connect_establishes _ s.fresh _ _ _ s.connected
  have hw := connect_wfView s.fresh s.connected
  obtain ⟨r0, hr0⟩ := hcon.arming
  obtain ⟨z0, hz0⟩ := hcon.zones
  have hst := (start_iff hr0 hz0 (hw z0 hz0)).mp s.started
  have e0 : s.b0.cfg = cfg := by
    obtain ⟨_, _, _, e⟩ := hst
    rw [e]
  have hh := bhist_of_run s.ran
  refine ⟨published s.obs, (bhist_static hh).2.2.2, fun m hm hr => ?_, r0, z0, ?_⟩
  · rcases published_topics hh (start_good_bridge hcon hw s.started) m hm with ⟨h, _⟩ | ⟨_, h⟩
    · rw [h] at hr; cases hr
    · rw [e0] at h; exact h
  · obtain ⟨_, _, _, e⟩ := hst
    rw [e]

/-- What is retained on the other topics. -/
theorem retained_rest {cfg : Cfg} {b : Bridge} (s : Service cfg b) {t : Bytes}
    (h1 : ¬ ∃ a ∈ cfg.elk.areas, t = areaStateTopic cfg.prefix a.2.name)
    (h2 : ¬ ∃ a ∈ cfg.elk.zones, t = zoneStateTopic cfg.prefix a.2.name) :
    retained b.log t = retained (discoveryLog cfg ++
      [⟨availabilityTopic cfg.prefix, true, .text (bs "online")⟩]) t := by
  obtain ⟨pub, e, hp, r, z, e0⟩ := service_parts s
  rw [e, retained_append, retained_none (l := pub), e0, Option.none_or]
  · rw [retained_append, retained_append (discoveryLog cfg ++ _), retained_append,
      retained_append, retained_none (l := zoneMsgs _ _ _),
      retained_none (l := areaMsgs _ _ _), Option.none_or, Option.none_or]
    · intro m hm' _ he
      unfold areaMsgs at hm'
      obtain ⟨a, hmem, rfl⟩ := List.mem_map.mp hm'
      exact h1 ⟨a, hmem, he.symm⟩
    · intro m hm' _ he
      unfold zoneMsgs at hm'
      obtain ⟨a, hmem, rfl⟩ := List.mem_map.mp hm'
      exact h2 ⟨a, hmem, he.symm⟩
  · intro m hm' hr he
    rcases hp m hm' hr with ⟨a, hmem, h⟩ | ⟨a, hmem, h⟩
    · exact h1 ⟨a, hmem, he.symm.trans h⟩
    · exact h2 ⟨a, hmem, he.symm.trans h⟩

theorem perm_one {α : Type} {l l' : List α} (h : l.Perm l') (hl : l.length ≤ 1) : l = l' := by
  match l, hl with
  | [], _ => exact (List.nil_perm.mp h).symm
  | [a], _ => exact List.singleton_perm.mp h

theorem topic_once {l : List Published} (h : (l.map (·.topic)).Nodup) (t : Bytes) :
    (l.filter fun m => m.retain && m.topic == t).length ≤ 1 := by
  induction l with
  | nil => exact Nat.zero_le _
  | cons m l ih =>
    rw [List.map_cons, List.nodup_cons] at h
    rw [List.filter_cons]
    split
    · next e =>
      rw [Bool.and_eq_true, beq_iff_eq] at e
      have : (l.filter fun m => m.retain && m.topic == t) = [] := by
        refine List.filter_eq_nil_iff.mpr fun x hx hc => ?_
        rw [Bool.and_eq_true, beq_iff_eq] at hc
        exact h.1 (List.mem_map.mpr ⟨x, hx, hc.2.trans e.2.symm⟩)
      rw [this]
      exact Nat.le_refl _
    · exact ih h.2

theorem retained_perm {l l' : List Published} (h : l.Perm l') (hn : (l.map (·.topic)).Nodup)
    (t : Bytes) : retained l t = retained l' t := by
  unfold retained
  rw [perm_one (h.filter _) (topic_once hn t)]

theorem discovery_topics {cfg : Cfg} (hm : MapCfg cfg) : ((discoveryLog cfg).map (·.topic)).Nodup := by
  unfold discoveryLog
  split
  · unfold discoveryMsgs
    rw [List.map_append, List.map_map, List.map_map]
    refine List.nodup_append.mpr ⟨?_, ?_, ?_⟩
    · exact nodup_map_inj (f := fun a : UInt8 × AreaCfg => a.1)
        (g := fun i => areaDiscoveryTopic _ (areaUniqueId cfg.elk.serialNumber i)) hm.areas
        fun _ _ => areaDisc_inj
    · exact nodup_map_inj (f := fun a : UInt8 × ZoneCfg => a.1)
        (g := fun i => zoneDiscoveryTopic _ (zoneUniqueId cfg.elk.serialNumber i)) hm.zones
        fun _ _ => zoneDisc_inj
    · intro x hx y hy
      obtain ⟨_, _, rfl⟩ := List.mem_map.mp hx
      obtain ⟨_, _, rfl⟩ := List.mem_map.mp hy
      exact disc_ne
  · exact List.nodup_nil

/-- **C165** An entry stands on its own: two idle bridges that have received the same bytes retain the
same for an area that both have configured, each on its own topic, whatever else they have configured and
by whatever name. -/
theorem C165_area {c c' : Cfg} (hm : MapCfg c) (hd : DistinctNames c) (hm' : MapCfg c')
    (hd' : DistinctNames c') {b b' : Bridge} (s : Service c b) (s' : Service c' b') (hi : Idle s)
    (hi' : Idle s') (he : b.panel.conn.sock.received = b'.panel.conn.sock.received)
    {a a' : UInt8 × AreaCfg} (ha : a ∈ c.elk.areas) (ha' : a' ∈ c'.elk.areas) (hk : a.1 = a'.1) :
    retained b.log (c.prefix ++ bs "/area/" ++ a.2.name ++ bs "/ha_state") =
      retained b'.log (c'.prefix ++ bs "/area/" ++ a'.2.name ++ bs "/ha_state") := by
  obtain ⟨ms, h⟩ : ∃ ms, Messages b.panel.conn.sock.received ms := ⟨_, messagesRun_messages _⟩
  obtain ⟨r, e, h1, _⟩ := C162_topics hm hd s hi h
  obtain ⟨r', e', h1', _⟩ := C162_topics hm' hd' s' hi' (he ▸ h)
  rw [e] at e'
  cases e'
  obtain ⟨t, x, y⟩ := h1 a ha
  obtain ⟨t', x', y'⟩ := h1' a' ha'
  rw [hk, x'] at x
  cases x
  exact y.trans y'.symm

/-- **C165** So it is with a zone. -/
theorem C165_zone {c c' : Cfg} (hm : MapCfg c) (hd : DistinctNames c) (hm' : MapCfg c')
    (hd' : DistinctNames c') {b b' : Bridge} (s : Service c b) (s' : Service c' b') (hi : Idle s)
    (hi' : Idle s') (he : b.panel.conn.sock.received = b'.panel.conn.sock.received)
    {a a' : UInt8 × ZoneCfg} (ha : a ∈ c.elk.zones) (ha' : a' ∈ c'.elk.zones) (hk : a.1 = a'.1) :
    retained b.log (c.prefix ++ bs "/zone/" ++ a.2.name ++ bs "/ha_state") =
      retained b'.log (c'.prefix ++ bs "/zone/" ++ a'.2.name ++ bs "/ha_state") := by
  obtain ⟨ms, h⟩ : ∃ ms, Messages b.panel.conn.sock.received ms := ⟨_, messagesRun_messages _⟩
  obtain ⟨_, _, _, _, h1⟩ := C162_topics hm hd s hi h
  obtain ⟨_, _, _, _, h1'⟩ := C162_topics hm' hd' s' hi' (he ▸ h)
  obtain ⟨i, t, k, x, y⟩ := h1 a ha
  obtain ⟨i', t', k', x', y'⟩ := h1' a' ha'
  rw [hk, k'] at k
  have : i = i' := Fin.ext (by omega)
  subst this
  rw [x] at x'
  cases x'
  exact y.trans y'.symm

/-- **C165** In whatever order the maps are iterated: two idle bridges whose panels sent the same bytes
retain the same on all topics. -/
theorem C165_retained {c c' : Cfg} (h : Shuffled c c') (hm : MapCfg c) (hd : DistinctNames c)
    {b b' : Bridge} (s : Service c b) (s' : Service c' b') (hi : Idle s) (hi' : Idle s')
    (he : b.panel.conn.sock.received = b'.panel.conn.sock.received) (t : Bytes) :
    retained b.log t = retained b'.log t := by
  have ep := Shuffled.same_prefix h
  by_cases h1 : ∃ a ∈ c.elk.areas, t = areaStateTopic c.prefix a.2.name
  · obtain ⟨a, hmem, rfl⟩ := h1
    have := C165_area hm hd (Shuffled.map h hm) (Shuffled.names h hd) s s' hi hi' he hmem
      (h.areas.mem_iff.mp hmem) rfl
    rw [← ep] at this
    exact this
  · by_cases h2 : ∃ a ∈ c.elk.zones, t = zoneStateTopic c.prefix a.2.name
    · obtain ⟨a, hmem, rfl⟩ := h2
      have := C165_zone hm hd (Shuffled.map h hm) (Shuffled.names h hd) s s' hi hi' he hmem
        (h.zones.mem_iff.mp hmem) rfl
      rw [← ep] at this
      exact this
    · rw [retained_rest s h1 h2, retained_rest s' ?_ ?_]
      · rw [retained_append, retained_append, ep,
          retained_perm (discovery_perm h) (discovery_topics hm)]
      · rintro ⟨a, hmem, e⟩
        exact h1 ⟨a, h.areas.mem_iff.mpr hmem, by rw [ep]; exact e⟩
      · rintro ⟨a, hmem, e⟩
        exact h2 ⟨a, h.zones.mem_iff.mpr hmem, by rw [ep]; exact e⟩

/-! ## Not vacuous -/

/-- The sample with its zones the other way round. -/
def mirrorCfg : Cfg :=
  { sampleCfg with elk := { sampleCfg.elk with zones := sampleCfg.elk.zones.reverse } }

theorem mirror_shuffled : Shuffled sampleCfg mirrorCfg :=
  ⟨rfl, rfl, rfl, .refl _, (List.reverse_perm _).symm⟩

/-- Two idle bridges whose panels sent the same, with the same configuration in different orders, and
not the same logs. -/
example : ∃ b b', ∃ s : Service sampleCfg b, ∃ s' : Service mirrorCfg b', Idle s ∧ Idle s' ∧
    b.panel.conn.sock.received = b'.panel.conn.sock.received ∧
    b.log.map (·.topic) ≠ b'.log.map (·.topic) := by
  obtain ⟨b, s, a1, a2, a3⟩ := service_of (cfg := sampleCfg) (ops := sampleConnect)
    (later := zoneLater₁ ++ [.tick ⟨1, 10000, 10000⟩ true])
    (f := fun r => decide (r.2.panel.conn.sock.received = sampleDialogue ++ zoneBytes₁ ++ zoneBytes₂ ∧
      r.1.length = 5 ∧ restless r.1 = false ∧ r.2.waiting = .select ∧
      ((r.2.log.map (·.topic)).drop 1).head? =
        some (bs "homeassistant/binary_sensor/elk-42-zone-1/config"))) (by decide +kernel)
  obtain ⟨b', s', b1, b2, b3⟩ := service_of (cfg := mirrorCfg) (ops := sampleConnect)
    (later := zoneLater₁ ++ [.tick ⟨1, 10000, 10000⟩ true])
    (f := fun r => decide (r.2.panel.conn.sock.received = sampleDialogue ++ zoneBytes₁ ++ zoneBytes₂ ∧
      r.1.length = 5 ∧ restless r.1 = false ∧ r.2.waiting = .select ∧
      ((r.2.log.map (·.topic)).drop 1).head? =
        some (bs "homeassistant/binary_sensor/elk-42-zone-2/config"))) (by decide +kernel)
  rw [decide_eq_true_eq] at a3 b3
  refine ⟨b, b', s, s', idle_of (before := zoneLater₁) a3.2.2.2.1 a2 a3.2.2.1 a3.2.1 ?_,
    idle_of (before := zoneLater₁) b3.2.2.2.1 b2 b3.2.2.1 b3.2.1 ?_, a3.1.trans b3.1.symm,
    fun e => ?_⟩
  · rw [a1]; decide +kernel
  · rw [b1]; decide +kernel
  · have e1 := a3.2.2.2.2
    have e2 := b3.2.2.2.2
    dsimp only at e1 e2
    rw [e, e2] at e1
    exact absurd e1 (by decide +kernel)

/-! ## Names must be distinct -/

/-- Two zones of the same name. -/
def twinZones (zones : List (UInt8 × ZoneCfg)) : Cfg :=
  { sampleCfg with elk := { sampleCfg.elk with zones } }

/-- The text of what is retained. -/
def retainedText (log : List Published) (t : Bytes) : Option Bytes :=
  match retained log t with
  | some (.text x) => some x
  | _ => none

/-- **C165** With names that are not distinct the order does matter: what is retained for two zones of
the same name is the state of the one or the other. -/
theorem C165_names_needed : ∃ c c', Shuffled c c' ∧ MapCfg c ∧ ∃ b b', ∃ s : Service c b,
    ∃ s' : Service c' b', Idle s ∧ Idle s' ∧
      b.panel.conn.sock.received = b'.panel.conn.sock.received ∧
      ∃ t, retained b.log t ≠ retained b'.log t := by
  obtain ⟨b, s, a1, a2, a3⟩ := service_of
    (cfg := twinZones [(1, ⟨bs "x", bs "door"⟩), (2, ⟨bs "x", bs "door"⟩)]) (ops := sampleConnect)
    (later := [.tick ⟨1, 10000, 10000⟩ true])
    (f := fun r => decide (r.2.panel.conn.sock.received = sampleDialogue ∧
      r.1.length = 1 ∧ restless r.1 = false ∧ r.2.waiting = .select ∧
      retainedText r.2.log (bs "elkm1/42/zone/x/ha_state") = some (bs "off"))) (by decide +kernel)
  obtain ⟨b', s', b1, b2, b3⟩ := service_of
    (cfg := twinZones [(2, ⟨bs "x", bs "door"⟩), (1, ⟨bs "x", bs "door"⟩)]) (ops := sampleConnect)
    (later := [.tick ⟨1, 10000, 10000⟩ true])
    (f := fun r => decide (r.2.panel.conn.sock.received = sampleDialogue ∧
      r.1.length = 1 ∧ restless r.1 = false ∧ r.2.waiting = .select ∧
      retainedText r.2.log (bs "elkm1/42/zone/x/ha_state") = some (bs "on"))) (by decide +kernel)
  rw [decide_eq_true_eq] at a3 b3
  have hsh : Shuffled (twinZones [(1, ⟨bs "x", bs "door"⟩), (2, ⟨bs "x", bs "door"⟩)])
      (twinZones [(2, ⟨bs "x", bs "door"⟩), (1, ⟨bs "x", bs "door"⟩)]) :=
    ⟨rfl, rfl, rfl, .refl _, .swap ..⟩
  refine ⟨_, _, hsh, ⟨by decide, by decide⟩, b, b', s, s',
    idle_of (before := []) a3.2.2.2.1 a2 a3.2.2.1 a3.2.1 ?_,
    idle_of (before := []) b3.2.2.2.1 b2 b3.2.2.1 b3.2.1 ?_, a3.1.trans b3.1.symm,
    bs "elkm1/42/zone/x/ha_state", fun e => ?_⟩
  · rw [a1]; decide +kernel
  · rw [b1]; decide +kernel
  · have e1 := a3.2.2.2.2
    have e2 := b3.2.2.2.2
    unfold retainedText at e1 e2
    dsimp only at e1 e2
    rw [e, e2] at e1
    exact absurd e1 (by decide +kernel)

end Elk.Props
