import Verif.Props.Shuffle
/-!
# C166: a restarted bridge shows what one that ran on shows

What the broker retains at rest is determined by the configuration and the last words of the panel, so
that neither the history before nor a restart in between shows.
-/

namespace Elk.Props

open Elk.Spec

/-- **C166** Two idle bridges of the same configuration, whose panels' last words on the areas and on
each configured zone are the same, retain the same on all topics, whatever was sent and published before.
-/
theorem C166_last_words {c c' : Cfg} (h : Shuffled c c') (hm : MapCfg c) (hd : DistinctNames c)
    {b b' : Bridge} (s : Service c b) (s' : Service c' b') (hi : Idle s) (hi' : Idle s')
    {ms ms' : List Message} (hb : Messages b.panel.conn.sock.received ms)
    (hb' : Messages b'.panel.conn.sock.received ms') (ha : lastOnAreas ms = lastOnAreas ms')
    (hz : ∀ a ∈ c.elk.zones, ∀ i : Fin 208, a.1.toNat = i.val + 1 →
      lastOnZone i ms = lastOnZone i ms') (t : Bytes) :
    retained b.log t = retained b'.log t := by
  have ep := Shuffled.same_prefix h
  obtain ⟨r, e, f1, _, f2⟩ := C162_topics hm hd s hi hb
  obtain ⟨r', e', f1', _, f2'⟩ := C162_topics (Shuffled.map h hm) (Shuffled.names h hd) s' hi' hb'
  by_cases h1 : ∃ a ∈ c.elk.areas, t = areaStateTopic c.prefix a.2.name
  · obtain ⟨a, hmem, rfl⟩ := h1
    rw [← ha, e] at e'
    cases e'
    obtain ⟨x, x1, x2⟩ := f1 a hmem
    obtain ⟨y, y1, y2⟩ := f1' a (h.areas.mem_iff.mp hmem)
    rw [x1] at y1
    cases y1
    rw [← ep] at y2
    exact x2.trans y2.symm
  · by_cases h2 : ∃ a ∈ c.elk.zones, t = zoneStateTopic c.prefix a.2.name
    · obtain ⟨a, hmem, rfl⟩ := h2
      obtain ⟨i, x, k, x1, x2⟩ := f2 a hmem
      obtain ⟨j, y, k', y1, y2⟩ := f2' a (h.zones.mem_iff.mp hmem)
      have : i = j := Fin.ext (by omega)
      subst this
      rw [← hz a hmem i k, x1] at y1
      cases y1
      rw [← ep] at y2
      exact x2.trans y2.symm
    · rw [retained_rest s h1 h2, retained_rest s' ?_ ?_]
      · rw [retained_append, retained_append, ep,
          retained_perm (discovery_perm h) (discovery_topics hm)]
      · rintro ⟨a, hmem, e⟩
        exact h1 ⟨a, h.areas.mem_iff.mpr hmem, by rw [ep]; exact e⟩
      · rintro ⟨a, hmem, e⟩
        exact h2 ⟨a, h.zones.mem_iff.mpr hmem, by rw [ep]; exact e⟩

theorem retained_some {l : List Published} {m : Published} (hm : m ∈ l) (hr : m.retain = true) :
    retained l m.topic ≠ none := by
  unfold retained
  intro h
  rw [Option.map_eq_none_iff, List.getLast?_eq_none_iff] at h
  have := List.filter_eq_nil_iff.mp h m hm
  rw [hr] at this
  simp at this

/-- Each topic on which a bridge ever retains something has something retained by each bridge of the
same configuration from its start. -/
theorem covers {c c' : Cfg} (h : Shuffled c c') {b b' : Bridge} (s : Service c b)
    (s' : Service c' b') : ∀ m ∈ b.log, m.retain = true → retained b'.log m.topic ≠ none := by
  obtain ⟨pub, e, hp, r, z, e0⟩ := service_parts s
  obtain ⟨pub', e', _, r', z', e0'⟩ := service_parts s'
  have ep := Shuffled.same_prefix h
  have cover : ∀ {t : Bytes}, (∃ m ∈ s'.b0.log, m.retain = true ∧ m.topic = t) →
      retained b'.log t ≠ none := by
    rintro t ⟨m, h1, h2, rfl⟩
    exact retained_some (by rw [e']; exact List.mem_append_left _ h1) h2
  have area : ∀ a ∈ c.elk.areas, retained b'.log (areaStateTopic c.prefix a.2.name) ≠ none := by
    intro a ha
    refine cover ⟨⟨areaStateTopic c'.prefix a.2.name, true, .text (areaText r' (ofId 8 a.1))⟩, ?h1, rfl,
      by rw [ep]⟩
    case h1 =>
      rw [e0']
      refine List.mem_append_left _ (List.mem_append_left _ (List.mem_append_right _ ?_))
      unfold areaMsgs
      exact List.mem_map.mpr ⟨a, h.areas.mem_iff.mp ha, rfl⟩
  have zone : ∀ a ∈ c.elk.zones, retained b'.log (zoneStateTopic c.prefix a.2.name) ≠ none := by
    intro a ha
    refine cover ⟨⟨zoneStateTopic c'.prefix a.2.name, true,
      .text (bs (zoneText z'.zones[ofId 208 a.1].val.toNat))⟩, ?h1, rfl, by rw [ep]⟩
    case h1 =>
      rw [e0']
      refine List.mem_append_left _ (List.mem_append_right _ ?_)
      unfold zoneMsgs
      exact List.mem_map.mpr ⟨a, h.zones.mem_iff.mp ha, rfl⟩
  intro m hm hr
  rw [e, e0] at hm
  simp only [List.mem_append] at hm
  rcases hm with (((hm | hm) | hm) | hm) | hm
  · refine cover ⟨m, ?_, hr, rfl⟩
    rw [e0']
    exact List.mem_append_left _ (List.mem_append_left _ (List.mem_append_left _
      ((discovery_perm h).mem_iff.mp hm)))
  · unfold areaMsgs at hm
    obtain ⟨a, ha, rfl⟩ := List.mem_map.mp hm
    exact area a ha
  · unfold zoneMsgs at hm
    obtain ⟨a, ha, rfl⟩ := List.mem_map.mp hm
    exact zone a ha
  · rw [List.mem_singleton] at hm
    subst hm
    refine cover ⟨_, ?_, hr, rfl⟩
    rw [e0', ep]
    exact List.mem_append_right _ (List.mem_singleton.mpr rfl)
  · rcases hp m hm hr with ⟨a, ha, e⟩ | ⟨a, ha, e⟩
    · rw [e]; exact area a ha
    · rw [e]; exact zone a ha

/-- **C166** Nothing is left of an earlier run of the same configuration, however much of what it
published has reached the broker and wherever it was when it ended: once the messages of the next run are
there, the broker retains on each topic what it would without the earlier run and its will. -/
theorem C166_nothing_left {c c' : Cfg} (h : Shuffled c c') {b b' : Bridge} (s : Service c b)
    (s' : Service c' b') {old : List Published} (ho : ∀ m ∈ old, m ∈ b.log) {will : Setup}
    (hw : will.cfg = c) (t : Bytes) :
    retained (old ++ [will.will] ++ b'.log) t = retained b'.log t := by
  rw [retained_append]
  cases hr : retained b'.log t with
  | some x => rfl
  | none =>
    rw [Option.none_or]
    refine retained_none fun m hm hret he => ?_
    rcases List.mem_append.mp hm with hm | hm
    · exact covers h s s' m (ho m hm) hret (he ▸ hr)
    · rw [List.mem_singleton] at hm
      obtain ⟨pub, e, _, r, z, e0⟩ := service_parts s
      have h1 : (⟨availabilityTopic c.prefix, true, .text (bs "online")⟩ : Published) ∈ b.log := by
        rw [e, e0]
        exact List.mem_append_left _ (List.mem_append_right _ (List.mem_singleton.mpr rfl))
      refine covers h s s' _ h1 rfl ?_
      rw [hm] at he
      unfold Setup.will at he
      rw [hw] at he
      dsimp only at he ⊢
      rw [he]
      exact hr

/-- **C166** A restart does not show: if the panel's last words are the same, the broker retains after the
restart, once the bridge is idle, what it would had the bridge run on. -/
theorem C166_restart {c c' : Cfg} (h : Shuffled c c') (hm : MapCfg c) (hd : DistinctNames c)
    {b₀ b b' : Bridge} (s₀ : Service c b₀) (s : Service c b) (s' : Service c' b') (hi : Idle s)
    (hi' : Idle s') {old : List Published} (ho : ∀ m ∈ old, m ∈ b₀.log) {will : Setup}
    (hw : will.cfg = c) {ms ms' : List Message} (hb : Messages b.panel.conn.sock.received ms)
    (hb' : Messages b'.panel.conn.sock.received ms') (ha : lastOnAreas ms = lastOnAreas ms')
    (hz : ∀ a ∈ c.elk.zones, ∀ i : Fin 208, a.1.toNat = i.val + 1 →
      lastOnZone i ms = lastOnZone i ms') (t : Bytes) :
    retained (old ++ [will.will] ++ b'.log) t = retained b.log t := by
  rw [C166_nothing_left h s₀ s' ho hw]
  exact (C166_last_words h hm hd s s' hi hi' hb hb' ha hz t).symm

/-! ## Not vacuous -/

/-- Two idle bridges of which one published more than the other, with the same last words. -/
example : ∃ b b', ∃ s : Service sampleCfg b, ∃ s' : Service sampleCfg b', ∃ ms ms', Idle s ∧ Idle s' ∧
    Messages b.panel.conn.sock.received ms ∧ Messages b'.panel.conn.sock.received ms' ∧
    ms ≠ ms' ∧ lastOnAreas ms = lastOnAreas ms' ∧ (∀ i, lastOnZone i ms = lastOnZone i ms') ∧
    b.log.filter (·.retain) ≠ b'.log.filter (·.retain) := by
  obtain ⟨b, s, a1, a2, a3⟩ := service_of (cfg := sampleCfg) (ops := sampleConnect)
    (later := (.arrive (.data briefNews) :: List.replicate 3 (.tick ⟨1, 0, 0⟩ true)) ++
      [.tick ⟨1, 10000, 10000⟩ true])
    (f := fun r => decide (r.2.panel.conn.sock.received = sampleDialogue ++ briefNews ∧
      r.1.length = 5 ∧ restless r.1 = false ∧ r.2.waiting = .select ∧
      (r.2.log.filter (·.retain)).length = 10)) (by decide +kernel)
  obtain ⟨b', s', b1, b2, b3⟩ := service_of (cfg := sampleCfg) (ops := sampleConnect)
    (later := (.arrive (.data longNews) :: List.replicate 6 (.tick ⟨1, 0, 0⟩ true)) ++
      [.tick ⟨1, 10000, 10000⟩ true])
    (f := fun r => decide (r.2.panel.conn.sock.received = sampleDialogue ++ longNews ∧
      r.1.length = 8 ∧ restless r.1 = false ∧ r.2.waiting = .select ∧
      (r.2.log.filter (·.retain)).length = 13)) (by decide +kernel)
  rw [decide_eq_true_eq] at a3 b3
  have e1 : b.panel.conn.sock.received = _ := a3.1
  have e2 : b'.panel.conn.sock.received = _ := b3.1
  refine ⟨b, b', s, s', _, _, idle_of a3.2.2.2.1 a2 a3.2.2.1 a3.2.1 ?_,
    idle_of b3.2.2.2.1 b2 b3.2.2.1 b3.2.1 ?_, messagesRun_messages _, messagesRun_messages _, ?_⟩
  · rw [a1]; decide +kernel
  · rw [b1]; decide +kernel
  · rw [e1, e2]
    refine ⟨news_last.1, news_last.2.1, news_last.2.2, fun e => ?_⟩
    have := congrArg List.length e
    rw [a3.2.2.2.2, b3.2.2.2.2] at this
    exact absurd this (by decide)

end Elk.Props
