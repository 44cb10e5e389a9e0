import Verif.Spec.FinalSay
import Verif.Props.Relay
/-!
# C162: the last word counts

What is shown in the end depends on the last report on the areas and the last word on each zone.
-/

namespace Elk.Props

open Elk.Spec

/-! ## The last of a list -/

theorem getLast?_or {α : Type} (a : α) (l : List α) : (a :: l).getLast? = l.getLast?.or (some a) := by
  cases l with
  | nil => rfl
  | cons b l => rw [List.getLast?_cons_cons, List.getLast?_cons]; rfl

theorem last_cons {α β : Type} (f : α → Option β) (a : α) (l : List α) :
    ((a :: l).filterMap f).getLast? = (l.filterMap f).getLast?.or (f a) := by
  match h : f a with
  | none => rw [List.filterMap_cons_none h, Option.or_none]
  | some b => rw [List.filterMap_cons_some h, getLast?_or]

/-! ## The tally and the messages -/

theorem says_of_means {pkt : Packet} (hv : ValidPacket pkt ∨ ∃ i, pkt = .invalid i) {m : Message} :
    Means pkt (some (.ok m)) → says pkt = some m := by
  intro h
  obtain ⟨_, m2, m3⟩ := means_of_parse hv
  obtain ⟨m1, _, _⟩ := means_of_parse hv
  unfold says
  match hp : Message.parse pkt with
  | .ok none => cases means_one hv h (m3 hp)
  | .ok (some n) => cases means_one hv h (m1 n hp); rfl
  | .error (.err e) => cases means_one hv h (m2 e hp)
  | .error (.panic q) => exact absurd hp (C18_parse_never_panics pkt q)

theorem says_none {pkt : Packet} (hv : ValidPacket pkt ∨ ∃ i, pkt = .invalid i)
    {r : Option (Except Bytes Message)} (h : Means pkt r) (hn : ∀ m, r ≠ some (.ok m)) :
    says pkt = none := by
  obtain ⟨m1, _, _⟩ := means_of_parse hv
  match hs : says pkt with
  | none => rfl
  | some m => exact absurd (means_one hv h (m1 m (says_some hs))) (hn m)

theorem close_views (l : Ledger) (q m : Message) :
    (l.close q m).arming = l.arming ∧ (l.close q m).zones = l.zones := by
  unfold Ledger.close
  split <;> exact ⟨rfl, rfl⟩

/-- What a packet does to the areas and zones is what its message does. -/
theorem books_views {l l' : Ledger} {pkt : Packet} (hv : ValidPacket pkt ∨ ∃ i, pkt = .invalid i)
    (h : Books l pkt l') :
    (says pkt = none ∧ l' = l) ∨
      ∃ m, says pkt = some m ∧ l'.arming = (l.enter m).arming ∧ l'.zones = (l.enter m).zones := by
  cases h with
  | reply a _ _ => exact .inr ⟨_, says_of_means hv a, close_views _ _ _⟩
  | message a _ => exact .inr ⟨_, says_of_means hv a, rfl, rfl⟩
  | other a n => exact .inl ⟨says_none hv a n, rfl⟩

theorem enter_arming (l : Ledger) (m : Message) :
    (l.enter m).arming = (armingSaid m).or l.arming := by
  unfold Ledger.enter armingSaid
  cases m <;> rfl

theorem tallies_arming {l l' : Ledger} {ps : List Packet} (h : Tallies l ps l')
    (hv : ∀ p ∈ ps, ValidPacket p ∨ ∃ i, p = .invalid i) :
    l'.arming = (lastOnAreas (ps.filterMap says)).or l.arming := by
  induction h with
  | nil => rfl
  | cons a _ ih =>
    have ih := ih fun p hp => hv p (List.mem_cons_of_mem _ hp)
    rw [ih]
    rcases books_views (hv _ List.mem_cons_self) a with ⟨hs, rfl⟩ | ⟨m, hs, e, _⟩
    · rw [List.filterMap_cons_none hs]
    · rw [List.filterMap_cons_some hs, e, enter_arming]
      unfold lastOnAreas
      rw [last_cons, Option.or_assoc]

theorem enter_zones (l : Ledger) (m : Message) (hw : WfMessage m) (i : Fin 208)
    (hs : (l.enter m).zones.isSome) :
    (l.enter m).zones.map (·.zones[i]) = (wordOn i m).or (l.zones.map (·.zones[i])) := by
  unfold Ledger.enter at hs ⊢
  unfold wordOn
  cases m with
  | zoneStatusReport z => rfl
  | zoneChange c =>
    have hc := hw.1
    dsimp only at hs ⊢
    match hz : l.zones with
    | none => rw [hz] at hs; cases hs
    | some z =>
      have hlt : c.zone.val.toNat - 1 < 208 := by have := hc.1; have := hc.2; omega
      rw [Option.map_some, Option.map_some, Option.map_some, dif_pos hlt]
      by_cases e : c.zone.val.toNat = i.val + 1
      · rw [if_pos e, Option.some_or]
        have e' : c.zone.val.toNat - 1 = i.val := by omega
        congr 1
        show (z.zones.set _ _ hlt)[i.val] = _
        rw [Vector.getElem_set, if_pos e']
      · rw [if_neg e, Option.none_or]
        have e' : c.zone.val.toNat - 1 ≠ i.val := by have := hc.1; omega
        congr 1
        show (z.zones.set _ _ hlt)[i.val] = _
        rw [Vector.getElem_set, if_neg e']
        rfl
  | _ => rfl

theorem tallies_zones {l l' : Ledger} {ps : List Packet} (h : Tallies l ps l')
    (hv : ∀ p ∈ ps, ValidPacket p ∨ ∃ i, p = .invalid i) (i : Fin 208) (hs : l'.zones.isSome) :
    l'.zones.map (·.zones[i]) =
      (lastOnZone i (ps.filterMap says)).or (l.zones.map (·.zones[i])) := by
  induction h with
  | nil => rfl
  | @cons l l₁ l' pkt ps a _ ih =>
    have ih := ih (fun p hp => hv p (List.mem_cons_of_mem _ hp)) hs
    rcases books_views (hv _ List.mem_cons_self) a with ⟨hn, rfl⟩ | ⟨m, hm, _, e⟩
    · rw [List.filterMap_cons_none hn]; exact ih
    · rw [List.filterMap_cons_some hm]
      unfold lastOnZone at ih ⊢
      rw [last_cons, Option.or_assoc, ih]
      by_cases h1 : l₁.zones.isSome
      · rw [e] at h1 ⊢
        rw [enter_zones l m (says_wf (hv _ List.mem_cons_self) hm) i h1]
      · rw [Option.not_isSome_iff_eq_none] at h1
        rw [h1, Option.map_none, Option.or_none] at ih ⊢
        obtain ⟨z, hz⟩ := Option.isSome_iff_exists.mp hs
        rw [hz, Option.map_some] at ih
        rw [← ih, Option.some_or]

theorem messages_of_taken {b left : Bytes} {ps : List Packet} (t : Taken b ps left)
    (w : Spec.Waits left) {ms : List Message} (h : Messages b ms) : ms = ps.filterMap says :=
  messages_one h ⟨ps, left, C117_tokens.mpr (tokens_of_taken t w), rfl⟩

theorem final_areas {b left : Bytes} {ps : List Packet} {l : Ledger} (t : Taken b ps left)
    (w : Spec.Waits left) (h : Tallies .new ps l) {ms : List Message} (hm : Messages b ms) :
    lastOnAreas ms = l.arming := by
  rw [messages_of_taken t w hm, tallies_arming h (taken_valid t)]
  exact Option.or_none.symm

theorem final_zones {b left : Bytes} {ps : List Packet} {l : Ledger} (t : Taken b ps left)
    (w : Spec.Waits left) (h : Tallies .new ps l) {ms : List Message} (hm : Messages b ms)
    {z : ZoneStatusReport} (hz : l.zones = some z) (i : Fin 208) :
    lastOnZone i ms = some z.zones[i] := by
  have := tallies_zones h (taken_valid t) i (by rw [hz]; rfl)
  rw [hz] at this
  rw [messages_of_taken t w hm, ← Option.or_none (o := lastOnZone i _)]
  exact this.symm

/-! ## What is shown -/

/-- **C162** A settled session shows the last report on the areas. -/
theorem C162_areas {p : Panel} (s : Session p) (hs : SettledSession s) {ms : List Message}
    (hm : Messages p.conn.sock.received ms) :
    ∃ r, p.armingStatus = .ok r ∧ lastOnAreas ms = some r := by
  obtain ⟨w, n⟩ := settled_views hs
  obtain ⟨ps, l, t, h, _, a⟩ := C152_tally _ s.fresh _ _ _ s.connected _ _ _ s.wf s.ran
  obtain ⟨⟨r, hr⟩, _⟩ :=
    C36_connected_never_panics (C36_connect_establishes _ s.fresh _ _ _ s.connected) s.ran
  refine ⟨r, hr, ?_⟩
  have a1 := a.arming
  rw [n] at a1
  rw [final_areas t w h hm, ← a1]
  exact arming_iff.mp hr

/-- **C162** A session that has polled for all that came shows the last word on each zone. -/
theorem C162_zones {p : Panel} (s : Session p) (w : Spec.Waits p.conn.rd.buffer)
    {ms : List Message} (hm : Messages p.conn.sock.received ms) :
    ∃ z, p.zoneStatuses = .ok z ∧ ∀ i : Fin 208, lastOnZone i ms = some z.zones[i] := by
  obtain ⟨ps, l, t, h, _, a⟩ := C152_tally _ s.fresh _ _ _ s.connected _ _ _ s.wf s.ran
  obtain ⟨_, ⟨z, hz⟩, _⟩ :=
    C36_connected_never_panics (C36_connect_establishes _ s.fresh _ _ _ s.connected) s.ran
  exact ⟨z, hz, fun i => final_zones t w h hm (a.zones.symm.trans (zones_iff.mp hz)) i⟩

/-- **C162** Whatever two panels have sent before, and in whatever order: if their last reports on the
areas are the same, then settled sessions show the same areas. -/
theorem C162_same_areas {p q : Panel} (sp : Session p) (sq : Session q) (hp : SettledSession sp)
    (hq : SettledSession sq) {ms ms' : List Message} (hm : Messages p.conn.sock.received ms)
    (hm' : Messages q.conn.sock.received ms') :
    p.armingStatus = q.armingStatus ↔ lastOnAreas ms = lastOnAreas ms' := by
  obtain ⟨r, h1, h2⟩ := C162_areas sp hp hm
  obtain ⟨r', h1', h2'⟩ := C162_areas sq hq hm'
  rw [h1, h1', h2, h2', Except.ok.injEq, Option.some.injEq]

/-- **C162** And exactly if the last word on each zone is the same, they show the same zones. -/
theorem C162_same_zones {p q : Panel} (sp : Session p) (sq : Session q)
    (wp : Spec.Waits p.conn.rd.buffer) (wq : Spec.Waits q.conn.rd.buffer)
    {ms ms' : List Message} (hm : Messages p.conn.sock.received ms)
    (hm' : Messages q.conn.sock.received ms') :
    p.zoneStatuses = q.zoneStatuses ↔ ∀ i, lastOnZone i ms = lastOnZone i ms' := by
  obtain ⟨z, h1, h2⟩ := C162_zones sp wp hm
  obtain ⟨z', h1', h2'⟩ := C162_zones sq wq hm'
  rw [h1, h1', Except.ok.injEq]
  constructor
  · rintro rfl i
    rw [h2, h2']
  · intro h
    have e : z.zones = z'.zones := Vector.ext fun i hi => by
      have := h ⟨i, hi⟩
      rw [h2, h2', Option.some.injEq] at this
      exact this
    cases z
    cases z'
    cases e
    rfl

/-- **C162** What the broker retains for each configured area and zone, of an idle bridge, is the text
for the last report on the areas, and for the last word on that zone, in the bytes that the bridge
received. -/
theorem C162_topics {cfg : Cfg} (hc : MapCfg cfg) (hd : DistinctNames cfg) {b : Bridge}
    (s : Service cfg b) (hi : Idle s) {ms : List Message}
    (hm : Messages b.panel.conn.sock.received ms) :
    ∃ r, lastOnAreas ms = some r ∧
      (∀ a ∈ cfg.elk.areas, ∃ t, haAreaState r ⟨a.1⟩ = .ok t ∧
        retained b.log (cfg.prefix ++ bs "/area/" ++ a.2.name ++ bs "/ha_state") =
          some (.text t)) ∧
      (∀ a ∈ cfg.elk.areas, ∀ i : Fin 8, a.1.toNat = i.val + 1 → r.alarmState[i] ≠ .fireAlarm →
        ∃ t, AreaShows r.armingStatus[i] r.upState[i] r.alarmState[i] t ∧
          retained b.log (cfg.prefix ++ bs "/area/" ++ a.2.name ++ bs "/ha_state") =
            some (.text (bs t))) ∧
      ∀ a ∈ cfg.elk.zones, ∃ i : Fin 208, ∃ st, a.1.toNat = i.val + 1 ∧ lastOnZone i ms = some st ∧
        retained b.log (cfg.prefix ++ bs "/zone/" ++ a.2.name ++ bs "/ha_state") =
          some (.text (bs (zoneText st.val.toNat))) := by
  obtain ⟨w, n⟩ := idle_views hi
  obtain ⟨ps, l, t, h, a, z⟩ := C153_tally s
  obtain ⟨r, zs, h1, h2, h3, h4, h5⟩ := C49_tracks (C36_connect_establishes _ s.fresh _ _ _ s.connected)
    (connect_wfView s.fresh s.connected) hc hd s.started s.ran
  rw [n] at a
  refine ⟨r, ?_, h3, h4, fun c hmem => ?_⟩
  · rw [final_areas t w h hm, ← a]
    exact arming_iff.mp h1
  · obtain ⟨i, e1, e2⟩ := h5 c hmem
    exact ⟨i, _, e1, final_zones t w h hm (z.symm.trans (zones_iff.mp h2)) i, e2⟩

/-! ## Not vacuous -/

/-- The messages, step by step. -/
def messagesRun (b : Bytes) : List Message :=
  match Cli.readLoop (b.length + 1) b with
  | .ok r => r.1.filterMap says
  | .error _ => []

theorem messagesRun_messages (b : Bytes) : Messages b (messagesRun b) := by
  obtain ⟨ps, left, d, _⟩ := C05_drain_terminates b
  unfold messagesRun
  rw [readLoop_drains d _ (Nat.lt_succ_self _)]
  exact ⟨ps, left, d, rfl⟩

/-- Two zones change and the areas get armed. -/
def briefNews : Bytes :=
  msgBytes (.armingStatusReport (sameReport .armedAway .armedWithExitTimer)) ++
  msgBytes (.zoneChange ⟨⟨1⟩, ⟨2⟩⟩) ++ msgBytes (.zoneChange ⟨⟨2⟩, ⟨2⟩⟩)

/-- It comes to the same, in another order and after some detours. -/
def longNews : Bytes :=
  msgBytes (.zoneChange ⟨⟨2⟩, ⟨9⟩⟩) ++
  msgBytes (.armingStatusReport (sameReport .disarmed .notReadyToArm)) ++
  msgBytes (.zoneChange ⟨⟨1⟩, ⟨1⟩⟩) ++ msgBytes (.zoneChange ⟨⟨2⟩, ⟨2⟩⟩) ++
  msgBytes (.zoneChange ⟨⟨1⟩, ⟨2⟩⟩) ++
  msgBytes (.armingStatusReport (sameReport .armedAway .armedWithExitTimer))

theorem news_last : messagesRun (sampleDialogue ++ briefNews) ≠ messagesRun (sampleDialogue ++ longNews) ∧
    lastOnAreas (messagesRun (sampleDialogue ++ briefNews)) =
      lastOnAreas (messagesRun (sampleDialogue ++ longNews)) ∧
    ∀ i, lastOnZone i (messagesRun (sampleDialogue ++ briefNews)) =
      lastOnZone i (messagesRun (sampleDialogue ++ longNews)) := by
  decide +kernel

/-- Two settled sessions with different messages, of which the last words are the same. -/
example : ∃ p q, ∃ sp : Session p, ∃ sq : Session q, ∃ ms ms', SettledSession sp ∧ SettledSession sq ∧
    Messages p.conn.sock.received ms ∧ Messages q.conn.sock.received ms' ∧ ms ≠ ms' ∧
    lastOnAreas ms = lastOnAreas ms' ∧ ∀ i, lastOnZone i ms = lastOnZone i ms' := by
  obtain ⟨p, sp, a1, a2, a3⟩ := session_of (ops := sampleConnect)
    (later := (.arrive (.data briefNews) :: List.replicate 3 (.pollNext ⟨1, 0, 0⟩)) ++
      [.pollNext ⟨1, 5000, 5000⟩])
    (f := fun r => decide (r.2.conn.sock.received = sampleDialogue ++ briefNews ∧ r.1.length = 5 ∧
      inVain r.1 = true)) rfl (by decide +kernel)
  obtain ⟨q, sq, b1, b2, b3⟩ := session_of (ops := sampleConnect)
    (later := (.arrive (.data longNews) :: List.replicate 6 (.pollNext ⟨1, 0, 0⟩)) ++
      [.pollNext ⟨1, 5000, 5000⟩])
    (f := fun r => decide (r.2.conn.sock.received = sampleDialogue ++ longNews ∧ r.1.length = 8 ∧
      inVain r.1 = true)) rfl (by decide +kernel)
  rw [decide_eq_true_eq] at a3 b3
  refine ⟨p, q, sp, sq, _, _, settled_of a2 a3.2.2 a3.2.1 ?_, settled_of b2 b3.2.2 b3.2.1 ?_,
    messagesRun_messages _, messagesRun_messages _, ?_⟩
  · rw [a1]; decide +kernel
  · rw [b1]; decide +kernel
  · have e1 : p.conn.sock.received = _ := a3.1
    have e2 : q.conn.sock.received = _ := b3.1
    rw [e1, e2]
    exact news_last

end Elk.Props
