import Verif.Props.ZoneNews
/-!
# C156: the bridge says no more than it is told

How many events a panel returns and how much a bridge publishes is bounded by what the panel sent.
-/

namespace Elk.Props

open Elk.Spec

/-- The events for reports on the areas. -/
def reportsOf (evs : List Event) : List Event :=
  evs.filter fun ev =>
    match ev.msg with
    | some (.ok (.armingStatusReport _)) => true
    | _ => false

/-- The events that are for no packet. -/
def unprompted (evs : List Event) : List Event := evs.filter fun ev => ev.pkt.isNone

/-- Whether something is withheld, as a number. -/
def owed {α : Type} (o : Option α) : Nat := if o.isSome then 1 else 0

theorem owed_le {α : Type} (o : Option α) : owed o ≤ 1 := by
  cases o
  · exact Nat.zero_le _
  · exact Nat.le_refl _

theorem tells_owed {now : Nat} {v v' : View} {pkt : Packet} {ev : Event} (h : Tells now v pkt ev v') :
    (unprompted [ev]).length + owed v'.held ≤ owed v.held + (reportsOf [ev]).length := by
  cases h with
  | @message m change done v₁ v₂ hm hl hc =>
    have hz : v'.held = v₁.held := by
      cases hc with
      | done _ _ => rfl
      | unrelated _ _ => rfl
      | idle _ => rfl
    rw [hz]
    have keep : ∀ {e : Event} {x : Option (Nat × ArmingStatusReport)}, e.pkt = some pkt →
        (unprompted [e]).length + owed x ≤ owed x + (reportsOf [e]).length := by
      intro e x h
      simp [unprompted, h]
    cases hl with
    | withhold _ _ => exact Nat.le_add_left 1 _
    | «show» _ _ => exact Nat.zero_le _
    | again _ => exact Nat.zero_le _
    | zone _ _ => exact keep rfl
    | zoneSame _ _ => exact keep rfl
    | zones => exact keep rfl
    | nothing _ _ _ => exact keep rfl
  | fault _ => exact Nat.le_of_eq (Nat.zero_add _)
  | nothing _ => exact Nat.le_of_eq (Nat.zero_add _)

theorem acts_owed {v v' : View} {op : Op} {io : Bytes} {o : Out} (h : Acts v op io o v') :
    (unprompted (events [o])).length + owed v'.held ≤
      owed v.held + (reportsOf (events [o])).length := by
  have still : ∀ {x : Option (Nat × ArmingStatusReport)}, x = v.held → events [o] = [] →
      (unprompted (events [o])).length + owed x ≤ owed v.held + (reportsOf (events [o])).length := by
    intro x e h
    rw [e, h]
    exact Nat.le_of_eq (Nat.zero_add _)
  cases h with
  | arrive => exact still rfl rfl
  | writable => exact still rfl rfl
  | next hr =>
    cases hr with
    | event _ ht =>
      have := tells_owed ht
      exact this
    | failed _ => exact still rfl rfl
    | ended _ => exact still rfl rfl
    | quiet _ _ => exact still rfl rfl
    | late _ hh _ =>
      rw [hh]
      exact Nat.le_refl 1
  | send _ => exact still rfl rfl
  | ready hr =>
    cases hr with
    | idle _ _ => exact still rfl rfl
    | flushed _ hf => exact still (flushing_held hf) rfl
    | stuck _ _ hf => exact still (flushing_held hf) rfl
  | flush hf => exact still (flushing_held hf) rfl
  | close hf _ => exact still (by have := flushing_held hf; exact this) rfl
  | closeStuck _ hf => exact still (flushing_held hf) rfl

theorem lives_owed {v v' : View} {ds : List Deed} (h : Lives v ds v') :
    (unprompted (events (ds.map Deed.out))).length + owed v'.held ≤
      owed v.held + (reportsOf (events (ds.map Deed.out))).length := by
  induction h with
  | nil => exact Nat.le_of_eq (Nat.zero_add _)
  | @cons v v₁ v₂ d ds ha _ ih =>
    have h := acts_owed ha
    have e : events ((d :: ds).map Deed.out) = events [d.out] ++ events (ds.map Deed.out) := by
      rw [List.map_cons, ← List.singleton_append]
      exact List.filterMap_append
    rw [e]
    unfold unprompted reportsOf at *
    rw [List.filter_append, List.filter_append, List.length_append, List.length_append]
    omega

theorem looks_owed {p : Panel} {v : View} (h : Looks p v) : owed p.pendingArm = owed v.held := by
  have := h.held
  unfold owed
  rw [← this]
  cases p.pendingArm <;> rfl

/-- An event for no packet is for a report withheld before: one at most for each report on the areas,
and one for a report that connecting withheld.  What is withheld in the end counts too. -/
theorem C156_unprompted {p : Panel} (s : Session p) :
    (unprompted (events s.outs')).length + owed p.pendingArm ≤
      owed s.p0.pendingArm + (reportsOf (events s.outs')).length := by
  have hcon := C36_connect_establishes _ s.fresh _ _ _ s.connected
  obtain ⟨v0, v, ds, k0, k, hlv, _, o2, _, _⟩ := C122_follows hcon s.wf s.ran
  have h := lives_owed hlv
  rw [o2] at h
  rw [looks_owed k0, looks_owed k]
  exact h

theorem prompted_count (evs : List Event) :
    evs.length = (unprompted evs).length + (evs.filterMap (·.pkt)).length := by
  induction evs with
  | nil => rfl
  | cons ev evs ih =>
    unfold unprompted at *
    match h : ev.pkt with
    | none =>
      rw [List.filter_cons_of_pos (by rw [h]; rfl), List.filterMap_cons, h, List.length_cons,
        List.length_cons, ih]
      dsimp only
      omega
    | some x =>
      rw [List.filter_cons_of_neg (by rw [h]; exact fun h => (by cases h)), List.filterMap_cons, h,
        List.length_cons, ih]
      dsimp only
      rw [List.length_cons]
      omega

/-- An event for a message is for a packet. -/
def Prompted (evs : List Event) : Prop := ∀ ev ∈ evs, ev.msg.isSome = true → ev.pkt.isSome = true

theorem reports_count {evs : List Event} (h : Prompted evs) :
    (reportsOf evs).length ≤ (evs.filterMap (·.pkt)).length := by
  induction evs with
  | nil => exact Nat.le_refl _
  | cons ev evs ih =>
    have ih := ih fun e he => h e (List.mem_cons_of_mem _ he)
    have h := h ev List.mem_cons_self
    unfold reportsOf at *
    rw [List.filterMap_cons]
    match hp : ev.pkt with
    | none =>
      rw [List.filter_cons_of_neg]
      · exact ih
      · rw [hp] at h
        match hm : ev.msg with
        | none => exact fun h => (by cases h)
        | some x => rw [hm] at h; cases h rfl
    | some x =>
      dsimp only
      rw [List.length_cons]
      refine Nat.le_trans ?_ (Nat.succ_le_succ ih)
      rw [List.filter_cons]
      split
      · exact Nat.le_refl _
      · exact Nat.le_succ _

theorem tells_prompted {now : Nat} {v v' : View} {pkt : Packet} {ev : Event}
    (h : Tells now v pkt ev v') : ev.pkt.isSome = true := by
  cases h with
  | message _ _ _ => rfl
  | fault _ => rfl
  | nothing _ => rfl

theorem acts_prompted {v v' : View} {op : Op} {io : Bytes} {o : Out} (h : Acts v op io o v') :
    Prompted (events [o]) := by
  have none : events [o] = [] → Prompted (events [o]) := fun h => by
    rw [h]; exact fun _ h => absurd h List.not_mem_nil
  cases h with
  | arrive => exact none rfl
  | writable => exact none rfl
  | next hr =>
    cases hr with
    | event _ ht =>
      intro ev he _
      rw [List.mem_singleton.mp he]
      exact tells_prompted ht
    | failed _ => exact none rfl
    | ended _ => exact none rfl
    | quiet _ _ => exact none rfl
    | late _ hh _ =>
      intro ev he hm
      rw [List.mem_singleton.mp he] at hm
      cases hm
  | send _ => exact none rfl
  | ready hr => exact none rfl
  | flush hf => exact none rfl
  | close hf _ => exact none rfl
  | closeStuck _ hf => exact none rfl

theorem lives_prompted {v v' : View} {ds : List Deed} (h : Lives v ds v') :
    Prompted (events (ds.map Deed.out)) := by
  induction h with
  | nil => exact fun _ h => absurd h List.not_mem_nil
  | @cons v v₁ v₂ d ds ha _ ih =>
    have e : events ((d :: ds).map Deed.out) = events [d.out] ++ events (ds.map Deed.out) := by
      rw [List.map_cons, ← List.singleton_append]
      exact List.filterMap_append
    rw [e]
    intro ev he
    rcases List.mem_append.mp he with he | he
    · exact acts_prompted ha ev he
    · exact ih ev he

/-- What a history of a panel returns is bounded by the packets. -/
theorem lives_bound {v v' : View} {ds : List Deed} (h : Lives v ds v') :
    (events (ds.map Deed.out)).length ≤ 1 + 2 * (packets (ds.map Deed.out)).length := by
  have h1 := lives_owed h
  have h2 := reports_count (lives_prompted h)
  have h3 := prompted_count (events (ds.map Deed.out))
  have h4 := owed_le v.held
  unfold packets
  omega

/-- **C156** A panel returns two events at most for each byte it received, and one more. -/
theorem C156_events {p : Panel} (s : Session p) :
    (events s.outs').length ≤ 1 + 2 * p.conn.sock.received.length := by
  have hcon := C36_connect_establishes _ s.fresh _ _ _ s.connected
  obtain ⟨v0, v, ds, k0, k, hlv, _, o2, _, _⟩ := C122_follows hcon s.wf s.ran
  have h := lives_bound hlv
  rw [o2] at h
  have := taken_shorter (taken_session s)
  rw [List.length_append] at this
  omega

/-- **C156** More exactly: an event for each packet, and one for each report on the areas that may have
been withheld. -/
theorem C156_packets {p : Panel} (s : Session p) :
    (events s.outs').length ≤ (packets s.outs').length + owed s.p0.pendingArm +
      (reportsOf (events s.outs')).length := by
  have h1 := C156_unprompted s
  have h2 := prompted_count (events s.outs')
  unfold packets
  omega

/-- Two events for one packet: the report, and that it was withheld until now. -/
example : ∃ p, ∃ s : Session p, (packets s.outs').length = 1 ∧
    (events s.outs').length = 2 ∧ (unprompted (events s.outs')).length = 1 ∧
    (reportsOf (events s.outs')).length = 1 := by
  obtain ⟨p, s, hops, hlater, a⟩ := session_of (ops := sampleConnect) (later := sampleLater)
    (f := fun r => decide ((packets r.1).length = 1 ∧ (events r.1).length = 2 ∧
      (unprompted (events r.1)).length = 1 ∧ (reportsOf (events r.1)).length = 1))
    rfl (by decide +kernel)
  rw [decide_eq_true_eq] at a
  exact ⟨p, s, a⟩

/-! ## The bridge -/

theorem each_length {α β : Type} {r : α → β → Prop} {l : List α} {l' : List β} (h : Each r l l') :
    l'.length = l.length := by
  induction h with
  | nil => rfl
  | cons _ _ ih => rw [List.length_cons, List.length_cons, ih]

theorem announces_length {cfg : Cfg} {v : View} {ev : Event} {out : List Published}
    (h : Announces cfg v ev out) : out.length ≤ 1 + max 1 cfg.elk.areas.length := by
  cases h with
  | @mk j out _ hu =>
    rw [List.length_cons]
    generalize ev.change = c at hu
    cases hu with
    | nothing => simp
    | areas he => rw [each_length he]; omega
    | zone _ _ => simp only [List.length_cons, List.length_nil]; omega
    | other _ => simp

theorem working_length {cfg : Cfg} {code : ArmCode} {d d' : Desk} {l : List Turn}
    (h : Working cfg code d l d') : (published (l.map Turn.out)).length ≤
      (handled (l.map Turn.out)).length * (1 + max 1 cfg.elk.areas.length) := by
  induction h with
  | nil => exact Nat.zero_le _
  | @cons _ _ _ t l hs _ ih =>
    have e1 : published ((t :: l).map Turn.out) = published [t.out] ++ published (l.map Turn.out) := by
      rw [List.map_cons, ← List.singleton_append]; exact List.flatMap_append
    have e2 : handled ((t :: l).map Turn.out) = handled [t.out] ++ handled (l.map Turn.out) := by
      rw [List.map_cons, ← List.singleton_append]; exact List.filterMap_append
    rw [e1, e2, List.length_append, List.length_append, Nat.add_mul]
    refine Nat.add_le_add ?_ ih
    obtain ⟨op, rd, wr, out⟩ := t
    cases hs with
    | @event cx pf io ev w out v' _ _ _ _ ha =>
      have := announces_length ha
      show (out ++ []).length ≤ 1 * _
      rw [List.append_nil, Nat.one_mul]
      exact this
    | arrive => exact Nat.zero_le _
    | writable => exact Nat.zero_le _
    | deliver => exact Nat.zero_le _
    | ignores _ _ _ _ _ => exact Nat.zero_le _
    | takes _ _ _ _ => exact Nat.zero_le _
    | idle _ _ _ => exact Nat.zero_le _
    | waits _ _ => exact Nat.zero_le _
    | hands _ _ => exact Nat.zero_le _
    | sending _ _ => exact Nat.zero_le _
    | sent _ _ => exact Nat.zero_le _

theorem opens_length {cfg : Cfg} {v : View} {out : List Published} (h : Opens cfg v out) :
    out.length ≤ 2 * (cfg.elk.areas.length + cfg.elk.zones.length) + 1 := by
  cases h with
  | @mk docs as zs d1 d2 ha hz =>
    have : docs.length ≤ cfg.elk.areas.length + cfg.elk.zones.length := by
      match hx : cfg.mqtt.haDiscoveryPrefix with
      | none => rw [d2 hx]; exact Nat.zero_le _
      | some x => rw [d1 x hx]; simp
    simp only [List.length_append, List.length_cons, List.length_nil, each_length ha, each_length hz]
    omega

/-- **C156** A bridge publishes at first two messages at most for each area and each zone, and one more;
and then, for each byte that the panel sent, for two events at most: each itself, and a state for every
area or for one zone. -/
theorem C156_published {cfg : Cfg} {b : Bridge} (s : Service cfg b) :
    b.log.length ≤ 2 * (cfg.elk.areas.length + cfg.elk.zones.length) + 1 +
      (1 + 2 * b.panel.conn.sock.received.length) * (1 + max 1 cfg.elk.areas.length) := by
  have ht := taken_connected _ s.fresh _ _ _ s.connected
  have hcon := C36_connect_establishes _ s.fresh _ _ _ s.connected
  obtain ⟨code, v0, l, d, _, k0, hwk, hsit, _, o2, hrec, _, ho, hlog⟩ :=
    C124_follows hcon (connect_wfView s.fresh s.connected) s.started s.ran
  obtain ⟨ds, hlv, hbr, hev, _⟩ := working_lives hwk
  have hl := taken_shorter (lives_taken hlv (b := s.p0.conn.sock.received) (k0.unread ▸ ht))
  rw [hbr, ← hrec, List.length_append] at hl
  have h1 := lives_bound hlv
  rw [hev] at h1
  have h2 := working_length hwk
  rw [← o2] at h1 h2
  have h3 := opens_length ho
  rw [hlog, List.length_append]
  refine Nat.add_le_add h3 (Nat.le_trans h2 (Nat.mul_le_mul_right _ ?_))
  omega

end Elk.Props
