import Verif.Spec.Senses
import Verif.Props.Capture
/-!
# C155: what is told of the zones depends on the bytes only

Unlike what is told of the areas: a report on these may be withheld.
-/

namespace Elk.Props

open Elk.Spec

theorem senses_one {z z₁ z₂ : ZoneStatusReport} {pkt : Packet} {n₁ n₂ : List ZoneNews}
    (hv : ValidPacket pkt ∨ ∃ i, pkt = .invalid i) (h₁ : Senses z pkt n₁ z₁)
    (h₂ : Senses z pkt n₂ z₂) : n₁ = n₂ ∧ z₁ = z₂ := by
  cases h₁ with
  | @change m i hi a b c =>
    cases h₂ with
    | @change m' i' hi' a' b' c' =>
      cases means_one hv a a'
      have : i = i' := by omega
      subst this
      exact ⟨rfl, rfl⟩
    | @same m' i' hi' a' b' c' =>
      cases means_one hv a a'
      have : i = i' := by omega
      subst this
      exact absurd c' c
    | report a' => cases means_one hv a a'
    | other a' n _ => cases means_one hv a a'; exact absurd rfl (n _)
  | @same m i hi a b c =>
    cases h₂ with
    | @change m' i' hi' a' b' c' =>
      cases means_one hv a a'
      have : i = i' := by omega
      subst this
      exact absurd c c'
    | same a' b' c' => exact ⟨rfl, rfl⟩
    | report a' => cases means_one hv a a'
    | other a' n _ => exact ⟨rfl, rfl⟩
  | report a =>
    cases h₂ with
    | change a' b' c' => cases means_one hv a a'
    | same a' b' c' => cases means_one hv a a'
    | report a' => cases means_one hv a a'; exact ⟨rfl, rfl⟩
    | other a' _ n => cases means_one hv a a'; exact absurd rfl (n _)
  | other a n n' =>
    cases h₂ with
    | change a' b' c' => cases means_one hv a a'; exact absurd rfl (n _)
    | same a' b' c' => exact ⟨rfl, rfl⟩
    | report a' => cases means_one hv a a'; exact absurd rfl (n' _)
    | other a' _ _ => exact ⟨rfl, rfl⟩

theorem sensesAll_one {z z₁ z₂ : ZoneStatusReport} {ps : List Packet} {n₁ n₂ : List ZoneNews}
    (hv : ∀ p ∈ ps, ValidPacket p ∨ ∃ i, p = .invalid i) (h₁ : SensesAll z ps n₁ z₁)
    (h₂ : SensesAll z ps n₂ z₂) : n₁ = n₂ ∧ z₁ = z₂ := by
  induction h₁ generalizing n₂ with
  | nil => cases h₂; exact ⟨rfl, rfl⟩
  | cons a _ ih =>
    cases h₂ with
    | cons a' t =>
      obtain ⟨rfl, rfl⟩ := senses_one (hv _ List.mem_cons_self) a a'
      obtain ⟨rfl, rfl⟩ := ih (fun p hp => hv p (List.mem_cons_of_mem _ hp)) t
      exact ⟨rfl, rfl⟩

theorem sensesAll_append {z z' z'' : ZoneStatusReport} {ps qs : List Packet} {n l : List ZoneNews}
    (h : SensesAll z ps n z') (k : SensesAll z' qs l z'') : SensesAll z (ps ++ qs) (n ++ l) z'' := by
  induction h with
  | nil => exact k
  | cons a _ ih =>
    rw [List.append_assoc]
    exact .cons a (ih k)

theorem sensesAll_split {z z'' : ZoneStatusReport} {ps qs : List Packet} {n : List ZoneNews}
    (h : SensesAll z (ps ++ qs) n z'') :
    ∃ n₁ n₂ z', n = n₁ ++ n₂ ∧ SensesAll z ps n₁ z' ∧ SensesAll z' qs n₂ z'' := by
  induction ps generalizing z n with
  | nil => exact ⟨[], n, z, rfl, .nil, h⟩
  | cons p ps ih =>
    cases h with
    | cons a t =>
      obtain ⟨n₁, n₂, z', e, h1, h2⟩ := ih t
      exact ⟨_ ++ n₁, n₂, z', by rw [e, List.append_assoc], .cons a h1, h2⟩

/-! ## A panel -/

theorem tells_senses {now : Nat} {v v' : View} {pkt : Packet} {ev : Event}
    (h : Tells now v pkt ev v') : ∃ n, Senses v.zones pkt n v'.zones ∧
      zonesTold [ev] = n.map fun n => (n.zone, n.prior) := by
  cases h with
  | @message m change done v₁ v₂ hm hl hc =>
    have hz : v'.zones = v₁.zones := by
      cases hc with
      | done _ _ => rfl
      | unrelated _ _ => rfl
      | idle _ => rfl
    rw [hz]
    cases hl with
    | withhold _ _ => exact ⟨_, .other hm (fun _ h => (by cases h)) (fun _ h => (by cases h)), rfl⟩
    | «show» _ _ => exact ⟨_, .other hm (fun _ h => (by cases h)) (fun _ h => (by cases h)), rfl⟩
    | again _ => exact ⟨_, .other hm (fun _ h => (by cases h)) (fun _ h => (by cases h)), rfl⟩
    | zone a b => exact ⟨_, .change hm a b, rfl⟩
    | zoneSame a b => exact ⟨_, .same hm a b, rfl⟩
    | zones => exact ⟨_, .report hm, rfl⟩
    | nothing _ h2 h3 =>
      exact ⟨_, .other hm (fun r h => h2 r (by cases h; rfl)) (fun r h => h3 r (by cases h; rfl)), rfl⟩
  | fault a => exact ⟨_, .other a (fun _ h => (by cases h)) (fun _ h => (by cases h)), rfl⟩
  | nothing a => exact ⟨_, .other a (fun _ h => (by cases h)) (fun _ h => (by cases h)), rfl⟩

theorem flushing_zones {v v' : View} {io : Bytes} {r} (h : Flushing v io r v') :
    v'.zones = v.zones := by
  cases h with
  | nothing _ _ => rfl
  | flushed _ _ => rfl
  | stuck _ _ _ => rfl

theorem acts_senses {v v' : View} {op : Op} {io : Bytes} {o : Out} (h : Acts v op io o v') :
    ∃ n, SensesAll v.zones (packets [o]) n v'.zones ∧
      zonesTold (events [o]) = n.map fun n => (n.zone, n.prior) := by
  have still : ∀ {z : ZoneStatusReport}, z = v.zones → packets [o] = [] → zonesTold (events [o]) = [] →
      ∃ n, SensesAll v.zones (packets [o]) n z ∧
        zonesTold (events [o]) = n.map fun n => (n.zone, n.prior) := by
    intro z e h1 h2
    rw [e, h1, h2]
    exact ⟨[], .nil, rfl⟩
  cases h with
  | arrive => exact still rfl rfl rfl
  | writable => exact still rfl rfl rfl
  | @next _ _ _ w _ hr =>
    cases hr with
    | @event pkt rest ev _ hf ht =>
      obtain ⟨n, h1, h2⟩ := tells_senses ht
      have e : ev.pkt = some pkt := by
        cases ht with
        | message _ _ _ => rfl
        | fault _ => rfl
        | nothing _ => rfl
      refine ⟨n, ?_, h2⟩
      rw [show packets [Out.next (.ready (some (.ok ev))) w] = [pkt] by
          show [ev].filterMap (·.pkt) = _
          rw [List.filterMap_cons, e]
          rfl,
        ← List.append_nil n]
      exact .cons h1 .nil
    | failed _ => exact still rfl rfl rfl
    | ended _ => exact still rfl rfl rfl
    | quiet _ _ => exact still rfl rfl rfl
    | late _ _ _ => exact still rfl rfl rfl
  | send _ => exact still rfl rfl rfl
  | ready hr =>
    cases hr with
    | idle _ _ => exact still rfl rfl rfl
    | flushed _ hf => exact still (flushing_zones hf) rfl rfl
    | stuck _ _ hf => exact still (flushing_zones hf) rfl rfl
  | flush hf => exact still (flushing_zones hf) rfl rfl
  | close hf _ => exact still (by have := flushing_zones hf; exact this) rfl rfl
  | closeStuck _ hf => exact still (flushing_zones hf) rfl rfl

theorem lives_senses {v v' : View} {ds : List Deed} (h : Lives v ds v') :
    ∃ n, SensesAll v.zones (packets (ds.map Deed.out)) n v'.zones ∧
      zonesTold (events (ds.map Deed.out)) = n.map fun n => (n.zone, n.prior) := by
  induction h with
  | nil => exact ⟨[], .nil, rfl⟩
  | @cons v v₁ v₂ d ds ha _ ih =>
    obtain ⟨n, h1, h2⟩ := acts_senses ha
    obtain ⟨n', k1, k2⟩ := ih
    refine ⟨n ++ n', ?_, ?_⟩
    · rw [List.map_cons, ← List.singleton_append, packets_append]
      exact sensesAll_append h1 k1
    · rw [List.map_append, ← h2, ← k2, List.map_cons, ← List.singleton_append]
      unfold events zonesTold
      rw [List.filterMap_append, List.filterMap_append]

/-! ## The beginning -/

theorem taken_same {b left : Bytes} {ps ps' : List Packet} (h : Taken b ps left)
    (h' : Taken b ps' left) : ps = ps' := by
  induction h generalizing ps' with
  | nil =>
    cases ps' with
    | nil => rfl
    | cons p ps' =>
      have := taken_shorter h'
      rw [List.length_cons] at this
      omega
  | @cons b pkt rest ps left a t ih =>
    cases h' with
    | nil =>
      have := taken_shorter (.cons a t)
      rw [List.length_cons] at this
      omega
    | cons a' t' =>
      have e := (C117_decode.mpr a).symm.trans (C117_decode.mpr a')
      cases e
      rw [ih t']

/-- The packets that connecting took, and the zones in the end. -/
theorem connected_least (c : Connection) (hc : Fresh c) (ops : List InitOp) (outs : List Obs)
    (p0 : Panel) (h : Init.connect c ops = .ok (outs, .finished (.ok p0))) :
    ∃ a x l₁ l, gottenPackets outs = a ++ [x] ∧ Tallies .new a l₁ ∧ l₁.open' ≠ none ∧
      Tallies .new (a ++ [x]) l ∧ l.open' = none ∧ p0.state.zoneStatuses = l.zones := by
  obtain ⟨ps, pkt, l₁, l, ht, h1, n1, h2, n2⟩ := taken_least c hc ops outs p0 h
  obtain ⟨ps', g, ht', hl', hk⟩ := tally_done c hc ops outs p0 h
  have ht'' := taken_connected c hc ops outs p0 h
  have e := taken_same ht'' ht
  rw [← hk.unread] at ht'
  have e' := taken_same ht' ht
  subst e'
  have := C152_one ht h2 hl'
  refine ⟨ps, pkt, l₁, l, e, h1, n1, h2, n2, ?_⟩
  rw [this]
  exact hk.zones

theorem taken_prefix {b t left left' : Bytes} {ps ps' : List Packet} (h : Taken b ps left)
    (h' : Taken (b ++ t) ps' left') (hw : Spec.Waits left') : ∃ more, ps' = ps ++ more := by
  obtain ⟨more, l, hd, _⟩ := C117_stream (left ++ t)
  have d := steps_into (taken_steps (taken_more h t)) (C117_tokens.mpr hd)
  have d' := C117_tokens.mpr (tokens_of_taken h' hw)
  exact ⟨more, (drains_unique d d').1⟩

/-- Two connections, of which one has read more than the other: they took the same packets in
connecting, and the first has taken no others since. -/
theorem same_start {c c' : Connection} (hc : Fresh c) (hc' : Fresh c') {ops ops' : List InitOp}
    {outs outs' : List Obs} {p0 p0' : Panel}
    (h : Init.connect c ops = .ok (outs, .finished (.ok p0)))
    (h' : Init.connect c' ops' = .ok (outs', .finished (.ok p0'))) {b t left left' : Bytes}
    {ps ps' : List Packet} (ht : Taken b (gottenPackets outs ++ ps) left)
    (ht' : Taken (b ++ t) (gottenPackets outs' ++ ps') left') (hw : Spec.Waits left') :
    gottenPackets outs = gottenPackets outs' ∧ (∃ more, ps' = ps ++ more) ∧
      p0.state.zoneStatuses = p0'.state.zoneStatuses := by
  obtain ⟨a, x, l₁, l, e, h1, n1, h2, n2, z⟩ := connected_least c hc ops outs p0 h
  obtain ⟨a', x', l₁', l', e', h1', n1', h2', n2', z'⟩ := connected_least c' hc' ops' outs' p0' h'
  obtain ⟨more, hm⟩ := taken_prefix ht ht' hw
  have hv := taken_valid ht'
  rw [e, e'] at hm
  rw [e'] at ht' hv
  rw [List.append_assoc (a ++ [x])] at hm
  have hb := least_one rfl hm hv h1' n1' h2' n2' h1 n1 h2 n2
  rw [hb] at hm ht'
  have ha : a' ++ [x'] = a ++ [x] := List.append_cancel_right hm
  refine ⟨by rw [e, e', ha], ⟨more, hb⟩, ?_⟩
  rw [z, z']
  have hv' : ∀ p ∈ a ++ [x], ValidPacket p ∨ ∃ i, p = .invalid i := fun p hp =>
    hv p (List.mem_append_left _ (ha ▸ hp))
  rw [ha] at h2'
  clear hv e e' hm ht ht' hw h1 h1' z z' ha hb
  generalize a ++ [x] = qs at h2 h2' hv'
  clear n2 n2' n1 n1' h h'
  generalize Ledger.new = l₀ at h2 h2'
  induction h2 with
  | nil => cases h2'; rfl
  | cons a _ ih =>
    cases h2' with
    | cons a' t =>
      cases books_one (hv' _ List.mem_cons_self) a a'
      exact ih (fun p hp => hv' p (List.mem_cons_of_mem _ hp)) t

/-! ## Sessions -/

/-- **C155** Of two sessions, of which one has read what the other has and perhaps more, and has polled
for it all, the one tells the changes of zones that the other tells, in order, and perhaps more: with
what each zone was before. -/
theorem C155_prefix {p q : Panel} (sp : Session p) (sq : Session q) {t : Bytes}
    (he : q.conn.sock.received = p.conn.sock.received ++ t) (wq : Spec.Waits q.conn.rd.buffer) :
    zonesTold (events sp.outs') <+: zonesTold (events sq.outs') := by
  have tp := taken_session sp
  have tq := taken_session sq
  rw [he] at tq
  obtain ⟨_, ⟨more, hm⟩, hz⟩ := same_start sp.fresh sq.fresh sp.connected sq.connected tp tq wq
  have lp : ∀ {p : Panel} (s : Session p), ∃ z n z', s.p0.state.zoneStatuses = some z ∧
      SensesAll z (packets s.outs') n z' ∧
      zonesTold (events s.outs') = n.map fun n => (n.zone, n.prior) := by
    intro p s
    have hcon := C36_connect_establishes _ s.fresh _ _ _ s.connected
    obtain ⟨v0, v, ds, k0, k, hlv, _, o2, _, _⟩ := C122_follows hcon s.wf s.ran
    obtain ⟨n, h1, h2⟩ := lives_senses hlv
    rw [o2] at h1 h2
    exact ⟨_, n, _, zones_iff.mp k0.zones, h1, h2⟩
  obtain ⟨z, n, z₁, a1, a2, a3⟩ := lp sp
  obtain ⟨z', n', z₁', b1, b2, b3⟩ := lp sq
  rw [a1, b1] at hz
  cases hz
  rw [hm] at b2
  obtain ⟨n₁, n₂, z₂, e, c1, _⟩ := sensesAll_split b2
  obtain ⟨rfl, _⟩ := sensesAll_one (fun p hp => taken_valid tp p (List.mem_append_right _ hp)) a2 c1
  rw [a3, b3, e, List.map_append]
  exact List.prefix_append _ _

/-- **C155** Two sessions that have read the same bytes and polled for them all have told the same
changes of zones: however the bytes were cut into pieces and whenever they came, and whatever commands
were sent meanwhile. -/
theorem C155_zones {p q : Panel} (sp : Session p) (sq : Session q)
    (he : p.conn.sock.received = q.conn.sock.received) (wp : Spec.Waits p.conn.rd.buffer)
    (wq : Spec.Waits q.conn.rd.buffer) :
    zonesTold (events sp.outs') = zonesTold (events sq.outs') := by
  have h := C155_prefix sp sq (t := []) (by rw [he, List.append_nil]) wq
  have h' := C155_prefix sq sp (t := []) (by rw [he, List.append_nil]) wp
  exact h.eq_of_length (Nat.le_antisymm h.length_le h'.length_le)

/-! ## Bridges -/

theorem zone_bytes : bs "/zone/" = [0x2f, 0x7a, 0x6f, 0x6e, 0x65, 0x2f] := by decide +kernel
theorem area_bytes : bs "/area/" = [0x2f, 0x61, 0x72, 0x65, 0x61, 0x2f] := by decide +kernel
theorem event_bytes : bs "/event" = [0x2f, 0x65, 0x76, 0x65, 0x6e, 0x74] := by decide +kernel

theorem area_other (cfg : Cfg) (t : Bytes) :
    ¬ cfg.prefix ++ bs "/zone/" <+: cfg.prefix ++ bs "/area/" ++ t := by
  rw [List.append_assoc, List.prefix_append_right_inj, zone_bytes, area_bytes]
  rintro ⟨u, e⟩
  simp at e

theorem event_other (cfg : Cfg) : ¬ cfg.prefix ++ bs "/zone/" <+: cfg.prefix ++ bs "/event" := by
  rw [List.prefix_append_right_inj, zone_bytes, event_bytes]
  rintro ⟨u, e⟩
  simp at e

theorem zoneLog_append (cfg : Cfg) (a b : List Published) :
    zoneLog cfg (a ++ b) = zoneLog cfg a ++ zoneLog cfg b := List.filter_append ..

theorem areas_unzoned {cfg : Cfg} {r : ArmingStatusReport} {as : List (UInt8 × AreaCfg)}
    {out : List Published} (h : Each (AreaLine cfg.prefix r) as out) : zoneLog cfg out = [] := by
  induction h with
  | nil => rfl
  | cons a _ ih =>
    unfold zoneLog at ih ⊢
    cases a with
    | state _ _ =>
      rw [List.filter_cons_of_neg, ih]
      rw [List.append_assoc, decide_eq_true_eq]
      exact area_other cfg _

theorem filter_one {β : Type} {l : List (UInt8 × β)} (hn : (l.map (·.1)).Nodup) {k : UInt8} {b : β}
    (h : (k, b) ∈ l) : l.filter (fun a => a.1 == k) = [(k, b)] := by
  induction l with
  | nil => cases h
  | cons a l ih =>
    rw [List.map_cons, List.nodup_cons] at hn
    rcases List.mem_cons.mp h with rfl | h
    · rw [List.filter_cons_of_pos (by simp), List.filter_eq_nil_iff.mpr]
      intro a ha e
      exact hn.1 (List.mem_map.mpr ⟨a, ha, by simpa using e⟩)
    · rw [List.filter_cons_of_neg, ih hn.2 h]
      intro e
      rw [beq_iff_eq] at e
      exact hn.1 (List.mem_map.mpr ⟨_, h, e.symm⟩)

theorem reading_senses {cfg : Cfg} (hm : MapCfg cfg) {cx : Cx} {v v' : View} {io : Bytes} {ev : Event}
    {out : List Published} (h : Reading cx v io (.ready (some (.ok ev))) v')
    (ha : Announces cfg v' ev out) : ∃ n, SensesAll v.zones ([ev].filterMap (·.pkt)) n v'.zones ∧
      zoneLog cfg out = n.flatMap (zoneOut cfg) := by
  cases ha with
  | @mk j out _ hu =>
    have e : ∀ m : List Published,
        zoneLog cfg (⟨cfg.prefix ++ bs "/event", false, .json j⟩ :: m) = zoneLog cfg m := by
      intro m
      unfold zoneLog
      rw [List.filter_cons_of_neg]
      rw [decide_eq_true_eq]
      exact event_other cfg
    rw [e]
    cases h with
    | @event pkt rest _ _ hf ht =>
      obtain ⟨n, h1, h2⟩ := tells_senses ht
      have hp : ev.pkt = some pkt := by
        cases ht with
        | message _ _ _ => rfl
        | fault _ => rfl
        | nothing _ => rfl
      refine ⟨n, ?_, ?_⟩
      · rw [List.filterMap_cons, hp, ← List.append_nil n]
        exact .cons h1 .nil
      · unfold zonesTold at h2
        generalize hch : ev.change = ch at hu
        rw [List.filterMap_cons, hch] at h2
        have hz : v'.zones = v'.zones := rfl
        generalize hv' : v'.zones = z at h1 hz
        cases hu with
        | nothing =>
          have := List.map_eq_nil_iff.mp h2.symm
          rw [this]; rfl
        | areas hl =>
          have := List.map_eq_nil_iff.mp h2.symm
          rw [this, areas_unzoned hl]; rfl
        | @zone zone prior c m hc hl =>
          cases h1 with
          | @change m' i hi a b c' =>
            cases h2
            cases hl with
            | @state j hj hb =>
              dsimp only at hb
              have : i = j := by omega
              subst this
              have hz' : v'.zones.zones[i] = m'.status := by
                rw [hv']; exact Vector.getElem_set_self ..
              show _ = zoneOut cfg _ ++ []
              rw [List.append_nil]
              unfold zoneOut
              dsimp only
              rw [filter_one hm.zones hc, hz']
              unfold zoneLog
              rw [List.filter_cons_of_pos]
              · rfl
              · rw [decide_eq_true_eq, List.append_assoc]
                exact List.prefix_append _ _
          | same _ _ _ => cases h2
          | report _ => cases h2
          | other _ _ _ => cases h2
        | @other zone prior hc =>
          cases h1 with
          | @change m' i hi a b c' =>
            cases h2
            show [] = zoneOut cfg _ ++ []
            unfold zoneOut
            rw [List.filter_eq_nil_iff.mpr]
            · rfl
            · intro a ha e
              exact hc a.2 (by rw [beq_iff_eq] at e; rw [← e]; exact ha)
          | same _ _ _ => cases h2
          | report _ => cases h2
          | other _ _ _ => cases h2
    | late _ _ _ =>
      refine ⟨[], .nil, ?_⟩
      cases hu with
      | areas hl => exact areas_unzoned hl

theorem pending_zones {cx : Cx} {v v' : View} {io : Bytes} (h : Reading cx v io .pending v') :
    v'.zones = v.zones := by
  cases h with
  | quiet _ _ => rfl

theorem looked_zones {cx : Cx} {v v' : View} {pf : Bool} {io : Bytes} (h : Looked cx v pf io v') :
    v'.zones = v.zones := by
  cases h with
  | no => rfl
  | yes h => exact pending_zones h

theorem serves_senses {cfg : Cfg} (hm : MapCfg cfg) {code : ArmCode} {d d' : Desk} {op : BOp}
    {rd wr : Bytes} {o : BObs} (h : Serves cfg code d op rd wr o d') :
    ∃ n, SensesAll d.view.zones ((handled [o]).filterMap (·.pkt)) n d'.view.zones ∧
      zoneLog cfg (published [o]) = n.flatMap (zoneOut cfg) := by
  have still : ∀ {z : ZoneStatusReport}, z = d.view.zones → handled [o] = [] → published [o] = [] →
      ∃ n, SensesAll d.view.zones ((handled [o]).filterMap (·.pkt)) n z ∧
        zoneLog cfg (published [o]) = n.flatMap (zoneOut cfg) := by
    intro z e h1 h2
    rw [e, h1, h2]
    exact ⟨[], .nil, rfl⟩
  cases h with
  | arrive => exact still rfl rfl rfl
  | writable => exact still rfl rfl rfl
  | deliver => exact still rfl rfl rfl
  | @event cx pf io ev w out v' _ _ hr _ ha =>
    obtain ⟨n, h1, h2⟩ := reading_senses hm hr ha
    refine ⟨n, h1, ?_⟩
    show zoneLog cfg (out ++ []) = _
    rw [List.append_nil]
    exact h2
  | ignores _ _ hl _ _ => exact still (looked_zones hl) rfl rfl
  | takes _ _ hl _ => exact still (looked_zones hl) rfl rfl
  | idle _ _ hr => exact still (pending_zones hr) rfl rfl
  | waits _ hr =>
    refine still ?_ rfl rfl
    cases hr with
    | flushed _ hf => exact flushing_zones hf
    | stuck _ _ hf => exact flushing_zones hf
  | hands _ _ => exact still rfl rfl rfl
  | sending _ hf => exact still (flushing_zones hf) rfl rfl
  | sent _ hf => exact still (flushing_zones hf) rfl rfl

theorem working_senses {cfg : Cfg} (hm : MapCfg cfg) {code : ArmCode} {d d' : Desk} {l : List Turn}
    (h : Working cfg code d l d') :
    ∃ n, SensesAll d.view.zones ((handled (l.map Turn.out)).filterMap (·.pkt)) n d'.view.zones ∧
      zoneLog cfg (published (l.map Turn.out)) = n.flatMap (zoneOut cfg) := by
  induction h with
  | nil => exact ⟨[], .nil, rfl⟩
  | @cons _ _ _ t l hs _ ih =>
    obtain ⟨n, h1, h2⟩ := serves_senses hm hs
    obtain ⟨n', k1, k2⟩ := ih
    refine ⟨n ++ n', ?_, ?_⟩
    · rw [List.map_cons, ← List.singleton_append]
      unfold handled
      rw [List.filterMap_append, List.filterMap_append]
      exact sensesAll_append h1 k1
    · rw [List.map_cons, ← List.singleton_append, List.flatMap_append, ← h2, ← k2, ← zoneLog_append]
      unfold published
      rw [List.flatMap_append]

theorem zoneLines_one {cfg : Cfg} {z : ZoneStatusReport} {as : List (UInt8 × ZoneCfg)}
    {out out' : List Published} (h : Each (ZoneLine cfg.prefix z) as out)
    (h' : Each (ZoneLine cfg.prefix z) as out') : out = out' := by
  induction h generalizing out' with
  | nil => cases h'; rfl
  | cons a _ ih =>
    cases h' with
    | cons a' t =>
      rw [ih t]
      cases a with
      | @state i hi e =>
        cases a' with
        | @state j hj e' =>
          have : i = j := by omega
          subst this
          rfl

theorem opens_zones {cfg : Cfg} {v v' : View} {out out' : List Published} (h : Opens cfg v out)
    (h' : Opens cfg v' out') (e : v.zones = v'.zones) : zoneLog cfg out = zoneLog cfg out' := by
  cases h with
  | @mk docs as zs d1 d2 ha hz =>
    cases h' with
    | @mk docs' as' zs' d1' d2' ha' hz' =>
      have hd : docs = docs' := by
        match hx : cfg.mqtt.haDiscoveryPrefix with
        | none => rw [d2 hx, d2' hx]
        | some x => rw [d1 x hx, d1' x hx]
      rw [e] at hz
      rw [hd, zoneLines_one hz hz']
      simp only [zoneLog_append, areas_unzoned ha, areas_unzoned ha']

/-- What a bridge took and published. -/
theorem service_senses {cfg : Cfg} (hm : MapCfg cfg) {b : Bridge} (s : Service cfg b) :
    ∃ v0 n z', s.p0.state.zoneStatuses = some v0.zones ∧
      Taken b.panel.conn.sock.received
        (gottenPackets s.outs ++ (handled s.obs).filterMap (·.pkt)) b.panel.conn.rd.buffer ∧
      SensesAll v0.zones ((handled s.obs).filterMap (·.pkt)) n z' ∧ Opens cfg v0 s.b0.log ∧
      zoneLog cfg b.log = zoneLog cfg s.b0.log ++ n.flatMap (zoneOut cfg) := by
  have ht := taken_connected _ s.fresh _ _ _ s.connected
  have hcon := C36_connect_establishes _ s.fresh _ _ _ s.connected
  obtain ⟨code, v0, l, d, _, k0, hwk, hsit, _, o2, hrec, _, ho, hlog⟩ :=
    C124_follows hcon (connect_wfView s.fresh s.connected) s.started s.ran
  obtain ⟨ds, hlv, hbr, hev, _⟩ := working_lives hwk
  have hl := lives_taken hlv (b := s.p0.conn.sock.received) (k0.unread ▸ ht)
  unfold packets at hl
  rw [hev, hbr, ← o2, ← hsit.view.unread, ← hrec] at hl
  obtain ⟨n, h1, h2⟩ := working_senses hm hwk
  rw [← o2] at h1 h2
  exact ⟨v0, n, _, zones_iff.mp k0.zones, hl, h1, ho, by rw [hlog, zoneLog_append, h2]⟩

/-- **C155** Of two bridges with the same configuration, of which one has read what the other has and
perhaps more, and has handled it all, the one has published on the topics of the zones what the other
has, in order, and perhaps more. -/
theorem C155_lag {cfg : Cfg} (hm : MapCfg cfg) {b b' : Bridge} (s : Service cfg b)
    (s' : Service cfg b') {t : Bytes}
    (he : b'.panel.conn.sock.received = b.panel.conn.sock.received ++ t)
    (hw : Spec.Waits b'.panel.conn.rd.buffer) : zoneLog cfg b.log <+: zoneLog cfg b'.log := by
  obtain ⟨v, n, z₁, a1, tp, a2, a3, a4⟩ := service_senses hm s
  obtain ⟨v', n', z₁', b1, tq, b2, b3, b4⟩ := service_senses hm s'
  rw [he] at tq
  obtain ⟨_, ⟨more, hmo⟩, hz⟩ := same_start s.fresh s'.fresh s.connected s'.connected tp tq hw
  rw [a1, b1] at hz
  have hz := Option.some.inj hz
  rw [← hz, hmo] at b2
  obtain ⟨n₁, n₂, z₂, e, c1, _⟩ := sensesAll_split b2
  obtain ⟨rfl, _⟩ := sensesAll_one (fun p hp => taken_valid tp p (List.mem_append_right _ hp)) a2 c1
  rw [a4, b4, e, List.flatMap_append, opens_zones a3 b3 hz, ← List.append_assoc]
  exact List.prefix_append _ _

/-- **C155** Two bridges with the same configuration whose panels sent the same bytes, and that are
idle, have published the same on the topics of the zones, from the first message to the last. -/
theorem C155_published {cfg : Cfg} (hm : MapCfg cfg) {b b' : Bridge} (s : Service cfg b)
    (s' : Service cfg b') (hi : Idle s) (hi' : Idle s')
    (he : b.panel.conn.sock.received = b'.panel.conn.sock.received) :
    zoneLog cfg b.log = zoneLog cfg b'.log := by
  have h := C155_lag hm s s' (t := []) (by rw [he, List.append_nil]) (idle_views hi').1
  have h' := C155_lag hm s' s (t := []) (by rw [he, List.append_nil]) (idle_views hi).1
  exact h.eq_of_length (Nat.le_antisymm h.length_le h'.length_le)

/-! ## Samples -/

/-- A report that is withheld, and then the change of a zone and the report from before again. -/
def zoneBytes₁ : Bytes := msgBytes (.armingStatusReport armedAndAlarm)
def zoneBytes₂ : Bytes := msgBytes (.zoneChange ⟨⟨1⟩, ⟨2⟩⟩) ++
  msgBytes (.armingStatusReport (sameReport .disarmed .readyToArm))

/-- All at once. -/
def zoneLater₁ : List BOp := [.arrive (.data (zoneBytes₁ ++ zoneBytes₂)), .tick ⟨1, 0, 0⟩ true,
  .tick ⟨1, 0, 0⟩ true, .tick ⟨1, 0, 0⟩ true]

/-- With five seconds after the first. -/
def zoneLater₂ : List BOp := [.arrive (.data zoneBytes₁), .tick ⟨1, 0, 0⟩ true,
  .tick ⟨1, 5000, 5000⟩ true, .arrive (.data zoneBytes₂), .tick ⟨1, 5000, 5000⟩ true,
  .tick ⟨1, 5000, 5000⟩ true]

/-- **C155** Not vacuous, and only of the zones: two idle bridges have read the same bytes, have told of
the change of a zone, and have not told the same of an area. -/
theorem C155_areas : ∃ b b', ∃ s : Service sampleCfg b, ∃ s' : Service sampleCfg b', Idle s ∧ Idle s' ∧
    b.panel.conn.sock.received = b'.panel.conn.sock.received ∧
    2 < (zoneLog sampleCfg b.log).length ∧
    b.log.filter (·.retain) ≠ b'.log.filter (·.retain) := by
  obtain ⟨b, s, a1, a2, a3⟩ := service_of (cfg := sampleCfg) (ops := sampleConnect)
    (later := zoneLater₁ ++ [.tick ⟨1, 10000, 10000⟩ true])
    (f := fun r => decide (r.2.panel.conn.sock.received = sampleDialogue ++ zoneBytes₁ ++ zoneBytes₂ ∧
      r.1.length = 5 ∧ restless r.1 = false ∧ r.2.waiting = .select ∧
      2 < (zoneLog sampleCfg r.2.log).length ∧
      (r.2.log.filter (·.retain)).length = 8)) (by decide +kernel)
  obtain ⟨b', s', b1, b2, b3⟩ := service_of (cfg := sampleCfg) (ops := sampleConnect)
    (later := zoneLater₂ ++ [.tick ⟨1, 10000, 10000⟩ true])
    (f := fun r => decide (r.2.panel.conn.sock.received = sampleDialogue ++ zoneBytes₁ ++ zoneBytes₂ ∧
      r.1.length = 7 ∧ restless r.1 = false ∧ r.2.waiting = .select ∧
      (r.2.log.filter (·.retain)).length = 10)) (by decide +kernel)
  rw [decide_eq_true_eq] at a3 b3
  refine ⟨b, b', s, s', idle_of (before := zoneLater₁) a3.2.2.2.1 a2 a3.2.2.1 a3.2.1 ?_,
    idle_of (before := zoneLater₂) b3.2.2.2.1 b2 b3.2.2.1 b3.2.1 ?_,
    a3.1.trans b3.1.symm, a3.2.2.2.2.1, fun e => ?_⟩
  · rw [a1]; decide +kernel
  · rw [b1]; decide +kernel
  · have := congrArg List.length e
    rw [a3.2.2.2.2.2, b3.2.2.2.2] at this
    cases this

/-- Not vacuous: the change is told by a session too. -/
example : ∃ p, ∃ s : Session p, inVain s.outs' = true ∧
    zonesTold (events s.outs') = [(⟨1⟩, ⟨9⟩)] := by
  obtain ⟨p, s, _, _, a⟩ := session_of (ops := sampleConnect)
    (later := [.arrive (.data (zoneBytes₁ ++ zoneBytes₂)), .pollNext ⟨1, 0, 0⟩, .pollNext ⟨1, 0, 0⟩,
      .pollNext ⟨1, 0, 0⟩, .pollNext ⟨1, 0, 0⟩])
    (f := fun r => decide (inVain r.1 = true ∧
      zonesTold (events r.1) = [(⟨1⟩, ⟨9⟩)])) rfl (by decide +kernel)
  rw [decide_eq_true_eq] at a
  exact ⟨p, s, a⟩

end Elk.Props
