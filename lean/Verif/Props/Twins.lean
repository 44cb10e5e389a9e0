import Verif.Props.Ledger
import Verif.Props.Desk
import Verif.Props.Mqtt
/-!
# C153: two bridges to the same panel show the same

What the broker retains of a bridge depends, once the bridge is idle, on its configuration and on the
bytes that the panel sent only.
-/

namespace Elk.Props

open Elk.Spec

/-- A run of `connect` that succeeded, and a run of the bridge with that panel. -/
structure Service (cfg : Cfg) (b : Bridge) where
  c : Connection
  fresh : Fresh c
  ops : List InitOp
  outs : List Obs
  p0 : Panel
  connected : Init.connect c ops = .ok (outs, .finished (.ok p0))
  b0 : Bridge
  started : Bridge.start cfg p0 = .ok b0
  later : List BOp
  obs : List BObs
  ran : Bridge.run later b0 = .ok (obs, b)

/-- What the bridge does to its panel. -/
theorem serves_acts {cfg : Cfg} {code : ArmCode} {d d' : Desk} {op : BOp} {rd wr : Bytes} {o : BObs}
    (h : Serves cfg code d op rd wr o d') :
    ∃ ds, Lives d.view ds d'.view ∧ bytesRead ds = rd ∧ events (ds.map Deed.out) = handled [o] ∧
      ∀ cx, .pollNext cx ∈ ds.map Deed.op → ∃ pf, op = .tick cx pf := by
  have none : ∀ v : View, ∃ ds, Lives v ds v ∧ bytesRead ds = [] ∧
      events (ds.map Deed.out) = [] ∧
      ∀ cx, .pollNext cx ∈ ds.map Deed.op → ∃ pf, op = .tick cx pf :=
    fun v => ⟨[], .nil, rfl, rfl, fun _ h => absurd h List.not_mem_nil⟩
  have one : ∀ {v v' : View} (e : Deed), Acts v e.op e.io e.out v' →
      (∀ cx, e.op = .pollNext cx → ∃ pf, op = .tick cx pf) →
      ∃ ds, Lives v ds v' ∧ bytesRead ds = bytesRead [e] ∧
        events (ds.map Deed.out) = events [e.out] ∧
        ∀ cx, .pollNext cx ∈ ds.map Deed.op → ∃ pf, op = .tick cx pf :=
    fun e ha hp =>
      ⟨[e], .cons ha .nil, rfl, rfl, fun cx h => hp cx (List.mem_singleton.mp h).symm⟩
  have reads : ∀ {cx pf io r v'}, op = .tick cx pf → Reading cx d.view io r v' →
      ∃ ds, Lives d.view ds v' ∧ bytesRead ds = io ∧
        events (ds.map Deed.out) = events [.next r []] ∧
        ∀ cx, .pollNext cx ∈ ds.map Deed.op → ∃ pf, op = .tick cx pf := by
    intro cx pf io r v' ho hr
    have := one ⟨.pollNext cx, io, .next r []⟩ (.next hr) fun _ e => by cases e; exact ⟨pf, ho⟩
    rwa [show bytesRead [⟨.pollNext cx, io, .next r []⟩] = io by simp [bytesRead]] at this
  have looks : ∀ {cx pf io v'}, op = .tick cx pf → Looked cx d.view pf io v' →
      ∃ ds, Lives d.view ds v' ∧ bytesRead ds = io ∧ events (ds.map Deed.out) = [] ∧
        ∀ cx, .pollNext cx ∈ ds.map Deed.op → ∃ pf, op = .tick cx pf := by
    intro cx pf io v' ho hl
    cases hl with
    | no => exact none _
    | yes hr => exact reads ho hr
  cases h with
  | arrive => exact none _
  | writable => exact none _
  | deliver => exact none _
  | event _ _ hr _ _ => exact reads rfl hr
  | ignores _ _ hl _ _ => exact looks rfl hl
  | takes _ _ hl _ => exact looks rfl hl
  | idle _ _ hr => exact reads rfl hr
  | @waits cx pf c io v' _ hr =>
    exact one ⟨.pollReady cx, wr, .sink .pending⟩ (.ready hr) fun _ e => by cases e
  | @hands cx pf c _ ha => exact one ⟨.startSend c, [], .accepted⟩ (.send ha) fun _ e => by cases e
  | @sending cx pf io v' _ hf =>
    exact one ⟨.pollFlush cx, wr, .sink .pending⟩ (.flush hf) fun _ e => by cases e
  | @sent cx pf io v' _ hf =>
    exact one ⟨.pollFlush cx, wr, .sink (.ready (.ok ()))⟩ (.flush hf) fun _ e => by cases e

theorem lives_append {v v' v'' : View} {a b : List Deed} (h : Lives v a v') (k : Lives v' b v'') :
    Lives v (a ++ b) v'' := by
  induction h with
  | nil => exact k
  | cons h1 _ ih => exact .cons h1 (ih k)

theorem working_lives {cfg : Cfg} {code : ArmCode} {d d' : Desk} {l : List Turn}
    (h : Working cfg code d l d') :
    ∃ ds, Lives d.view ds d'.view ∧ bytesRead ds = l.flatMap Turn.rd ∧
      events (ds.map Deed.out) = handled (l.map Turn.out) ∧
      ∀ cx, .pollNext cx ∈ ds.map Deed.op → ∃ pf, .tick cx pf ∈ l.map Turn.op := by
  induction h with
  | nil => exact ⟨[], .nil, rfl, rfl, fun _ h => absurd h List.not_mem_nil⟩
  | @cons _ _ _ t l hs _ ih =>
    obtain ⟨ds, h1, h2, h4, h3⟩ := serves_acts hs
    obtain ⟨ds', k1, k2, k4, k3⟩ := ih
    refine ⟨ds ++ ds', lives_append h1 k1, ?_, ?_, fun cx hm => ?_⟩
    · show bytesRead (ds ++ ds') = _
      rw [List.flatMap_cons, ← h2, ← k2]
      simp [bytesRead]
    · rw [List.map_append, List.map_cons]
      have e1 : events (ds.map Deed.out ++ ds'.map Deed.out) =
          events (ds.map Deed.out) ++ events (ds'.map Deed.out) := List.filterMap_append
      have e2 : handled (t.out :: l.map Turn.out) = handled [t.out] ++ handled (l.map Turn.out) := by
        rw [← List.singleton_append]; exact List.filterMap_append
      rw [e1, e2, h4, k4]
    · rw [List.map_append] at hm
      rcases List.mem_append.mp hm with hm | hm
      · obtain ⟨pf, e⟩ := h3 cx hm
        exact ⟨pf, by rw [List.map_cons, e]; exact List.mem_cons_self⟩
      · obtain ⟨pf, e⟩ := k3 cx hm
        exact ⟨pf, List.mem_cons_of_mem _ e⟩

theorem working_split {cfg : Cfg} {code : ArmCode} {d d' : Desk} {a b : List Turn}
    (h : Working cfg code d (a ++ b) d') :
    ∃ w, Working cfg code d a w ∧ Working cfg code w b d' := by
  induction a generalizing d with
  | nil => exact ⟨d, .nil, h⟩
  | cons t a ih =>
    cases h with
    | cons h1 h2 =>
      obtain ⟨w, x, y⟩ := ih h2
      exact ⟨w, .cons h1 x, y⟩

/-- What the panel of a bridge shows is what the packets add up to, except that a withheld report is
not shown yet. -/
theorem C153_tally {cfg : Cfg} {b : Bridge} (s : Service cfg b) :
    ∃ ps l, Taken b.panel.conn.sock.received ps b.panel.conn.rd.buffer ∧ Tallies .new ps l ∧
      (match b.panel.pendingArm with
        | some pa => some pa.report
        | none => b.panel.state.armingStatus) = l.arming ∧
      b.panel.state.zoneStatuses = l.zones := by
  obtain ⟨ps, g, ht, hl, hk⟩ := tally_done _ s.fresh _ _ _ s.connected
  have hcon := C36_connect_establishes _ s.fresh _ _ _ s.connected
  obtain ⟨code, v0, l, d, _, k0, hwk, hsit, _, _, hrec, _⟩ :=
    C124_follows hcon (connect_wfView s.fresh s.connected) s.started s.ran
  obtain ⟨ds, hlv, hbr, _, _⟩ := working_lives hwk
  have e : viewLedger g.name v0 = greetLedger none g := by
    unfold viewLedger greetLedger
    rw [← k0.held, ← hk.held, ← hk.shown, ← hk.zones, arming_iff.mp k0.shown,
      zones_iff.mp k0.zones]
  obtain ⟨ps', ht', hl'⟩ := lives_books hlv g.name
    (by show Taken _ _ v0.unread; rw [← k0.unread, hk.unread]; exact ht) (e ▸ hl)
  have k := hsit.view
  refine ⟨ps', _, by rw [hrec, k.unread, ← hbr]; exact ht', hl', ?_, zones_iff.mp k.zones⟩
  show _ = latest (some d.view.shown) d.view.held
  rw [← k.held, ← arming_iff.mp k.shown]
  cases b.panel.pendingArm <;> rfl

/-- The times at which something was polled. -/
def lookedAt (ops : List InitOp) (later : List BOp) : List Nat :=
  (ops.filterMap fun
    | .tick cx => some cx.now
    | _ => none) ++ later.filterMap fun
    | .tick cx _ => some cx.now
    | _ => none

/-- A bridge that is not about to send a command, with nothing left to do at the last poll, five
seconds or more after all polls. -/
structure Idle {cfg : Cfg} {b : Bridge} (s : Service cfg b) : Prop where
  free : b.waiting = .select
  last : ∃ before obs cx pf, s.later = before ++ [.tick cx pf] ∧ s.obs = obs ++ [.pending] ∧
    obs.length = before.length ∧ ∀ t ∈ lookedAt s.ops before, t + 5000 ≤ cx.timer

theorem idle_views {cfg : Cfg} {b : Bridge} {s : Service cfg b} (h : Idle s) :
    Spec.Waits b.panel.conn.rd.buffer ∧ b.panel.pendingArm = none := by
  obtain ⟨before, obs, cx, pf, e1, e2, e3, e4⟩ := h.last
  have hcon := C36_connect_establishes _ s.fresh _ _ _ s.connected
  obtain ⟨code, v0, l, d, _, k0, hwk, hsit, o1, o2, _, _⟩ :=
    C124_follows hcon (connect_wfView s.fresh s.connected) s.started s.ran
  obtain ⟨acts', y, rest, g1, g2, g3, _, _, _⟩ := C123_follows _ s.fresh _ _ _ s.connected
  rw [e1] at o1
  rw [e2] at o2
  obtain ⟨l₁, l₂, rfl, m1, m2⟩ := List.map_eq_append_iff.mp o1.symm
  obtain ⟨t, rfl, m3⟩ := List.map_eq_singleton_iff.mp m2
  rw [List.map_append] at o2
  obtain ⟨_, o3⟩ := List.append_inj o2 (by rw [e3, ← m1]; simp)
  obtain ⟨d₁, w1, w2⟩ := working_split hwk
  obtain ⟨op, rd, wr, out⟩ := t
  cases m3
  simp only [List.map_cons, List.map_nil, List.cons.injEq, and_true] at o3
  cases o3
  cases w2 with
  | cons hs hn =>
    cases hn
    have hsel : d.doing = .select := hsit.doing.symm.trans h.free
    cases hs with
    | idle _ _ hr =>
      cases hr with
      | quiet hwt hdue =>
        refine ⟨by rw [hsit.view.unread]; exact hwt, ?_⟩
        have hn : d₁.view.held = none := by
          match hh : d₁.view.held with
          | none => rfl
          | some (t, r) =>
            exfalso
            have lt := hdue t r hh
            have bad : ∀ t', t' ∈ lookedAt s.ops before → t = t' + 5000 → False := fun t' h e => by
              have := e4 t' h; omega
            obtain ⟨ds, hlv, _, _, hp⟩ := working_lives w1
            rcases lives_held hlv t r hh with h0 | ⟨cx', hm, e⟩
            · cases g2 with
              | @done _ g' hk' =>
                have hz : heldOf (.done g') = some (t, r) := by
                  show g'.held = _
                  rw [← hk'.held, k0.held]
                  exact h0
                rcases greets_held g1 t r hz with h | ⟨cx', hm, e⟩
                · cases h
                · refine bad cx'.now ?_ e
                  unfold lookedAt
                  refine List.mem_append_left _ (List.mem_filterMap.mpr ⟨.tick cx', ?_, rfl⟩)
                  rw [g3]
                  exact List.mem_append_left _ hm
            · obtain ⟨pf', hm'⟩ := hp cx' hm
              refine bad cx'.now ?_ e
              unfold lookedAt
              refine List.mem_append_right _ (List.mem_filterMap.mpr ⟨.tick cx' pf', ?_, rfl⟩)
              rw [← m1]
              exact hm'
        have := hsit.view.held
        rw [show _ = d₁.view.held from rfl, hn] at this
        exact Option.map_eq_none_iff.mp this
    | waits hd hr =>
      have hsel : d₁.doing = .select := hsel
      rw [hd] at hsel
      cases hsel
    | sending hd hr =>
      have hsel : d₁.doing = .select := hsel
      rw [hd] at hsel
      cases hsel

/-- What the broker retains of a bridge depends on the configuration and on the views of its panel
only. -/
theorem retained_of_views {cfg : Cfg} (hm : MapCfg cfg) (hd : DistinctNames cfg) {b b' : Bridge}
    (s : Service cfg b) (s' : Service cfg b') (ha : b.panel.armingStatus = b'.panel.armingStatus)
    (hz : b.panel.zoneStatuses = b'.panel.zoneStatuses) (t : Bytes) :
    retained b.log t = retained b'.log t := by
  have parts : ∀ {b : Bridge} (s : Service cfg b), ∃ pub : List Published,
      b.log = s.b0.log ++ pub ∧ (∀ m ∈ pub, m.retain = true →
        (∃ a ∈ cfg.elk.areas, m.topic = areaStateTopic cfg.prefix a.2.name) ∨
          ∃ a ∈ cfg.elk.zones, m.topic = zoneStateTopic cfg.prefix a.2.name) ∧
      ∃ r z, s.b0.log = discoveryLog cfg ++ areaMsgs cfg.prefix r cfg.elk.areas ++
              zoneMsgs cfg.prefix z cfg.elk.zones ++
              [⟨availabilityTopic cfg.prefix, true, .text (bs "online")⟩] := by
    intro b s
    have hcon := C36_connect_establishes _ s.fresh _ _ _ s.connected
    have hw := connect_wfView s.fresh s.connected
    obtain ⟨r0, hr0⟩ := hcon.arming
    obtain ⟨z0, hz0⟩ := hcon.zones
    have hst := (start_iff hr0 hz0 (hw z0 hz0)).mp s.started
    have e0 : s.b0.cfg = cfg := by
      obtain ⟨_, _, _, e⟩ := hst
      rw [e]
    have hh := bhist_of_run s.ran
    refine ⟨published s.obs, (bhist_static hh).2.2.2, fun m hm hr => ?_, r0, z0, ?_⟩
    · rcases published_topics hh (start_good_bridge hcon hw s.started) m hm with ⟨h, _⟩ | ⟨_, h⟩
      · rw [h] at hr; cases hr
      · rw [e0] at h; exact h
    · obtain ⟨_, _, _, e⟩ := hst
      rw [e]
  have tracks : ∀ {b : Bridge} (s : Service cfg b), _ := fun {b} s =>
    C49_tracks (C36_connect_establishes _ s.fresh _ _ _ s.connected)
      (connect_wfView s.fresh s.connected) hm hd s.started s.ran
  obtain ⟨r, z, a1, a2, a3, _, a4⟩ := tracks s
  obtain ⟨r', z', b1, b2, b3, _, b4⟩ := tracks s'
  rw [a1, b1] at ha
  rw [a2, b2] at hz
  cases ha
  cases hz
  by_cases h1 : ∃ a ∈ cfg.elk.areas, t = areaStateTopic cfg.prefix a.2.name
  · obtain ⟨a, hmem, rfl⟩ := h1
    obtain ⟨x, x1, x2⟩ := a3 a hmem
    obtain ⟨y, y1, y2⟩ := b3 a hmem
    rw [x1] at y1
    cases y1
    exact x2.trans y2.symm
  · by_cases h2 : ∃ a ∈ cfg.elk.zones, t = zoneStateTopic cfg.prefix a.2.name
    · obtain ⟨a, hmem, rfl⟩ := h2
      obtain ⟨i, i1, i2⟩ := a4 a hmem
      obtain ⟨j, j1, j2⟩ := b4 a hmem
      have : i = j := Fin.ext (by omega)
      subst this
      exact i2.trans j2.symm
    · have rest : ∀ {b : Bridge} (s : Service cfg b), retained b.log t =
          retained (discoveryLog cfg ++
            [⟨availabilityTopic cfg.prefix, true, .text (bs "online")⟩]) t := by
        intro b s
        obtain ⟨pub, e, hp, r, z, e0⟩ := parts s
        rw [e, retained_append, retained_none (l := pub), e0, Option.none_or]
        · rw [retained_append, retained_append (discoveryLog cfg ++ _), retained_append,
            retained_append, retained_none (l := zoneMsgs _ _ _),
            retained_none (l := areaMsgs _ _ _), Option.none_or, Option.none_or]
          · intro m hm' _ he
            unfold areaMsgs at hm'
            obtain ⟨a, hmem, rfl⟩ := List.mem_map.mp hm'
            exact h1 ⟨a, hmem, he.symm⟩
          · intro m hm' _ he
            unfold zoneMsgs at hm'
            obtain ⟨a, hmem, rfl⟩ := List.mem_map.mp hm'
            exact h2 ⟨a, hmem, he.symm⟩
        · intro m hm' hr he
          rcases hp m hm' hr with ⟨a, hmem, h⟩ | ⟨a, hmem, h⟩
          · exact h1 ⟨a, hmem, he.symm.trans h⟩
          · exact h2 ⟨a, hmem, he.symm.trans h⟩
      exact (rest s).trans (rest s').symm

/-- **C153** Two bridges with the same configuration whose panels sent the same bytes have the broker
retain the same, once they are idle: whatever commands they took up, however the bytes arrived and
whenever. -/
theorem C153_retained {cfg : Cfg} (hm : MapCfg cfg) (hd : DistinctNames cfg) {b b' : Bridge}
    (s : Service cfg b) (s' : Service cfg b') (hi : Idle s) (hi' : Idle s')
    (he : b.panel.conn.sock.received = b'.panel.conn.sock.received) (t : Bytes) :
    retained b.log t = retained b'.log t := by
  obtain ⟨w, n⟩ := idle_views hi
  obtain ⟨w', n'⟩ := idle_views hi'
  obtain ⟨ps, l, ht, hl, a, z⟩ := C153_tally s
  obtain ⟨ps', l', ht', hl', a', z'⟩ := C153_tally s'
  rw [he] at ht
  obtain ⟨_, _, rfl⟩ := tally_same ht ht' w w' hl hl'
  rw [n] at a
  rw [n'] at a'
  refine retained_of_views hm hd s s' ?_ ?_ t
  · unfold Panel.armingStatus
    exact congrArg _ (a.trans a'.symm)
  · unfold Panel.zoneStatuses
    rw [z.trans z'.symm]

/-! ## The packets -/

theorem acts_taken {v v' : View} {d : Deed} (h : Acts v d.op d.io d.out v') :
    (v'.unread = v.unread ++ bytesRead [d] ∧ packets [d.out] = []) ∨
      ∃ pkt, Front (v.unread ++ bytesRead [d]) (some pkt) v'.unread ∧ packets [d.out] = [pkt] := by
  obtain ⟨op, io, out⟩ := d
  dsimp only at h
  have still := fun (e : bytesRead [⟨op, io, out⟩] = []) =>
    (show v.unread = v.unread ++ bytesRead [⟨op, io, out⟩] by rw [e, List.append_nil])
  have fl := fun {v' io r} (h : Flushing v io r v') => (flushing_ledger h fun _ _ => .empty).2
  cases h with
  | arrive => exact .inl ⟨still rfl, rfl⟩
  | writable => exact .inl ⟨still rfl, rfl⟩
  | @next cx _ r w _ hr =>
    have e : bytesRead [⟨.pollNext cx, io, .next r w⟩] = io := by simp [bytesRead]
    rw [e]
    cases hr with
    | @event pkt rest ev _ hf ht =>
      obtain ⟨_, h2⟩ := tells_books ht fun _ _ => .empty
      refine .inr ⟨pkt, by rw [h2]; exact hf, ?_⟩
      cases ht with
      | message _ _ _ => rfl
      | fault _ => rfl
      | nothing _ => rfl
    | failed _ => exact .inl ⟨rfl, rfl⟩
    | ended _ => exact .inl ⟨rfl, rfl⟩
    | quiet _ _ => exact .inl ⟨rfl, rfl⟩
    | late _ hh _ => exact .inl ⟨rfl, rfl⟩
  | send _ => exact .inl ⟨still rfl, rfl⟩
  | ready hr =>
    cases hr with
    | idle _ _ => exact .inl ⟨still rfl, rfl⟩
    | flushed _ hf => exact .inl ⟨(fl hf).trans (still rfl), rfl⟩
    | stuck _ _ hf => exact .inl ⟨(fl hf).trans (still rfl), rfl⟩
  | flush hf => exact .inl ⟨(fl hf).trans (still rfl), rfl⟩
  | close hf _ => exact .inl ⟨(fl hf).trans (still rfl), rfl⟩
  | closeStuck _ hf => exact .inl ⟨(fl hf).trans (still rfl), rfl⟩

theorem packets_append (a b : List Out) : packets (a ++ b) = packets a ++ packets b := by
  unfold packets events
  rw [List.filterMap_append, List.filterMap_append]

theorem lives_taken {v v' : View} {ds : List Deed} (h : Lives v ds v') {b : Bytes}
    {ps : List Packet} (ht : Taken b ps v.unread) :
    Taken (b ++ bytesRead ds) (ps ++ packets (ds.map Deed.out)) v'.unread := by
  induction h generalizing b ps with
  | nil => simpa [bytesRead, packets, events] using ht
  | @cons v v₁ v₂ d ds ha _ ih =>
    have e : bytesRead (d :: ds) = bytesRead [d] ++ bytesRead ds := by simp [bytesRead]
    have e' : packets ((d :: ds).map Deed.out) = packets [d.out] ++ packets (ds.map Deed.out) := by
      rw [List.map_cons, ← List.singleton_append, packets_append]
    rw [e, e', ← List.append_assoc, ← List.append_assoc]
    have ht' := taken_more ht (bytesRead [d])
    rcases acts_taken ha with ⟨h1, h2⟩ | ⟨pkt, hf, h2⟩
    · rw [h2, List.append_nil]
      exact ih (h1 ▸ ht')
    · rw [h2]
      exact ih (taken_one ht' hf)

theorem books_open {l l' : Ledger} {pkt : Packet} (h : Books l pkt l') (hn : l.open' = none) :
    l'.open' = none := by
  cases h with
  | reply _ b _ => rw [hn] at b; cases b
  | @message m _ _ => cases m <;> exact hn
  | other _ _ => exact hn

theorem tallies_open {l l' : Ledger} {ps : List Packet} (h : Tallies l ps l') (hn : l.open' = none) :
    l'.open' = none := by
  induction h with
  | nil => exact hn
  | cons a _ ih => exact ih (books_open a hn)

theorem tallies_split {l l' : Ledger} {a b : List Packet} (h : Tallies l (a ++ b) l') :
    ∃ m, Tallies l a m ∧ Tallies m b l' := by
  induction a generalizing l with
  | nil => exact ⟨l, .nil, h⟩
  | cons p a ih =>
    cases h with
    | cons h1 h2 =>
      obtain ⟨w, x, y⟩ := ih h2
      exact ⟨w, .cons h1 x, y⟩

theorem greets_done {x : Outcome} {acts : List Act} {g : Greet} (h : Greets x acts (.done g))
    (hx : ∀ g', x ≠ .done g') : ∃ as d w g₁, acts = as ++ [d] ∧ Greets x as (.asking w g₁) ∧
      Connects w g₁ d.op d.rd d.wr d.out (.done g) := by
  generalize hy : Outcome.done g = y at h
  induction h with
  | nil => exact absurd hy.symm (hx g)
  | @cons w g₀ d x acts y hc hr ih =>
    subst hy
    by_cases hd : ∃ g', x = .done g'
    · obtain ⟨g', rfl⟩ := hd
      cases hr
      exact ⟨[], d, w, g₀, rfl, .nil, hc⟩
    · obtain ⟨as, d', w', g₁, e, h1, h2⟩ := ih (fun g' e => hd ⟨g', e⟩) rfl
      exact ⟨d :: as, d', w', g₁, by rw [e]; rfl, .cons hc h1, h2⟩

/-- The packets that connecting took: the fewest after which no question is open. -/
theorem taken_least (c : Connection) (hc : Fresh c) (ops : List InitOp) (outs : List Obs)
    (p0 : Panel) (h : Init.connect c ops = .ok (outs, .finished (.ok p0))) :
    ∃ ps pkt l₁ l, Taken p0.conn.sock.received (ps ++ [pkt]) p0.conn.rd.buffer ∧
      Tallies .new ps l₁ ∧ l₁.open' ≠ none ∧ Tallies .new (ps ++ [pkt]) l ∧ l.open' = none := by
  obtain ⟨acts, y, rest, h1, h2, _, _, _, h5⟩ := C123_follows c hc ops outs _ h
  cases h2 with
  | done hk =>
    obtain ⟨as, d, w, g₁, rfl, g1, g2⟩ := greets_done h1 fun _ e => by cases e
    have hb := greets_books (b := []) g1 (.asking fun h => absurd rfl h) .nil .nil
    rcases hb with ⟨e, he⟩ | ⟨ps, l, left, ha, ht, hl⟩
    · cases he
    · cases ha with
      | asking hg =>
        rcases connects_books g2 hg with ⟨e, he⟩ | a | ⟨pkt, rest, l', hf, hbk, a⟩
        · cases he
        · exfalso
          generalize g₁.unread ++ d.rd = u at a
          generalize hq : greetLedger (some (whereAsks w)) g₁ = q at a
          have : q.open' = some (whereAsks w) := by rw [← hq]; rfl
          cases a with
          | done _ => cases this
        · have hr := (h5 _ rfl).1
          rw [List.flatMap_append] at hr
          refine ⟨ps, pkt, _, l', ?_, hl, fun h => (by cases h), tallies_one hl hbk, ?_⟩
          · rw [hr, hk.unread]
            have := taken_one (taken_more ht d.rd) hf
            simp only [List.nil_append] at this
            simp only [List.flatMap_cons, List.flatMap_nil, List.append_nil]
            cases a with
            | done _ => exact this
          · cases a with
            | done _ => rfl

/-- The fewest packets of a list after which no question is open are always the same. -/
theorem least_one {ps a b a' b' : List Packet} {x x' : Packet} (ha : ps = (a ++ [x]) ++ b)
    (ha' : ps = (a' ++ [x']) ++ b') (hv : ∀ p ∈ ps, ValidPacket p ∨ ∃ i, p = .invalid i)
    {l₁ l l₁' l' : Ledger} (h1 : Tallies .new a l₁) (n1 : l₁.open' ≠ none)
    (h2 : Tallies .new (a ++ [x]) l) (n2 : l.open' = none) (h1' : Tallies .new a' l₁')
    (n1' : l₁'.open' ≠ none) (h2' : Tallies .new (a' ++ [x']) l') (n2' : l'.open' = none) :
    b = b' := by
  have uniq : ∀ {ps : List Packet} {l l₁ l₂ : Ledger}, (∀ p ∈ ps, ValidPacket p ∨ ∃ i, p = .invalid i) →
      Tallies l ps l₁ → Tallies l ps l₂ → l₁ = l₂ := by
    intro ps l l₁ l₂ hv h₁ h₂
    induction h₁ with
    | nil => cases h₂; rfl
    | cons a _ ih =>
      cases h₂ with
      | cons a' t =>
        cases books_one (hv _ List.mem_cons_self) a a'
        exact ih (fun p hp => hv p (List.mem_cons_of_mem _ hp)) t
  have short : ∀ {a b a' b' : List Packet} {x x' : Packet} {l l₁' : Ledger},
      ps = (a ++ [x]) ++ b → ps = (a' ++ [x']) ++ b' → Tallies .new (a ++ [x]) l → l.open' = none →
      Tallies .new a' l₁' → l₁'.open' ≠ none → a'.length ≤ a.length := by
    intro a b a' b' x x' l l₁' e e' h2 n2 h1' n1'
    by_cases hlt : a'.length ≤ a.length
    · exact hlt
    exfalso
    have hp : (a ++ [x]) <+: a' := by
      refine List.prefix_of_prefix_length_le (l₃ := ps) ⟨b, e.symm⟩
        ⟨[x'] ++ b', by rw [e', List.append_assoc]⟩ ?_
      simp only [List.length_append, List.length_cons, List.length_nil]
      omega
    obtain ⟨more, rfl⟩ := hp
    obtain ⟨m, t1, t2⟩ := tallies_split h1'
    have : m = l := uniq (fun p hp => hv p (by
      rw [e]; exact List.mem_append_left _ hp)) t1 h2
    subst this
    exact n1' (tallies_open t2 n2)
  have le1 := short ha ha' h2 n2 h1' n1'
  have le2 := short ha' ha h2' n2' h1 n1
  rw [ha] at ha'
  exact (List.append_inj ha' (by simp only [List.length_append, List.length_cons, List.length_nil]; omega)).2

/-- **C153** The events that two sessions have returned, once all has been polled, are for the same
packets: those after the ones that connecting took, which are the same too. -/
theorem C153_packets {p q : Panel} (sp : Session p) (sq : Session q)
    (he : p.conn.sock.received = q.conn.sock.received) (wp : Spec.Waits p.conn.rd.buffer)
    (wq : Spec.Waits q.conn.rd.buffer) : packets sp.outs' = packets sq.outs' := by
  have tk : ∀ {p : Panel} (s : Session p), ∃ ps pkt l₁ l,
      Taken p.conn.sock.received ((ps ++ [pkt]) ++ packets s.outs') p.conn.rd.buffer ∧
      Tallies .new ps l₁ ∧ l₁.open' ≠ none ∧ Tallies .new (ps ++ [pkt]) l ∧ l.open' = none := by
    intro p s
    obtain ⟨ps, pkt, l₁, l, ht, rest⟩ := taken_least _ s.fresh _ _ _ s.connected
    have hcon := C36_connect_establishes _ s.fresh _ _ _ s.connected
    obtain ⟨v0, v, ds, k0, k, hlv, _, o2, hrec, _⟩ := C122_follows hcon s.wf s.ran
    refine ⟨ps, pkt, l₁, l, ?_, rest⟩
    have := lives_taken hlv (k0.unread ▸ ht)
    rwa [o2, ← hrec, ← k.unread] at this
  obtain ⟨ps, x, l₁, l, t, h1, n1, h2, n2⟩ := tk sp
  obtain ⟨ps', x', l₁', l', t', h1', n1', h2', n2'⟩ := tk sq
  rw [he] at t
  obtain ⟨all, left, _, u⟩ := C117_stream q.conn.sock.received
  have e := (u _ _ (tokens_of_taken t wp)).1
  have e' := (u _ _ (tokens_of_taken t' wq)).1
  exact least_one e.symm e'.symm (e ▸ taken_valid t) h1 n1 h2 n2 h1' n1' h2' n2'

/-- **C153** Two idle bridges have published events for the same packets. -/
theorem C153_events {cfg : Cfg} {b b' : Bridge} (s : Service cfg b) (s' : Service cfg b')
    (hi : Idle s) (hi' : Idle s') (he : b.panel.conn.sock.received = b'.panel.conn.sock.received) :
    (handled s.obs).filterMap (·.pkt) = (handled s'.obs).filterMap (·.pkt) := by
  have tk : ∀ {b : Bridge} (s : Service cfg b), ∃ ps pkt l₁ l,
      Taken b.panel.conn.sock.received ((ps ++ [pkt]) ++ (handled s.obs).filterMap (·.pkt))
        b.panel.conn.rd.buffer ∧
      Tallies .new ps l₁ ∧ l₁.open' ≠ none ∧ Tallies .new (ps ++ [pkt]) l ∧ l.open' = none := by
    intro b s
    obtain ⟨ps, pkt, l₁, l, ht, rest⟩ := taken_least _ s.fresh _ _ _ s.connected
    have hcon := C36_connect_establishes _ s.fresh _ _ _ s.connected
    obtain ⟨code, v0, ts, d, _, k0, hwk, hsit, _, o2, hrec, _⟩ :=
      C124_follows hcon (connect_wfView s.fresh s.connected) s.started s.ran
    obtain ⟨ds, hlv, hbr, hev, _⟩ := working_lives hwk
    refine ⟨ps, pkt, l₁, l, ?_, rest⟩
    have := lives_taken hlv (b := s.p0.conn.sock.received) (ps := ps ++ [pkt])
      (by show Taken _ _ v0.unread; rw [← k0.unread]; exact ht)
    unfold packets at this
    rwa [hev, hbr, ← hrec, ← hsit.view.unread, ← o2] at this
  obtain ⟨ps, x, l₁, l, t, h1, n1, h2, n2⟩ := tk s
  obtain ⟨ps', x', l₁', l', t', h1', n1', h2', n2'⟩ := tk s'
  rw [he] at t
  obtain ⟨all, left, _, u⟩ := C117_stream b'.panel.conn.sock.received
  have e := (u _ _ (tokens_of_taken t (idle_views hi).1)).1
  have e' := (u _ _ (tokens_of_taken t' (idle_views hi').1)).1
  exact least_one e.symm e'.symm (e ▸ taken_valid t) h1 n1 h2 n2 h1' n1' h2' n2'

/-! ## Samples -/

/-- A whole service. -/
def service (cfg : Cfg) (ops : List InitOp) (later : List BOp) : P (List BObs × Bridge) := do
  let r ← Init.connect {} ops
  match r.2 with
  | .finished (.ok p0) => do
    let b0 ← Bridge.start cfg p0
    Bridge.run later b0
  | _ => .error .expect

theorem service_of {cfg : Cfg} {ops : List InitOp} {later : List BOp}
    {f : List BObs × Bridge → Bool} (h : holds (service cfg ops later) f = true) :
    ∃ b, ∃ s : Service cfg b, s.ops = ops ∧ s.later = later ∧ f (s.obs, b) = true := by
  obtain ⟨⟨obs, b⟩, h1, h2⟩ := of_holds h
  unfold service at h1
  match hc : Init.connect {} ops with
  | .error e => rw [hc] at h1; cases h1
  | .ok (outs, ph) =>
    rw [hc] at h1
    change (match ph with
      | .finished (.ok p0) => do
        let b0 ← Bridge.start cfg p0
        Bridge.run later b0
      | _ => .error .expect) = _ at h1
    split at h1
    · next p0 =>
      match hs : Bridge.start cfg p0 with
      | .error e => rw [hs] at h1; cases h1
      | .ok b0 =>
        rw [hs] at h1
        exact ⟨b, ⟨{}, ⟨rfl, rfl, rfl, rfl⟩, ops, outs, _, hc, b0, hs, later, obs, h1⟩, rfl, rfl, h2⟩
    · cases h1

/-- The last poll was in vain. -/
def restless : List BObs → Bool
  | [] => true
  | [.pending] => false
  | _ :: l => restless l

theorem restless_iff {l : List BObs} (h : restless l = false) : ∃ o, l = o ++ [.pending] := by
  induction l with
  | nil => cases h
  | cons a l ih =>
    unfold restless at h
    split at h
    · cases h
    · next e =>
      cases e
      exact ⟨[], rfl⟩
    · next e =>
      cases e
      obtain ⟨o, rfl⟩ := ih h
      exact ⟨a :: o, rfl⟩

theorem idle_of {cfg : Cfg} {b : Bridge} {s : Service cfg b} {before : List BOp} {cx : Cx} {pf : Bool}
    (hf : b.waiting = .select) (hl : s.later = before ++ [.tick cx pf])
    (hv : restless s.obs = false) (hlen : s.obs.length = before.length + 1)
    (ht : ∀ t ∈ lookedAt s.ops before, t + 5000 ≤ cx.timer) : Idle s := by
  obtain ⟨o, e⟩ := restless_iff hv
  refine ⟨hf, before, o, cx, pf, hl, e, ?_, ht⟩
  rw [e] at hlen
  simpa using hlen

/-- Not vacuous: two bridges, one of which was asked for nothing and the other for something that it
does not know, read the same bytes in other pieces and at other times. -/
example : ∃ b b', ∃ s : Service sampleCfg b, ∃ s' : Service sampleCfg b', Idle s ∧ Idle s' ∧
    b.panel.conn.sock.received = b'.panel.conn.sock.received ∧ s.ops ≠ s'.ops ∧
    s.later ≠ s'.later ∧ (handled s.obs).length = 2 := by
  obtain ⟨b, s, a1, a2, a3⟩ := service_of (cfg := sampleCfg) (ops := sampleConnect)
    (later := [.arrive (.data (msgBytes (.armingStatusReport armedAndAlarm))), .tick ⟨1, 0, 0⟩ true,
      .tick ⟨1, 5000, 5000⟩ true, .tick ⟨1, 10000, 10000⟩ true])
    (f := fun r => decide (r.2.panel.conn.sock.received = sampleAll ∧ r.1.length = 4 ∧
      restless r.1 = false ∧ r.2.waiting = .select ∧ (handled r.1).length = 2)) (by decide +kernel)
  obtain ⟨b', s', b1, b2, b3⟩ := service_of (cfg := sampleCfg) (ops := sampleCut)
    (later := [.tick ⟨1, 100, 100⟩ false, .deliver ⟨bs "elkm1/42/x", []⟩,
      .tick ⟨1, 200, 200⟩ false, .tick ⟨1, 6000, 6000⟩ false, .tick ⟨1, 11000, 11000⟩ false])
    (f := fun r => decide (r.2.panel.conn.sock.received = sampleAll ∧ r.1.length = 5 ∧
      restless r.1 = false ∧ r.2.waiting = .select)) (by decide +kernel)
  rw [decide_eq_true_eq] at a3 b3
  refine ⟨b, b', s, s', idle_of (before := [.arrive (.data (msgBytes (.armingStatusReport
      armedAndAlarm))), .tick ⟨1, 0, 0⟩ true, .tick ⟨1, 5000, 5000⟩ true]) a3.2.2.2.1 a2 a3.2.2.1
      a3.2.1 ?_,
    idle_of (before := [.tick ⟨1, 100, 100⟩ false, .deliver ⟨bs "elkm1/42/x", []⟩,
      .tick ⟨1, 200, 200⟩ false, .tick ⟨1, 6000, 6000⟩ false]) b3.2.2.2 b2 b3.2.2.1 b3.2.1 ?_,
    a3.1.trans b3.1.symm, ?_, ?_, a3.2.2.2.2⟩
  · rw [a1]; decide +kernel
  · rw [b1]; decide +kernel
  · rw [a1, b1]; decide +kernel
  · rw [a2, b2]
    intro e
    exact absurd (congrArg List.length e) (by decide)

end Elk.Props
