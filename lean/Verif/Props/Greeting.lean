import Verif.Props.Init
import Verif.Props.Machine
import Verif.Props.InitRun
import Verif.Props.Documented
import Verif.Spec.Greeting
/-!
# C123: connecting is the reference machine
-/

namespace Elk.Props
open Elk Spec

theorem notes_of_track {p p' : Panel} {now : Nat} {m : Message} {ch : Option Change} {g : Greet}
    (hk : Knows p g) (h : TrackCase p now m (ch, p')) :
    ∃ g', Notes now g m ch g' ∧ Knows p' g' := by
  obtain ⟨h1, h2, h3, h4, h5, h6, h7, h8, h9⟩ := hk
  have none_iff : g.held = none ↔ p.pendingArm = none := by
    rw [← h5]; simp
  cases h with
  | asFirst m h => exact ⟨_, .first (h3.symm.trans h), h1, h2, rfl, h4, h5, h6, h7, h8, h9⟩
  | asHeld m prior ha hn hsus =>
    exact ⟨_, .withhold (h3.symm.trans ha) (none_iff.mpr hn) hsus, h1, h2, h3, h4, rfl, h6, h7, h8,
      h9⟩
  | asNew m prior ha hn hne =>
    exact ⟨_, .show (h3.symm.trans ha) (hn.imp (fun x => mt none_iff.mp x) id) (Ne.symm hne),
      h1, h2, rfl, h4, rfl, h6, h7, h8, h9⟩
  | asSame m ha hn =>
    exact ⟨_, .again (h3.symm.trans ha) (hn.imp (fun x => mt none_iff.mp x) id),
      h1, h2, h3, h4, rfl, h6, h7, h8, h9⟩
  | zcNone m h =>
    exact ⟨_, .early (h4.symm.trans h), h1, h2, h3, h4, h5, h6, h7, h8, h9⟩
  | zcSet m z i hi ha hn =>
    by_cases he : z.zones[i] = m.status
    · rw [if_neg (by simpa using he)]
      refine ⟨_, .zoneSame (hi := hi) (h4.symm.trans ha) hn he, h1, h2, h3, ?_, h5, h6, h7, h8, h9⟩
      show some _ = _
      rw [← he, Vector.set_getElem_self]
      exact ha.symm.trans h4
    · rw [if_pos he]
      exact ⟨_, .zone (hi := hi) (h4.symm.trans ha) hn he, h1, h2, h3, rfl, h5, h6, h7, h8, h9⟩
  | zs m => exact ⟨_, .zones, h1, h2, h3, rfl, h5, h6, h7, h8, h9⟩
  | other m a b c => exact ⟨_, .nothing a b c, h1, h2, h3, h4, h5, h6, h7, h8, h9⟩

theorem observes_of_interp {p p' : Panel} {now : Nat} {pkt : Packet} {ev : Event} {w : List Waker}
    {g : Greet} (hv : ValidPacket pkt ∨ ∃ i, pkt = .invalid i) (hk : Knows p g)
    (h : InterpCase p now pkt (ev, w, p')) : ∃ g', Observes now g pkt ev g' ∧ Knows p' g' := by
  obtain ⟨h1, h2, h3⟩ := means_of_parse hv
  cases h with
  | bad e he => exact ⟨_, .fault (h2 e he), hk⟩
  | skip he => exact ⟨_, .nothing (h3 he), hk⟩
  | msg m ch p1 co wo p2 he _ ht hc =>
    obtain ⟨g1, a, b⟩ := notes_of_track hk ht
    cases hc with
    | done q f w hc hr => rw [b.idle] at hc; cases hc
    | busy q f w hc hr => rw [b.idle] at hc; cases hc
    | idle hc => exact ⟨g1, .message (h1 m he) a, b⟩

theorem fills_of_names {p p' : Panel} {st : Stage} {m : Message} {g : Greet} (hk : Knows p g)
    (h : NamesCase p st m p') : ∃ g', Fills g (stageQ st) m g' ∧ Knows p' g' := by
  cases h with
  | status hn =>
    refine ⟨g, .status (fun r hr => ?_), hk⟩
    cases st with
    | arming => cases hr
    | zones => cases hr
    | names ty max u todo => exact hn _ _ _ _ rfl
  | none ty max u todo r hst hm hty h0 =>
    subst hst hm
    exact ⟨g, .none ⟨_, rfl⟩ h0, hk⟩
  | named ty max u todo r s hst hm hty hu hfit hs =>
    subst hst hm hty
    obtain ⟨h1, h2, h3, h4, h5, h6, h7, h8, h9⟩ := hk
    refine ⟨_, .named ⟨_, rfl⟩ (by omega) hfit, h1, h2, hs.arming.trans h3, hs.zones.trans h4, h5,
      h6, ?_, ?_, ?_⟩
    · intro i hi
      have := hs.name .area i
      simp only [nameAt, PanelState.names, Option.bind_some, Vector.getElem?_toList,
        Vector.getElem?_eq_getElem hi, h7 i hi] at this
      dsimp only
      split at this <;> rename_i hc
      · rw [if_pos ⟨hc.1, by omega⟩]; injection this
      · rw [if_neg (fun x => hc ⟨x.1, by omega⟩)]; injection this
    · intro i hi
      have := hs.name .task i
      simp only [nameAt, PanelState.names, Option.bind_some, Vector.getElem?_toList,
        Vector.getElem?_eq_getElem hi, h8 i hi] at this
      dsimp only
      split at this <;> rename_i hc
      · rw [if_pos ⟨hc.1, by omega⟩]; injection this
      · rw [if_neg (fun x => hc ⟨x.1, by omega⟩)]; injection this
    · intro i hi
      have := hs.name .zone i
      simp only [nameAt, PanelState.names, Option.bind_some, Vector.getElem?_toList,
        Vector.getElem?_eq_getElem hi, h9 i hi] at this
      dsimp only
      split at this <;> rename_i hc
      · rw [if_pos ⟨hc.1, by omega⟩]; injection this
      · rw [if_neg (fun x => hc ⟨x.1, by omega⟩)]; injection this

theorem fills_conn {p p' : Panel} {st : Stage} {m : Message} (h : NamesCase p st m p') :
    p'.conn = p.conn := by
  cases h <;> rfl

/-- What the socket has read and written more. -/
def Adds (s : Option Socket) (rd wr : Bytes) (s' : Option Socket) : Prop :=
  ∀ t', s' = some t' → ∃ t, s = some t ∧ t'.received = t.received ++ rd ∧ t'.sent = t.sent ++ wr

theorem asks_of_tick {i : Init} {cx : Cx} {o : Obs} {ph : Phase} {w : Where} {g : Greet}
    (hg : InitGood i) (hs : Stands (.asking i) (.asking w g)) (ht : i.tick cx = .ok (o, ph)) :
    ∃ rd wr x, Connects w g (.tick cx) rd wr o x ∧ Stands ph x ∧
      Adds (sockOf (.asking i)) rd wr (sockOf ph) := by
  have hc : TickCase i cx (o, ph) := by
    rcases tick_cases hg cx with ⟨x, h, hc⟩ | ⟨h, _⟩
    · rw [ht] at h; cases h; exact hc
    · rw [ht] at h; cases h
  -- what is read, when no packet is
  have lost : i.await = .reply → Knows i.panel g → (∃ e, o = .failed e) →
      ∃ rd, Spec.Waits (g.unread ++ rd) := by
    rintro ha hk ⟨e, rfl⟩
    obtain ⟨r, c, new, h, hs⟩ := connNext_spec i.panel.conn cx hg.rd
    have hn : ∀ p, r ≠ .ready (some (.ok p)) := by
      rintro pkt rfl
      unfold Init.tick Init.received at ht
      rw [ha] at ht
      dsimp only at ht
      rw [h] at ht
      simp only [bind_ok] at ht
      generalize Panel.interpret _ _ _ = y at ht
      match y, ht with
      | .ok (ev, w, p), ht =>
        simp only [bind_ok] at ht
        split at ht
        · split at ht
          · generalize Init.replied _ _ _ = z at ht
            match z, ht with
            | .ok _, ht => cases ht
          · cases ht
        · cases ht
    refine ⟨new, ?_⟩
    rw [← hk.unread, ← hs.other hn]
    exact (waits_of_decode (conn_dry hg.rd h hn)).2
  -- what is seen of a packet
  have seen : ∀ {c new pkt ev l p'}, Knows i.panel g →
      NextSpec i.panel.conn cx (.ready (some (.ok pkt))) c new →
      InterpCase { i.panel with conn := c } cx.now pkt (ev, l, p') →
      ∃ rest g', Front (g.unread ++ new) (some pkt) rest ∧
        Observes cx.now { g with unread := rest } pkt ev g' ∧ Knows p' g' ∧
        p'.conn.sock.received = i.panel.conn.sock.received ++ new ∧
        p'.conn.sock.sent = i.panel.conn.sock.sent := by
    intro c new pkt ev l p' hk hn hi
    obtain ⟨h1, h2, h3, h4, h5, h6, h7, h8, h9⟩ := hk
    have hd := hn.packet pkt rfl
    rw [h1] at hd
    have hv : ValidPacket pkt ∨ ∃ i, pkt = .invalid i :=
      (decode_some_cond hd).imp id fun ⟨i, a, _⟩ => ⟨i, a⟩
    obtain ⟨g', a, b⟩ := observes_of_interp (p := { i.panel with conn := c })
      (g := { g with unread := c.rd.buffer }) hv
      ⟨rfl, hn.wbuf.trans h2, h3, h4, h5, h6, h7, h8, h9⟩ hi
    have hc := interp_conn hi
    exact ⟨_, g', C117_decode.mp hd, a, b, by rw [hc]; exact hn.received, by rw [hc]; exact hn.sent⟩
  cases hc with
  | ask ha hw =>
    cases hs with
    | sending hb => rw [ha] at hb; cases hb
    | waiting hb => rw [ha] at hb; cases hb
    | toAsk hb hk =>
      obtain ⟨h1, h2, h3⟩ := hk
      refine ⟨[], [], _, .ask, .sending rfl ⟨h1, ?_, ‹_›, ‹_›, ‹_›, ‹_›, ‹_›, ‹_›, ‹_›⟩, ?_⟩
      · show _ = g.unsent ++ _
        rw [← h2, hw, List.nil_append]
      · rintro t' h; cases h; exact ⟨_, rfl, by simp, by simp⟩
  | flushPending c ha hf =>
    cases hs with
    | toAsk hb => rw [ha] at hb; cases hb
    | waiting hb => rw [ha] at hb; cases hb
    | sending hb hk =>
      obtain ⟨h1, h2, h3⟩ := hk
      obtain ⟨io, a, b⟩ := writes_of_flush hf
      rw [h2] at a
      refine ⟨[], io, _, .writing a, .sending ha ⟨hf.rd ▸ h1, rfl, ‹_›, ‹_›, ‹_›, ‹_›, ‹_›, ‹_›, ‹_›⟩, ?_⟩
      rintro t' h; cases h; exact ⟨_, rfl, by simpa using hf.received, b⟩
  | flushFailed c e ha hf =>
    cases hs with
    | toAsk hb => rw [ha] at hb; cases hb
    | waiting hb => rw [ha] at hb; cases hb
    | sending hb hk =>
      obtain ⟨io, a, b⟩ := writes_of_flush hf
      rw [hk.unsent] at a
      exact ⟨[], io, _, .unwritten a, .failed, fun t' h => nomatch h⟩
  | flushed c ha hf =>
    cases hs with
    | toAsk hb => rw [ha] at hb; cases hb
    | waiting hb => rw [ha] at hb; cases hb
    | sending hb hk =>
      obtain ⟨h1, h2, h3⟩ := hk
      obtain ⟨io, a, b⟩ := writes_of_flush hf
      rw [h2] at a
      refine ⟨[], io, _, .written a, .waiting rfl ⟨hf.rd ▸ h1, rfl, ‹_›, ‹_›, ‹_›, ‹_›, ‹_›, ‹_›, ‹_›⟩, ?_⟩
      rintro t' h; cases h; exact ⟨_, rfl, by simpa using hf.received, b⟩
  | readPending c new ha hn =>
    cases hs with
    | toAsk hb => rw [ha] at hb; cases hb
    | sending hb => rw [ha] at hb; cases hb
    | waiting hb hk =>
      obtain ⟨h1, h2, h3⟩ := hk
      have hb' : c.rd.buffer = g.unread ++ new := by rw [hn.other (by simp), h1]
      refine ⟨new, [], _, .quiet ?_, .waiting ha ⟨hb', hn.wbuf.trans h2, ‹_›, ‹_›, ‹_›, ‹_›, ‹_›, ‹_›, ‹_›⟩, ?_⟩
      · rw [← hb']; exact (waits_of_decode (hn.pend rfl).1).2
      · rintro t' h; cases h; exact ⟨_, rfl, hn.received, by simpa using hn.sent⟩
  | readEnded c new ha hn =>
    cases hs with
    | toAsk hb => rw [ha] at hb; cases hb
    | sending hb => rw [ha] at hb; cases hb
    | waiting hb hk =>
      obtain ⟨rd, hw⟩ := lost ha hk ⟨_, rfl⟩
      exact ⟨rd, [], _, .ended hw, .failed, fun t' h => nomatch h⟩
  | readFailed c new e ha hn =>
    cases hs with
    | toAsk hb => rw [ha] at hb; cases hb
    | sending hb => rw [ha] at hb; cases hb
    | waiting hb hk =>
      obtain ⟨rd, hw⟩ := lost ha hk ⟨_, rfl⟩
      exact ⟨rd, [], _, .lost hw, .failed, fun t' h => nomatch h⟩
  | other c new pkt ev w p' ha hn hi hno =>
    cases hs with
    | toAsk hb => rw [ha] at hb; cases hb
    | sending hb => rw [ha] at hb; cases hb
    | waiting hb hk =>
      obtain ⟨rest, g', a, b, k, r, t⟩ := seen hk hn hi
      refine ⟨new, [], _, .other a b hno, .waiting ha k, ?_⟩
      rintro t' h; cases h; exact ⟨_, rfl, r, by simpa using t⟩
  | reply c new pkt ev w p' m ph ha hn hi hm hr hp =>
    cases hs with
    | toAsk hb => rw [ha] at hb; cases hb
    | sending hb => rw [ha] at hb; cases hb
    | waiting hb hk =>
      obtain ⟨rest, g', a, b, k, r, t⟩ := seen hk hn hi
      cases hp with
      | ask p2 st' hnm hst hf =>
        obtain ⟨g2, c, d⟩ := fills_of_names k hnm
        have e := fills_conn hnm
        rw [← hg.send] at c hf
        refine ⟨new, [], _, .reply a b hm hr c hf, .toAsk (i := asking p2 st') rfl d, ?_⟩
        rintro t' h; cases h
        exact ⟨_, rfl, by rw [show (asking p2 st').panel.conn = p'.conn from e]; exact r,
          by rw [show (asking p2 st').panel.conn = p'.conn from e]; simpa using t⟩
      | done p2 hnm hf =>
        obtain ⟨g2, c, d⟩ := fills_of_names k hnm
        have e := fills_conn hnm
        rw [← hg.send] at c hf
        refine ⟨new, [], _, .last a b hm hr c hf, .done d, ?_⟩
        rintro t' h; cases h
        exact ⟨_, rfl, by rw [e]; exact r, by rw [e]; simpa using t⟩

theorem asks_of_step {i : Init} {op : InitOp} {o : Obs} {ph : Phase} {w : Where} {g : Greet}
    (hg : InitGood i) (hs : Stands (.asking i) (.asking w g)) (ht : i.step op = .ok (o, ph)) :
    ∃ rd wr x, Connects w g op rd wr o x ∧ Stands ph x ∧
      Adds (sockOf (.asking i)) rd wr (sockOf ph) := by
  match op, ht with
  | .tick cx, ht => exact asks_of_tick hg hs ht
  | .arrive r, ht =>
    cases ht
    refine ⟨[], [], _, .arrive, ?_, ?_⟩
    · cases hs with
      | toAsk hb hk => obtain ⟨h1, h2, h3⟩ := hk; exact .toAsk (i := { i with panel := { i.panel with conn := (i.panel.conn.arrive r).2 } }) hb ⟨h1, h2, ‹_›, ‹_›, ‹_›, ‹_›, ‹_›, ‹_›, ‹_›⟩
      | sending hb hk => obtain ⟨h1, h2, h3⟩ := hk; exact .sending (i := { i with panel := { i.panel with conn := (i.panel.conn.arrive r).2 } }) hb ⟨h1, h2, ‹_›, ‹_›, ‹_›, ‹_›, ‹_›, ‹_›, ‹_›⟩
      | waiting hb hk => obtain ⟨h1, h2, h3⟩ := hk; exact .waiting (i := { i with panel := { i.panel with conn := (i.panel.conn.arrive r).2 } }) hb ⟨h1, h2, ‹_›, ‹_›, ‹_›, ‹_›, ‹_›, ‹_›, ‹_›⟩
    · rintro t' h; cases h; exact ⟨_, rfl, by simp [Connection.arrive], by simp [Connection.arrive]⟩
  | .writable r, ht =>
    cases ht
    refine ⟨[], [], _, .writable, ?_, ?_⟩
    · cases hs with
      | toAsk hb hk => obtain ⟨h1, h2, h3⟩ := hk; exact .toAsk (i := { i with panel := { i.panel with conn := (i.panel.conn.writable r).2 } }) hb ⟨h1, h2, ‹_›, ‹_›, ‹_›, ‹_›, ‹_›, ‹_›, ‹_›⟩
      | sending hb hk => obtain ⟨h1, h2, h3⟩ := hk; exact .sending (i := { i with panel := { i.panel with conn := (i.panel.conn.writable r).2 } }) hb ⟨h1, h2, ‹_›, ‹_›, ‹_›, ‹_›, ‹_›, ‹_›, ‹_›⟩
      | waiting hb hk => obtain ⟨h1, h2, h3⟩ := hk; exact .waiting (i := { i with panel := { i.panel with conn := (i.panel.conn.writable r).2 } }) hb ⟨h1, h2, ‹_›, ‹_›, ‹_›, ‹_›, ‹_›, ‹_›, ‹_›⟩
    · rintro t' h; cases h; exact ⟨_, rfl, by simp [Connection.writable], by simp [Connection.writable]⟩

theorem breaks_of_panic {i : Init} {cx : Cx} {w : Where} {g : Greet}
    (hs : Stands (.asking i) (.asking w g)) (ht : TickPanics i cx) :
    ∃ io, Breaks w g (.tick cx) io := by
  obtain ⟨c, new, pkt, r, ha, _, hn, hp, hr, hl⟩ := ht
  cases hs with
  | toAsk hb => rw [ha] at hb; cases hb
  | sending hb => rw [ha] at hb; cases hb
  | waiting hb hk =>
    have hd := hn.packet pkt rfl
    rw [hk.unread] at hd
    have hv : ValidPacket pkt ∨ ∃ i, pkt = .invalid i :=
      (decode_some_cond hd).imp id fun ⟨i, a, _⟩ => ⟨i, a⟩
    match pkt, hv, hp with
    | .ascii ⟨body⟩, .inl hv, hp =>
      exact ⟨new, .room (C117_decode.mp hd) ((C118_parse hv _).mp hp) hr hl⟩

theorem stands_asking {i : Init} {x : Outcome} (h : Stands (.asking i) x) :
    ∃ w g, x = .asking w g := by
  cases h <;> exact ⟨_, _, rfl⟩

theorem greets_of_run {ops : List InitOp} : ∀ {ph ph' : Phase} {outs : List Obs} {x : Outcome},
    PhaseGood ph → Stands ph x → Phase.run ops ph = .ok (outs, ph') →
    ∃ l y rest, Greets x l y ∧ Stands ph' y ∧ ops = l.map Act.op ++ rest ∧
      (rest ≠ [] → ∃ r, ph' = .finished r) ∧ outs = l.map Act.out ∧
      Adds (sockOf ph) (l.flatMap Act.rd) (l.flatMap Act.wr) (sockOf ph') := by
  induction ops with
  | nil =>
    intro ph ph' outs x hg hs h
    cases h
    exact ⟨[], x, [], .nil, hs, rfl, fun h => absurd rfl h, rfl, fun t h => ⟨t, h, by simp, by simp⟩⟩
  | cons op ops ih =>
    intro ph ph' outs x hg hs h
    match ph, hg, hs with
    | .finished r, hg, hs =>
      cases h
      exact ⟨[], x, op :: ops, .nil, hs, rfl, fun _ => ⟨r, rfl⟩, rfl,
        fun t h => ⟨t, h, by simp, by simp⟩⟩
    | .asking i, hg, hs =>
      rw [phase_cons] at h
      rcases init_cases hg op with ⟨⟨o, ph1⟩, h1, h2⟩ | ⟨cx, _, h1, _⟩
      · rw [h1] at h
        simp only [bind_ok] at h
        cases h3 : Phase.run ops ph1 with
        | error e => rw [h3] at h; cases h
        | ok y =>
          obtain ⟨os, ph2⟩ := y
          rw [h3] at h
          simp only [bind_ok, Except.ok.injEq, Prod.mk.injEq] at h
          obtain ⟨rfl, rfl⟩ := h
          obtain ⟨w, g, rfl⟩ := stands_asking hs
          obtain ⟨rd, wr, x1, a, b, c⟩ := asks_of_step hg hs h1
          obtain ⟨l, y, rest, d, e, f, f', f'', k⟩ := ih (init_good hg h2) b h3
          refine ⟨⟨op, rd, wr, o⟩ :: l, y, rest, .cons a d, e, by simp [f], f', by simp [f''], ?_⟩
          intro t' ht
          obtain ⟨t1, e1, e2, e3⟩ := k t' ht
          obtain ⟨t, e4, e5, e6⟩ := c t1 e1
          exact ⟨t, e4, by simp [e2, e5], by simp [e3, e6]⟩
      · rw [h1] at h; cases h

theorem start_stands {c : Connection} (hc : Fresh c) :
    Stands (.asking (asking ⟨c, PanelState.default, none, .idle⟩ .arming))
      (.asking (.toAsk .armingStatusRequest) .new) := by
  refine .toAsk (i := asking ⟨c, PanelState.default, none, .idle⟩ .arming) rfl
    ⟨?_, hc.wbuf, rfl, rfl, rfl, rfl, ?_, ?_, ?_⟩
  · show c.rd.buffer = []
    rw [hc.rd]
  all_goals
    intro i hi
    simp [asking, PanelState.default, Greet.new]

/-- **C123** Connecting is the machine: whatever happens, there are the bytes read and written by each
operation with which the machine, knowing nothing and about to ask for the arming status, asks what
`connect` asks, sees what it sees and knows in the end what the panel knows; the bytes are those of
the socket.  (Operations after the end have no effect.) -/
theorem C123_follows (c : Connection) (hc : Fresh c) (ops : List InitOp) (outs : List Obs)
    (ph : Phase) (h : Init.connect c ops = .ok (outs, ph)) :
    ∃ l y rest, Greets (.asking (.toAsk .armingStatusRequest) .new) l y ∧ Stands ph y ∧
      ops = l.map Act.op ++ rest ∧ (rest ≠ [] → ∃ r, ph = .finished r) ∧ outs = l.map Act.out ∧
      ∀ s, sockOf ph = some s → s.received = l.flatMap Act.rd ∧ s.sent = l.flatMap Act.wr := by
  rw [connect_run] at h
  obtain ⟨l, y, rest, a, b, d, e, f, g⟩ :=
    greets_of_run (ph := .asking _) (start_good hc) (start_stands hc) h
  refine ⟨l, y, rest, a, b, d, e, f, fun s hs => ?_⟩
  obtain ⟨t, h1, h2, h3⟩ := g s hs
  cases h1
  rw [h2, h3]
  show c.sock.received ++ _ = _ ∧ c.sock.sent ++ _ = _
  rw [hc.received, hc.sent]
  exact ⟨rfl, rfl⟩

/-- **C123** Connecting panics only where the machine has no room for a name. -/
theorem C123_panics (c : Connection) (hc : Fresh c) (ops : List InitOp) (q : Panic)
    (h : Init.connect c ops = .error q) :
    ∃ l w g cx io ops₂, Greets (.asking (.toAsk .armingStatusRequest) .new) l (.asking w g) ∧
      ops = l.map Act.op ++ .tick cx :: ops₂ ∧ Breaks w g (.tick cx) io := by
  rw [connect_run] at h
  obtain ⟨_, ops₁, cx, ops₂, outs, i, h2, h3, h4⟩ := run_panics (ph := .asking _) (start_good hc) h
  obtain ⟨l, y, rest, a, b, d, e, f, g⟩ :=
    greets_of_run (ph := .asking _) (start_good hc) (start_stands hc) h3
  obtain ⟨w, g, rfl⟩ := stands_asking b
  obtain ⟨io, hb⟩ := breaks_of_panic b h4
  have hrest : rest = [] := by
    cases rest with
    | nil => rfl
    | cons a l => obtain ⟨r, hr⟩ := e (by simp); cases hr
  subst hrest
  exact ⟨l, w, g, cx, io, ops₂, a, by rw [h2, d, List.append_nil], hb⟩

/-! ## The machine leaves no choice -/

theorem notes_one {now : Nat} {g g₁ g₂ : Greet} {m : Message} {c₁ c₂ : Option Change}
    (h₁ : Notes now g m c₁ g₁) (h₂ : Notes now g m c₂ g₂) : c₁ = c₂ ∧ g₁ = g₂ := by
  cases h₁ with
  | first hn =>
    cases h₂ with
    | first => exact ⟨rfl, rfl⟩
    | withhold hs => rw [hn] at hs; cases hs
    | «show» hs => rw [hn] at hs; cases hs
    | again hs => rw [hn] at hs; cases hs
    | nothing h => exact absurd rfl (h _)
  | withhold hs hn hx =>
    cases h₂ with
    | first hs' => rw [hs] at hs'; cases hs'
    | withhold => exact ⟨rfl, rfl⟩
    | «show» hs' h => rw [hs] at hs'; cases hs'; exact absurd hx (h.resolve_left (by simp [hn]))
    | again hs' h => rw [hs] at hs'; cases hs'; exact absurd hx (h.resolve_left (by simp [hn]))
    | nothing h => exact absurd rfl (h _)
  | «show» hs h hne =>
    cases h₂ with
    | first hs' => rw [hs] at hs'; cases hs'
    | withhold hs' hn hx =>
      rw [hs] at hs'; cases hs'; exact absurd hx (h.resolve_left (by simp [hn]))
    | «show» hs' => rw [hs] at hs'; cases hs'; exact ⟨rfl, rfl⟩
    | again hs' => rw [hs] at hs'; cases hs'; exact absurd rfl hne
    | nothing h => exact absurd rfl (h _)
  | again hs h =>
    cases h₂ with
    | first hs' => rw [hs] at hs'; cases hs'
    | withhold hs' hn hx =>
      rw [hs] at hs'; cases hs'; exact absurd hx (h.resolve_left (by simp [hn]))
    | «show» hs' _ hne => rw [hs] at hs'; cases hs'; exact absurd rfl hne
    | again => exact ⟨rfl, rfl⟩
    | nothing h => exact absurd rfl (h _)
  | early hn =>
    cases h₂ with
    | early => exact ⟨rfl, rfl⟩
    | zone hz => rw [hn] at hz; cases hz
    | zoneSame hz => rw [hn] at hz; cases hz
    | nothing _ h => exact absurd rfl (h _)
  | @zone m z i hi hz hm hne =>
    cases h₂ with
    | early hn => rw [hn] at hz; cases hz
    | @zone _ z' j hj hz' hm' hne' =>
      rw [hz] at hz'; cases hz'
      have : i = j := by omega
      subst this; exact ⟨rfl, rfl⟩
    | @zoneSame _ z' j hj hz' hm' he =>
      rw [hz] at hz'; cases hz'
      have : i = j := by omega
      subst this; exact absurd he hne
    | nothing _ h => exact absurd rfl (h _)
  | @zoneSame m z i hi hz hm he =>
    cases h₂ with
    | early => exact ⟨rfl, rfl⟩
    | @zone _ z' j hj hz' hm' hne' =>
      rw [hz] at hz'; cases hz'
      have : i = j := by omega
      subst this; exact absurd he hne'
    | zoneSame => exact ⟨rfl, rfl⟩
    | nothing _ h => exact absurd rfl (h _)
  | zones =>
    cases h₂ with
    | zones => exact ⟨rfl, rfl⟩
    | nothing _ _ h => exact absurd rfl (h _)
  | nothing a b c =>
    cases h₂ with
    | first => exact absurd rfl (a _)
    | withhold => exact absurd rfl (a _)
    | «show» => exact absurd rfl (a _)
    | again => exact absurd rfl (a _)
    | early => exact absurd rfl (b _)
    | zone => exact absurd rfl (b _)
    | zoneSame => exact absurd rfl (b _)
    | zones => exact absurd rfl (c _)
    | nothing => exact ⟨rfl, rfl⟩

theorem observes_one {now : Nat} {g g₁ g₂ : Greet} {pkt : Packet} {e₁ e₂ : Event}
    (hv : ValidPacket pkt ∨ ∃ i, pkt = .invalid i)
    (h₁ : Observes now g pkt e₁ g₁) (h₂ : Observes now g pkt e₂ g₂) : e₁ = e₂ ∧ g₁ = g₂ := by
  cases h₁ with
  | message a b =>
    cases h₂ with
    | message a' b' =>
      cases means_one hv a a'
      obtain ⟨rfl, rfl⟩ := notes_one b b'
      exact ⟨rfl, rfl⟩
    | fault a' => cases means_one hv a a'
    | nothing a' => cases means_one hv a a'
  | fault a =>
    cases h₂ with
    | message a' b' => cases means_one hv a a'
    | fault a' => cases means_one hv a a'; exact ⟨rfl, rfl⟩
    | nothing a' => cases means_one hv a a'
  | nothing a =>
    cases h₂ with
    | message a' b' => cases means_one hv a a'
    | fault a' => cases means_one hv a a'
    | nothing a' => exact ⟨rfl, rfl⟩

theorem fills_one {g g₁ g₂ : Greet} {q m : Message} (h₁ : Fills g q m g₁) (h₂ : Fills g q m g₂) :
    g₁ = g₂ := by
  cases h₁ with
  | status hn =>
    cases h₂ with
    | status => rfl
    | none h => obtain ⟨s, h⟩ := h; exact absurd h (hn s)
    | named h => obtain ⟨s, h⟩ := h; exact absurd h (hn s)
  | none h h0 =>
    cases h₂ with
    | status => rfl
    | none => rfl
    | named h h1 => omega
  | named h h1 =>
    cases h₂ with
    | status hn => obtain ⟨s, h⟩ := h; exact absurd h (hn s)
    | none h h0 => omega
    | named => rfl

/-- **C123** A packet at the front settles what is observed and what comes of it. -/
theorem C123_packet {q : Message} {g : Greet} {cx : Cx} {rd rest wr₁ wr₂ : Bytes} {pkt : Packet}
    {o₁ o₂ : Obs} {x₁ x₂ : Outcome} (hf : Front (g.unread ++ rd) (some pkt) rest)
    (h₁ : Connects (.waiting q) g (.tick cx) rd wr₁ o₁ x₁)
    (h₂ : Connects (.waiting q) g (.tick cx) rd wr₂ o₂ x₂) :
    x₁ = x₂ ∧ o₁ = o₂ ∧ ∃ e, o₁ = .got e ∧ e.pkt = some pkt := by
  have no : ¬ Spec.Waits (g.unread ++ rd) := fun hw => nomatch (front_one hf (.waits hw)).1
  have hv : ValidPacket pkt ∨ ∃ i, pkt = .invalid i :=
    (decode_some_cond (C117_decode.mpr hf)).imp id fun ⟨i, a, _⟩ => ⟨i, a⟩
  -- every rule for it
  have one : ∀ {wr o x}, Connects (.waiting q) g (.tick cx) rd wr o x → ∃ ev g₁,
      o = .got ev ∧ Observes cx.now { g with unread := rest } pkt ev g₁ ∧
      (((∀ m, ev.msg = some (.ok m) → ¬ Responds m q) ∧ x = .asking (.waiting q) g₁) ∨
        ∃ m g₂, ev.msg = some (.ok m) ∧ Responds m q ∧ Fills g₁ q m g₂ ∧
          x = match followUp q m with
            | some q' => .asking (.toAsk q') g₂
            | none => .done g₂) := by
    intro wr o x h
    cases h with
    | quiet hw => exact absurd hw no
    | ended hw => exact absurd hw no
    | lost hw => exact absurd hw no
    | other hf' hob hn =>
      obtain ⟨h, rfl⟩ := front_one hf hf'
      cases h
      exact ⟨_, _, rfl, hob, .inl ⟨hn, rfl⟩⟩
    | reply hf' hob hm hr hfi hfo =>
      obtain ⟨h, rfl⟩ := front_one hf hf'
      cases h
      exact ⟨_, _, rfl, hob, .inr ⟨_, _, hm, hr, hfi, by rw [hfo]⟩⟩
    | last hf' hob hm hr hfi hfo =>
      obtain ⟨h, rfl⟩ := front_one hf hf'
      cases h
      exact ⟨_, _, rfl, hob, .inr ⟨_, _, hm, hr, hfi, by rw [hfo]⟩⟩
  obtain ⟨e₁, g₁, rfl, ob₁, c₁⟩ := one h₁
  obtain ⟨e₂, g₂, rfl, ob₂, c₂⟩ := one h₂
  obtain ⟨rfl, rfl⟩ := observes_one hv ob₁ ob₂
  refine ⟨?_, rfl, e₁, rfl, ?_⟩
  · rcases c₁ with ⟨n₁, rfl⟩ | ⟨m₁, k₁, a₁, r₁, f₁, rfl⟩
    · rcases c₂ with ⟨n₂, rfl⟩ | ⟨m₂, k₂, a₂, r₂, f₂, rfl⟩
      · rfl
      · exact absurd r₂ (n₁ _ a₂)
    · rcases c₂ with ⟨n₂, rfl⟩ | ⟨m₂, k₂, a₂, r₂, f₂, rfl⟩
      · exact absurd r₁ (n₂ _ a₁)
      · rw [a₁] at a₂; cases a₂
        rw [fills_one f₁ f₂]
  · cases ob₁ <;> rfl

/-- **C123** Where it has no room, the machine does nothing else: such a reply makes `connect`
panic. -/
theorem C123_breaks {w : Where} {g : Greet} {op : InitOp} {rd : Bytes} (h : Breaks w g op rd) :
    ¬ ∃ wr o x, Connects w g op rd wr o x := by
  rintro ⟨wr, o, x, ha⟩
  cases h with
  | @room q _ cx _ rest body r hf hs hr hl =>
    have no : ¬ Spec.Waits (g.unread ++ rd) := fun hw => nomatch (front_one hf (.waits hw)).1
    have hv : ValidPacket (.ascii ⟨body⟩) ∨ ∃ i, Packet.ascii ⟨body⟩ = .invalid i :=
      (decode_some_cond (C117_decode.mpr hf)).imp id fun ⟨i, a, _⟩ => ⟨i, a⟩
    have msg : ∀ {g₀ ev g₁}, Observes cx.now g₀ (.ascii ⟨body⟩) ev g₁ →
        ev.msg = some (.ok (.stringDescriptionResponse r)) := by
      intro g₀ ev g₁ h
      cases h with
      | message a b =>
        cases means_one hv a (.says hs)
        rfl
      | fault a => cases means_one hv a (.says hs)
      | nothing a => cases means_one hv a (.says hs)
    have hq : ∃ s, q = .stringDescriptionRequest s := by
      cases hr with
      | text r q h1 h2 => exact ⟨q, rfl⟩
      | noText r q h1 h2 => exact ⟨q, rfl⟩
    have nofill : ∀ {g₁ g₂}, ¬ Fills g₁ q (.stringDescriptionResponse r) g₂ := by
      intro g₁ g₂ h
      cases h with
      | status hn => obtain ⟨s, h⟩ := hq; exact hn s h
      | none _ h0 => omega
      | named _ _ h1 => omega
    cases ha with
    | quiet hw => exact no hw
    | ended hw => exact no hw
    | lost hw => exact no hw
    | other hf' hob hn =>
      obtain ⟨h, rfl⟩ := front_one hf hf'
      cases h
      exact hn _ (msg hob) hr
    | reply hf' hob hm _ hfi _ =>
      obtain ⟨h, rfl⟩ := front_one hf hf'
      cases h
      rw [msg hob] at hm; cases hm
      exact nofill hfi
    | last hf' hob hm _ hfi _ =>
      obtain ⟨h, rfl⟩ := front_one hf hf'
      cases h
      rw [msg hob] at hm; cases hm
      exact nofill hfi


/-- **C123** What was learned while connecting is what the connected panel starts from (`C122`). -/
theorem C123_then (c : Connection) (hc : Fresh c) (ops : List InitOp) (outs : List Obs) (p : Panel)
    (h : Init.connect c ops = .ok (outs, .finished (.ok p))) :
    ∃ l g a z, Greets (.asking (.toAsk .armingStatusRequest) .new) l (.done g) ∧
      outs = l.map Act.out ∧ Knows p g ∧ g.shown = some a ∧ g.zones = some z ∧ g.unsent = [] ∧
      Looks p ⟨g.unread, a, z, g.held, none, []⟩ := by
  obtain ⟨l, y, rest, h1, h2, _, _, h5, _⟩ := C123_follows c hc ops outs _ h
  have hcon := C36_connect_establishes c hc ops outs p h
  cases h2 with
  | done k =>
    obtain ⟨a, ha⟩ := hcon.arming
    obtain ⟨z, hz⟩ := hcon.zones
    refine ⟨l, _, a, z, h1, h5, k, k.shown.symm.trans (arming_iff.mp ha),
      k.zones.symm.trans (zones_iff.mp hz), k.unsent.symm.trans hcon.flushed, k.unread, ha, hz,
      k.held, ?_, hcon.flushed⟩
    rw [hcon.idle]

theorem tick_of_panics {i : Init} {cx : Cx} (hg : InitGood i) {c : Connection} {pkt : Packet}
    {r : StringDescriptionResponse} (ha : i.await = .reply)
    (hn : i.panel.conn.pollNext cx = .ok (.ready (some (.ok pkt)), c))
    (hp : Message.parse pkt = .ok (some (.stringDescriptionResponse r)))
    (hr : Responds (.stringDescriptionResponse r) i.send) (hl : entries r.ty < r.num.toNat) :
    i.tick cx = .error .index := by
  rcases tick_cases hg cx with ⟨⟨o, ph⟩, ht, hc⟩ | ⟨h, _⟩
  · exfalso
    have named : ∀ {p p' : Panel}, ¬ NamesCase p i.stage (.stringDescriptionResponse r) p' := by
      intro p p' h
      cases h with
      | status hs =>
        rw [hg.send] at hr
        match hst : i.stage with
        | .arming => rw [hst] at hr; nomatch hr
        | .zones => rw [hst] at hr; nomatch hr
        | .names ty max u todo => exact hs _ _ _ _ hst
      | none ty max u todo r' hst hm hty h0 => cases hm; omega
      | named ty max u todo r' s hst hm hty hu hfit hs => cases hm; subst hty; omega
    unfold Init.tick Init.received at ht
    rw [ha] at ht
    dsimp only at ht
    rw [hn] at ht
    simp only [bind_ok] at ht
    obtain ⟨_, c', new, hn', hs⟩ := connNext_spec i.panel.conn cx hg.rd
    rw [hn] at hn'; cases hn'
    obtain ⟨⟨ev, w, p'⟩, hi, hcase⟩ := interpret_cases { i.panel with conn := c } cx.now pkt
      (parsed_wf (hs.packet pkt rfl))
    rw [hi] at ht
    simp only [bind_ok] at ht
    have hm : ev.msg = some (.ok (.stringDescriptionResponse r)) := by
      cases hcase with
      | bad e he => rw [hp] at he; cases he
      | skip he => rw [hp] at he; cases he
      | msg m ch p1 co wo p2 he _ _ _ => rw [hp] at he; cases he; rfl
    rw [hm] at ht
    dsimp only at ht
    rw [if_pos ((C23_responds _ _).mpr hr)] at ht
    rcases replied_cases p' hg.stage (hg.send ▸ hr) with ⟨ph', h1, h2⟩ | ⟨h1, _⟩
    · cases h2 with
      | ask p2 st' h => exact named h
      | done p2 h => exact named h
    · rw [h1] at ht; cases ht
  · exact h

theorem run_after {ops₁ ops₂ : List InitOp} : ∀ {ph : Phase} {i : Init} {outs : List Obs},
    Phase.run ops₁ ph = .ok (outs, .asking i) →
    Phase.run (ops₁ ++ ops₂) ph =
      (Phase.run ops₂ (.asking i) >>= fun y => .ok (outs ++ y.1, y.2)) := by
  induction ops₁ with
  | nil =>
    intro ph i outs h
    cases h
    rw [List.nil_append]
    cases Phase.run ops₂ (.asking i) <;> rfl
  | cons op ops ih =>
    intro ph i outs h
    match ph with
    | .finished r => cases h
    | .asking j =>
      rw [phase_cons] at h
      rw [List.cons_append, phase_cons]
      cases hs : j.step op with
      | error e => rw [hs] at h; cases h
      | ok x =>
        rw [hs] at h
        simp only [bind_ok] at h ⊢
        cases hr : Phase.run ops x.2 with
        | error e => rw [hr] at h; cases h
        | ok y =>
          obtain ⟨os, ph2⟩ := y
          rw [hr] at h
          simp only [bind_ok, Except.ok.injEq, Prod.mk.injEq] at h
          obtain ⟨rfl, rfl⟩ := h
          rw [ih hr]
          cases Phase.run ops₂ (.asking i) <;> rfl

/-- **C123** Exactly when connecting panics: a description is read in reply to its question, with a
number above the number of entries of its type. -/
theorem C123_panics_iff (c : Connection) (hc : Fresh c) (ops : List InitOp) (q : Panic) :
    Init.connect c ops = .error q ↔
      q = .index ∧ ∃ ops₁ cx ops₂ outs i conn pkt r, ops = ops₁ ++ .tick cx :: ops₂ ∧
        Init.connect c ops₁ = .ok (outs, .asking i) ∧ i.await = .reply ∧
        i.panel.conn.pollNext cx = .ok (.ready (some (.ok pkt)), conn) ∧
        Message.parse pkt = .ok (some (.stringDescriptionResponse r)) ∧
        Responds (.stringDescriptionResponse r) i.send ∧ entries r.ty < r.num.toNat := by
  constructor
  · intro h
    rw [connect_run] at h
    obtain ⟨h1, ops₁, cx, ops₂, outs, i, h2, h3, conn, new, pkt, r, h0, h4, _, h5, h6, h7⟩ :=
      run_panics (ph := .asking _) (start_good hc) h
    exact ⟨h1, ops₁, cx, ops₂, outs, i, conn, pkt, r, h2, by rw [connect_run]; exact h3, h0, h4, h5,
      h6, h7⟩
  · rintro ⟨rfl, ops₁, cx, ops₂, outs, i, conn, pkt, r, rfl, h1, h2, h3, h4, h5, h6⟩
    have hg : InitGood i := (connect_hist hc h1).good
    rw [connect_run] at h1 ⊢
    rw [run_after h1, phase_cons]
    show (i.tick cx >>= _ >>= _) = _
    rw [tick_of_panics hg h2 h3 h4 h5 h6]
    rfl

/-- Not vacuous: a whole dialogue. -/
example : ∃ l g, Greets (.asking (.toAsk .armingStatusRequest) .new) l (.done g) := by
  obtain ⟨outs, p, h⟩ := sampleConnect_succeeds
  obtain ⟨l, g, _, _, h1, _⟩ := C123_then {} ⟨rfl, rfl, rfl, rfl⟩ _ _ _ h
  exact ⟨l, g, h1⟩

end Elk.Props
