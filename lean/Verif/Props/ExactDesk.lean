import Verif.Props.Exact
import Verif.Props.Desk
import Verif.Spec.ExactDesk
/-!
# C139: exactly what the bridge can do
-/

namespace Elk.Props
open Elk Spec

theorem sturdy_ear {c : Connection} (h : Unbroken c) : earOf c.rd = ⟨false, false⟩ := by
  simp [earOf, h.2.1, h.2.2]

theorem unbroken_eof {c : Connection} (h : Unbroken c) : EofOk c.rd := by
  intro h'; rw [h.2.2] at h'; cases h'

theorem unbroken_of {p : Panel} (hg : Good p) (h : earOf p.conn.rd = ⟨false, false⟩) :
    Unbroken p.conn :=
  ⟨hg.rd, congrArg Ear.broken h, congrArg Ear.over h⟩

/-! ## The bridge does only what the machine allows -/

/-- A `poll_next` of a sound connection that neither fails nor ends. -/
theorem heard_ripe {p p' : Panel} {cx : Cx} {r : Poll PanelItem} {w : List Waker} (hg : Good p)
    (hu : Unbroken p.conn) (h : p.pollNext cx = .ok (r, w, p')) (h1 : r ≠ .ready none)
    (h2 : ∀ x, r ≠ .ready (some (.error x))) {io : Bytes}
    (hr : p'.conn.sock.received = p.conn.sock.received ++ io) :
    Ripe p.conn.rd.buffer io ∧ earOf p'.conn.rd = ⟨false, false⟩ := by
  obtain ⟨io', a, b, _⟩ := panel_hears hg (unbroken_eof hu) h
  clear h
  rw [hr] at a
  obtain rfl := List.append_cancel_left a
  rw [sturdy_ear hu] at b
  generalize earOf p'.conn.rd = e at b
  cases b with
  | spent h => cases h
  | goes _ h => exact ⟨h, rfl⟩
  | failed => exact absurd rfl (h2 _)
  | cut => exact absurd rfl (h2 _)
  | ended => exact absurd rfl h1

theorem flush_keeps {p p' : Panel} {cx r} (h : p.pollFlush cx = (r, p')) :
    p'.conn.rd = p.conn.rd ∧ p'.conn.sock.received = p.conn.sock.received := by
  have k1 := (connFlush_spec p.conn cx).rd
  have k2 := (connFlush_spec p.conn cx).received
  unfold Panel.pollFlush at h
  split at h
  · split at h <;> · rename_i hc; rw [hc] at k1 k2; cases h; exact ⟨k1, k2⟩
  · cases h; exact ⟨rfl, rfl⟩

theorem ready_keeps {p p' : Panel} {cx r} (h : p.pollReady cx = (r, p')) :
    p'.conn.rd = p.conn.rd ∧ p'.conn.sock.received = p.conn.sock.received := by
  have k1 := (connFlush_spec p.conn cx).rd
  have k2 := (connFlush_spec p.conn cx).received
  unfold Panel.pollReady at h
  split at h
  · cases h; exact ⟨rfl, rfl⟩
  · cases h; exact ⟨rfl, rfl⟩
  · split at h <;> · rename_i hc; rw [hc] at k1 k2; cases h; exact ⟨k1, k2⟩

theorem send_keeps {p p' : Panel} {c : Command} (h : p.startSend c = .ok p') :
    p'.conn.rd = p.conn.rd ∧ p'.conn.sock.received = p.conn.sock.received := by
  unfold Panel.startSend at h
  split at h
  · cases h
  · obtain ⟨pkt, _, h⟩ := P_bind_ok.mp h
    obtain ⟨conn, h1, h⟩ := P_bind_ok.mp h
    cases h
    obtain ⟨_, _, h1⟩ := P_bind_ok.mp h1
    cases h1
    exact ⟨rfl, rfl⟩

/-- What a step of the bridge keeps of its connection, and that it read nothing while a packet was
at the front. -/
theorem bcase_ripe {b b' : Bridge} {op o} (h : BCase b op o b') (hg : BGood b)
    (hu : Unbroken b.panel.conn) {io : Bytes}
    (hr : b'.panel.conn.sock.received = b.panel.conn.sock.received ++ io) :
    Ripe b.panel.conn.rd.buffer io ∧ Unbroken b'.panel.conn := by
  have hg' := bcase_good h hg
  have same : b'.panel.conn.sock.received = b.panel.conn.sock.received →
      b'.panel.conn.rd = b.panel.conn.rd →
      Ripe b.panel.conn.rd.buffer io ∧ Unbroken b'.panel.conn := by
    intro h1 h2
    rw [h1] at hr
    refine ⟨.inl ?_, ?_⟩
    · simpa using hr
    · unfold Unbroken; rw [h2]; exact hu
  cases h with
  | arrive r => exact same rfl rfl
  | writable w => exact same rfl rfl
  | deliver p => exact same rfl rfl
  | event cx pf ev out w panel hw hn hp =>
    obtain ⟨a, b⟩ := heard_ripe hg.good hu hn (by simp) (by simp) hr
    exact ⟨a, unbroken_of hg'.good b⟩
  | ignored cx pf p inbox ops outs panel hw hi hp hc =>
    cases hp with
    | no => exact same rfl rfl
    | yes w p' hn =>
      obtain ⟨a, b⟩ := heard_ripe hg.good hu hn (by simp) (by simp) hr
      exact ⟨a, unbroken_of hg'.good b⟩
  | asked cx pf p inbox ops outs panel c hw hi hp hc =>
    cases hp with
    | no => exact same rfl rfl
    | yes w p' hn =>
      obtain ⟨a, b⟩ := heard_ripe hg.good hu hn (by simp) (by simp) hr
      exact ⟨a, unbroken_of hg'.good b⟩
  | idle cx pf w panel hw hi hn =>
    obtain ⟨a, b⟩ := heard_ripe hg.good hu hn (by simp) (by simp) hr
    exact ⟨a, unbroken_of hg'.good b⟩
  | notReady cx pf c panel hw h => exact same (ready_keeps h).2 (ready_keeps h).1
  | accepted cx pf c p1 panel hw h hs =>
    exact same ((send_keeps hs).2.trans (ready_keeps h).2) ((send_keeps hs).1.trans (ready_keeps h).1)
  | notFlushed cx pf panel hw h => exact same (flush_keeps h).2 (flush_keeps h).1
  | sent cx pf panel hw h => exact same (flush_keeps h).2 (flush_keeps h).1

theorem turns_cons {op : BOp} {ops : List BOp} {b b2 : Bridge} {ts : List Turn} :
    tracedBridge (op :: ops) b = .ok (ts, b2) ↔ ∃ o b1 ts', b.step op = .ok (o, b1) ∧
      tracedBridge ops b1 = .ok (ts', b2) ∧
      ts = ⟨op, b1.panel.conn.sock.received.drop b.panel.conn.sock.received.length,
        b1.panel.conn.sock.sent.drop b.panel.conn.sock.sent.length, o⟩ :: ts' := by
  have e : tracedBridge (op :: ops) b = (b.step op >>= fun x => tracedBridge ops x.2 >>= fun y =>
      .ok (⟨op, x.2.panel.conn.sock.received.drop b.panel.conn.sock.received.length,
        x.2.panel.conn.sock.sent.drop b.panel.conn.sock.sent.length, x.1⟩ :: y.1, y.2)) := rfl
  rw [e, P_bind_ok]
  constructor
  · rintro ⟨⟨o, b1⟩, h1, h2⟩
    obtain ⟨⟨ts', b'⟩, h3, h4⟩ := P_bind_ok.mp h2
    cases h4
    exact ⟨o, b1, ts', h1, h3, rfl⟩
  · rintro ⟨o, b1, ts', h1, h2, rfl⟩
    exact ⟨(o, b1), h1, P_bind_ok.mpr ⟨(ts', b2), h2, rfl⟩⟩

theorem turns_append {x y : List BOp} : ∀ {b b1 b2 : Bridge} {tx ty : List Turn},
    tracedBridge x b = .ok (tx, b1) → tracedBridge y b1 = .ok (ty, b2) →
    tracedBridge (x ++ y) b = .ok (tx ++ ty, b2) := by
  induction x with
  | nil => intro b b1 b2 tx ty h1 h2; cases h1; exact h2
  | cons op x ih =>
    intro b b1 b2 tx ty h1 h2
    obtain ⟨o, q, ts, h3, h4, rfl⟩ := turns_cons.mp h1
    exact turns_cons.mpr ⟨o, q, ts ++ ty, h3, ih h4 h2, rfl⟩

theorem jobs_append (a b : List Turn) : jobs (a ++ b) = jobs a ++ jobs b := by
  simp [jobs]

/-- What is kept of a bridge whose connection has neither failed nor ended. -/
structure Sturdy (b : Bridge) : Prop where
  good : BGood b
  conn : Unbroken b.panel.conn

theorem step_toils {b b' : Bridge} {d : Desk} {op o} (hg : Sturdy b) (hs : Sits b d)
    (h : b.step op = .ok (o, b')) :
    Sturdy b' ∧ b'.cfg = b.cfg ∧ b'.code = b.code ∧ ∃ rd wr d', Serves b.cfg b.code d op rd wr o d' ∧
      Sits b' d' ∧ Ripe d.view.unread rd ∧
      b'.panel.conn.sock.received = b.panel.conn.sock.received ++ rd ∧
      b'.panel.conn.sock.sent = b.panel.conn.sock.sent ++ wr ∧ (isJob op = false → d' = d) := by
  have hc := step_comes hg.good hs op
  rw [h] at hc
  obtain ⟨rd, wr, d', h1, h2, h3, h4⟩ := hc
  have hb := bstep_cases h
  obtain ⟨h5, h6⟩ := bcase_ripe hb hg.good hg.conn h3
  have hst := bcase_static hb
  refine ⟨⟨bcase_good hb hg.good, h6⟩, hst.1, hst.2.1, rd, wr, d', h1, h2, hs.view.unread ▸ h5, h3, h4,
    ?_⟩
  intro hj
  cases h1 <;> first | rfl | cases hj

theorem toils_of_traced {ops : List BOp} : ∀ {b b' : Bridge} {d : Desk} {ts : List Turn}, Sturdy b →
    Sits b d → tracedBridge ops b = .ok (ts, b') →
    Sturdy b' ∧ b'.cfg = b.cfg ∧ b'.code = b.code ∧ ∃ d', Sits b' d' ∧
      Toils b.cfg b.code d (jobs ts) d' := by
  induction ops with
  | nil =>
    intro b b' d ts hg hs h
    cases h
    exact ⟨hg, rfl, rfl, d, hs, .nil⟩
  | cons op ops ih =>
    intro b b' d ts hg hs h
    obtain ⟨o, b1, ts', h1, h2, rfl⟩ := turns_cons.mp h
    obtain ⟨g1, e1, e2, rd, wr, d1, s1, s2, s3, s4, s5, s6⟩ := step_toils hg hs h1
    obtain ⟨g2, f1, f2, d', k1, k2⟩ := ih g1 s2 h2
    rw [e1, e2] at k2
    refine ⟨g2, f1.trans e1, f2.trans e2, d', k1, ?_⟩
    rw [s4, s5, List.drop_left, List.drop_left]
    by_cases hj : isJob op = true
    · rw [jobs, List.filter_cons_of_pos (by exact hj)]
      exact .cons hj s1 s3 k2
    · rw [jobs, List.filter_cons_of_neg (by exact hj)]
      obtain rfl := s6 (by simpa using hj)
      exact k2

/-! ## How it ends -/

theorem inbox_error {b : Bridge} {q : Panic} (hg : BGood b) (h : b.pollInbox = .error q) :
    ∃ p rest, b.inbox = p :: rest ∧ ForCommands b.cfg p.topic ∧ ¬ Rfc.Utf8 p.payload ∧ q = .expect := by
  unfold Bridge.pollInbox at h
  split at h
  · cases h
  · rename_i p rest hi
    refine ⟨p, rest, hi, ?_⟩
    rcases P_bind_error.mp h with h | ⟨c, _, h⟩
    · rcases commandFor_cases (pre := b.cfg.prefix) (code := b.code) (p := p) hg.usable.areas with
        ⟨h1, _⟩ | ⟨a, ha, ht, ⟨hu, h1⟩ | ⟨_, _, h1⟩ | ⟨lv, _, h1⟩⟩
      · rw [h1] at h; cases h
      · rw [h1] at h
        cases h
        refine ⟨⟨a, ha, ht⟩, fun hx => ?_, rfl⟩
        rw [(utf8Valid_iff _).mpr hx] at hu
        cases hu
      · rw [h1] at h; cases h
      · rw [h1] at h; cases h
    · split at h <;> cases h

theorem panel_error {b : Bridge} {d : Desk} {q : Panic} {cx : Cx} {pf : Bool} (hg : Sturdy b)
    (hs : Sits b d) (hw : d.doing = .select) (hi : pf = false → d.inbox = [])
    (h : b.pollPanel cx = .error q) : Quits b.cfg d cx pf q := by
  obtain ⟨⟨r, w, panel⟩, _, hn, _⟩ :=
    pollNext_cases b.panel cx hg.good.good.sane.rd hg.good.good.sane.arming
  obtain ⟨io, v', h1, h2, h3, h4⟩ := next_reading hg.good.good hs.view hn
  obtain ⟨io', k1, k2, _⟩ := panel_hears hg.good.good (unbroken_eof hg.conn) hn
  rw [h3] at k1
  obtain rfl := List.append_cancel_left k1
  rw [sturdy_ear hg.conn, hs.view.unread] at k2
  unfold Bridge.pollPanel at h
  rw [hn] at h
  simp only [bind_ok] at h
  match r, hn, h1, k2, h with
  | .ready none, hn, h1, k2, h =>
    cases h; exact .over hw hi h1 (by simp) k2
  | .ready (some (.error e)), hn, h1, k2, h =>
    cases h; exact .over hw hi h1 (by simp) k2
  | .ready (some (.ok ev)), hn, h1, k2, h =>
    have hrp := (heard_ripe hg.good.good hg.conn hn (by simp) (by simp) h3).1
    rw [hs.view.unread] at hrp
    rcases P_bind_error.mp h with h | ⟨c, _, h⟩
    · rcases publishEvent_iff hg.good hn with ⟨r, hm, ho⟩ | ⟨_, j, ch, _, _, ho⟩
      · rw [ho] at h
        cases h
        exact .report hw hi h1 hm hrp
      · rw [ho] at h; cases h
    · cases h

/-- A step that fails, for the machine. -/
theorem step_quits {b : Bridge} {d : Desk} {op : BOp} {q : Panic} (hg : Sturdy b) (hs : Sits b d)
    (h : b.step op = .error q) : ∃ cx pf, op = .tick cx pf ∧ Quits b.cfg d cx pf q := by
  match op, h with
  | .arrive r, h => cases h
  | .writable r, h => cases h
  | .deliver p, h => cases h
  | .tick cx pf, h =>
    refine ⟨cx, pf, rfl, ?_⟩
    have h : b.tick cx pf = .error q := h
    unfold Bridge.tick at h
    split at h
    · rename_i hw
      have hsel : d.doing = .select := hs.doing.symm.trans hw
      unfold Bridge.select at h
      cases pf with
      | true =>
        rw [if_pos rfl] at h
        rcases P_bind_error.mp h with h | ⟨⟨o, b1⟩, h1, h⟩
        · exact panel_error hg hs hsel (by simp) h
        · rcases pollPanel_ok h1 with ⟨w, panel, hn, rfl, rfl⟩ | ⟨ev, w, panel, out, hn, ho, rfl, rfl⟩
          · rcases P_bind_error.mp h with h | ⟨_, _, h⟩
            · obtain ⟨io, v', a1, a2, a3, a4⟩ := next_reading hg.good.good hs.view hn
              have hrp := (heard_ripe hg.good.good hg.conn hn (by simp) (by simp) a3).1
              rw [hs.view.unread] at hrp
              have hg1 := bcase_good (.idle cx true w panel hw rfl hn : BCase { b with inbox := [] } _ _ _)
                ⟨hg.good.good, hg.good.wf, hg.good.usable, hg.good.code, hg.good.busy, hg.good.cmd,
                  hg.good.empty, hg.good.flushing⟩
              obtain ⟨p, rest, b1, b2, b3, rfl⟩ := inbox_error (b := { b with panel })
                ⟨hg1.good, hg1.wf, hg1.usable, hg1.code, hg1.busy, hg1.cmd, hg1.empty, hg1.flushing⟩ h
              exact .garbage hsel (hs.inbox.symm.trans b1) (.yes a1) b2 b3 hrp
            · cases h
          · cases h
      | false =>
        rw [if_neg (by simp)] at h
        rcases P_bind_error.mp h with h2 | ⟨⟨o, b1⟩, h1, h2⟩
        · obtain ⟨p, rest, b1, b2, b3, rfl⟩ := inbox_error hg.good h2
          exact .garbage hsel (hs.inbox.symm.trans b1) .no b2 b3 (.inl rfl)
        · rcases pollInbox_ok h1 with ⟨hi, rfl, rfl⟩ | ⟨p, inbox, _, _, rfl, rfl⟩ |
            ⟨p, inbox, c, _, _, rfl, rfl⟩
          · rcases P_bind_error.mp h2 with h3 | ⟨_, _, h3⟩
            · exact panel_error hg hs hsel (fun _ => hs.inbox.symm.trans hi) h3
            · cases h3
          · cases h2
          · cases h2
    · rename_i c hw
      have hd : d.doing = .ready c := hs.doing.symm.trans hw
      split at h
      · cases h
      · rename_i e panel hr
        cases h
        have hst : b.panel.step (.pollReady cx) = .ok (.sink (.ready (.error e)), panel) := by
          unfold Panel.step
          dsimp only
          rw [hr]
        rcases (does_of_step hg.good.good (unbroken_eof hg.conn) hs.view (by intro c h; cases h)
          hst).2 with ⟨_, v', _, hx⟩ | ⟨hx, _⟩
        · generalize earOf panel.conn.rd = e1 at hx
          cases hx with
          | sink ha hh =>
            cases ha with
            | ready hr => exact .unready hd hr hh
        · cases hx
      · rename_i p1 hr
        have hc := pollReady_cases b.panel cx
        rw [hr] at hc
        cases hc with
        | idle hi =>
          rw [startSend_wf (hg.good.cmd c hw) hi] at h
          cases h
    · rename_i hw
      have hd : d.doing = .flush := hs.doing.symm.trans hw
      split at h
      · cases h
      · rename_i e panel hr
        cases h
        have hst : b.panel.step (.pollFlush cx) = .ok (.sink (.ready (.error e)), panel) := by
          unfold Panel.step
          dsimp only
          rw [hr]
        rcases (does_of_step hg.good.good (unbroken_eof hg.conn) hs.view (by intro c h; cases h)
          hst).2 with ⟨_, v', _, hx⟩ | ⟨hx, _⟩
        · generalize earOf panel.conn.rd = e1 at hx
          cases hx with
          | sink ha hh =>
            cases ha with
            | flush hr => exact .unsent hd hr hh
        · cases hx
      · cases h

/-! ## The bridge does whatever the machine allows -/

/-- A bridge with answers of the panel's socket. -/
def bfed (b : Bridge) (q : List ReadItem) (w : List WriteItem) (rr rw : Option Waker) : Bridge :=
  { b with panel := fed b.panel q w rr rw }

theorem bfeed_reads (q : List ReadItem) : ∀ b : Bridge, ∃ ts rr,
    tracedBridge (q.map .arrive) b = .ok (ts, bfed b (b.panel.conn.sock.incoming ++ q)
      b.panel.conn.sock.writes rr b.panel.conn.sock.writeWaker) ∧ jobs ts = [] := by
  induction q with
  | nil =>
    intro b
    refine ⟨[], b.panel.conn.sock.readWaker, ?_, rfl⟩
    rw [List.append_nil]
    rfl
  | cons r q ih =>
    intro b
    obtain ⟨ts, rr, h, hc⟩ := ih (bfed b (b.panel.conn.sock.incoming ++ [r])
      b.panel.conn.sock.writes none b.panel.conn.sock.writeWaker)
    refine ⟨_, rr, turns_cons.mpr ⟨_, _, ts, rfl, ?_, rfl⟩, by simpa [jobs, isJob] using hc⟩
    refine h.trans ?_
    simp [bfed, fed]

theorem bfeed_writes (w : List WriteItem) : ∀ b : Bridge, ∃ ts rw,
    tracedBridge (w.map .writable) b = .ok (ts, bfed b b.panel.conn.sock.incoming
      (b.panel.conn.sock.writes ++ w) b.panel.conn.sock.readWaker rw) ∧ jobs ts = [] := by
  induction w with
  | nil =>
    intro b
    refine ⟨[], b.panel.conn.sock.writeWaker, ?_, rfl⟩
    rw [List.append_nil]
    rfl
  | cons r w ih =>
    intro b
    obtain ⟨ts, rw, h, hc⟩ := ih (bfed b b.panel.conn.sock.incoming
      (b.panel.conn.sock.writes ++ [r]) b.panel.conn.sock.readWaker none)
    refine ⟨_, rw, turns_cons.mpr ⟨_, _, ts, rfl, ?_, rfl⟩, by simpa [jobs, isJob] using hc⟩
    refine h.trans ?_
    simp [bfed, fed]

/-- A bridge to whose panel's socket no answers are queued. -/
structure Still (b : Bridge) : Prop where
  sturdy : Sturdy b
  incoming : b.panel.conn.sock.incoming = []
  writes : b.panel.conn.sock.writes = []

theorem bfed_sturdy {b : Bridge} (h : Sturdy b) (q w rr rw) : Sturdy (bfed b q w rr rw) :=
  ⟨⟨fed_good h.good.good _ _ _ _, h.good.wf, h.good.usable, h.good.code, h.good.busy, h.good.cmd,
    h.good.empty, h.good.flushing⟩, h.conn⟩

theorem bfed_sits {b : Bridge} {d : Desk} (h : Sits b d) (q w rr rw) : Sits (bfed b q w rr rw) d :=
  ⟨fed_looks h.view _ _ _ _, h.inbox, h.doing⟩

/-- Any answers can be queued. -/
theorem bfeed {b : Bridge} (hb : Still b) (q : List ReadItem) (w : List WriteItem) :
    ∃ ops ts rr rw, tracedBridge ops b = .ok (ts, bfed b q w rr rw) ∧ jobs ts = [] := by
  obtain ⟨t1, rr, h1, j1⟩ := bfeed_reads q b
  rw [hb.incoming, hb.writes, List.nil_append] at h1
  obtain ⟨t2, rw, h2, j2⟩ := bfeed_writes w (bfed b q [] rr b.panel.conn.sock.writeWaker)
  exact ⟨_, _, rr, rw, turns_append h1 h2, by rw [jobs_append, j1, j2]; rfl⟩

theorem look_realises {b : Bridge} {d : Desk} (hb : Still b) (hs : Sits b d) {cx : Cx} {io : Bytes}
    {r : Poll PanelItem} {v' : View} {e' : Ear} (h : Reading cx d.view io r v')
    (hh : Hears ⟨false, false⟩ d.view.unread io r e') :
    ∃ q, ∀ rr rw, ∃ w panel, (fed b.panel q [] rr rw).pollNext cx = .ok (r, w, panel) ∧
      Looks panel v' ∧ panel.conn.sock.incoming = [] ∧ panel.conn.sock.writes = [] ∧
      panel.conn.sock.received = b.panel.conn.sock.received ++ io ∧
      panel.conn.sock.sent = b.panel.conn.sock.sent := by
  have hg := hb.sturdy.good.good
  rw [← sturdy_ear hb.sturdy.conn] at hh
  obtain ⟨q, hq⟩ := next_realises (w := []) hg (unbroken_eof hb.sturdy.conn) hs.view h hh
  refine ⟨q, fun rr rw => ?_⟩
  obtain ⟨r', w', p', a1, a2, _, a4, a5, a6, a7⟩ := hq rr [] rw
  have a1 := next_step.mp a1
  have : r' = r := by
    unfold quiet at a7
    simp only [Deed.mk.injEq, Out.next.injEq] at a7
    exact a7.2.2.1
  subst this
  obtain ⟨io', v2, b1, b2, b3, b4⟩ := next_reading (fed_good hg _ _ _ _) (fed_looks hs.view _ _ _ _) a1
  have hm := moved_eq b3 (b := []) (by rw [List.append_nil]; exact b4)
  rw [a6, List.append_nil] at hm
  subst hm
  exact ⟨w', p', a1, a2, a4, a5, b3, b4⟩

theorem tick_panel {b : Bridge} {cx : Cx} {pf : Bool} (hw : b.waiting = .select)
    (hi : pf = false → b.inbox = []) :
    (∀ o b', b.pollPanel cx = .ok (some o, b') → b.step (.tick cx pf) = .ok (o, b')) ∧
    (∀ q, b.pollPanel cx = .error q → b.step (.tick cx pf) = .error q) ∧
    (∀ b', b.inbox = [] → b'.inbox = [] → b.pollPanel cx = .ok (none, b') →
      b.step (.tick cx pf) = .ok (.pending, b')) := by
  have e : b.step (.tick cx pf) = b.select cx pf := by
    show b.tick cx pf = _
    unfold Bridge.tick
    rw [hw]
  have idle : ∀ {b : Bridge}, b.inbox = [] → b.pollInbox = .ok (none, b) := by
    intro b h
    unfold Bridge.pollInbox
    rw [h]
  rw [e]
  unfold Bridge.select
  cases pf with
  | true =>
    rw [if_pos rfl]
    refine ⟨fun o b' h => by rw [h]; rfl, fun q h => by rw [h]; rfl, fun b' _ h1 h => ?_⟩
    rw [h]
    simp only [bind_ok]
    rw [idle h1]
    rfl
  | false =>
    rw [if_neg (by simp), idle (hi rfl)]
    simp only [bind_ok]
    exact ⟨fun o b' h => by rw [h]; rfl, fun q h => by rw [h]; rfl, fun b' _ h1 h => by rw [h]; rfl⟩

theorem tick_inbox {b b1 : Bridge} {cx : Cx} {pf : Bool} (hw : b.waiting = .select)
    (hl : (pf = true ∧ b.pollPanel cx = .ok (none, b1)) ∨ (pf = false ∧ b1 = b)) :
    (∀ o b', b1.pollInbox = .ok (some o, b') → b.step (.tick cx pf) = .ok (o, b')) ∧
    (∀ q, b1.pollInbox = .error q → b.step (.tick cx pf) = .error q) := by
  have e : b.step (.tick cx pf) = b.select cx pf := by
    show b.tick cx pf = _
    unfold Bridge.tick
    rw [hw]
  rw [e]
  unfold Bridge.select
  rcases hl with ⟨rfl, h⟩ | ⟨rfl, rfl⟩
  · rw [if_pos rfl, h]
    simp only [bind_ok]
    exact ⟨fun o b' h => by rw [h]; rfl, fun q h => by rw [h]; rfl⟩
  · rw [if_neg (by simp)]
    exact ⟨fun o b' h => by rw [h]; rfl, fun q h => by rw [h]; rfl⟩

theorem looked_realises {b : Bridge} {d : Desk} (hb : Still b) (hs : Sits b d) {cx : Cx} {io : Bytes}
    {pf : Bool} {v' : View} (h : Looked cx d.view pf io v') (hr : Ripe d.view.unread io) :
    ∃ q, ∀ rr rw, ∃ panel, ((pf = true ∧ (bfed b q [] rr rw).pollPanel cx =
        .ok (none, { b with panel })) ∨ (pf = false ∧ { b with panel } = bfed b q [] rr rw)) ∧
      Looks panel v' ∧ panel.conn.sock.incoming = [] ∧ panel.conn.sock.writes = [] ∧
      panel.conn.sock.received = b.panel.conn.sock.received ++ io ∧
      panel.conn.sock.sent = b.panel.conn.sock.sent := by
  cases h with
  | no =>
    exact ⟨[], fun rr rw => ⟨fed b.panel [] [] rr rw, .inr ⟨rfl, rfl⟩, fed_looks hs.view _ _ _ _, rfl,
      rfl, by simp [fed], rfl⟩⟩
  | yes h =>
    obtain ⟨q, hq⟩ := look_realises hb hs h (.goes rfl hr (by simp) (by simp))
    refine ⟨q, fun rr rw => ?_⟩
    obtain ⟨w, panel, a1, a2⟩ := hq rr rw
    refine ⟨panel, .inl ⟨rfl, ?_⟩, a2⟩
    unfold Bridge.pollPanel
    have : (bfed b q [] rr rw).panel.pollNext cx = _ := a1
    rw [this]
    rfl

/-- The answers there are, the step taken, and what it leaves. -/
def Answered (b : Bridge) (t : Turn) (d' : Desk) : Prop :=
  ∃ q w, ∀ rr rw, ∃ o b', (bfed b q w rr rw).step t.op = .ok (o, b') ∧
    hushed ⟨t.op, t.rd, t.wr, o⟩ = hushed t ∧ Sits b' d' ∧
    b'.panel.conn.sock.incoming = [] ∧ b'.panel.conn.sock.writes = [] ∧
    b'.panel.conn.sock.received = b.panel.conn.sock.received ++ t.rd ∧
    b'.panel.conn.sock.sent = b.panel.conn.sock.sent ++ t.wr

theorem announces_one {cfg : Cfg} (hm : MapCfg cfg) {v : View} {ev : Event} {x y : List Published}
    (hx : Announces cfg v ev x) (hy : Announces cfg v ev y) : x = y := by
  cases hx with
  | mk a b =>
    cases hy with
    | mk a' b' =>
      rw [updates_one hm b b']
      rw [a] at a'; cases a'
      rfl

/-- A poll of a panel with an event, in the bridge. -/
theorem pollPanel_told {b : Bridge} {cx : Cx} {ev : Event} {w : List Waker} {panel : Panel}
    (h : b.panel.pollNext cx = .ok (.ready (some (.ok ev)), w, panel)) :
    b.pollPanel cx = publishEvent panel b.cfg ev >>= fun out =>
      .ok (some (.event ev out w), { b with panel, log := b.log ++ out }) := by
  unfold Bridge.pollPanel
  rw [h]
  rfl

theorem pollInbox_cons {b : Bridge} {p : Publish} {rest : List Publish} (h : b.inbox = p :: rest) :
    b.pollInbox = commandFor b.cfg.prefix b.code p b.cfg.elk.areas >>= fun cmd =>
      match cmd with
      | none => .ok (some (.taken p none), { b with inbox := rest })
      | some c => .ok (some (.taken p (some c)), { b with inbox := rest, waiting := .ready c }) := by
  unfold Bridge.pollInbox
  rw [h]
  rfl

theorem serves_answered {b : Bridge} {d d' : Desk} {t : Turn} (hb : Still b) (hs : Sits b d)
    (hm : MapCfg b.cfg) (hd : DistinctNames b.cfg) (hj : isJob t.op = true)
    (h : Serves b.cfg b.code d t.op t.rd t.wr t.out d') (hr : Ripe d.view.unread t.rd) :
    Answered b t d' := by
  obtain ⟨op, rd, wr, out⟩ := t
  dsimp only at hj h hr
  have hg := hb.sturdy.good
  cases h with
  | arrive => cases hj
  | writable => cases hj
  | @deliver p =>
    refine ⟨[], [], fun rr rw => ⟨_, _, rfl, rfl, ⟨fed_looks hs.view _ _ _ _, ?_, hs.doing⟩, rfl, rfl,
      ?_, ?_⟩⟩
    · show b.inbox ++ [p] = _
      rw [hs.inbox]
    · simp [bfed, fed]
    · simp [bfed, fed]
  | @event cx pf _ ev w _ v' h1 h2 h3 h4 h5 =>
    obtain ⟨q, hq⟩ := look_realises hb hs h3 (.goes rfl hr (by simp) (by simp))
    refine ⟨q, [], fun rr rw => ?_⟩
    obtain ⟨w', panel, a1, a2, a3, a4, a5, a6⟩ := hq rr rw
    have hg1 := (bfed_sturdy hb.sturdy q [] rr rw).good
    have a1 : (bfed b q [] rr rw).panel.pollNext cx = _ := a1
    rcases publishEvent_iff hg1 a1 with ⟨r, hm, _⟩ | ⟨_, j, ch, _, _, ho⟩
    · exact absurd hm (h4 r)
    obtain ⟨_, b2⟩ := announces_of hg1 a1 ho a2
    have ho := ho.trans (congrArg Except.ok (announces_one hm b2 h5))
    have hp := pollPanel_told a1
    rw [ho] at hp
    refine ⟨_, _, (tick_panel (b := bfed b q [] rr rw) (hs.doing.trans h1)
      (fun h => hs.inbox.trans (h2 h))).1 _ _ hp, rfl, ⟨a2, hs.inbox, hs.doing⟩, a3, a4, a5, ?_⟩
    rw [List.append_nil]; exact a6
  | @ignores cx pf _ v' p rest h1 h2 h3 h4 h5 =>
    obtain ⟨q, hq⟩ := looked_realises hb hs h3 hr
    refine ⟨q, [], fun rr rw => ?_⟩
    obtain ⟨panel, a1, a2, a3, a4, a5, a6⟩ := hq rr rw
    have hc : commandFor b.cfg.prefix b.code p b.cfg.elk.areas = .ok none := by
      rcases inbox_of hg p with ⟨c, k1, k2, _⟩ | ⟨_, k1, k2⟩
      · rw [k1, C50_asks_unique hd k2 h4]
      · exact absurd (h5 k1) k2
    have hp := pollInbox_cons (b := { b with panel }) (hs.inbox.trans h2)
    rw [show commandFor _ _ _ _ = _ from hc] at hp
    refine ⟨_, _, (tick_inbox (b := bfed b q [] rr rw) (hs.doing.trans h1) a1).1 _ _ hp, rfl,
      ⟨a2, rfl, hs.doing⟩, a3, a4, a5, ?_⟩
    rw [List.append_nil]; exact a6
  | @takes cx pf _ v' p rest c h1 h2 h3 h4 =>
    obtain ⟨q, hq⟩ := looked_realises hb hs h3 hr
    refine ⟨q, [], fun rr rw => ?_⟩
    obtain ⟨panel, a1, a2, a3, a4, a5, a6⟩ := hq rr rw
    have hc : commandFor b.cfg.prefix b.code p b.cfg.elk.areas = .ok (some c) := by
      rcases inbox_of hg p with ⟨c, k1, k2, _⟩ | ⟨_, k1, k2⟩
      · rw [k1, C50_asks_unique hd k2 h4]
      · cases h4 with
        | arm a lv _ _ hl => exact absurd ((utf8Valid_iff _).mp (level_text hl)) k2
    have hp := pollInbox_cons (b := { b with panel }) (hs.inbox.trans h2)
    rw [show commandFor _ _ _ _ = _ from hc] at hp
    refine ⟨_, _, (tick_inbox (b := bfed b q [] rr rw) (hs.doing.trans h1) a1).1 _ _ hp, rfl,
      ⟨a2, rfl, rfl⟩, a3, a4, a5, ?_⟩
    rw [List.append_nil]; exact a6
  | @idle cx pf _ v' h1 h2 h3 =>
    obtain ⟨q, hq⟩ := look_realises hb hs h3 (.goes rfl hr (by simp) (by simp))
    refine ⟨q, [], fun rr rw => ?_⟩
    obtain ⟨w', panel, a1, a2, a3, a4, a5, a6⟩ := hq rr rw
    have hp : (bfed b q [] rr rw).pollPanel cx = .ok (none, { b with panel }) := by
      unfold Bridge.pollPanel
      rw [show (bfed b q [] rr rw).panel.pollNext cx = _ from a1]
      rfl
    have hi := hs.inbox.trans h2
    refine ⟨_, _, (tick_panel (b := bfed b q [] rr rw) (hs.doing.trans h1) (fun _ => hi)).2.2
      { b with panel } hi hi hp,
      rfl, ⟨a2, hs.inbox, hs.doing⟩, a3, a4, a5, ?_⟩
    rw [List.append_nil]; exact a6
  | @waits cx pf c _ v' h1 h2 =>
    obtain ⟨w, hw⟩ := ready_realises hs.view hb.incoming h2 (fun x h => nomatch h) cx
    refine ⟨[], w, fun rr rw => ?_⟩
    obtain ⟨p', a1, a2⟩ := hw rr rw
    refine ⟨_, { b with panel := p', waiting := .ready c }, ?_, rfl, ⟨a2.looks, hs.inbox, h1.symm⟩,
      a2.incoming.trans hb.incoming, a2.writes, ?_, a2.sent⟩
    · show (bfed b [] w rr rw).tick cx pf = _
      unfold Bridge.tick
      rw [show (bfed b [] w rr rw).waiting = _ from hs.doing.trans h1]
      dsimp only
      rw [show (bfed b [] w rr rw).panel.pollReady cx = _ from a1]
      rfl
    · rw [List.append_nil]; exact a2.received
  | @hands cx pf c h1 h2 =>
    have hi := asked_idle hs.view h2
    refine ⟨[], [], fun rr rw => ?_⟩
    have hsend := startSend_wf (hg.cmd c (hs.doing.trans h1)) (p := fed b.panel [] [] rr rw) hi
    refine ⟨.accepted c, { b with
      panel := { fed b.panel [] [] rr rw with
        conn := { (fed b.panel [] [] rr rw).conn with
          wbuf := (fed b.panel [] [] rr rw).conn.wbuf ++ commandBytes c }
        cmdState := .busy c.intoMsg false none }
      waiting := .flush }, ?_, rfl, ⟨⟨hs.view.unread, hs.view.shown, hs.view.zones, hs.view.held, rfl,
      ?_⟩, hs.inbox, rfl⟩, rfl, rfl, ?_, ?_⟩
    · show (bfed b [] [] rr rw).tick cx pf = _
      unfold Bridge.tick
      rw [show (bfed b [] [] rr rw).waiting = _ from hs.doing.trans h1]
      dsimp only
      have : (bfed b [] [] rr rw).panel.pollReady cx = (.ready (.ok ()), fed b.panel [] [] rr rw) := by
        unfold Panel.pollReady
        rw [show (bfed b [] [] rr rw).panel.cmdState = _ from hi]
        rfl
      rw [this]
      dsimp only
      rw [hsend]
      rfl
    · show b.panel.conn.wbuf ++ _ = _
      rw [hs.view.unsent]
    · simp [fed]
    · simp [fed]
  | @sending cx pf _ v' h1 h2 =>
    obtain ⟨w, hw⟩ := flush_realises hs.view hb.incoming h2 (fun x h => nomatch h) cx
    refine ⟨[], w, fun rr rw => ?_⟩
    obtain ⟨p', a1, a2⟩ := hw rr rw
    refine ⟨_, { b with panel := p', waiting := .flush }, ?_, rfl, ⟨a2.looks, hs.inbox, h1.symm⟩,
      a2.incoming.trans hb.incoming, a2.writes, ?_, a2.sent⟩
    · show (bfed b [] w rr rw).tick cx pf = _
      unfold Bridge.tick
      rw [show (bfed b [] w rr rw).waiting = _ from hs.doing.trans h1]
      dsimp only
      rw [show (bfed b [] w rr rw).panel.pollFlush cx = _ from a1]
      rfl
    · rw [List.append_nil]; exact a2.received
  | @sent cx pf _ v' h1 h2 =>
    obtain ⟨w, hw⟩ := flush_realises hs.view hb.incoming h2 (fun x h => nomatch h) cx
    refine ⟨[], w, fun rr rw => ?_⟩
    obtain ⟨p', a1, a2⟩ := hw rr rw
    refine ⟨_, { b with panel := p', waiting := .select }, ?_, rfl, ⟨a2.looks, hs.inbox, rfl⟩,
      a2.incoming.trans hb.incoming, a2.writes, ?_, a2.sent⟩
    · show (bfed b [] w rr rw).tick cx pf = _
      unfold Bridge.tick
      rw [show (bfed b [] w rr rw).waiting = _ from hs.doing.trans h1]
      dsimp only
      rw [show (bfed b [] w rr rw).panel.pollFlush cx = _ from a1]
      rfl
    · rw [List.append_nil]; exact a2.received

/-- One turn that the machine allows. -/
theorem turn_realises {b : Bridge} {d d' : Desk} {t : Turn} (hb : Still b) (hs : Sits b d)
    (hj : isJob t.op = true) (h : Answered b t d') :
    ∃ ops ts b', tracedBridge ops b = .ok (ts, b') ∧ (jobs ts).map hushed = [hushed t] ∧ Still b' ∧
      Sits b' d' ∧ b'.cfg = b.cfg ∧ b'.code = b.code := by
  obtain ⟨q, w, h⟩ := h
  obtain ⟨ops, ts, rr, rw, h1, h2⟩ := bfeed hb q w
  obtain ⟨o, b', a1, a2, a3, a4, a5, a6, a7⟩ := h rr rw
  obtain ⟨k1, k2, k3, _⟩ := step_toils (bfed_sturdy hb.sturdy q w rr rw) (bfed_sits hs _ _ _ _) a1
  refine ⟨_, _, b', turns_append h1 (turns_cons.mpr ⟨o, b', [], a1,
    (rfl : tracedBridge [] _ = _), rfl⟩), ?_, ⟨k1, a4, a5⟩, a3,
    k2, k3⟩
  rw [jobs_append, h2, List.nil_append, ← a2]
  have e1 : b'.panel.conn.sock.received.drop (bfed b q w rr rw).panel.conn.sock.received.length = t.rd := by
    rw [a6]; exact List.drop_left
  have e2 : b'.panel.conn.sock.sent.drop (bfed b q w rr rw).panel.conn.sock.sent.length = t.wr := by
    rw [a7]; exact List.drop_left
  rw [e1, e2, jobs, List.filter_cons_of_pos (by exact hj)]
  rfl

theorem traced_of_toils {l : List Turn} : ∀ {b : Bridge} {d d' : Desk}, Still b → Sits b d →
    MapCfg b.cfg → DistinctNames b.cfg → Toils b.cfg b.code d l d' →
    ∃ ops ts b', tracedBridge ops b = .ok (ts, b') ∧ (jobs ts).map hushed = l.map hushed ∧ Still b' ∧
      Sits b' d' ∧ b'.cfg = b.cfg := by
  induction l with
  | nil =>
    intro b d d' hb hs hm hd h
    cases h
    exact ⟨[], [], b, rfl, rfl, hb, hs, rfl⟩
  | cons t l ih =>
    intro b d d' hb hs hm hd h
    cases h with
    | cons hj h1 hr h2 =>
      obtain ⟨ops, ts, b1, a1, a2, a3, a4, a5, a6⟩ := turn_realises hb hs hj
        (serves_answered hb hs hm hd hj h1 hr)
      rw [← a5] at hm hd
      rw [← a5, ← a6] at h2
      obtain ⟨ops', ts', b', c1, c2, c3, c4, c5⟩ := ih a3 a4 hm hd h2
      refine ⟨_, _, b', turns_append a1 c1, ?_, c3, c4, c5.trans a5⟩
      rw [jobs_append, List.map_append, a2, c2]; rfl

/-- One end that the machine allows. -/
theorem quit_realises {b : Bridge} {d : Desk} {cx : Cx} {pf : Bool} {q : Panic} (hb : Still b)
    (hs : Sits b d) (h : Quits b.cfg d cx pf q) :
    ∃ rs ws, ∀ rr rw, (bfed b rs ws rr rw).step (.tick cx pf) = .error q := by
  cases h with
  | @over io r v' e' h1 h2 h3 h4 h5 =>
    obtain ⟨rs, hq⟩ := look_realises hb hs h3 h5
    refine ⟨rs, [], fun rr rw => ?_⟩
    obtain ⟨w', panel, a1, _⟩ := hq rr rw
    refine (tick_panel (b := bfed b rs [] rr rw) (hs.doing.trans h1)
      (fun h => hs.inbox.trans (h2 h))).2.1 _ ?_
    unfold Bridge.pollPanel
    rw [show (bfed b rs [] rr rw).panel.pollNext cx = _ from a1]
    match r, h4 with
    | none, _ => rfl
    | some (.error e), _ => rfl
    | some (.ok ev), h4 => exact absurd rfl (h4 ev)
  | @report io ev r v' h1 h2 h3 h4 h5 =>
    obtain ⟨rs, hq⟩ := look_realises hb hs h3 (.goes rfl h5 (by simp) (by simp))
    refine ⟨rs, [], fun rr rw => ?_⟩
    obtain ⟨w', panel, a1, a2, _⟩ := hq rr rw
    have a1 : (bfed b rs [] rr rw).panel.pollNext cx = _ := a1
    refine (tick_panel (b := bfed b rs [] rr rw) (hs.doing.trans h1)
      (fun h => hs.inbox.trans (h2 h))).2.1 _ ?_
    rw [pollPanel_told a1]
    rcases publishEvent_iff (bfed_sturdy hb.sturdy rs [] rr rw).good a1 with
      ⟨_, _, ho⟩ | ⟨hz, _⟩
    · rw [ho]; rfl
    · exact absurd h4 (hz r)
  | @garbage io v' p rest h1 h2 h3 h4 h5 h6 =>
    obtain ⟨rs, hq⟩ := looked_realises hb hs h3 h6
    refine ⟨rs, [], fun rr rw => ?_⟩
    obtain ⟨panel, a1, _⟩ := hq rr rw
    refine (tick_inbox (b := bfed b rs [] rr rw) (hs.doing.trans h1) a1).2 _ ?_
    have hc : commandFor b.cfg.prefix b.code p b.cfg.elk.areas = .error .expect := by
      rcases commandFor_cases (pre := b.cfg.prefix) (code := b.code) (p := p)
        hb.sturdy.good.usable.areas with ⟨_, k⟩ | ⟨a, ha, ht, ⟨_, k⟩ | ⟨hu, _⟩ | ⟨lv, hl, _⟩⟩
      · obtain ⟨a, ha, ht⟩ := h4
        exact absurd ht (k a ha)
      · exact k
      · exact absurd ((utf8Valid_iff _).mp hu) h5
      · exact absurd ((utf8Valid_iff _).mp (level_text hl)) h5
    rw [pollInbox_cons (b := { b with panel }) (hs.inbox.trans h2), show commandFor _ _ _ _ = _ from hc]
    rfl
  | @unready c io e v' h1 h2 h3 =>
    obtain ⟨ws, hw⟩ := ready_realises hs.view hb.incoming h2 h3 cx
    refine ⟨[], ws, fun rr rw => ?_⟩
    obtain ⟨p', a1, _⟩ := hw rr rw
    show (bfed b [] ws rr rw).tick cx pf = _
    unfold Bridge.tick
    rw [show (bfed b [] ws rr rw).waiting = _ from hs.doing.trans h1]
    dsimp only
    rw [show (bfed b [] ws rr rw).panel.pollReady cx = _ from a1]
  | @unsent io e v' h1 h2 h3 =>
    obtain ⟨ws, hw⟩ := flush_realises hs.view hb.incoming h2 h3 cx
    refine ⟨[], ws, fun rr rw => ?_⟩
    obtain ⟨p', a1, _⟩ := hw rr rw
    show (bfed b [] ws rr rw).tick cx pf = _
    unfold Bridge.tick
    rw [show (bfed b [] ws rr rw).waiting = _ from hs.doing.trans h1]
    dsimp only
    rw [show (bfed b [] ws rr rw).panel.pollFlush cx = _ from a1]

/-! ## The properties -/

theorem sits_one {b : Bridge} {d d' : Desk} (h : Sits b d) (h' : Sits b d') : d = d' := by
  obtain ⟨v, i, w⟩ := d
  obtain ⟨v', i', w'⟩ := d'
  obtain rfl : v = v' := looks_one h.view h'.view
  obtain rfl : i = i' := h.inbox.symm.trans h'.inbox
  obtain rfl : w = w' := h.doing.symm.trans h'.doing
  rfl

/-- A bridge that has just come to its loop. -/
theorem start_still {cfg : Cfg} {p0 : Panel} (hc : Connected p0) (hw : WfView p0)
    (he : p0.conn.rd.hasErrored = false) (ho : p0.conn.rd.eof = false)
    (hi : p0.conn.sock.incoming = []) (hq : p0.conn.sock.writes = []) {b0 : Bridge}
    (hs : Bridge.start cfg p0 = .ok b0) {v0 : View} (hl : Looks p0 v0) :
    Still b0 ∧ Sits b0 ⟨v0, [], .select⟩ ∧ b0.cfg = cfg ∧
      ArmCode.tryFromNum cfg.elk.code = .ok b0.code := by
  obtain ⟨v, h1, h2, _⟩ := C124_opens hc hw hs
  obtain rfl := looks_one hl h1
  have hg := start_good_bridge hc hw hs
  obtain ⟨_, code, hcode, rfl⟩ := (start_iff h1.shown h1.zones (hw _ h1.zones)).mp hs
  exact ⟨⟨⟨hg, hg.good.rd, he, ho⟩, hi, hq⟩, h2, rfl, hcode⟩

/-- **C139** Exactly the histories of the reference machine, with the rules of Spec/ExactDesk.lean,
are histories of the bridge.  A history is the messages delivered and the polls in their order, the
bytes that each read from and wrote to the panel, and what was observed of each, which includes all
that is published; where the bridge is at the end is part of it. -/
theorem C139_exact {cfg : Cfg} (hm : MapCfg cfg) (hd : DistinctNames cfg) {p0 : Panel}
    (hc : Connected p0) (hw : WfView p0) (he : p0.conn.rd.hasErrored = false)
    (ho : p0.conn.rd.eof = false) (hi : p0.conn.sock.incoming = []) (hq : p0.conn.sock.writes = [])
    {b0 : Bridge} (hs : Bridge.start cfg p0 = .ok b0) {v0 : View} (hl : Looks p0 v0) {code : ArmCode}
    (hcode : ArmCode.tryFromNum cfg.elk.code = .ok code) {d : Desk} {h : List Turn} :
    (∃ ops ts b, tracedBridge ops b0 = .ok (ts, b) ∧ Sits b d ∧ (jobs ts).map hushed = h) ↔
    (∃ l, Toils cfg code ⟨v0, [], .select⟩ l d ∧ l.map hushed = h) := by
  obtain ⟨a1, a2, rfl, a4⟩ := start_still hc hw he ho hi hq hs hl
  rw [a4] at hcode
  cases hcode
  constructor
  · rintro ⟨ops, ts, b, h1, h2, h3⟩
    obtain ⟨_, _, _, d', k1, k2⟩ := toils_of_traced a1.sturdy a2 h1
    obtain rfl := sits_one h2 k1
    exact ⟨_, k2, h3⟩
  · rintro ⟨l, h1, h2⟩
    obtain ⟨ops, ts, b, k1, k2, _, k4, _⟩ := traced_of_toils a1 a2 hm hd h1
    exact ⟨ops, ts, b, k1, k4, k2.trans h2⟩

/-- **C139** And exactly where the machine ends, the bridge can end, in that way: after such a
history, polling it panics. -/
theorem C139_ends {cfg : Cfg} (hm : MapCfg cfg) (hd : DistinctNames cfg) {p0 : Panel}
    (hc : Connected p0) (hw : WfView p0) (he : p0.conn.rd.hasErrored = false)
    (ho : p0.conn.rd.eof = false) (hi : p0.conn.sock.incoming = []) (hq : p0.conn.sock.writes = [])
    {b0 : Bridge} (hs : Bridge.start cfg p0 = .ok b0) {v0 : View} (hl : Looks p0 v0) {code : ArmCode}
    (hcode : ArmCode.tryFromNum cfg.elk.code = .ok code) {h : List Turn} {op : BOp} {q : Panic} :
    (∃ ops ts b, tracedBridge ops b0 = .ok (ts, b) ∧ (jobs ts).map hushed = h ∧
      b.step op = .error q) ↔
    (∃ l d cx pf, Toils cfg code ⟨v0, [], .select⟩ l d ∧ l.map hushed = h ∧ op = .tick cx pf ∧
      Quits cfg d cx pf q) := by
  obtain ⟨a1, a2, rfl, a4⟩ := start_still hc hw he ho hi hq hs hl
  rw [a4] at hcode
  cases hcode
  constructor
  · rintro ⟨ops, ts, b, h1, h2, h3⟩
    obtain ⟨g, e, _, d, k1, k2⟩ := toils_of_traced a1.sturdy a2 h1
    obtain ⟨cx, pf, rfl, k3⟩ := step_quits g k1 h3
    rw [e] at k3
    exact ⟨_, d, cx, pf, k2, h2, rfl, k3⟩
  · rintro ⟨l, d, cx, pf, h1, h2, rfl, h3⟩
    obtain ⟨ops, ts, b, k1, k2, k3, k4, k5⟩ := traced_of_toils a1 a2 hm hd h1
    rw [← k5] at h3
    obtain ⟨rs, ws, hx⟩ := quit_realises k3 k4 h3
    obtain ⟨ops', ts', rr, rw, m1, m2⟩ := bfeed k3 rs ws
    refine ⟨_, _, _, turns_append k1 m1, ?_, hx rr rw⟩
    rw [jobs_append, m2, List.append_nil]
    exact k2.trans h2

/-- Non-vacuity: with a message on a topic for commands that is not text the machine ends; so there
is a run of the bridge that does. -/
example : ∃ b0 ops ts b, Bridge.start sampleCfg (samplePanel []) = .ok b0 ∧
    tracedBridge ops b0 = .ok (ts, b) ∧
    (jobs ts).map hushed =
      [⟨.deliver ⟨bs "elkm1/42/area/home/ha_command", [255]⟩, [], [], .env []⟩] ∧
    b.step (.tick ⟨1, 0, 0⟩ false) = .error .expect := by
  obtain ⟨b0, hs, _⟩ := of_holds (x := Bridge.start sampleCfg (samplePanel [])) (f := fun _ => true)
    (by decide +kernel)
  have hc := samplePanel_connected []
  obtain ⟨v0, hl⟩ := looks_of_good (connected_good hc)
  obtain ⟨_, _, _, hcode⟩ := start_still hc (samplePanel_view []) rfl rfl rfl rfl hs hl
  obtain ⟨ops, ts, b, h1, h2, h3⟩ := (C139_ends sampleCfg_map sampleCfg_distinct hc (samplePanel_view [])
    rfl rfl rfl rfl hs hl hcode (op := .tick ⟨1, 0, 0⟩ false) (q := .expect)
    (h := [⟨.deliver ⟨bs "elkm1/42/area/home/ha_command", [255]⟩, [], [], .env []⟩])).mpr
    ⟨[⟨.deliver ⟨bs "elkm1/42/area/home/ha_command", [255]⟩, [], [], .env []⟩], _, _, _,
      .cons rfl .deliver (.inl rfl) .nil, rfl, rfl,
      .garbage (p := ⟨bs "elkm1/42/area/home/ha_command", [255]⟩) (rest := []) (io := []) rfl rfl .no
        ⟨_, List.mem_cons_self .., by decide +kernel⟩
        (fun h => absurd ((utf8Valid_iff _).mpr h) (by decide +kernel)) (.inl rfl)⟩
  exact ⟨b0, ops, ts, b, hs, h1, h2, h3⟩

/-- Non-vacuity: what is published and sent shows in a history. -/
example : ∃ x, (Bridge.start sampleCfg (samplePanel []) >>= fun b =>
      tracedBridge [.arrive (.data (msgBytes (.zoneChange ⟨⟨1⟩, ⟨9⟩⟩))), .tick ⟨1, 0, 0⟩ false,
        .deliver ⟨bs "elkm1/42/area/home/ha_command", bs "ARM_AWAY"⟩, .tick ⟨1, 0, 0⟩ true,
        .tick ⟨1, 0, 0⟩ true, .writable (.accept 100), .tick ⟨1, 0, 0⟩ true] b) = .ok x ∧
    decide ((jobs x.1).length = 5 ∧ (jobs x.1).flatMap Turn.wr = bs "0Da11001234003F\r\n" ∧
      (jobs x.1).flatMap Turn.rd = msgBytes (.zoneChange ⟨⟨1⟩, ⟨9⟩⟩)) = true :=
  of_holds (by decide +kernel)

end Elk.Props
