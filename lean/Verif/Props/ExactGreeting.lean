import Verif.Props.Exact
import Verif.Props.Program
import Verif.Spec.ExactGreeting
/-!
# C136: connecting does all that its reference machine allows, and nothing else
-/

namespace Elk.Props
open Elk Spec

/-! ## Histories -/

/-- What a step gained. -/
def actOf (i : Init) (op : InitOp) (o : Obs) (ph : Phase) : Act :=
  ⟨op, gained (·.received) i.panel.conn.sock ph, gained (·.sent) i.panel.conn.sock ph, o⟩

theorem acts_cons {op : InitOp} {ops : List InitOp} {i : Init} {ph2 : Phase} {as : List Act} :
    tracedInit (op :: ops) (.asking i) = .ok (as, ph2) ↔ ∃ o ph1 as', i.step op = .ok (o, ph1) ∧
      tracedInit ops ph1 = .ok (as', ph2) ∧ as = actOf i op o ph1 :: as' := by
  have e : tracedInit (op :: ops) (.asking i) = (i.step op >>= fun x => tracedInit ops x.2 >>= fun y =>
      .ok (actOf i op x.1 x.2 :: y.1, y.2)) := rfl
  rw [e]
  constructor
  · intro h
    cases h1 : i.step op with
    | error e => rw [h1] at h; cases h
    | ok x =>
      obtain ⟨o, p1⟩ := x
      rw [h1] at h
      simp only [bind_ok] at h
      cases h2 : tracedInit ops p1 with
      | error e => rw [h2] at h; cases h
      | ok y =>
        obtain ⟨ds', p3⟩ := y
        rw [h2] at h
        cases h
        exact ⟨o, p1, ds', rfl, h2, rfl⟩
  · rintro ⟨o, p1, ds', h1, h2, rfl⟩
    rw [h1]
    simp only [bind_ok, h2]

theorem acts_append {a b : List InitOp} : ∀ {ph : Phase} {i : Init} {ph2 : Phase} {da db : List Act},
    tracedInit a ph = .ok (da, .asking i) → tracedInit b (.asking i) = .ok (db, ph2) →
    tracedInit (a ++ b) ph = .ok (da ++ db, ph2) := by
  induction a with
  | nil => intro ph i ph2 da db h1 h2; cases h1; exact h2
  | cons op a ih =>
    intro ph i ph2 da db h1 h2
    match ph, h1 with
    | .finished r, h1 => cases h1
    | .asking j, h1 =>
      obtain ⟨o, q, ds, h3, h4, rfl⟩ := acts_cons.mp h1
      exact acts_cons.mpr ⟨o, q, ds ++ db, h3, ih h4 h2, rfl⟩

theorem polls_append (a b : List Act) : polls (a ++ b) = polls a ++ polls b := by
  simp [polls]

theorem traced_run {ops : List InitOp} : ∀ {ph : Phase},
    (tracedInit ops ph).map (fun x => (x.1.map Act.out, x.2)) = Phase.run ops ph := by
  induction ops with
  | nil => intro ph; rfl
  | cons op ops ih =>
    intro ph
    match ph with
    | .finished r => rfl
    | .asking i =>
      have e : tracedInit (op :: ops) (.asking i) = (i.step op >>= fun x => tracedInit ops x.2 >>=
        fun y => .ok (actOf i op x.1 x.2 :: y.1, y.2)) := rfl
      rw [e, phase_cons]
      cases i.step op with
      | error e => rfl
      | ok x =>
        simp only [bind_ok]
        rw [← ih]
        cases tracedInit ops x.2 with
        | error e => rfl
        | ok y => rfl

/-- What the socket gained is what it added. -/
theorem gained_of_adds {i : Init} {ph : Phase} {rd wr : Bytes}
    (h : Adds (sockOf (.asking i)) rd wr (sockOf ph)) (hn : sockOf ph ≠ none) :
    gained (·.received) i.panel.conn.sock ph = rd ∧ gained (·.sent) i.panel.conn.sock ph = wr := by
  unfold gained
  cases hs : sockOf ph with
  | none => exact absurd hs hn
  | some s =>
    obtain ⟨t, ht, h1, h2⟩ := h s hs
    cases ht
    dsimp only
    rw [h1, h2, List.drop_left, List.drop_left]
    exact ⟨rfl, rfl⟩

/-! ## Connecting does what the machine allows -/

theorem unbroken_ear {c : Connection} (h : Unbroken c) :
    earOf c.rd = ⟨false, false⟩ ∧ EofOk c.rd :=
  ⟨by simp [earOf, h.2.1, h.2.2], by intro he; rw [h.2.2] at he; cases he⟩

/-- What a read that found no packet was told. -/
theorem next_ends {c c' : Connection} {cx : Cx} {r : Poll Item} (hu : Unbroken c)
    (h : c.pollNext cx = .ok (r, c')) (hn : ∀ p, r ≠ .ready (some (.ok p))) :
    ∃ io, c'.sock.received = c.sock.received ++ io ∧ Ripe c.rd.buffer io ∧
      Spec.Waits (c.rd.buffer ++ io) ∧ (r = .ready none → c.rd.buffer ++ io = []) ∧
      ∀ e, r = .ready (some (.error e)) → Ceases (c.rd.buffer ++ io) e := by
  obtain ⟨he, hf⟩ := unbroken_ear hu
  obtain ⟨io, h1, h2, _⟩ := conn_hears hu.1 hf h
  obtain ⟨_, _, new, hc, hs⟩ := connNext_spec c cx hu.1
  rw [h] at hc
  cases hc
  have hw : Spec.Waits (c.rd.buffer ++ io) := by
    have := List.append_cancel_left (hs.received.symm.trans h1)
    subst this
    rw [← hs.other hn]
    exact waits_of_dry (conn_dry hu.1 h hn)
  rw [he] at h2
  have over : ∀ io : Bytes, ((⟨false, false⟩ : Ear).after io).over = false := by
    intro io; simp [Ear.after]
  generalize earOf c'.rd = e' at h2
  cases h2 with
  | spent hb => cases hb
  | goes _ hr h3 h4 => exact ⟨io, h1, hr, hw, fun h => absurd h h4, fun e h => absurd h (h3 e)⟩
  | failed _ hr =>
    exact ⟨io, h1, hr, hw, (fun h => nomatch h), fun e h => by cases h; exact .socket⟩
  | cut _ hr h3 _ =>
    exact ⟨io, h1, hr, hw, (fun h => nomatch h), fun e h => by cases h; exact .cut h3⟩
  | ended _ hr h3 =>
    refine ⟨io, h1, hr, hw, fun _ => h3.resolve_right ?_, fun e h => by cases h⟩
    rw [over]; simp

/-- What is read of a packet. -/
theorem next_ripe {c c' : Connection} {cx : Cx} {r : Poll Item} {io : Bytes} (hu : Unbroken c)
    (h : c.pollNext cx = .ok (r, c')) (hr : c'.sock.received = c.sock.received ++ io) :
    Ripe c.rd.buffer io := by
  obtain ⟨he, hf⟩ := unbroken_ear hu
  obtain ⟨io', h1, h2, _⟩ := conn_hears hu.1 hf h
  cases List.append_cancel_left (hr.symm.trans h1)
  rw [he] at h2
  generalize earOf c'.rd = e' at h2
  cases h2 with
  | spent hb => cases hb
  | goes _ hr => exact hr
  | failed _ hr => exact hr
  | cut _ hr => exact hr
  | ended _ hr => exact hr

theorem tick_next {i : Init} {cx : Cx} {o : Obs} {ph : Phase} (hg : InitGood i)
    (ha : i.await = .reply) (ht : i.tick cx = .ok (o, ph)) : ∃ r c,
    i.panel.conn.pollNext cx = .ok (r, c) ∧ (r = .pending → o = .pending) ∧
      (r = .ready none → o = .failed .unexpectedEof) ∧
      (∀ e, r = .ready (some (.error e)) → o = .failed e) ∧
      (∀ pkt, r = .ready (some (.ok pkt)) → ∃ ev, o = .got ev) ∧ Has ph c := by
  obtain ⟨r, c, new, h, hsp⟩ := connNext_spec i.panel.conn cx hg.rd
  refine ⟨r, c, h, ?_⟩
  unfold Init.tick at ht
  rw [ha] at ht
  dsimp only at ht
  rw [h] at ht
  simp only [bind_ok] at ht
  match r, hsp, ht with
  | .pending, _, ht =>
    cases ht
    exact ⟨fun _ => rfl, (fun h => nomatch h), (fun _ h => nomatch h), (fun _ h => nomatch h), rfl⟩
  | .ready none, _, ht =>
    cases ht
    exact ⟨(fun h => nomatch h), fun _ => rfl, (fun _ h => nomatch h), (fun _ h => nomatch h),
      trivial⟩
  | .ready (some (.error e)), _, ht =>
    cases ht
    exact ⟨(fun h => nomatch h), (fun h => nomatch h), (fun _ h => by cases h; rfl),
      (fun _ h => nomatch h), trivial⟩
  | .ready (some (.ok pkt)), hsp, ht =>
    have key : (∃ ev, o = .got ev) ∧ Has ph c := by
      dsimp only at ht
      unfold Init.received at ht
      obtain ⟨⟨ev, w, p1⟩, hi, hic⟩ := interpret_cases { i.panel with conn := c } cx.now pkt
        (parsed_wf (hsp.packet pkt rfl))
      rw [hi] at ht
      simp only [bind_ok] at ht
      have hp : p1.conn = c := interp_conn hic
      split at ht
      · split at ht
        · cases hr : Init.replied p1 i.stage ev.msg with
          | error e => rw [hr] at ht; cases ht
          | ok ph' =>
            rw [hr] at ht
            cases ht
            exact ⟨⟨_, rfl⟩, hp ▸ replied_has hr⟩
        · cases ht; exact ⟨⟨_, rfl⟩, hp⟩
      · cases ht; exact ⟨⟨_, rfl⟩, hp⟩
    exact ⟨(fun h => nomatch h), (fun h => nomatch h), (fun _ h => nomatch h), fun _ _ => key.1,
      key.2⟩

theorem has_sock {ph : Phase} {c : Connection} (h : Has ph c) : ∀ s, sockOf ph = some s →
    s = c.sock := by
  intro s hs
  unfold Has at h
  split at h
  · subst h; cases hs; rfl
  · subst h; cases hs; rfl
  · cases hs

theorem stands_sock {ph : Phase} {x : Outcome} (h : Stands ph x) :
    sockOf ph = none ↔ ∃ e, x = .failed e := by
  cases h <;> simp [sockOf]

/-- One poll. -/
theorem tries_of_tick {i : Init} {cx : Cx} {o : Obs} {ph : Phase} {w : Where} {g : Greet}
    (hg : InitGood i) (hu : Unbroken i.panel.conn) (hs : Stands (.asking i) (.asking w g))
    (ht : i.tick cx = .ok (o, ph)) : ∃ d x, d.op = .tick cx ∧
      Connects w g (.tick cx) d.rd d.wr d.out x ∧ Bears w g d.rd d.wr d.out ∧ Stands ph x ∧
      calm d = calm (actOf i (.tick cx) o ph) := by
  obtain ⟨rd, wr, x, h1, h2, h3⟩ := asks_of_tick hg hs ht
  -- unless it fails
  have fine : (∀ e, x ≠ .failed e) → Bears w g rd wr o → ∃ d x, d.op = .tick cx ∧
      Connects w g (.tick cx) d.rd d.wr d.out x ∧ Bears w g d.rd d.wr d.out ∧ Stands ph x ∧
      calm d = calm (actOf i (.tick cx) o ph) := by
    intro hn hb
    obtain ⟨a, b⟩ := gained_of_adds h3 (fun h => by
      obtain ⟨e, he⟩ := (stands_sock h2).mp h
      exact hn e he)
    refine ⟨⟨.tick cx, rd, wr, o⟩, x, rfl, h1, hb, h2, ?_⟩
    unfold actOf
    rw [a, b]
  have adds : ∀ s, sockOf ph = some s → s.received = i.panel.conn.sock.received ++ rd := by
    intro s hs
    obtain ⟨t, ht, a, b⟩ := h3 s hs
    cases ht
    exact a
  cases hs with
  | toAsk hb hk =>
    cases h1 with
    | ask => exact fine (by simp) trivial
  | sending hb hk =>
    have nf : ∀ e, o = .failed e → x = .failed e := by
      rintro e rfl; cases h1; rfl
    by_cases hf : ∃ e, o = .failed e
    · obtain ⟨e, rfl⟩ := hf
      have hx := nf e rfl
      subst hx
      obtain ⟨rfl⟩ : rd = [] := by cases h1; rfl
      have hfl : (i.panel.conn.pollFlush cx).1 = .ready (.error e) := by
        unfold Init.tick at ht
        rw [hb] at ht
        dsimp only at ht
        generalize i.panel.conn.pollFlush cx = y at ht
        match y, ht with
        | (.pending, c), ht => cases ht
        | (.ready (.error e), c), ht => cases ht; rfl
        | (.ready (.ok ()), c), ht => cases ht
      have hh := conn_halts i.panel.conn cx e hfl
      have hsp := connFlush_spec i.panel.conn cx
      obtain ⟨io, a, b⟩ := writes_of_flush hsp
      rw [hfl, hk.unsent] at a
      refine ⟨⟨.tick cx, [], io, .failed e⟩, .failed e, rfl, .unwritten a, ?_, h2, rfl⟩
      intro e' he
      cases he
      refine ⟨fun h => ?_, hh.2⟩
      dsimp only at h
      have := a.1
      rw [h] at this
      exact hh.1 (List.self_eq_append_right.mp this)
    · exact fine (by rintro e rfl; cases h1; exact hf ⟨_, rfl⟩) (fun e he => absurd ⟨e, he⟩ hf)
  | waiting hb hk =>
    obtain ⟨r, c, hc, r1, r2, r3, r4, hh⟩ := tick_next hg hb ht
    by_cases hf : ∃ e, o = .failed e
    · obtain ⟨e, rfl⟩ := hf
      have hx : x = .failed e := by cases h1 <;> rfl
      subst hx
      have hnp : ∀ p, r ≠ .ready (some (.ok p)) := by
        intro p hp
        obtain ⟨ev, h⟩ := r4 p hp
        cases h
      obtain ⟨io, a, b, hw, k1, k2⟩ := next_ends hu hc hnp
      rw [hk.unread] at b hw k1 k2
      refine ⟨⟨.tick cx, io, [], .failed e⟩, .failed e, rfl, .lost hw, ⟨b, ?_⟩, h2, rfl⟩
      intro e' he
      cases he
      match r, hnp with
      | .pending, _ => cases r1 rfl
      | .ready none, _ =>
        cases r2 rfl
        exact .over (k1 rfl)
      | .ready (some (.error e')), _ => cases r3 e' rfl; exact k2 _ rfl
      | .ready (some (.ok p)), hnp => exact absurd rfl (hnp p)
    · have hn : ∀ e, x ≠ .failed e := by rintro e rfl; cases h1 <;> exact hf ⟨_, rfl⟩
      refine fine hn ⟨?_, fun e he => absurd ⟨e, he⟩ hf⟩
      rw [← hk.unread]
      cases hsk : sockOf ph with
      | none =>
        obtain ⟨e, he⟩ := (stands_sock h2).mp hsk
        exact absurd he (hn e)
      | some s =>
        refine next_ripe hu hc ?_
        rw [← has_sock hh s hsk]
        exact adds s hsk

theorem stands_again {i : Init} {w : Where} {g : Greet} {op : InitOp} {o : Obs} {ph : Phase}
    (hg : InitGood i) (hs : Stands (.asking i) (.asking w g)) (ht : isTick op = false)
    (h : i.step op = .ok (o, ph)) : Stands ph (.asking w g) := by
  obtain ⟨rd, wr, x, a, b, _⟩ := asks_of_step hg hs h
  cases a <;> first | exact b | cases ht

theorem tries_of_traced {ops : List InitOp} : ∀ {ph ph' : Phase} {as : List Act} {x : Outcome},
    PhaseGood ph → SoundPhase ph → Stands ph x → tracedInit ops ph = .ok (as, ph') →
    ∃ l y, Tries x l y ∧ Stands ph' y ∧ l.map calm = (polls as).map calm := by
  induction ops with
  | nil =>
    intro ph ph' as x _ _ hs h
    cases h
    exact ⟨[], x, .nil, hs, rfl⟩
  | cons op ops ih =>
    intro ph ph' as x hg hu hs h
    match ph, hg, hu, hs, h with
    | .finished r, hg, hu, hs, h => cases h; exact ⟨[], x, .nil, hs, rfl⟩
    | .asking i, hg, hu, hs, h =>
      obtain ⟨o, ph1, as', h1, h2, rfl⟩ := acts_cons.mp h
      obtain ⟨w, g, rfl⟩ := stands_asking hs
      have hg1 : PhaseGood ph1 := by
        rcases init_cases hg op with ⟨y, a, b⟩ | ⟨_, _, a, _⟩
        · rw [h1] at a; cases a; exact init_good hg b
        · rw [h1] at a; cases a
      have hu1 := step_sound hu h1
      cases htk : isTick op with
      | false =>
        obtain ⟨l, y, a, b, c⟩ := ih hg1 hu1 (stands_again hg hs htk h1) h2
        refine ⟨l, y, a, b, ?_⟩
        have : polls (actOf i op o ph1 :: as') = polls as' := by simp [polls, actOf, htk]
        rw [this]
        exact c
      | true =>
        match op, htk with
        | .tick cx, _ =>
          obtain ⟨d, x1, a, b, c, e, f⟩ := tries_of_tick hg hu hs h1
          obtain ⟨l, y, a', b', c'⟩ := ih hg1 hu1 e h2
          refine ⟨d :: l, y, .cons a b c a', b', ?_⟩
          have : polls (actOf i (.tick cx) o ph1 :: as') = actOf i (.tick cx) o ph1 :: polls as' := by
            simp [polls, actOf, isTick]
          rw [this, List.map_cons, List.map_cons, f, c']

/-! ## All that the machine allows -/

/-- Connecting with answers of the socket. -/
def fedI (i : Init) (q : List ReadItem) (w : List WriteItem) (rr rw : Option Waker) : Init :=
  { i with panel := fed i.panel q w rr rw }

theorem fedI_good {i : Init} (hg : InitGood i) (q w rr rw) : InitGood (fedI i q w rr rw) :=
  ⟨hg.rd, hg.idle, hg.stage, hg.send, hg.ready, hg.reply, hg.arming, hg.zones, hg.held⟩

theorem fedI_stands {i : Init} {x : Outcome} (h : Stands (.asking i) x) (q w rr rw) :
    Stands (.asking (fedI i q w rr rw)) x := by
  cases h with
  | toAsk hb hk =>
    exact .toAsk (i := fedI i q w rr rw) hb
      ⟨hk.unread, hk.unsent, hk.shown, hk.zones, hk.held, hk.idle, hk.areas, hk.tasks, hk.zoneNames⟩
  | sending hb hk =>
    exact .sending (i := fedI i q w rr rw) hb
      ⟨hk.unread, hk.unsent, hk.shown, hk.zones, hk.held, hk.idle, hk.areas, hk.tasks, hk.zoneNames⟩
  | waiting hb hk =>
    exact .waiting (i := fedI i q w rr rw) hb
      ⟨hk.unread, hk.unsent, hk.shown, hk.zones, hk.held, hk.idle, hk.areas, hk.tasks, hk.zoneNames⟩

theorem feedI_reads (q : List ReadItem) : ∀ i : Init, ∃ ds rr,
    tracedInit (q.map .arrive) (.asking i) = .ok (ds, .asking
      (fedI i (i.panel.conn.sock.incoming ++ q) i.panel.conn.sock.writes rr
        i.panel.conn.sock.writeWaker)) ∧ polls ds = [] := by
  induction q with
  | nil =>
    intro i
    refine ⟨[], i.panel.conn.sock.readWaker, ?_, rfl⟩
    rw [List.append_nil]
    rfl
  | cons r q ih =>
    intro i
    obtain ⟨ds, rr, h, hc⟩ := ih (fedI i (i.panel.conn.sock.incoming ++ [r])
      i.panel.conn.sock.writes none i.panel.conn.sock.writeWaker)
    refine ⟨_, rr, acts_cons.mpr ⟨_, _, ds, rfl, ?_, rfl⟩, by
      simpa [polls, actOf, isTick] using hc⟩
    refine h.trans ?_
    simp [fedI, fed]

theorem feedI_writes (w : List WriteItem) : ∀ i : Init, ∃ ds rw,
    tracedInit (w.map .writable) (.asking i) = .ok (ds, .asking
      (fedI i i.panel.conn.sock.incoming (i.panel.conn.sock.writes ++ w)
        i.panel.conn.sock.readWaker rw)) ∧ polls ds = [] := by
  induction w with
  | nil =>
    intro i
    refine ⟨[], i.panel.conn.sock.writeWaker, ?_, rfl⟩
    rw [List.append_nil]
    rfl
  | cons r w ih =>
    intro i
    obtain ⟨ds, rw, h, hc⟩ := ih (fedI i i.panel.conn.sock.incoming
      (i.panel.conn.sock.writes ++ [r]) i.panel.conn.sock.readWaker none)
    refine ⟨_, rw, acts_cons.mpr ⟨_, _, ds, rfl, ?_, rfl⟩, by
      simpa [polls, actOf, isTick] using hc⟩
    refine h.trans ?_
    simp [fedI, fed]

/-- Connecting with no answers of the socket queued. -/
structure Becalms (i : Init) : Prop where
  good : InitGood i
  sound : Unbroken i.panel.conn
  incoming : i.panel.conn.sock.incoming = []
  writes : i.panel.conn.sock.writes = []

/-- With answers of the socket queued, the next poll is this one. -/
def Readied (i : Init) (cx : Cx) (d : Act) (x : Outcome) : Prop :=
  ∃ ops ds i₁ o ph, tracedInit ops (.asking i) = .ok (ds, .asking i₁) ∧ polls ds = [] ∧
    InitGood i₁ ∧ Unbroken i₁.panel.conn ∧ i₁.tick cx = .ok (o, ph) ∧ Stands ph x ∧
    calm (actOf i₁ (.tick cx) o ph) = calm d ∧
    ∀ s, sockOf ph = some s → s.incoming = [] ∧ s.writes = []

/-- One poll, after answers of the socket. -/
theorem poll_realises {i i₁ : Init} {ops : List InitOp} {ds : List Act} {cx : Cx} {o : Obs}
    {ph : Phase} {d : Act} {x : Outcome} (h1 : tracedInit ops (.asking i) = .ok (ds, .asking i₁))
    (hd : polls ds = []) (hg : InitGood i₁) (hu : Unbroken i₁.panel.conn)
    (ht : i₁.tick cx = .ok (o, ph)) (hs : Stands ph x)
    (hc : calm (actOf i₁ (.tick cx) o ph) = calm d)
    (hq : ∀ s, sockOf ph = some s → s.incoming = [] ∧ s.writes = []) : Readied i cx d x :=
  ⟨ops, ds, i₁, o, ph, h1, hd, hg, hu, ht, hs, hc, hq⟩

theorem readied_realises {i : Init} {cx : Cx} {d : Act} {x : Outcome} (h : Readied i cx d x) :
    ∃ ops as ph, tracedInit ops (.asking i) = .ok (as, ph) ∧ (polls as).map calm = [calm d] ∧
      Stands ph x ∧ ∀ i', ph = .asking i' → Becalms i' := by
  obtain ⟨ops, ds, i₁, o, ph, h1, hd, hg, hu, ht, hs, hc, hq⟩ := h
  have hst : i₁.step (.tick cx) = .ok (o, ph) := ht
  refine ⟨_, _, ph, acts_append h1 (acts_cons.mpr ⟨o, ph, [], hst,
    (by cases ph <;> rfl : tracedInit [] ph = .ok ([], ph)), rfl⟩), ?_, hs, ?_⟩
  · rw [polls_append, hd]
    have : polls [actOf i₁ (.tick cx) o ph] = [actOf i₁ (.tick cx) o ph] := by
      simp [polls, actOf, isTick]
    rw [List.nil_append, this, List.map_singleton, hc]
  · rintro i' rfl
    obtain ⟨a, b⟩ := hq _ rfl
    refine ⟨?_, step_sound hu hst, a, b⟩
    rcases init_cases hg (.tick cx) with ⟨y, e, f⟩ | ⟨_, _, e, _⟩
    · rw [hst] at e; cases e; exact init_good hg f
    · rw [hst] at e; cases e

/-- What a panic while connecting read. -/
theorem breaks_read {i : Init} {cx : Cx} {w : Where} {g : Greet} (hg : InitGood i)
    (hs : Stands (.asking i) (.asking w g)) (ht : TickPanics i cx) :
    ∃ io r c, Breaks w g (.tick cx) io ∧ i.panel.conn.pollNext cx = .ok (r, c) ∧
      c.sock.received = i.panel.conn.sock.received ++ io ∧ i.await = .reply := by
  obtain ⟨c, new, pkt, r, ha, hnx, hn, hp, hr, hl⟩ := ht
  cases hs with
  | toAsk hb => rw [ha] at hb; cases hb
  | sending hb => rw [ha] at hb; cases hb
  | waiting hb hk =>
    have hd := hn.packet pkt rfl
    rw [hk.unread] at hd
    have hv : ValidPacket pkt ∨ ∃ i, pkt = .invalid i :=
      (decode_some_cond hd).imp id fun ⟨i, a, _⟩ => ⟨i, a⟩
    match pkt, hv, hp, hnx with
    | .ascii ⟨body⟩, .inl hv, hp, hnx =>
      exact ⟨new, _, _, .room (C117_decode.mp hd) ((C118_parse hv _).mp hp) hr hl, hnx, hn.received,
        ha⟩

/-- What `poll_next` returns in such an observation. -/
theorem hears_of_bears {g : Greet} {q : Message} {rd wr : Bytes} {cx : Cx} {o : Obs} {x : Outcome}
    (h : Connects (.waiting q) g (.tick cx) rd wr o x) (hb : Bears (.waiting q) g rd wr o) :
    ∃ (r : Poll (Option (Except IoErr Unit))) (e' : Ear),
      Hears ⟨false, false⟩ g.unread rd r e' ∧
      ((r = .ready none ∨ ∃ x, r = .ready (some (.error x))) → Spec.Waits (g.unread ++ rd)) ∧
      (∀ e, o = .failed e → (r = .ready none ∧ e = .unexpectedEof) ∨ r = .ready (some (.error e))) ∧
      ((∀ e, o ≠ .failed e) → r ≠ .ready none ∧ ∀ x, r ≠ .ready (some (.error x))) := by
  obtain ⟨hr, hf⟩ := hb
  have fine : (∀ e, o ≠ .failed e) → ∃ (r : Poll (Option (Except IoErr Unit))) (e' : Ear),
      Hears ⟨false, false⟩ g.unread rd r e' ∧
      ((r = .ready none ∨ ∃ x, r = .ready (some (.error x))) → Spec.Waits (g.unread ++ rd)) ∧
      (∀ e, o = .failed e → (r = .ready none ∧ e = .unexpectedEof) ∨ r = .ready (some (.error e))) ∧
      ((∀ e, o ≠ .failed e) → r ≠ .ready none ∧ ∀ x, r ≠ .ready (some (.error x))) := by
    intro hn
    exact ⟨.pending, _, .goes rfl hr (by simp) (by simp), by simp, fun e h => absurd h (hn e),
      by simp⟩
  have fail : ∀ {e}, o = .failed e → Spec.Waits (g.unread ++ rd) →
      ∃ (r : Poll (Option (Except IoErr Unit))) (e' : Ear),
      Hears ⟨false, false⟩ g.unread rd r e' ∧
      ((r = .ready none ∨ ∃ x, r = .ready (some (.error x))) → Spec.Waits (g.unread ++ rd)) ∧
      (∀ e, o = .failed e → (r = .ready none ∧ e = .unexpectedEof) ∨ r = .ready (some (.error e))) ∧
      ((∀ e, o ≠ .failed e) → r ≠ .ready none ∧ ∀ x, r ≠ .ready (some (.error x))) := by
    rintro e rfl hw
    have hno : ¬ ∀ e', Obs.failed e ≠ .failed e' := fun h => h e rfl
    cases hf e rfl with
    | socket =>
      exact ⟨_, _, .failed rfl hr, fun _ => hw, fun e h => by cases h; exact .inr rfl,
        fun h => absurd h hno⟩
    | cut hne =>
      exact ⟨_, _, .cut rfl hr hne (by simp [Ear.after]), fun _ => hw,
        fun e h => by cases h; exact .inr rfl, fun h => absurd h hno⟩
    | over he =>
      exact ⟨_, _, .ended rfl hr (.inl he), fun _ => hw,
        fun e h => by cases h; exact .inl ⟨rfl, rfl⟩, fun h => absurd h hno⟩
  cases h with
  | quiet hw => exact fine (by simp)
  | ended hw => exact fail rfl hw
  | lost hw => exact fail rfl hw
  | other => exact fine (by simp)
  | reply => exact fine (by simp)
  | last => exact fine (by simp)

theorem waiting_front {g : Greet} {q : Message} {rd wr : Bytes} {cx : Cx} {o : Obs} {x : Outcome}
    (h : Connects (.waiting q) g (.tick cx) rd wr o x) : wr = [] ∧
    ((∃ p rest, Front (g.unread ++ rd) (some p) rest) ∨ Spec.Waits (g.unread ++ rd)) := by
  cases h with
  | quiet hw => exact ⟨rfl, .inr hw⟩
  | ended hw => exact ⟨rfl, .inr hw⟩
  | lost hw => exact ⟨rfl, .inr hw⟩
  | other hf => exact ⟨rfl, .inl ⟨_, _, hf⟩⟩
  | reply hf => exact ⟨rfl, .inl ⟨_, _, hf⟩⟩
  | last hf => exact ⟨rfl, .inl ⟨_, _, hf⟩⟩

/-- A connection that has written. -/
def wrote (c : Connection) (io u : Bytes) (rr rw : Option Waker) : Connection :=
  { c with wbuf := u, sock := { c.sock with
    incoming := [], writes := [], sent := c.sock.sent ++ io, readWaker := rr, writeWaker := rw } }

def wroteI (i : Init) (io u : Bytes) (rr rw : Option Waker) (a : Await) : Init :=
  { i with panel := { i.panel with conn := wrote i.panel.conn io u rr rw }, await := a }

/-- A poll that the machine allows. -/
theorem act_readied {i : Init} {w : Where} {g : Greet} {d : Act} {cx : Cx} {x : Outcome}
    (hc : Becalms i) (hs : Stands (.asking i) (.asking w g)) (hop : d.op = .tick cx)
    (h : Connects w g (.tick cx) d.rd d.wr d.out x) (hb : Bears w g d.rd d.wr d.out) :
    Readied i cx d x := by
  obtain ⟨op, rd, wr, o⟩ := d
  cases hop
  dsimp only at h hb
  match w, hs, h, hb with
  | .toAsk q, hs, h, hb =>
    cases h with
    | ask =>
      cases hs with
      | toAsk ha hk =>
        rcases tick_cases hc.good cx with ⟨⟨o, ph⟩, ht, htc⟩ | ⟨_, _, _, _, _, hr, _⟩
        · obtain ⟨rd, wr, x, h1, h2, h3⟩ := asks_of_tick hc.good (.toAsk ha hk) ht
          cases h1 with
          | ask =>
            refine poll_realises (ops := []) (ds := []) rfl rfl hc.good hc.sound ht h2 ?_ ?_
            · obtain ⟨a, b⟩ := gained_of_adds h3 (fun h => by
                obtain ⟨e, he⟩ := (stands_sock h2).mp h
                cases he)
              unfold actOf
              rw [a, b]
            · cases htc with
              | ask => rintro s h; cases h; exact ⟨hc.incoming, hc.writes⟩
        · rw [ha] at hr; cases hr
  | .sending q, hs, h, hb =>
    have key : ∀ {r u}, Writes g.unsent wr r u → Halts r u → rd = [] → ∃ w, ∀ rr rw, ∃ rw',
        Connection.pollFlush (fedI i [] w rr rw).panel.conn cx =
          (r, wrote i.panel.conn wr u rr rw') := by
      intro r u hw hh hrd
      have hw : Writes i.panel.conn.wbuf wr r u := by
        cases hs with
        | sending _ hk => rw [hk.unsent]; exact hw
      obtain ⟨w, hw⟩ := connFlush_realises hw hh
      exact ⟨w, fun rr rw => hw [] rr rw cx⟩
    cases hs with
    | sending ha hk =>
      cases h with
      | @writing _ _ _ _ u hw =>
        obtain ⟨w, hx⟩ := key hw (by intro x h; cases h) rfl
        obtain ⟨ds, rw, h1, h2⟩ := feedI_writes w i
        rw [hc.incoming, hc.writes, List.nil_append] at h1
        obtain ⟨rw', hx⟩ := hx i.panel.conn.sock.readWaker rw
        have ht : (fedI i [] w i.panel.conn.sock.readWaker rw).tick cx = .ok (.pending, .asking
            (wroteI i wr u i.panel.conn.sock.readWaker rw' .flush)) := by
          unfold Init.tick
          rw [show (fedI i [] w i.panel.conn.sock.readWaker rw).await = .flush from ha]
          dsimp only
          rw [hx]
          rfl
        refine poll_realises h1 h2 (fedI_good hc.good _ _ _ _) hc.sound ht
          (.sending (i := wroteI i wr u i.panel.conn.sock.readWaker rw' .flush) rfl ⟨hk.unread, rfl, hk.shown, hk.zones, hk.held, hk.idle, hk.areas, hk.tasks,
            hk.zoneNames⟩) ?_ ?_
        · simp [actOf, gained, sockOf, fedI, fed, wrote, wroteI]
        · rintro s h; cases h; exact ⟨rfl, rfl⟩
      | @written _ _ _ _ u hw =>
        obtain ⟨w, hx⟩ := key hw (by intro x h; cases h) rfl
        obtain ⟨ds, rw, h1, h2⟩ := feedI_writes w i
        rw [hc.incoming, hc.writes, List.nil_append] at h1
        obtain ⟨rw', hx⟩ := hx i.panel.conn.sock.readWaker rw
        have ht : (fedI i [] w i.panel.conn.sock.readWaker rw).tick cx = .ok (.flushed, .asking
            (wroteI i wr u i.panel.conn.sock.readWaker rw' .reply)) := by
          unfold Init.tick
          rw [show (fedI i [] w i.panel.conn.sock.readWaker rw).await = .flush from ha]
          dsimp only
          rw [hx]
          rfl
        refine poll_realises h1 h2 (fedI_good hc.good _ _ _ _) hc.sound ht
          (.waiting (i := wroteI i wr u i.panel.conn.sock.readWaker rw' .reply) rfl ⟨hk.unread, rfl, hk.shown, hk.zones, hk.held, hk.idle, hk.areas, hk.tasks,
            hk.zoneNames⟩) ?_ ?_
        · simp [actOf, gained, sockOf, fedI, fed, wrote, wroteI]
        · rintro s h; cases h; exact ⟨rfl, rfl⟩
      | @unwritten _ _ _ _ e u hw =>
        obtain ⟨w, hx⟩ := key hw (by
          intro x h
          cases h
          obtain ⟨a, b⟩ := hb e rfl
          refine ⟨fun hu => a ?_, b⟩
          have := hw.1
          rw [hu, List.append_nil] at this
          exact this.symm) rfl
        obtain ⟨ds, rw, h1, h2⟩ := feedI_writes w i
        rw [hc.incoming, hc.writes, List.nil_append] at h1
        obtain ⟨rw', hx⟩ := hx i.panel.conn.sock.readWaker rw
        have ht : (fedI i [] w i.panel.conn.sock.readWaker rw).tick cx =
            .ok (.failed e, .finished (.error e)) := by
          unfold Init.tick
          rw [show (fedI i [] w i.panel.conn.sock.readWaker rw).await = .flush from ha]
          dsimp only
          rw [hx]
        refine poll_realises h1 h2 (fedI_good hc.good _ _ _ _) hc.sound ht .failed rfl ?_
        intro s h; cases h
  | .waiting q, hs, h, hb =>
    obtain ⟨r, e', hh, hwt, hf1, hf2⟩ := hears_of_bears h hb
    obtain ⟨rfl, hfw⟩ := waiting_front h
    obtain ⟨he, hf⟩ := unbroken_ear hc.sound
    have hk : Knows i.panel g ∧ i.await = .reply ∧ q = i.send := by
      cases hs with
      | waiting a b => exact ⟨b, a, rfl⟩
    obtain ⟨hk, ha, rfl⟩ := hk
    obtain ⟨qs, ro, ho, hoi, hog, k1, k2, k3⟩ := loop_realises (f := i.panel.conn.rd) (io := rd)
      (r := r) hc.good.rd hf (by rw [he, hk.unread]; exact hh) (by rw [hk.unread]; exact hfw)
      (by rw [hk.unread]; exact hwt)
    obtain ⟨ds, rr, h1, h2⟩ := feedI_reads qs i
    rw [hc.incoming, hc.writes, List.nil_append] at h1
    generalize hi1 : fedI i qs [] rr i.panel.conn.sock.writeWaker = i₁ at h1
    have hg1 : InitGood i₁ := hi1 ▸ fedI_good hc.good _ _ _ _
    have hs1 : Stands (.asking i₁) (.asking (.waiting i.send) g) := hi1 ▸ fedI_stands hs _ _ _ _
    have hu1 : Unbroken i₁.panel.conn := hi1 ▸ hc.sound
    have ha1 : i₁.await = .reply := hi1 ▸ ha
    obtain ⟨c, hcn, hci, hcr, hcw⟩ := conn_of_loop (c := i₁.panel.conn) (cx := cx) (o := ro)
      (by rw [← hi1]; exact ho)
    have hcw : c.sock.writes = [] := by rw [hcw, ← hi1]; rfl
    rcases tick_cases hg1 cx with ⟨⟨o2, ph⟩, ht, htc⟩ | ⟨_, hp⟩
    · obtain ⟨rd2, wr2, x2, c1, c2, c3⟩ := asks_of_tick hg1 hs1 ht
      obtain ⟨r', c', hcn', r1, r2, r3, r4, hhas⟩ := tick_next hg1 ha1 ht
      rw [hcn] at hcn'
      injection hcn' with hcn'
      injection hcn' with e1 e2
      subst e1 e2
      obtain ⟨rfl, _⟩ := waiting_front c1
      have hq : ∀ s, sockOf ph = some s → s.incoming = [] ∧ s.writes = [] := by
        intro s hsk
        rw [has_sock hhas s hsk]
        exact ⟨hci.trans hoi, hcw⟩
      by_cases hfail : ∃ e, o = .failed e
      · obtain ⟨e, rfl⟩ := hfail
        have ho2 : o2 = .failed e := by
          rcases hf1 e rfl with ⟨a, rfl⟩ | a
          · exact r2 (k1 a)
          · exact r3 e (k2 e a)
        subst ho2
        have hx : x = .failed e := by cases h <;> rfl
        have hx2 : x2 = .failed e := by cases c1 <;> rfl
        subst hx hx2
        exact poll_realises h1 h2 hg1 hu1 ht c2 rfl hq
      · have hno : ∀ e, o ≠ .failed e := fun e h => hfail ⟨e, h⟩
        have ho2 : ∀ e, o2 ≠ .failed e := by
          rcases k3 (hf2 hno) with ⟨pkt, a⟩ | a
          · obtain ⟨ev, b⟩ := r4 pkt a
            subst b; simp
          · cases r1 a; simp
        have hx : ∀ e, x ≠ .failed e := by rintro e rfl; cases h <;> exact hno _ rfl
        have hx2 : ∀ e, x2 ≠ .failed e := by rintro e rfl; cases c1 <;> exact ho2 _ rfl
        have hsk : sockOf ph ≠ none := fun h => by
          obtain ⟨e, he⟩ := (stands_sock c2).mp h
          exact hx2 e he
        have hrd : rd2 = rd := by
          cases hsk' : sockOf ph with
          | none => exact absurd hsk' hsk
          | some s =>
            obtain ⟨t, b1, b2, b3⟩ := c3 s hsk'
            cases b1
            rw [has_sock hhas s hsk', hcr, hog] at b2
            exact (List.append_cancel_left b2).symm
        subst hrd
        have := connects_settled h c1 hx hx2
        subst this
        obtain ⟨a, b⟩ := gained_of_adds c3 hsk
        refine poll_realises h1 h2 hg1 hu1 ht c2 ?_ hq
        unfold actOf
        rw [a, b]
        rcases hfw with ⟨p, rest, hfr⟩ | hw
        · rw [(C123_packet hfr h c1).2.1]
        · have no : ∀ p rest, ¬ Front (g.unread ++ rd2) (some p) rest :=
            fun p rest hf => nomatch (front_one hf (.waits hw)).1
          have pend : ∀ {o x}, Connects (.waiting i.send) g (.tick cx) rd2 [] o x →
              (∀ e, o ≠ .failed e) → o = .pending := by
            intro o x h hn
            cases h with
            | quiet => rfl
            | ended => exact absurd rfl (hn _)
            | lost => exact absurd rfl (hn _)
            | other hf => exact absurd hf (no _ _)
            | reply hf => exact absurd hf (no _ _)
            | last hf => exact absurd hf (no _ _)
          rw [pend h hno, pend c1 ho2]
    · exfalso
      obtain ⟨io, r', c', hbr, hcn', hrv, _⟩ := breaks_read hg1 hs1 hp
      rw [hcn] at hcn'
      injection hcn' with hcn'
      injection hcn' with e1 e2
      subst e2
      rw [hcr, hog] at hrv
      cases List.append_cancel_left hrv
      exact C123_breaks hbr ⟨_, _, _, h⟩

theorem traced_of_tries {l : List Act} : ∀ {i : Init} {w : Where} {g : Greet} {y : Outcome},
    Becalms i → Stands (.asking i) (.asking w g) → Tries (.asking w g) l y →
    ∃ ops as ph, tracedInit ops (.asking i) = .ok (as, ph) ∧ (polls as).map calm = l.map calm ∧
      Stands ph y ∧ ∀ i', ph = .asking i' → Becalms i' := by
  induction l with
  | nil =>
    intro i w g y hc hs h
    cases h
    exact ⟨[], [], .asking i, rfl, rfl, hs, fun i' h => by cases h; exact hc⟩
  | cons d l ih =>
    intro i w g y hc hs h
    cases h with
    | @cons _ _ _ cx x _ _ hop h1 h2 h3 =>
      obtain ⟨ops, as, ph, a, b, c, e⟩ := readied_realises (act_readied hc hs hop h1 h2)
      cases x with
      | asking w' g' =>
        obtain ⟨i', rfl⟩ : ∃ i', ph = .asking i' := by cases c <;> exact ⟨_, rfl⟩
        obtain ⟨ops', as', ph', a', b', c', e'⟩ := ih (e i' rfl) c h3
        refine ⟨_, _, ph', acts_append a a', ?_, c', e'⟩
        rw [polls_append, List.map_append, b, b']
        rfl
      | done g' =>
        cases h3
        exact ⟨ops, as, ph, a, b, c, e⟩
      | failed e' =>
        cases h3
        exact ⟨ops, as, ph, a, b, c, e⟩

/-! ## The theorems -/

theorem tidy_notes {now : Nat} {g g' : Greet} {m : Message} {ch : Option Change}
    (h : Notes now g m ch g') : g'.name = g.name := by
  cases h <;> rfl

theorem tidy_observes {now : Nat} {g g' : Greet} {pkt : Packet} {ev : Event}
    (h : Observes now g pkt ev g') : g'.name = g.name := by
  cases h with
  | message _ h => exact tidy_notes h
  | fault => rfl
  | nothing => rfl

theorem tidy_fills {g g' : Greet} {q m : Message} (h : Fills g q m g')
    (ht : ∀ ty n, (n = 0 ∨ entries ty < n) → g.name ty n = .empty) :
    ∀ ty n, (n = 0 ∨ entries ty < n) → g'.name ty n = .empty := by
  cases h with
  | status => exact ht
  | none => exact ht
  | @named r _ h1 h2 =>
    intro ty n hn
    dsimp only
    rw [if_neg, ht ty n hn]
    rintro ⟨rfl, rfl⟩
    omega

theorem tidy_connects {w : Where} {g : Greet} {op : InitOp} {rd wr : Bytes} {o : Obs} {x : Outcome}
    (h : Connects w g op rd wr o x) (ht : Tidy (.asking w g)) : Tidy x := by
  have ob : ∀ {now rest pkt ev g'}, Observes now { g with unread := rest } pkt ev g' →
      ∀ ty n, (n = 0 ∨ entries ty < n) → g'.name ty n = .empty := by
    intro now rest pkt ev g' h ty n hn
    rw [tidy_observes h]
    exact ht ty n hn
  cases h with
  | arrive => exact ht
  | writable => exact ht
  | ask => exact ht
  | writing => exact ht
  | written => exact ht
  | unwritten => trivial
  | quiet => exact ht
  | ended => trivial
  | lost => trivial
  | other _ h => exact ob h
  | reply _ h _ _ hf => exact tidy_fills hf (ob h)
  | last _ h _ _ hf => exact tidy_fills hf (ob h)

theorem tidy_tries {x y : Outcome} {l : List Act} (h : Tries x l y) (ht : Tidy x) : Tidy y := by
  induction h with
  | nil => exact ht
  | cons _ h1 _ _ ih => exact ih (tidy_connects h1 ht)

theorem knows_one {p : Panel} {g g' : Greet} (h : Knows p g) (h' : Knows p g')
    (ht : ∀ ty n, (n = 0 ∨ entries ty < n) → g.name ty n = .empty)
    (ht' : ∀ ty n, (n = 0 ∨ entries ty < n) → g'.name ty n = .empty) : g = g' := by
  obtain ⟨a, b, c, d, e, f⟩ := g
  obtain ⟨a', b', c', d', e', f'⟩ := g'
  cases h.unread.symm.trans h'.unread
  cases h.unsent.symm.trans h'.unsent
  cases h.shown.symm.trans h'.shown
  cases h.zones.symm.trans h'.zones
  cases h.held.symm.trans h'.held
  have : f = f' := by
    funext ty n
    by_cases hn : n = 0 ∨ entries ty < n
    · exact (ht ty n hn).trans (ht' ty n hn).symm
    · obtain ⟨n, rfl⟩ : ∃ k, n = k + 1 := ⟨n - 1, by omega⟩
      cases ty
      case area =>
        have hn : n < 8 := by simp only [entries] at hn; omega
        exact (h.areas n hn).symm.trans (h'.areas n hn)
      case task =>
        have hn : n < 32 := by simp only [entries] at hn; omega
        exact (h.tasks n hn).symm.trans (h'.tasks n hn)
      case zone =>
        have hn : n < 208 := by simp only [entries] at hn; omega
        exact (h.zoneNames n hn).symm.trans (h'.zoneNames n hn)
      all_goals simp [entries] at hn
  subst this
  rfl

/-- Where connecting is, is settled, but for names of entries that do not exist. -/
theorem stands_one {ph : Phase} {x y : Outcome} (h : Stands ph x) (h' : Stands ph y)
    (ht : Tidy x) (ht' : Tidy y) : x = y := by
  cases h with
  | toAsk a k =>
    cases h' with
    | toAsk b k' => rw [knows_one k k' ht ht']
    | sending b => rw [a] at b; cases b
    | waiting b => rw [a] at b; cases b
  | sending a k =>
    cases h' with
    | toAsk b => rw [a] at b; cases b
    | sending b k' => rw [knows_one k k' ht ht']
    | waiting b => rw [a] at b; cases b
  | waiting a k =>
    cases h' with
    | toAsk b => rw [a] at b; cases b
    | sending b => rw [a] at b; cases b
    | waiting b k' => rw [knows_one k k' ht ht']
  | done k => cases h' with | done k' => rw [knows_one k k' ht ht']
  | failed => cases h'; rfl

theorem fresh_unbroken {c : Connection} (hc : Fresh c) : Unbroken c := by
  unfold Unbroken
  rw [hc.rd]
  exact ⟨fun _ => dry_nil, rfl, rfl⟩

/-- Where `connect` begins. -/
def began (c : Connection) : Init := asking ⟨c, PanelState.default, none, .idle⟩ .arming

theorem start_traced {c : Connection} {ops : List InitOp} :
    (Init.start c >>= tracedInit ops) = tracedInit ops (.asking (began c)) := by
  rw [start_ok]
  rfl

theorem began_becalms {c : Connection} (hc : Fresh c) (hi : c.sock.incoming = [])
    (hw : c.sock.writes = []) : Becalms (began c) :=
  ⟨start_good hc, fresh_unbroken hc, hi, hw⟩

/-- A reply that there is no room for. -/
theorem break_realises {i : Init} {w : Where} {g : Greet} {cx : Cx} {io : Bytes} (hbc : Becalms i)
    (d : Stands (.asking i) (.asking w g)) (hb : Breaks w g (.tick cx) io) (hr : Ripe g.unread io) :
    ∃ ops ds i₁, tracedInit ops (.asking i) = .ok (ds, .asking i₁) ∧ polls ds = [] ∧
      i₁.step (.tick cx) = .error .index := by
  cases hb with
  | @room q _ _ _ rest body rr hf hs hre hl =>
    obtain ⟨hk, ha, rfl⟩ : Knows i.panel g ∧ i.await = .reply ∧ q = i.send := by
      cases d with
      | waiting x y => exact ⟨y, x, rfl⟩
    obtain ⟨he, hff⟩ := unbroken_ear hbc.sound
    obtain ⟨qs, ro, ho, hoi, hog, _, _, k3⟩ := loop_realises (f := i.panel.conn.rd) (io := io)
      (r := (.pending : Poll (Option (Except IoErr Unit)))) hbc.good.rd hff
      (.goes (by rw [he]) (by rw [hk.unread]; exact hr) (by simp) (by simp))
      (by rw [hk.unread]; exact .inl ⟨_, _, hf⟩) (by simp)
    obtain ⟨ds, wk, f1, f2⟩ := feedI_reads qs i
    rw [hbc.incoming, hbc.writes, List.nil_append] at f1
    generalize hi1 : fedI i qs [] wk i.panel.conn.sock.writeWaker = i₁ at f1
    have hg1 : InitGood i₁ := hi1 ▸ fedI_good hbc.good _ _ _ _
    have hs1 : Stands (.asking i₁) (.asking (.waiting i.send) g) := hi1 ▸ fedI_stands d _ _ _ _
    have ha1 : i₁.await = .reply := hi1 ▸ ha
    have hsend : i₁.send = i.send := hi1 ▸ rfl
    obtain ⟨c', hcn, hci, hcr, hcw⟩ := conn_of_loop (c := i₁.panel.conn) (cx := cx) (o := ro)
      (by rw [← hi1]; exact ho)
    refine ⟨qs.map .arrive, _, i₁, f1, f2, ?_⟩
    rcases tick_cases hg1 cx with ⟨⟨o, ph⟩, ht, _⟩ | ⟨ht, _⟩
    · exfalso
      obtain ⟨rd2, wr2, x2, c1, c2, c3⟩ := asks_of_tick hg1 hs1 ht
      obtain ⟨r', c'', hcn', r1, r2, r3, r4, hhas⟩ := tick_next hg1 ha1 ht
      rw [hcn] at hcn'
      injection hcn' with hcn'
      injection hcn' with e1 e2
      subst e1 e2
      have ho2 : ∀ e, o ≠ .failed e := by
        rcases k3 (by simp) with ⟨pkt, x⟩ | x
        · obtain ⟨ev, y⟩ := r4 pkt x
          subst y; simp
        · cases r1 x; simp
      have hx2 : ∀ e, x2 ≠ .failed e := by rintro e rfl; cases c1 <;> exact ho2 _ rfl
      cases hsk : sockOf ph with
      | none =>
        obtain ⟨e, hee⟩ := (stands_sock c2).mp hsk
        exact hx2 e hee
      | some s =>
        obtain ⟨t, b1, b2, b3⟩ := c3 s hsk
        cases b1
        rw [has_sock hhas s hsk, hcr, hog] at b2
        cases List.append_cancel_left b2
        exact C123_breaks (.room hf hs hre hl) ⟨_, _, _, c1⟩
    · exact ht

/-- **C136** Exactly the histories of the reference machine of `connect` (`C123`), with the rules of
Spec/ExactGreeting.lean, are histories of `connect`: on a connection that gives what answers it
likes.  A history is the polls with their times, the bytes that each read and wrote unless it failed,
and what was asked or seen; where connecting is, what is known, and with
what error it failed are part of it. -/
theorem C136_exact {c : Connection} (hc : Fresh c) (hi : c.sock.incoming = [])
    (hw : c.sock.writes = []) {y : Outcome} {h : List Act} :
    (∃ ops as ph, (Init.start c >>= tracedInit ops) = .ok (as, ph) ∧ Stands ph y ∧ Tidy y ∧
      (polls as).map calm = h) ↔
    (∃ l, Tries (.asking (.toAsk .armingStatusRequest) .new) l y ∧ l.map calm = h) := by
  have ht0 : Tidy (.asking (.toAsk .armingStatusRequest) .new) := fun _ _ _ => rfl
  constructor
  · rintro ⟨ops, as, ph, h1, h2, h3, h4⟩
    rw [start_traced] at h1
    obtain ⟨l, y', a, b, d⟩ := tries_of_traced (ph := .asking _) (start_good hc)
      (fresh_unbroken hc) (start_stands hc) h1
    have := stands_one b h2 (tidy_tries a ht0) h3
    subst this
    exact ⟨l, a, d.trans h4⟩
  · rintro ⟨l, h1, h2⟩
    obtain ⟨ops, as, ph, a, b, d, _⟩ := traced_of_tries (began_becalms hc hi hw)
      (start_stands hc) h1
    exact ⟨ops, as, ph, by rw [start_traced]; exact a, d, tidy_tries h1 ht0, b.trans h2⟩

/-- **C136** The history is that of `Init.connect`. -/
theorem C136_traced (c : Connection) (ops : List InitOp) :
    (Init.start c >>= tracedInit ops).map (fun x => (x.1.map Act.out, x.2)) =
      Init.connect c ops := by
  rw [start_traced, connect_run, traced_run]
  rfl

/-- **C136** And exactly where the machine has no room for a name that it may read, `connect`
panics, with these histories. -/
theorem C136_panics {c : Connection} (hc : Fresh c) (hi : c.sock.incoming = [])
    (hw : c.sock.writes = []) {h : List Act} {cx : Cx} {p : Panic} :
    (∃ ops as i, (Init.start c >>= tracedInit ops) = .ok (as, .asking i) ∧
      (polls as).map calm = h ∧ i.step (.tick cx) = .error p) ↔
    (p = .index ∧ ∃ l w g io, Tries (.asking (.toAsk .armingStatusRequest) .new) l (.asking w g) ∧
      l.map calm = h ∧ Breaks w g (.tick cx) io ∧ Ripe g.unread io) := by
  constructor
  · rintro ⟨ops, as, i, h1, h2, h3⟩
    have hr : Phase.run ops (.asking (began c)) = .ok (as.map Act.out, .asking i) := by
      rw [← traced_run, ← start_traced, h1]
      rfl
    have hg : PhaseGood (.asking i) := (connect_hist hc (by rw [connect_run]; exact hr)).good
    have hg : InitGood i := hg
    have hu : Unbroken i.panel.conn :=
      run_sound (ph := .asking (began c)) (fresh_unbroken hc) hr
    rw [start_traced] at h1
    obtain ⟨l, y', a, b, d⟩ := tries_of_traced (ph := .asking _) (start_good hc)
      (fresh_unbroken hc) (start_stands hc) h1
    obtain ⟨w, g, rfl⟩ := stands_asking b
    rcases init_cases hg (.tick cx) with ⟨x, e, _⟩ | ⟨_, hcx, e, ht⟩
    · rw [h3] at e; cases e
    · cases hcx
      rw [h3] at e
      cases e
      obtain ⟨io, r, c', hb, hn, hrv, ha⟩ := breaks_read hg b ht
      refine ⟨rfl, l, w, g, io, a, d.trans h2, hb, ?_⟩
      have hk : Knows i.panel g := by cases b <;> assumption
      rw [← hk.unread]
      exact next_ripe hu hn hrv
  · rintro ⟨rfl, l, w, g, io, h1, h2, hb, hr⟩
    obtain ⟨ops, as, ph, a, b, d, e⟩ := traced_of_tries (began_becalms hc hi hw)
      (start_stands hc) h1
    obtain ⟨i, rfl⟩ : ∃ i', ph = .asking i' := by cases d <;> exact ⟨_, rfl⟩
    have hbc := e i rfl
    obtain ⟨ops', ds, i₁, f1, f2, f3⟩ := break_realises hbc d hb hr
    refine ⟨_, _, i₁, by rw [start_traced]; exact acts_append a f1, ?_, f3⟩
    rw [polls_append, f2, List.append_nil]
    exact b.trans h2

/-- Not vacuous: there are such connections, and the machine begins and may fail. -/
example : ∃ ops as, (Init.start {} >>= tracedInit ops) =
    .ok (as, .finished (.error .writeZero)) := by
  obtain ⟨ops, as, ph, h1, h2, _⟩ := (C136_exact (c := {}) ⟨rfl, rfl, rfl, rfl⟩ rfl rfl
    (y := .failed .writeZero) (h := _)).mpr ⟨[⟨.tick ⟨0, 0, 0⟩, [], [], .asked .armingStatusRequest⟩,
      ⟨.tick ⟨0, 0, 0⟩, [], [], .failed .writeZero⟩],
      .cons rfl .ask trivial (.cons rfl (.unwritten (u := asciiFrame (sentText .armingStatusRequest))
        ⟨rfl, (fun h => nomatch h), (fun h => nomatch h)⟩) (by
          intro e he
          cases he
          exact ⟨by simp [Greet.new, asciiFrame], .inl rfl⟩) .nil), rfl⟩
  cases h2
  exact ⟨ops, as, h1⟩

end Elk.Props
