import Verif.Spec.Stuck
import Verif.Lemmas.Main
import Verif.Props.Main
import Verif.Props.Secret
/-!
# C146: a bridge that is stuck looks alive
-/

namespace Elk.Props
open Elk Spec

theorem frozen_refl (b : Bridge) : Frozen [] [] b b :=
  ⟨rfl, rfl, rfl, rfl, rfl, rfl, rfl, rfl, rfl, (List.append_nil _).symm, rfl,
    (List.append_nil _).symm⟩

theorem frozen_trans {n1 n2 : List ReadItem} {m1 m2 : List Publish} {b b1 b2 : Bridge}
    (h : Frozen n1 m1 b b1) (k : Frozen n2 m2 b1 b2) : Frozen (n1 ++ n2) (m1 ++ m2) b b2 :=
  ⟨k.waiting.trans h.waiting, k.request.trans h.request, k.log.trans h.log, k.cfg.trans h.cfg,
    k.code.trans h.code, k.state.trans h.state, k.pending.trans h.pending,
    k.unread.trans h.unread, k.received.trans h.received,
    by rw [k.incoming, h.incoming, List.append_assoc], k.sent.trans h.sent,
    by rw [k.inbox, h.inbox, List.append_assoc]⟩

theorem frozen_jammed {n m} {b b' : Bridge} {c : Command} (h : Frozen n m b b')
    (hj : Jammed b c) : Jammed b' c := by
  obtain ⟨hw, r, hr⟩ := hj
  exact ⟨h.waiting.trans hw, r, h.request.trans hr⟩

/-- A poll of a sink that awaits a reply, with nothing left to write. -/
theorem ready_frozen {p : Panel} {r : Message} (cx : Cx) (ho : outstanding p.cmdState = some r)
    (he : p.conn.wbuf = []) : ∃ p', p.pollReady cx = (.pending, p') ∧
      outstanding p'.cmdState = some r ∧ p'.state = p.state ∧ p'.pendingArm = p.pendingArm ∧
      p'.conn = p.conn := by
  unfold Panel.pollReady
  cases hc : p.cmdState with
  | idle => rw [hc] at ho; cases ho
  | busy rq f w =>
    rw [hc] at ho
    cases f with
    | true => exact ⟨_, rfl, ho, rfl, rfl, rfl⟩
    | false =>
      have hf : p.conn.pollFlush cx = (.ready (.ok ()), p.conn) := by
        unfold Connection.pollFlush flushLoop
        rw [he]
        simp only [List.length_nil, if_pos]
        cases hp : p.conn with
        | mk sock rd wbuf => rw [hp] at he; dsimp only at he; subst he; rfl
      dsimp only
      rw [hf]
      exact ⟨_, rfl, ho, rfl, rfl, rfl⟩

/-- One step of a bridge that is stuck. -/
theorem stuck_step {b : Bridge} {c : Command} (hg : BGood b) (hj : Jammed b c) (op : BOp) :
    ∃ (o : BObs) (b' : Bridge), b.step op = .ok (o, b') ∧ BGood b' ∧
      Frozen (arrivedAt [op]) (delivered [op]) b b' ∧ o.out = [] ∧
      given [o] = [] ∧ takenUp [o] = [] ∧ handled [o] = [] ∧ published [o] = [] := by
  obtain ⟨hw, r, hr⟩ := hj
  have key : ∃ (o : BObs) (b' : Bridge), b.step op = .ok (o, b') ∧
      Frozen (arrivedAt [op]) (delivered [op]) b b' ∧ o.out = [] ∧
      given [o] = [] ∧ takenUp [o] = [] ∧ handled [o] = [] ∧ published [o] = [] := by
    match op with
    | .arrive x =>
      exact ⟨_, _, rfl, ⟨rfl, rfl, rfl, rfl, rfl, rfl, rfl, rfl, rfl, rfl, rfl,
        (List.append_nil _).symm⟩, rfl, rfl, rfl, rfl, rfl⟩
    | .writable x =>
      exact ⟨_, _, rfl, ⟨rfl, rfl, rfl, rfl, rfl, rfl, rfl, rfl, rfl, (List.append_nil _).symm, rfl,
        (List.append_nil _).symm⟩, rfl, rfl, rfl, rfl, rfl⟩
    | .deliver p =>
      exact ⟨_, _, rfl, ⟨rfl, rfl, rfl, rfl, rfl, rfl, rfl, rfl, rfl, (List.append_nil _).symm, rfl,
        rfl⟩, rfl, rfl, rfl, rfl, rfl⟩
    | .tick cx pf =>
      obtain ⟨p', h1, h2, h3, h4, h5⟩ := ready_frozen cx hr (hg.empty (by rw [hw]; simp))
      refine ⟨.pending, { b with panel := p' }, ?_, ?_, rfl, rfl, rfl, rfl, rfl⟩
      · show b.tick cx pf = _
        unfold Bridge.tick
        rw [hw]
        dsimp only
        rw [h1]
      · refine ⟨rfl, h2.trans hr.symm, rfl, rfl, rfl, h3, h4, ?_, ?_, ?_, ?_,
          (List.append_nil _).symm⟩ <;> dsimp only <;> rw [h5]
        exact (List.append_nil _).symm
  obtain ⟨o, b', h1, h2⟩ := key
  exact ⟨o, b', h1, bcase_good (bstep_cases h1) hg, h2⟩

theorem stuck_run {c : Command} (ops : List BOp) : ∀ {b : Bridge}, BGood b → Jammed b c →
    ∃ obs b', Bridge.run ops b = .ok (obs, b') ∧ Frozen (arrivedAt ops) (delivered ops) b b' ∧
      given obs = [] ∧ takenUp obs = [] ∧ handled obs = [] ∧ published obs = [] := by
  induction ops with
  | nil => intro b _ _; exact ⟨[], b, rfl, frozen_refl b, rfl, rfl, rfl, rfl⟩
  | cons op ops ih =>
    intro b hg hj
    obtain ⟨o, b1, h1, h2, h3, _, k1, k2, k3, k4⟩ := stuck_step hg hj op
    obtain ⟨os, b2, h4, h5, l1, l2, l3, l4⟩ := ih h2 (frozen_jammed h3 hj)
    refine ⟨o :: os, b2, brun_cons.mpr ⟨o, b1, os, h1, h4, rfl⟩, ?_, ?_, ?_, ?_, ?_⟩
    · have := frozen_trans h3 h5
      unfold arrivedAt delivered at *
      rw [← List.filterMap_append, ← List.filterMap_append] at this
      exact this
    · rw [given_cons, k1, l1]; rfl
    · rw [takenUp_cons, k2, l2]; rfl
    · rw [handled_cons, k3, l3]; rfl
    · rw [published_cons, k4, l4]; rfl

/-- **C146** A bridge that has taken up a command while the panel awaits the reply to another does
not end either: whatever the panel's socket gives to read (data, its end, an error), whatever it
would take, whatever the broker delivers and however often the bridge is polled, it goes on without
a panic; it publishes and sends nothing, reads nothing of the connection, and what it knows of the
panel stays as it is.  All that changes is that what arrives is kept: nothing is ever taken from
the socket, and the messages of the broker gather in the channel, which has no bound. -/
theorem C146_stuck {cfg : Cfg} {b : Bridge} {c : Command} (hr : Reached cfg b) (hj : Jammed b c)
    (ops : List BOp) : ∃ obs b', Bridge.run ops b = .ok (obs, b') ∧ Jammed b' c ∧
      Frozen (arrivedAt ops) (delivered ops) b b' ∧
      given obs = [] ∧ takenUp obs = [] ∧ handled obs = [] ∧ published obs = [] := by
  obtain ⟨obs, b', h1, h2, h3⟩ := stuck_run ops (reached_good hr).1 hj
  exact ⟨obs, b', h1, frozen_jammed h2 hj, h2, h3⟩

/-! ## At the broker -/

theorem stuck_site {c : Setup} {cmd : Command} (ops : List SOp) : ∀ {s : Site} {b : Bridge},
    Running s c b → BGood b → Jammed b cmd → Spared ops →
    ∃ b', Running (Site.run ops s) c b' ∧ Frozen (arrivedTo ops) (deliveredTo ops) b b' ∧
      (Site.run ops s).broker ++ (Site.run ops s).queue = s.broker ++ s.queue ∧
      (s.queue = [] → (Site.run ops s).queue = []) := by
  induction ops with
  | nil => intro s b h _ _ _; exact ⟨b, h, frozen_refl b, rfl, id⟩
  | cons op ops ih =>
    intro s b h hg hj hs
    have hs' : Spared ops := ⟨fun h => hs.1 (List.mem_cons_of_mem _ h),
      fun h => hs.2 (List.mem_cons_of_mem _ h)⟩
    have hp : s.prog = some (.running c b) := h
    have key : ∃ b1, Running (s.step op) c b1 ∧ BGood b1 ∧
        Frozen (arrivedTo [op]) (deliveredTo [op]) b b1 ∧
        (s.step op).broker ++ (s.step op).queue = s.broker ++ s.queue ∧
        (s.queue = [] → (s.step op).queue = []) := by
      match op, hs with
      | .launch args file, _ =>
        refine ⟨b, ?_, hg, frozen_refl b, ?_, ?_⟩ <;> simp [Site.step, Running, hp]
      | .prog (.dialed x), _ =>
        refine ⟨b, ?_, hg, frozen_refl b, ?_, ?_⟩ <;> simp [Site.step, Running, hp, Prog.step]
      | .prog (.op op), _ =>
        obtain ⟨o, b1, h1, h2, h3, h4, _⟩ := stuck_step hg hj op
        have e : Prog.step (.running c b) (.op op) = .ok ([], .running c b1) := by
          show (b.step op >>= fun x => (.ok (x.1.out, Prog.running c x.2) : P (List Published × Prog))) = _
          rw [h1]
          show Except.ok (o.out, Prog.running c b1) = _
          rw [h4]
        refine ⟨b1, ?_, h2, ?_, ?_, ?_⟩
        · simp [Site.step, Running, hp, e]
        · cases op <;> exact h3
        · simp [Site.step, hp, e]
        · simp [Site.step, hp, e]
      | .link, _ =>
        refine ⟨b, ?_, hg, frozen_refl b, ?_, ?_⟩ <;> simp [Site.step, Running, hp]
      | .transmit, _ =>
        refine ⟨b, ?_, hg, frozen_refl b, ?_, ?_⟩
        · unfold Running Site.step; dsimp only; split <;> exact hp
        · unfold Site.step
          dsimp only
          split
          · rename_i hq; rw [hq]; simp
          · rfl
        · intro hq
          unfold Site.step
          dsimp only
          split
          · rename_i hq'; rw [hq] at hq'; cases hq'
          · exact hq
      | .unlink, hs => exact absurd List.mem_cons_self hs.1
      | .kill, hs => exact absurd List.mem_cons_self hs.2
    obtain ⟨b1, k1, k2, k3, k4, k5⟩ := key
    obtain ⟨b2, l1, l2, l3, l4⟩ := ih k1 k2 (frozen_jammed k3 hj) hs'
    refine ⟨b2, l1, ?_, l3.trans k4, fun hq => l4 (k5 hq)⟩
    have := frozen_trans k3 l2
    unfold arrivedTo deliveredTo at *
    rw [← List.filterMap_append, ← List.filterMap_append] at this
    exact this

/-- **C146** A bridge that is stuck looks alive: as long as nobody kills the program and its
connection to the broker holds, the program runs on, although its connection to the panel may have
ended or failed, and nobody is told anything.  The broker is given nothing but what was published
before, and from the moment that is transmitted it holds `online` for the bridge, for ever. -/
theorem C146_site {s0 : Site} (h0 : Initial s0) {before : List SOp} {c : Setup} {b : Bridge}
    {cmd : Command} (h : Running (Site.run before s0) c b) (hj : Jammed b cmd) {ops : List SOp}
    (hs : Spared ops) :
    ∃ b', Running (Site.run (before ++ ops) s0) c b' ∧ Jammed b' cmd ∧
      Frozen (arrivedTo ops) (deliveredTo ops) b b' ∧
      (Site.run (before ++ ops) s0).broker ++ (Site.run (before ++ ops) s0).queue =
        (Site.run before s0).broker ++ (Site.run before s0).queue ∧
      ((Site.run (before ++ ops) s0).queue = [] →
        retained (Site.run (before ++ ops) s0).broker (c.cfg.prefix ++ bs "/availability") =
          some (.text (bs "online"))) := by
  have hg := site_run_good (ops := before) (initial_good h0)
  obtain ⟨hre, _⟩ := running_reached hg h
  obtain ⟨b', h1, h2, h3, _⟩ := stuck_site ops h (reached_good hre).1 hj hs
  have e : Site.run (before ++ ops) s0 = Site.run ops (Site.run before s0) := by
    unfold Site.run
    rw [List.foldl_append]
  rw [← e] at h1 h3
  exact ⟨b', h1, frozen_jammed h2 hj, h2, h3, C79_running_online h0 _ h1⟩

/-- **C146** In particular a panel that hangs up is not noticed: of everything published before and
after, a broker to which all of it has been transmitted retains the same. -/
theorem C146_unnoticed {s0 : Site} (h0 : Initial s0) {before : List SOp} {c : Setup} {b : Bridge}
    {cmd : Command} (h : Running (Site.run before s0) c b) (hj : Jammed b cmd)
    (hq : (Site.run before s0).queue = []) {ops : List SOp} (hs : Spared ops) :
    (Site.run (before ++ ops) s0).broker = (Site.run before s0).broker ∧
      retained (Site.run (before ++ ops) s0).broker (c.cfg.prefix ++ bs "/availability") =
        some (.text (bs "online")) := by
  have hg := site_run_good (ops := before) (initial_good h0)
  obtain ⟨hre, _⟩ := running_reached hg h
  obtain ⟨b', h1, _, h3, h4⟩ := stuck_site ops h (reached_good hre).1 hj hs
  have e : Site.run (before ++ ops) s0 = Site.run ops (Site.run before s0) := by
    unfold Site.run
    rw [List.foldl_append]
  have h4 := h4 hq
  rw [← e] at h1 h3 h4
  rw [h4, hq, List.append_nil, List.append_nil] at h3
  exact ⟨h3, C79_running_online h0 _ h1 h4⟩

/-! ## When a bridge gets stuck -/

theorem next_pending_request {p p' : Panel} {cx : Cx} {w : List Waker} (hg : Good p)
    (h : p.pollNext cx = .ok (.pending, w, p')) : p'.cmdState = p.cmdState := by
  obtain ⟨x, new, h1, h2⟩ := pollNext_cases p cx hg.sane.rd hg.sane.arming
  rw [h1] at h
  cases h
  cases h2 <;> rfl

/-- **C146** Exactly when a bridge gets stuck: when it takes up a message that asks for a command
while the panel awaits the reply to another. -/
theorem C146_jams {cfg : Cfg} {b b' : Bridge} (hr : Reached cfg b) (hn : ∀ c, ¬ Jammed b c)
    {op : BOp} {o : BObs} (h : b.step op = .ok (o, b')) {c : Command} :
    Jammed b' c ↔
      (∃ p, o = .taken p (some c)) ∧ ∃ r, outstanding b.panel.cmdState = some r := by
  have hg := (reached_good hr).1
  have hc := bstep_cases h
  cases hc with
  | arrive _ =>
    exact ⟨fun hj => absurd hj (hn c), fun ⟨⟨p, hp⟩, _⟩ => by cases hp⟩
  | writable _ =>
    exact ⟨fun hj => absurd hj (hn c), fun ⟨⟨p, hp⟩, _⟩ => by cases hp⟩
  | deliver _ =>
    exact ⟨fun hj => absurd hj (hn c), fun ⟨⟨p, hp⟩, _⟩ => by cases hp⟩
  | event _ _ _ _ _ _ hw _ _ =>
    exact ⟨fun hj => absurd (hw.symm.trans hj.1) (by simp),
      fun ⟨⟨p, hp⟩, _⟩ => by cases hp⟩
  | ignored _ _ _ _ _ _ _ hw _ _ _ =>
    exact ⟨fun hj => absurd (hw.symm.trans hj.1) (by simp),
      fun ⟨⟨p, hp⟩, _⟩ => by cases hp⟩
  | asked cx pf p inbox ops outs panel c' hw _ hpo _ =>
    have e : panel.cmdState = b.panel.cmdState := by
      cases hpo with
      | no => rfl
      | yes w p' hx => exact next_pending_request hg.good hx
    constructor
    · rintro ⟨h1, r, h2⟩
      cases h1
      exact ⟨⟨p, rfl⟩, r, by rw [← e]; exact h2⟩
    · rintro ⟨⟨q, h1⟩, r, h2⟩
      cases h1
      exact ⟨rfl, r, by show outstanding panel.cmdState = _; rw [e]; exact h2⟩
  | idle _ _ _ _ hw _ _ =>
    exact ⟨fun hj => absurd (hw.symm.trans hj.1) (by simp),
      fun ⟨⟨p, hp⟩, _⟩ => by cases hp⟩
  | notReady cx pf c' panel hw hp =>
    refine ⟨fun hj => ?_, fun ⟨⟨p, hp⟩, _⟩ => by cases hp⟩
    obtain ⟨h1, r, h2⟩ := hj
    have h1 : b.waiting = .ready c := h1
    have h2 : outstanding panel.cmdState = some r := h2
    have hrc := pollReady_cases b.panel cx
    rw [hp] at hrc
    refine absurd ⟨h1, ?_⟩ (hn c)
    cases hrc with
    | wait rq w hq => exact ⟨rq, by rw [hq]; rfl⟩
    | flushed rq w c hq _ => exact ⟨rq, by rw [hq]; rfl⟩
    | blocked rq w c hq _ => exact ⟨rq, by rw [hq]; rfl⟩
  | accepted _ _ _ _ _ _ _ _ =>
    exact ⟨fun hj => (by have := hj.1; cases this), fun ⟨⟨p, hp⟩, _⟩ => by cases hp⟩
  | notFlushed _ _ _ hw _ =>
    exact ⟨fun hj => absurd (hw.symm.trans hj.1) (by simp),
      fun ⟨⟨p, hp⟩, _⟩ => by cases hp⟩
  | sent _ _ _ _ _ =>
    exact ⟨fun hj => (by have := hj.1; cases this), fun ⟨⟨p, hp⟩, _⟩ => by cases hp⟩

/-! ## Witnesses -/

/-- Two commands of the broker, and the first is sent. -/
def sampleTwo : List BOp := [.writable (.accept 100),
  .deliver ⟨bs "elkm1/42/area/home/ha_command", bs "ARM_AWAY"⟩,
  .deliver ⟨bs "elkm1/42/area/home/ha_command", bs "DISARM"⟩,
  .tick ⟨1, 0, 0⟩ false, .tick ⟨1, 0, 0⟩ false, .tick ⟨1, 0, 0⟩ false,
  .arrive (.data (msgBytes sampleIC)), .writable (.accept 100)]

/-- The second command. -/
def sampleSecond : Command := .arm ⟨⟨1⟩, .disarm, ⟨#v[48, 48, 49, 50, 51, 52]⟩⟩

/-- **C146** Whether a bridge gets stuck can be a matter of chance.  Two commands were delivered, the
first was sent, and the panel's reply to it is there to be read.  Both branches of `select!` are
ready.  If it happens to look at the panel first, the second command is sent as well; if it happens
to look at the messages first, the bridge is stuck for ever. -/
theorem C146_chance : ∃ cfg p0 b0 obs b cx c, Connected p0 ∧ WfView p0 ∧ MapCfg cfg ∧
    DistinctNames cfg ∧ Bridge.start cfg p0 = .ok b0 ∧ Bridge.run sampleTwo b0 = .ok (obs, b) ∧
    (∃ o b', b.step (.tick cx false) = .ok (o, b') ∧ Jammed b' c) ∧
    (∃ obs' b', Bridge.run (List.replicate 4 (.tick cx true)) b = .ok (obs', b') ∧
      given obs' = [c] ∧ b'.waiting = .select ∧ (handled obs').length = 1) := by
  have key : holds (Bridge.start sampleCfg (samplePanel []) >>= fun b =>
      Bridge.run sampleTwo b >>= fun x => x.2.step (.tick ⟨1, 0, 0⟩ false) >>= fun y =>
      Bridge.run (List.replicate 4 (.tick ⟨1, 0, 0⟩ true)) x.2 >>= fun z => .ok (b, x, y, z))
      (fun x => decide (x.2.2.1.2.waiting = .ready sampleSecond ∧
        (outstanding x.2.2.1.2.panel.cmdState).isSome = true ∧
        given x.2.2.2.1 = [sampleSecond] ∧ x.2.2.2.2.waiting = .select ∧
        (handled x.2.2.2.1).length = 1)) = true := by
    decide +kernel
  obtain ⟨⟨b0, ⟨obs, b⟩, ⟨o, b1⟩, ⟨obs', b2⟩⟩, h, hd⟩ := of_holds key
  rw [P_bind_ok] at h
  obtain ⟨_, h1, h⟩ := h
  rw [P_bind_ok] at h
  obtain ⟨_, h2, h⟩ := h
  rw [P_bind_ok] at h
  obtain ⟨_, h3, h⟩ := h
  rw [P_bind_ok] at h
  obtain ⟨_, h4, h⟩ := h
  cases h
  obtain ⟨k1, k2, k3, k4, k5⟩ := of_decide_eq_true hd
  exact ⟨sampleCfg, samplePanel [], b0, obs, b, ⟨1, 0, 0⟩, sampleSecond, samplePanel_connected _,
    samplePanel_view _, sampleCfg_map, sampleCfg_distinct, h1, h2,
    ⟨o, b1, h3, k1, Option.isSome_iff_exists.mp k2⟩, obs', b2, h4, k3, k4, k5⟩

/-- Non-vacuity: a program that got stuck, with everything transmitted; then the panel hangs up, the
broker delivers more, and the program is polled. -/
example : ∃ s0 before c b cmd, Initial s0 ∧ Running (Site.run before s0) c b ∧ Jammed b cmd ∧
    (Site.run before s0).queue = [] ∧
    Spared [.prog (.op (.arrive .eof)), .prog (.op (.tick ⟨1, 0, 0⟩ true)), .transmit] := by
  let before : List SOp := sampleLife sampleFile 7 ++
    [.prog (.op (.writable (.accept 100))),
      .prog (.op (.deliver ⟨bs "elkm1/42/area/home/ha_command", bs "ARM_AWAY"⟩)),
      .prog (.op (.deliver ⟨bs "elkm1/42/area/home/ha_command", bs "DISARM"⟩))] ++
    List.replicate 4 (.prog (.op (.tick ⟨1, 0, 0⟩ true)))
  have key : (match (Site.run before sampleSite).prog with
      | some (.running _ b) => decide (b.waiting = .ready sampleSecond ∧
          (outstanding b.panel.cmdState).isSome = true)
      | _ => false) = true ∧ (Site.run before sampleSite).queue.length = 0 := by
    decide +kernel
  obtain ⟨h1, h2⟩ := key
  split at h1
  · rename_i c b hp
    obtain ⟨k1, k2⟩ := of_decide_eq_true h1
    exact ⟨sampleSite, before, c, b, sampleSecond, sampleSite_initial, hp,
      ⟨k1, Option.isSome_iff_exists.mp k2⟩, List.length_eq_zero_iff.mp h2,
      by simp, by simp⟩
  · cases h1

end Elk.Props
