import Verif.Props.Watching
import Verif.Spec.ProgLog
/-!
# All that the bridge program logs (C135)
-/

namespace Elk.Props
open Elk.Spec

/-- Invariant of the program, for its log. -/
def Loggable : Prog → Prop
  | .dialing _ => True
  | .connecting _ i => InitGood i ∧ WfZones i.panel.state
  | .running _ b => Showable b

/-- What one operation comes to, and what it logs. -/
def Tells (cfg : Cfg) (p : Prog) (x : Point) (op : POp)
    (f : (Callsite → Bool) → P (List Record × List Published × Prog)) :
    P (List Published × Prog) → Prop
  | .ok (out, p') => ∃ rd wr j x', (∀ on, f on = .ok (enabled on j, out, p')) ∧
      Recounts cfg x op rd wr out j x' ∧ Being p' x' ∧ Loggable p' ∧
      (lineOf p').1 = (lineOf p).1 ++ rd ∧ (lineOf p').2 = (lineOf p).2 ++ wr
  | .error e => (∀ on, f on = .error e) ∧ ∃ rd wr, Perishes cfg x op rd wr

theorem tells_connecting {s : Setup} {i : Init} {w : Where} {g : Greet} {op : BOp} {q : InitOp}
    (hc : ∃ ops outs, Init.connect {} ops = .ok (outs, .asking i)) (hz : WfZones i.panel.state)
    (hs : Stands (.asking i) (.asking w g)) (hp : Polls op q) :
    Tells s.cfg (.connecting s i) (.greeting w g) (.op op)
      (fun on => i.stepL on q >>= fun y => Prog.connectedL on s y.2.2 >>= fun z =>
        .ok (y.1 ++ z.1, z.2))
      (i.step q >>= fun x => Prog.connected s x.2) := by
  obtain ⟨ops, outs, hc⟩ := hc
  have hgi : InitGood i := by
    rw [connect_run] at hc
    exact (ihist_of_run (ph := .asking _) (start_good fresh_empty) hc).good
  have e : ∀ on, (i.stepL on q >>= fun y => Prog.connectedL on s y.2.2 >>= fun z =>
        (.ok (y.1 ++ z.1, z.2) : P _)) = i.step q >>= fun y =>
        Prog.connectedL on s y.2 >>= fun z => .ok (enabled on (tickLog i y.1 y.2) ++ z.1, z.2) := by
    intro on
    rw [initStepL_eq on hgi hz q]
    cases i.step q <;> rfl
  simp only [e]
  rcases init_cases hgi q with ⟨⟨o, ph⟩, h1, h2⟩ | ⟨cx, rfl, h1, h2⟩
  · rw [h1]
    obtain ⟨rd, wr, x, a, b, c⟩ := asks_of_step hgi hs h1
    have hu := utters_of_step hgi hz hs h2 b
    have k1 := init_good hgi h2
    have k2 := init_wf h2 hz
    simp only [bind_ok]
    match ph, b, c, hu, k1, k2 with
    | .asking i', b, c, hu, k1, k2 =>
      obtain ⟨w', g', rfl⟩ := stands_asking b
      obtain ⟨t, ht, c1, c2⟩ := c _ rfl
      cases ht
      refine ⟨rd, wr, _, _, fun on => ?_, .greets hp a hu, .greeting b, ⟨k1, k2⟩, c1, c2⟩
      simp only [Prog.connectedL, bind_ok, List.append_nil]
    | .finished (.error e), b, c, hu, k1, k2 =>
      cases b
      exact ⟨fun on => rfl, rd, wr, .lost hp a⟩
    | .finished (.ok p), b, c, hu, k1, k2 =>
      cases b with
      | @done _ g' k =>
        have hcon := connect_snoc hc h1
        obtain ⟨hcn, hwv⟩ := C65_connect fresh_empty hcon
        show Tells s.cfg _ _ _ _ (Bridge.start s.cfg p >>= fun b => Except.ok (b.log, Prog.running s b))
        have e' : ∀ on, Prog.connectedL on s (.finished (.ok p)) =
            Bridge.start s.cfg p >>= fun b => .ok (enabled on [⟨.initialized, []⟩], b.log, .running s b) := by
          intro on
          show (Bridge.startL on s.cfg p >>= fun y => _) = _
          unfold Bridge.startL
          rw [emit_ok]
          simp only [bind_ok]
          cases Bridge.start s.cfg p <;> rfl
        simp only [e']
        by_cases hu' : UsableCfg s.cfg
        · obtain ⟨b, hb⟩ := (C65_starts hcn hwv).mpr hu'
          rw [hb]
          simp only [bind_ok]
          obtain ⟨v0, o1, o2, o3, _⟩ := C124_opens hcn hwv hb
          obtain ⟨ra, ha⟩ := hcn.arming
          obtain ⟨z, hz⟩ := hcn.zones
          obtain ⟨_, code, hcode, hbe⟩ := (start_iff ha hz (hwv z hz)).mp hb
          have hl : Looks p ⟨g'.unread, ra, z, g'.held, none, []⟩ := by
            refine ⟨k.unread, ha, hz, k.held, ?_, hcn.flushed⟩
            rw [hcn.idle]
          have hv : v0 = ⟨g'.unread, ra, z, g'.held, none, []⟩ := looks_one o1 hl
          subst hv
          have e1 : b.code = code := by rw [hbe]
          have e2 : b.panel = p := by rw [hbe]
          obtain ⟨t, ht, c1, c2⟩ := c _ rfl
          cases ht
          refine ⟨rd, wr, _, _, fun on => ?_, .opens hp a hu hu' (sixDigits_of_num hcode)
            (k.shown.symm.trans (arming_iff.mp ha)) (k.zones.symm.trans (zones_iff.mp hz)) o3,
            e1 ▸ .serving o2, start_showable hcn hwv hb, ?_, ?_⟩
          · dsimp only
            rw [← enabled_append]
          · show b.panel.conn.sock.received = _
            rw [e2]; exact c1
          · show b.panel.conn.sock.sent = _
            rw [e2]; exact c2
        · match hb : Bridge.start s.cfg p with
          | .ok b => exact absurd ((C65_starts hcn hwv).mp ⟨b, hb⟩) hu'
          | .error e => exact ⟨fun on => rfl, rd, wr, .unusable hp a hu'⟩
  · rw [h1]
    obtain ⟨io, hb⟩ := breaks_of_panic hs h2
    exact ⟨fun on => rfl, io, [], .room hp hb⟩

theorem step_tells {p : Prog} {out : List Published} {x : Point} (hg : ProgGood out p)
    (hl : Loggable p) (hb : Being p x) (op : POp) :
    Tells p.setup.cfg p x op (fun on => p.stepL on op) (p.step op) := by
  cases hb with
  | @dialing s =>
    match op with
    | .dialed (.error e) => exact ⟨fun _ => rfl, [], [], .unreachable⟩
    | .dialed (.ok ()) =>
      obtain ⟨d, hd⟩ := C105_message _ (stageQ_wf .arming)
      refine ⟨[], [], _, _, fun on => ?_, .reached hd, .greeting (start_stands fresh_empty),
        ⟨start_good fresh_empty, (fun z hz => nomatch hz)⟩, rfl, rfl⟩
      show (Init.startL on {} >>= fun y => Prog.connectedL on s y.2 >>= fun z => _) = _
      unfold Init.startL
      rw [start_ok]
      simp only [bind_ok]
      rw [startedL_eq on (by rintro i ⟨⟩; exact stageQ_wf .arming)]
      simp only [bind_ok, Prog.connectedL]
      have : startLog (.asking (asking ⟨{}, PanelState.default, none, .idle⟩ .arming)) =
          [jot .asking [("msg", d)]] := by
        show (match (stageQ .arming).debug with
          | .ok d => [jot .asking [("msg", d)]]
          | .error _ => []) = _
        rw [hd]
      rw [this, List.append_nil]
      rfl
    | .op q => exact ⟨[], [], [], _, fun _ => rfl, .early, .dialing, trivial, rfl, rfl⟩
  | @greeting s i w g hs =>
    match op with
    | .dialed r =>
      exact ⟨[], [], [], _, fun _ => rfl, .dialed (by simp), .greeting hs, hl,
        (List.append_nil _).symm, (List.append_nil _).symm⟩
    | .op (.arrive r) => exact tells_connecting hg.2 hl.2 hs .arrive
    | .op (.writable r) => exact tells_connecting hg.2 hl.2 hs .writable
    | .op (.tick cx pf) => exact tells_connecting hg.2 hl.2 hs .tick
    | .op (.deliver q) =>
      exact ⟨[], [], [], _, fun _ => rfl, .undelivered, .greeting hs, hl,
        (List.append_nil _).symm, (List.append_nil _).symm⟩
  | @serving s b d hs =>
    match op with
    | .dialed r =>
      exact ⟨[], [], [], _, fun _ => rfl, .dialed (by simp), .serving hs, hl,
        (List.append_nil _).symm, (List.append_nil _).symm⟩
    | .op q =>
      have hl : Showable b := hl
      obtain ⟨_, hre⟩ := hg
      obtain ⟨hgb, hcfg⟩ := reached_good hre
      have hc := step_comes hgb hs q
      have e : ∀ on, Prog.stepL on (.running s b) (.op q) = b.step q >>= fun y =>
          .ok (enabled on (bridgeLog b y.1), y.1.out, .running s y.2) := by
        intro on
        show (b.stepL on q >>= fun y => _) = _
        rw [bridgeStepL_eq on hl q]
        cases b.step q <;> rfl
      simp only [e]
      show Tells s.cfg _ _ _ _ (b.step q >>= fun x => Except.ok (x.1.out, Prog.running s x.2))
      match h1 : b.step q, hc with
      | .error e, hc =>
        obtain ⟨rd, wr, h⟩ := hc
        rw [hcfg] at h
        exact ⟨fun _ => rfl, rd, wr, .stops h⟩
      | .ok (o, b'), hc =>
        obtain ⟨rd, wr, d', h, h2, h3, h4⟩ := hc
        have hn := notices_of_step hl hs.view h1
        rw [hcfg] at h hn
        have e := (bcase_static (bstep_cases h1)).2.1
        exact ⟨rd, wr, _, _, fun on => rfl, .serves h (voices_out o) hn, e ▸ .serving h2,
          showable_step h1 hl, h3, h4⟩

theorem progRunL_cons (on : Callsite → Bool) (op : POp) (ops : List POp) (p : Prog) :
    Prog.runL on (op :: ops) p = p.stepL on op >>= fun y =>
      Prog.runL on ops y.2.2 >>= fun z => .ok (y.1 :: z.1, y.2.1 :: z.2.1, z.2.2) := rfl

/-- Whatever the program does, its log follows. -/
theorem annals_of_run {ops : List POp} : ∀ {p : Prog} {x : Point} {out : List Published},
    ProgGood out p → Loggable p → Being p x →
    (∃ l x' p', progRun ops p = .ok (l.map Entry.out, p') ∧
      Annals p.setup.cfg x l x' ∧ Being p' x' ∧ ops = l.map Entry.op ∧
      (∀ on, Prog.runL on ops p =
        .ok (l.map (fun d => enabled on d.log), l.map Entry.out, p')) ∧
      (lineOf p').1 = (lineOf p).1 ++ l.flatMap Entry.rd ∧
      (lineOf p').2 = (lineOf p).2 ++ l.flatMap Entry.wr) ∨
    (∃ e l x' op ops₂ rd wr, progRun ops p = .error e ∧ Annals p.setup.cfg x l x' ∧
      ops = l.map Entry.op ++ op :: ops₂ ∧ (∀ on, Prog.runL on ops p = .error e) ∧
      Perishes p.setup.cfg x' op rd wr) := by
  induction ops with
  | nil =>
    intro p x out hg hl hb
    exact .inl ⟨[], x, p, rfl, .nil, hb, rfl, fun _ => rfl, by simp, by simp⟩
  | cons op ops ih =>
    intro p x out hg hl hb
    have ht := step_tells hg hl hb op
    match h1 : p.step op, ht with
    | .error e, ht =>
      obtain ⟨h2, rd, wr, h3⟩ := ht
      refine .inr ⟨e, [], x, op, ops, rd, wr, ?_, .nil, rfl, fun on => ?_, h3⟩
      · rw [progRun, h1]; rfl
      · have h2 : p.stepL on op = .error e := h2 on
        rw [progRunL_cons, h2]; rfl
    | .ok (o, p1), ht =>
      obtain ⟨rd, wr, j, x1, a0, a1, a2, al, a3, a4⟩ := ht
      have a0 : ∀ on, p.stepL on op = .ok (enabled on j, o, p1) := a0
      obtain ⟨g1, g2⟩ := prog_good hg h1
      rcases ih g1 al a2 with ⟨l, x', p', c0, c1, c2, c3, c4, c5, c6⟩ |
        ⟨e, l, x', op', ops₂, rd', wr', c0, c1, c2, c3, c4⟩
      · rw [g2] at c1
        refine .inl ⟨⟨op, rd, wr, o, j⟩ :: l, x', p', progRun_cons.mpr ⟨o, p1, _, h1, c0, rfl⟩,
          .cons a1 c1, c2, by rw [c3]; rfl, fun on => ?_, ?_, ?_⟩
        · rw [progRunL_cons, a0 on, bind_ok, c4 on]
          rfl
        · rw [c5, a3, List.flatMap_cons, List.append_assoc]
        · rw [c6, a4, List.flatMap_cons, List.append_assoc]
      · rw [g2] at c1 c4
        refine .inr ⟨e, ⟨op, rd, wr, o, j⟩ :: l, x', op', ops₂, rd', wr', ?_, .cons a1 c1,
          by rw [c2]; rfl, fun on => ?_, c4⟩
        · rw [progRun, h1, bind_ok]; dsimp only; rw [c0]; rfl
        · rw [progRunL_cons, a0 on, bind_ok, c3 on]; rfl

/-- **C135** The bridge program, started with any arguments and files, is the machine, and what each
operation logs, whatever is enabled, is what is enabled of what the machine logs. -/
theorem C135_follows {args : List Bytes} {file : Bytes → Option Bytes} {p0 : Prog}
    (h0 : Prog.main args file = .ok p0) {ops : List POp} {outs : List (List Published)} {p : Prog}
    (hr : progRun ops p0 = .ok (outs, p)) :
    ∃ l x, Annals p0.setup.cfg .dialing l x ∧ Being p x ∧ ops = l.map Entry.op ∧
      outs = l.map Entry.out ∧ (lineOf p).1 = l.flatMap Entry.rd ∧
      (lineOf p).2 = l.flatMap Entry.wr ∧
      ∀ on, Prog.runL on ops p0 = .ok (l.map (fun d => enabled on d.log), outs, p) := by
  obtain ⟨_, _, _, s, _, _, _, _, _, rfl⟩ := (C78_main args file p0).mp h0
  rcases annals_of_run (ops := ops) (p := .dialing s) (out := [])
    (show ProgGood [] (.dialing s) from rfl) trivial .dialing with
    ⟨l, x, p', a, b, c, d, e, f, g⟩ | ⟨e, _, _, _, _, _, _, a, _⟩
  · rw [hr] at a
    cases a
    exact ⟨l, x, b, c, d, rfl, f, g, e⟩
  · rw [hr] at a; cases a

/-- **C135** Logging makes no difference to what the program does or to how it ends: with any calls
enabled it publishes the same and comes to the same state, or panics in the same way. -/
theorem C135_erases {args : List Bytes} {file : Bytes → Option Bytes} {p0 : Prog}
    (h0 : Prog.main args file = .ok p0) (on : Callsite → Bool) (ops : List POp) :
    (Prog.runL on ops p0 >>= fun y => .ok y.2) = progRun ops p0 := by
  obtain ⟨_, _, _, s, _, _, _, _, _, rfl⟩ := (C78_main args file p0).mp h0
  rcases annals_of_run (ops := ops) (p := .dialing s) (out := [])
    (show ProgGood [] (.dialing s) from rfl) trivial .dialing with
    ⟨l, x, p', a, b, c, d, e, f, g⟩ | ⟨e, _, _, _, _, _, _, a, _, _, d, _⟩
  · rw [a, e on]; rfl
  · rw [a, d on]; rfl

/-- **C135** The machine is that of `C132`. -/
theorem C135_proceeds {cfg : Cfg} {x y : Point} {op : POp} {rd wr : Bytes} {out : List Published}
    {l : List Record} (h : Recounts cfg x op rd wr out l y) : Proceeds cfg x op rd wr out y := by
  cases h with
  | reached _ => exact .reached
  | early => exact .early
  | dialed h => exact .dialed h
  | undelivered => exact .undelivered
  | greets a b _ => exact .greets a b
  | opens a b _ c d e f g => exact .opens a b c d e f g
  | serves a b _ => exact .serves a b

theorem notices_levels {cfg : Cfg} {v : View} {op : BOp} {c : Command} {l : List Record}
    (h : Notices cfg v op (.accepted c) l) : ∀ r ∈ l, r.site.level ≠ .info := by
  cases h with
  | hands h => cases h <;> simp [jot, Callsite.level]
  | quiet _ _ h => exact absurd rfl (h _)

/-- **C135** What the program logs at level `info`. -/
theorem C135_info {cfg : Cfg} {x y : Point} {op : POp} {rd wr : Bytes} {out : List Published}
    {l : List Record} (h : Recounts cfg x op rd wr out l y) :
    Bulletin cfg x y out (enabled (fun s => s.level = .info) l) := by
  have quiet : ∀ {l : List Record}, (∀ r ∈ l, r.site.level ≠ .info) →
      enabled (fun s => s.level = .info) l = [] := fun h => enabled_nothing fun r hr => by
    simpa using h r hr
  cases h with
  | reached _ => exact .before (by intro _ _ h; cases h)
  | early => exact .before (by intro _ _ h; cases h)
  | dialed h =>
    cases x with
    | serving code d => exact .idle (Nat.le_refl _)
    | _ => exact .before (by intro _ _ h; cases h)
  | undelivered => exact .before (by intro _ _ h; cases h)
  | greets _ _ hu =>
    rw [quiet (utters_info hu)]
    exact .before (by intro _ _ h; cases h)
  | opens _ _ hu =>
    rw [enabled_append, quiet (utters_info hu)]
    exact .opened
  | @serves code d op _ _ o d' _ l hs hv hn =>
    cases hs with
    | event _ _ hr _ ha =>
      cases hv with
      | silent h => exact absurd rfl (h _ _ _)
      | event =>
        cases hn with
        | quiet h _ _ => exact absurd rfl (h _ _ _)
        | event hj hd =>
          rw [enabled_append, quiet (jots_levels hj)]
          cases ha with
          | mk h1 h2 => exact .event hd h1
    | ignores h1 h2 h3 h4 h5 =>
      cases hv
      cases hn with
      | quiet _ h _ => exact absurd rfl (h _ _)
      | unknown h => exact .unknown h2 h
      | ignored ha ht _ => exact .known h2 ha ht
    | takes h1 h2 h3 h4 =>
      cases hv
      cases hn with
      | quiet _ h _ => exact absurd rfl (h _ _)
      | asked ha ht _ => exact .known h2 ha ht
    | hands h1 h2 =>
      cases hv
      rw [quiet (notices_levels hn)]
      exact .idle (Nat.le_refl _)
    | deliver =>
      cases hv; cases hn
      exact .idle (by simp)
    | _ =>
      cases hv; cases hn
      exact .idle (Nat.le_refl _)

/-- Non-vacuity: in the sample run the program logs at level `info` that the panel is initialised, and
the event. -/
example : ∃ cfg l code d, Annals cfg .dialing l (.serving code d) ∧
    (l.flatMap fun d => (enabled (fun s => s.level = .info) d.log).map Record.site) =
      [.initialized, .panelEvent] := by
  obtain ⟨⟨p0, logs, outs, p⟩, h, hd⟩ := of_holds
    (x := Prog.main [bs "cfg.json"] (fun _ => some sampleFile) >>= fun p0 =>
      Prog.runL (fun s => s.level = .info) sampleProgOps p0 >>= fun y => .ok (p0, y))
    (f := fun r => decide ((r.2.1.flatMap fun l => l.map Record.site) = [.initialized, .panelEvent]) &&
      (match r.2.2.2 with | .running _ _ => true | _ => false)) (by decide +kernel)
  rw [P_bind_ok] at h
  obtain ⟨p0', h1, h⟩ := h
  rw [P_bind_ok] at h
  obtain ⟨y, h2, h⟩ := h
  cases h
  have h3 := C135_erases h1 (fun s => s.level = .info) sampleProgOps
  rw [h2] at h3
  obtain ⟨l, x, a, b, _, _, _, _, e⟩ := C135_follows h1 h3.symm
  rw [Bool.and_eq_true] at hd
  cases b with
  | dialing => simp at hd
  | greeting => simp at hd
  | serving hs =>
    refine ⟨_, l, _, _, a, ?_⟩
    have e := e (fun s => s.level = .info)
    rw [h2] at e
    cases e
    have := of_decide_eq_true hd.1
    simpa [List.flatMap_map] using this

end Elk.Props
