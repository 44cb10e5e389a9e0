import Verif.Props.Desk
import Verif.Props.Greeting
import Verif.Props.Main
import Verif.Spec.Program
/-!
# The bridge program as a reference machine (C132)
-/

namespace Elk.Props
open Elk.Spec

theorem voices_out (o : BObs) : Voices o o.out := by
  cases o with
  | event ev out w => exact .event
  | _ => exact .silent (by intro _ _ _ h; cases h)

theorem sixDigits_of_num {n : UInt32} {c : ArmCode} (h : ArmCode.tryFromNum n = .ok c) :
    SixDigits n.toNat c := (C25_number n).2.2 c h

/-- Lists of digits of the same length and value are the same. -/
theorem digits_alike : ∀ {k : Nat} {a b : Bytes}, a.length = k → b.length = k →
    (∀ x ∈ a, IsDigit x) → (∀ x ∈ b, IsDigit x) → digitsValue a = digitsValue b → a = b := by
  intro k
  induction k with
  | zero =>
    intro a b ha hb _ _ _
    rw [List.length_eq_zero_iff.mp ha, List.length_eq_zero_iff.mp hb]
  | succ k ih =>
    intro a b ha hb da db h
    rcases List.eq_nil_or_concat a with rfl | ⟨a', x, rfl⟩
    · simp at ha
    rcases List.eq_nil_or_concat b with rfl | ⟨b', y, rfl⟩
    · simp at hb
    simp only [List.concat_eq_append] at *
    rw [digitsValue_append, digitsValue_append] at h
    have hx := da x (by simp)
    have hy := db y (by simp)
    unfold IsDigit at hx hy
    have e : a' = b' := ih (by simpa using ha) (by simpa using hb)
      (fun z hz => da z (by simp [hz])) (fun z hz => db z (by simp [hz])) (by omega)
    subst e
    have : x = y := UInt8.toNat_inj.mp (by omega)
    rw [this]

theorem sixDigits_one {n : Nat} {c c' : ArmCode} (h : SixDigits n c) (h' : SixDigits n c') :
    c = c' := by
  have := digits_alike (k := 6) (by simp) (by simp) h.1 h'.1 (h.2.trans h'.2.symm)
  cases c; cases c'
  exact congrArg _ (Vector.toList_inj.mp this)

/-- What one operation comes to. -/
def Fares (cfg : Cfg) (p : Prog) (x : Point) (op : POp) : P (List Published × Prog) → Prop
  | .ok (out, p') => ∃ rd wr x', Proceeds cfg x op rd wr out x' ∧ Being p' x' ∧
      (lineOf p').1 = (lineOf p).1 ++ rd ∧ (lineOf p').2 = (lineOf p).2 ++ wr
  | .error _ => ∃ rd wr, Perishes cfg x op rd wr

theorem fares_connecting {s : Setup} {i : Init} {w : Where} {g : Greet} {op : BOp} {q : InitOp}
    (hc : ∃ ops outs, Init.connect {} ops = .ok (outs, .asking i))
    (hs : Stands (.asking i) (.asking w g)) (hp : Polls op q) :
    Fares s.cfg (.connecting s i) (.greeting w g) (.op op)
      (i.step q >>= fun x => Prog.connected s x.2) := by
  obtain ⟨ops, outs, hc⟩ := hc
  have hgi : InitGood i := by
    rw [connect_run] at hc
    exact (ihist_of_run (ph := .asking _) (start_good fresh_empty) hc).good
  rcases init_cases hgi q with ⟨⟨o, ph⟩, h1, h2⟩ | ⟨cx, rfl, h1, h2⟩
  · rw [h1]
    obtain ⟨rd, wr, x, a, b, c⟩ := asks_of_step hgi hs h1
    show Fares s.cfg _ _ _ (Prog.connected s ph)
    match ph, b, c with
    | .asking i', b, c =>
      obtain ⟨w', g', rfl⟩ := stands_asking b
      obtain ⟨t, ht, c1, c2⟩ := c _ rfl
      cases ht
      exact ⟨rd, wr, _, .greets hp a, .greeting b, c1, c2⟩
    | .finished (.error e), b, c =>
      cases b
      exact ⟨rd, wr, .lost hp a⟩
    | .finished (.ok p), b, c =>
      cases b with
      | @done _ g' k =>
        have hcon := connect_snoc hc h1
        obtain ⟨hcn, hwv⟩ := C65_connect fresh_empty hcon
        show Fares s.cfg _ _ _ (Bridge.start s.cfg p >>= fun b => Except.ok (b.log, Prog.running s b))
        by_cases hu : UsableCfg s.cfg
        · obtain ⟨b, hb⟩ := (C65_starts hcn hwv).mpr hu
          rw [hb]
          obtain ⟨v0, o1, o2, o3, _⟩ := C124_opens hcn hwv hb
          obtain ⟨ra, ha⟩ := hcn.arming
          obtain ⟨z, hz⟩ := hcn.zones
          obtain ⟨_, code, hcode, hbe⟩ := (start_iff ha hz (hwv z hz)).mp hb
          have hl : Looks p ⟨g'.unread, ra, z, g'.held, none, []⟩ := by
            refine ⟨k.unread, ha, hz, k.held, ?_, hcn.flushed⟩
            rw [hcn.idle]
          have hv : v0 = ⟨g'.unread, ra, z, g'.held, none, []⟩ := looks_one o1 hl
          subst hv
          have e1 : b.code = code := by rw [hbe]
          have e2 : b.panel = p := by rw [hbe]
          obtain ⟨t, ht, c1, c2⟩ := c _ rfl
          cases ht
          refine ⟨rd, wr, _, .opens hp a hu (sixDigits_of_num hcode) (k.shown.symm.trans (arming_iff.mp ha))
            (k.zones.symm.trans (zones_iff.mp hz)) o3, e1 ▸ .serving o2, ?_, ?_⟩
          · show b.panel.conn.sock.received = _
            rw [e2]; exact c1
          · show b.panel.conn.sock.sent = _
            rw [e2]; exact c2
        · match hb : Bridge.start s.cfg p with
          | .ok b => exact absurd ((C65_starts hcn hwv).mp ⟨b, hb⟩) hu
          | .error e => exact ⟨rd, wr, .unusable hp a hu⟩
  · rw [h1]
    obtain ⟨io, hb⟩ := breaks_of_panic hs h2
    exact ⟨io, [], .room hp hb⟩

theorem step_fares {p : Prog} {out : List Published} {x : Point} (hg : ProgGood out p) (hb : Being p x)
    (op : POp) : Fares p.setup.cfg p x op (p.step op) := by
  cases hb with
  | @dialing s =>
    match op with
    | .dialed (.error e) => exact ⟨[], [], .unreachable⟩
    | .dialed (.ok ()) =>
      exact ⟨[], [], _, .reached, .greeting (start_stands fresh_empty), rfl, rfl⟩
    | .op q => exact ⟨[], [], _, .early, .dialing, rfl, rfl⟩
  | @greeting s i w g hs =>
    match op with
    | .dialed r =>
      exact ⟨[], [], _, .dialed (by simp), .greeting hs, (List.append_nil _).symm,
        (List.append_nil _).symm⟩
    | .op (.arrive r) => exact fares_connecting hg.2 hs .arrive
    | .op (.writable r) => exact fares_connecting hg.2 hs .writable
    | .op (.tick cx pf) => exact fares_connecting hg.2 hs .tick
    | .op (.deliver q) =>
      exact ⟨[], [], _, .undelivered, .greeting hs, (List.append_nil _).symm,
        (List.append_nil _).symm⟩
  | @serving s b d hs =>
    match op with
    | .dialed r =>
      exact ⟨[], [], _, .dialed (by simp), .serving hs, (List.append_nil _).symm,
        (List.append_nil _).symm⟩
    | .op q =>
      obtain ⟨_, hre⟩ := hg
      obtain ⟨hgb, hcfg⟩ := reached_good hre
      have hc := step_comes hgb hs q
      show Fares s.cfg _ _ _ (b.step q >>= fun x => Except.ok (x.1.out, Prog.running s x.2))
      match h1 : b.step q, hc with
      | .error e, hc =>
        obtain ⟨rd, wr, h⟩ := hc
        rw [hcfg] at h
        exact ⟨rd, wr, .stops h⟩
      | .ok (o, b'), hc =>
        obtain ⟨rd, wr, d', h, h2, h3, h4⟩ := hc
        rw [hcfg] at h
        have e := (bcase_static (bstep_cases h1)).2.1
        exact ⟨rd, wr, _, .serves h (voices_out o), e ▸ .serving h2, h3, h4⟩

theorem progRun_cons {op : POp} {ops : List POp} {p p' : Prog} {outs : List (List Published)} :
    progRun (op :: ops) p = .ok (outs, p') ↔ ∃ o p1 os, p.step op = .ok (o, p1) ∧
      progRun ops p1 = .ok (os, p') ∧ outs = o :: os := by
  rw [progRun]
  simp only [P_bind_ok]
  constructor
  · rintro ⟨⟨o, p1⟩, h1, ⟨os, p2⟩, h2, h3⟩
    cases h3
    exact ⟨o, p1, os, h1, h2, rfl⟩
  · rintro ⟨o, p1, os, h1, h2, rfl⟩
    exact ⟨(o, p1), h1, (os, p'), h2, rfl⟩

theorem career_of_run {ops : List POp} : ∀ {p p' : Prog} {x : Point} {out : List Published}
    {outs : List (List Published)}, ProgGood out p → Being p x → progRun ops p = .ok (outs, p') →
    ∃ l x', Career p.setup.cfg x l x' ∧ Being p' x' ∧ ops = l.map Deal.op ∧ outs = l.map Deal.out ∧
      (lineOf p').1 = (lineOf p).1 ++ l.flatMap Deal.rd ∧
      (lineOf p').2 = (lineOf p).2 ++ l.flatMap Deal.wr := by
  induction ops with
  | nil =>
    intro p p' x out outs hg hb h
    cases h
    exact ⟨[], x, .nil, hb, rfl, rfl, by simp, by simp⟩
  | cons op ops ih =>
    intro p p' x out outs hg hb h
    obtain ⟨o, p1, os, h1, h2, rfl⟩ := progRun_cons.mp h
    have hf := step_fares hg hb op
    rw [h1] at hf
    obtain ⟨rd, wr, x1, a1, a2, a3, a4⟩ := hf
    obtain ⟨g1, g2⟩ := prog_good hg h1
    obtain ⟨l, x', c1, c2, c3, c4, c5, c6⟩ := ih g1 a2 h2
    rw [g2] at c1
    refine ⟨⟨op, rd, wr, o⟩ :: l, x', .cons a1 c1, c2, by rw [c3]; rfl, by rw [c4]; rfl, ?_, ?_⟩
    · rw [c5, a3, List.flatMap_cons, List.append_assoc]
    · rw [c6, a4, List.flatMap_cons, List.append_assoc]

/-- **C132** The bridge program, started with any arguments and files, is the machine: whatever
happens, there are the bytes read and written by each operation, which make up what went over the
line, and with them the machine, reaching for the panel at first, publishes at each operation what
the program publishes and comes to where the program is. -/
theorem C132_follows {args : List Bytes} {file : Bytes → Option Bytes} {p0 : Prog}
    (h0 : Prog.main args file = .ok p0) {ops : List POp} {outs : List (List Published)} {p : Prog}
    (hr : progRun ops p0 = .ok (outs, p)) :
    ∃ l x, Career p0.setup.cfg .dialing l x ∧ Being p x ∧ ops = l.map Deal.op ∧
      outs = l.map Deal.out ∧ (lineOf p).1 = l.flatMap Deal.rd ∧ (lineOf p).2 = l.flatMap Deal.wr := by
  obtain ⟨_, _, _, s, _, _, _, _, _, rfl⟩ := (C78_main args file p0).mp h0
  obtain ⟨l, x, a, b, c, d, e, f⟩ :=
    career_of_run (p := .dialing s) (out := []) (show ProgGood [] (.dialing s) from rfl) .dialing hr
  exact ⟨l, x, a, b, c, d, e, f⟩

/-- **C132** The program ends only where the machine perishes: the panel is not reached; while
connecting, reading or writing fails, the connection ends or the panel names something there is no
room for; it is connected but the configuration is not usable; or the bridge stops (`Stops`). -/
theorem C132_perishes {args : List Bytes} {file : Bytes → Option Bytes} {p0 : Prog}
    (h0 : Prog.main args file = .ok p0) {ops : List POp} {q : Panic}
    (hr : progRun ops p0 = .error q) :
    ∃ l x op ops₂ rd wr, Career p0.setup.cfg .dialing l x ∧ ops = l.map Deal.op ++ op :: ops₂ ∧
      Perishes p0.setup.cfg x op rd wr := by
  obtain ⟨_, _, _, s, _, _, _, _, _, rfl⟩ := (C78_main args file p0).mp h0
  have gen : ∀ {ops : List POp} {p : Prog} {x : Point} {out : List Published}, ProgGood out p →
      Being p x → progRun ops p = .error q →
      ∃ l x' op ops₂ rd wr, Career p.setup.cfg x l x' ∧ ops = l.map Deal.op ++ op :: ops₂ ∧
        Perishes p.setup.cfg x' op rd wr := by
    intro ops
    induction ops with
    | nil => intro p x out _ _ h; cases h
    | cons op ops ih =>
      intro p x out hg hb h
      have hf := step_fares hg hb op
      rw [progRun] at h
      match h1 : p.step op, h with
      | .error e, h =>
        rw [h1] at hf
        obtain ⟨rd, wr, a⟩ := hf
        exact ⟨[], x, op, ops, rd, wr, .nil, rfl, a⟩
      | .ok (o, p1), h =>
        rw [h1] at hf
        obtain ⟨rd, wr, x1, a1, a2, a3, a4⟩ := hf
        obtain ⟨g1, g2⟩ := prog_good hg h1
        have h2 : progRun ops p1 = .error q := by
          rw [bind_ok] at h
          dsimp only at h
          match h2 : progRun ops p1, h with
          | .error q', h => cases h; rfl
          | .ok x, h => cases h
        obtain ⟨l, x', op', ops₂, rd', wr', c1, c2, c3⟩ := ih g1 a2 h2
        rw [g2] at c1 c3
        exact ⟨⟨op, rd, wr, o⟩ :: l, x', op', ops₂, rd', wr', .cons a1 c1, by rw [c2]; rfl, c3⟩
  exact gen (p := .dialing s) (out := []) rfl .dialing hr

/-! ## The machine leaves no choice -/

theorem connects_settled {w : Where} {g : Greet} {op : InitOp} {rd wr : Bytes} {o₁ o₂ : Obs}
    {x₁ x₂ : Outcome} (h₁ : Connects w g op rd wr o₁ x₁) (h₂ : Connects w g op rd wr o₂ x₂)
    (n₁ : ∀ e, x₁ ≠ .failed e) (n₂ : ∀ e, x₂ ≠ .failed e) : x₁ = x₂ := by
  by_cases hf : ∃ q cx pkt rest, w = .waiting q ∧ op = .tick cx ∧ Front (g.unread ++ rd) (some pkt) rest
  · obtain ⟨q, cx, pkt, rest, rfl, rfl, hf⟩ := hf
    exact (C123_packet hf h₁ h₂).1
  · cases h₁ with
    | arrive => cases h₂; rfl
    | writable => cases h₂; rfl
    | ask => cases h₂; rfl
    | writing a =>
      cases h₂ with
      | writing b => rw [writes_one a b]
      | written b => exact absurd (writes_one a b ▸ b.2.1 rfl) (a.2.2 rfl)
      | unwritten => exact absurd rfl (n₂ _)
    | written a =>
      cases h₂ with
      | writing b => exact absurd (writes_one a b ▸ a.2.1 rfl) (b.2.2 rfl)
      | written b => rw [writes_one a b]
      | unwritten => exact absurd rfl (n₂ _)
    | unwritten => exact absurd rfl (n₁ _)
    | ended => exact absurd rfl (n₁ _)
    | lost => exact absurd rfl (n₁ _)
    | quiet =>
      cases h₂ with
      | quiet => rfl
      | ended => exact absurd rfl (n₂ _)
      | lost => exact absurd rfl (n₂ _)
      | other b => exact absurd ⟨_, _, _, _, rfl, rfl, b⟩ hf
      | reply b => exact absurd ⟨_, _, _, _, rfl, rfl, b⟩ hf
      | last b => exact absurd ⟨_, _, _, _, rfl, rfl, b⟩ hf
    | other b => exact absurd ⟨_, _, _, _, rfl, rfl, b⟩ hf
    | reply b => exact absurd ⟨_, _, _, _, rfl, rfl, b⟩ hf
    | last b => exact absurd ⟨_, _, _, _, rfl, rfl, b⟩ hf

theorem polls_one {op : BOp} {q q' : InitOp} (h : Polls op q) (h' : Polls op q') : q = q' := by
  cases h <;> cases h' <;> rfl

theorem samePub_of {o o' : BObs} (h : SameObs o o') {l l' : List Published} (a : Voices o l)
    (b : Voices o' l') : l = l' := by
  cases h with
  | same =>
    cases a with
    | event => cases b with
      | event => rfl
      | silent n => exact absurd rfl (n _ _ _)
    | silent n => cases b with
      | event => exact absurd rfl (n _ _ _)
      | silent => rfl
  | env => cases a; cases b; rfl
  | event =>
    cases a with
    | silent n => exact absurd rfl (n _ _ _)
    | event => cases b with
      | silent n => exact absurd rfl (n _ _ _)
      | event => rfl

/-- **C132** With the same bytes read and written, the machine publishes the same and goes to the same
place. -/
theorem C132_settled {cfg : Cfg} (hm : MapCfg cfg) (hd : DistinctNames cfg) {x x₁ x₂ : Point}
    {op : POp} {rd wr : Bytes} {o₁ o₂ : List Published} (h₁ : Proceeds cfg x op rd wr o₁ x₁)
    (h₂ : Proceeds cfg x op rd wr o₂ x₂) : x₁ = x₂ ∧ o₁ = o₂ := by
  cases h₁ with
  | reached =>
    cases h₂ with
    | reached => exact ⟨rfl, rfl⟩
    | dialed n => exact absurd rfl n
  | early => cases h₂; exact ⟨rfl, rfl⟩
  | dialed n =>
    cases h₂ with
    | reached => exact absurd rfl n
    | dialed => exact ⟨rfl, rfl⟩
  | undelivered =>
    cases h₂ with
    | undelivered => exact ⟨rfl, rfl⟩
    | greets p => cases p
    | opens p => cases p
  | greets p a =>
    cases h₂ with
    | undelivered => cases p
    | greets p' a' =>
      cases polls_one p p'
      cases connects_settled a a' (by simp) (by simp)
      exact ⟨rfl, rfl⟩
    | opens p' a' =>
      cases polls_one p p'
      cases connects_settled a a' (by simp) (by simp)
  | opens p a b1 b2 b3 b4 b5 =>
    cases h₂ with
    | undelivered => cases p
    | greets p' a' =>
      cases polls_one p p'
      cases connects_settled a a' (by simp) (by simp)
    | opens p' a' c1 c2 c3 c4 c5 =>
      cases polls_one p p'
      cases connects_settled a a' (by simp) (by simp)
      rw [b3] at c3; cases c3
      rw [b4] at c4; cases c4
      cases sixDigits_one b2 c2
      cases C124_opens_one b5 c5
      exact ⟨rfl, rfl⟩
  | serves a b =>
    cases h₂ with
    | serves a' b' =>
      obtain ⟨rfl, h⟩ := C124_settled hm hd a a'
      exact ⟨rfl, samePub_of h b b'⟩

/-- **C132** Where the panel names something there is no room for, or the configuration is not usable
for a connected panel, the machine does nothing but perish. -/
theorem C132_fatal {cfg : Cfg} {w : Where} {g : Greet} {op : BOp} {q : InitOp} {rd wr : Bytes}
    {out : List Published} {x : Point} (hp : Polls op q)
    (h : Breaks w g q rd ∨ ∃ o g', Connects w g q rd wr o (.done g') ∧ ¬ UsableCfg cfg) :
    ¬ Proceeds cfg (.greeting w g) (.op op) rd wr out x := by
  intro hs
  cases hs with
  | undelivered => cases hp
  | greets p a =>
    cases polls_one p hp
    rcases h with h | ⟨o, g', h, _⟩
    · exact C123_breaks h ⟨_, _, _, a⟩
    · cases connects_settled a h (by simp) (by simp)
  | opens p a u =>
    cases polls_one p hp
    rcases h with h | ⟨o, g', _, h⟩
    · exact C123_breaks h ⟨_, _, _, a⟩
    · exact h u

/-- What happens to the program in a sample run: it reaches the panel, which answers, and a zone
changes. -/
def sampleProgOps : List POp :=
  [.dialed (.ok ()), .op (.arrive (.data sampleDialogue))] ++
  List.replicate 5 (.op (.writable (.accept 1000))) ++
  List.replicate 15 (.op (.tick ⟨1, 0, 0⟩ true)) ++
  [.op (.arrive (.data (msgBytes (.zoneChange ⟨⟨1⟩, ⟨2⟩⟩)))), .op (.tick ⟨1, 0, 0⟩ true)]

/-- Non-vacuity: the machine comes to serve, having announced seven messages, and then publishes the
zone change: the event and the state. -/
example : ∃ cfg l code d, Career cfg .dialing l (.serving code d) ∧
    (l.map fun d => d.out.length).filter (· ≠ 0) = [7, 2] := by
  obtain ⟨⟨p0, outs, p⟩, h, hd⟩ := of_holds
    (x := Prog.main [bs "cfg.json"] (fun _ => some sampleFile) >>= fun p0 =>
      progRun sampleProgOps p0 >>= fun y => .ok (p0, y))
    (f := fun r => decide ((r.2.1.map List.length).filter (· ≠ 0) = [7, 2]) &&
      (match r.2.2 with | .running _ _ => true | _ => false)) (by decide +kernel)
  rw [P_bind_ok] at h
  obtain ⟨p0', h1, h⟩ := h
  rw [P_bind_ok] at h
  obtain ⟨y, h2, h⟩ := h
  cases h
  obtain ⟨l, x, a, b, _, e, _⟩ := C132_follows h1 h2
  rw [Bool.and_eq_true] at hd
  cases b with
  | dialing => simp at hd
  | greeting => simp at hd
  | serving hs =>
    refine ⟨_, l, _, _, a, ?_⟩
    have := of_decide_eq_true hd.1
    rw [e] at this
    simpa [Function.comp_def] using this

/-- Non-vacuity: the program ends when the panel cannot be reached, when the connection ends while
connecting, and when the panel reports on all zones. -/
example : [[.dialed (.error (.socket 1))],
    [.dialed (.ok ()), .op (.arrive .eof), .op (.writable (.accept 100)), .op (.tick ⟨1, 0, 0⟩ true),
      .op (.tick ⟨1, 0, 0⟩ true), .op (.tick ⟨1, 0, 0⟩ true)],
    sampleProgOps ++ [.op (.arrive (.data (msgBytes (.zoneStatusReport violatedReport)))),
      .op (.tick ⟨1, 0, 0⟩ true)]].all (fun ops =>
    match Prog.main [bs "cfg.json"] (fun _ => some sampleFile) with
    | .error _ => false
    | .ok p0 => match progRun ops p0 with
      | .error _ => true
      | .ok _ => false) = true := by decide +kernel

end Elk.Props
