import Verif.Props.ProgLog
import Verif.Spec.Whole
/-!
# The whole of `main` (C145)
-/

namespace Elk.Props
open Elk.Spec

/-- Invariant of the whole program. -/
structure WholeGood (out : List Published) (w : Whole) : Prop where
  prog : ProgGood out w.prog
  log : Loggable w.prog
  room : ∀ s b, w.prog = .running s b → w.rx = []

theorem open_serving {code : ArmCode} {d : Desk} : (Point.serving code d).Open := ⟨_, _, rfl⟩

/-- The program takes the messages of the waiting room over. -/
theorem hand_good : ∀ (rx : List Publish) {p : Prog} {x : Point} {out : List Published},
    ProgGood out p → Loggable p → Being p x →
    ∃ q y, LetIn rx x q y ∧ Dwells (Whole.hand rx p) q y ∧ WholeGood out (Whole.hand rx p) ∧
      lineOf (Whole.hand rx p).prog = lineOf p ∧ (Whole.hand rx p).prog.setup = p.setup := by
  intro rx
  induction rx with
  | nil =>
    intro p x out hg hl hb
    cases hb with
    | dialing =>
      exact ⟨_, _, .closed (by rintro ⟨_, _, h⟩; cases h), ⟨.dialing, rfl⟩,
        ⟨hg, hl, by intro _ _ h; cases h⟩, rfl, rfl⟩
    | greeting h =>
      exact ⟨_, _, .closed (by rintro ⟨_, _, h⟩; cases h), ⟨.greeting h, rfl⟩,
        ⟨hg, hl, by intro _ _ h; cases h⟩, rfl, rfl⟩
    | @serving s b d h =>
      have e : Whole.hand [] (.running s b) = ⟨.running s b, []⟩ := by
        simp [Whole.hand]
      rw [e]
      refine ⟨_, _, .opened, ⟨?_, rfl⟩, ⟨hg, hl, fun _ _ _ => rfl⟩, rfl, rfl⟩
      rw [List.append_nil]
      exact .serving h
  | cons p0 rx ih =>
    intro p x out hg hl hb
    cases hb with
    | dialing =>
      exact ⟨_, _, .closed (by rintro ⟨_, _, h⟩; cases h), ⟨.dialing, rfl⟩,
        ⟨hg, hl, by intro _ _ h; cases h⟩, rfl, rfl⟩
    | greeting h =>
      exact ⟨_, _, .closed (by rintro ⟨_, _, h⟩; cases h), ⟨.greeting h, rfl⟩,
        ⟨hg, hl, by intro _ _ h; cases h⟩, rfl, rfl⟩
    | @serving s b d h =>
      have h1 : Prog.step (.running s b) (.op (.deliver p0)) =
        .ok ([], .running s { b with inbox := b.inbox ++ [p0] }) := rfl
      have g1 := (prog_good hg h1).1
      rw [List.append_nil] at g1
      have t := step_tells hg hl (.serving h) (.op (.deliver p0))
      rw [h1] at t
      obtain ⟨_, _, _, _, _, _, _, l1, _, _⟩ := t
      have b1 : Being (.running s { b with inbox := b.inbox ++ [p0] })
          (.serving b.code { d with inbox := d.inbox ++ [p0] }) :=
        .serving (b := { b with inbox := b.inbox ++ [p0] })
          ⟨h.view, congrArg (· ++ [p0]) h.inbox, h.doing⟩
      obtain ⟨q, y, k1, k2, k3, k4, k5⟩ := ih g1 l1 b1
      have e : Whole.hand rx (.running s { b with inbox := b.inbox ++ [p0] }) =
          Whole.hand (p0 :: rx) (.running s b) := by
        simp [Whole.hand]
      rw [e] at k2 k3 k4 k5
      refine ⟨q, y, ?_, k2, k3, k4, k5⟩
      cases k1 with
      | closed h => exact absurd open_serving h
      | opened =>
        have : LetIn (p0 :: rx) (.serving b.code d) []
          (.serving b.code { d with inbox := d.inbox ++ p0 :: rx }) := .opened
        simpa using this

theorem lines_records (on : Callsite → Bool) (t : Bool) (l : List Record) :
    enabledLines on t (l.map .record) = (enabled on l).map .record := by
  unfold enabledLines enabled
  rw [List.filter_map]
  rfl

theorem lines_append (on : Callsite → Bool) (t : Bool) (a b : List Line) :
    enabledLines on t (a ++ b) = enabledLines on t a ++ enabledLines on t b := List.filter_append ..

theorem lines_note (on : Callsite → Bool) (t : Bool) (n : Notification) :
    enabledLines on t [.notification n] = if t then [.notification n] else [] := by
  cases t <;> rfl

/-- What one operation comes to: either what the machine allows, or the end. -/
theorem whole_step {w : Whole} {q : List Publish} {x : Point} {out : List Published}
    (hg : WholeGood out w) (hd : Dwells w q x) (op : WholeOp) :
    (∃ rd wr o j q' x' w', (∀ on t, w.stepL on t op = .ok (enabledLines on t j, o, w')) ∧
      Abides w.prog.setup.cfg q x op rd wr o j q' x' ∧ Dwells w' q' x' ∧ WholeGood (out ++ o) w' ∧
      w'.prog.setup = w.prog.setup ∧
      (lineOf w'.prog).1 = (lineOf w.prog).1 ++ rd ∧ (lineOf w'.prog).2 = (lineOf w.prog).2 ++ wr) ∨
    (∃ e, (∀ on t, w.stepL on t op = .error e) ∧ Collapses w.prog.setup.cfg x op) := by
  obtain ⟨hg, hl, hr⟩ := hg
  obtain ⟨hb, rfl⟩ := hd
  obtain ⟨p, rx⟩ := w
  dsimp only at hg hl hr hb
  match op with
  | .mqtt (.error e) => exact .inr ⟨_, fun _ _ => rfl, .mqtt⟩
  | .mqtt (.ok (.other n)) =>
    refine .inl ⟨[], [], [], _, _, _, _, fun on t => ?_, .other, ⟨hb, rfl⟩, ⟨?_, hl, hr⟩, rfl,
      (List.append_nil _).symm, (List.append_nil _).symm⟩
    · rw [lines_note]
      rfl
    · rw [List.append_nil]; exact hg
  | .mqtt (.ok (.publish m)) =>
    cases hb with
    | @dialing s =>
      refine .inl ⟨[], [], [], _, _, _, ⟨.dialing s, rx ++ [m]⟩, fun on t => ?_,
        .early (by rintro ⟨_, _, h⟩; cases h), ⟨.dialing, rfl⟩, ⟨?_, hl, by intro _ _ h; cases h⟩, rfl,
        (List.append_nil _).symm, (List.append_nil _).symm⟩
      · rw [lines_note]
        rfl
      · rw [List.append_nil]; exact hg
    | @greeting s i w g h =>
      refine .inl ⟨[], [], [], _, _, _, ⟨.connecting s i, rx ++ [m]⟩, fun on t => ?_,
        .early (by rintro ⟨_, _, h⟩; cases h), ⟨.greeting h, rfl⟩, ⟨?_, hl, by intro _ _ h; cases h⟩, rfl,
        (List.append_nil _).symm, (List.append_nil _).symm⟩
      · rw [lines_note]
        rfl
      · rw [List.append_nil]; exact hg
    | @serving s b d h =>
      obtain rfl : rx = [] := hr _ _ rfl
      have t := step_tells hg hl (.serving h) (.op (.deliver m))
      have h1 : Prog.step (.running s b) (.op (.deliver m)) =
        .ok ([], .running s { b with inbox := b.inbox ++ [m] }) := rfl
      have g1 := (prog_good hg h1).1
      rw [h1] at t
      obtain ⟨rd, wr, j, x', t0, t1, t2, l1, t3, t4⟩ := t
      refine .inl ⟨rd, wr, [], .notification (.publish m) :: j.map .record, _, x', ⟨_, []⟩,
        fun on t => ?_, .delivered open_serving t1, ⟨t2, rfl⟩, ⟨g1, l1, fun _ _ _ => rfl⟩, rfl,
        t3, t4⟩
      have e : Prog.stepL on (.running s b) (.op (.deliver m)) = _ := t0 on
      show (Prog.stepL on (.running s b) (.op (.deliver m)) >>= fun y =>
        (.ok ((if t then [Line.notification (.publish m)] else []) ++ y.1.map .record, y.2.1,
          (⟨y.2.2, []⟩ : Whole)) : P _)) = _
      rw [e, bind_ok]
      show _ = Except.ok (enabledLines on t ([.notification (.publish m)] ++ j.map .record), _)
      rw [lines_append, lines_note, lines_records]
  | .panel op =>
    have t := step_tells hg hl hb op.pop
    have red : ∀ on t, Whole.stepL on t ⟨p, rx⟩ (.panel op) = p.stepL on op.pop >>= fun y =>
        .ok (y.1.map .record, y.2.1, Whole.hand rx y.2.2) := fun _ _ => rfl
    match h1 : p.step op.pop, t with
    | .error e, t =>
      obtain ⟨t0, rd, wr, t1⟩ := t
      exact .inr ⟨e, fun on tr => by rw [red, show p.stepL on op.pop = _ from t0 on]; rfl, .panel t1⟩
    | .ok (o, p'), t =>
      obtain ⟨rd, wr, j, x', t0, t1, t2, l1, t3, t4⟩ := t
      obtain ⟨g1, g2⟩ := prog_good hg h1
      obtain ⟨q, y, k1, k2, k3, k4, k5⟩ := hand_good rx g1 l1 t2
      refine .inl ⟨rd, wr, o, j.map .record, q, y, _, fun on tr => ?_, .panel t1 k1, k2, k3,
        k5.trans g2, by rw [k4]; exact t3, by rw [k4]; exact t4⟩
      rw [red, show p.stepL on op.pop = _ from t0 on, bind_ok, lines_records]

theorem wholeRun_cons (on : Callsite → Bool) (t : Bool) (op : WholeOp) (ops : List WholeOp)
    (w : Whole) : Whole.runL on t (op :: ops) w = w.stepL on t op >>= fun y =>
      Whole.runL on t ops y.2.2 >>= fun z => .ok (y.1 :: z.1, y.2.1 :: z.2.1, z.2.2) := rfl

theorem saga_of_run {ops : List WholeOp} : ∀ {w : Whole} {q : List Publish} {x : Point}
    {out : List Published}, WholeGood out w → Dwells w q x →
    (∃ l q' x' w', Saga w.prog.setup.cfg q x l q' x' ∧ Dwells w' q' x' ∧ ops = l.map Scene.op ∧
      (∀ on t, Whole.runL on t ops w =
        .ok (l.map (fun d => enabledLines on t d.log), l.map Scene.out, w')) ∧
      (lineOf w'.prog).1 = (lineOf w.prog).1 ++ l.flatMap Scene.rd ∧
      (lineOf w'.prog).2 = (lineOf w.prog).2 ++ l.flatMap Scene.wr) ∨
    (∃ e l q' x' op ops₂, Saga w.prog.setup.cfg q x l q' x' ∧ ops = l.map Scene.op ++ op :: ops₂ ∧
      Collapses w.prog.setup.cfg x' op ∧ ∀ on t, Whole.runL on t ops w = .error e) := by
  induction ops with
  | nil =>
    intro w q x out hg hd
    exact .inl ⟨[], q, x, w, .nil, hd, rfl, fun _ _ => rfl, by simp, by simp⟩
  | cons op ops ih =>
    intro w q x out hg hd
    rcases whole_step hg hd op with ⟨rd, wr, o, j, q1, x1, w1, a0, a1, a2, a3, a4, a5, a6⟩ |
      ⟨e, a0, a1⟩
    · rcases ih a3 a2 with ⟨l, q', x', w', c1, c2, c3, c4, c5, c6⟩ |
        ⟨e, l, q', x', op', ops₂, c1, c2, c3, c4⟩
      · rw [a4] at c1
        refine .inl ⟨⟨op, rd, wr, o, j⟩ :: l, q', x', w', .cons a1 c1, c2, by rw [c3]; rfl,
          fun on t => ?_, ?_, ?_⟩
        · rw [wholeRun_cons, a0 on t, bind_ok, c4 on t]
          rfl
        · rw [c5, a5, List.flatMap_cons, List.append_assoc]
        · rw [c6, a6, List.flatMap_cons, List.append_assoc]
      · rw [a4] at c1 c3
        refine .inr ⟨e, ⟨op, rd, wr, o, j⟩ :: l, q', x', op', ops₂, .cons a1 c1, by rw [c2]; rfl, c3,
          fun on t => ?_⟩
        rw [wholeRun_cons, a0 on t, bind_ok, c4 on t]
        rfl
    · exact .inr ⟨e, [], q, x, op, ops, .nil, rfl, a1, fun on t => by rw [wholeRun_cons, a0 on t]; rfl⟩

theorem whole_start {args : List Bytes} {file : Bytes → Option Bytes} {p0 : Prog}
    (h0 : Prog.main args file = .ok p0) : WholeGood [] ⟨p0, []⟩ ∧ Dwells ⟨p0, []⟩ [] .dialing := by
  obtain ⟨_, _, _, s, _, _, _, _, _, rfl⟩ := (C78_main args file p0).mp h0
  exact ⟨⟨show ProgGood [] (.dialing s) from rfl, trivial, fun _ _ _ => rfl⟩, .dialing, rfl⟩

/-- **C145** The whole program, started with any arguments and files, is the machine, whenever messages
of the broker come. -/
theorem C145_follows {args : List Bytes} {file : Bytes → Option Bytes} {p0 : Prog}
    (h0 : Prog.main args file = .ok p0) {on₀ : Callsite → Bool} {t₀ : Bool} {ops : List WholeOp}
    {ls : List (List Line)} {outs : List (List Published)} {w : Whole}
    (hr : Whole.runL on₀ t₀ ops ⟨p0, []⟩ = .ok (ls, outs, w)) :
    ∃ l q x, Saga p0.setup.cfg [] .dialing l q x ∧ Dwells w q x ∧ ops = l.map Scene.op ∧
      outs = l.map Scene.out ∧ (lineOf w.prog).1 = l.flatMap Scene.rd ∧
      (lineOf w.prog).2 = l.flatMap Scene.wr ∧
      ∀ on t, Whole.runL on t ops ⟨p0, []⟩ =
        .ok (l.map (fun d => enabledLines on t d.log), outs, w) := by
  obtain ⟨hg, hd⟩ := whole_start h0
  have hl : lineOf p0 = ([], []) := by
    obtain ⟨_, _, _, s, _, _, _, _, _, rfl⟩ := (C78_main args file p0).mp h0
    rfl
  rcases saga_of_run (ops := ops) hg hd with ⟨l, q, x, w', a, b, c, d, e, f⟩ |
    ⟨_, _, _, _, _, _, _, _, _, d⟩
  · have d' := d on₀ t₀
    rw [hr] at d'
    cases d'
    rw [hl] at e f
    exact ⟨l, q, x, a, b, c, rfl, e, f, d⟩
  · rw [d] at hr; cases hr

/-- **C145** It ends only when the MQTT client fails, or as `inner` ends. -/
theorem C145_collapses {args : List Bytes} {file : Bytes → Option Bytes} {p0 : Prog}
    (h0 : Prog.main args file = .ok p0) {on₀ : Callsite → Bool} {t₀ : Bool} {ops : List WholeOp}
    {e : Panic} (hr : Whole.runL on₀ t₀ ops ⟨p0, []⟩ = .error e) :
    ∃ l q x op ops₂, Saga p0.setup.cfg [] .dialing l q x ∧ ops = l.map Scene.op ++ op :: ops₂ ∧
      Collapses p0.setup.cfg x op ∧ ∀ on t, Whole.runL on t ops ⟨p0, []⟩ = .error e := by
  obtain ⟨hg, hd⟩ := whole_start h0
  rcases saga_of_run (ops := ops) hg hd with ⟨_, _, _, _, _, _, _, d, _⟩ |
    ⟨e', l, q, x, op, ops₂, a, b, c, d⟩
  · rw [d] at hr; cases hr
  · have d' := d on₀ t₀
    rw [hr] at d'
    cases d'
    exact ⟨l, q, x, op, ops₂, a, b, c, d⟩

/-- **C145** If the MQTT client fails, it does end, wherever it is. -/
theorem C145_fails (w : Whole) (on : Callsite → Bool) (t : Bool) (e : Nat) :
    w.stepL on t (.mqtt (.error e)) = .error .expect := rfl

/-! ## No message is lost or overtakes another -/

theorem taken_records (l : List Record) :
    receipts (l.map .record) = l.filter fun r => r.site = .publish := by
  unfold receipts
  rw [List.filterMap_map]
  induction l with
  | nil => rfl
  | cons r l ih =>
    by_cases h : r.site = .publish <;> simp_all

theorem taken_none {l : List Record} (h : ∀ r ∈ l, r.site.level ≠ .info) :
    (l.filter fun r => r.site = .publish) = [] :=
  List.filter_eq_nil_iff.mpr fun r hr => by
    intro h'
    have h' : r.site = .publish := by simpa using h'
    exact h r hr (by rw [h']; rfl)

/-- What `inner` takes up was waiting, and in that order. -/
theorem recounts_taken {cfg : Cfg} {x y : Point} {op : PanelOp} {rd wr : Bytes} {out : List Published}
    {l : List Record} (h : Recounts cfg x op.pop rd wr out l y) :
    (waitingAt [] x).map mailed =
      (l.filter fun r => r.site = .publish) ++ (waitingAt [] y).map mailed := by
  generalize hq : op.pop = o' at h
  cases h with
  | reached _ => rfl
  | early => rfl
  | dialed _ => rfl
  | undelivered => cases op <;> cases hq
  | greets _ _ hu =>
    rw [taken_none (utters_info hu)]
    rfl
  | opens _ _ hu =>
    rw [List.filter_append, taken_none (utters_info hu)]
    rfl
  | @serves code d op' _ _ o d' _ l hs hv hn =>
    simp only [waitingAt, List.append_nil]
    cases hs with
    | event _ _ hr _ ha =>
      cases hn with
      | quiet h _ _ => exact absurd rfl (h _ _ _)
      | event hj hd =>
        rw [List.filter_append, taken_none (jots_levels hj)]
        rfl
    | ignores h1 h2 h3 h4 h5 =>
      rw [h2]
      cases hn with
      | quiet _ h _ => exact absurd rfl (h _ _)
      | unknown h => rfl
      | ignored ha ht _ => rfl
    | takes h1 h2 h3 h4 =>
      rw [h2]
      cases hn with
      | quiet _ h _ => exact absurd rfl (h _ _)
      | asked ha ht _ => rfl
    | hands h1 h2 =>
      rw [taken_none (notices_levels hn)]
      rfl
    | deliver => cases op <;> cases hq
    | _ =>
      cases hn
      rfl

theorem waiting_append (q : List Publish) (x : Point) : waitingAt q x = waitingAt [] x ++ q := by
  cases x <;> simp [waitingAt]

theorem abides_taken {cfg : Cfg} {q q' : List Publish} {x y : Point} {op : WholeOp} {rd wr : Bytes}
    {out : List Published} {l : List Line} (h : Abides cfg q x op rd wr out l q' y) :
    (waitingAt q x ++ notifiedOf [⟨op, rd, wr, out, l⟩]).map mailed =
      receipts l ++ (waitingAt q' y).map mailed := by
  cases h with
  | early h =>
    rename_i p
    rw [waiting_append (q ++ [p]), waiting_append q]
    simp [notifiedOf, receipts]
  | other => simp [notifiedOf, receipts]
  | delivered hx hr =>
    obtain ⟨code, d, rfl⟩ := hx
    cases hr with
    | serves hs hv hn =>
      cases hs
      cases hn
      simp [waitingAt, notifiedOf, receipts]
  | @panel _ _ op' _ _ _ l' y0 _ _ hr hi =>
    have := recounts_taken hr
    have e : waitingAt q' y = waitingAt q y0 := by
      cases hi with
      | closed => rfl
      | opened => simp [waitingAt]
    rw [e, waiting_append q x, waiting_append q y0, taken_records]
    simp only [notifiedOf, List.filterMap_cons, List.filterMap_nil, List.append_nil, List.map_append]
    rw [this, List.append_assoc]

theorem saga_taken {cfg : Cfg} {q q' : List Publish} {x y : Point} {l : List Scene}
    (h : Saga cfg q x l q' y) :
    (waitingAt q x ++ notifiedOf l).map mailed =
      receipts (l.flatMap Scene.log) ++ (waitingAt q' y).map mailed := by
  induction h with
  | nil => simp [notifiedOf, receipts]
  | @cons q x q1 y q2 z d l h1 _ ih =>
    have k := abides_taken h1
    have e : notifiedOf (d :: l) = notifiedOf [d] ++ notifiedOf l := by
      unfold notifiedOf
      rw [← List.filterMap_append]
      rfl
    have e2 : receipts ((d :: l).flatMap Scene.log) = receipts d.log ++ receipts (l.flatMap Scene.log) := by
      unfold receipts
      rw [List.flatMap_cons, List.filterMap_append]
    rw [e, ← List.append_assoc, List.map_append, k, e2, List.append_assoc, List.append_assoc, ← ih,
      List.map_append]

/-- **C145** No message of the broker is lost, taken up twice or overtaken, whenever it comes: those
that it sent are those taken up, as logged, followed by those that wait. -/
theorem C145_messages {cfg : Cfg} {q : List Publish} {x : Point} {l : List Scene}
    (h : Saga cfg [] .dialing l q x) :
    (notifiedOf l).map mailed = receipts (l.flatMap Scene.log) ++ (waitingAt q x).map mailed :=
  saga_taken h

/-- **C145** That record shows the message. -/
theorem C145_mailed {p p' : Publish} (h : mailed p = mailed p') : p = p' := by
  simp only [mailed, Record.mk.injEq, List.cons.injEq, Prod.mk.injEq, FieldValue.publish.injEq,
    FieldValue.bytes.injEq, true_and, and_true] at h
  cases p; cases p'
  cases h.1.1
  cases h.2
  rfl

/-! ## The whole program is the bridge program -/

theorem abides_room {cfg : Cfg} {q q' : List Publish} {x y : Point} {op : WholeOp} {rd wr : Bytes}
    {out : List Published} {l : List Line} (h : Abides cfg q x op rd wr out l q' y)
    (hx : x.Open → q = []) : y.Open → q' = [] := by
  cases h with
  | early h => exact fun h' => absurd h' h
  | delivered => exact fun _ => rfl
  | other => exact hx
  | panel _ hi =>
    cases hi with
    | closed h => exact fun h' => absurd h' h
    | opened => exact fun _ => rfl

/-- **C145** The waiting room is empty once the program serves. -/
theorem C145_room {cfg : Cfg} {q q' : List Publish} {x y : Point} {l : List Scene}
    (h : Saga cfg q x l q' y) (hx : x.Open → q = []) : y.Open → q' = [] := by
  induction h with
  | nil => exact hx
  | cons h1 _ ih => exact ih (abides_room h1 hx)

theorem annals_append {cfg : Cfg} {x y z : Point} {l l' : List Entry} (h : Annals cfg x l y)
    (h' : Annals cfg y l' z) : Annals cfg x (l ++ l') z := by
  induction h with
  | nil => exact h'
  | cons h1 _ ih => exact .cons h1 (ih h')

/-- A message that is delivered to the bridge program. -/
def deliverEntry (p : Publish) : Entry := ⟨.op (.deliver p), [], [], [], []⟩

theorem annals_deliver {cfg : Cfg} {code : ArmCode} (q : List Publish) : ∀ d : Desk,
    Annals cfg (.serving code d) (q.map deliverEntry)
      (.serving code { d with inbox := d.inbox ++ q }) := by
  induction q with
  | nil => intro d; rw [List.append_nil]; exact .nil
  | cons p q ih =>
    intro d
    refine .cons (.serves .deliver (.silent (by intro _ _ _ h; cases h))
      (.quiet (by intro _ _ _ h; cases h) (by intro _ _ h; cases h) (by intro _ h; cases h))) ?_
    have := ih { d with inbox := d.inbox ++ [p] }
    simpa using this

theorem deliveredIn_entries (q : List Publish) : deliveredIn (q.map deliverEntry) = q := by
  unfold deliveredIn
  rw [List.filterMap_map]
  exact List.filterMap_some

theorem flat_entries {α : Type} (q : List Publish) (f : Entry → List α)
    (h : ∀ p, f (deliverEntry p) = []) : (q.map deliverEntry).flatMap f = [] := by
  rw [List.flatMap_eq_nil_iff]
  intro d hd
  obtain ⟨p, _, rfl⟩ := List.mem_map.mp hd
  exact h p

theorem recordsOf_records (l : List Record) : recordsOf (l.map .record) = l := by
  unfold recordsOf
  rw [List.filterMap_map]
  exact List.filterMap_some

theorem pop_delivers {op : PanelOp} {rd wr : Bytes} {out : List Published} {l : List Record} :
    deliveredIn [⟨op.pop, rd, wr, out, l⟩] = [] := by
  cases op <;> rfl

/-- One operation of the whole program, as operations of the bridge program. -/
theorem abides_annals {cfg : Cfg} {q q' : List Publish} {x y : Point} {op : WholeOp} {rd wr : Bytes}
    {out : List Published} {j : List Line} (h : Abides cfg q x op rd wr out j q' y)  :
    ∃ l, Annals cfg x l y ∧ l.flatMap Entry.rd = rd ∧ l.flatMap Entry.wr = wr ∧
      l.flatMap Entry.out = out ∧ l.flatMap Entry.log = recordsOf j ∧
      deliveredIn l ++ q' = q ++ notifiedOf [⟨op, rd, wr, out, j⟩] := by
  cases h with
  | early h => exact ⟨[], .nil, rfl, rfl, rfl, rfl, rfl⟩
  | other => exact ⟨[], .nil, rfl, rfl, rfl, rfl, by simp [deliveredIn, notifiedOf]⟩
  | @delivered _ _ p _ _ _ l' hx hr =>
    refine ⟨[⟨.op (.deliver p), rd, wr, out, l'⟩], .cons hr .nil, by simp, by simp, by simp, ?_, rfl⟩
    show _ = recordsOf ([.notification _] ++ l'.map .record)
    have : recordsOf ([.notification (.publish p)] ++ l'.map .record) = recordsOf (l'.map .record) := rfl
    rw [this, recordsOf_records]
    simp
  | @panel _ _ op' _ _ _ l' y0 _ _ hr hi =>
    cases hi with
    | closed _ =>
      refine ⟨[⟨op'.pop, rd, wr, out, l'⟩], .cons hr .nil, by simp, by simp, by simp, ?_, ?_⟩
      · rw [recordsOf_records]; simp
      · rw [pop_delivers]; simp [notifiedOf]
    | @opened code d =>
      refine ⟨⟨op'.pop, rd, wr, out, l'⟩ :: q.map deliverEntry, .cons hr (annals_deliver q d),
        ?_, ?_, ?_, ?_, ?_⟩
      · rw [List.flatMap_cons, flat_entries q _ fun _ => rfl]; simp
      · rw [List.flatMap_cons, flat_entries q _ fun _ => rfl]; simp
      · rw [List.flatMap_cons, flat_entries q _ fun _ => rfl]; simp
      · rw [List.flatMap_cons, flat_entries q _ fun _ => rfl, recordsOf_records]; simp
      · have : deliveredIn (⟨op'.pop, rd, wr, out, l'⟩ :: q.map deliverEntry) =
            deliveredIn [⟨op'.pop, rd, wr, out, l'⟩] ++ deliveredIn (q.map deliverEntry) := by
          unfold deliveredIn
          rw [← List.filterMap_append]
          rfl
        rw [this, pop_delivers, deliveredIn_entries]
        simp [notifiedOf]

/-- **C145** The whole program does what the bridge program does when messages that come early are
delivered as soon as it serves: it reads, writes, publishes and logs the same and comes to the same
point. -/
theorem C145_annals {cfg : Cfg} {q q' : List Publish} {x y : Point} {l : List Scene}
    (h : Saga cfg q x l q' y) :
    ∃ l', Annals cfg x l' y ∧ l'.flatMap Entry.rd = l.flatMap Scene.rd ∧
      l'.flatMap Entry.wr = l.flatMap Scene.wr ∧ l'.flatMap Entry.out = l.flatMap Scene.out ∧
      l'.flatMap Entry.log = recordsOf (l.flatMap Scene.log) ∧
      deliveredIn l' ++ q' = q ++ notifiedOf l := by
  induction h with
  | nil => exact ⟨[], .nil, rfl, rfl, rfl, rfl, by simp [deliveredIn, notifiedOf]⟩
  | @cons q x q1 y q2 z d l h1 _ ih =>
    obtain ⟨a, a1, a2, a3, a4, a5, a6⟩ := abides_annals h1
    obtain ⟨b, b1, b2, b3, b4, b5, b6⟩ := ih
    refine ⟨a ++ b, annals_append a1 b1, ?_, ?_, ?_, ?_, ?_⟩
    · rw [List.flatMap_append, List.flatMap_cons, a2, b2]
    · rw [List.flatMap_append, List.flatMap_cons, a3, b3]
    · rw [List.flatMap_append, List.flatMap_cons, a4, b4]
    · rw [List.flatMap_append, List.flatMap_cons, a5, b5]
      unfold recordsOf
      rw [List.filterMap_append]
    · have e1 : deliveredIn (a ++ b) = deliveredIn a ++ deliveredIn b := List.filterMap_append
      have e2 : notifiedOf (d :: l) = notifiedOf [d] ++ notifiedOf l := by
        unfold notifiedOf
        rw [← List.filterMap_append]
        rfl
      rw [e1, List.append_assoc, b6, ← List.append_assoc, a6, e2, List.append_assoc]

/-- **C145** At level `trace` every notification is logged, once and in order. -/
theorem C145_notes {cfg : Cfg} {q q' : List Publish} {x y : Point} {l : List Scene}
    (h : Saga cfg q x l q' y) : notesOf (l.flatMap Scene.log) = saidBy l := by
  have none : ∀ l : List Record, notesOf (l.map .record) = [] := by
    intro l
    unfold notesOf
    rw [List.filterMap_map]
    exact List.filterMap_eq_nil_iff.mpr fun _ _ => rfl
  induction h with
  | nil => rfl
  | @cons q x q1 y q2 z d l h1 _ ih =>
    obtain ⟨op, rd, wr, out, j⟩ := d
    have e1 : notesOf ((⟨op, rd, wr, out, j⟩ :: l).flatMap Scene.log) =
        notesOf j ++ notesOf (l.flatMap Scene.log) := by
      unfold notesOf
      rw [List.flatMap_cons, List.filterMap_append]
    have e2 : saidBy (⟨op, rd, wr, out, j⟩ :: l) = saidBy [⟨op, rd, wr, out, j⟩] ++ saidBy l := by
      unfold saidBy
      rw [← List.filterMap_append]
      rfl
    have e3 : notesOf j = saidBy [⟨op, rd, wr, out, j⟩] := by
      cases h1 with
      | early => rfl
      | other => rfl
      | @delivered _ _ p _ _ _ l' _ _ =>
        have : notesOf (.notification (.publish p) :: l'.map .record) =
          .publish p :: notesOf (l'.map .record) := rfl
        rw [this, none]
        rfl
      | panel => rw [none]; rfl
    rw [e1, e2, e3, ih]

/-- A sample run: a message for the area comes before the panel is reached. -/
def sampleWholeOps : List WholeOp :=
  [.mqtt (.ok (.other 0)),
    .mqtt (.ok (.publish ⟨bs "elkm1/42/area/home/ha_command", bs "ARM_AWAY"⟩)),
    .panel (.dialed (.ok ())), .panel (.arrive (.data sampleDialogue))] ++
  List.replicate 5 (.panel (.writable (.accept 1000))) ++
  List.replicate 18 (.panel (.tick ⟨1, 0, 0⟩ true))

/-- Non-vacuity: the message is taken up once the program serves, and the command is handed to the
panel. -/
example : ∃ cfg l code d, Saga cfg [] .dialing l [] (.serving code d) ∧
    d.view.asked.isSome = true ∧
    (notesOf (l.flatMap Scene.log)).length = 2 ∧ (receipts (l.flatMap Scene.log)).length = 1 := by
  obtain ⟨⟨p0, ls, outs, w⟩, h, hd⟩ := of_holds
    (x := Prog.main [bs "cfg.json"] (fun _ => some sampleFile) >>= fun p0 =>
      Whole.runL (fun _ => false) false sampleWholeOps ⟨p0, []⟩ >>= fun y => .ok (p0, y))
    (f := fun r => match r.2.2.2.prog with
      | .running _ b => decide (b.inbox = []) &&
        (match b.panel.cmdState with | .busy .. => true | .idle => false)
      | _ => false) (by decide +kernel)
  rw [P_bind_ok] at h
  obtain ⟨p0', h1, h⟩ := h
  rw [P_bind_ok] at h
  obtain ⟨y, h2, h⟩ := h
  cases h
  obtain ⟨l, q, x, a, ⟨b1, b2⟩, c, _⟩ := C145_follows h1 h2
  have n := C145_notes a
  have m := C145_messages a
  have r := C145_room a (by rintro ⟨_, _, h⟩; cases h)
  generalize hp : w.prog = p at b1 hd
  cases b1 with
  | dialing => cases hd
  | greeting => cases hd
  | @serving s b d hs =>
    obtain rfl := r open_serving
    rw [Bool.and_eq_true] at hd
    have e : d.inbox = [] := hs.inbox.symm.trans (of_decide_eq_true hd.1)
    refine ⟨_, l, _, d, a, ?_, ?_, ?_⟩
    · rw [← hs.view.asked]
      have k := hd.2
      revert k
      cases b.panel.cmdState <;> intro k
      · cases k
      · rfl
    · rw [n]
      have : saidBy l = (l.map Scene.op).filterMap fun o => match o with
          | .mqtt (.ok n) => some n
          | _ => none := by
        rw [List.filterMap_map]
        rfl
      rw [this, ← c]
      decide +kernel
    · have : notifiedOf l = (l.map Scene.op).filterMap fun o => match o with
          | .mqtt (.ok (.publish p)) => some p
          | _ => none := by
        rw [List.filterMap_map]
        rfl
      rw [this, ← c, waitingAt, e] at m
      have m := congrArg List.length m
      simp only [List.append_nil, List.map_nil, List.length_map] at m
      rw [← m]
      decide +kernel

/-- Non-vacuity: the program ends when the MQTT client fails. -/
example : (match Prog.main [bs "cfg.json"] (fun _ => some sampleFile) with
    | .error _ => false
    | .ok p0 => match Whole.runL (fun _ => true) true (sampleWholeOps ++ [.mqtt (.error 1)]) ⟨p0, []⟩ with
      | .error .expect => true
      | _ => false) = true := by decide +kernel

end Elk.Props
