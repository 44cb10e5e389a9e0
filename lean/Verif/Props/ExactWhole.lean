import Verif.Props.Whole
import Verif.Props.ExactProgram
import Verif.Props.ExactWatching
import Verif.Spec.ExactWhole
/-!
# The whole of `main` does and logs exactly what the reference machine allows (C147)
-/

namespace Elk.Props
open Elk.Spec

/-! ## The machine leaves no choice -/

theorem third_eq {α β γ : Type} {a a' : α} {b b' : β} {c c' : γ}
    (h : (Except.ok (a, b, c) : P (α × β × γ)) = .ok (a', b', c')) : c = c' :=
  (Prod.mk.inj (Prod.mk.inj (Except.ok.inj h)).2).2

theorem notices_same {cfg : Cfg} {v : View} {op : BOp} {o o' : BObs} {l l' : List Record}
    (hs : SameObs o o') (h : Notices cfg v op o l) (h' : Notices cfg v op o' l') : l = l' := by
  cases hs with
  | same => exact C129_one h h'
  | env =>
    cases h with
    | quiet => cases h' with
      | quiet => rfl
  | event =>
    cases h with
    | event a b =>
      cases h' with
      | event c d =>
        rw [b] at d
        cases d
        rw [jots_event_one a c]
      | quiet n => exact absurd rfl (n _ _ _)
    | quiet n => exact absurd rfl (n _ _ _)

/-- With the same bytes read and written, the machine of the bridge program publishes and logs the same
and goes to the same place. -/
theorem recounts_one {cfg : Cfg} (hm : MapCfg cfg) (hd : DistinctNames cfg) {x x₁ x₂ : Point}
    {op : POp} {rd wr : Bytes} {o₁ o₂ : List Published} {l₁ l₂ : List Record}
    (hj : isMove op = true) (h₁ : Recounts cfg x op rd wr o₁ l₁ x₁)
    (h₂ : Recounts cfg x op rd wr o₂ l₂ x₂) : x₁ = x₂ ∧ o₁ = o₂ ∧ l₁ = l₂ := by
  obtain ⟨ex, eo⟩ := C132_settled hm hd (C135_proceeds h₁) (C135_proceeds h₂)
  refine ⟨ex, eo, ?_⟩
  clear ex eo
  cases h₁ with
  | reached a =>
    cases h₂ with
    | reached b => rw [a] at b; cases b; rfl
    | dialed n => exact absurd rfl n
  | early => cases h₂; rfl
  | dialed n =>
    cases h₂ with
    | reached => exact absurd rfl n
    | dialed => rfl
  | undelivered =>
    cases h₂ with
    | undelivered => rfl
    | greets p => cases p
    | opens p => cases p
  | greets p a u =>
    cases h₂ with
    | undelivered => cases p
    | greets p' a' u' =>
      cases polls_one p p'
      cases p with
      | arrive => cases hj
      | writable => cases hj
      | tick =>
        cases connects_said a a' (by simp) (by simp)
        cases connects_settled a a' (by simp) (by simp)
        exact C130_one u u'
    | opens p' a' =>
      cases polls_one p p'
      cases connects_settled a a' (by simp) (by simp)
  | opens p a u =>
    cases h₂ with
    | undelivered => cases p
    | greets p' a' =>
      cases polls_one p p'
      cases connects_settled a a' (by simp) (by simp)
    | opens p' a' u' =>
      cases polls_one p p'
      cases p with
      | arrive => cases hj
      | writable => cases hj
      | tick =>
        cases connects_said a a' (by simp) (by simp)
        cases connects_settled a a' (by simp) (by simp)
        rw [C130_one u u']
  | serves a b c =>
    cases h₂ with
    | serves a' b' c' => exact notices_same (C124_settled hm hd a a').2 c c'

theorem letIn_one {q q₁ q₂ : List Publish} {x x₁ x₂ : Point} (h₁ : LetIn q x q₁ x₁)
    (h₂ : LetIn q x q₂ x₂) : q₁ = q₂ ∧ x₁ = x₂ := by
  cases h₁ with
  | closed n =>
    cases h₂ with
    | closed => exact ⟨rfl, rfl⟩
    | opened => exact absurd open_serving n
  | opened =>
    cases h₂ with
    | closed n => exact absurd open_serving n
    | opened => exact ⟨rfl, rfl⟩

theorem stride_pop {op : PanelOp} (h : isStride (.panel op) = true) : isMove op.pop = true := by
  cases op with
  | dialed => rfl
  | tick => rfl
  | arrive => cases h
  | writable => cases h

/-- The same of the whole program. -/
theorem abides_one {cfg : Cfg} (hm : MapCfg cfg) (hd : DistinctNames cfg) {q q₁ q₂ : List Publish}
    {x x₁ x₂ : Point} {op : WholeOp} {rd wr : Bytes} {o₁ o₂ : List Published} {l₁ l₂ : List Line}
    (hj : isStride op = true) (h₁ : Abides cfg q x op rd wr o₁ l₁ q₁ x₁)
    (h₂ : Abides cfg q x op rd wr o₂ l₂ q₂ x₂) : q₁ = q₂ ∧ x₁ = x₂ ∧ o₁ = o₂ ∧ l₁ = l₂ := by
  cases h₁ with
  | early n =>
    cases h₂ with
    | early => exact ⟨rfl, rfl, rfl, rfl⟩
    | delivered h => exact absurd h n
  | delivered h a =>
    cases h₂ with
    | early n => exact absurd h n
    | delivered _ b =>
      obtain ⟨rfl, rfl, rfl⟩ := recounts_one hm hd rfl a b
      exact ⟨rfl, rfl, rfl, rfl⟩
  | other => cases h₂; exact ⟨rfl, rfl, rfl, rfl⟩
  | panel a b =>
    cases h₂ with
    | panel c d =>
      obtain ⟨rfl, rfl, rfl⟩ := recounts_one hm hd (stride_pop hj) a c
      obtain ⟨rfl, rfl⟩ := letIn_one b d
      exact ⟨rfl, rfl, rfl, rfl⟩

/-! ## The program does only what the machine allows -/

/-- What is recorded of an operation. -/
def sceneOf (w : Whole) (op : WholeOp) (l : List Line) (out : List Published) (w₁ : Whole) : Scene :=
  ⟨op, (lineOf w₁.prog).1.drop (lineOf w.prog).1.length,
    (lineOf w₁.prog).2.drop (lineOf w.prog).2.length, out, l⟩

theorem scenes_cons {on : Callsite → Bool} {t : Bool} {op : WholeOp} {ops : List WholeOp}
    {w w2 : Whole} {ds : List Scene} :
    tracedWhole on t (op :: ops) w = .ok (ds, w2) ↔ ∃ l out w1 ds',
      w.stepL on t op = .ok (l, out, w1) ∧ tracedWhole on t ops w1 = .ok (ds', w2) ∧
      ds = sceneOf w op l out w1 :: ds' := by
  have e : tracedWhole on t (op :: ops) w = (w.stepL on t op >>= fun x =>
      tracedWhole on t ops x.2.2 >>= fun y => .ok (sceneOf w op x.1 x.2.1 x.2.2 :: y.1, y.2)) := rfl
  rw [e, P_bind_ok]
  constructor
  · rintro ⟨⟨l, o, q⟩, h1, h2⟩
    rw [P_bind_ok] at h2
    obtain ⟨⟨ts, q'⟩, h3, h4⟩ := h2
    cases h4
    exact ⟨l, o, q, ts, h1, h3, rfl⟩
  · rintro ⟨l, o, q, ts, h1, h3, rfl⟩
    exact ⟨(l, o, q), h1, by rw [h3]; rfl⟩

theorem scenes_append {on : Callsite → Bool} {t : Bool} {x y : List WholeOp} :
    ∀ {w w1 w2 : Whole} {dx dy : List Scene}, tracedWhole on t x w = .ok (dx, w1) →
    tracedWhole on t y w1 = .ok (dy, w2) → tracedWhole on t (x ++ y) w = .ok (dx ++ dy, w2) := by
  induction x with
  | nil => intro w w1 w2 dx dy h1 h2; cases h1; exact h2
  | cons op x ih =>
    intro w w1 w2 dx dy h1 h2
    obtain ⟨l, o, q, ts, h3, h4, rfl⟩ := scenes_cons.mp h1
    exact scenes_cons.mpr ⟨l, o, q, ts ++ dy, h3, ih h4 h2, rfl⟩

theorem strides_append (a b : List Scene) : strides (a ++ b) = strides a ++ strides b := by
  simp [strides]

theorem strides_cons (d : Scene) (l : List Scene) :
    strides (d :: l) = if isStride d.op then d :: strides l else strides l := by
  unfold strides
  rw [List.filter_cons]

theorem hale_hand {p : Prog} (h : Hale p) (rx : List Publish) : Hale (Whole.hand rx p).prog := by
  match p, h with
  | .dialing _, _ => trivial
  | .connecting _ _, h => exact h
  | .running s b, h =>
    obtain ⟨g, c⟩ := h
    exact ⟨⟨g.good, g.wf, g.usable, g.code, g.busy, g.cmd, g.empty, g.flushing⟩, c⟩

/-- Answers of the panel's socket do not change where the program is. -/
theorem recounts_still {cfg : Cfg} {x y : Point} {op : POp} {rd wr : Bytes} {out : List Published}
    {l : List Record} (hj : isMove op = false) (h : Recounts cfg x op rd wr out l y) : y = x := by
  cases h with
  | reached => cases hj
  | early => rfl
  | dialed => rfl
  | undelivered => rfl
  | greets p a =>
    cases p with
    | arrive => cases a; rfl
    | writable => cases a; rfl
    | tick => cases hj
  | opens p a =>
    cases p with
    | arrive => cases a
    | writable => cases a
    | tick => cases hj
  | serves a =>
    cases a with
    | arrive => rfl
    | writable => rfl
    | _ => cases hj

/-- One operation. -/
theorem step_persists {on : Callsite → Bool} {t : Bool} {w w' : Whole} {q : List Publish} {x : Point}
    {out o : List Published} {l : List Line} {op : WholeOp} (hg : WholeGood out w)
    (hh : Hale w.prog) (hb : Dwells w q x) (h : w.stepL on t op = .ok (l, o, w')) :
    WholeGood (out ++ o) w' ∧ Hale w'.prog ∧ w'.prog.setup = w.prog.setup ∧
      ∃ rd wr j q' x', Abides w.prog.setup.cfg q x op rd wr o j q' x' ∧ Dwells w' q' x' ∧
        Ripe x.unread rd ∧ l = enabledLines on t j ∧
        (lineOf w'.prog).1 = (lineOf w.prog).1 ++ rd ∧
        (lineOf w'.prog).2 = (lineOf w.prog).2 ++ wr ∧ (isStride op = false → q' = q ∧ x' = x) := by
  rcases whole_step hg hb op with ⟨rd, wr, o', j, q', x', w1, a0, a1, a2, a3, a4, a5, a6⟩ | ⟨e, a0, _⟩
  · rw [a0 on t] at h
    cases h
    have key : Hale w'.prog ∧ Ripe x.unread rd ∧ (isStride op = false → q' = q ∧ x' = x) := by
      obtain ⟨p, rx⟩ := w
      obtain ⟨hb, rfl⟩ := hb
      match op with
      | .mqtt (.error e) => cases a0 on t
      | .mqtt (.ok (.other n)) =>
        have e : w' = ⟨p, rx⟩ := (third_eq (a0 on t)).symm
        subst e
        cases a1
        exact ⟨hh, .inl rfl, by intro h; cases h⟩
      | .mqtt (.ok (.publish m)) =>
        have hr : rd = [] := by
          cases a1 with
          | early => rfl
          | delivered ho hr =>
            obtain ⟨_, _, rfl⟩ := ho
            cases hr with
            | serves a => cases a; rfl
        refine ⟨?_, .inl hr, by intro h; cases h⟩
        have := a0 on t
        match p, hh, this with
        | .dialing s, _, this => rw [← third_eq this]; trivial
        | .connecting s i, hh, this => rw [← third_eq this]; exact hh
        | .running s b, hh, this =>
          have e : w' = ⟨.running s { b with inbox := b.inbox ++ [m] }, rx⟩ := (third_eq this).symm
          subst e
          obtain ⟨g, c⟩ := hh
          exact ⟨⟨g.good, g.wf, g.usable, g.code, g.busy, g.cmd, g.empty, g.flushing⟩, c⟩
      | .panel op =>
        have tl := step_tells hg.prog hg.log hb op.pop
        have red : ∀ on t, Whole.stepL on t ⟨p, rx⟩ (.panel op) = p.stepL on op.pop >>= fun y =>
            .ok (y.1.map .record, y.2.1, Whole.hand rx y.2.2) := fun _ _ => rfl
        match h1 : p.step op.pop with
        | .error e =>
          rw [h1] at tl
          have := a0 on t
          rw [red, show p.stepL on op.pop = _ from tl.1 on] at this
          cases this
        | .ok (o1, p') =>
          rw [h1] at tl
          obtain ⟨_, _, j', _, t0, _, _, tl, _⟩ := tl
          have e : w' = Whole.hand rx p' := by
            have := a0 on t
            rw [red, show p.stepL on op.pop = _ from t0 on] at this
            exact (third_eq this).symm
          subst e
          obtain ⟨k1, rd2, wr2, x2, k2, k3, k4, k5, k6, k7⟩ := step_endures hg.prog hh hb h1
          refine ⟨hale_hand k1 rx, ?_, ?_⟩
          · obtain ⟨_, _, _, _, _, c4, _⟩ := hand_good rx (prog_good hg.prog h1).1 tl k3
            rw [c4, k5] at a5
            rw [← List.append_cancel_left a5]
            exact k4
          · intro hs
            cases a1 with
            | panel r i =>
              have hs : isMove op.pop = false := by
                cases op with
                | dialed => cases hs
                | tick => cases hs
                | arrive => rfl
                | writable => rfl
              obtain rfl := recounts_still hs r
              cases i with
              | closed => exact ⟨rfl, rfl⟩
              | @opened code d =>
                cases hb with
                | serving =>
                  obtain rfl : rx = [] := hg.room _ _ rfl
                  exact ⟨rfl, by simp⟩
    exact ⟨a3, key.1, a4, rd, wr, j, q', x', a1, a2, key.2.1, rfl, a5, a6, key.2.2⟩
  · rw [a0 on t] at h
    cases h

theorem persists_of_traced {on : Callsite → Bool} {t : Bool} {ops : List WholeOp} :
    ∀ {w w' : Whole} {q : List Publish} {x : Point} {out : List Published} {ds : List Scene},
    WholeGood out w → Hale w.prog → Dwells w q x → tracedWhole on t ops w = .ok (ds, w') →
    (∃ out', WholeGood out' w') ∧ w'.prog.setup = w.prog.setup ∧ Hale w'.prog ∧
      ∃ q' x' l, Dwells w' q' x' ∧ Persists w.prog.setup.cfg q x l q' x' ∧
        strides ds = l.map (Scene.logging on t) := by
  induction ops with
  | nil =>
    intro w w' q x out ds hg hh hb h
    cases h
    exact ⟨⟨_, hg⟩, rfl, hh, q, x, [], hb, .nil, rfl⟩
  | cons op ops ih =>
    intro w w' q x out ds hg hh hb h
    obtain ⟨l, o, w1, ds', h1, h2, rfl⟩ := scenes_cons.mp h
    obtain ⟨a1, a2, a3, rd, wr, j, q1, x1, b1, b2, b3, rfl, b5, b6, b7⟩ := step_persists hg hh hb h1
    obtain ⟨k1, k2, k3, q', x', l, k4, k5, k6⟩ := ih a1 a2 b2 h2
    rw [a3] at k5
    have e : sceneOf w op (enabledLines on t j) o w1 =
        (⟨op, rd, wr, o, j⟩ : Scene).logging on t := by
      unfold sceneOf
      rw [b5, b6, List.drop_left, List.drop_left]
      rfl
    refine ⟨k1, k2.trans a3, k3, q', x', ?_⟩
    rw [strides_cons, e]
    cases hs : isStride op with
    | true =>
      refine ⟨⟨op, rd, wr, o, j⟩ :: l, k4, .cons hs b1 b3 k5, ?_⟩
      rw [show ((⟨op, rd, wr, o, j⟩ : Scene).logging on t).op = op from rfl, hs, if_pos rfl, k6]
      rfl
    | false =>
      obtain ⟨rfl, rfl⟩ := b7 hs
      refine ⟨l, k4, k5, ?_⟩
      rw [show ((⟨op, rd, wr, o, j⟩ : Scene).logging on t).op = op from rfl, hs,
        if_neg (by simp), k6]

/-! ## The program does whatever the machine allows -/

theorem scenes_one {on : Callsite → Bool} {t : Bool} {w w' : Whole} {op : WholeOp} {l : List Line}
    {out : List Published} (h : w.stepL on t op = .ok (l, out, w')) :
    tracedWhole on t [op] w = .ok ([sceneOf w op l out w'], w') :=
  scenes_cons.mpr ⟨l, out, w', [], h, rfl, rfl⟩

/-- What is in the channel is in the way of no answer of the panel's socket. -/
theorem hand_still {on : Callsite → Bool} {t : Bool} {p p' : Prog} {op : POp} {o : List Published}
    (rx : List Publish) (hj : isMove op = false) (h : p.step op = .ok (o, p')) :
    ∃ e : PanelOp, e.pop = op ∧ isStride (.panel e) = false ∧
      (Whole.hand rx p).stepL on t (.panel e) = .ok ([], [], Whole.hand rx p') := by
  have red : ∀ (w : Whole) (e : PanelOp), w.stepL on t (.panel e) = w.prog.stepL on e.pop >>= fun y =>
            .ok (y.1.map .record, y.2.1, Whole.hand w.rx y.2.2) := fun _ _ => rfl
  match op with
  | .dialed _ => cases hj
  | .op (.tick _ _) => cases hj
  | .op (.deliver _) => cases hj
  | .op (.arrive r) =>
    refine ⟨.arrive r, rfl, rfl, ?_⟩
    match p with
    | .dialing s => cases h; rfl
    | .connecting s i => cases h; rfl
    | .running s b =>
      cases h
      have : Whole.hand rx (.running s b) = ⟨.running s { b with inbox := b.inbox ++ rx }, []⟩ := rfl
      rw [this, red]
      show Except.ok (_, _, Whole.hand [] _) = _
      simp [Whole.hand]
      rfl
  | .op (.writable r) =>
    refine ⟨.writable r, rfl, rfl, ?_⟩
    match p with
    | .dialing s => cases h; rfl
    | .connecting s i => cases h; rfl
    | .running s b =>
      cases h
      have : Whole.hand rx (.running s b) = ⟨.running s { b with inbox := b.inbox ++ rx }, []⟩ := rfl
      rw [this, red]
      show Except.ok (_, _, Whole.hand [] _) = _
      simp [Whole.hand]
      rfl

theorem still_scenes {on : Callsite → Bool} {t : Bool} {ops : List POp} :
    ∀ {p p' : Prog} {ds : List Deal} (rx : List Publish), tracedProg ops p = .ok (ds, p') →
    moves ds = [] → ∃ ops' ds', tracedWhole on t ops' (Whole.hand rx p) = .ok (ds', Whole.hand rx p') ∧
      strides ds' = [] := by
  induction ops with
  | nil => intro p p' ds rx h hm; cases h; exact ⟨[], [], rfl, rfl⟩
  | cons op ops ih =>
    intro p p' ds rx h hm
    obtain ⟨o, p1, ds', h1, h2, rfl⟩ := deals_cons.mp h
    rw [moves_cons] at hm
    cases hj : isMove op with
    | true => rw [if_pos (show isMove (dealOf p op o p1).op = true from hj)] at hm; cases hm
    | false =>
      rw [if_neg (by rw [show isMove (dealOf p op o p1).op = false from hj]; simp)] at hm
      obtain ⟨e, _, a2, a3⟩ := hand_still (on := on) (t := t) rx hj h1
      obtain ⟨ops', es, b1, b2⟩ := ih rx h2 hm
      refine ⟨_, _, scenes_append (scenes_one a3) b1, ?_⟩
      rw [strides_append, b2, List.append_nil, strides_cons,
        if_neg (by rw [show isStride (sceneOf _ (.panel e) _ _ _).op = false from a2]; simp)]
      rfl

theorem line_hand (rx : List Publish) (p : Prog) : lineOf (Whole.hand rx p).prog = lineOf p := by
  cases p <;> rfl

theorem hand_closed {p : Prog} {x : Point} {rx : List Publish} (hb : Being p x)
    (ho : ∀ code k, x = .serving code k → rx = []) : Whole.hand rx p = ⟨p, rx⟩ := by
  cases hb with
  | dialing => rfl
  | greeting => rfl
  | serving =>
    rw [ho _ _ rfl]
    simp [Whole.hand]

/-- One operation of `inner` that is not an answer of the panel's socket. -/
theorem move_scenes {on : Callsite → Bool} {t : Bool} {ops : List POp} :
    ∀ {p p' : Prog} {x : Point} {out : List Published} {ds : List Deal} {rx : List Publish} {d : Deal}
      {e : PanelOp}, ProgGood out p → Hale p → Loggable p → Being p x → Whole.hand rx p = ⟨p, rx⟩ →
    d.op = e.pop → tracedProg ops p = .ok (ds, p') → moves ds = [d] → isStride (.panel e) = true →
    ∃ ops' ds' l o, tracedWhole on t ops' (Whole.hand rx p) = .ok (ds', Whole.hand rx p') ∧
      strides ds' = [⟨.panel e, d.rd, d.wr, o, l⟩] := by
  induction ops with
  | nil => intro p p' x out ds rx d e _ _ _ _ _ _ h hm; cases h; cases hm
  | cons op ops ih =>
    intro p p' x out ds rx d e hg hh hl hb hw hd h hm hs
    obtain ⟨o, p1, ds', h1, h2, rfl⟩ := deals_cons.mp h
    have tl := step_tells hg hl hb op
    rw [h1] at tl
    obtain ⟨rd, wr, j, x1, t0, t1, t2, t3, t4, t5⟩ := tl
    obtain ⟨g1, g2⟩ := prog_good hg h1
    obtain ⟨k1, _⟩ := step_endures hg hh hb h1
    rw [moves_cons] at hm
    cases hj : isMove op with
    | true =>
      rw [if_pos (show isMove (dealOf p op o p1).op = true from hj)] at hm
      injection hm with hm1 hm2
      subst hm1
      have hd : op = e.pop := hd
      subst hd
      obtain ⟨ops', es, b1, b2⟩ := still_scenes (on := on) (t := t) rx h2 hm2
      have st : (Whole.hand rx p).stepL on t (.panel e) =
          .ok ((enabled on j).map .record, o, Whole.hand rx p1) := by
        have red : Whole.stepL on t ⟨p, rx⟩ (.panel e) = p.stepL on e.pop >>= fun y =>
            .ok (y.1.map .record, y.2.1, Whole.hand rx y.2.2) := rfl
        rw [hw, red, show p.stepL on e.pop = _ from t0 on]
        rfl
      refine ⟨_, _, (enabled on j).map .record, o, scenes_append (scenes_one st) b1, ?_⟩
      rw [strides_append, b2, List.append_nil, strides_cons,
        if_pos (show isStride (sceneOf _ (.panel e) _ _ _).op = true from hs)]
      show [_] = _
      unfold sceneOf dealOf
      rw [line_hand, line_hand]
    | false =>
      rw [if_neg (by rw [show isMove (dealOf p op o p1).op = false from hj]; simp)] at hm
      obtain ⟨e', _, a2, a3⟩ := hand_still (on := on) (t := t) rx hj h1
      have ho : ∀ code k, x = .serving code k → rx = [] := by
        intro code k e
        subst e
        cases hb
        exact (congrArg Whole.rx hw).symm
      have hx := recounts_still hj t1
      subst hx
      have hw1 : Whole.hand rx p1 = ⟨p1, rx⟩ := hand_closed t2 ho
      obtain ⟨ops', es, l, o', b1, b2⟩ := ih g1 k1 t3 t2 hw1 hd h2 hm hs
      refine ⟨_, _, l, o', scenes_append (scenes_one a3) b1, ?_⟩
      rw [strides_append, b2, strides_cons,
        if_neg (by rw [show isStride (sceneOf _ (.panel e') _ _ _).op = false from a2]; simp)]
      rfl

theorem rests_hand {p : Prog} (h : Rests p) (rx : List Publish) : Rests (Whole.hand rx p).prog := by
  match p, h with
  | .dialing _, _ => trivial
  | .connecting _ _, h => exact h
  | .running s b, h =>
    obtain ⟨⟨g, c⟩, i, o⟩ := h
    exact ⟨⟨⟨g.good, g.wf, g.usable, g.code, g.busy, g.cmd, g.empty, g.flushing⟩, c⟩, i, o⟩

theorem rests_notified {on : Callsite → Bool} {t : Bool} {w w' : Whole} {n : Notification}
    {o : List Published} {l : List Line} (h : Rests w.prog)
    (hs : w.stepL on t (.mqtt (.ok n)) = .ok (l, o, w')) : Rests w'.prog := by
  obtain ⟨p, rx⟩ := w
  match n, hs with
  | .other _, hs => rw [← third_eq hs]; exact h
  | .publish m, hs =>
    match p, h, hs with
    | .dialing s, _, hs => rw [← third_eq hs]; trivial
    | .connecting s i, h, hs => rw [← third_eq hs]; exact h
    | .running s b, h, hs =>
      rw [← third_eq hs]
      obtain ⟨⟨g, c⟩, i, o⟩ := h
      exact ⟨⟨⟨g.good, g.wf, g.usable, g.code, g.busy, g.cmd, g.empty, g.flushing⟩, c⟩, i, o⟩

theorem mqtt_io {cfg : Cfg} {q q' : List Publish} {x y : Point} {r : Except Nat Notification}
    {rd wr : Bytes} {o : List Published} {l : List Line}
    (h : Abides cfg q x (.mqtt r) rd wr o l q' y) : rd = [] ∧ wr = [] := by
  cases h with
  | early => exact ⟨rfl, rfl⟩
  | delivered h a =>
    obtain ⟨_, _, rfl⟩ := h
    cases a with
    | serves a => cases a; exact ⟨rfl, rfl⟩
  | other => exact ⟨rfl, rfl⟩

theorem hand_self {w : Whole} {out : List Published} (h : WholeGood out w) :
    Whole.hand w.rx w.prog = w := by
  obtain ⟨p, rx⟩ := w
  match p, h with
  | .dialing _, _ => rfl
  | .connecting _ _, _ => rfl
  | .running s b, h =>
    obtain rfl : rx = [] := h.room _ _ rfl
    simp [Whole.hand]

/-- One operation that the machine allows. -/
theorem stride_realises {on : Callsite → Bool} {t : Bool} {w : Whole} {q q' : List Publish}
    {x y : Point} {e : Scene} {out : List Published} (hg : WholeGood out w) (hr : Rests w.prog)
    (hb : Dwells w q x) (hm : MapCfg w.prog.setup.cfg) (hd : DistinctNames w.prog.setup.cfg)
    (hj : isStride e.op = true)
    (h : Abides w.prog.setup.cfg q x e.op e.rd e.wr e.out e.log q' y) (hi : Ripe x.unread e.rd) :
    ∃ ops ds w', tracedWhole on t ops w = .ok (ds, w') ∧ strides ds = [e.logging on t] ∧
      Rests w'.prog ∧ Dwells w' q' y := by
  obtain ⟨op, rd, wr, pub, log⟩ := e
  dsimp only at hj h hi
  match op with
  | .mqtt (.error e) => cases h
  | .mqtt (.ok n) =>
    rcases whole_step hg hb (.mqtt (.ok n)) with
      ⟨rd', wr', o', j, q1, x1, w1, a0, a1, a2, a3, a4, a5, a6⟩ | ⟨_, _, c⟩
    · obtain ⟨rfl, rfl⟩ := mqtt_io a1
      obtain ⟨rfl, rfl⟩ := mqtt_io h
      obtain ⟨rfl, rfl, rfl, rfl⟩ := abides_one hm hd hj a1 h
      refine ⟨_, _, w1, scenes_one (a0 on t), ?_, rests_notified hr (a0 on t), a2⟩
      rw [strides_cons, if_pos (show isStride (sceneOf _ (.mqtt (.ok n)) _ _ _).op = true from rfl)]
      unfold sceneOf
      rw [a5, a6, List.drop_left, List.drop_left]
      rfl
    · cases c
  | .panel op =>
    have h' := h
    cases h' with
    | panel r i =>
      obtain ⟨ops, ds, p', k1, k2, k3, k4⟩ := deal_realises (d := ⟨op.pop, rd, wr, pub⟩) hg.prog hr hb.1
        hm hd (stride_pop hj) (C135_proceeds r) hi
      have hw := hand_self hg
      obtain ⟨ops', ds', l, o, m1, m2⟩ := move_scenes (on := on) (t := t) (rx := w.rx) (e := op) hg.prog
        (rests_hale hr) hg.log hb.1 hw rfl k1 k2 hj
      rw [hw] at m1
      obtain ⟨_, _, _, q1, x1, js, n1, n2, n3⟩ := persists_of_traced hg (rests_hale hr) hb m1
      rw [m2] at n3
      cases n2 with
      | nil => cases n3
      | @cons _ _ q2 y2 _ _ d js c1 c2 c3 c4 =>
        injection n3 with n4 n5
        have : js = [] := List.map_eq_nil_iff.mp n5.symm
        subst this
        cases c4
        obtain ⟨dop, drd, dwr, dout, dlog⟩ := d
        unfold Scene.logging at n4
        injection n4 with u1 u2 u3 u4 u5
        dsimp only at u1 u2 u3 u4 u5 c2
        subst u1 u2 u3
        obtain ⟨rfl, rfl, rfl, rfl⟩ := abides_one hm hd hj c2 h
        refine ⟨ops', ds', _, m1, ?_, rests_hand k3 _, n1⟩
        rw [m2, u4, u5]
        rfl

theorem traced_of_persists {on : Callsite → Bool} {t : Bool} {l : List Scene} :
    ∀ {w : Whole} {q q' : List Publish} {x y : Point} {out : List Published},
    WholeGood out w → Rests w.prog → Dwells w q x → MapCfg w.prog.setup.cfg →
    DistinctNames w.prog.setup.cfg → Persists w.prog.setup.cfg q x l q' y →
    ∃ ops ds w', tracedWhole on t ops w = .ok (ds, w') ∧ strides ds = l.map (Scene.logging on t) ∧
      (∃ out', WholeGood out' w') ∧ Rests w'.prog ∧ Dwells w' q' y ∧
      w'.prog.setup = w.prog.setup := by
  induction l with
  | nil =>
    intro w q q' x y out hg hr hb hm hd h
    cases h
    exact ⟨[], [], w, rfl, rfl, ⟨_, hg⟩, hr, hb, rfl⟩
  | cons d l ih =>
    intro w q q' x y out hg hr hb hm hd h
    cases h with
    | cons h1 h2 h3 h4 =>
      obtain ⟨ops, ds, w1, a1, a2, a3, a4⟩ := stride_realises (on := on) (t := t) hg hr hb hm hd h1 h2 h3
      obtain ⟨⟨out1, b1⟩, b2, _⟩ := persists_of_traced hg (rests_hale hr) hb a1
      rw [← b2] at hm hd h4
      obtain ⟨ops', ds', w', c1, c2, c3, c4, c5, c6⟩ := ih b1 a3 a4 hm hd h4
      exact ⟨_, _, w', scenes_append a1 c1, by rw [strides_append, a2, c2]; rfl, c3, c4, c5, c6.trans b2⟩

/-! ## The theorems -/

theorem neat_abides {cfg : Cfg} {q q' : List Publish} {x y : Point} {op : WholeOp} {rd wr : Bytes}
    {out : List Published} {l : List Line} (h : Abides cfg q x op rd wr out l q' y) (hn : Neat x) :
    Neat y := by
  cases h with
  | early => exact hn
  | delivered _ a => exact neat_proceeds (C135_proceeds a) hn
  | other => exact hn
  | panel a b =>
    have := neat_proceeds (C135_proceeds a) hn
    cases b with
    | closed => exact this
    | opened => trivial

theorem neat_persists {cfg : Cfg} {q q' : List Publish} {x y : Point} {l : List Scene}
    (h : Persists cfg q x l q' y) (hn : Neat x) : Neat y := by
  induction h with
  | nil => exact hn
  | cons _ h1 _ _ ih => exact ih (neat_abides h1 hn)

/-- **C147** Exactly the histories of the reference machine of the whole of `main` (`C145`), with the
rules of Spec/ExactWhole.lean, are histories of the program: of a program started with any arguments
and files whose areas and zones have names of their own, with any of its log enabled.  A history is all
that happens to the program, in order, notifications of the MQTT client too, but for what happens to
the connection to the panel; the bytes that each read from and wrote to the panel; all that it published
and all of the log that is enabled.  Where the program is at the end, and what is in the channel, are
part of it. -/
theorem C147_exact {args : List Bytes} {file : Bytes → Option Bytes} {p0 : Prog}
    (h0 : Prog.main args file = .ok p0) (hd : DistinctNames p0.setup.cfg) {on : Callsite → Bool}
    {t : Bool} {q : List Publish} {x : Point} {h : List Scene} :
    (∃ ops ds w, tracedWhole on t ops ⟨p0, []⟩ = .ok (ds, w) ∧ Dwells w q x ∧ Neat x ∧
      strides ds = h) ↔
    ∃ l, Persists p0.setup.cfg [] .dialing l q x ∧ l.map (Scene.logging on t) = h := by
  obtain ⟨hg, hb⟩ := whole_start h0
  obtain ⟨s, rfl, hm⟩ := main_map h0
  constructor
  · rintro ⟨ops, ds, w, h1, h2, h3, rfl⟩
    obtain ⟨_, _, _, q', x', l, k1, k2, k3⟩ := persists_of_traced hg trivial hb h1
    obtain rfl := being_one k1.1 h2.1 (neat_persists k2 trivial) h3
    obtain rfl : q' = q := k1.2.symm.trans h2.2
    exact ⟨l, k2, k3.symm⟩
  · rintro ⟨l, h1, rfl⟩
    obtain ⟨ops, ds, w, k1, k2, _, _, k3, _⟩ := traced_of_persists (on := on) (t := t) hg trivial hb
      hm hd h1
    exact ⟨ops, ds, w, k1, k3, neat_persists h1 trivial, k2⟩

/-- **C147** And exactly where the machine falls, the program can panic, in that way. -/
theorem C147_ends {args : List Bytes} {file : Bytes → Option Bytes} {p0 : Prog}
    (h0 : Prog.main args file = .ok p0) (hd : DistinctNames p0.setup.cfg) {on : Callsite → Bool}
    {t : Bool} {h : List Scene} {op : WholeOp} {e : Panic} :
    (∃ ops ds w, tracedWhole on t ops ⟨p0, []⟩ = .ok (ds, w) ∧ strides ds = h ∧
      w.stepL on t op = .error e) ↔
    ∃ l q x, Persists p0.setup.cfg [] .dialing l q x ∧ l.map (Scene.logging on t) = h ∧
      Fells p0.setup.cfg x op e := by
  obtain ⟨hg, hb⟩ := whole_start h0
  obtain ⟨s, rfl, hm⟩ := main_map h0
  constructor
  · rintro ⟨ops, ds, w, h1, rfl, h3⟩
    obtain ⟨⟨_, g⟩, es, hh, q', x', l, k1, k2, k3⟩ := persists_of_traced hg trivial hb h1
    refine ⟨l, q', x', k2, k3.symm, ?_⟩
    match op with
    | .mqtt (.error _) => cases h3; exact .mqtt
    | .mqtt (.ok n) =>
      rcases whole_step g k1 (.mqtt (.ok n)) with ⟨_, _, _, _, _, _, _, a0, _⟩ | ⟨_, _, c⟩
      · rw [a0 on t] at h3
        cases h3
      · cases c
    | .panel op =>
      have tl := step_tells g.prog g.log k1.1 op.pop
      have red : Whole.stepL on t w (.panel op) = w.prog.stepL on op.pop >>= fun y =>
          .ok (y.1.map .record, y.2.1, Whole.hand w.rx y.2.2) := rfl
      rw [red] at h3
      match h4 : w.prog.step op.pop with
      | .ok (o, p') =>
        rw [h4] at tl
        obtain ⟨_, _, _, _, t0, _⟩ := tl
        rw [show w.prog.stepL on op.pop = _ from t0 on] at h3
        cases h3
      | .error e' =>
        rw [h4] at tl
        rw [show w.prog.stepL on op.pop = _ from tl.1 on] at h3
        cases h3
        have := step_dies g.prog hh k1.1 h4
        rw [es] at this
        exact .panel this
  · rintro ⟨l, q, x, h1, rfl, h2⟩
    obtain ⟨ops, ds, w, k1, k2, ⟨_, g⟩, k3, k4, es⟩ := traced_of_persists (on := on) (t := t) hg trivial
      hb hm hd h1
    rw [← es] at h2
    cases h2 with
    | mqtt => exact ⟨ops, ds, w, k1, k2, rfl⟩
    | @panel op _ h2 =>
      obtain ⟨ops', ds', p', m1, m2, m3⟩ := death_realises g.prog k3 k4.1 h2
      obtain ⟨⟨_, g'⟩, _, hh, x', n1, n2⟩ := endures_of_traced g.prog (rests_hale k3) k4.1 m1
      obtain ⟨ops2, es2, j1, j2⟩ := still_scenes (on := on) (t := t) w.rx m1 m2
      have hw := hand_self g
      rw [hw] at j1
      obtain ⟨⟨_, g2⟩, _⟩ := persists_of_traced g (rests_hale k3) k4 j1
      refine ⟨_, _, _, scenes_append k1 j1, by rw [strides_append, j2, List.append_nil, k2], ?_⟩
      have ho : ∀ code k, x = .serving code k → w.rx = [] := by
        intro code k e
        subst e
        obtain ⟨p, rx⟩ := w
        cases k4.1
        exact g.room _ _ rfl
      rw [m2] at n2
      cases n2
      have hw1 := hand_closed n1 ho
      rw [hw1] at g2 ⊢
      have tl := step_tells g2.prog g2.log n1 op.pop
      rw [m3] at tl
      show p'.stepL on op.pop >>= (fun y => Except.ok (y.1.map Line.record, y.2.1, Whole.hand w.rx y.2.2))
        = _
      rw [show p'.stepL on op.pop = _ from tl.1 on]
      rfl

/-- **C147** The history has what the program publishes and logs. -/
theorem C147_traced (on : Callsite → Bool) (t : Bool) (ops : List WholeOp) : ∀ w : Whole,
    (tracedWhole on t ops w).map (fun x => (x.1.map Scene.log, x.1.map Scene.out, x.2)) =
      Whole.runL on t ops w := by
  induction ops with
  | nil => intro w; rfl
  | cons op ops ih =>
    intro w
    have e : tracedWhole on t (op :: ops) w = (w.stepL on t op >>= fun x =>
      tracedWhole on t ops x.2.2 >>= fun y => .ok (sceneOf w op x.1 x.2.1 x.2.2 :: y.1, y.2)) := rfl
    have e' : Whole.runL on t (op :: ops) w = (w.stepL on t op >>= fun x =>
      Whole.runL on t ops x.2.2 >>= fun y => .ok (x.1 :: y.1, x.2.1 :: y.2.1, y.2.2)) := rfl
    rw [e, e']
    cases w.stepL on t op with
    | error => rfl
    | ok x =>
      rw [bind_ok, bind_ok, ← ih x.2.2]
      cases tracedWhole on t ops x.2.2 <;> rfl

/-- **C147** With the same bytes read and written, it leaves no choice: what is published, what is
logged, what is in the channel and where the program is are given. -/
theorem C147_one {cfg : Cfg} (hm : MapCfg cfg) (hd : DistinctNames cfg) {q q₁ q₂ : List Publish}
    {x x₁ x₂ : Point} {l₁ l₂ : List Scene} (h₁ : Persists cfg q x l₁ q₁ x₁)
    (h₂ : Persists cfg q x l₂ q₂ x₂)
    (h : l₁.map (fun d => (d.op, d.rd, d.wr)) = l₂.map fun d => (d.op, d.rd, d.wr)) :
    l₁ = l₂ ∧ q₁ = q₂ ∧ x₁ = x₂ := by
  induction h₁ generalizing l₂ with
  | nil =>
    have : l₂ = [] := List.map_eq_nil_iff.mp h.symm
    subst this
    cases h₂
    exact ⟨rfl, rfl, rfl⟩
  | @cons q x q' y q'' z d l a1 a2 a3 a4 ih =>
    cases h₂ with
    | nil => cases h
    | @cons _ _ q₃ y₃ _ _ d' l' b1 b2 b3 b4 =>
      obtain ⟨op, rd, wr, o, j⟩ := d
      obtain ⟨op', rd', wr', o', j'⟩ := d'
      simp only [List.map_cons, List.cons.injEq, Prod.mk.injEq] at h
      obtain ⟨⟨rfl, rfl, rfl⟩, h⟩ := h
      obtain ⟨rfl, rfl, rfl, rfl⟩ := abides_one hm hd a1 a2 b2
      obtain ⟨rfl, rfl, rfl⟩ := ih b4 h
      exact ⟨rfl, rfl, rfl⟩

/-- Not vacuous: a message of the broker comes while the panel is dialled, the panel is reached, the
program asks, and the MQTT client fails; so there is a run of the program that does, and that logs just
this. -/
example : ∃ p0 ops ds w, Prog.main [bs "cfg.json"] (fun _ => some sampleFile) = .ok p0 ∧
    tracedWhole (fun _ => false) true ops ⟨p0, []⟩ = .ok (ds, w) ∧
    strides ds = [⟨.mqtt (.ok (.publish ⟨bs "a", bs "b"⟩)), [], [], [],
        [.notification (.publish ⟨bs "a", bs "b"⟩)]⟩,
      ⟨.panel (.dialed (.ok ())), [], [], [], []⟩] ∧
    w.stepL (fun _ => false) true (.mqtt (.error 0)) = .error .expect := by
  obtain ⟨p0, h0, hd⟩ := sample_main
  obtain ⟨dbg, hdbg⟩ := C105_message _ (stageQ_wf .arming)
  obtain ⟨ops, ds, w, h1, h2, h3⟩ := (C147_ends (on := fun _ => false) (t := true) h0 hd).mpr
    ⟨_, _, _, .cons (d := ⟨.mqtt (.ok (.publish ⟨bs "a", bs "b"⟩)), [], [], [],
        [.notification (.publish ⟨bs "a", bs "b"⟩)]⟩) rfl
        (.early (by rintro ⟨_, _, h⟩; cases h)) (.inl rfl)
        (.cons (d := ⟨.panel (.dialed (.ok ())), [], [], [], _⟩) rfl
          (.panel (.reached hdbg) (.closed (by rintro ⟨_, _, h⟩; cases h))) (.inl rfl) .nil), rfl,
      .mqtt (e := 0)⟩
  exact ⟨p0, ops, ds, w, h0, h1, h2, h3⟩

end Elk.Props
