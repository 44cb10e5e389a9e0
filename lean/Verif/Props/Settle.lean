import Verif.Props.Home
import Verif.Props.EndToEnd
import Verif.Spec.Settle
/-!
# The broker catches up with the panel (C109)
-/

namespace Elk.Props
open Elk.Spec

/-! ## What the bridge did -/

theorem brun_snoc {ops : List BOp} {op : BOp} : ∀ {b b1 b2 : Bridge} {obs : List BObs} {o : BObs},
    Bridge.run ops b = .ok (obs, b1) → b1.step op = .ok (o, b2) →
    Bridge.run (ops ++ [op]) b = .ok (obs ++ [o], b2) := by
  induction ops with
  | nil =>
    intro b b1 b2 obs o h h1
    cases h
    show (b.step op >>= fun x => _) = _
    rw [h1]
    rfl
  | cons op' ops ih =>
    intro b b1 b2 obs o h h1
    unfold Bridge.run at h
    obtain ⟨⟨o', b'⟩, h2, h⟩ := P_bind_ok.mp h
    obtain ⟨⟨os, b''⟩, h3, h⟩ := P_bind_ok.mp h
    cases h
    show Bridge.run (op' :: (ops ++ [op])) b = _
    unfold Bridge.run
    rw [h2]
    simp only [bind_ok]
    rw [ih h3 h1]
    rfl

/-- The bridge of a home has a history. -/
def Ran (b0 : Bridge) (h : Home) : Prop := ∃ bops, Bridge.run bops b0 = .ok (h.obs, h.bridge)

theorem act_ran {b0 : Bridge} {h h' : Home} {op : BOp} (hr : Ran b0 h) (ha : h.act op = .ok h') :
    Ran b0 h' := by
  obtain ⟨bops, hr⟩ := hr
  unfold Home.act at ha
  split at ha
  · cases ha
  · rename_i o b hs
    cases ha
    exact ⟨bops ++ [op], brun_snoc hr hs⟩

theorem step_ran {b0 : Bridge} {h h' : Home} {op : HomeOp} (hr : Ran b0 h)
    (hs : h.step op = .ok h') : Ran b0 h' := by
  cases op with
  | tick cx pf =>
    unfold Home.step at hs
    dsimp only at hs
    split at hs
    · exact act_ran hr hs
    · cases hs; exact hr
  | rest => cases hs; exact hr
  | wake => cases hs; exact hr
  | accept n => exact act_ran (op := .writable (.accept (n + 1))) hr hs
  | deliver n =>
    unfold Home.step at hs
    dsimp only at hs
    split at hs
    · cases hs; exact hr
    · exact act_ran (h := { h with line := h.line.drop (n + 1) }) hr hs
  | answer r =>
    unfold Home.step at hs
    dsimp only at hs
    split at hs
    · cases hs; exact hr
    · cases hs; exact hr
  | say m => cases hs; exact hr
  | post p c =>
    exact act_ran (h := { h with posted := h.posted ++ [c] }) (op := .deliver p) hr hs

theorem after_succ {h0 h h' : Home} {ops : Nat → HomeOp} {n : Nat}
    (h1 : Home.after h0 ops n = .ok h) (h2 : Home.after h0 ops (n + 1) = .ok h') :
    h.step (ops n) = .ok h' := by
  have : Home.after h0 ops (n + 1) = Home.after h0 ops n >>= fun h => h.step (ops n) := rfl
  rw [this, h1] at h2
  exact h2

theorem after_before {h0 h' : Home} {ops : Nat → HomeOp} {n : Nat}
    (h2 : Home.after h0 ops (n + 1) = .ok h') :
    ∃ h, Home.after h0 ops n = .ok h ∧ h.step (ops n) = .ok h' :=
  P_bind_ok.mp h2

/-- What holds at the start and is kept holds always. -/
theorem after_ind {h0 : Home} {ops : Nat → HomeOp} {I : Home → Prop} (h : I h0)
    (hk : ∀ {h h' op}, I h → h.step op = .ok h' → I h') :
    ∀ {n h}, Home.after h0 ops n = .ok h → I h := by
  intro n
  induction n with
  | zero => intro h' h1; cases h1; exact h
  | succ n ih =>
    intro h' h1
    obtain ⟨h, h2, h3⟩ := after_before h1
    exact hk (ih h2) h3

/-! ## What the broker holds -/

theorem toldTo_messages (obs : List BObs) : toldTo obs = (handled obs).filterMap messageOf := rfl

/-- At any time the broker holds what the bridge was told, but for a report withheld. -/
theorem run_shows {cfg : Cfg} {p0 : Panel} (hc : Connected p0) (hw : WfView p0)
    (hm : MapCfg cfg) (hd : DistinctNames cfg) {b0 : Bridge} (hs : Bridge.start cfg p0 = .ok b0)
    {m0 : ArmingStatusReport} (h0 : Latest p0 m0) {z0 : ZoneStatusReport}
    (hz0 : p0.zoneStatuses = .ok z0) {ops : List BOp} {obs : List BObs} {b : Bridge}
    (hr : Bridge.run ops b0 = .ok (obs, b)) (hn : b.panel.pendingArm = none) :
    Shows cfg b.log (lastOr ((toldTo obs).filterMap armingSaid) m0)
      (fun i => lastOr ((toldTo obs).filterMap (zoneSaid i)) z0.zones[i]) := by
  obtain ⟨r, z, hr1, hz1, _, h4, h5⟩ := C49_tracks hc hw hm hd hs hr
  have hh := bhist_of_run hr
  have hp0 : b0.panel = p0 := by
    obtain ⟨r0, hr0⟩ := hc.arming
    obtain ⟨_, _, _, rfl⟩ := (start_iff hr0 hz0 (hw z0 hz0)).mp hs
    rfl
  obtain ⟨pops, outs, k1, k2, k3, k4⟩ := bhist_panel hh
  rw [hp0] at k1
  have hl := C31_latest hc h0 k1
  have er : reports outs = (toldTo obs).filterMap armingSaid := by
    rw [toldTo_messages, ← k3]; exact reports_says _
  rw [er] at hl
  rcases hl with ⟨h, _⟩ | ⟨v, pa, _, hpa, _, _⟩
  · rw [hr1] at h
    cases h
    obtain ⟨z0', z', g1, g2, g3⟩ := C35_zones hc k1
    rw [hz0] at g1
    cases g1
    rw [hz1] at g2
    cases g2
    refine ⟨h4, fun a ha => ?_⟩
    obtain ⟨i, hi, hret⟩ := h5 a ha
    refine ⟨i, hi, ?_⟩
    rw [hret]
    have := g3 i.val i.isLt
    rw [zones_says, k3, ← toldTo_messages] at this
    show some (Payload.text (bs (zoneText z.zones[i.val].val.toNat))) = _
    rw [this]
    rfl
  · rw [hn] at hpa; cases hpa

/-! ## Nothing is told, nothing is withheld anew -/

/-- A poll that neither reads a message nor fires the timer leaves what is withheld, and a poll that
is pending hands the timer its waker. -/
theorem poll_waits {p p' : Panel} {cx : Cx} {w} (hg : Good p)
    (h : p.pollNext cx = .ok (.pending, w, p')) {pa : PendingArm} (hp : p'.pendingArm = some pa) :
    pa.waker = some cx.waker ∧ cx.timer < pa.deadline := by
  obtain ⟨x, new, h1, h2⟩ := pollNext_cases p cx hg.sane.rd hg.sane.arming
  rw [h] at h1
  cases h1
  cases h2 with
  | idle _ _ h' => rw [show p.pendingArm = _ from hp] at h'; cases h'
  | wait c pa' _ _ h' => cases hp; exact ⟨rfl, h'⟩

/-- The timer of a withheld report has the waker that `select!` sleeps with. -/
def TimerSet (h : Home) : Prop :=
  ∀ w pa, h.asleep = some w → h.bridge.waiting = .select → h.bridge.panel.pendingArm = some pa →
    pa.waker = some w

theorem dozes_some {a : Option Waker} {op : BOp} {o : BObs} {w : Waker} (ht : ∀ cx pf, op ≠ .tick cx pf)
    (h : dozes a op o = some w) : a = some w := by
  unfold dozes at h
  split at h
  · exact absurd rfl (ht _ _)
  · exact absurd rfl (ht _ _)
  · cases h
  · split at h
    · cases h
    · exact h
  · exact h

theorem act_timer {h h' : Home} {op : BOp} (hg : BGood h.bridge) (ht : TimerSet h)
    (ha : h.act op = .ok h') : TimerSet h' := by
  unfold Home.act at ha
  split at ha
  · cases ha
  · rename_i o b hs
    cases ha
    intro w pa h1 h2 h3
    have hb := bstep_cases hs
    change dozes h.asleep op o = some w at h1
    cases hb with
    | arrive r => exact ht w pa (dozes_some (fun _ _ h => by cases h) h1) h2 h3
    | writable r => exact ht w pa (dozes_some (fun _ _ h => by cases h) h1) h2 h3
    | deliver p => cases h1
    | event => cases h1
    | ignored => cases h1
    | asked => cases h1
    | idle cx pf ws panel _ _ hp =>
      cases h1
      exact (poll_waits hg.good hp h3).1
    | notReady cx pf c panel hw => rw [show h.bridge.waiting = _ from h2] at hw; cases hw
    | accepted => cases h1
    | notFlushed cx pf panel hw => rw [show h.bridge.waiting = _ from h2] at hw; cases hw
    | sent => cases h1

theorem step_timer {h h' : Home} {op : HomeOp} (hg : BGood h.bridge) (ht : TimerSet h)
    (hs : h.step op = .ok h') : TimerSet h' := by
  cases op with
  | tick cx pf =>
    unfold Home.step at hs
    dsimp only at hs
    split at hs
    · exact act_timer hg ht hs
    · cases hs; exact ht
  | rest => cases hs; exact ht
  | wake => cases hs; intro w pa h1; cases h1
  | accept n => exact act_timer (op := .writable (.accept (n + 1))) hg ht hs
  | deliver n =>
    unfold Home.step at hs
    dsimp only at hs
    split at hs
    · cases hs; exact ht
    · exact act_timer (h := { h with line := h.line.drop (n + 1) }) hg ht hs
  | answer r =>
    unfold Home.step at hs
    dsimp only at hs
    split at hs
    · cases hs; exact ht
    · cases hs; exact ht
  | say m => cases hs; exact ht
  | post p c =>
    exact act_timer (h := { h with posted := h.posted ++ [c] }) (op := .deliver p) hg ht hs

/-- Only running the task makes it sleep. -/
theorem step_asleep {h h' : Home} {op : HomeOp} (hs : h.step op = .ok h')
    (ho : h.asleep ≠ none ∨ ∀ cx pf, op ≠ .tick cx pf) :
    h'.asleep = h.asleep ∨ h'.asleep = none := by
  have key : ∀ {h h' : Home} {op : BOp}, (∀ cx pf, op ≠ .tick cx pf) → h.act op = .ok h' →
      h'.asleep = h.asleep ∨ h'.asleep = none := by
    intro h h' op ho ha
    unfold Home.act at ha
    split at ha
    · cases ha
    · rename_i o b _
      cases ha
      show dozes h.asleep op o = _ ∨ dozes h.asleep op o = _
      cases hd : dozes h.asleep op o with
      | none => exact .inr rfl
      | some w => exact .inl (dozes_some ho hd).symm
  cases op with
  | tick cx pf =>
    unfold Home.step at hs
    dsimp only at hs
    split at hs
    · rename_i hn
      rcases ho with ho | ho
      · exact absurd hn ho
      · exact absurd rfl (ho cx pf)
    · cases hs; exact .inl rfl
  | rest => cases hs; exact .inl rfl
  | wake => cases hs; exact .inr rfl
  | accept n => exact key (h := h) (op := .writable (.accept (n + 1))) (fun _ _ h => by cases h) hs
  | deliver n =>
    unfold Home.step at hs
    dsimp only at hs
    split at hs
    · cases hs; exact .inl rfl
    · exact key (h := { h with line := h.line.drop (n + 1) }) (fun _ _ h => by cases h) hs
  | answer r =>
    unfold Home.step at hs
    dsimp only at hs
    split at hs
    · cases hs; exact .inl rfl
    · cases hs; exact .inl rfl
  | say m => cases hs; exact .inl rfl
  | post p c =>
    exact key (h := { h with posted := h.posted ++ [c] }) (op := .deliver p)
      (fun _ _ h => by cases h) hs

/-! ## Settled -/

variable {h0 : Home} {ops : Nat → HomeOp}

theorem timer_at (hS : Schedule h0 ops) (h : h0.asleep = none) :
    ∀ {n s}, Holds h0 ops n s → TimerSet s.home := by
  intro n
  induction n with
  | zero =>
    intro s hs w pa h1
    have := hs.1
    cases this
    rw [h] at h1; cases h1
  | succ n ih =>
    intro s hs
    obtain ⟨s1, h1⟩ := holds_at hS n
    exact step_timer h1.2.wires.good (ih h1) (after_succ h1.1 hs.1)

/-- Nothing is under way, and `l` is all the panel has said. -/
structure AtRest (s : Now) (l : List Message) : Prop where
  reqs : s.reqs = []
  msgs : s.msgs = []
  stage : s.stage = 4
  said : s.home.said = l

theorem act_said {h h' : Home} {op} (ha : h.act op = .ok h') :
    h'.said = h.said ∧ h'.posted = h.posted := by
  unfold Home.act at ha
  split at ha
  · cases ha
  · cases ha; exact ⟨rfl, rfl⟩

theorem step_said {h h' : Home} {op : HomeOp} (hs : h.step op = .ok h')
    (hn : (∀ msg, op ≠ .say msg) ∧ ∀ p c, op ≠ .post p c)
    (he : h.bridge.panel.conn.sock.sent.drop h.taken = []) :
    h'.said = h.said ∧ h'.posted = h.posted := by
  cases op with
  | tick cx pf =>
    unfold Home.step at hs
    dsimp only at hs
    split at hs
    · exact act_said hs
    · cases hs; exact ⟨rfl, rfl⟩
  | rest => cases hs; exact ⟨rfl, rfl⟩
  | wake => cases hs; exact ⟨rfl, rfl⟩
  | accept n => exact act_said (h := h) (op := .writable (.accept (n + 1))) hs
  | deliver n =>
    unfold Home.step at hs
    dsimp only at hs
    split at hs
    · cases hs; exact ⟨rfl, rfl⟩
    · exact act_said (h := { h with line := h.line.drop (n + 1) }) hs
  | answer r =>
    unfold Home.step at hs
    rw [he] at hs
    cases hs; exact ⟨rfl, rfl⟩
  | say m => exact absurd rfl (hn.1 m)
  | post p c => exact absurd rfl (hn.2 p c)

/-- With nothing under way the bridge is at rest. -/
theorem stage_rest {h : Home} {k : Nat} (hst : AtStage h [] [] k)
    (hl : h.posted.length ≤ (given h.obs).length) : k = 4 := by
  have hcom : ¬ Coming [] [] := by
    rintro (h | ⟨r, h⟩)
    · exact h rfl
    · cases h
  cases hst with
  | quiet => rfl
  | posted p c _ _ _ _ _ g =>
    have := congrArg List.length g
    rw [List.length_append] at this
    simp only [List.length_cons, List.length_nil] at this
    omega
  | ready c _ _ _ _ g =>
    have := congrArg List.length g
    rw [List.length_append] at this
    simp only [List.length_cons, List.length_nil] at this
    omega
  | flush q _ _ _ g => exact absurd g hcom
  | await q w _ _ _ g => exact absurd g hcom

theorem rest_next (hS : Schedule h0 ops) {n : Nat} {s : Now} {l} (h : Holds h0 ops n s)
    (hr : AtRest s l) (hn : (∀ msg, ops n ≠ .say msg) ∧ ∀ p c, ops n ≠ .post p c) :
    ∃ s', Holds h0 ops (n + 1) s' ∧ AtRest s' l := by
  obtain ⟨s', h', h1, h2⟩ := holds_next hS h
  have hsame : s'.home.said = s.home.said ∧ s'.home.posted = s.home.posted := by
    refine step_said (after_succ h.1 h'.1) hn ?_
    have he := h.2.wires.asked
    rw [hr.reqs] at he
    exact (List.append_eq_nil_iff.mp he).1
  have hb := h.2.books
  have hb' := h'.2.books
  have htold : toldTo s.home.obs = l := by
    have := hb.said
    rw [hr.msgs, List.append_nil] at this
    rw [this, hr.said]
  have hlen := congrArg List.length hb'.said
  rw [List.length_append, hsame.1, hr.said, ← htold] at hlen
  have hle := (near_told h1 h2).length_le
  have hm : s'.msgs = [] := List.length_eq_zero_iff.mp (by omega)
  have hgiven : s.home.posted = given s.home.obs := (quiet_of h.2.stage hr.stage).2
  have hh := reqs_length hb
  rw [hr.reqs, List.length_nil, ← hgiven] at hh
  have hq := reqs_length hb'
  have hgp := (given_posted h'.2.stage).length_le
  have hhe := h2.heard.length_le
  rw [hsame.2] at hgp
  have hrq : s'.reqs = [] := List.length_eq_zero_iff.mp (by omega)
  refine ⟨s', h', hrq, hm, ?_, by rw [hsame.1, hr.said]⟩
  have hst := h'.2.stage
  rw [hrq, hm] at hst
  exact stage_rest hst (by rw [hsame.2]; omega)

/-- From `n` on the panel says nothing of its own accord, and nothing is posted. -/
def SilentFrom (ops : Nat → HomeOp) (n : Nat) : Prop :=
  ∀ m, n ≤ m → (∀ msg, ops m ≠ .say msg) ∧ ∀ p c, ops m ≠ .post p c

theorem rest_on (hS : Schedule h0 ops) {n : Nat} (hq : SilentFrom ops n) {s : Now} {l}
    (h : Holds h0 ops n s) (hr : AtRest s l) :
    ∀ m, n ≤ m → ∃ s', Holds h0 ops m s' ∧ AtRest s' l := by
  intro m hm
  obtain ⟨d, rfl⟩ := Nat.le.dest hm
  clear hm
  induction d with
  | zero => exact ⟨s, h, hr⟩
  | succ d ih =>
    obtain ⟨s1, h1, r1⟩ := ih
    exact rest_next hS h1 r1 (hq _ (Nat.le_add_right _ _))

theorem posted_next {n : Nat} {s s' : Now} (h : Holds h0 ops n s) (h' : Holds h0 ops (n + 1) s')
    (hn : ∀ p c, ops n ≠ .post p c) : s'.home.posted = s.home.posted := by
  have hs := after_succ h.1 h'.1
  generalize ops n = op at hs hn
  generalize s.home = a at hs
  generalize s'.home = b at hs
  cases op with
  | tick cx pf =>
    unfold Home.step at hs
    dsimp only at hs
    split at hs
    · exact (act_said hs).2
    · cases hs; rfl
  | rest => cases hs; rfl
  | wake => cases hs; rfl
  | accept n => exact (act_said (h := a) (op := .writable (.accept (n + 1))) hs).2
  | deliver n =>
    unfold Home.step at hs
    dsimp only at hs
    split at hs
    · cases hs; rfl
    · exact (act_said (h := { a with line := a.line.drop (n + 1) }) hs).2
  | answer r =>
    unfold Home.step at hs
    dsimp only at hs
    split at hs
    · cases hs; rfl
    · cases hs; rfl
  | say m => cases hs; rfl
  | post p c => exact absurd rfl (hn p c)

theorem posted_on (hS : Schedule h0 ops) {n : Nat} (hq : SilentFrom ops n) {s : Now}
    (h : Holds h0 ops n s) : ∀ d s', Holds h0 ops (n + d) s' → s'.home.posted = s.home.posted := by
  intro d
  induction d with
  | zero => intro s' h'; rw [holds_home h h']
  | succ d ih =>
    intro s' h'
    obtain ⟨s1, h1⟩ := holds_at hS (n + d)
    rw [posted_next h1 h' (hq _ (by omega)).2, ih s1 h1]

/-- In silence everything settles. -/
theorem settles (hS : Schedule h0 ops) (hq : FallsSilent ops) :
    ∃ n l, SilentFrom ops n ∧ ∃ s, Holds h0 ops n s ∧ AtRest s l := by
  obtain ⟨n, hq⟩ := hq
  have hq : SilentFrom ops n := hq
  obtain ⟨s, h⟩ := holds_at hS n
  obtain ⟨m1, hm1, s1, h1, hk1⟩ := comes_to_rest hS h
  obtain ⟨m2, hm2, s2, h2, hh⟩ := given_all hS h1
  -- everything posted is heard; the panel says nothing any more
  have hq2 : SilentFrom ops m2 := fun m hm => hq m (by omega)
  obtain ⟨m3, hm3, s3, h3, ht⟩ := said_all hS h2
  obtain ⟨m4, hm4, s4, h4, hk4⟩ := comes_to_rest hS h3
  obtain ⟨d1, rfl⟩ := Nat.le.dest hm1
  obtain ⟨d2, rfl⟩ := Nat.le.dest hm2
  obtain ⟨d3, rfl⟩ := Nat.le.dest hm3
  obtain ⟨d4, rfl⟩ := Nat.le.dest hm4
  have g3 := holds_mono hS h2 d3 s3 h3
  have g4 := holds_mono hS h3 d4 s4 h4
  have p2 := posted_on hS (fun m hm => hq m (by omega)) h1 d2 s2 h2
  have hpg := (quiet_of h1.2.stage hk1).2
  have hlen2 := hh.length_le
  rw [List.length_map, ← hpg] at hlen2
  -- from `m2` on no request is under way
  have hnone : ∀ d s', Holds h0 ops (n + d1 + d2 + d) s' → s'.reqs = [] := by
    intro d s' h'
    have g := holds_mono hS h2 d s' h'
    have hp := posted_on hS hq2 h2 d s' h'
    have h5 := reqs_length h'.2.books
    have h6 := (given_posted h'.2.stage).length_le
    have h7 := g.2.2.1.length_le
    rw [hp, p2] at h6
    exact List.length_eq_zero_iff.mp (by omega)
  -- so nothing more is said
  have hsaid : ∀ d s', Holds h0 ops (n + d1 + d2 + d) s' → s'.home.said = s2.home.said := by
    intro d
    induction d with
    | zero => intro s' h'; rw [holds_home h2 h']
    | succ d ih =>
      intro s' h'
      obtain ⟨s5, h5⟩ := holds_at hS (n + d1 + d2 + d)
      rw [← ih s5 h5]
      refine (step_said (after_succ h5.1 h'.1) (hq2 _ (by omega)) ?_).1
      have he := h5.2.wires.asked
      rw [hnone d s5 h5] at he
      exact (List.append_eq_nil_iff.mp he).1
  refine ⟨_, s4.home.said, fun m hm => hq m (by omega), s4, h4, ?_, ?_, hk4, rfl⟩
  · exact hnone (d3 + d4) s4 (by rw [← Nat.add_assoc]; exact h4)
  · have e := hsaid (d3 + d4) s4 (by rw [← Nat.add_assoc]; exact h4)
    have h5 := congrArg List.length h4.2.books.said
    rw [List.length_append, e] at h5
    have h6 := (ht.trans g4.2.2.2.2).length_le
    exact List.length_eq_zero_iff.mp (by omega)

/-! ## A withheld report comes out -/

/-- What becomes of a withheld report: it is given, or stays, and stays only if the task is not run
or it is not due. -/
def Lasts (h : Home) (op : HomeOp) (h' : Home) : Prop :=
  h'.bridge.panel.pendingArm = none ∨
  ∃ pa pa', h.bridge.panel.pendingArm = some pa ∧ h'.bridge.panel.pendingArm = some pa' ∧
    pa'.deadline = pa.deadline ∧
    ∀ cx pf, h.asleep = none → op = .tick cx pf → cx.timer < pa.deadline

theorem lasts_same {h h' : Home} {op : HomeOp}
    (he : h'.bridge.panel.pendingArm = h.bridge.panel.pendingArm)
    (ho : h.asleep = none → ∀ cx pf, op ≠ .tick cx pf) : Lasts h op h' := by
  cases hp : h.bridge.panel.pendingArm with
  | none => exact .inl (he.trans hp)
  | some pa => exact .inr ⟨pa, pa, hp, he.trans hp, rfl, fun cx pf ha h => absurd h (ho ha cx pf)⟩

theorem rest_tick {h h' : Home} {cx : Cx} {pf : Bool} (hi : HomeInv h [] [] 4)
    (hs : h.act (.tick cx pf) = .ok h') : Lasts h (.tick cx pf) h' := by
  obtain ⟨q, _⟩ := quiet_of hi.stage rfl
  have hw := hi.wires
  unfold Home.act at hs
  split at hs
  · cases hs
  · rename_i o b hb
    cases hs
    have poll : ∀ {r w p'}, h.bridge.panel.pollNext cx = .ok (r, w, p') →
        (r = .pending ∨ ∃ ev, r = .ready (some (.ok ev))) →
        p'.pendingArm = none ∨ ∃ pa pa', h.bridge.panel.pendingArm = some pa ∧
          p'.pendingArm = some pa' ∧ pa'.deadline = pa.deadline ∧ cx.timer < pa.deadline := by
      intro r w p' hp hr
      obtain ⟨x, new, h1, h2⟩ := pollNext_cases h.bridge.panel cx hw.good.good.sane.rd
        hw.good.good.sane.arming
      rw [hp] at h1
      cases h1
      cases h2 with
      | error => rcases hr with h | ⟨_, h⟩ <;> cases h
      | ended => rcases hr with h | ⟨_, h⟩ <;> cases h
      | packet pkt c ev _ _ g =>
        obtain ⟨m, t, h, _⟩ := read_frames g hw.wf hw.told
        cases h
      | idle c _ g => exact .inl g
      | wait c pa _ g1 g2 => exact .inr ⟨pa, _, g1, rfl, rfl, g2⟩
      | fire => exact .inl rfl
    have done : ∀ {panel : Panel} {h' : Home}, h'.bridge.panel = panel → (panel.pendingArm = none ∨
        ∃ pa pa', h.bridge.panel.pendingArm = some pa ∧ panel.pendingArm = some pa' ∧
          pa'.deadline = pa.deadline ∧ cx.timer < pa.deadline) → Lasts h (.tick cx pf) h' := by
      intro panel h' e hx
      subst e
      rcases hx with hx | ⟨pa, pa', g1, g2, g3, g4⟩
      · exact .inl hx
      · exact .inr ⟨pa, pa', g1, g2, g3, fun cx' pf' _ e => by cases e; exact g4⟩
    cases bstep_cases hb with
    | event _ _ ev out w panel _ hp => exact done rfl (poll hp (.inr ⟨ev, rfl⟩))
    | ignored _ _ p inbox _ _ _ _ hq => rw [q.1] at hq; cases hq
    | asked _ _ p inbox _ _ _ _ _ hq => rw [q.1] at hq; cases hq
    | idle _ _ w panel _ _ hp => exact done rfl (poll hp (.inl rfl))
    | notReady _ _ _ _ hq => rw [q.2.1] at hq; cases hq
    | accepted _ _ _ _ _ hq => rw [q.2.1] at hq; cases hq
    | notFlushed _ _ _ hq => rw [q.2.1] at hq; cases hq
    | sent _ _ _ hq => rw [q.2.1] at hq; cases hq

theorem act_pending {h h' : Home} {op : BOp} (ha : h.act op = .ok h')
    (ho : ∀ cx pf, op ≠ .tick cx pf) :
    h'.bridge.panel.pendingArm = h.bridge.panel.pendingArm := by
  unfold Home.act at ha
  split at ha
  · cases ha
  · rename_i o b hb
    cases ha
    cases op with
    | tick cx pf => exact absurd rfl (ho cx pf)
    | arrive r => cases hb; rfl
    | writable r => cases hb; rfl
    | deliver p => cases hb; rfl

theorem rest_lasts {h h' : Home} {op : HomeOp} (hi : HomeInv h [] [] 4)
    (hs : h.step op = .ok h') : Lasts h op h' := by
  cases op with
  | tick cx pf =>
    unfold Home.step at hs
    dsimp only at hs
    split at hs
    · exact rest_tick hi hs
    · rename_i ha; cases hs; exact lasts_same rfl fun h => absurd h ha
  | rest => cases hs; exact lasts_same rfl fun _ _ _ h => by cases h
  | wake => cases hs; exact lasts_same rfl fun _ _ _ h => by cases h
  | accept n =>
    exact lasts_same (act_pending (h := h) (op := .writable (.accept (n + 1))) hs
      (fun _ _ h => by cases h)) fun _ _ _ h => by cases h
  | deliver n =>
    unfold Home.step at hs
    dsimp only at hs
    split at hs
    · cases hs; exact lasts_same rfl fun _ _ _ h => by cases h
    · exact lasts_same (act_pending (h := { h with line := h.line.drop (n + 1) }) hs
        (fun _ _ h => by cases h)) fun _ _ _ h => by cases h
  | answer r =>
    unfold Home.step at hs
    dsimp only at hs
    split at hs
    · cases hs; exact lasts_same rfl fun _ _ _ h => by cases h
    · cases hs; exact lasts_same rfl fun _ _ _ h => by cases h
  | say m => cases hs; exact lasts_same rfl fun _ _ _ h => by cases h
  | post p c =>
    exact lasts_same (act_pending (h := { h with posted := h.posted ++ [c] }) (op := .deliver p) hs
      (fun _ _ h => by cases h)) fun _ _ _ h => by cases h

/-- At rest from `n` on. -/
def RestFrom (h0 : Home) (ops : Nat → HomeOp) (n : Nat) (l : List Message) : Prop :=
  ∀ m, n ≤ m → ∃ h, Home.after h0 ops m = .ok h ∧ HomeInv h [] [] 4 ∧ TimerSet h ∧ h.said = l

theorem lasts_at {n : Nat} {l} (hr : RestFrom h0 ops n l) {m : Nat} (hm : n ≤ m) {h h' : Home}
    (h1 : Home.after h0 ops m = .ok h) (h2 : Home.after h0 ops (m + 1) = .ok h') :
    Lasts h (ops m) h' := by
  obtain ⟨g, g1, g2, _⟩ := hr m hm
  rw [g1] at h1
  cases h1
  exact rest_lasts g2 (after_succ g1 h2)

/-- No report is withheld at `m`. -/
def Clear (h0 : Home) (ops : Nat → HomeOp) (m : Nat) : Prop :=
  ∃ h, Home.after h0 ops m = .ok h ∧ h.bridge.panel.pendingArm = none

theorem clear_on {n : Nat} {l} (hr : RestFrom h0 ops n l) {m : Nat} (hm : n ≤ m)
    (hc : Clear h0 ops m) : ∀ k, m ≤ k → Clear h0 ops k := by
  intro k hk
  obtain ⟨d, rfl⟩ := Nat.le.dest hk
  clear hk
  induction d with
  | zero => exact hc
  | succ d ih =>
    obtain ⟨h, h1, h2⟩ := ih
    obtain ⟨h', h3, _⟩ := hr (m + d + 1) (by omega)
    refine ⟨h', h3, ?_⟩
    rcases lasts_at hr (Nat.le_trans hm (Nat.le_add_right _ _)) h1 h3 with h | ⟨pa, _, h, _⟩
    · exact h
    · rw [h2] at h; cases h

/-- A report withheld with this deadline. -/
def Withheld (h : Home) (t : Nat) : Prop := ∃ pa, h.bridge.panel.pendingArm = some pa ∧ pa.deadline = t

/-- Time `t` is past: every run of the task from `m` on is after it. -/
def TimePast (ops : Nat → HomeOp) (m t : Nat) : Prop :=
  ∀ k, m ≤ k → ∀ cx pf, ops k = .tick cx pf → t ≤ cx.timer

theorem withheld_next {n : Nat} {l} (hr : RestFrom h0 ops n l) {m t : Nat} (hm : n ≤ m)
    {h : Home} (h1 : Home.after h0 ops m = .ok h) (hw : Withheld h t) :
    Clear h0 ops (m + 1) ∨ ∃ h', Home.after h0 ops (m + 1) = .ok h' ∧ Withheld h' t ∧
      ∀ cx pf, h.asleep = none → ops m = .tick cx pf → cx.timer < t := by
  obtain ⟨h', h3, _⟩ := hr (m + 1) (by omega)
  obtain ⟨pa, hp, rfl⟩ := hw
  rcases lasts_at hr hm h1 h3 with h | ⟨pa1, pa', g1, g2, g3, g4⟩
  · exact .inl ⟨h', h3, h⟩
  · rw [hp] at g1
    cases g1
    exact .inr ⟨h', h3, ⟨pa', g2, g3⟩, g4⟩

/-- A task that is awake gives the report when it is run. -/
theorem awake_clears {n : Nat} {l} (hr : RestFrom h0 ops n l) {t : Nat} : ∀ d m, n ≤ m →
    TimePast ops m t → (∃ cx pf, ops (m + d) = .tick cx pf) →
    ∀ h, Home.after h0 ops m = .ok h → Withheld h t → h.asleep = none →
    ∃ k, n ≤ k ∧ Clear h0 ops k := by
  intro d
  induction d with
  | zero =>
    intro m hm hp ⟨cx, pf, ho⟩ h h1 hw ha
    rcases withheld_next hr hm h1 hw with h | ⟨h', _, _, h⟩
    · exact ⟨m + 1, by omega, h⟩
    · have := hp m (Nat.le_refl _) cx pf ho
      have := h cx pf ha ho
      omega
  | succ d ih =>
    intro m hm hp ho h h1 hw ha
    rcases withheld_next hr hm h1 hw with h | ⟨h', g1, g2, g3⟩
    · exact ⟨m + 1, by omega, h⟩
    · by_cases hk : ∃ cx pf, ops m = .tick cx pf
      · obtain ⟨cx, pf, hk⟩ := hk
        have := hp m (Nat.le_refl _) cx pf hk
        have := g3 cx pf ha hk
        omega
      · refine ih (m + 1) (by omega) (fun k hk' => hp k (by omega)) ?_ h' g1 g2 ?_
        · rw [Nat.add_right_comm]; exact ho
        · rcases step_asleep (after_succ h1 g1) (.inr fun cx pf e => hk ⟨cx, pf, e⟩) with e | e
          · exact e.trans ha
          · exact e

/-- A task that does not sleep for ever gives the report. -/
theorem woken_clears {n : Nat} {l} (hr : RestFrom h0 ops n l) (hf : KeepActing ops) {t : Nat}
    {w : Waker} : ∀ d m, n ≤ m → TimePast ops m t →
    (∃ h', Home.after h0 ops (m + d) = .ok h' ∧ h'.asleep ≠ some w) →
    ∀ h, Home.after h0 ops m = .ok h → Withheld h t → h.asleep = some w →
    ∃ k, n ≤ k ∧ Clear h0 ops k := by
  intro d
  induction d with
  | zero =>
    intro m hm hp ⟨h', h2, h3⟩ h h1 hw ha
    rw [Nat.add_zero, h1] at h2
    cases h2
    exact absurd ha h3
  | succ d ih =>
    intro m hm hp ho h h1 hw ha
    rcases withheld_next hr hm h1 hw with h | ⟨h', g1, g2, g3⟩
    · exact ⟨m + 1, by omega, h⟩
    · rcases step_asleep (after_succ h1 g1) (.inl (by rw [ha]; exact fun h => by cases h)) with e | e
      · refine ih (m + 1) (by omega) (fun k hk' => hp k (by omega)) ?_ h' g1 g2 (e.trans ha)
        rw [Nat.add_right_comm]; exact ho
      · obtain ⟨k, hk, hw'⟩ := hf .library (by decide) (m + 1)
        obtain ⟨d', rfl⟩ := Nat.le.dest hk
        refine awake_clears hr d' (m + 1) (by omega) (fun k hk' => hp k (by omega)) ?_ h' g1 g2 e
        cases hop : ops (m + 1 + d') with
        | tick cx pf => exact ⟨cx, pf, rfl⟩
        | _ => rw [hop] at hw'; cases hw'

/-- At rest, a report withheld comes out, once its time has come. -/
theorem clears {n : Nat} {l} (hr : RestFrom h0 ops n l) (hf : KeepActing ops) (hc : ClockRuns ops)
    (ht : TimersFire h0 ops) : ∃ k, n ≤ k ∧ Clear h0 ops k := by
  obtain ⟨h, h1, _⟩ := hr n (Nat.le_refl _)
  cases hp : h.bridge.panel.pendingArm with
  | none => exact ⟨n, Nat.le_refl _, h, h1, hp⟩
  | some pa =>
    obtain ⟨m, hm⟩ := hc pa.deadline
    have hP : TimePast ops (n + m) pa.deadline := fun k hk => hm k (by omega)
    -- the report is still withheld at that time, or out
    have key : ∀ d, (∃ k, n ≤ k ∧ Clear h0 ops k) ∨
        ∃ h', Home.after h0 ops (n + d) = .ok h' ∧ Withheld h' pa.deadline := by
      intro d
      induction d with
      | zero => exact .inr ⟨h, h1, pa, hp, rfl⟩
      | succ d ih =>
        rcases ih with h | ⟨h', g1, g2⟩
        · exact .inl h
        · rcases withheld_next hr (Nat.le_add_right _ _) g1 g2 with h | ⟨h'', k1, k2, _⟩
          · exact .inl ⟨n + d + 1, by omega, h⟩
          · exact .inr ⟨h'', k1, k2⟩
    rcases key m with h | ⟨h', g1, g2⟩
    · exact h
    · cases ha : h'.asleep with
      | none =>
        obtain ⟨k, hk, hw'⟩ := hf .library (by decide) (n + m)
        obtain ⟨d', rfl⟩ := Nat.le.dest hk
        refine awake_clears hr d' (n + m) (Nat.le_add_right _ _) hP ?_ h' g1 g2 ha
        cases hop : ops (n + m + d') with
        | tick cx pf => exact ⟨cx, pf, rfl⟩
        | _ => rw [hop] at hw'; cases hw'
      | some w =>
        obtain ⟨h'', k1, k2, k3, _⟩ := hr (n + m) (Nat.le_add_right _ _)
        rw [g1] at k1
        cases k1
        obtain ⟨pa', hp', he⟩ := g2
        have hsel := (quiet_of k2.stage rfl).1.2.1
        obtain ⟨m', h3, hm', h4, h5⟩ := ht _ _ _ _ g1 hp' (k3 w pa' ha hsel hp') ha
        obtain ⟨d', rfl⟩ := Nat.le.dest hm'
        exact woken_clears hr hf d' (n + m) (Nat.le_add_right _ _) hP ⟨h3, h4, h5⟩ h' g1
          ⟨pa', hp', he⟩ ha

/-! ## The log of the bridge -/

theorem act_log {h h' : Home} {op : BOp} (hs : h.act op = .ok h') :
    h.bridge.log <+: h'.bridge.log ∧
      ((∀ cx pf, op ≠ .tick cx pf) → h'.bridge.log = h.bridge.log) := by
  unfold Home.act at hs
  split at hs
  · cases hs
  · rename_i o b hb
    cases hs
    refine ⟨?_, fun hn => ?_⟩
    · show h.bridge.log <+: b.log
      rw [(bcase_static (bstep_cases hb)).2.2.2]
      exact List.prefix_append _ _
    · show b.log = _
      cases op with
      | arrive r => cases hb; rfl
      | writable r => cases hb; rfl
      | deliver r => cases hb; rfl
      | tick cx pf => exact absurd rfl (hn cx pf)

theorem home_log {h h' : Home} {op : HomeOp} (hs : h.step op = .ok h') :
    h.bridge.log <+: h'.bridge.log ∧
      ((∀ cx pf, op ≠ .tick cx pf) → h'.bridge.log = h.bridge.log) := by
  have same : h'.bridge.log = h.bridge.log → h.bridge.log <+: h'.bridge.log ∧
      ((∀ cx pf, op ≠ .tick cx pf) → h'.bridge.log = h.bridge.log) :=
    fun h => ⟨h ▸ List.prefix_refl _, fun _ => h⟩
  cases op with
  | tick cx pf =>
    unfold Home.step at hs
    dsimp only at hs
    split at hs
    · exact ⟨(act_log hs).1, fun h => absurd rfl (h cx pf)⟩
    · cases hs; exact same rfl
  | rest => cases hs; exact same rfl
  | wake => cases hs; exact same rfl
  | accept n =>
    exact same ((act_log (op := .writable (.accept (n + 1))) hs).2 fun _ _ h => by cases h)
  | deliver n =>
    unfold Home.step at hs
    dsimp only at hs
    split at hs
    · cases hs; exact same rfl
    · exact same ((act_log hs).2 fun _ _ h => by cases h)
  | answer r =>
    unfold Home.step at hs
    dsimp only at hs
    split at hs <;> cases hs <;> exact same rfl
  | say m => cases hs; exact same rfl
  | post p c =>
    exact same ((act_log (h := { h with posted := h.posted ++ [c] }) (op := .deliver p) hs).2
      fun _ _ h => by cases h)

/-- At rest with no report withheld, the bridge publishes nothing. -/
theorem clear_log {h h' : Home} {op : HomeOp} (hi : HomeInv h [] [] 4)
    (hn : h.bridge.panel.pendingArm = none) (hs : h.step op = .ok h') :
    h'.bridge.log = h.bridge.log := by
  by_cases ht : ∃ cx pf, op = .tick cx pf
  · obtain ⟨cx, pf, rfl⟩ := ht
    unfold Home.step at hs
    dsimp only at hs
    split at hs
    · have hw := hi.wires
      unfold Home.act at hs
      split at hs
      · cases hs
      · rename_i o b hb
        cases hs
        cases bstep_cases hb with
        | event _ _ ev out w panel _ hp =>
          obtain ⟨x, new, h1, h2⟩ := pollNext_cases h.bridge.panel cx hw.good.good.sane.rd
            hw.good.good.sane.arming
          rw [hp] at h1
          cases h1
          cases h2 with
          | packet pkt c ev _ _ g =>
            obtain ⟨m, t, h, _⟩ := read_frames g hw.wf hw.told
            cases h
          | fire _ _ _ _ g => rw [hn] at g; cases g
        | _ => rfl
    · cases hs; rfl
  · exact (home_log hs).2 fun cx pf h => ht ⟨cx, pf, h⟩

/-- C109, and from that time on nothing is published any more.  The bridge, the line, the panel and the broker of C104, once the panel pauses and no
more commands are posted, while the clock runs on and timers fire.  From some time on, for ever, the
retained topics at the broker show what the panel said last: for each configured area the last report
on its arming, for each zone the last status the panel told.  No report stays withheld, and no zone
is missed. -/
theorem settles_for_good {cfg : Cfg} {p0 : Panel} (hc : Connected p0) (hv : WfView p0)
    (hm : MapCfg cfg) (hd : DistinctNames cfg) {b0 : Bridge} (hs : Bridge.start cfg p0 = .ok b0)
    {m0 : ArmingStatusReport} (hm0 : Latest p0 m0) {z0 : ZoneStatusReport}
    (hz0 : p0.zoneStatuses = .ok z0) (hu : Lively p0.conn) {line : Bytes} {early : List Message}
    (he : ∀ m ∈ early, WfMessage m ∧ ∀ r, m ≠ .zoneStatusReport r)
    (hl : p0.conn.rd.buffer ++ dataBytes p0.conn.sock.incoming ++ line = early.flatMap frame)
    {ops : Nat → HomeOp} (hf : KeepActing ops)
    (hp : ∀ n h, Home.after (Home.start b0 line early) ops n = .ok h → (ops n).Proper h)
    (hq : FallsSilent ops) (hck : ClockRuns ops)
    (ht : TimersFire (Home.start b0 line early) ops) :
    ∃ n log, ∀ m, n ≤ m → ∃ h, Home.after (Home.start b0 line early) ops m = .ok h ∧
      h.bridge.log = log ∧
      Quiet h.bridge ∧ h.heard = h.posted.map commandBytes ∧
      Shows cfg h.bridge.log (lastOr (h.said.filterMap armingSaid) m0)
        (fun i => lastOr (h.said.filterMap (zoneSaid i)) z0.zones[i]) := by
  have hS : Schedule (Home.start b0 line early) ops :=
    ⟨⟨_, _, _, home_start hc hv hs hd hu he hl⟩, hp, hf⟩
  obtain ⟨n, l, hq', s, h, hr⟩ := settles hS hq
  have hrest : RestFrom (Home.start b0 line early) ops n l := by
    intro m hm
    obtain ⟨s', h', hr'⟩ := rest_on hS hq' h hr m hm
    refine ⟨s'.home, h'.1, ?_, timer_at hS rfl h', hr'.said⟩
    have := h'.2
    rw [hr'.reqs, hr'.msgs, hr'.stage] at this
    exact this
  obtain ⟨k, hk, hcl⟩ := clears hrest hf hck ht
  obtain ⟨hk1, hk2, _⟩ := id hcl
  refine ⟨k, hk1.bridge.log, fun m hm' => ?_⟩
  obtain ⟨h1, g1, g2⟩ := clear_on hrest hk hcl m hm'
  obtain ⟨h2, g3, g4, _, g5⟩ := hrest m (by omega)
  rw [g1] at g3
  cases g3
  refine ⟨h1, g1, ?_, (quiet_of g4.stage rfl).1, ?_, ?_⟩
  · clear g2 g5 g4
    rename_i gt
    clear gt
    obtain ⟨d, rfl⟩ := Nat.le.dest hm'
    clear hm'
    induction d generalizing h1 with
    | zero => rw [Nat.add_zero, hk2] at g1; cases g1; rfl
    | succ d ih =>
      obtain ⟨h2, e1, e2⟩ := clear_on hrest hk hcl (k + d) (by omega)
      obtain ⟨h3, e3, e4, _⟩ := hrest (k + d) (by omega)
      rw [e1] at e3
      cases e3
      rw [clear_log e4 e2 (after_succ e1 g1)]
      exact ih h2 e1
  · have := g4.books.heard
    rw [List.map_nil, List.append_nil] at this
    rw [this, (quiet_of g4.stage rfl).2]
  · obtain ⟨bops, hb⟩ : Ran b0 h1 := after_ind (I := Ran b0) ⟨[], rfl⟩ step_ran g1
    have := run_shows hc hv hm hd hs hm0 hz0 hb g2
    have hsaid := g4.books.said
    rw [List.append_nil] at hsaid
    rw [hsaid] at this
    exact this

/-- **C109.** The bridge, the line, the panel and the broker of C104, once the panel pauses and no
more commands are posted, while the clock runs on and timers fire.  From some time on, for ever, the
retained topics at the broker show what the panel said last: for each configured area the last report
on its arming, for each zone the last status the panel told.  No report stays withheld, and no zone
is missed. -/
theorem C109_catches_up {cfg : Cfg} {p0 : Panel} (hc : Connected p0) (hv : WfView p0)
    (hm : MapCfg cfg) (hd : DistinctNames cfg) {b0 : Bridge} (hs : Bridge.start cfg p0 = .ok b0)
    {m0 : ArmingStatusReport} (hm0 : Latest p0 m0) {z0 : ZoneStatusReport}
    (hz0 : p0.zoneStatuses = .ok z0) (hu : Lively p0.conn) {line : Bytes} {early : List Message}
    (he : ∀ m ∈ early, WfMessage m ∧ ∀ r, m ≠ .zoneStatusReport r)
    (hl : p0.conn.rd.buffer ++ dataBytes p0.conn.sock.incoming ++ line = early.flatMap frame)
    {ops : Nat → HomeOp} (hf : KeepActing ops)
    (hp : ∀ n h, Home.after (Home.start b0 line early) ops n = .ok h → (ops n).Proper h)
    (hq : FallsSilent ops) (hck : ClockRuns ops)
    (ht : TimersFire (Home.start b0 line early) ops) :
    ∃ n, ∀ m, n ≤ m → ∃ h, Home.after (Home.start b0 line early) ops m = .ok h ∧
      Quiet h.bridge ∧ h.heard = h.posted.map commandBytes ∧
      Shows cfg h.bridge.log (lastOr (h.said.filterMap armingSaid) m0)
        (fun i => lastOr (h.said.filterMap (zoneSaid i)) z0.zones[i]) := by
  obtain ⟨n, _, h⟩ := settles_for_good hc hv hm hd hs hm0 hz0 hu he hl hf hp hq hck ht
  refine ⟨n, fun m hm' => ?_⟩
  obtain ⟨h, h1, _, h2⟩ := h m hm'
  exact ⟨h, h1, h2⟩

/-! ## A sample -/

/-- All take turns, with a clock that runs. -/
def evening (n : Nat) : HomeOp :=
  match n % 5 with
  | 0 => .tick ⟨1, n, n⟩ false
  | 1 => .accept 3
  | 2 => .answer noted
  | 3 => .deliver 2
  | _ => .wake

theorem evening_at (n : Nat) : evening (5 * n) = .tick ⟨1, 5 * n, 5 * n⟩ false ∧
    evening (5 * n + 1) = .accept 3 ∧ evening (5 * n + 2) = .answer noted ∧
    evening (5 * n + 3) = .deliver 2 ∧ evening (5 * n + 4) = .wake := by
  refine ⟨?_, ?_, ?_, ?_, ?_⟩ <;> unfold evening
  · rw [show (5 * n) % 5 = 0 by omega]; rfl
  · rw [show (5 * n + 1) % 5 = 1 by omega]; rfl
  · rw [show (5 * n + 2) % 5 = 2 by omega]; rfl
  · rw [show (5 * n + 3) % 5 = 3 by omega]; rfl
  · rw [show (5 * n + 4) % 5 = 4 by omega]; rfl

theorem evening_cases (n : Nat) : evening n = .tick ⟨1, n, n⟩ false ∨ evening n = .accept 3 ∨
    evening n = .answer noted ∨ evening n = .deliver 2 ∨ evening n = .wake := by
  unfold evening
  split
  · exact .inl rfl
  · exact .inr (.inl rfl)
  · exact .inr (.inr (.inl rfl))
  · exact .inr (.inr (.inr (.inl rfl)))
  · exact .inr (.inr (.inr (.inr rfl)))

theorem evening_fair : KeepActing evening := by
  intro w hw n
  obtain ⟨h1, h2, h3, h4, _⟩ := evening_at n
  cases w with
  | library => exact ⟨5 * n, by omega, by rw [h1]; rfl⟩
  | socket => exact ⟨5 * n + 1, by omega, by rw [h2]; rfl⟩
  | panel => exact ⟨5 * n + 2, by omega, by rw [h3]; rfl⟩
  | line => exact ⟨5 * n + 3, by omega, by rw [h4]; rfl⟩
  | chance => exact absurd rfl hw

theorem evening_silent : FallsSilent evening := by
  refine ⟨0, fun m _ => ?_⟩
  rcases evening_cases m with h | h | h | h | h <;> rw [h] <;>
    exact ⟨(fun _ h => by cases h), fun _ _ h => by cases h⟩

theorem evening_clock : ClockRuns evening := by
  intro t
  refine ⟨t, fun m hm cx pf h => ?_⟩
  rcases evening_cases m with h' | h' | h' | h' | h' <;> rw [h'] at h <;> cases h
  exact hm

theorem evening_proper {h : Home} (n : Nat) : (evening n).Proper h := by
  rcases evening_cases n with h | h | h | h | h <;> rw [h]
  · exact trivial
  · exact trivial
  · exact (show WfMessage (.sendCode noted) from ⟨by decide, by decide⟩)
  · exact trivial
  · exact trivial

theorem evening_timers {h0 : Home} (hS : Schedule h0 evening) : TimersFire h0 evening := by
  intro n h pa w _ _ _ _
  obtain ⟨s, hs⟩ := holds_at hS (5 * n + 4)
  obtain ⟨s', hs'⟩ := holds_at hS (5 * n + 4 + 1)
  refine ⟨_, s'.home, (by omega : n ≤ 5 * n + 4 + 1), hs'.1, ?_⟩
  have := after_succ hs.1 hs'.1
  rw [(evening_at n).2.2.2.2] at this
  rw [← Except.ok.inj this]
  exact fun h => by cases h

/-- What the panel says of arming in the evening. -/
theorem evening_said {h0 : Home} : ∀ {n h}, Home.after h0 evening n = .ok h →
    h.said.filterMap armingSaid = h0.said.filterMap armingSaid := by
  intro n
  induction n with
  | zero => intro h h1; cases h1; rfl
  | succ n ih =>
    intro h' h1
    obtain ⟨h, h2, h3⟩ := after_before h1
    rw [← ih h2]
    rcases evening_cases n with e | e | e | e | e <;> rw [e] at h3
    · unfold Home.step at h3
      dsimp only at h3
      split at h3
      · rw [(act_said h3).1]
      · cases h3; rfl
    · rw [(act_said (h := h) (op := .writable (.accept 4)) h3).1]
    · unfold Home.step at h3
      dsimp only at h3
      split at h3
      · cases h3; rfl
      · cases h3
        rw [List.filterMap_append]
        exact List.append_nil _
    · unfold Home.step at h3
      dsimp only at h3
      split at h3
      · cases h3; rfl
      · rw [(act_said (h := { h with line := h.line.drop (2 + 1) }) h3).1]
    · cases h3; rfl

/-- Non-vacuity: the panel has reported that it is armed, which is suspicious: the bridge withholds
it, and the broker shows it in the end. -/
theorem C109_sample : ∃ b0, Bridge.start sampleCfg (samplePanel []) = .ok b0 ∧
    retained b0.log (bs "elkm1/42/area/home/ha_state") = some (.text (bs "disarmed")) ∧
    (∃ n h pa, Home.after (Home.start b0 (frame (.armingStatusReport armedReport))
        [.armingStatusReport armedReport]) evening n = .ok h ∧
      h.bridge.panel.pendingArm = some pa) ∧
    ∃ n, ∀ m, n ≤ m → ∃ h, Home.after (Home.start b0 (frame (.armingStatusReport armedReport))
        [.armingStatusReport armedReport]) evening m = .ok h ∧
      retained h.bridge.log (bs "elkm1/42/area/home/ha_state") = some (.text (bs "armed_away")) := by
  have key : holds (Bridge.start sampleCfg (samplePanel [])) (fun b =>
      (match retained b.log (bs "elkm1/42/area/home/ha_state") with
        | some (.text t) => decide (t = bs "disarmed") | _ => false) &&
      holds (Home.after (Home.start b (frame (.armingStatusReport armedReport))
        [.armingStatusReport armedReport]) evening 70) (fun h =>
          h.bridge.panel.pendingArm.isSome)) = true := by decide +kernel
  obtain ⟨b0, h1, h2⟩ := of_holds key
  simp only [Bool.and_eq_true] at h2
  have h0 : retained b0.log (bs "elkm1/42/area/home/ha_state") = some (.text (bs "disarmed")) := by
    have := h2.1
    split at this
    · rename_i t ht
      rw [ht, of_decide_eq_true this]
    · cases this
  obtain ⟨h, h3, h4⟩ := of_holds h2.2
  obtain ⟨pa, h4⟩ := Option.isSome_iff_exists.mp h4
  have hwf : ∀ m ∈ [Message.armingStatusReport armedReport], WfMessage m ∧
      ∀ r, m ≠ .zoneStatusReport r := by
    intro m hm
    rw [List.mem_singleton] at hm
    subst hm
    exact ⟨trivial, fun _ h => by cases h⟩
  have hlive : Lively (samplePanel []).conn :=
    ⟨rfl, rfl, (fun _ h => by cases h), (fun _ h => by cases h)⟩
  have hS : Schedule (Home.start b0 (frame (.armingStatusReport armedReport))
      [.armingStatusReport armedReport]) evening :=
    ⟨⟨_, _, _, home_start (samplePanel_connected []) (samplePanel_view []) h1 sampleCfg_distinct
      hlive hwf rfl⟩, fun n _ _ => evening_proper n, evening_fair⟩
  refine ⟨b0, h1, h0, ⟨70, h, pa, h3, h4⟩, ?_⟩
  obtain ⟨n, hn⟩ := C109_catches_up (samplePanel_connected []) (samplePanel_view []) sampleCfg_map
    sampleCfg_distinct h1 (m0 := sameReport .disarmed .readyToArm) (.inl ⟨rfl, rfl⟩)
    (z0 := .allUnconfigured) rfl hlive hwf rfl evening_fair (fun n _ _ => evening_proper n)
    evening_silent evening_clock (evening_timers hS)
  refine ⟨n, fun m hm => ?_⟩
  obtain ⟨h', g1, _, _, g2⟩ := hn m hm
  refine ⟨h', g1, ?_⟩
  have e : lastOr (h'.said.filterMap armingSaid) (sameReport .disarmed .readyToArm) = armedReport := by
    rw [evening_said g1]; rfl
  rw [e] at g2
  obtain ⟨t, g3, g4⟩ := g2.areas (1, ⟨bs "home"⟩) (by decide) 0 (by decide) (by decide +kernel)
  have ht : t = "armed_away" := by
    cases g3 with
    | triggered h => exact absurd h (show ¬ IsAlarm .noAlarmActive from id)
    | pending h => exact absurd h (by decide +kernel)
    | arming _ _ h => exact absurd h (by decide +kernel)
    | mode => rfl
  rw [← ht]
  exact (by decide +kernel : sampleCfg.prefix ++ bs "/area/" ++ bs "home" ++ bs "/ha_state" =
    bs "elkm1/42/area/home/ha_state") ▸ g4

end Elk.Props
