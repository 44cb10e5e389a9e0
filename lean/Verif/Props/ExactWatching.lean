import Verif.Props.ExactProgram
import Verif.Props.Watching
import Verif.Spec.ExactWatching
/-!
# `elkm1-cli watch` does exactly what the reference machine allows (C141)
-/

namespace Elk.Props
open Elk.Spec

/-! ## Histories -/

/-- What is recorded of an operation. -/
def glanceOf (w : Watcher) (op : WatcherOp) (log : List Record) (w₁ : Watcher) : Glance :=
  ⟨op, (lineSeen w₁).1.drop (lineSeen w).1.length, (lineSeen w₁).2.drop (lineSeen w).2.length, log⟩

theorem glances_cons {on : Callsite → Bool} {op : WatcherOp} {ops : List WatcherOp} {w w2 : Watcher}
    {ds : List Glance} :
    tracedWatch on (op :: ops) w = .ok (ds, w2) ↔ ∃ log w1 ds', w.stepL on op = .ok (log, w1) ∧
      tracedWatch on ops w1 = .ok (ds', w2) ∧ ds = glanceOf w op log w1 :: ds' := by
  have e : tracedWatch on (op :: ops) w = (w.stepL on op >>= fun x => tracedWatch on ops x.2 >>=
      fun y => .ok (glanceOf w op x.1 x.2 :: y.1, y.2)) := rfl
  rw [e, P_bind_ok]
  constructor
  · rintro ⟨⟨o, q⟩, h1, h2⟩
    rw [P_bind_ok] at h2
    obtain ⟨⟨ts, q'⟩, h3, h4⟩ := h2
    cases h4
    exact ⟨o, q, ts, h1, h3, rfl⟩
  · rintro ⟨o, q, ts, h1, h3, rfl⟩
    exact ⟨(o, q), h1, by rw [h3]; rfl⟩

theorem glances_append {on : Callsite → Bool} {x y : List WatcherOp} : ∀ {w w1 w2 : Watcher}
    {dx dy : List Glance}, tracedWatch on x w = .ok (dx, w1) → tracedWatch on y w1 = .ok (dy, w2) →
    tracedWatch on (x ++ y) w = .ok (dx ++ dy, w2) := by
  induction x with
  | nil => intro w w1 w2 dx dy h1 h2; cases h1; exact h2
  | cons op x ih =>
    intro w w1 w2 dx dy h1 h2
    obtain ⟨o, q, ts, h3, h4, rfl⟩ := glances_cons.mp h1
    exact glances_cons.mpr ⟨o, q, ts ++ dy, h3, ih h4 h2, rfl⟩

theorem glances_one {on : Callsite → Bool} {op : WatcherOp} {w w1 : Watcher} {log : List Record}
    (h : w.stepL on op = .ok (log, w1)) :
    tracedWatch on [op] w = .ok ([glanceOf w op log w1], w1) :=
  glances_cons.mpr ⟨log, w1, [], h, rfl, rfl⟩

theorem glance_append (a b : List Glance) : glances (a ++ b) = glances a ++ glances b := by
  simp [glances]

theorem glance_cons (d : Glance) (l : List Glance) :
    glances (d :: l) = if isGlance d.op then d :: glances l else glances l := by
  simp [glances, List.filter_cons]

/-! ## `watch` does only what the machine allows -/

/-- The connection to the panel, while it matters, has neither failed nor ended. -/
def Awake : Watcher → Prop
  | .dialing => True
  | .connecting i => Unbroken i.panel.conn
  | .watching (.watching p) => Unbroken p.conn
  | .watching (.done _) => True

theorem watchTick_next {p : Panel} (hg : Unasked p) (cx : Cx) :
    ∃ r w p', p.pollNext cx = .ok (r, w, p') ∧
      match r with
      | .pending => Cli.watchStep p (.tick cx) = .ok (.pending, .watching p')
      | .ready none => Cli.watchStep p (.tick cx) = .ok (.returned, .done p')
      | .ready (some (.error _)) => Cli.watchStep p (.tick cx) = .error .expect
      | .ready (some (.ok ev)) => ∃ l, Cli.watchStep p (.tick cx) = .ok (.event ev l, .watching p') := by
  obtain ⟨⟨r, w, p'⟩, _, hn, _⟩ := pollNext_cases p cx hg.watched.good.sane.rd hg.watched.good.sane.arming
  refine ⟨r, w, p', hn, ?_⟩
  have e : Cli.watchStep p (.tick cx) = Cli.watchTick p cx := rfl
  rw [e]
  unfold Cli.watchTick
  rw [hn]
  match r, hn with
  | .pending, hn => rfl
  | .ready none, hn => rfl
  | .ready (some (.error e)), hn => rfl
  | .ready (some (.ok ev)), hn =>
    obtain ⟨_, _, _, _, _, _, _, _, _, hl, _⟩ := event_lines hg.watched (next_step.mpr hn)
    simp only [bind_ok]
    rw [hl]
    exact ⟨_, rfl⟩

theorem stepL_connecting (on : Callsite → Bool) {i : Init} (hg : WatcherGood (.connecting i))
    (q : InitOp) : Watcher.stepL on (.connecting i) (.op q) = i.step q >>= fun y =>
      Watcher.connectedL on y.2 >>= fun z => .ok (enabled on (tickLog i y.1 y.2) ++ z.1, z.2) := by
  show (i.stepL on q >>= fun y => _) = _
  rw [initStepL_eq on hg.1 hg.2.1 q]
  cases i.step q <;> rfl

theorem stepL_watching (on : Callsite → Bool) {p : Panel} (hg : Unasked p) (q : InitOp) :
    Watcher.stepL on (.watching (.watching p)) (.op q) =
      Cli.watchStep p q >>= fun y => .ok (enabled on (watchLog p y.1), .watching y.2) := by
  show (Cli.watchStepL on p q >>= fun y => _) = _
  rw [watchStepL_eq on hg q]
  cases Cli.watchStep p q <;> rfl

theorem spots_still {x y : Vantage} {op : WatcherOp} {rd wr : Bytes} {l : List Record}
    (h : Spots x op rd wr l y) (hn : isGlance op = false) : y = x := by
  cases h with
  | reached => cases hn
  | early => rfl
  | dialed => rfl
  | past => rfl
  | @greets _ _ q _ _ _ _ _ _ h =>
    match q, h, hn with
    | .arrive _, h, _ => cases h; rfl
    | .writable _, h, _ => cases h; rfl
    | .tick _, _, hn => cases hn
  | @tracks _ _ q _ _ _ _ _ _ _ h =>
    match q, h, hn with
    | .arrive _, h, _ => cases h
    | .writable _, h, _ => cases h
    | .tick _, _, hn => cases hn
  | @sees _ _ _ q _ _ _ _ h =>
    match q, h, hn with
    | .arrive _, h, _ => cases h; rfl
    | .writable _, h, _ => cases h; rfl
    | .tick _, _, hn => cases hn
  | @returns _ _ _ q _ _ h =>
    match q, h, hn with
    | .arrive _, h, _ => cases h
    | .writable _, h, _ => cases h
    | .tick _, _, hn => cases hn

/-- What is read is settled by what has been read before and after. -/
theorem seen_ripe {p p' : Panel} {cx : Cx} {r : Poll PanelItem} {w : List Waker} {rd : Bytes}
    (hg : Good p) (hu : Unbroken p.conn) (h : p.pollNext cx = .ok (r, w, p'))
    (hr : p'.conn.sock.received = p.conn.sock.received ++ rd) :
    Ripe p.conn.rd.buffer rd ∧ (r = .ready none → p.conn.rd.buffer ++ rd = []) ∧
      (r ≠ .ready none → (∀ e, r ≠ .ready (some (.error e))) → Unbroken p'.conn) ∧
      Hears ⟨false, false⟩ p.conn.rd.buffer rd r (earOf p'.conn.rd) := by
  obtain ⟨io, a, b, c⟩ := panel_hears hg (unbroken_eof hu) h
  rw [hr] at a
  cases List.append_cancel_left a
  rw [sturdy_ear hu] at b
  refine ⟨?_, ?_, fun h1 h2 => unbroken_of (step_good hg (step_cases hg.sane (next_step.mpr h))) (heard_ripe hg hu h h1 h2 hr).2, b⟩
  · clear h
    generalize earOf p'.conn.rd = e at b
    cases b with
    | spent h => cases h
    | goes _ h => exact h
    | failed _ h => exact h
    | cut _ h => exact h
    | ended _ h => exact h
  · rintro rfl
    clear h
    generalize earOf p'.conn.rd = e at b
    cases b with
    | spent h => cases h
    | goes _ _ _ h => exact absurd rfl h
    | ended _ _ h =>
      rcases h with h | h
      · exact h
      · cases h

/-- One operation. -/
theorem step_keeps {on : Callsite → Bool} {w w' : Watcher} {x : Vantage} {op : WatcherOp}
    {log : List Record} (hg : WatcherGood w) (hh : Awake w) (hs : Posted w x)
    (h : w.stepL on op = .ok (log, w')) :
    WatcherGood w' ∧ Awake w' ∧ ∃ rd wr l x', Spots x op rd wr l x' ∧ Posted w' x' ∧
      Ripe x.unread rd ∧ (x' = .over → x.unread ++ rd = []) ∧ log = enabled on l ∧
      (lineSeen w').1 = (lineSeen w).1 ++ rd ∧ (lineSeen w').2 = (lineSeen w).2 ++ wr := by
  obtain ⟨rd, wr, l, x', f1, f2, f3, f4, f5⟩ : ∃ rd wr l x', Spots x op rd wr l x' ∧ Posted w' x' ∧
      WatcherGood w' ∧ log = enabled on l ∧
      ((lineSeen w').1 = (lineSeen w).1 ++ rd ∧ (lineSeen w').2 = (lineSeen w).2 ++ wr) := by
    rcases spots_step hg hs op with ⟨rd, wr, j, x', w1, h1, h2, h3, h4, h5⟩ | ⟨rd, wr, h1, _⟩
    · have := h1 on
      rw [h] at this
      cases this
      exact ⟨rd, wr, j, x', h2, h3, h4, rfl, h5⟩
    · obtain ⟨q, hq⟩ := h1 on
      rw [h] at hq
      cases hq
  suffices key : Awake w' ∧ Ripe x.unread rd ∧ (x' = .over → x.unread ++ rd = []) from
    ⟨f3, key.1, rd, wr, l, x', f1, f2, key.2.1, key.2.2, f4, f5.1, f5.2⟩
  cases hs with
  | dialing =>
    match op, h with
    | .dialed (.error _), h => cases h
    | .dialed (.ok ()), h =>
      cases f1 with
      | reached =>
        cases f2 with
        | @greeting i _ _ hst =>
          refine ⟨?_, .inl rfl, (fun h => nomatch h)⟩
          obtain ⟨j, hj, _⟩ : ∃ j : Unit, Watcher.connecting i = .connecting (began {}) ∧ True := by
            have h : (Init.startL on {} >>= fun y => Watcher.connectedL on y.2 >>= fun z =>
                .ok (y.1 ++ z.1, z.2)) = Except.ok (log, Watcher.connecting i) := h
            unfold Init.startL at h
            rw [start_ok] at h
            simp only [bind_ok] at h
            rw [startedL_eq on (by rintro i ⟨⟩; exact stageQ_wf .arming)] at h
            simp only [bind_ok, Watcher.connectedL] at h
            cases h
            exact ⟨(), rfl, trivial⟩
          cases hj
          exact fresh_unbroken fresh_empty
      | dialed hn => exact absurd rfl hn
    | .op q, h =>
      cases f1
      cases h
      exact ⟨trivial, .inl rfl, (fun h => nomatch h)⟩
  | @greeting i v g hst =>
    match op, h with
    | .dialed r, h =>
      cases f1 with
      | dialed hn => cases h; exact ⟨hh, .inl rfl, (fun h => nomatch h)⟩
    | .op q, h =>
      have hno : x' ≠ .over := by rintro rfl; cases f1
      rw [stepL_connecting on hg] at h
      obtain ⟨⟨o, ph⟩, h1, h2⟩ := P_bind_ok.mp h
      obtain ⟨⟨j, w1⟩, h3, h4⟩ := P_bind_ok.mp h2
      cases h4
      have hsp := step_sound hh h1
      match ph, h1, h3, hsp with
      | .asking i', h1, h3, hsp =>
        cases h3
        exact ⟨hsp, greet_ripe hg.1 hh hst h1 rfl f5.1, fun h => absurd h hno⟩
      | .finished (.error e), h1, h3, _ => cases h3
      | .finished (.ok p), h1, h3, hsp =>
        have h3 : (emit on .tracking (.ok []) >>= fun l => Except.ok (l, Watcher.watching (.watching p))) =
          .ok (j, _) := h3
        obtain ⟨j', h5, h6⟩ := P_bind_ok.mp h3
        cases h6
        exact ⟨hsp, greet_ripe hg.1 hh hst h1 rfl (s := p.conn.sock) f5.1, fun h => absurd h hno⟩
  | @seeing p v hl =>
    have hg : Unasked p := hg
    match op, h with
    | .dialed r, h =>
      cases f1 with
      | dialed hn => cases h; exact ⟨hh, .inl rfl, (fun h => nomatch h)⟩
    | .op (.arrive r), h =>
      cases h
      have e : rd = [] := by
        have := f5.1
        exact List.append_cancel_left ((this.symm.trans (List.append_nil _).symm))
      subst e
      refine ⟨hh, .inl rfl, fun e => ?_⟩
      have := spots_still f1 rfl
      rw [e] at this
      cases this
    | .op (.writable r), h =>
      cases h
      have e : rd = [] := by
        have := f5.1
        exact List.append_cancel_left ((this.symm.trans (List.append_nil _).symm))
      subst e
      refine ⟨hh, .inl rfl, fun e => ?_⟩
      have := spots_still f1 rfl
      rw [e] at this
      cases this
    | .op (.tick cx), h =>
      rw [stepL_watching on hg] at h
      obtain ⟨⟨o, w1⟩, h1, h2⟩ := P_bind_ok.mp h
      cases h2
      obtain ⟨r, ws, p', hn, hr⟩ := watchTick_next hg cx
      have key : ∀ {r : Poll PanelItem}, p.pollNext cx = .ok (r, ws, p') →
          p'.conn.sock.received = p.conn.sock.received ++ rd →
          Ripe v.unread rd ∧ (r = .ready none → v.unread ++ rd = []) ∧
          (r ≠ .ready none → (∀ e, r ≠ .ready (some (.error e))) → Unbroken p'.conn) := by
        intro r a b
        obtain ⟨k1, k2, k3, _⟩ := seen_ripe hg.watched.good hh a b
        rw [hl.unread] at k1 k2
        exact ⟨k1, k2, k3⟩
      rw [h1] at hr
      match r, hn, hr with
      | .pending, hn, hr =>
        cases hr
        obtain ⟨k1, k2, k3⟩ := key hn f5.1
        exact ⟨k3 (by simp) (by simp), k1, fun e => by subst e; cases f2⟩
      | .ready none, hn, hr =>
        cases hr
        obtain ⟨k1, k2, k3⟩ := key hn f5.1
        exact ⟨trivial, k1, fun _ => k2 rfl⟩
      | .ready (some (.error _)), hn, hr => cases hr
      | .ready (some (.ok ev)), hn, hr =>
        obtain ⟨l, hr⟩ := hr
        cases hr
        obtain ⟨k1, k2, k3⟩ := key hn f5.1
        exact ⟨k3 (by simp) (by simp), k1, fun e => by subst e; cases f2⟩
  | @over p =>
    match op, h with
    | .dialed r, h =>
      cases f1 with
      | dialed hn => cases h; exact ⟨trivial, .inl rfl, fun _ => rfl⟩
    | .op q, h => cases f1; cases h; exact ⟨trivial, .inl rfl, fun _ => rfl⟩

theorem keeps_of_traced {on : Callsite → Bool} {ops : List WatcherOp} : ∀ {w w' : Watcher}
    {x : Vantage} {ds : List Glance}, WatcherGood w → Awake w → Posted w x →
    tracedWatch on ops w = .ok (ds, w') →
    WatcherGood w' ∧ Awake w' ∧ ∃ x' l, Posted w' x' ∧ Keeps x l x' ∧
      glances ds = l.map (Glance.logging on) := by
  induction ops with
  | nil =>
    intro w w' x ds hg hh hb h
    cases h
    exact ⟨hg, hh, x, [], hb, .nil, rfl⟩
  | cons op ops ih =>
    intro w w' x ds hg hh hb h
    obtain ⟨o, w1, ds', h1, h2, rfl⟩ := glances_cons.mp h
    obtain ⟨a, b, rd, wr, l, x1, b1, b2, b3, b4, rfl, b5, b6⟩ := step_keeps hg hh hb h1
    obtain ⟨k1, k2, x', l', k3, k4, k5⟩ := ih a b b2 h2
    have e : glanceOf w op (enabled on l) w1 = (⟨op, rd, wr, l⟩ : Glance).logging on := by
      unfold glanceOf
      rw [b5, b6, List.drop_left, List.drop_left]
      rfl
    by_cases hm : isGlance op = true
    · refine ⟨k1, k2, x', ⟨op, rd, wr, l⟩ :: l', k3, .cons hm b1 b3 b4 k4, ?_⟩
      rw [glance_cons, e, if_pos (show isGlance (Glance.logging on ⟨op, rd, wr, l⟩).op = true from hm), k5]
      rfl
    · have hm' : isGlance op = false := by simpa using hm
      rw [spots_still b1 hm'] at k4
      refine ⟨k1, k2, x', l', k3, k4, ?_⟩
      rw [glance_cons, e, if_neg (show ¬ isGlance (Glance.logging on ⟨op, rd, wr, l⟩).op = true from hm), k5]

/-- An operation that panics. -/
theorem step_darkens {on : Callsite → Bool} {w : Watcher} {x : Vantage} {op : WatcherOp} {q : Panic}
    (hg : WatcherGood w) (hh : Awake w) (hs : Posted w x) (h : w.stepL on op = .error q) :
    Darkens x op q := by
  cases hs with
  | dialing =>
    match op, h with
    | .dialed (.error _), h => cases h; exact .unreachable
    | .dialed (.ok ()), h =>
      rcases spots_step (w := .dialing) trivial .dialing (.dialed (.ok ())) with
        ⟨_, _, _, _, _, h1, _⟩ | ⟨_, _, _, h2⟩
      · rw [h1 on] at h; cases h
      · cases h2
    | .op _, h => cases h
  | @greeting i v g hst =>
    match op, h with
    | .dialed _, h => cases h
    | .op (.arrive _), h => cases h
    | .op (.writable _), h => cases h
    | .op (.tick cx), h =>
      rw [stepL_connecting on hg] at h
      rcases init_cases hg.1 (.tick cx) with ⟨⟨o, ph⟩, h1, _⟩ | ⟨cx', e, h1, h2⟩
      · rw [h1] at h
        simp only [bind_ok] at h
        match ph, h1, h with
        | .asking i', h1, h => cases h
        | .finished (.error e), h1, h =>
          cases h
          obtain ⟨d, x, k1, k2, k3, k4, _⟩ := tries_of_tick hg.1 hh hst h1
          cases k4
          exact .lost k2 k3
        | .finished (.ok p), h1, h =>
          simp only [Watcher.connectedL, emit_ok, bind_ok] at h
          cases h
      · cases e
        rw [h1] at h
        cases h
        obtain ⟨io, r, c', hb, hn, hrv, ha⟩ := breaks_read hg.1 hst h2
        refine .room hb ?_
        have hk : Knows i.panel g := by cases hst <;> assumption
        rw [← hk.unread]
        exact next_ripe hh hn hrv
  | @seeing p v hl =>
    have hg : Unasked p := hg
    match op, h with
    | .dialed _, h => cases h
    | .op (.arrive _), h => cases h
    | .op (.writable _), h => cases h
    | .op (.tick cx), h =>
      rw [stepL_watching on hg] at h
      obtain ⟨r, ws, p', hn, hr⟩ := watchTick_next hg cx
      match r, hn, hr with
      | .pending, hn, hr => rw [hr] at h; cases h
      | .ready none, hn, hr => rw [hr] at h; cases h
      | .ready (some (.ok ev)), hn, hr => obtain ⟨l, hr⟩ := hr; rw [hr] at h; cases h
      | .ready (some (.error e)), hn, hr =>
        rw [hr] at h
        cases h
        obtain ⟨io, v', a1, _, a3, _⟩ := next_reading hg.watched.good hl hn
        obtain ⟨k1, _⟩ := seen_ripe hg.watched.good hh hn a3
        rw [hl.unread] at k1
        refine .broken ?_
        cases a1 with
        | failed hw =>
          rcases k1 with rfl | k1
          · rwa [List.append_nil] at hw
          · exact k1
  | over =>
    match op, h with
    | .dialed _, h => cases h
    | .op _, h => cases h

/-! ## The machine settles what is logged -/

theorem connects_said {w : Where} {g : Greet} {cx : Cx} {rd wr : Bytes} {o₁ o₂ : Obs}
    {x₁ x₂ : Outcome} (h₁ : Connects w g (.tick cx) rd wr o₁ x₁)
    (h₂ : Connects w g (.tick cx) rd wr o₂ x₂) (n₁ : ∀ e, x₁ ≠ .failed e)
    (n₂ : ∀ e, x₂ ≠ .failed e) : o₁ = o₂ := by
  by_cases hf : ∃ q pkt rest, w = .waiting q ∧ Front (g.unread ++ rd) (some pkt) rest
  · obtain ⟨q, pkt, rest, rfl, hf⟩ := hf
    exact (C123_packet hf h₁ h₂).2.1
  · cases h₁ with
    | ask => cases h₂; rfl
    | writing a =>
      cases h₂ with
      | writing b => rfl
      | written b => exact absurd (writes_one a b ▸ b.2.1 rfl) (a.2.2 rfl)
      | unwritten => exact absurd rfl (n₂ _)
    | written a =>
      cases h₂ with
      | writing b => exact absurd (writes_one a b ▸ a.2.1 rfl) (b.2.2 rfl)
      | written b => rfl
      | unwritten => exact absurd rfl (n₂ _)
    | unwritten => exact absurd rfl (n₁ _)
    | ended => exact absurd rfl (n₁ _)
    | lost => exact absurd rfl (n₁ _)
    | quiet =>
      cases h₂ with
      | quiet => rfl
      | ended => exact absurd rfl (n₂ _)
      | lost => exact absurd rfl (n₂ _)
      | other b => exact absurd ⟨_, _, _, rfl, b⟩ hf
      | reply b => exact absurd ⟨_, _, _, rfl, b⟩ hf
      | last b => exact absurd ⟨_, _, _, rfl, b⟩ hf
    | other b => exact absurd ⟨_, _, _, rfl, b⟩ hf
    | reply b => exact absurd ⟨_, _, _, rfl, b⟩ hf
    | last b => exact absurd ⟨_, _, _, rfl, b⟩ hf

theorem sees_one {areas : Fin 8 → Bytes} {zones : Fin 208 → Bytes} {v v₁ v₂ : View} {cx : Cx}
    {rd : Bytes} {o₁ o₂ : WObs} (h₁ : Sees areas zones v (.tick cx) rd o₁ v₁)
    (h₂ : Sees areas zones v (.tick cx) rd o₂ v₂) (n₁ : o₁ ≠ .returned) (n₂ : o₂ ≠ .returned) :
    o₁ = o₂ := by
  have one : ∀ {r₁ r₂}, Reading cx v rd r₁ v₁ → Reading cx v rd r₂ v₂ →
      (r₁ ≠ .ready none ∧ ∀ e, r₁ ≠ .ready (some (.error e))) →
      (r₂ ≠ .ready none ∧ ∀ e, r₂ ≠ .ready (some (.error e))) → v₁ = v₂ ∧ r₁ = r₂ :=
    fun a b c d => reading_one a b c d
  cases h₁ with
  | idle a =>
    cases h₂ with
    | idle b => rfl
    | event b => cases (one a b (by simp) (by simp)).2
    | report b => cases (one a b (by simp) (by simp)).2
    | ended => exact absurd rfl n₂
  | event a c =>
    cases h₂ with
    | idle b => cases (one a b (by simp) (by simp)).2
    | event b => obtain ⟨rfl, e⟩ := one a b (by simp) (by simp); cases e; rfl
    | report b d => cases (one a b (by simp) (by simp)).2; exact absurd d (c _)
    | ended => exact absurd rfl n₂
  | report a c =>
    cases h₂ with
    | idle b => cases (one a b (by simp) (by simp)).2
    | event b d => cases (one a b (by simp) (by simp)).2; exact absurd c (d _)
    | report b d => cases (one a b (by simp) (by simp)).2; rfl
    | ended => exact absurd rfl n₂
  | ended => exact absurd rfl n₁

/-- With the same bytes read and written, the machine logs the same and goes to the same place,
unless the end of the connection is what is read. -/
theorem spots_one {x y y' : Vantage} {op : WatcherOp} {rd wr : Bytes} {l l' : List Record}
    (hm : isGlance op = true) (h : Spots x op rd wr l y) (h' : Spots x op rd wr l' y')
    (hn : y ≠ .over) (hn' : y' ≠ .over) : l = l' ∧ y = y' := by
  refine ⟨?_, C133_settled h h' (.inr hn) (.inr hn')⟩
  cases h with
  | reached a =>
    cases h' with
    | reached b => rw [a] at b; cases b; rfl
    | dialed n => exact absurd rfl n
  | early => cases h'; rfl
  | past => exact absurd rfl hn
  | dialed n =>
    cases h' with
    | reached => exact absurd rfl n
    | dialed => rfl
  | @greets _ _ q _ _ _ _ _ _ a b =>
    match q, a, b, h', hm with
    | .arrive _, _, _, _, hm => cases hm
    | .writable _, _, _, _, hm => cases hm
    | .tick cx, a, b, h', _ =>
      cases h' with
      | greets c d =>
        cases connects_said a c (by simp) (by simp)
        cases connects_settled a c (by simp) (by simp)
        exact C130_one b d
      | tracks c => cases connects_settled a c (by simp) (by simp)
  | @tracks _ _ q _ _ _ _ _ _ _ a b =>
    match q, a, b, h', hm with
    | .arrive _, _, _, _, hm => cases hm
    | .writable _, _, _, _, hm => cases hm
    | .tick cx, a, b, h', _ =>
      cases h' with
      | greets c d => cases connects_settled a c (by simp) (by simp)
      | tracks c d =>
        cases connects_said a c (by simp) (by simp)
        cases connects_settled a c (by simp) (by simp)
        rw [C130_one b d]
  | returns => exact absurd rfl hn
  | @sees _ _ _ q _ _ _ _ a an b =>
    match q, a, b, h', hm with
    | .arrive _, _, _, _, hm => cases hm
    | .writable _, _, _, _, hm => cases hm
    | .tick cx, a, b, h', _ =>
      cases h' with
      | returns => exact absurd rfl hn'
      | sees c cn d =>
        cases sees_one a c an cn
        exact C131_one b d

/-! ## The machine allows only what `watch` does -/

/-- And nothing is queued on it. -/
def Dozes : Watcher → Prop
  | .dialing => True
  | .connecting i => Becalms i
  | .watching (.watching p) =>
    Unbroken p.conn ∧ p.conn.sock.incoming = [] ∧ p.conn.sock.writes = []
  | .watching (.done _) => True

theorem dozes_awake {w : Watcher} (h : Dozes w) : Awake w := by
  match w, h with
  | .dialing, _ => trivial
  | .connecting i, h => exact Becalms.sound h
  | .watching (.watching p), h => exact h.1
  | .watching (.done _), _ => trivial

/-- Answers queued while connecting. -/
theorem glances_of_acts {on : Callsite → Bool} {ops : List InitOp} : ∀ {i i₁ : Init} {as : List Act},
    tracedInit ops (.asking i) = .ok (as, .asking i₁) → polls as = [] →
    ∃ ops' ds, tracedWatch on ops' (.connecting i) = .ok (ds, .connecting i₁) ∧ glances ds = [] := by
  induction ops with
  | nil => intro i i₁ as h _; cases h; exact ⟨[], [], rfl, rfl⟩
  | cons op ops ih =>
    intro i i₁ as h hp
    obtain ⟨o, ph, as', h1, h2, rfl⟩ := acts_cons.mp h
    match op, h1, hp with
    | .tick cx, h1, hp => simp [polls, actOf, isTick] at hp
    | .arrive r, h1, hp =>
      cases h1
      obtain ⟨ops', ds, k1, k2⟩ := ih h2 (by simpa [polls, actOf, isTick] using hp)
      exact ⟨.op (.arrive r) :: ops', _, glances_cons.mpr ⟨_, _, _, rfl, k1, rfl⟩,
        by rw [glance_cons]; exact k2⟩
    | .writable r, h1, hp =>
      cases h1
      obtain ⟨ops', ds, k1, k2⟩ := ih h2 (by simpa [polls, actOf, isTick] using hp)
      exact ⟨.op (.writable r) :: ops', _, glances_cons.mpr ⟨_, _, _, rfl, k1, rfl⟩,
        by rw [glance_cons]; exact k2⟩

/-- Bytes queued in the loop. -/
theorem glances_feed {on : Callsite → Bool} (q : List ReadItem) : ∀ p : Panel, ∃ ops ds rr,
    tracedWatch on ops (.watching (.watching p)) = .ok (ds, .watching (.watching
      (fed p (p.conn.sock.incoming ++ q) p.conn.sock.writes rr p.conn.sock.writeWaker))) ∧
    glances ds = [] := by
  induction q with
  | nil =>
    intro p
    refine ⟨[], [], p.conn.sock.readWaker, ?_, rfl⟩
    rw [List.append_nil]
    rfl
  | cons r q ih =>
    intro p
    obtain ⟨ops, ds, rr, h1, h2⟩ := ih { p with conn := (p.conn.arrive r).2 }
    refine ⟨.op (.arrive r) :: ops, _, rr, glances_cons.mpr ⟨_, _, _, rfl, h1.trans ?_, rfl⟩,
      by rw [glance_cons]; exact h2⟩
    simp [fed, Connection.arrive]

/-- Where `watch` is after one operation, given where the machine goes. -/
theorem glance_done {on : Callsite → Bool} {w w' : Watcher} {x y : Vantage} {op : WatcherOp}
    {rd wr : Bytes} {l log : List Record} (hg : WatcherGood w) (hh : Awake w) (hs : Posted w x)
    (hm : isGlance op = true) (h : w.stepL on op = .ok (log, w'))
    (hr : (lineSeen w').1 = (lineSeen w).1 ++ rd) (hw : (lineSeen w').2 = (lineSeen w).2 ++ wr)
    (hp : Spots x op rd wr l y) (hn : y ≠ .over) (hn' : ∀ p, w' ≠ .watching (.done p)) :
    glanceOf w op log w' = (⟨op, rd, wr, l⟩ : Glance).logging on ∧ Posted w' y := by
  obtain ⟨_, _, rd', wr', l', y', k1, k2, _, _, rfl, k3, k4⟩ := step_keeps hg hh hs h
  rw [hr] at k3
  rw [hw] at k4
  cases List.append_cancel_left k3
  cases List.append_cancel_left k4
  obtain ⟨rfl, rfl⟩ := spots_one hm hp k1 hn (by rintro rfl; cases k2; exact hn' _ rfl)
  refine ⟨?_, k2⟩
  unfold glanceOf
  rw [hr, hw, List.drop_left, List.drop_left]
  rfl

/-- After answers of the socket, `watch` is where it was. -/
theorem fed_watch {on : Callsite → Bool} {ops : List WatcherOp} {w w₁ : Watcher} {x : Vantage}
    {ds : List Glance} (hg : WatcherGood w) (hh : Awake w) (hs : Posted w x)
    (h : tracedWatch on ops w = .ok (ds, w₁)) (hd : glances ds = []) :
    WatcherGood w₁ ∧ Awake w₁ ∧ Posted w₁ x := by
  obtain ⟨a, b, x', l, c, d, e⟩ := keeps_of_traced hg hh hs h
  rw [hd] at e
  cases List.map_eq_nil_iff.mp e.symm
  cases d
  exact ⟨a, b, c⟩

/-- A poll while connecting that the machine allows. -/
theorem greeting_glimpsed (on : Callsite → Bool) {i : Init} {w : Where} {g : Greet} {cx : Cx}
    {rd wr : Bytes} {o : Obs} {x : Outcome} {l : List Record} {y : Vantage}
    (hg : WatcherGood (.connecting i)) (hc : Becalms i) (hs : Stands (.asking i) (.asking w g))
    (h : Connects w g (.tick cx) rd wr o x) (hn : ∀ e, x ≠ .failed e) (hr : Ripe g.unread rd)
    (hp : Spots (.greeting w g) (.op (.tick cx)) rd wr l y) :
    ∃ ops ds w', tracedWatch on ops (.connecting i) = .ok (ds, w') ∧
      glances ds = [(⟨.op (.tick cx), rd, wr, l⟩ : Glance).logging on] ∧ Dozes w' ∧ Posted w' y := by
  have ho := obs_of_asking h hn
  obtain ⟨ops, as, i₁, o', ph, k1, k2, k3, k4, k5, k6, k7, k8⟩ :=
    act_readied (d := ⟨.tick cx, rd, wr, o⟩) hc hs rfl h (bears_of_ripe hr ho)
  have hact := calm_fine k7 ho
  obtain ⟨ops', ds, m1, m2⟩ := glances_of_acts (on := on) k1 k2
  obtain ⟨m3, m4, m5⟩ := fed_watch (w := .connecting i) hg hc.sound (.greeting hs) m1 m2
  have hst : i₁.step (.tick cx) = .ok (o', ph) := k5
  have hsp := step_sound k4 hst
  have e1 : gained (·.received) i₁.panel.conn.sock ph = rd := congrArg Act.rd hact
  have e2 : gained (·.sent) i₁.panel.conn.sock ph = wr := congrArg Act.wr hact
  obtain ⟨log, w', n1, n2, n3, n4, n5⟩ : ∃ log w',
      (Watcher.connecting i₁).stepL on (.op (.tick cx)) = .ok (log, w') ∧ Dozes w' ∧
      (∀ p, w' ≠ .watching (.done p)) ∧
      (lineSeen w').1.drop i₁.panel.conn.sock.received.length = rd ∧
      (lineSeen w').2.drop i₁.panel.conn.sock.sent.length = wr := by
    rw [stepL_connecting on m3, hst]
    simp only [bind_ok]
    match ph, hst, k6, k8, hsp, e1, e2 with
    | .asking i', hst, k6, k8, hsp, e1, e2 =>
      obtain ⟨a, b⟩ := k8 _ rfl
      refine ⟨_, _, rfl, ⟨?_, hsp, a, b⟩, (by intro p h; cases h), e1, e2⟩
      rcases init_cases k3 (.tick cx) with ⟨y, e, f⟩ | ⟨_, _, e, _⟩
      · rw [hst] at e; cases e; exact init_good k3 f
      · rw [hst] at e; cases e
    | .finished (.error e), _, k6, _, _, _, _ => cases k6; exact absurd rfl (hn _)
    | .finished (.ok p), hst, k6, k8, hsp, e1, e2 =>
      simp only [Watcher.connectedL, emit_ok, bind_ok]
      exact ⟨_, _, rfl, ⟨hsp, k8 _ rfl⟩, (by intro p h; cases h), e1, e2⟩
  obtain ⟨_, _, rd', wr', _, _, _, _, _, _, _, f4, f5⟩ := step_keeps m3 m4 m5 n1
  have e1 : rd' = rd := by
    rw [f4] at n4
    rw [← n4]
    exact (List.drop_left (l₁ := i₁.panel.conn.sock.received)).symm
  have e2 : wr' = wr := by
    rw [f5] at n5
    rw [← n5]
    exact (List.drop_left (l₁ := i₁.panel.conn.sock.sent)).symm
  subst e1 e2
  obtain ⟨a, b⟩ := glance_done m3 m4 m5 rfl n1 f4 f5 hp (by rintro rfl; cases hp) n3
  refine ⟨_, _, w', glances_append m1 (glances_one n1), ?_, n2, b⟩
  rw [glance_append, m2, glance_cons, a]
  rfl

/-- A poll of the panel that its machine allows. -/
theorem panel_glimpsed {p : Panel} {v : View} (hg : Good p) (hu : Unbroken p.conn) (hl : Looks p v)
    {cx : Cx} {io : Bytes} {r : Poll PanelItem} {v' : View} {e' : Ear} (h : Reading cx v io r v')
    (hh : Hears ⟨false, false⟩ v.unread io r e') :
    ∃ q, ∀ rr rw, ∃ w panel, (fed p q [] rr rw).pollNext cx = .ok (r, w, panel) ∧
      panel.conn.sock.incoming = [] ∧ panel.conn.sock.writes = [] ∧
      panel.conn.sock.received = p.conn.sock.received ++ io ∧
      panel.conn.sock.sent = p.conn.sock.sent := by
  rw [← sturdy_ear hu] at hh
  obtain ⟨q, hq⟩ := next_realises (w := []) hg (unbroken_eof hu) hl h hh
  refine ⟨q, fun rr rw => ?_⟩
  obtain ⟨r', w', p', a1, a2, _, a4, a5, a6, a7⟩ := hq rr [] rw
  have a1 := next_step.mp a1
  have : r' = r := by
    unfold quiet at a7
    simp only [Deed.mk.injEq, Out.next.injEq] at a7
    exact a7.2.2.1
  subst this
  obtain ⟨io', v2, b1, b2, b3, b4⟩ := next_reading (fed_good hg _ _ _ _) (fed_looks hl _ _ _ _) a1
  have hm := moved_eq b3 (b := []) (by rw [List.append_nil]; exact b4)
  rw [a6, List.append_nil] at hm
  subst hm
  exact ⟨w', p', a1, a4, a5, b3, b4⟩

/-- A poll in the loop that the machine of the panel allows. -/
theorem loop_glimpsed (on : Callsite → Bool) {p : Panel} {v : View} (hg : Unasked p)
    (hc : Dozes (.watching (.watching p))) (hl : Looks p v) {cx : Cx} {io : Bytes}
    {r : Poll PanelItem} {v' : View} {e' : Ear} (h : Reading cx v io r v')
    (hh : Hears ⟨false, false⟩ v.unread io r e') :
    ∃ ops ds p₁, tracedWatch on ops (.watching (.watching p)) = .ok (ds, .watching (.watching p₁)) ∧
      glances ds = [] ∧ Unasked p₁ ∧ Unbroken p₁.conn ∧ Looks p₁ v ∧
      areaShown p₁ = areaShown p ∧ zoneShown p₁ = zoneShown p ∧
      ∃ w panel, p₁.pollNext cx = .ok (r, w, panel) ∧
        panel.conn.sock.incoming = [] ∧ panel.conn.sock.writes = [] ∧
        panel.conn.sock.received = p₁.conn.sock.received ++ io ∧
        panel.conn.sock.sent = p₁.conn.sock.sent := by
  obtain ⟨hu, hi, hw⟩ := hc
  obtain ⟨q, hq⟩ := panel_glimpsed hg.watched.good hu hl h hh
  obtain ⟨ops, ds, rr, k1, k2⟩ := glances_feed (on := on) q p
  rw [hi, hw, List.nil_append] at k1
  obtain ⟨m1, m2, m3⟩ := fed_watch (w := .watching (.watching p)) hg hu (.seeing hl) k1 k2
  obtain ⟨w, panel, n⟩ := hq rr p.conn.sock.writeWaker
  exact ⟨ops, ds, _, k1, k2, m1, m2, fed_looks hl _ _ _ _, rfl, rfl, w, panel, n⟩

/-- One operation that the machine allows. -/
theorem glance_realises (on : Callsite → Bool) {w : Watcher} {x y : Vantage} {d : Glance}
    (hg : WatcherGood w) (hr : Dozes w) (hb : Posted w x) (hm : isGlance d.op = true)
    (h : Spots x d.op d.rd d.wr d.log y) (hi : Ripe x.unread d.rd)
    (ho : y = .over → x.unread ++ d.rd = []) :
    ∃ ops ds w', tracedWatch on ops w = .ok (ds, w') ∧ glances ds = [d.logging on] ∧ Dozes w' ∧
      Posted w' y := by
  obtain ⟨op, rd, wr, l⟩ := d
  dsimp only at hm h hi ho
  have alone : ∀ {w'}, w.stepL on op = .ok (enabled on l, w') → (lineSeen w').1 = (lineSeen w).1 ++ rd →
      (lineSeen w').2 = (lineSeen w).2 ++ wr → Dozes w' → Posted w' y →
      ∃ ops ds w', tracedWatch on ops w = .ok (ds, w') ∧
        glances ds = [(⟨op, rd, wr, l⟩ : Glance).logging on] ∧ Dozes w' ∧ Posted w' y := by
    intro w' h1 h2 h3 h4 h5
    refine ⟨_, _, w', glances_one h1, ?_, h4, h5⟩
    rw [glance_cons, show isGlance (glanceOf w op (enabled on l) w').op = true from hm, if_pos rfl]
    unfold glanceOf
    rw [h2, h3, List.drop_left, List.drop_left]
    rfl
  cases h with
  | @reached d hd =>
    cases hb with
    | dialing =>
      refine alone (w' := .connecting (began {})) ?_ rfl rfl (began_becalms fresh_empty rfl rfl)
        (.greeting (start_stands fresh_empty))
      show (Init.startL on {} >>= fun y => Watcher.connectedL on y.2 >>= fun z => _) = _
      unfold Init.startL
      rw [start_ok]
      simp only [bind_ok]
      rw [startedL_eq on (by rintro i ⟨⟩; exact stageQ_wf .arming)]
      simp only [bind_ok, Watcher.connectedL]
      have : startLog (.asking (asking ⟨{}, PanelState.default, none, .idle⟩ .arming)) =
          [jot .asking [("msg", d)]] := by
        show (match (stageQ .arming).debug with
          | .ok d => [jot .asking [("msg", d)]]
          | .error _ => []) = _
        rw [show stageQ .arming = .armingStatusRequest from rfl, hd]
      rw [this, List.append_nil]
      rfl
  | early => cases hb; exact alone rfl rfl rfl trivial .dialing
  | dialed hn =>
    refine alone (w' := w) ?_ (List.append_nil _).symm (List.append_nil _).symm hr hb
    cases hb with
    | dialing => exact absurd rfl hn
    | greeting => rfl
    | seeing => rfl
    | over => rfl
  | past => cases hb; exact alone rfl (List.append_nil _).symm (List.append_nil _).symm trivial .over
  | @greets w g q _ _ o w' g' _ hc hu =>
    cases hb with
    | @greeting i _ _ hs =>
      match q, hm, hc, hu with
      | .arrive _, hm, _, _ => cases hm
      | .writable _, hm, _, _ => cases hm
      | .tick cx, _, hc, hu =>
        exact greeting_glimpsed on hg hr hs hc (by simp) hi (.greets hc hu)
  | @tracks w g q _ _ o g' a z l hc hu h1 h2 =>
    cases hb with
    | @greeting i _ _ hs =>
      match q, hm, hc, hu with
      | .arrive _, hm, _, _ => cases hm
      | .writable _, hm, _, _ => cases hm
      | .tick cx, _, hc, hu =>
        exact greeting_glimpsed on hg hr hs hc (by simp) hi (.tracks hc hu h1 h2)
  | @sees _ _ v q _ o v' _ hs hn hp =>
    cases hb with
    | @seeing p _ hl =>
      match q, hm, hs, hp with
      | .arrive _, hm, _, _ => cases hm
      | .writable _, hm, _, _ => cases hm
      | .tick cx, _, hs, hp =>
        obtain ⟨r, hrd, hr1, hr2⟩ : ∃ r, Reading cx v rd r v' ∧ r ≠ .ready none ∧
            ∀ e, r ≠ .ready (some (.error e)) := by
          cases hs with
          | idle h => exact ⟨_, h, by simp, by simp⟩
          | event h _ => exact ⟨_, h, by simp, by simp⟩
          | report h _ => exact ⟨_, h, by simp, by simp⟩
          | ended => exact absurd rfl hn
        obtain ⟨ops, ds, p₁, k1, k2, k3, k4, k5, k6, k7, ws, p', m1, m2, m3, m4, m5⟩ :=
          loop_glimpsed on hg hr hl hrd (.goes (e := ⟨false, false⟩) rfl hi hr2 hr1)
        have hst : ∃ log, (Watcher.watching (.watching p₁)).stepL on (.op (.tick cx)) =
            .ok (log, .watching (.watching p')) := by
          rw [stepL_watching on k3]
          obtain ⟨r', ws', p'', a, b⟩ := watchTick_next k3 cx
          rw [m1] at a
          cases a
          match r, hr1, hr2, b with
          | .pending, _, _, b => exact ⟨_, by rw [b]; rfl⟩
          | .ready none, h, _, _ => exact absurd rfl h
          | .ready (some (.error e)), _, h, _ => exact absurd rfl (h e)
          | .ready (some (.ok ev)), _, _, b => obtain ⟨j, b⟩ := b; exact ⟨_, by rw [b]; rfl⟩
        obtain ⟨log, hst⟩ := hst
        have hps : Posted (.watching (.watching p₁)) (.seeing (areaShown p) (zoneShown p) v) := by
          rw [← k6, ← k7]
          exact .seeing k5
        obtain ⟨a, b⟩ := glance_done (w := .watching (.watching p₁)) k3 k4 hps rfl hst m4
          (m5.trans (List.append_nil _).symm) (.sees hs hn hp) (by simp) (by simp)
        refine ⟨_, _, _, glances_append k1 (glances_one hst), ?_,
          ⟨(seen_ripe k3.watched.good k4 m1 m4).2.2.1 hr1 hr2, m2, m3⟩, b⟩
        rw [glance_append, k2, glance_cons, a]
        rfl
  | @returns _ _ v q _ v' hs =>
    cases hb with
    | @seeing p _ hl =>
      match q, hm, hs with
      | .arrive _, hm, _ => cases hm
      | .writable _, hm, _ => cases hm
      | .tick cx, _, hs =>
        cases hs with
        | ended hrd =>
          obtain ⟨ops, ds, p₁, k1, k2, k3, k4, k5, k6, k7, ws, p', m1, m2, m3, m4, m5⟩ :=
            loop_glimpsed on hg hr hl hrd (.ended (e := ⟨false, false⟩) rfl hi (.inl (ho rfl)))
          have hst : (Watcher.watching (.watching p₁)).stepL on (.op (.tick cx)) =
              .ok ([], .watching (.done p')) := by
            rw [stepL_watching on k3]
            obtain ⟨r', ws', p'', a, b⟩ := watchTick_next k3 cx
            rw [m1] at a
            cases a
            rw [b]
            rfl
          refine ⟨_, _, _, glances_append k1 (glances_one hst), ?_, trivial, .over⟩
          rw [glance_append, k2, glance_cons]
          show [glanceOf _ _ _ _] = _
          unfold glanceOf
          rw [show (lineSeen (.watching (.done p'))).1 = _ from m4,
            show (lineSeen (.watching (.done p'))).2 = _ from m5.trans (List.append_nil _).symm]
          show [(⟨_, List.drop _ _, List.drop _ _, _⟩ : Glance)] = _
          erw [List.drop_left, List.drop_left]
          rfl

theorem traced_of_keeps (on : Callsite → Bool) {l : List Glance} : ∀ {w : Watcher} {x y : Vantage},
    WatcherGood w → Dozes w → Posted w x → Keeps x l y →
    ∃ ops ds w', tracedWatch on ops w = .ok (ds, w') ∧ glances ds = l.map (Glance.logging on) ∧
      WatcherGood w' ∧ Dozes w' ∧ Posted w' y := by
  induction l with
  | nil =>
    intro w x y hg hr hb h
    cases h
    exact ⟨[], [], w, rfl, rfl, hg, hr, hb⟩
  | cons d l ih =>
    intro w x y hg hr hb h
    cases h with
    | cons h1 h2 h3 h4 h5 =>
      obtain ⟨ops, ds, w1, a1, a2, a3, a4⟩ := glance_realises on hg hr hb h1 h2 h3 h4
      obtain ⟨b1, _⟩ := keeps_of_traced hg (dozes_awake hr) hb a1
      obtain ⟨ops', ds', w', c1, c2, c3⟩ := ih b1 a3 a4 h5
      exact ⟨_, _, w', glances_append a1 c1, by rw [glance_append, a2, c2]; rfl, c3⟩

/-- A panic that the machine allows. -/
theorem dark_realises (on : Callsite → Bool) {w : Watcher} {x : Vantage} {op : WatcherOp} {q : Panic}
    (hg : WatcherGood w) (hr : Dozes w) (hb : Posted w x) (h : Darkens x op q) :
    ∃ ops ds w', tracedWatch on ops w = .ok (ds, w') ∧ glances ds = [] ∧
      w'.stepL on op = .error q := by
  cases h with
  | unreachable => cases hb; exact ⟨[], [], _, rfl, rfl, rfl⟩
  | @lost w g cx rd wr o e hc hbe =>
    cases hb with
    | @greeting i _ _ hs =>
      obtain ⟨ops, as, i₁, o', ph, k1, k2, k3, k4, k5, k6, _⟩ :=
        act_readied (d := ⟨.tick cx, rd, wr, o⟩) hr hs rfl hc hbe
      obtain ⟨ops', ds, m1, m2⟩ := glances_of_acts (on := on) k1 k2
      obtain ⟨m3, _⟩ := fed_watch (w := .connecting i) hg hr.sound (.greeting hs) m1 m2
      refine ⟨ops', ds, _, m1, m2, ?_⟩
      rw [stepL_connecting on m3, show i₁.step (.tick cx) = .ok (o', ph) from k5]
      cases k6
      rfl
  | @room w g cx rd hbr hri =>
    cases hb with
    | @greeting i _ _ hs =>
      obtain ⟨ops, as, i₁, k1, k2, k3⟩ := break_realises hr hs hbr hri
      obtain ⟨ops', ds, m1, m2⟩ := glances_of_acts (on := on) k1 k2
      obtain ⟨m3, _⟩ := fed_watch (w := .connecting i) hg hr.sound (.greeting hs) m1 m2
      refine ⟨ops', ds, _, m1, m2, ?_⟩
      rw [stepL_connecting on m3, k3]
      rfl
  | @broken areas zones v cx hw =>
    cases hb with
    | @seeing p _ hl =>
      obtain ⟨ops, ds, p₁, k1, k2, k3, k4, k5, k6, k7, ws, p', m1, _⟩ :=
        loop_glimpsed on hg hr hl (cx := cx) (io := []) (.failed (e := .socket 0) (by simpa using hw))
          (.failed (e := ⟨false, false⟩) rfl (.inl rfl))
      refine ⟨ops, ds, _, k1, k2, ?_⟩
      rw [stepL_watching on k3]
      obtain ⟨r', ws', p'', a, b⟩ := watchTick_next k3 cx
      rw [m1] at a
      cases a
      rw [b]
      rfl

/-! ## The theorems -/

theorem trim_spots {x y : Vantage} {op : WatcherOp} {rd wr : Bytes} {l : List Record}
    (h : Spots x op rd wr l y) (hn : Trim x) : Trim y := by
  cases h with
  | reached => exact fun _ _ _ => rfl
  | early => exact hn
  | dialed => exact hn
  | greets h => exact tidy_connects h hn
  | tracks => trivial
  | sees => trivial
  | returns => trivial
  | past => trivial

theorem trim_keeps {x y : Vantage} {l : List Glance} (h : Keeps x l y) (hn : Trim x) : Trim y := by
  induction h with
  | nil => exact hn
  | cons _ h1 _ _ _ ih => exact ih (trim_spots h1 hn)

theorem looks_same {p : Panel} {v v' : View} (h : Looks p v) (h' : Looks p v') : v = v' := by
  obtain ⟨a1, a2, a3, a4, a5, a6⟩ := h
  obtain ⟨b1, b2, b3, b4, b5, b6⟩ := h'
  obtain ⟨u, s, z, hd, q, n⟩ := v
  obtain ⟨u', s', z', hd', q', n'⟩ := v'
  dsimp only at *
  rw [a1] at b1; rw [a2] at b2; rw [a3] at b3; rw [a4] at b4; rw [a5] at b5; rw [a6] at b6
  cases b1; cases b2; cases b3; cases b4; cases b5; cases b6
  rfl

theorem posted_one {w : Watcher} {x y : Vantage} (h : Posted w x) (h' : Posted w y) (hn : Trim x)
    (hn' : Trim y) : x = y := by
  cases h with
  | dialing => cases h'; rfl
  | greeting a =>
    cases h' with
    | greeting b => cases stands_one a b hn hn'; rfl
  | seeing a =>
    cases h' with
    | seeing b => cases looks_same a b; rfl
  | over => cases h'; rfl

/-- **C141** Exactly the histories of the reference machine of `elkm1-cli watch` (`C133`), with the
rules of Spec/ExactWatching.lean, are histories of `watch`, whatever of the log is enabled.  A history
is all that happens to `watch`, in order, but for what happens to its connection to the panel; the
bytes that each read from and wrote to the panel; and all that is logged, as far as it is enabled.
Where `watch` is at the end is part of it. -/
theorem C141_exact {on : Callsite → Bool} {x : Vantage} {h : List Glance} :
    (∃ ops ds w, tracedWatch on ops .dialing = .ok (ds, w) ∧ Posted w x ∧ Trim x ∧ glances ds = h) ↔
    ∃ l, Keeps .dialing l x ∧ l.map (Glance.logging on) = h := by
  constructor
  · rintro ⟨ops, ds, w, h1, h2, h3, rfl⟩
    obtain ⟨_, _, x', l, k1, k2, k3⟩ := keeps_of_traced (w := .dialing) trivial trivial .dialing h1
    obtain rfl := posted_one k1 h2 (trim_keeps k2 trivial) h3
    exact ⟨l, k2, k3.symm⟩
  · rintro ⟨l, h1, rfl⟩
    obtain ⟨ops, ds, w, k1, k2, _, _, k3⟩ := traced_of_keeps on (w := .dialing) trivial trivial
      .dialing h1
    exact ⟨ops, ds, w, k1, k3, trim_keeps h1 trivial, k2⟩

/-- **C141** And exactly where the machine goes dark, `watch` can panic, in that way. -/
theorem C141_ends {on : Callsite → Bool} {h : List Glance} {op : WatcherOp} {q : Panic} :
    (∃ ops ds w, tracedWatch on ops .dialing = .ok (ds, w) ∧ glances ds = h ∧
      w.stepL on op = .error q) ↔
    ∃ l x, Keeps .dialing l x ∧ l.map (Glance.logging on) = h ∧ Darkens x op q := by
  constructor
  · rintro ⟨ops, ds, w, h1, rfl, h3⟩
    obtain ⟨g, a, x', l, k1, k2, k3⟩ := keeps_of_traced (w := .dialing) trivial trivial .dialing h1
    exact ⟨l, x', k2, k3.symm, step_darkens g a k1 h3⟩
  · rintro ⟨l, x, h1, rfl, h2⟩
    obtain ⟨ops, ds, w, k1, k2, g, k3, k4⟩ := traced_of_keeps on (w := .dialing) trivial trivial
      .dialing h1
    obtain ⟨ops', ds', w', m1, m2, m3⟩ := dark_realises on g k3 k4 h2
    exact ⟨_, _, w', glances_append k1 m1, by rw [glance_append, m2, List.append_nil, k2], m3⟩

/-- **C141** The history has what is logged. -/
theorem C141_traced (on : Callsite → Bool) (ops : List WatcherOp) : ∀ w : Watcher,
    (tracedWatch on ops w).map (fun x => (x.1.flatMap Glance.log, x.2)) = Watcher.runL on ops w := by
  induction ops with
  | nil => intro w; rfl
  | cons op ops ih =>
    intro w
    have e : tracedWatch on (op :: ops) w = (w.stepL on op >>= fun x => tracedWatch on ops x.2 >>=
      fun y => .ok (glanceOf w op x.1 x.2 :: y.1, y.2)) := rfl
    rw [e, watcher_cons]
    cases w.stepL on op with
    | error => rfl
    | ok x =>
      rw [bind_ok, bind_ok, ← ih x.2]
      cases tracedWatch on ops x.2 <;> rfl

/-- The machine reaches the panel, asks, and goes dark when nothing can be written; so there is a run
of `watch` that does. -/
example : ∃ ops ds w, tracedWatch (fun s => s.level = .info) ops .dialing = .ok (ds, w) ∧
    glances ds = [⟨.dialed (.ok ()), [], [], []⟩, ⟨.op (.tick ⟨0, 0, 0⟩), [], [], []⟩] ∧
    w.stepL (fun s => s.level = .info) (.op (.tick ⟨0, 0, 0⟩)) = .error .expect := by
  obtain ⟨d, hd⟩ := C105_message _ (stageQ_wf .arming)
  refine C141_ends.mpr ⟨[⟨.dialed (.ok ()), [], [], _⟩, ⟨.op (.tick ⟨0, 0, 0⟩), [], [], _⟩], _,
    .cons rfl (.reached hd) (.inl rfl) (fun h => nomatch h)
      (.cons rfl (.greets .ask .ask) (.inl rfl) (fun h => nomatch h) .nil), rfl,
    .lost (e := .writeZero) (cx := ⟨0, 0, 0⟩) (rd := []) (wr := [])
        (.unwritten (u := asciiFrame (sentText .armingStatusRequest))
          ⟨rfl, (fun h => nomatch h), (fun h => nomatch h)⟩) (by
          intro e he
          cases he
          exact ⟨by simp [Greet.new, asciiFrame], .inl rfl⟩)⟩

/-- The history of a sample run, to the return. -/
example : ∃ x, tracedWatch (fun s => s.level = .info) sampleWatchOps .dialing = .ok x ∧
    decide ((glances x.1).length = 18 ∧
      (x.1.flatMap Glance.log).map Record.site = [.tracking, .zoneLine] ∧
      ((glances x.1).flatMap Glance.wr).take 10 = bs "06as0066\r\n") = true :=
  of_holds (by decide +kernel)

end Elk.Props
