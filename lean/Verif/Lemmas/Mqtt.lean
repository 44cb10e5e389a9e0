import Verif.Lemmas.Init
import Verif.Spec.Mqtt
/-!
# Lemmas about the MQTT bridge: what each step does
-/

namespace Elk
open Spec Props

theorem P_bind_ok {α β : Type} {x : P α} {f : α → P β} {b : β} :
    (x >>= f) = .ok b ↔ ∃ a, x = .ok a ∧ f a = .ok b := by
  cases x with
  | error e => exact ⟨fun h => (by cases h), fun ⟨_, h, _⟩ => (by cases h)⟩
  | ok a => exact ⟨fun h => ⟨a, rfl, h⟩, fun ⟨_, h, h'⟩ => (by cases h; exact h')⟩

theorem P_bind_error {α β : Type} {x : P α} {f : α → P β} {q : Panic} :
    (x >>= f) = .error q ↔ x = .error q ∨ ∃ a, x = .ok a ∧ f a = .error q := by
  cases x with
  | error e =>
    constructor
    · intro h; cases h; exact .inl rfl
    · rintro (h | ⟨_, h, _⟩) <;> cases h; rfl
  | ok a =>
    constructor
    · intro h; exact .inr ⟨a, rfl, h⟩
    · rintro (h | ⟨_, h, h'⟩)
      · cases h
      · cases h; exact h'

/-- A poll of the panel's stream, as an operation. -/
theorem next_step {p p' : Panel} {cx r w} :
    p.step (.pollNext cx) = .ok (.next r w, p') ↔ p.pollNext cx = .ok (r, w, p') := by
  unfold Panel.step
  dsimp only
  rw [P_bind_ok]
  constructor
  · rintro ⟨⟨r', w', q⟩, h1, h2⟩
    cases h2
    exact h1
  · intro h
    exact ⟨_, h, rfl⟩

/-- The panel after its branch of `select!` may have been polled in vain. -/
inductive Polled (p : Panel) (cx : Cx) : List Op → List Out → Panel → Prop
  | no : Polled p cx [] [] p
  | yes (w p') : p.pollNext cx = .ok (.pending, w, p') →
      Polled p cx [.pollNext cx] [.next .pending w] p'

/-- What one step of the bridge does. -/
inductive BCase (b : Bridge) : BOp → BObs → Bridge → Prop
  | arrive (r) : BCase b (.arrive r) (.env (b.panel.conn.arrive r).1)
      { b with panel := { b.panel with conn := (b.panel.conn.arrive r).2 } }
  | writable (w) : BCase b (.writable w) (.env (b.panel.conn.writable w).1)
      { b with panel := { b.panel with conn := (b.panel.conn.writable w).2 } }
  | deliver (p) : BCase b (.deliver p) (.env []) { b with inbox := b.inbox ++ [p] }
  | event (cx pf ev out w panel) : b.waiting = .select →
      b.panel.pollNext cx = .ok (.ready (some (.ok ev)), w, panel) →
      publishEvent panel b.cfg ev = .ok out →
      BCase b (.tick cx pf) (.event ev out w) { b with panel, log := b.log ++ out }
  | ignored (cx pf p inbox ops outs panel) : b.waiting = .select → b.inbox = p :: inbox →
      Polled b.panel cx ops outs panel →
      commandFor b.cfg.prefix b.code p b.cfg.elk.areas = .ok none →
      BCase b (.tick cx pf) (.taken p none) { b with panel, inbox }
  | asked (cx pf p inbox ops outs panel c) : b.waiting = .select → b.inbox = p :: inbox →
      Polled b.panel cx ops outs panel →
      commandFor b.cfg.prefix b.code p b.cfg.elk.areas = .ok (some c) →
      BCase b (.tick cx pf) (.taken p (some c)) { b with panel, inbox, waiting := .ready c }
  | idle (cx pf w panel) : b.waiting = .select → b.inbox = [] →
      b.panel.pollNext cx = .ok (.pending, w, panel) →
      BCase b (.tick cx pf) .pending { b with panel }
  | notReady (cx pf c panel) : b.waiting = .ready c → b.panel.pollReady cx = (.pending, panel) →
      BCase b (.tick cx pf) .pending { b with panel }
  | accepted (cx pf c p1 panel) : b.waiting = .ready c →
      b.panel.pollReady cx = (.ready (.ok ()), p1) → p1.startSend c = .ok panel →
      BCase b (.tick cx pf) (.accepted c) { b with panel, waiting := .flush }
  | notFlushed (cx pf panel) : b.waiting = .flush → b.panel.pollFlush cx = (.pending, panel) →
      BCase b (.tick cx pf) .pending { b with panel }
  | sent (cx pf panel) : b.waiting = .flush → b.panel.pollFlush cx = (.ready (.ok ()), panel) →
      BCase b (.tick cx pf) .sent { b with panel, waiting := .select }

/-- What polling the panel's branch does. -/
theorem pollPanel_ok {b b' : Bridge} {cx o} (h : b.pollPanel cx = .ok (o, b')) :
    (∃ w panel, b.panel.pollNext cx = .ok (.pending, w, panel) ∧ o = none ∧
      b' = { b with panel }) ∨
    (∃ ev w panel out, b.panel.pollNext cx = .ok (.ready (some (.ok ev)), w, panel) ∧
      publishEvent panel b.cfg ev = .ok out ∧ o = some (.event ev out w) ∧
      b' = { b with panel, log := b.log ++ out }) := by
  unfold Bridge.pollPanel at h
  rw [P_bind_ok] at h
  obtain ⟨⟨r, w, panel⟩, h1, h2⟩ := h
  dsimp only at h2
  match r, h2 with
  | .pending, h2 => cases h2; exact .inl ⟨w, panel, h1, rfl, rfl⟩
  | .ready none, h2 => cases h2
  | .ready (some (.error _)), h2 => cases h2
  | .ready (some (.ok ev)), h2 =>
    dsimp only at h2
    rw [P_bind_ok] at h2
    obtain ⟨out, h3, h4⟩ := h2
    cases h4
    exact .inr ⟨ev, w, panel, out, h1, h3, rfl, rfl⟩

/-- What polling the channel's branch does. -/
theorem pollInbox_ok {b b' : Bridge} {o} (h : b.pollInbox = .ok (o, b')) :
    (b.inbox = [] ∧ o = none ∧ b' = b) ∨
    (∃ p inbox, b.inbox = p :: inbox ∧
      commandFor b.cfg.prefix b.code p b.cfg.elk.areas = .ok none ∧ o = some (.taken p none) ∧
      b' = { b with inbox }) ∨
    (∃ p inbox c, b.inbox = p :: inbox ∧
      commandFor b.cfg.prefix b.code p b.cfg.elk.areas = .ok (some c) ∧
      o = some (.taken p (some c)) ∧ b' = { b with inbox, waiting := .ready c }) := by
  unfold Bridge.pollInbox at h
  split at h
  · rename_i hi
    cases h
    exact .inl ⟨hi, rfl, rfl⟩
  · rename_i p inbox hi
    rw [P_bind_ok] at h
    obtain ⟨c, h1, h2⟩ := h
    match c, h2 with
    | none, h2 => cases h2; exact .inr (.inl ⟨p, inbox, hi, h1, rfl, rfl⟩)
    | some c, h2 => cases h2; exact .inr (.inr ⟨p, inbox, c, hi, h1, rfl, rfl⟩)

theorem bstep_cases {b b' : Bridge} {op o} (h : b.step op = .ok (o, b')) : BCase b op o b' := by
  match op with
  | .arrive r => cases h; exact .arrive r
  | .writable r => cases h; exact .writable r
  | .deliver p => cases h; exact .deliver p
  | .tick cx pf =>
    have h : b.tick cx pf = .ok (o, b') := h
    unfold Bridge.tick at h
    split at h
    · rename_i hw
      unfold Bridge.select at h
      split at h
      · rw [P_bind_ok] at h
        obtain ⟨⟨o1, b1⟩, h1, h2⟩ := h
        rcases pollPanel_ok h1 with ⟨w, panel, hn, rfl, rfl⟩ | ⟨ev, w, panel, out, hn, hp, rfl, rfl⟩
        · dsimp only at h2
          rw [P_bind_ok] at h2
          obtain ⟨⟨o2, b2⟩, h3, h4⟩ := h2
          cases h4
          rcases pollInbox_ok h3 with ⟨hi, rfl, rfl⟩ | ⟨p, inbox, hi, hc, rfl, rfl⟩ |
            ⟨p, inbox, c, hi, hc, rfl, rfl⟩
          · exact .idle cx pf w panel hw hi hn
          · exact .ignored cx pf p inbox _ _ panel hw hi (.yes w panel hn) hc
          · exact .asked cx pf p inbox _ _ panel c hw hi (.yes w panel hn) hc
        · cases h2
          exact .event cx pf ev out w panel hw hn hp
      · rw [P_bind_ok] at h
        obtain ⟨⟨o1, b1⟩, h1, h2⟩ := h
        rcases pollInbox_ok h1 with ⟨hi, rfl, rfl⟩ | ⟨p, inbox, hi, hc, rfl, rfl⟩ |
            ⟨p, inbox, c, hi, hc, rfl, rfl⟩
        · dsimp only at h2
          rw [P_bind_ok] at h2
          obtain ⟨⟨o2, b2⟩, h3, h4⟩ := h2
          cases h4
          rcases pollPanel_ok h3 with ⟨w, panel, hn, rfl, rfl⟩ |
            ⟨ev, w, panel, out, hn, hp, rfl, rfl⟩
          · exact .idle cx pf w panel hw hi hn
          · exact .event cx pf ev out w panel hw hn hp
        · cases h2
          exact .ignored cx pf p inbox _ _ b.panel hw hi .no hc
        · cases h2
          exact .asked cx pf p inbox _ _ b.panel c hw hi .no hc
    · rename_i c hw
      split at h
      · rename_i panel hr
        cases h
        exact .notReady cx pf c panel hw hr
      · cases h
      · rename_i p1 hr
        rw [P_bind_ok] at h
        obtain ⟨panel, h1, h2⟩ := h
        cases h2
        exact .accepted cx pf c p1 panel hw hr h1
    · rename_i hw
      split at h
      · rename_i panel hr
        cases h
        exact .notFlushed cx pf panel hw hr
      · cases h
      · rename_i panel hr
        cases h
        exact .sent cx pf panel hw hr

theorem brun_cons {op : BOp} {ops : List BOp} {b b2 : Bridge} {obs : List BObs} :
    Bridge.run (op :: ops) b = .ok (obs, b2) ↔
      ∃ o b1 os, b.step op = .ok (o, b1) ∧ Bridge.run ops b1 = .ok (os, b2) ∧ obs = o :: os := by
  have e : Bridge.run (op :: ops) b = (b.step op >>= fun x => Bridge.run ops x.2 >>= fun y =>
      .ok (x.1 :: y.1, y.2)) := rfl
  rw [e, P_bind_ok]
  constructor
  · rintro ⟨⟨o, b1⟩, h1, h2⟩
    rw [P_bind_ok] at h2
    obtain ⟨⟨os, b2'⟩, h3, h4⟩ := h2
    cases h4
    exact ⟨o, b1, os, h1, h3, rfl⟩
  · rintro ⟨o, b1, os, h1, h2, rfl⟩
    refine ⟨(o, b1), h1, ?_⟩
    rw [P_bind_ok]
    exact ⟨(os, b2), h2, rfl⟩

/-- Histories of the bridge, with what each step did. -/
inductive BHist : Bridge → List BOp → List BObs → Bridge → Prop
  | nil {b} : BHist b [] [] b
  | cons {b op o b1 ops os b2} : BCase b op o b1 → BHist b1 ops os b2 →
      BHist b (op :: ops) (o :: os) b2

theorem bhist_of_run {ops : List BOp} : ∀ {b b' : Bridge} {obs : List BObs},
    Bridge.run ops b = .ok (obs, b') → BHist b ops obs b' := by
  induction ops with
  | nil => intro b b' obs h; cases h; exact .nil
  | cons op ops ih =>
    intro b b' obs h
    obtain ⟨o, b1, os, h1, h2, rfl⟩ := brun_cons.mp h
    exact .cons (bstep_cases h1) (ih h2)

/-! ## The panel of the bridge -/

theorem run_one {p p' : Panel} {op o} (h : p.step op = .ok (o, p')) :
    Panel.run [op] p = .ok ([o], p') := run_cons.mpr ⟨o, p', [], h, rfl, rfl⟩

theorem events_one (o : Out) : events [o] = (eventOf o).toList := by
  unfold events
  cases h : eventOf o <;> simp [h]

theorem polled_run {p p' : Panel} {cx ops outs} (h : Polled p cx ops outs p') :
    Panel.run ops p = .ok (outs, p') ∧ commands ops = [] ∧ events outs = [] ∧
      arrived ops = [] := by
  cases h with
  | no => exact ⟨rfl, rfl, rfl, rfl⟩
  | yes w _ h => exact ⟨run_one (next_step.mpr h), rfl, rfl, rfl⟩

/-- One step of the bridge, as operations on its panel. -/
theorem bcase_panel {b b' : Bridge} {op o} (h : BCase b op o b') :
    ∃ ops outs, Panel.run ops b.panel = .ok (outs, b'.panel) ∧ commands ops = given [o] ∧
      events outs = handled [o] ∧ arrived ops = arrivedAt [op] := by
  cases h with
  | arrive r => exact ⟨[.arrive r], _, run_one rfl, rfl, rfl, rfl⟩
  | writable r => exact ⟨[.writable r], _, run_one rfl, rfl, rfl, rfl⟩
  | deliver p => exact ⟨[], [], rfl, rfl, rfl, rfl⟩
  | event cx pf ev out w panel hw hn hp => exact ⟨[.pollNext cx], _, run_one (next_step.mpr hn), rfl, rfl, rfl⟩
  | ignored cx pf p inbox ops outs panel hw hi hp hc =>
    obtain ⟨h1, h2, h3, h4⟩ := polled_run hp
    exact ⟨ops, outs, h1, h2, h3, h4⟩
  | asked cx pf p inbox ops outs panel c hw hi hp hc =>
    obtain ⟨h1, h2, h3, h4⟩ := polled_run hp
    exact ⟨ops, outs, h1, h2, h3, h4⟩
  | idle cx pf w panel hw hi hn => exact ⟨[.pollNext cx], _, run_one (next_step.mpr hn), rfl, rfl, rfl⟩
  | notReady cx pf c panel hw hr =>
    refine ⟨[.pollReady cx], [.sink .pending], run_one ?_, rfl, rfl, rfl⟩
    unfold Panel.step
    dsimp only
    rw [hr]
  | accepted cx pf c p1 panel hw hr hs =>
    refine ⟨[.pollReady cx, .startSend c], [.sink (.ready (.ok ())), .accepted],
      run_cons.mpr ⟨_, p1, _, ?_, run_one ?_, rfl⟩, rfl, rfl, rfl⟩
    · unfold Panel.step
      dsimp only
      rw [hr]
    · unfold Panel.step
      dsimp only
      rw [hs]
      rfl
  | notFlushed cx pf panel hw hr =>
    refine ⟨[.pollFlush cx], [.sink .pending], run_one ?_, rfl, rfl, rfl⟩
    unfold Panel.step
    dsimp only
    rw [hr]
  | sent cx pf panel hw hr =>
    refine ⟨[.pollFlush cx], [.sink (.ready (.ok ()))], run_one ?_, rfl, rfl, rfl⟩
    unfold Panel.step
    dsimp only
    rw [hr]

theorem filterMap_cons_split {α β : Type} (f : α → Option β) (a : α) (l : List α) :
    (a :: l).filterMap f = [a].filterMap f ++ l.filterMap f := by
  rw [← List.filterMap_append]; rfl

theorem events_append (a b : List Out) : events (a ++ b) = events a ++ events b :=
  List.filterMap_append ..

theorem commands_append (a b : List Op) : commands (a ++ b) = commands a ++ commands b :=
  List.filterMap_append ..

theorem handled_cons (o : BObs) (os : List BObs) : handled (o :: os) = handled [o] ++ handled os :=
  filterMap_cons_split ..

theorem given_cons (o : BObs) (os : List BObs) : given (o :: os) = given [o] ++ given os :=
  filterMap_cons_split ..

theorem asked_cons (o : BObs) (os : List BObs) : asked (o :: os) = asked [o] ++ asked os :=
  filterMap_cons_split ..

theorem takenUp_cons (o : BObs) (os : List BObs) : takenUp (o :: os) = takenUp [o] ++ takenUp os :=
  filterMap_cons_split ..

theorem delivered_cons (o : BOp) (os : List BOp) :
    delivered (o :: os) = delivered [o] ++ delivered os := filterMap_cons_split ..

theorem arrived_append (a b : List Op) : arrived (a ++ b) = arrived a ++ arrived b :=
  List.filterMap_append ..

theorem arrivedAt_cons (o : BOp) (os : List BOp) :
    arrivedAt (o :: os) = arrivedAt [o] ++ arrivedAt os := filterMap_cons_split ..

/-- A history of the bridge, as a history of its panel. -/
theorem bhist_panel {b b' : Bridge} {ops obs} (h : BHist b ops obs b') :
    ∃ pops outs, Panel.run pops b.panel = .ok (outs, b'.panel) ∧ commands pops = given obs ∧
      events outs = handled obs ∧ arrived pops = arrivedAt ops := by
  induction h with
  | nil => exact ⟨[], [], rfl, rfl, rfl, rfl⟩
  | @cons b op o b1 ops os b2 hc _ ih =>
    obtain ⟨p1, o1, h1, h2, h3, h7⟩ := bcase_panel hc
    obtain ⟨p2, o2, h4, h5, h6, h8⟩ := ih
    refine ⟨p1 ++ p2, o1 ++ o2, run_append.mpr ⟨_, o1, o2, h1, h4, rfl⟩, ?_, ?_, ?_⟩
    · rw [commands_append, h2, h5, ← given_cons]
    · rw [events_append, h3, h6, ← handled_cons]
    · rw [arrived_append, h7, h8, ← arrivedAt_cons]

/-- What never changes, and how the log grows. -/
theorem bcase_static {b b' : Bridge} {op o} (h : BCase b op o b') :
    b'.cfg = b.cfg ∧ b'.code = b.code ∧ b'.subscribed = b.subscribed ∧
      b'.log = b.log ++ published [o] := by
  cases h <;> simp [published]

theorem published_cons (o : BObs) (os : List BObs) :
    published (o :: os) = published [o] ++ published os := by
  unfold published
  simp

theorem bhist_static {b b' : Bridge} {ops obs} (h : BHist b ops obs b') :
    b'.cfg = b.cfg ∧ b'.code = b.code ∧ b'.subscribed = b.subscribed ∧
      b'.log = b.log ++ published obs := by
  induction h with
  | nil => simp [published]
  | @cons b op o b1 ops os b2 hc _ ih =>
    obtain ⟨h1, h2, h3, h4⟩ := bcase_static hc
    obtain ⟨g1, g2, g3, g4⟩ := ih
    rw [g1, g2, g3, g4, h1, h2, h3, h4, published_cons o os, List.append_assoc]
    simp

end Elk
