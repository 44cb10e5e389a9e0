import Verif.Props.Wired
import Verif.Spec.Duo
/-!
# One task reads and another sends (C112)
-/

namespace Elk.Props
open Elk.Spec

/-! ## What a poll completes -/

theorem poll_completes {p : Panel} {cx ev w p'} (hg : Good p)
    (h : p.pollNext cx = .ok (.ready (some (.ok ev)), w, p')) :
    (∀ m, ev.msg = some (.ok m) →
      (∃ r f w0, p.cmdState = .busy r f w0 ∧ Responds m r ∧ p'.cmdState = .idle ∧
        ev.completes = some r ∧ w = w0.toList) ∨
      ((∀ r f w0, p.cmdState = .busy r f w0 → ¬ Responds m r) ∧ p'.cmdState = p.cmdState ∧
        ev.completes = none ∧ w = [])) ∧
    (ev.msg = none → ev.completes = none ∧ w = []) := by
  obtain ⟨x, new, hx, hc⟩ := pollNext_cases p cx hg.sane.rd hg.sane.arming
  rw [hx] at h
  cases h
  cases hc with
  | packet pkt c _ _ _ hs hi =>
    cases hi with
    | bad e _ => exact ⟨fun m hm => (nomatch hm), fun hm => (nomatch hm)⟩
    | skip _ => exact ⟨fun m hm => (nomatch hm), fun _ => ⟨rfl, rfl⟩⟩
    | msg m change p1 completes woken p2 he _ htr hco =>
      obtain ⟨k1, k2, _⟩ := track_keeps htr
      have k2 : p1.cmdState = p.cmdState := k2
      refine ⟨fun m' hm => ?_, fun hm => by cases hm⟩
      cases hm
      cases hco with
      | done r f w0 hb hr => exact .inl ⟨r, f, w0, k2 ▸ hb, hr, rfl, rfl, rfl⟩
      | busy r f w0 hb hr =>
        refine .inr ⟨fun r' f' w' hb' => ?_, k2, rfl, rfl⟩
        rw [← k2, hb] at hb'
        cases hb'
        exact hr
      | idle hb =>
        refine .inr ⟨fun r' f' w' hb' => ?_, k2, rfl, rfl⟩
        rw [← k2, hb] at hb'
        cases hb'
  | fire c pa prior hs _ _ _ => exact ⟨fun m hm => (nomatch hm), fun _ => ⟨rfl, rfl⟩⟩

theorem poll_good {p : Panel} {cx r w p'} (hg : Good p) (h : p.pollNext cx = .ok (r, w, p')) :
    Good p' ∧ p'.conn.sock.writeWaker = p.conn.sock.writeWaker := by
  obtain ⟨x, new, hx, hc⟩ := pollNext_cases p cx hg.sane.rd hg.sane.arming
  rw [hx] at h
  cases h
  refine ⟨next_good hg hc, ?_⟩
  cases hc with
  | error e c hs => exact hs.writeWaker
  | ended c hs => exact hs.writeWaker
  | packet pkt c ev w p' hs hi =>
    obtain ⟨h1, _⟩ := interp_keeps hi
    rw [h1]; exact hs.writeWaker
  | idle c hs => exact hs.writeWaker
  | wait c pa hs => exact hs.writeWaker
  | fire c pa prior hs => exact hs.writeWaker

/-! ## The invariant -/

/-- No command is confirmed. -/
def NoneConfirmed (msgs : List Message) : Prop := ∀ m ∈ msgs, confirms m = false

/-- How far the command handed over last has got, and the number of messages before its
confirmation. -/
inductive Leg (d : Duo) (reqs : List Command) (msgs : List Message) : Nat → Nat → Prop
  | idle : d.sending = false → d.panel.cmdState = .idle → d.panel.conn.wbuf = [] → reqs = [] →
      NoneConfirmed msgs → d.completed = d.given.map Command.intoMsg → Leg d reqs msgs 3 0
  | flush (c pre) : d.sending = true → d.panel.cmdState = .busy c.intoMsg false none →
      d.panel.conn.wbuf ≠ [] → reqs = [c] → NoneConfirmed msgs → d.given = pre ++ [c] →
      d.completed = pre.map Command.intoMsg → Leg d reqs msgs 2 0
  | unheard (c pre w) : d.sending = false → d.panel.cmdState = .busy c.intoMsg true w →
      d.panel.conn.wbuf = [] → reqs = [c] → NoneConfirmed msgs → d.given = pre ++ [c] →
      d.completed = pre.map Command.intoMsg → Leg d reqs msgs 1 0
  | heard (c pre w a m b) : d.sending = false → d.panel.cmdState = .busy c.intoMsg true w →
      d.panel.conn.wbuf = [] → reqs = [] → msgs = a ++ m :: b → NoneConfirmed a →
      NoneConfirmed b → Responds m c.intoMsg → d.given = pre ++ [c] →
      d.completed = pre.map Command.intoMsg → Leg d reqs msgs 0 a.length

/-- What is known of line and books. -/
structure Cable (d : Duo) (reqs : List Command) (msgs : List Message) : Prop where
  good : Good d.panel
  sound : Sound d.panel.conn.rd
  data : OnlyData d.panel.conn.sock.incoming
  takes : OnlyTakes d.panel.conn.sock.writes
  bytes : inHand d.panel ++ d.line = msgs.flatMap frame
  asked : d.panel.conn.sock.sent.drop d.taken ++ d.panel.conn.wbuf = reqs.flatMap commandBytes
  taken : d.taken ≤ d.panel.conn.sock.sent.length
  wf : ∀ m ∈ msgs, WfMessage m
  said : d.told ++ msgs = d.said
  heard : d.heard ++ reqs.map commandBytes = d.given.map commandBytes
  posted : d.given ++ d.todo = d.posted
  cmds : ∀ c ∈ d.posted, WfCommand c
  fine : d.failed = false

/-- What is known of the two tasks, line and panel. -/
structure DuoInv (d : Duo) (reqs : List Command) (msgs : List Message) (k x : Nat) : Prop where
  cable : Cable d reqs msgs
  leg : Leg d reqs msgs k x
  reader : ∀ w, d.reader = some w → d.panel.conn.sock.readWaker = some w ∧ Awaits d.panel msgs
  sender : ∀ w, d.sender = some w →
    (d.sending = false ∧ d.todo = []) ∨
    (d.sending = true ∧ d.panel.conn.sock.writes = [] ∧
      d.panel.conn.sock.writeWaker = some w) ∨
    (d.sending = false ∧ ∃ c, d.panel.cmdState = .busy c true (some w))

/-! ## The distance -/

/-- How far it is to the next stage. -/
def away (d : Duo) (msgs : List Message) (k x : Nat) : Nat × Nat :=
  match k with
  | 0 => (x, missing d.panel msgs)
  | 2 => (0, 2 * d.panel.conn.wbuf.length + if d.panel.conn.sock.writes = [] then 1 else 0)
  | _ => (0, 0)

/-- Who can bring the next message nearer. -/
def porter (p : Panel) (msgs : List Message) : Actor :=
  if missing p msgs = 0 then .reader else .line

/-- Who can bring the next stage nearer. -/
def mate (d : Duo) (msgs : List Message) (k : Nat) : Actor :=
  match k with
  | 0 => porter d.panel msgs
  | 1 => .panel
  | 2 => if d.panel.conn.sock.writes = [] then .socket else .sender
  | _ => .sender

theorem porter_chance (p : Panel) (msgs : List Message) : porter p msgs ≠ .chance := by
  unfold porter
  split <;> decide

theorem mate_chance (d : Duo) (msgs : List Message) (k : Nat) : mate d msgs k ≠ .chance := by
  unfold mate
  split
  · exact porter_chance _ _
  · decide
  · split <;> decide
  · decide

/-- What one thing that happens does for the messages. -/
inductive NearMsg (w : Actor) (d : Duo) (msgs : List Message) (d' : Duo) (msgs' : List Message) :
    Prop
  | read (m) : d'.told = d.told ++ [m] → NearMsg w d msgs d' msgs'
  | nearer : d'.told = d.told → missing d'.panel msgs' < missing d.panel msgs →
      NearMsg w d msgs d' msgs'
  | nothing : d'.told = d.told → msgs = [] → NearMsg w d msgs d' msgs'
  | stay : d'.told = d.told → missing d'.panel msgs' = missing d.panel msgs →
      w ≠ porter d.panel msgs → NearMsg w d msgs d' msgs'

/-- One less, in the lexicographic order. -/
def Less (a b : Nat × Nat) : Prop := Prod.Lex (· < ·) (· < ·) a b

/-- What one thing that happens does for the commands. -/
inductive NearCmd (w : Actor) (d : Duo) (msgs : List Message) (k x : Nat) (d' : Duo)
    (msgs' : List Message) (k' x' : Nat) : Prop
  | done (c) : d'.completed = d.completed ++ [c] → NearCmd w d msgs k x d' msgs' k' x'
  | down : d'.completed = d.completed → k' < k → NearCmd w d msgs k x d' msgs' k' x'
  | nearer : d'.completed = d.completed → k' = k → Less (away d' msgs' k x') (away d msgs k x) →
      NearCmd w d msgs k x d' msgs' k' x'
  | nothing : d'.completed = d.completed → k' = k → k = 3 → d.todo = [] →
      NearCmd w d msgs k x d' msgs' k' x'
  | stay : d'.completed = d.completed → k' = k → away d' msgs' k x' = away d msgs k x →
      mate d' msgs' k = mate d msgs k → w ≠ mate d msgs k → NearCmd w d msgs k x d' msgs' k' x'

/-- What only grows. -/
structure More (d d' : Duo) : Prop where
  said : d.said <+: d'.said
  heard : d.heard <+: d'.heard
  posted : d.posted <+: d'.posted

/-- What is known after one thing has happened. -/
def NextDuo (w : Actor) (d : Duo) (reqs : List Command) (msgs : List Message) (k x : Nat) (d' : Duo) :
    Prop :=
  ∃ reqs' msgs' k' x', DuoInv d' reqs' msgs' k' x' ∧ NearMsg w d msgs d' msgs' ∧
    NearCmd w d msgs k x d' msgs' k' x' ∧ More d d'

theorem more_refl (d d' : Duo) (h1 : d'.said = d.said) (h2 : d'.heard = d.heard)
    (h3 : d'.posted = d.posted) : More d d' :=
  ⟨h1 ▸ List.prefix_refl _, h2 ▸ List.prefix_refl _, h3 ▸ List.prefix_refl _⟩

/-- The stage after something that does not concern it. -/
theorem leg_same {d d' : Duo} {reqs : List Command} {msgs : List Message} {k x : Nat}
    (h : Leg d reqs msgs k x) (h1 : d'.sending = d.sending)
    (h2 : d'.panel.cmdState = d.panel.cmdState) (h3 : d'.panel.conn.wbuf = d.panel.conn.wbuf)
    (h4 : d'.given = d.given) (h5 : d'.completed = d.completed) : Leg d' reqs msgs k x := by
  cases h with
  | idle g1 g2 g3 g4 g5 g6 =>
    exact .idle (h1.trans g1) (h2.trans g2) (h3.trans g3) g4 g5 (by rw [h4, h5]; exact g6)
  | flush c pre g1 g2 g3 g4 g5 g6 g7 =>
    exact .flush c pre (h1.trans g1) (h2.trans g2) (h3 ▸ g3) g4 g5 (h4.trans g6) (h5.trans g7)
  | unheard c pre w g1 g2 g3 g4 g5 g6 g7 =>
    exact .unheard c pre w (h1.trans g1) (h2.trans g2) (h3.trans g3) g4 g5 (h4.trans g6)
      (h5.trans g7)
  | heard c pre w a m b g1 g2 g3 g4 g5 g6 g7 g8 g9 g10 =>
    exact .heard c pre w a m b (h1.trans g1) (h2.trans g2) (h3.trans g3) g4 g5 g6 g7 g8
      (h4.trans g9) (h5.trans g10)

theorem rouse_some {ws : List Waker} {a : Option Waker} {w : Waker} (h : rouse ws a = some w) :
    a = some w ∧ w ∉ ws := by
  unfold rouse at h
  split at h
  · cases h
  · rename_i hn
    subst h
    refine ⟨rfl, fun hm => hn ?_⟩
    simpa using hm

theorem away_eq {d d' : Duo} {msgs : List Message} {k x : Nat}
    (h1 : missing d'.panel msgs = missing d.panel msgs)
    (h2 : d'.panel.conn.wbuf = d.panel.conn.wbuf)
    (h3 : d'.panel.conn.sock.writes = d.panel.conn.sock.writes) :
    away d' msgs k x = away d msgs k x ∧ mate d' msgs k = mate d msgs k := by
  unfold away mate porter
  rw [h1, h2, h3]
  exact ⟨rfl, rfl⟩

theorem leg_msgs {d : Duo} {reqs : List Command} {msgs : List Message} {k x : Nat}
    (h : Leg d reqs msgs k x) (hk : k = 0) : msgs ≠ [] := by
  cases h with
  | idle => cases hk
  | flush => cases hk
  | unheard => cases hk
  | heard c pre w a m b _ _ _ _ g5 => rw [g5]; simp

theorem missing_hand {p p' : Panel} (h : inHand p' = inHand p) (msgs : List Message) :
    missing p' msgs = missing p msgs := by
  cases msgs with
  | nil => rfl
  | cons m t => rw [missing_cons, missing_cons, h]

theorem awaits_porter {p : Panel} {msgs : List Message} (h : Awaits p msgs) (hm : msgs ≠ []) :
    porter p msgs = .line := by
  obtain ⟨m, t, rfl⟩ := List.exists_cons_of_ne_nil hm
  unfold porter
  rw [if_neg (short_missing h)]

theorem awaits_hand {p p' : Panel} {msgs : List Message} (h : inHand p' = inHand p)
    (ha : Awaits p msgs) : Awaits p' msgs := by
  intro m t hm
  rw [h]
  exact ha m t hm

/-- Nothing is read when nothing can be. -/
theorem nearMsg_short {w : Actor} {d d' : Duo} {msgs : List Message} (ht : d'.told = d.told)
    (hs : Awaits d.panel msgs) (hu : inHand d'.panel = inHand d.panel) (hl : w ≠ .line) :
    NearMsg w d msgs d' msgs := by
  by_cases hm : msgs = []
  · exact .nothing ht hm
  · refine .stay ht (missing_hand hu _) ?_
    rw [awaits_porter hs hm]
    exact hl

/-- One step of somebody who cannot help. -/
theorem nearCmd_short {d d' : Duo} {reqs : List Command} {msgs : List Message} {k x : Nat}
    (hL : Leg d reqs msgs k x)
    (ht : d'.completed = d.completed) (hs : Awaits d.panel msgs)
    (hu : inHand d'.panel = inHand d.panel) (h2 : d'.panel.conn.wbuf = d.panel.conn.wbuf)
    (h3 : d'.panel.conn.sock.writes = d.panel.conn.sock.writes) :
    NearCmd .reader d msgs k x d' msgs k x := by
  obtain ⟨e1, e2⟩ := away_eq (k := k) (x := x) (missing_hand hu msgs) h2 h3
  refine .stay ht rfl e1 e2 ?_
  unfold mate
  split
  · rw [awaits_porter hs (leg_msgs hL rfl)]; decide
  · decide
  · split <;> decide
  · decide

/-! ## The reader -/

theorem next_read {d : Duo} {reqs : List Command} {msgs : List Message} {k x : Nat} {cx : Cx}
    (hi : DuoInv d reqs msgs k x) (hr : d.reader = none) :
    ∃ d', d.read cx = .ok d' ∧ NextDuo .reader d reqs msgs k x d' := by
  obtain ⟨hw, hL, hra, hsa⟩ := hi
  obtain ⟨r, ws, p', hn, h1, h2, h3, h4, h5, hc⟩ :=
    poll_frames (cx := cx) hw.good hw.sound hw.data hw.wf hw.bytes
  obtain ⟨hg, hww⟩ := poll_good hw.good hn
  unfold Duo.read
  rw [hn]
  dsimp only
  cases hc with
  | wait _ c1 c2 c3 c4 =>
    refine ⟨_, rfl, reqs, msgs, k, x, ⟨⟨hg, h1, h2, (by show OnlyTakes p'.conn.sock.writes; rw [h5]; exact hw.takes), ?_, ?_, ?_,
      hw.wf, hw.said, hw.heard, hw.posted, hw.cmds, hw.fine⟩,
      leg_same hL rfl c1 h3 rfl rfl, ?_, ?_⟩, nearMsg_short rfl c3 c2 (by decide),
      nearCmd_short hL rfl c3 c2 h3 h5, more_refl _ _ rfl rfl rfl⟩
    · show inHand p' ++ _ = _
      rw [c2]; exact hw.bytes
    · show p'.conn.sock.sent.drop d.taken ++ p'.conn.wbuf = _
      rw [h3, h4]; exact hw.asked
    · show d.taken ≤ p'.conn.sock.sent.length
      rw [h4]; exact hw.taken
    · intro w hw'
      have hw' : some cx.waker = some w := hw'
      exact ⟨c4.trans hw', awaits_hand c2 c3⟩
    · intro w hw'
      obtain ⟨hw', _⟩ := rouse_some hw'
      show _ ∨ (_ ∧ p'.conn.sock.writes = [] ∧ p'.conn.sock.writeWaker = some w) ∨
        (_ ∧ ∃ c, p'.cmdState = _)
      rw [h5, hww, c1]
      exact hsa w hw'
  | fire ev _ c1 c2 c3 c4 =>
    obtain ⟨hcomp, _⟩ := (poll_completes hw.good hn).2 c1
    have ht : ∀ d1 : Duo, d1.events = d.events ++ [ev] → d1.told = d.told := by
      intro d1 h
      unfold Duo.told
      rw [h, List.filterMap_append]
      simp [c1]
    have hcm : ∀ d1 : Duo, d1.events = d.events ++ [ev] → d1.completed = d.completed := by
      intro d1 h
      unfold Duo.completed
      rw [h, List.filterMap_append]
      simp [hcomp]
    refine ⟨_, rfl, reqs, msgs, k, x, ⟨⟨hg, h1, h2, (by show OnlyTakes p'.conn.sock.writes; rw [h5]; exact hw.takes), ?_, ?_, ?_,
      hw.wf, (by rw [ht _ rfl]; exact hw.said), hw.heard, hw.posted, hw.cmds, hw.fine⟩,
      leg_same hL rfl c2 h3 rfl (hcm _ rfl), ?_, ?_⟩, nearMsg_short (ht _ rfl) c4 c3 (by decide),
      nearCmd_short hL (hcm _ rfl) c4 c3 h3 h5, more_refl _ _ rfl rfl rfl⟩
    · show inHand p' ++ _ = _
      rw [c3]; exact hw.bytes
    · show p'.conn.sock.sent.drop d.taken ++ p'.conn.wbuf = _
      rw [h3, h4]; exact hw.asked
    · show d.taken ≤ p'.conn.sock.sent.length
      rw [h4]; exact hw.taken
    · intro w hw'
      obtain ⟨hw', _⟩ := rouse_some hw'
      have hw' : d.reader = some w := hw'
      rw [hr] at hw'; cases hw'
    · intro w hw'
      obtain ⟨hw', _⟩ := rouse_some hw'
      show _ ∨ (_ ∧ p'.conn.sock.writes = [] ∧ p'.conn.sock.writeWaker = some w) ∨
        (_ ∧ ∃ c, p'.cmdState = _)
      rw [h5, hww, c2]
      exact hsa w hw'
  | got ev m t _ c1 c2 c3 _ =>
    subst c1
    have c4 := (poll_completes hw.good hn).1 m c2
    have ht : ∀ d1 : Duo, d1.events = d.events ++ [ev] → d1.told = d.told ++ [m] := by
      intro d1 h
      unfold Duo.told
      rw [h, List.filterMap_append]
      simp [c2]
    have hcm : ∀ (c : Option Message), ev.completes = c → ∀ d1 : Duo,
        d1.events = d.events ++ [ev] → d1.completed = d.completed ++ c.toList := by
      intro c hc d1 h
      unfold Duo.completed
      rw [h, List.filterMap_append]
      cases c <;> simp [hc]
    have hcab : ∀ d1 : Duo, d1.panel = p' → d1.line = d.line → d1.taken = d.taken →
        d1.events = d.events ++ [ev] → d1.said = d.said → d1.heard = d.heard →
        d1.given = d.given → d1.todo = d.todo → d1.posted = d.posted → d1.failed = d.failed →
        Cable d1 reqs t := by
      intro d1 e1 e2 e3 e4 e5 e6 e7 e8 e9 e10
      refine ⟨by rw [e1]; exact hg, by rw [e1]; exact h1, by rw [e1]; exact h2,
        by rw [e1, h5]; exact hw.takes, by rw [e1, e2]; exact c3,
        by rw [e1, e3, h3, h4]; exact hw.asked, by rw [e1, e3, h4]; exact hw.taken,
        fun x hx => hw.wf x (List.mem_cons_of_mem _ hx), ?_, by rw [e6, e7]; exact hw.heard,
        by rw [e7, e8, e9]; exact hw.posted, by rw [e9]; exact hw.cmds,
        by rw [e10]; exact hw.fine⟩
      rw [ht d1 e4, e5, ← hw.said]
      simp
    have hrd : ∀ (d1 : Duo) w, d1.reader = rouse ws d.reader → d1.reader = some w →
        d1.panel.conn.sock.readWaker = some w ∧ Awaits d1.panel t := by
      intro d1 w e hw'
      rw [e, hr] at hw'
      cases hw'
    rcases c4 with ⟨r, f, w0, q1, q2, q3, q4, q5⟩ | ⟨q1, q2, q3, q4⟩
    · -- the command is completed
      cases hL with
      | idle g1 g2 g3 g4 g5 g6 => rw [g2] at q1; cases q1
      | flush c pre g1 g2 g3 g4 g5 g6 g7 =>
        rw [g2] at q1
        cases q1
        have := g5 m (List.mem_cons_self ..)
        rw [responds_confirms q2] at this
        cases this
      | unheard c pre w g1 g2 g3 g4 g5 g6 g7 =>
        rw [g2] at q1
        cases q1
        have := g5 m (List.mem_cons_self ..)
        rw [responds_confirms q2] at this
        cases this
      | heard c pre w a m' b g1 g2 g3 g4 g5 g6 g7 g8 g9 g10 =>
        rw [g2] at q1
        cases q1
        cases a with
        | cons y a =>
          simp only [List.cons_append, List.cons.injEq] at g5
          obtain ⟨rfl, _⟩ := g5
          have := g6 _ (List.mem_cons_self ..)
          rw [responds_confirms q2] at this
          cases this
        | nil =>
          simp only [List.nil_append, List.cons.injEq] at g5
          obtain ⟨rfl, rfl⟩ := g5
          refine ⟨_, rfl, reqs, t, 3, 0, ⟨hcab _ rfl rfl rfl rfl rfl rfl rfl rfl rfl rfl,
            .idle g1 q3 (h3.trans g3) g4 g7 ?_, fun w => hrd _ w rfl, ?_⟩,
            .read m (ht _ rfl), .done _ (hcm _ q4 _ rfl), more_refl _ _ rfl rfl rfl⟩
          · rw [hcm _ q4 _ rfl, g10]
            show _ = d.given.map _
            rw [g9]
            simp
          · intro w' hw'
            obtain ⟨hw', hnot⟩ := rouse_some hw'
            rcases hsa w' hw' with h | ⟨h, _⟩ | ⟨_, c', h⟩
            · exact .inl h
            · rw [g1] at h; cases h
            · rw [g2] at h
              cases h
              rw [q5] at hnot
              exact absurd (by simp) hnot
    · have hcm' : ∀ d1 : Duo, d1.events = d.events ++ [ev] → d1.completed = d.completed := by
        intro d1 h
        rw [hcm _ q3 d1 h]
        exact List.append_nil _
      have hnc : ∀ l, NoneConfirmed (m :: l) → NoneConfirmed l :=
        fun l h x hx => h x (List.mem_cons_of_mem _ hx)
      have hsd : ∀ (d1 : Duo) w, d1.sender = rouse ws d.sender → d1.panel = p' →
          d1.sending = d.sending → d1.todo = d.todo → d1.sender = some w →
          (d1.sending = false ∧ d1.todo = []) ∨
          (d1.sending = true ∧ d1.panel.conn.sock.writes = [] ∧
            d1.panel.conn.sock.writeWaker = some w) ∨
          (d1.sending = false ∧ ∃ c, d1.panel.cmdState = .busy c true (some w)) := by
        intro d1 w e1 e2 e3 e4 hw'
        rw [e1] at hw'
        obtain ⟨hw', _⟩ := rouse_some hw'
        rw [e2, e3, e4, h5, hww, q2]
        exact hsa w hw'
      cases hL with
      | idle g1 g2 g3 g4 g5 g6 =>
        refine ⟨_, rfl, reqs, t, 3, 0, ⟨hcab _ rfl rfl rfl rfl rfl rfl rfl rfl rfl rfl,
          .idle g1 (q2.trans g2) (h3.trans g3) g4 (hnc t g5) ?_, fun w => hrd _ w rfl,
          fun w => hsd _ w rfl rfl rfl rfl⟩,
          .read m (ht _ rfl), .stay (hcm' _ rfl) rfl rfl rfl Actor.noConfusion, more_refl _ _ rfl rfl rfl⟩
        rw [hcm' _ rfl]; exact g6
      | flush c pre g1 g2 g3 g4 g5 g6 g7 =>
        refine ⟨_, rfl, reqs, t, 2, 0, ⟨hcab _ rfl rfl rfl rfl rfl rfl rfl rfl rfl rfl,
          .flush c pre g1 (q2.trans g2) (by show p'.conn.wbuf ≠ []; rw [h3]; exact g3) g4
            (hnc t g5) g6 ?_, fun w => hrd _ w rfl,
          fun w => hsd _ w rfl rfl rfl rfl⟩,
          .read m (ht _ rfl), .stay (hcm' _ rfl) rfl ?_ ?_ ?_, more_refl _ _ rfl rfl rfl⟩
        · rw [hcm' _ rfl]; exact g7
        · show (0, 2 * p'.conn.wbuf.length + if p'.conn.sock.writes = [] then 1 else 0) = _
          rw [h3, h5]; rfl
        · show (if p'.conn.sock.writes = [] then _ else _) = _
          rw [h5]; rfl
        · show _ ≠ (if d.panel.conn.sock.writes = [] then Actor.socket else Actor.sender)
          split <;> decide
      | unheard c pre w g1 g2 g3 g4 g5 g6 g7 =>
        refine ⟨_, rfl, reqs, t, 1, 0, ⟨hcab _ rfl rfl rfl rfl rfl rfl rfl rfl rfl rfl,
          .unheard c pre w g1 (q2.trans g2) (h3.trans g3) g4
            (hnc t g5) g6 ?_, fun w => hrd _ w rfl,
          fun w => hsd _ w rfl rfl rfl rfl⟩,
          .read m (ht _ rfl), .stay (hcm' _ rfl) rfl rfl rfl Actor.noConfusion, more_refl _ _ rfl rfl rfl⟩
        rw [hcm' _ rfl]; exact g7
      | heard c pre w a m' b g1 g2 g3 g4 g5 g6 g7 g8 g9 g10 =>
        cases a with
        | nil =>
          simp only [List.nil_append, List.cons.injEq] at g5
          obtain ⟨rfl, rfl⟩ := g5
          exact absurd g8 (q1 _ _ _ g2)
        | cons y a =>
          simp only [List.cons_append, List.cons.injEq] at g5
          obtain ⟨rfl, g5⟩ := g5
          refine ⟨_, rfl, reqs, t, 0, a.length, ⟨hcab _ rfl rfl rfl rfl rfl rfl rfl rfl rfl rfl,
            .heard c pre w a m' b g1 (q2.trans g2) (h3.trans g3) g4 g5 (hnc a g6) g7 g8 g9 ?_,
            fun w => hrd _ w rfl, fun w => hsd _ w rfl rfl rfl rfl⟩,
            .read m (ht _ rfl), .nearer (hcm' _ rfl) rfl ?_, more_refl _ _ rfl rfl rfl⟩
          · rw [hcm' _ rfl]; exact g10
          · exact .left _ _ (by simp)

/-- The reader sleeps. -/
theorem next_reader_asleep {d : Duo} {reqs : List Command} {msgs : List Message} {k x : Nat}
    (hi : DuoInv d reqs msgs k x) (hr : d.reader ≠ none) : NextDuo .reader d reqs msgs k x d := by
  obtain ⟨w, hw⟩ := Option.ne_none_iff_exists'.mp hr
  obtain ⟨_, ha⟩ := hi.reader w hw
  exact ⟨reqs, msgs, k, x, hi, nearMsg_short rfl ha rfl (by decide),
    nearCmd_short hi.leg rfl ha rfl rfl rfl, more_refl _ _ rfl rfl rfl⟩

/-! ## The sender -/

theorem porter_sender (p : Panel) (msgs : List Message) : Actor.sender ≠ porter p msgs := by
  unfold porter
  split <;> decide

theorem porter_socket (p : Panel) (msgs : List Message) : Actor.socket ≠ porter p msgs := by
  unfold porter
  split <;> decide

theorem porter_panel (p : Panel) (msgs : List Message) : Actor.panel ≠ porter p msgs := by
  unfold porter
  split <;> decide

/-- The sender sleeps. -/
theorem next_sender_asleep {d : Duo} {reqs : List Command} {msgs : List Message} {k x : Nat}
    (hi : DuoInv d reqs msgs k x) (hs : d.sender ≠ none) : NextDuo .sender d reqs msgs k x d := by
  obtain ⟨w, hw⟩ := Option.ne_none_iff_exists'.mp hs
  refine ⟨reqs, msgs, k, x, hi, .stay rfl rfl (porter_sender _ _), ?_, more_refl _ _ rfl rfl rfl⟩
  have hL := hi.leg
  have ha := hi.sender w hw
  cases hL with
  | idle g1 g2 =>
    rcases ha with ⟨_, h⟩ | ⟨h, _⟩ | ⟨_, c, h⟩
    · exact .nothing rfl rfl rfl h
    · rw [g1] at h; cases h
    · rw [g2] at h; cases h
  | flush c pre g1 =>
    rcases ha with ⟨h, _⟩ | ⟨_, h, _⟩ | ⟨h, _⟩
    · rw [g1] at h; cases h
    · refine .stay rfl rfl rfl rfl ?_
      show Actor.sender ≠ if d.panel.conn.sock.writes = [] then Actor.socket else Actor.sender
      rw [if_pos h]; decide
    · rw [g1] at h; cases h
  | unheard => exact .stay rfl rfl rfl rfl Actor.noConfusion
  | heard => exact .stay rfl rfl rfl rfl (porter_sender _ _)

/-- The sender waits for a command to be confirmed, or for something to send. -/
theorem next_pause {d : Duo} {reqs : List Command} {msgs : List Message} {k x : Nat} {w : Waker}
    {s : CmdState} (hi : DuoInv d reqs msgs k x) (hs : d.sending = false)
    (hd : (d.todo = [] ∧ s = d.panel.cmdState) ∨
      ∃ r w0, d.panel.cmdState = .busy r true w0 ∧ s = .busy r true (some w)) :
    NextDuo .sender d reqs msgs k x
      { d with panel := { d.panel with cmdState := s }, sender := some w } := by
  obtain ⟨hw, hL, hra, hsa⟩ := hi
  have hg : Good { d.panel with cmdState := s } := by
    rcases hd with ⟨_, rfl⟩ | ⟨r, w0, h, rfl⟩
    · exact hw.good
    · exact .mk' hw.good.rd hw.good.has hw.good.zones (fun _ _ _ => hw.good.flushed _ _ h)
        hw.good.held
  refine ⟨reqs, msgs, k, x, ⟨⟨hg, hw.sound, hw.data, hw.takes, hw.bytes, hw.asked, hw.taken, hw.wf,
    hw.said, hw.heard, hw.posted, hw.cmds, hw.fine⟩, ?_, hra, ?_⟩,
    .stay rfl rfl (porter_sender _ _), ?_, more_refl _ _ rfl rfl rfl⟩
  · rcases hd with ⟨_, rfl⟩ | ⟨r, w0, h, rfl⟩
    · exact leg_same hL rfl rfl rfl rfl rfl
    · cases hL with
      | idle g1 g2 => rw [g2] at h; cases h
      | flush c pre g1 => rw [hs] at g1; cases g1
      | unheard c pre w g1 g2 g3 g4 g5 g6 g7 =>
        rw [g2] at h
        cases h
        exact .unheard c pre _ g1 rfl g3 g4 g5 g6 g7
      | heard c pre w a m b g1 g2 g3 g4 g5 g6 g7 g8 g9 g10 =>
        rw [g2] at h
        cases h
        exact .heard c pre _ a m b g1 rfl g3 g4 g5 g6 g7 g8 g9 g10
  · intro w' hw'
    have hw' : some w = some w' := hw'
    cases hw'
    rcases hd with ⟨h, _⟩ | ⟨r, w0, _, rfl⟩
    · exact .inl ⟨hs, h⟩
    · exact .inr (.inr ⟨hs, r, rfl⟩)
  · cases hL with
    | idle g1 g2 =>
      rcases hd with ⟨h, _⟩ | ⟨r, w0, h, _⟩
      · exact .nothing rfl rfl rfl h
      · rw [g2] at h; cases h
    | flush c pre g1 => rw [hs] at g1; cases g1
    | unheard => exact .stay rfl rfl rfl rfl Actor.noConfusion
    | heard => exact .stay rfl rfl rfl rfl (porter_sender _ _)

/-- The sender hands over a command. -/
theorem next_hand {d : Duo} {reqs : List Command} {msgs : List Message} {k x : Nat} {c : Command}
    {t : List Command} (hi : DuoInv d reqs msgs k x) (hs : d.sender = none)
    (ht : d.todo = c :: t) (hd : d.panel.cmdState = .idle) :
    ∃ p, d.panel.startSend c = .ok p ∧ NextDuo .sender d reqs msgs k x
      { d with panel := p, todo := t, sending := true, given := d.given ++ [c] } := by
  obtain ⟨hw, hL, hra, hsa⟩ := hi
  have hwf : WfCommand c := hw.cmds c (by rw [← hw.posted, ht]; simp)
  have hst := startSend_wf hwf hd
  have hgood := step_good hw.good (step_cases hw.good.sane (op := .startSend c) (x := (.accepted, _))
    (by show (d.panel.startSend c >>= _) = _; rw [hst]; rfl))
  cases hL with
  | flush _ _ _ g2 => rw [hd] at g2; cases g2
  | unheard _ _ _ _ g2 => rw [hd] at g2; cases g2
  | heard _ _ _ _ _ _ _ g2 => rw [hd] at g2; cases g2
  | idle g1 g2 g3 g4 g5 g6 =>
    subst g4
    refine ⟨_, hst, [c], msgs, 2, 0, ⟨⟨hgood, hw.sound, hw.data, hw.takes, hw.bytes, ?_, hw.taken,
      hw.wf, hw.said, ?_, ?_, hw.cmds, hw.fine⟩,
      .flush c d.given rfl rfl ?_ rfl g5 rfl g6, hra, ?_⟩,
      .stay rfl rfl (porter_sender _ _), .down rfl (by decide), more_refl _ _ rfl rfl rfl⟩
    · have := hw.asked
      rw [g3, List.append_nil] at this
      show d.panel.conn.sock.sent.drop d.taken ++ (d.panel.conn.wbuf ++ commandBytes c) = _
      rw [g3, this]
      simp
    · have := hw.heard
      rw [List.map_nil, List.append_nil] at this
      show d.heard ++ _ = (d.given ++ [c]).map _
      rw [this]
      simp
    · show d.given ++ [c] ++ t = d.posted
      rw [← hw.posted, ht]
      simp
    · show d.panel.conn.wbuf ++ commandBytes c ≠ []
      intro h
      have h6 := command_pos c
      rw [(List.append_eq_nil_iff.mp h).2] at h6
      exact absurd h6 (by decide)
    · intro w hw'
      have hw' : d.sender = some w := hw'
      rw [hs] at hw'; cases hw'

/-- The sender flushes. -/
theorem next_flush {d : Duo} {reqs : List Command} {msgs : List Message} {k x : Nat} {cx : Cx}
    (hi : DuoInv d reqs msgs k x) (hs : d.sender = none) (hsend : d.sending = true) :
    (∃ p, d.panel.pollFlush cx = (.pending, p) ∧ NextDuo .sender d reqs msgs k x
      { d with panel := p, sender := some cx.waker }) ∨
    (∃ p, d.panel.pollFlush cx = (.ready (.ok ()), p) ∧ NextDuo .sender d reqs msgs k x
      { d with panel := p, sending := false }) := by
  obtain ⟨hw, hL, hra, hsa⟩ := hi
  cases hL with
  | idle g1 => rw [hsend] at g1; cases g1
  | unheard _ _ _ g1 => rw [hsend] at g1; cases g1
  | heard _ _ _ _ _ _ g1 => rw [hsend] at g1; cases g1
  | flush c0 pre g1 g2 g3 g4 g5 g6 g7 =>
    have hgood := step_good hw.good (step_cases hw.good.sane (op := .pollFlush cx)
      (x := (.sink (d.panel.pollFlush cx).1, (d.panel.pollFlush cx).2)) rfl)
    have hspec := connFlush_spec d.panel.conn cx
    obtain ⟨htk, hres⟩ := connFlush_takes cx hw.takes
    generalize hfl : d.panel.conn.pollFlush cx = y at *
    obtain ⟨r, c⟩ := y
    dsimp only at *
    obtain ⟨new, hnew⟩ := hspec.grows
    have hasked : c.sock.sent.drop d.taken ++ c.wbuf = reqs.flatMap commandBytes := by
      have hb := hspec.bytes
      have h1 : (c.sock.sent ++ c.wbuf).drop d.taken = (d.panel.conn.sock.sent ++
        d.panel.conn.wbuf).drop d.taken := by rw [hb]
      have hle := hw.taken
      rw [List.drop_append_of_le_length (by rw [hnew, List.length_append]; omega),
        List.drop_append_of_le_length hle] at h1
      rw [h1]
      exact hw.asked
    have htaken : d.taken ≤ c.sock.sent.length := by
      have hle := hw.taken
      rw [hnew, List.length_append]; omega
    have hin : ∀ (s : CmdState), inHand { d.panel with conn := c, cmdState := s } =
        inHand d.panel := by
      intro s
      show c.rd.buffer ++ dataOf c.sock.incoming = _
      rw [hspec.rd, hspec.incoming]
      rfl
    have hrd : ∀ (s : CmdState) w, d.reader = some w →
        c.sock.readWaker = some w ∧ Awaits { d.panel with conn := c, cmdState := s } msgs := by
      intro s w hw'
      obtain ⟨h1, h2⟩ := hra w hw'
      exact ⟨hspec.readWaker.trans h1, awaits_hand (hin s) h2⟩
    rcases hres with rfl | ⟨rfl, hwr, hle, hlt⟩
    · right
      have hst : d.panel.pollFlush cx = (.ready (.ok ()), { d.panel with
          conn := c, cmdState := .busy c0.intoMsg true none }) := by
        unfold Panel.pollFlush
        rw [g2]
        dsimp only
        rw [hfl]
      rw [hst] at hgood
      refine ⟨_, hst, reqs, msgs, 1, 0, ⟨⟨hgood, hspec.rd ▸ hw.sound, hspec.incoming ▸ hw.data, htk,
        ?_, hasked, htaken, hw.wf, hw.said, hw.heard, hw.posted, hw.cmds, hw.fine⟩,
        .unheard c0 pre none rfl rfl (hspec.done rfl) g4 g5 g6 g7, hrd _, ?_⟩,
        .stay rfl (missing_hand (hin _) _) (porter_sender _ _), .down rfl (by decide),
        more_refl _ _ rfl rfl rfl⟩
      · show inHand { d.panel with conn := c, cmdState := _ } ++ d.line = _
        rw [hin]; exact hw.bytes
      · intro w hw'
        have hw' : d.sender = some w := hw'
        rw [hs] at hw'; cases hw'
    · left
      have hst : d.panel.pollFlush cx = (.pending, { d.panel with conn := c }) := by
        unfold Panel.pollFlush
        rw [g2]
        dsimp only
        rw [hfl]
        simp only [g2]
      rw [hst] at hgood
      have hl := hspec.left rfl
      refine ⟨_, hst, reqs, msgs, 2, 0, ⟨⟨hgood, hspec.rd ▸ hw.sound, hspec.incoming ▸ hw.data, htk,
        ?_, hasked, htaken, hw.wf, hw.said, hw.heard, hw.posted, hw.cmds, hw.fine⟩,
        .flush c0 pre g1 g2 hl g4 g5 g6 g7, hrd _, ?_⟩,
        .stay rfl (missing_hand (hin d.panel.cmdState) _) (porter_sender _ _), ?_,
        more_refl _ _ rfl rfl rfl⟩
      · show inHand { d.panel with conn := c, cmdState := _ } ++ d.line = _
        rw [hin]; exact hw.bytes
      · intro w hw'
        have hw' : some cx.waker = some w := hw'
        exact .inr (.inl ⟨hsend, hwr, (hspec.pend rfl).trans hw'⟩)
      · by_cases hw0 : d.panel.conn.sock.writes = []
        · by_cases hlt : c.wbuf.length < d.panel.conn.wbuf.length
          · refine .nearer rfl rfl (.right _ ?_)
            show 2 * c.wbuf.length + (if c.sock.writes = [] then 1 else 0) <
              2 * d.panel.conn.wbuf.length + if d.panel.conn.sock.writes = [] then 1 else 0
            rw [if_pos hwr, if_pos hw0]
            omega
          · have e : c.wbuf.length = d.panel.conn.wbuf.length := by omega
            refine .stay rfl rfl ?_ ?_ ?_
            · show (0, 2 * c.wbuf.length + if c.sock.writes = [] then 1 else 0) =
                (0, 2 * d.panel.conn.wbuf.length + if d.panel.conn.sock.writes = [] then 1 else 0)
              rw [if_pos hwr, if_pos hw0, e]
            · show (if c.sock.writes = [] then Actor.socket else Actor.sender) =
                if d.panel.conn.sock.writes = [] then Actor.socket else Actor.sender
              rw [if_pos hwr, if_pos hw0]
            · show Actor.sender ≠ if d.panel.conn.sock.writes = [] then Actor.socket else Actor.sender
              rw [if_pos hw0]; decide
        · have := hlt hw0
          refine .nearer rfl rfl (.right _ ?_)
          show 2 * c.wbuf.length + (if c.sock.writes = [] then 1 else 0) <
            2 * d.panel.conn.wbuf.length + if d.panel.conn.sock.writes = [] then 1 else 0
          rw [if_pos hwr, if_neg hw0]
          omega

theorem next_send {d : Duo} {reqs : List Command} {msgs : List Message} {k x : Nat} {cx : Cx}
    (hi : DuoInv d reqs msgs k x) (hs : d.sender = none) :
    ∃ d', d.send cx = .ok d' ∧ NextDuo .sender d reqs msgs k x d' := by
  unfold Duo.send
  by_cases hsend : d.sending = true
  · rw [if_pos hsend]
    rcases next_flush (cx := cx) hi hs hsend with ⟨p, h1, h2⟩ | ⟨p, h1, h2⟩
    · rw [h1]; exact ⟨_, rfl, h2⟩
    · rw [h1]; exact ⟨_, rfl, h2⟩
  · rw [if_neg hsend]
    have hsend : d.sending = false := by simpa using hsend
    split
    · rename_i ht
      exact ⟨_, rfl, next_pause (s := d.panel.cmdState) hi hsend (.inl ⟨ht, rfl⟩)⟩
    · rename_i c t ht
      have key : d.panel.cmdState = .idle ∨ ∃ r w0, d.panel.cmdState = .busy r true w0 := by
        have hL := hi.leg
        cases hL with
        | idle _ g2 => exact .inl g2
        | flush _ _ g1 => rw [hsend] at g1; cases g1
        | unheard _ _ _ _ g2 => exact .inr ⟨_, _, g2⟩
        | heard _ _ _ _ _ _ _ g2 => exact .inr ⟨_, _, g2⟩
      rcases key with h | ⟨r, w0, h⟩
      · have hpr : d.panel.pollReady cx = (.ready (.ok ()), d.panel) := by
          unfold Panel.pollReady
          rw [h]
        rw [hpr]
        dsimp only
        obtain ⟨p, h1, h2⟩ := next_hand hi hs ht h
        rw [h1]
        exact ⟨_, rfl, h2⟩
      · have hpr : d.panel.pollReady cx =
            (.pending, { d.panel with cmdState := .busy r true (some cx.waker) }) := by
          unfold Panel.pollReady
          rw [h]
        rw [hpr]
        exact ⟨_, rfl, next_pause hi hsend (.inr ⟨r, w0, h, rfl⟩)⟩

/-! ## Socket, line, panel, and what happens by chance -/

theorem next_accept {d : Duo} {reqs : List Command} {msgs : List Message} {k x n : Nat}
    (hi : DuoInv d reqs msgs k x) :
    ∃ d', d.step (.accept n) = .ok d' ∧ NextDuo .socket d reqs msgs k x d' := by
  obtain ⟨hw, hL, hra, hsa⟩ := hi
  have hgood := step_good hw.good (step_cases hw.good.sane
    (op := .writable (.accept (n + 1))) (x := (_, _)) rfl)
  refine ⟨_, rfl, reqs, msgs, k, x, ⟨⟨hgood, hw.sound, hw.data, ?_, hw.bytes, hw.asked, hw.taken,
    hw.wf, hw.said, hw.heard, hw.posted, hw.cmds, hw.fine⟩, leg_same hL rfl rfl rfl rfl rfl, ?_, ?_⟩,
    .stay rfl rfl (porter_socket _ _), ?_, more_refl _ _ rfl rfl rfl⟩
  · intro w hw'
    rcases List.mem_append.mp hw' with hw' | hw'
    · exact hw.takes w hw'
    · exact ⟨n, List.mem_singleton.mp hw'⟩
  · intro w hw'
    obtain ⟨hw', _⟩ := rouse_some hw'
    exact hra w hw'
  · intro w hw'
    obtain ⟨hw', hno⟩ := rouse_some hw'
    rcases hsa w hw' with h | ⟨_, _, h⟩ | h
    · exact .inl h
    · rw [h] at hno
      exact absurd (by simp) hno
    · exact .inr (.inr h)
  · have hne : d.panel.conn.sock.writes ++ [WriteItem.accept (n + 1)] ≠ [] := by simp
    cases hL with
    | idle => exact .stay rfl rfl rfl rfl Actor.noConfusion
    | unheard => exact .stay rfl rfl rfl rfl Actor.noConfusion
    | heard => exact .stay rfl rfl rfl rfl (porter_socket _ _)
    | flush c pre =>
      by_cases hwr : d.panel.conn.sock.writes = []
      · refine .nearer rfl rfl (.right _ ?_)
        show 2 * d.panel.conn.wbuf.length +
            (if d.panel.conn.sock.writes ++ [WriteItem.accept (n + 1)] = [] then 1 else 0) <
          2 * d.panel.conn.wbuf.length + if d.panel.conn.sock.writes = [] then 1 else 0
        rw [if_neg hne, if_pos hwr]
        omega
      · refine .stay rfl rfl ?_ ?_ ?_
        · show (0, 2 * d.panel.conn.wbuf.length +
              if d.panel.conn.sock.writes ++ [WriteItem.accept (n + 1)] = [] then 1 else 0) =
            (0, 2 * d.panel.conn.wbuf.length + if d.panel.conn.sock.writes = [] then 1 else 0)
          rw [if_neg hne, if_neg hwr]
        · show (if d.panel.conn.sock.writes ++ [WriteItem.accept (n + 1)] = [] then Actor.socket
            else Actor.sender) = if d.panel.conn.sock.writes = [] then Actor.socket else Actor.sender
          rw [if_neg hne, if_neg hwr]
        · show Actor.socket ≠ if d.panel.conn.sock.writes = [] then Actor.socket else Actor.sender
          rw [if_neg hwr]; decide

theorem next_deliver {d : Duo} {reqs : List Command} {msgs : List Message} {k x n : Nat}
    (hi : DuoInv d reqs msgs k x) :
    ∃ d', d.step (.deliver n) = .ok d' ∧ NextDuo .line d reqs msgs k x d' := by
  have hi' := hi
  obtain ⟨hw, hL, hra, hsa⟩ := hi
  by_cases hl : d.line = []
  · have ht := hw.bytes
    rw [hl, List.append_nil] at ht
    have hm : missing d.panel msgs = 0 := by
      cases msgs with
      | nil => rfl
      | cons m t =>
        rw [missing_cons, ht, List.flatMap_cons, List.length_append]
        omega
    have hp : porter d.panel msgs = .reader := if_pos hm
    refine ⟨d, if_pos hl, reqs, msgs, k, x, hi', .stay rfl rfl (by rw [hp]; decide),
      .stay rfl rfl rfl rfl ?_, more_refl _ _ rfl rfl rfl⟩
    unfold mate
    split
    · rw [hp]; decide
    · decide
    · split <;> decide
    · decide
  · have hgood := step_good hw.good (step_cases hw.good.sane
      (op := .arrive (.data (d.line.take (n + 1)))) (x := (_, _)) rfl)
    have hpos : 0 < (d.line.take (n + 1)).length := by
      have := List.length_pos_iff.mpr hl
      rw [List.length_take]
      omega
    have hd : inHand { d.panel with
        conn := (d.panel.conn.arrive (.data (d.line.take (n + 1)))).2 } =
        inHand d.panel ++ d.line.take (n + 1) := by
      show d.panel.conn.rd.buffer ++ dataOf (d.panel.conn.sock.incoming ++ _) = _
      rw [data_snoc, ← List.append_assoc]
      rfl
    have hmis : missing { d.panel with
        conn := (d.panel.conn.arrive (.data (d.line.take (n + 1)))).2 } msgs =
        missing d.panel msgs - (d.line.take (n + 1)).length := by
      cases msgs with
      | nil => exact (Nat.zero_sub _).symm
      | cons m t => rw [missing_cons, missing_cons, hd, List.length_append, Nat.sub_add_eq]
    refine ⟨_, if_neg hl, reqs, msgs, k, x, ⟨⟨hgood, hw.sound, ?_, hw.takes, ?_, hw.asked, hw.taken,
      hw.wf, hw.said, hw.heard, hw.posted, hw.cmds, hw.fine⟩, leg_same hL rfl rfl rfl rfl rfl, ?_,
      ?_⟩, ?_, ?_, more_refl _ _ rfl rfl rfl⟩
    · intro w hw'
      rcases List.mem_append.mp hw' with hw' | hw'
      · exact hw.data w hw'
      · exact ⟨_, List.mem_singleton.mp hw', List.length_pos_iff.mp hpos⟩
    · refine Eq.trans (congrArg (· ++ d.line.drop (n + 1)) hd) ?_
      rw [← hw.bytes]
      simp
    · intro w hw'
      obtain ⟨hw', hno⟩ := rouse_some hw'
      obtain ⟨h, _⟩ := hra w hw'
      rw [h] at hno
      exact absurd (by simp) hno
    · intro w hw'
      obtain ⟨hw', _⟩ := rouse_some hw'
      exact hsa w hw'
    · by_cases h0 : missing d.panel msgs = 0
      · refine .stay rfl (hmis.trans (by rw [h0, Nat.zero_sub])) ?_
        unfold porter
        rw [if_pos h0]; decide
      · refine .nearer rfl (Nat.lt_of_le_of_lt (Nat.le_of_eq hmis) (by omega))
    · have hst : ∀ j, j ≠ 0 → Actor.line ≠ mate d msgs j := by
        intro j hj
        unfold mate
        split
        · exact absurd rfl hj
        · decide
        · split <;> decide
        · decide
      cases hL with
      | idle => exact .stay rfl rfl rfl rfl (hst _ (by decide))
      | flush => exact .stay rfl rfl rfl rfl (hst _ (by decide))
      | unheard => exact .stay rfl rfl rfl rfl (hst _ (by decide))
      | heard c pre w a m b =>
        by_cases h0 : missing d.panel msgs = 0
        · rw [h0, Nat.zero_sub] at hmis
          refine .stay rfl rfl ?_ ?_ ?_
          · show (a.length, missing _ msgs) = (a.length, missing d.panel msgs)
            rw [h0]
            exact congrArg _ hmis
          · show porter _ msgs = porter d.panel msgs
            unfold porter
            rw [if_pos h0]
            exact if_pos hmis
          · show Actor.line ≠ porter d.panel msgs
            unfold porter
            rw [if_pos h0]; decide
        · exact .nearer rfl rfl (.right _ (Nat.lt_of_le_of_lt (Nat.le_of_eq hmis) (by omega)))

theorem awaits_more {d : Duo} {reqs : List Command} {msgs more : List Message}
    (hw : Cable d reqs msgs) (hs : Awaits d.panel msgs) : Awaits d.panel (msgs ++ more) := by
  intro m t hm
  cases msgs with
  | nil =>
    have := congrArg List.length hw.bytes
    have h6 := frame_length m
    rw [List.length_append, List.flatMap_nil, List.length_nil] at this
    omega
  | cons y msgs =>
    cases hm
    exact hs _ _ rfl

theorem none_snoc {l : List Message} {m : Message} (h : NoneConfirmed l) (hm : confirms m = false) :
    NoneConfirmed (l ++ [m]) := by
  intro y hy
  rcases List.mem_append.mp hy with hy | hy
  · exact h y hy
  · rw [List.mem_singleton.mp hy]; exact hm

theorem nearMsg_more {w : Actor} {d d' : Duo} {msgs more : List Message} (ht : d'.told = d.told)
    (hp : d'.panel = d.panel) (hw : w ≠ .reader ∧ w ≠ .line) :
    NearMsg w d msgs d' (msgs ++ more) := by
  by_cases hm : msgs = []
  · exact .nothing ht hm
  · refine .stay ht (by rw [hp]; exact missing_more hm) ?_
    unfold porter
    split
    · exact hw.1
    · exact hw.2

theorem next_say {d : Duo} {reqs : List Command} {msgs : List Message} {k x : Nat} {m : Message}
    (hi : DuoInv d reqs msgs k x) (hm : WfMessage m) (hn : confirms m = false) :
    NextDuo .chance d reqs msgs k x { d with line := d.line ++ frame m, said := d.said ++ [m] } := by
  obtain ⟨hw, hL, hra, hsa⟩ := hi
  have hleg : Leg { d with line := d.line ++ frame m, said := d.said ++ [m] } reqs (msgs ++ [m]) k
      x := by
    cases hL with
    | idle g1 g2 g3 g4 g5 g6 => exact .idle g1 g2 g3 g4 (none_snoc g5 hn) g6
    | flush c pre g1 g2 g3 g4 g5 g6 g7 => exact .flush c pre g1 g2 g3 g4 (none_snoc g5 hn) g6 g7
    | unheard c pre w g1 g2 g3 g4 g5 g6 g7 =>
      exact .unheard c pre w g1 g2 g3 g4 (none_snoc g5 hn) g6 g7
    | heard c pre w a m' b g1 g2 g3 g4 g5 g6 g7 g8 g9 g10 =>
      exact .heard c pre w a m' (b ++ [m]) g1 g2 g3 g4 (by rw [g5]; simp) g6 (none_snoc g7 hn) g8
        g9 g10
  refine ⟨reqs, msgs ++ [m], k, x, ⟨⟨hw.good, hw.sound, hw.data, hw.takes, ?_, hw.asked, hw.taken, ?_,
    ?_, hw.heard, hw.posted, hw.cmds, hw.fine⟩, hleg, ?_, hsa⟩,
    nearMsg_more rfl rfl ⟨by decide, by decide⟩, ?_,
    ⟨snoc_prefix _ _, List.prefix_refl _, List.prefix_refl _⟩⟩
  · show inHand _ ++ (d.line ++ frame m) = _
    rw [List.flatMap_append, ← hw.bytes]; simp
  · intro y hy
    rcases List.mem_append.mp hy with hy | hy
    · exact hw.wf y hy
    · rw [List.mem_singleton.mp hy]; exact hm
  · show d.told ++ (msgs ++ [m]) = d.said ++ [m]
    rw [← hw.said]; simp
  · intro w hw'
    obtain ⟨h1, h2⟩ := hra w hw'
    exact ⟨h1, awaits_more (d := d) hw h2⟩
  · have hmis : k = 0 → missing d.panel (msgs ++ [m]) = missing d.panel msgs :=
      fun h => missing_more (leg_msgs hL h)
    refine .stay rfl rfl ?_ ?_ (mate_chance _ _ _).symm
    · unfold away
      split
      · show (x, missing d.panel (msgs ++ [m])) = _
        rw [hmis rfl]
      · rfl
      · rfl
    · unfold mate
      split
      · show porter d.panel (msgs ++ [m]) = _
        unfold porter
        rw [hmis rfl]
      · rfl
      · rfl
      · rfl

theorem next_answer {d : Duo} {reqs : List Command} {msgs : List Message} {k x : Nat} {m : Message}
    (hi : DuoInv d reqs msgs k x) (hm : (DuoOp.answer m).Proper d) :
    ∃ d', d.step (.answer m) = .ok d' ∧ NextDuo .panel d reqs msgs k x d' := by
  have hi' := hi
  obtain ⟨hw, hL, hra, hsa⟩ := hi
  have hcmds : ∀ c ∈ reqs, WfCommand c := by
    cases hL with
    | idle _ _ _ g => subst g; intro c h; cases h
    | heard _ _ _ _ _ _ _ _ _ g => subst g; intro c h; cases h
    | flush c pre _ _ _ g _ g6 =>
      subst g
      intro c' h
      rw [List.mem_singleton.mp h]
      exact hw.cmds c (by rw [← hw.posted, g6]; simp)
    | unheard c pre _ _ _ _ g _ g6 =>
      subst g
      intro c' h
      rw [List.mem_singleton.mp h]
      exact hw.cmds c (by rw [← hw.posted, g6]; simp)
  have hpan : ∀ j, j ≠ 1 → Actor.panel ≠ mate d msgs j := by
    intro j hj
    unfold mate
    split
    · exact porter_panel _ _
    · exact absurd rfl hj
    · split <;> decide
    · decide
  have hlen := congrArg List.length hw.asked
  rw [List.length_append] at hlen
  rcases firstLine_commands hcmds hw.asked with ⟨h1, h2⟩ | ⟨c, t, rfl, h1, h2, h3⟩
  · refine ⟨d, ?_, reqs, msgs, k, x, hi', .stay rfl rfl (porter_panel _ _),
      .stay rfl rfl rfl rfl (hpan k ?_), more_refl _ _ rfl rfl rfl⟩
    · unfold Duo.step
      dsimp only
      rw [h1]
    · rintro rfl
      cases hL with
      | unheard c pre w g1 g2 g3 g4 =>
        have := h2 c [] g4
        rw [g3, g4] at hlen
        simp at hlen
        simp at this
        omega
  · cases hL with
    | idle _ _ _ g => cases g
    | heard _ _ _ _ _ _ _ _ _ g => cases g
    | flush c0 pre g1 g2 g3 g4 =>
      exfalso
      cases g4
      have := List.length_pos_iff.mpr g3
      rw [List.flatMap_cons, List.flatMap_nil, List.append_nil] at hlen
      omega
    | unheard c0 pre w g1 g2 g3 g4 g5 g6 g7 =>
      cases g4
      have hresp := hm.2 c (hcmds c (by simp)) h1
      refine ⟨{ d with
        taken := d.taken + (commandBytes c).length
        heard := d.heard ++ [commandBytes c]
        line := d.line ++ frame m
        said := d.said ++ [m] }, by unfold Duo.step; dsimp only; rw [h1], [], msgs ++ [m], 0,
        msgs.length, ⟨⟨hw.good, hw.sound, hw.data, hw.takes, ?_, ?_, ?_, ?_, ?_, ?_, hw.posted, hw.cmds,
        hw.fine⟩, .heard c pre w msgs m [] g1 g2 g3 rfl rfl g5 (fun _ h => by cases h) hresp g6 g7,
        ?_, hsa⟩, nearMsg_more rfl rfl ⟨by decide, by decide⟩, .down rfl (by decide),
        ⟨snoc_prefix _ _, snoc_prefix _ _, List.prefix_refl _⟩⟩
      · show inHand _ ++ (d.line ++ frame m) = _
        rw [List.flatMap_append, ← hw.bytes]; simp
      · show List.drop (d.taken + _) _ ++ _ = _
        rw [← h2, List.drop_drop]
      · show d.taken + _ ≤ d.panel.conn.sock.sent.length
        rw [List.length_drop] at h3
        have := hw.taken
        omega
      · intro y hy
        rcases List.mem_append.mp hy with hy | hy
        · exact hw.wf y hy
        · rw [List.mem_singleton.mp hy]; exact hm.1
      · show d.told ++ (msgs ++ [m]) = d.said ++ [m]
        rw [← hw.said]; simp
      · show d.heard ++ [_] ++ _ = _
        rw [← hw.heard]; simp
      · intro w hw'
        obtain ⟨h1, h2⟩ := hra w hw'
        exact ⟨h1, awaits_more (d := d) hw h2⟩

theorem next_post {d : Duo} {reqs : List Command} {msgs : List Message} {k x : Nat} {c : Command}
    (hi : DuoInv d reqs msgs k x) (hc : WfCommand c) : NextDuo .chance d reqs msgs k x
      { d with todo := d.todo ++ [c], posted := d.posted ++ [c], sender := none } := by
  obtain ⟨hw, hL, hra, hsa⟩ := hi
  refine ⟨reqs, msgs, k, x, ⟨⟨hw.good, hw.sound, hw.data, hw.takes, hw.bytes, hw.asked, hw.taken,
    hw.wf, hw.said, hw.heard, ?_, ?_, hw.fine⟩, leg_same hL rfl rfl rfl rfl rfl, hra,
    fun w h => by cases h⟩, .stay rfl rfl (porter_chance _ _).symm,
    .stay rfl rfl rfl rfl (mate_chance _ _ _).symm,
    ⟨List.prefix_refl _, List.prefix_refl _, snoc_prefix _ _⟩⟩
  · show d.given ++ (d.todo ++ [c]) = d.posted ++ [c]
    rw [← hw.posted]; simp
  · intro y hy
    rcases List.mem_append.mp hy with hy | hy
    · exact hw.cmds y hy
    · rw [List.mem_singleton.mp hy]; exact hc

theorem next_rouse {d : Duo} {reqs : List Command} {msgs : List Message} {k x : Nat}
    (hi : DuoInv d reqs msgs k x) {r s : Option Waker} (hr : r = none ∨ r = d.reader)
    (hs : s = none ∨ s = d.sender) :
    NextDuo .chance d reqs msgs k x { d with reader := r, sender := s } := by
  obtain ⟨hw, hL, hra, hsa⟩ := hi
  refine ⟨reqs, msgs, k, x, ⟨⟨hw.good, hw.sound, hw.data, hw.takes, hw.bytes, hw.asked, hw.taken,
    hw.wf, hw.said, hw.heard, hw.posted, hw.cmds, hw.fine⟩, leg_same hL rfl rfl rfl rfl rfl, ?_, ?_⟩,
    .stay rfl rfl (porter_chance _ _).symm,
    .stay rfl rfl rfl rfl (mate_chance _ _ _).symm, more_refl _ _ rfl rfl rfl⟩
  · intro w h
    have h : r = some w := h
    rcases hr with rfl | rfl
    · cases h
    · exact hra w h
  · intro w h
    have h : s = some w := h
    rcases hs with rfl | rfl
    · cases h
    · exact hsa w h

/-- One thing happens. -/
theorem duo_step {d : Duo} {reqs : List Command} {msgs : List Message} {k x : Nat} {op : DuoOp}
    (hi : DuoInv d reqs msgs k x) (hp : op.Proper d) (hc : op.Candid) :
    ∃ d', d.step op = .ok d' ∧ NextDuo op.who d reqs msgs k x d' := by
  match op with
  | .read cx =>
    by_cases h : d.reader = none
    · obtain ⟨d', h1, h2⟩ := next_read (cx := cx) hi h
      exact ⟨d', (if_pos h).trans h1, h2⟩
    · exact ⟨d, if_neg h, next_reader_asleep hi h⟩
  | .send cx =>
    by_cases h : d.sender = none
    · obtain ⟨d', h1, h2⟩ := next_send (cx := cx) hi h
      exact ⟨d', (if_pos h).trans h1, h2⟩
    · exact ⟨d, if_neg h, next_sender_asleep hi h⟩
  | .rouseReader => exact ⟨_, rfl, next_rouse hi (.inl rfl) (.inr rfl)⟩
  | .rouseSender => exact ⟨_, rfl, next_rouse hi (.inr rfl) (.inl rfl)⟩
  | .post c => exact ⟨_, rfl, next_post hi hp⟩
  | .accept n => exact next_accept hi
  | .deliver n => exact next_deliver hi
  | .answer m => exact next_answer hi hp
  | .say m => exact ⟨_, rfl, next_say hi hp hc⟩

/-! ## The start -/

theorem duo_start {p0 : Panel} (hc : Connected p0) (hu : Lively p0.conn) {line : Bytes}
    {early : List Message} (he : ∀ m ∈ early, WfMessage m ∧ confirms m = false)
    (hl : p0.conn.rd.buffer ++ dataBytes p0.conn.sock.incoming ++ line = early.flatMap frame) :
    DuoInv (Duo.start p0 line early) [] early 3 0 := by
  refine ⟨⟨connected_good hc, ⟨hu.open_, hu.ok⟩, hu.reads, hu.writes, ?_, ?_, Nat.le_refl _,
    fun m h => (he m h).1, rfl, rfl, rfl, (fun _ h => by cases h), rfl⟩,
    .idle rfl hc.idle hc.flushed rfl (fun m h => (he m h).2) rfl, (fun w h => by cases h),
    fun w h => by cases h⟩
  · show p0.conn.rd.buffer ++ dataOf p0.conn.sock.incoming ++ line = _
    rw [dataOf_eq]; exact hl
  · show p0.conn.sock.sent.drop p0.conn.sock.sent.length ++ p0.conn.wbuf = _
    rw [List.drop_length, hc.flushed]; rfl

/-! ## Whole schedules -/

/-- What is known at some time. -/
structure Moment where
  duo : Duo
  reqs : List Command
  msgs : List Message
  stage : Nat
  ahead : Nat

/-- This is known at time `n`. -/
def HoldsAt (d0 : Duo) (ops : Nat → DuoOp) (n : Nat) (s : Moment) : Prop :=
  Duo.after d0 ops n = .ok s.duo ∧ DuoInv s.duo s.reqs s.msgs s.stage s.ahead

/-- A schedule that behaves. -/
structure Course (d0 : Duo) (ops : Nat → DuoOp) : Prop where
  start : ∃ reqs msgs k x, DuoInv d0 reqs msgs k x
  proper : ∀ n d, Duo.after d0 ops n = .ok d → (ops n).Proper d
  candid : ∀ n, (ops n).Candid
  fair : KeepOn ops

variable {d0 : Duo} {ops : Nat → DuoOp}

theorem moment_next (hS : Course d0 ops) {n : Nat} {s : Moment} (h : HoldsAt d0 ops n s) :
    ∃ s', HoldsAt d0 ops (n + 1) s' ∧ NearMsg (ops n).who s.duo s.msgs s'.duo s'.msgs ∧
      NearCmd (ops n).who s.duo s.msgs s.stage s.ahead s'.duo s'.msgs s'.stage s'.ahead ∧
      More s.duo s'.duo := by
  obtain ⟨d', h1, reqs', msgs', k', x', h2, h3, h4, h5⟩ :=
    duo_step h.2 (hS.proper n _ h.1) (hS.candid n)
  refine ⟨⟨d', reqs', msgs', k', x'⟩, ⟨?_, h2⟩, h3, h4, h5⟩
  show (Duo.after d0 ops n >>= fun d => d.step (ops n)) = _
  rw [h.1]
  exact h1

theorem moment_at (hS : Course d0 ops) (n : Nat) : ∃ s, HoldsAt d0 ops n s := by
  induction n with
  | zero =>
    obtain ⟨reqs, msgs, k, x, h⟩ := hS.start
    exact ⟨⟨d0, reqs, msgs, k, x⟩, rfl, h⟩
  | succ n ih =>
    obtain ⟨s, h⟩ := ih
    obtain ⟨s', h', _⟩ := moment_next hS h
    exact ⟨s', h'⟩

theorem moment_duo {n : Nat} {s s' : Moment} (h : HoldsAt d0 ops n s) (h' : HoldsAt d0 ops n s') :
    s'.duo = s.duo := (Except.ok.inj (h.1.symm.trans h'.1)).symm

theorem nearMsg_told {w : Actor} {d d' : Duo} {msgs msgs' : List Message}
    (h : NearMsg w d msgs d' msgs') : d.told <+: d'.told := by
  cases h with
  | read m h => rw [h]; exact snoc_prefix _ _
  | nearer h => rw [h]; exact List.prefix_refl _
  | nothing h => rw [h]; exact List.prefix_refl _
  | stay h => rw [h]; exact List.prefix_refl _

theorem nearCmd_completed {w : Actor} {d d' : Duo} {msgs msgs' : List Message} {k x k' x' : Nat}
    (h : NearCmd w d msgs k x d' msgs' k' x') : d.completed <+: d'.completed := by
  cases h with
  | done c h => rw [h]; exact snoc_prefix _ _
  | down h => rw [h]; exact List.prefix_refl _
  | nearer h => rw [h]; exact List.prefix_refl _
  | nothing h => rw [h]; exact List.prefix_refl _
  | stay h => rw [h]; exact List.prefix_refl _

/-- The books only grow. -/
theorem moment_mono (hS : Course d0 ops) {n : Nat} {s : Moment} (h : HoldsAt d0 ops n s) :
    ∀ d s', HoldsAt d0 ops (n + d) s' → More s.duo s'.duo ∧ s.duo.told <+: s'.duo.told ∧
      s.duo.completed <+: s'.duo.completed := by
  intro d
  induction d with
  | zero =>
    intro s' h'
    rw [moment_duo h h']
    exact ⟨more_refl _ _ rfl rfl rfl, List.prefix_refl _, List.prefix_refl _⟩
  | succ d ih =>
    intro s' h'
    obtain ⟨s1, h1⟩ := moment_at hS (n + d)
    obtain ⟨s2, h2, h3, h4, h5⟩ := moment_next hS h1
    obtain ⟨g1, g2, g3⟩ := ih s1 h1
    rw [moment_duo h2 h']
    exact ⟨⟨g1.said.trans h5.said, g1.heard.trans h5.heard, g1.posted.trans h5.posted⟩,
      g2.trans (nearMsg_told h3), g3.trans (nearCmd_completed h4)⟩

/-- What the panel says is read. -/
theorem moment_told (hS : Course d0 ops) {n : Nat} {s : Moment} (h : HoldsAt d0 ops n s) {j : Nat}
    (hj : j ≤ s.duo.said.length) :
    ∃ m, n ≤ m ∧ ∃ s', HoldsAt d0 ops m s' ∧ j ≤ s'.duo.told.length := by
  refine eventually (lt := Prod.Lex (· < ·) (· < ·)) (Prod.lex Nat.lt_wfRel Nat.lt_wfRel).wf
    (At := fun n s => HoldsAt d0 ops n s ∧ j ≤ s.duo.said.length) (who := fun n => (ops n).who)
    hS.fair (rank := fun s : Moment => (j - s.duo.told.length, missing s.duo.panel s.msgs))
    (helper := fun s => porter s.duo.panel s.msgs) (fun s => porter_chance _ _) ?_ n s ⟨h, hj⟩
  intro n s ⟨h, hj⟩
  by_cases hg : j ≤ s.duo.told.length
  · exact .inl ⟨s, h, hg⟩
  · obtain ⟨s', h1, h2, _, h3⟩ := moment_next hS h
    right
    right
    have hsl := h3.said.length_le
    refine ⟨s', ⟨h1, by omega⟩, ?_⟩
    cases h2 with
    | read m ht =>
      left
      refine .left _ _ ?_
      rw [ht, List.length_append, List.length_singleton]
      omega
    | nearer ht hlt =>
      left
      rw [ht]
      exact .right _ hlt
    | nothing _ h0 =>
      have := congrArg List.length h.2.cable.said
      rw [h0, List.append_nil] at this
      omega
    | stay ht he hw =>
      right
      refine ⟨by rw [ht, he], ?_, hw⟩
      show porter _ _ = porter _ _
      unfold porter
      rw [he]

theorem leg_le {d : Duo} {reqs : List Command} {msgs : List Message} {k x : Nat}
    (h : Leg d reqs msgs k x) : d.completed <+: d.given.map Command.intoMsg := by
  cases h with
  | idle _ _ _ _ _ g => rw [g]; exact List.prefix_refl _
  | flush c pre _ _ _ _ _ g1 g2 => rw [g1, g2, List.map_append]; exact List.prefix_append _ _
  | unheard c pre _ _ _ _ _ _ g1 g2 => rw [g1, g2, List.map_append]; exact List.prefix_append _ _
  | heard c pre _ _ _ _ _ _ _ _ _ _ _ _ g1 g2 =>
    rw [g1, g2, List.map_append]; exact List.prefix_append _ _

theorem leg_three {d : Duo} {reqs : List Command} {msgs : List Message} {k x : Nat}
    (h : Leg d reqs msgs k x) (hk : k = 3) : d.completed = d.given.map Command.intoMsg := by
  cases h with
  | idle _ _ _ _ _ g => exact g
  | flush => cases hk
  | unheard => cases hk
  | heard => cases hk

/-- What is completed was heard. -/
theorem leg_heard {d : Duo} {reqs : List Command} {msgs : List Message} {k x : Nat}
    (hw : Cable d reqs msgs) (h : Leg d reqs msgs k x) : d.completed.length ≤ d.heard.length := by
  have hl := congrArg List.length hw.heard
  rw [List.length_append, List.length_map, List.length_map] at hl
  cases h with
  | idle _ _ _ g4 _ g =>
    rw [g, List.length_map]
    rw [g4, List.length_nil] at hl
    omega
  | flush c pre _ _ _ g4 _ g1 g2 =>
    rw [g2, List.length_map]
    rw [g4, g1, List.length_append] at hl
    simp at hl
    omega
  | unheard c pre _ _ _ _ g4 _ g1 g2 =>
    rw [g2, List.length_map]
    rw [g4, g1, List.length_append] at hl
    simp at hl
    omega
  | heard c pre _ _ _ _ _ _ _ g4 _ _ _ _ g1 g2 =>
    rw [g2, List.length_map]
    rw [g4, g1, List.length_append] at hl
    simp at hl
    omega

/-- What the sender is given is completed. -/
theorem moment_completed (hS : Course d0 ops) {n : Nat} {s : Moment} (h : HoldsAt d0 ops n s)
    {j : Nat} (hj : j ≤ s.duo.posted.length) :
    ∃ m, n ≤ m ∧ ∃ s', HoldsAt d0 ops m s' ∧ j ≤ s'.duo.completed.length := by
  refine eventually (lt := Prod.Lex (· < ·) (Prod.Lex (· < ·) Less))
    (Prod.lex Nat.lt_wfRel (Prod.lex Nat.lt_wfRel (Prod.lex Nat.lt_wfRel Nat.lt_wfRel))).wf
    (At := fun n s => HoldsAt d0 ops n s ∧ j ≤ s.duo.posted.length) (who := fun n => (ops n).who)
    hS.fair (rank := fun s : Moment =>
      (j - s.duo.completed.length, s.stage, away s.duo s.msgs s.stage s.ahead))
    (helper := fun s => mate s.duo s.msgs s.stage) (fun s => mate_chance _ _ _) ?_ n s ⟨h, hj⟩
  intro n s ⟨h, hj⟩
  by_cases hg : j ≤ s.duo.completed.length
  · exact .inl ⟨s, h, hg⟩
  · obtain ⟨s', h1, _, h2, h3⟩ := moment_next hS h
    right
    right
    have hpl := h3.posted.length_le
    refine ⟨s', ⟨h1, by omega⟩, ?_⟩
    cases h2 with
    | done c hc =>
      left
      refine .left _ _ ?_
      rw [hc, List.length_append, List.length_singleton]
      omega
    | down hc hlt =>
      left
      rw [hc]
      exact .right _ (.left _ _ hlt)
    | nearer hc he hlt =>
      left
      rw [hc, he]
      exact .right _ (.right _ hlt)
    | nothing _ _ hk ht =>
      have h4 := leg_three h.2.leg hk
      have h5 := congrArg List.length h.2.cable.posted
      rw [ht, List.append_nil] at h5
      rw [h4, List.length_map] at hg
      omega
    | stay hc he e1 e2 e3 =>
      right
      refine ⟨?_, ?_, e3⟩
      · rw [hc, he, e1]
      · rw [he, e2]

/-- **C112, for a panel that says nothing of its own accord that confirms a command.**  One task
reads events, another sends the commands it is given, one after the other; both run only when woken.
The panel confirms each command it gets.  Everyone acts when they like, in pieces of any size, but
keeps acting.  Then nothing panics or fails; the reader gets only what the panel said, the panel hears
only commands that were given, and only such commands are reported completed, each once and in order;
and at some later time all that the panel said so far is read, and all commands given so far are heard
and reported completed. -/
theorem C112_served_partial {p0 : Panel} (hc : Connected p0) (hu : Lively p0.conn) {line : Bytes}
    {early : List Message} (he : ∀ m ∈ early, WfMessage m ∧ confirms m = false)
    (hl : p0.conn.rd.buffer ++ dataBytes p0.conn.sock.incoming ++ line = early.flatMap frame)
    {ops : Nat → DuoOp} (hf : KeepOn ops)
    (hp : ∀ n d, Duo.after (Duo.start p0 line early) ops n = .ok d → (ops n).Proper d)
    (hq : ∀ n, (ops n).Candid) (n : Nat) :
    ∃ d, Duo.after (Duo.start p0 line early) ops n = .ok d ∧ d.failed = false ∧
      d.told <+: d.said ∧ d.heard <+: d.posted.map commandBytes ∧
      d.completed <+: d.posted.map Command.intoMsg ∧
      ∃ m d', n ≤ m ∧ Duo.after (Duo.start p0 line early) ops m = .ok d' ∧
        d.said <+: d'.told ∧ d.posted.map commandBytes <+: d'.heard ∧
        d.posted.map Command.intoMsg <+: d'.completed := by
  have hS : Course (Duo.start p0 line early) ops :=
    ⟨⟨_, _, _, _, duo_start hc hu he hl⟩, hp, hq, hf⟩
  obtain ⟨s, h⟩ := moment_at hS n
  have hgiven : s.duo.given <+: s.duo.posted := by
    rw [← h.2.cable.posted]
    exact List.prefix_append _ _
  refine ⟨s.duo, h.1, h.2.cable.fine, ?_, ?_, ?_, ?_⟩
  · rw [← h.2.cable.said]
    exact List.prefix_append _ _
  · refine List.IsPrefix.trans ?_ (hgiven.map commandBytes)
    rw [← h.2.cable.heard]
    exact List.prefix_append _ _
  · exact (leg_le h.2.leg).trans (hgiven.map Command.intoMsg)
  · obtain ⟨m1, hm1, s1, h1, hl1⟩ := moment_told hS h (Nat.le_refl _)
    obtain ⟨d1, rfl⟩ := Nat.le.dest hm1
    obtain ⟨g1, g2, g3⟩ := moment_mono hS h d1 s1 h1
    obtain ⟨m2, hm2, s2, h2, hl2⟩ := moment_completed hS h1 (j := s.duo.posted.length)
      g1.posted.length_le
    obtain ⟨d2, rfl⟩ := Nat.le.dest hm2
    obtain ⟨k1, k2, k3⟩ := moment_mono hS h1 d2 s2 h2
    have hgiven2 : s2.duo.given <+: s2.duo.posted := by
      rw [← h2.2.cable.posted]
      exact List.prefix_append _ _
    have hposted : s.duo.posted <+: s2.duo.posted := g1.posted.trans k1.posted
    refine ⟨_, s2.duo, Nat.le_trans hm1 hm2, h2.1, ?_, ?_, ?_⟩
    · have hs := g1.said.trans k1.said
      rw [← h2.2.cable.said] at hs
      refine List.prefix_of_prefix_length_le hs (List.prefix_append _ _) ?_
      exact Nat.le_trans hl1 k2.length_le
    · refine List.prefix_of_prefix_length_le (hposted.map _) ?_ ?_ (l₂ := s2.duo.heard)
      · refine List.IsPrefix.trans ?_ (hgiven2.map commandBytes)
        rw [← h2.2.cable.heard]
        exact List.prefix_append _ _
      · rw [List.length_map]
        exact Nat.le_trans hl2 (leg_heard h2.2.cable h2.2.leg)
    · refine List.prefix_of_prefix_length_le (hposted.map _)
        ((leg_le h2.2.leg).trans (hgiven2.map _)) ?_
      rw [List.length_map]
      exact hl2

/-! Non-vacuity. -/

theorem read_posted {d d' : Duo} {cx : Cx} (h : d.read cx = .ok d') : d'.posted = d.posted := by
  unfold Duo.read at h
  split at h
  · cases h
  · dsimp only at h
    split at h <;> cases h <;> rfl

theorem send_posted {d d' : Duo} {cx : Cx} (h : d.send cx = .ok d') : d'.posted = d.posted := by
  unfold Duo.send at h
  split at h
  · split at h <;> cases h <;> rfl
  · split at h
    · cases h; rfl
    · split at h
      · cases h; rfl
      · cases h; rfl
      · split at h
        · cases h
        · cases h; rfl

theorem step_posted {d d' : Duo} {op : DuoOp} (h : d.step op = .ok d') :
    ∀ c ∈ d'.posted, c ∈ d.posted ∨ op = .post c := by
  have same : d'.posted = d.posted → ∀ c ∈ d'.posted, c ∈ d.posted ∨ op = .post c := by
    intro h c hc
    rw [h] at hc
    exact .inl hc
  match op with
  | .read cx =>
    apply same
    unfold Duo.step at h
    dsimp only at h
    split at h
    · exact read_posted h
    · cases h; rfl
  | .send cx =>
    apply same
    unfold Duo.step at h
    dsimp only at h
    split at h
    · exact send_posted h
    · cases h; rfl
  | .rouseReader => cases h; exact same rfl
  | .rouseSender => cases h; exact same rfl
  | .post c =>
    cases h
    intro c' hc'
    rcases List.mem_append.mp hc' with hc' | hc'
    · exact .inl hc'
    · rw [List.mem_singleton.mp hc']; exact .inr rfl
  | .accept n => cases h; exact same rfl
  | .deliver n =>
    apply same
    unfold Duo.step at h
    dsimp only at h
    split at h <;> cases h <;> rfl
  | .answer m =>
    apply same
    unfold Duo.step at h
    dsimp only at h
    split at h <;> cases h <;> rfl
  | .say m => cases h; exact same rfl

/-- What the panel takes next was given to the sender. -/
theorem taken_posted {d : Duo} {reqs : List Command} {msgs : List Message} {k x : Nat}
    (hi : DuoInv d reqs msgs k x) {c : Command} (hc : WfCommand c)
    (h : firstLine (d.panel.conn.sock.sent.drop d.taken) = some (commandBytes c)) :
    ∃ c' ∈ d.posted, c'.intoMsg = c.intoMsg := by
  have hreqs : ∀ c ∈ reqs, c ∈ d.posted := by
    have hL := hi.leg
    cases hL with
    | idle _ _ _ g => subst g; intro c h; cases h
    | heard _ _ _ _ _ _ _ _ _ g => subst g; intro c h; cases h
    | flush c pre _ _ _ g _ g6 =>
      subst g
      intro c' h
      rw [List.mem_singleton.mp h, ← hi.cable.posted, g6]
      simp
    | unheard c pre _ _ _ _ g _ g6 =>
      subst g
      intro c' h
      rw [List.mem_singleton.mp h, ← hi.cable.posted, g6]
      simp
  rcases firstLine_commands (fun c h => hi.cable.cmds c (hreqs c h)) hi.cable.asked with
    ⟨h1, _⟩ | ⟨c', t, rfl, h1, _⟩
  · rw [h] at h1; cases h1
  · rw [h] at h1
    have hm := hreqs c' (List.mem_cons_self ..)
    exact ⟨c', hm, command_inj (hi.cable.cmds c' hm) hc (Option.some.inj h1).symm⟩

/-- Whose turn it is. -/
def duoTurn : Nat → DuoOp
  | 0 => .read ⟨1, 0, 0⟩
  | 1 => .send ⟨2, 0, 0⟩
  | 2 => .accept 3
  | 3 => .answer (.taskChange ⟨1⟩)
  | _ => .deliver 2

/-- Some things happen, then all take turns. -/
def duoTurns (pre : List DuoOp) (n : Nat) : DuoOp :=
  if h : n < pre.length then pre[n] else duoTurn ((n - pre.length) % 5)

theorem duoTurns_at (pre : List DuoOp) (n j : Nat) (hj : j < 5) :
    duoTurns pre (5 * n + j + pre.length) = duoTurn j := by
  unfold duoTurns
  rw [dif_neg (by omega), show (5 * n + j + pre.length - pre.length) % 5 = j by omega]

theorem duoTurns_fair (pre : List DuoOp) : KeepOn (duoTurns pre) := by
  intro w hw n
  cases w with
  | reader => exact ⟨_, by omega, congrArg DuoOp.who (duoTurns_at pre n 0 (by decide))⟩
  | sender => exact ⟨_, by omega, congrArg DuoOp.who (duoTurns_at pre n 1 (by decide))⟩
  | socket => exact ⟨_, by omega, congrArg DuoOp.who (duoTurns_at pre n 2 (by decide))⟩
  | panel => exact ⟨_, by omega, congrArg DuoOp.who (duoTurns_at pre n 3 (by decide))⟩
  | line => exact ⟨_, by omega, congrArg DuoOp.who (duoTurns_at pre n 4 (by decide))⟩
  | chance => exact absurd rfl hw

theorem duoTurns_cases (pre : List DuoOp) (n : Nat) :
    (n < pre.length ∧ duoTurns pre n ∈ pre) ∨ (pre.length ≤ n ∧ (duoTurns pre n = .read ⟨1, 0, 0⟩ ∨
      duoTurns pre n = .send ⟨2, 0, 0⟩ ∨ duoTurns pre n = .accept 3 ∨
      duoTurns pre n = .answer (.taskChange ⟨1⟩) ∨ duoTurns pre n = .deliver 2)) := by
  unfold duoTurns
  split
  · exact .inl ⟨by assumption, List.getElem_mem ..⟩
  · refine .inr ⟨by omega, ?_⟩
    have : (n - pre.length) % 5 < 5 := Nat.mod_lt _ (by decide)
    generalize (n - pre.length) % 5 = j at this
    match j, this with
    | 0, _ => exact .inl rfl
    | 1, _ => exact .inr (.inl rfl)
    | 2, _ => exact .inr (.inr (.inl rfl))
    | 3, _ => exact .inr (.inr (.inr (.inl rfl)))
    | 4, _ => exact .inr (.inr (.inr (.inr rfl)))

/-- Two commands are given to the sender at once. -/
def twoTasks : List DuoOp := [.post sampleCmd, .post sampleCmd]

theorem samplePanel_lively : Lively (samplePanel []).conn :=
  ⟨rfl, rfl, (fun _ h => by cases h), fun _ h => by cases h⟩

theorem twoTasks_known (n : Nat) :
    ∃ s, HoldsAt (Duo.start (samplePanel []) [] []) (duoTurns twoTasks) n s ∧
      (duoTurns twoTasks n).Proper s.duo ∧ (duoTurns twoTasks n).Candid ∧
      ∀ c ∈ s.duo.posted, c = sampleCmd := by
  have key : ∀ d reqs msgs k x, DuoInv d reqs msgs k x → (∀ c ∈ d.posted, c = sampleCmd) →
      ∀ n, (duoTurns twoTasks n).Proper d ∧ (duoTurns twoTasks n).Candid := by
    intro d reqs msgs k x hi hp n
    rcases duoTurns_cases twoTasks n with ⟨_, h⟩ | ⟨_, h | h | h | h | h⟩
    · have : duoTurns twoTasks n = .post sampleCmd := by
        simpa [twoTasks] using h
      rw [this]
      exact ⟨sampleCmd_wf, trivial⟩
    · rw [h]; exact ⟨trivial, trivial⟩
    · rw [h]; exact ⟨trivial, trivial⟩
    · rw [h]; exact ⟨trivial, trivial⟩
    · rw [h]
      refine ⟨⟨⟨by decide, by decide⟩, fun c hc hl => ?_⟩, trivial⟩
      obtain ⟨c', h1, h2⟩ := taken_posted hi hc hl
      rw [← h2, hp c' h1]
      exact .task _
    · rw [h]; exact ⟨trivial, trivial⟩
  induction n with
  | zero =>
    have hi := duo_start (samplePanel_connected []) samplePanel_lively (line := []) (early := [])
      (fun _ h => by cases h) rfl
    have hp : ∀ c ∈ (Duo.start (samplePanel []) [] []).posted, c = sampleCmd :=
      fun c h => by cases h
    obtain ⟨h1, h2⟩ := key _ _ _ _ _ hi hp 0
    exact ⟨⟨_, _, _, _, _⟩, ⟨rfl, hi⟩, h1, h2, hp⟩
  | succ n ih =>
    obtain ⟨s, h, hp, hc, hs⟩ := ih
    obtain ⟨d', h1, reqs', msgs', k', x', h2, _⟩ := duo_step h.2 hp hc
    have hp' : ∀ c ∈ d'.posted, c = sampleCmd := by
      intro c hcm
      rcases step_posted h1 c hcm with hx | hx
      · exact hs c hx
      · rcases duoTurns_cases twoTasks n with ⟨_, g⟩ | ⟨_, g | g | g | g | g⟩
        · rw [hx] at g
          simpa [twoTasks] using g
        all_goals rw [hx] at g; cases g
    obtain ⟨g1, g2⟩ := key _ _ _ _ _ h2 hp' (n + 1)
    refine ⟨⟨d', reqs', msgs', k', x'⟩, ⟨?_, h2⟩, g1, g2, hp'⟩
    show (Duo.after _ _ n >>= fun d => d.step _) = _
    rw [h.1]
    exact h1

/-- Non-vacuity: two commands given at once are both heard and reported completed. -/
theorem C112_sample : ∃ m d, Duo.after (Duo.start (samplePanel []) [] []) (duoTurns twoTasks) m = .ok d ∧
    [commandBytes sampleCmd, commandBytes sampleCmd] <+: d.heard ∧
    [sampleCmd.intoMsg, sampleCmd.intoMsg] <+: d.completed := by
  obtain ⟨d, h1, _, _, _, _, m, d', _, h2, _, h3, h4⟩ := C112_served_partial
    (samplePanel_connected []) samplePanel_lively (line := []) (early := [])
    (fun _ h => by cases h) rfl (duoTurns_fair twoTasks)
    (fun n d h => by
      obtain ⟨s, g, hp, _⟩ := twoTasks_known n
      rw [g.1] at h
      cases h
      exact hp)
    (fun n => (twoTasks_known n).elim fun _ h => h.2.2.1) 2
  cases h1
  exact ⟨m, d', h2, h3, h4⟩

/-! ## Look-alikes -/

/-- A command is given and handed over, but before it is flushed the panel says that the task was
run: somebody did that at a keypad. -/
def lookAlike : List DuoOp := [.post sampleCmd, .send ⟨2, 0, 0⟩, .say (.taskChange ⟨1⟩),
  .deliver 100, .read ⟨1, 0, 0⟩, .send ⟨2, 0, 0⟩]

/-- The command is forgotten. -/
structure Forgotten (d : Duo) : Prop where
  good : Good d.panel
  sound : Sound d.panel.conn.rd
  data : OnlyData d.panel.conn.sock.incoming
  hand : inHand d.panel = []
  line : d.line = []
  sent : d.panel.conn.sock.sent = []
  idle : d.panel.cmdState = .idle
  sending : d.sending = false
  todo : d.todo = []
  heard : d.heard = []
  posted : d.posted = [sampleCmd]
  completed : d.completed = [sampleCmd.intoMsg]
  fine : d.failed = false

theorem forgotten_step {d : Duo} (h : Forgotten d) {op : DuoOp}
    (ho : op = .read ⟨1, 0, 0⟩ ∨ op = .send ⟨2, 0, 0⟩ ∨ op = .accept 3 ∨
      op = .answer (.taskChange ⟨1⟩) ∨ op = .deliver 2) :
    ∃ d', d.step op = .ok d' ∧ Forgotten d' := by
  rcases ho with rfl | rfl | rfl | rfl | rfl
  · by_cases hr : d.reader = none
    · obtain ⟨r, ws, p', hn, h1, h2, h3, h4, h5, hc⟩ := poll_frames (cx := ⟨1, 0, 0⟩) (line := [])
        (msgs := []) h.good h.sound h.data (fun _ h => by cases h) (by rw [h.hand]; rfl)
      obtain ⟨hg, _⟩ := poll_good h.good hn
      have e : d.step (.read ⟨1, 0, 0⟩) = d.read ⟨1, 0, 0⟩ := if_pos hr
      rw [e]
      unfold Duo.read
      rw [hn]
      cases hc with
      | wait _ c1 c2 =>
        exact ⟨_, rfl, hg, h1, h2, c2.trans h.hand, h.line, h4.trans h.sent, c1.trans h.idle,
          h.sending, h.todo, h.heard, h.posted, h.completed, h.fine⟩
      | fire ev _ c1 c2 c3 =>
        refine ⟨_, rfl, hg, h1, h2, c3.trans h.hand, h.line, h4.trans h.sent, c2.trans h.idle,
          h.sending, h.todo, h.heard, h.posted, ?_, h.fine⟩
        obtain ⟨hcomp, _⟩ := (poll_completes h.good hn).2 c1
        show (d.events ++ [ev]).filterMap _ = _
        rw [List.filterMap_append, show d.events.filterMap _ = _ from h.completed]
        simp [hcomp]
      | got ev m t _ c1 => cases c1
    · exact ⟨d, if_neg hr, h⟩
  · by_cases hr : d.sender = none
    · refine ⟨{ d with sender := some 2 }, ?_, h.good, h.sound, h.data, h.hand, h.line, h.sent,
        h.idle, h.sending, h.todo, h.heard, h.posted, h.completed, h.fine⟩
      have e : d.step (.send ⟨2, 0, 0⟩) = d.send ⟨2, 0, 0⟩ := if_pos hr
      rw [e]
      unfold Duo.send
      rw [h.sending, h.todo]
      rfl
    · exact ⟨d, if_neg hr, h⟩
  · exact ⟨_, rfl, .mk' h.good.rd h.good.has h.good.zones (fun r w hb =>
      nomatch h.idle.symm.trans hb) h.good.held, h.sound, h.data, h.hand, h.line,
      h.sent, h.idle, h.sending, h.todo, h.heard, h.posted, h.completed, h.fine⟩
  · refine ⟨d, ?_, h⟩
    unfold Duo.step
    rw [h.sent, List.drop_nil]
    rfl
  · exact ⟨d, if_pos h.line, h⟩

/-- **C112 is false** of panels that say things which look like confirmations: a command is given and
handed over, and while the socket does not take it yet, the panel says that somebody else ran that
task.  That completes the command, `poll_flush` then says Ok without flushing, and although everyone
keeps acting the panel never hears the command. -/
theorem C112_false : ∃ ops, KeepOn ops ∧ ∀ n, ∃ d,
    Duo.after (Duo.start (samplePanel []) [] []) ops n = .ok d ∧ (ops n).Proper d ∧
    d.failed = false ∧ d.heard = [] ∧
    (6 ≤ n → d.posted = [sampleCmd] ∧ d.todo = [] ∧ d.sending = false ∧
      d.completed = [sampleCmd.intoMsg]) := by
  refine ⟨duoTurns lookAlike, duoTurns_fair _, ?_⟩
  have early : ∀ n, n ≤ 6 → ∃ d, Duo.after (Duo.start (samplePanel []) [] []) (duoTurns lookAlike) n
      = .ok d ∧ decide (d.failed = false ∧ d.heard = [] ∧ d.panel.conn.sock.sent = []) = true := by
    intro n hn
    match n, hn with
    | 0, _ => exact of_holds (by decide +kernel)
    | 1, _ => exact of_holds (by decide +kernel)
    | 2, _ => exact of_holds (by decide +kernel)
    | 3, _ => exact of_holds (by decide +kernel)
    | 4, _ => exact of_holds (by decide +kernel)
    | 5, _ => exact of_holds (by decide +kernel)
    | 6, _ => exact of_holds (by decide +kernel)
  have six : ∃ d, Duo.after (Duo.start (samplePanel []) [] []) (duoTurns lookAlike) 6 = .ok d ∧
      Forgotten d := by
    have h : ∃ d, Duo.after (Duo.start (samplePanel []) [] []) (duoTurns lookAlike) 6 = .ok d ∧
        decide (d.panel.conn.rd.eof = false ∧ d.panel.conn.rd.hasErrored = false ∧
          d.panel.conn.rd.buffer = [] ∧ d.panel.conn.sock.incoming = [] ∧ d.line = [] ∧
          d.panel.conn.sock.sent = [] ∧ d.panel.cmdState = .idle ∧ d.sending = false ∧ d.todo = [] ∧
          d.heard = [] ∧ d.posted = [sampleCmd] ∧ d.completed = [sampleCmd.intoMsg] ∧
          d.failed = false ∧ d.panel.state.armingStatus ≠ none ∧
          d.panel.state.zoneStatuses ≠ none ∧ d.panel.pendingArm = none) = true :=
      of_holds (by decide +kernel)
    obtain ⟨d, h1, h2⟩ := h
    obtain ⟨a1, a2, a4, a5, a6, a7, a8, a9, a10, a11, a12, a13, a14, a15, a16, a17⟩ :=
      of_decide_eq_true h2
    refine ⟨d, h1, .mk' ?_ a15 a16 ?_ ?_, ⟨a1, a2⟩, ?_, ?_, a6, a7, a8, a9, a10, a11, a12, a13, a14⟩
    · intro _
      rw [a4]
      exact dry_nil
    · intro r w hb; rw [a8] at hb; cases hb
    · intro pa hp; rw [a17] at hp; cases hp
    · rw [a5]; intro _ h; cases h
    · unfold inHand; rw [a4, a5]; rfl
  have late : ∀ j, ∃ d, Duo.after (Duo.start (samplePanel []) [] []) (duoTurns lookAlike) (6 + j) =
      .ok d ∧ Forgotten d := by
    intro j
    induction j with
    | zero => exact six
    | succ j ih =>
      obtain ⟨d, h1, h2⟩ := ih
      obtain ⟨d', h3, h4⟩ := forgotten_step h2 (op := duoTurns lookAlike (6 + j)) (by
        rcases duoTurns_cases lookAlike (6 + j) with ⟨h, _⟩ | ⟨_, h⟩
        · exact absurd h (by simp [lookAlike])
        · exact h)
      refine ⟨d', ?_, h4⟩
      show (Duo.after _ _ (6 + j) >>= fun d => d.step _) = _
      rw [h1]
      exact h3
  intro n
  by_cases hn : n < 6
  · obtain ⟨d, h1, h2⟩ := early n (by omega)
    obtain ⟨h2, h3, _⟩ := of_decide_eq_true h2
    refine ⟨d, h1, ?_, h2, h3, fun h => absurd h (by omega)⟩
    match n, hn with
    | 0, _ => exact sampleCmd_wf
    | 1, _ => trivial
    | 2, _ => exact ⟨by decide, by decide⟩
    | 3, _ => trivial
    | 4, _ => trivial
    | 5, _ => trivial
  · obtain ⟨d, h1, h2⟩ := late (n - 6)
    rw [show 6 + (n - 6) = n by omega] at h1
    refine ⟨d, h1, ?_, h2.fine, h2.heard, fun _ => ⟨h2.posted, h2.todo, h2.sending, h2.completed⟩⟩
    rcases duoTurns_cases lookAlike n with ⟨h, _⟩ | ⟨_, h | h | h | h | h⟩
    · exact absurd h hn
    · rw [h]; trivial
    · rw [h]; trivial
    · rw [h]; trivial
    · rw [h]
      refine ⟨⟨by decide, by decide⟩, fun c _ hl => ?_⟩
      rw [h2.sent, List.drop_nil] at hl
      cases hl
    · rw [h]; trivial

end Elk.Props
