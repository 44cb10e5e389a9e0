import Verif.Props.Settle
import Verif.Spec.Queue
/-!
# The queue of the MQTT client: C113
-/

namespace Elk.Props
open Spec

/-! ## The queue -/

/-- What is known of the requests. -/
structure InOrder (b0 : Bridge) (q : Queued) : Prop where
  log : b0.log <+: q.home.bridge.log
  all : q.sent ++ q.queue ++ q.out =
    startRequests b0 ++ (q.home.bridge.log.drop b0.log.length).map .publish
  size : q.queue.length ≤ 10

theorem in_order_step {b0 : Bridge} {q q' : Queued} {op : QueuedOp} (hi : InOrder b0 q)
    (hs : q.step op = .ok q') : InOrder b0 q' := by
  have other : ∀ {op : HomeOp} {h}, (∀ cx pf, op ≠ .tick cx pf) → q.home.step op = .ok h →
      InOrder b0 { q with home := h } := by
    intro op h hn hs
    have e := (home_log hs).2 hn
    exact ⟨by rw [e]; exact hi.log, by show _ ++ _ ++ _ = _; rw [e]; exact hi.all, hi.size⟩
  have fin : ∀ {op : HomeOp}, (∀ cx pf, op ≠ .tick cx pf) →
      (match q.home.step op with
        | .error e => .error e
        | .ok h => .ok { q with home := h } : P Queued) = .ok q' → InOrder b0 q' := by
    intro op hn hs
    split at hs
    · cases hs
    · rename_i h hh
      cases hs
      exact other hn hh
  match op with
  | .transmit =>
    unfold Queued.step at hs
    dsimp only at hs
    split at hs
    · cases hs; exact hi
    · rename_i r t hq
      cases hs
      refine ⟨hi.log, ?_, ?_⟩
      · rw [← hi.all, hq]; simp
      · have := hi.size
        rw [hq] at this
        exact Nat.le_of_succ_le this
  | .home (.tick cx pf) =>
    unfold Queued.step at hs
    dsimp only at hs
    split at hs
    · rename_i ho
      split at hs
      · cases hs
      · rename_i h hh
        cases hs
        obtain ⟨x, hx⟩ := (home_log hh).1
        have hl := hi.log
        have ha := hi.all
        refine ⟨hl.trans ⟨x, hx⟩, ?_, hi.size⟩
        show q.sent ++ q.queue ++ (h.bridge.log.drop _).map _ = _
        rw [ho, List.append_nil] at ha
        rw [ha, ← hx, List.drop_left, List.drop_append_of_le_length hl.length_le, List.map_append,
          List.append_assoc]
    · rename_i r t ho
      cases hs
      split
      · rename_i hl
        refine ⟨hi.log, ?_, ?_⟩
        · rw [← hi.all, ho]; simp
        · show (q.queue ++ [r]).length ≤ 10
          rw [List.length_append]
          exact hl
      · exact hi
  | .home .rest => exact fin (op := .rest) (by simp) hs
  | .home .wake => exact fin (op := .wake) (by simp) hs
  | .home (.accept n) => exact fin (op := .accept n) (by simp) hs
  | .home (.deliver n) => exact fin (op := .deliver n) (by simp) hs
  | .home (.answer r) => exact fin (op := .answer r) (by simp) hs
  | .home (.say m) => exact fin (op := .say m) (by simp) hs
  | .home (.post p c) => exact fin (op := .post p c) (by simp) hs

/-! ## Without the queue -/

/-- What happens apart from the queue. -/
def besides (q : Queued) : QueuedOp → HomeOp
  | .home (.tick cx pf) => if q.out = [] then .tick cx pf else .rest
  | .home op => op
  | .transmit => .rest

theorem step_apart {q : Queued} {op : QueuedOp} {h : Home} (hs : q.home.step (besides q op) = .ok h) :
    ∃ q', q.step op = .ok q' ∧ q'.home = h := by
  match op with
  | .transmit =>
    cases hs
    unfold Queued.step
    dsimp only
    split
    · exact ⟨_, rfl, rfl⟩
    · exact ⟨_, rfl, rfl⟩
  | .home (.tick cx pf) =>
    unfold besides at hs
    unfold Queued.step
    dsimp only at hs ⊢
    split
    · rename_i ho
      rw [if_pos ho] at hs
      rw [hs]
      exact ⟨_, rfl, rfl⟩
    · rename_i r t ho
      rw [if_neg (by rw [ho]; simp)] at hs
      cases hs
      refine ⟨_, rfl, ?_⟩
      split <;> rfl
  | .home .rest => unfold Queued.step; dsimp only; rw [show q.home.step .rest = _ from hs]; exact ⟨_, rfl, rfl⟩
  | .home .wake => unfold Queued.step; dsimp only; rw [show q.home.step .wake = _ from hs]; exact ⟨_, rfl, rfl⟩
  | .home (.accept n) =>
    unfold Queued.step; dsimp only; rw [show q.home.step (.accept n) = _ from hs]; exact ⟨_, rfl, rfl⟩
  | .home (.deliver n) =>
    unfold Queued.step; dsimp only; rw [show q.home.step (.deliver n) = _ from hs]; exact ⟨_, rfl, rfl⟩
  | .home (.answer r) =>
    unfold Queued.step; dsimp only; rw [show q.home.step (.answer r) = _ from hs]; exact ⟨_, rfl, rfl⟩
  | .home (.say m) =>
    unfold Queued.step; dsimp only; rw [show q.home.step (.say m) = _ from hs]; exact ⟨_, rfl, rfl⟩
  | .home (.post p c) =>
    unfold Queued.step; dsimp only; rw [show q.home.step (.post p c) = _ from hs]; exact ⟨_, rfl, rfl⟩

theorem proper_apart {q : Queued} {op : QueuedOp} (hp : op.Proper q) : (besides q op).Proper q.home := by
  match op with
  | .transmit => trivial
  | .home (.tick cx pf) => unfold besides; dsimp only; split <;> trivial
  | .home .rest => trivial
  | .home .wake => trivial
  | .home (.accept n) => trivial
  | .home (.deliver n) => trivial
  | .home (.answer r) => exact hp
  | .home (.say m) => exact hp
  | .home (.post p c) => exact hp

/-- A schedule apart from the queue. -/
def besidesAll (q0 : Queued) (ops : Nat → QueuedOp) (n : Nat) : HomeOp :=
  match Queued.after q0 ops n with
  | .ok q => besides q (ops n)
  | .error _ => .rest

theorem apart_at {q0 q : Queued} {ops : Nat → QueuedOp} {n : Nat}
    (h : Queued.after q0 ops n = .ok q) : besidesAll q0 ops n = besides q (ops n) := by
  unfold besidesAll
  rw [h]

/-- A schedule with the queue that behaves. -/
structure Course2 (b0 : Bridge) (line : Bytes) (early : List Message) (ops : Nat → QueuedOp) : Prop where
  start : ∃ reqs msgs k, HomeInv (Home.start b0 line early) reqs msgs k
  proper : ∀ n q, Queued.after (Queued.start b0 line early) ops n = .ok q → (ops n).Proper q
  act : AllAct (Queued.start b0 line early) ops

section
variable {b0 : Bridge} {line : Bytes} {early : List Message} {ops : Nat → QueuedOp}

theorem queued_at (hC : Course2 b0 line early ops) (n : Nat) :
    ∃ q, Queued.after (Queued.start b0 line early) ops n = .ok q ∧ InOrder b0 q ∧
      ∃ reqs msgs k, Holds (Home.start b0 line early) (besidesAll (Queued.start b0 line early) ops) n
        ⟨q.home, reqs, msgs, k⟩ := by
  induction n with
  | zero =>
    obtain ⟨reqs, msgs, k, h⟩ := hC.start
    refine ⟨_, rfl, ⟨List.prefix_refl _, ?_, Nat.zero_le _⟩, reqs, msgs, k, rfl, h⟩
    show [] ++ [] ++ startRequests b0 = startRequests b0 ++ (b0.log.drop b0.log.length).map _
    rw [List.drop_length]
    simp
  | succ n ih =>
    obtain ⟨q, h1, h2, reqs, msgs, k, h3, h4⟩ := ih
    obtain ⟨h', g1, reqs', msgs', k', g2, _⟩ :=
      home_step h4 (proper_apart (hC.proper n q h1))
    obtain ⟨q', e1, e2⟩ := step_apart g1
    refine ⟨q', ?_, in_order_step h2 e1, reqs', msgs', k', ?_, ?_⟩
    · show (Queued.after _ ops n >>= fun q => q.step _) = _
      rw [h1]; exact e1
    · show (Home.after _ _ n >>= fun h => h.step _) = _
      rw [h3, apart_at h1, e2]
      exact g1
    · rw [e2]; exact g2

theorem queued_succ {n : Nat} {q q' : Queued}
    (h : Queued.after (Queued.start b0 line early) ops n = .ok q)
    (h' : Queued.after (Queued.start b0 line early) ops (n + 1) = .ok q') :
    q.step (ops n) = .ok q' := by
  have : (Queued.after (Queued.start b0 line early) ops n >>= fun q => q.step (ops n)) = .ok q' := h'
  rw [h] at this
  exact this

/-- Who acts, as far as the queue is concerned: the bridge, or what transmits. -/
def hand : QueuedOp → Option Bool
  | .home (.tick ..) => some true
  | .transmit => some false
  | _ => none

theorem hand_tick {op : QueuedOp} (h : hand op = some true) : ∃ cx pf, op = .home (.tick cx pf) := by
  match op with
  | .home (.tick cx pf) => exact ⟨cx, pf, rfl⟩
  | .transmit => cases h
  | .home .rest => cases h
  | .home .wake => cases h
  | .home (.accept n) => cases h
  | .home (.deliver n) => cases h
  | .home (.answer r) => cases h
  | .home (.say m) => cases h
  | .home (.post p c) => cases h

/-- What can happen to the queue. -/
inductive QueueStep (q q' : Queued) : Option Bool → Prop
  | push (r t) : q.out = r :: t → q.queue.length < 10 →
      q' = { q with out := t, queue := q.queue ++ [r] } → QueueStep q q' (some true)
  | full : q.out ≠ [] → ¬ q.queue.length < 10 → q' = q → QueueStep q q' (some true)
  | select : q.out = [] → q'.queue = q.queue → q'.sent = q.sent → QueueStep q q' (some true)
  | take (r t) : q.queue = r :: t → q' = { q with queue := t, sent := q.sent ++ [r] } →
      QueueStep q q' (some false)
  | empty : q.queue = [] → q' = q → QueueStep q q' (some false)
  | other : q'.out = q.out → q'.queue = q.queue → q'.sent = q.sent → QueueStep q q' none

theorem queue_step {q q' : Queued} {op : QueuedOp} (hs : q.step op = .ok q') :
    QueueStep q q' (hand op) := by
  have fin : ∀ {op : HomeOp},
      (match q.home.step op with
        | .error e => .error e
        | .ok h => .ok { q with home := h } : P Queued) = .ok q' → QueueStep q q' none := by
    intro op hs
    split at hs
    · cases hs
    · cases hs
      exact .other rfl rfl rfl
  match op with
  | .transmit =>
    unfold Queued.step at hs
    dsimp only at hs
    split at hs
    · rename_i h
      cases hs; exact .empty h rfl
    · rename_i r t h
      cases hs; exact .take r t h rfl
  | .home (.tick cx pf) =>
    unfold Queued.step at hs
    dsimp only at hs
    split at hs
    · rename_i ho
      split at hs
      · cases hs
      · cases hs; exact .select ho rfl rfl
    · rename_i r t ho
      cases hs
      by_cases hl : q.queue.length < 10
      · exact .push r t ho hl (if_pos hl)
      · exact .full (by rw [ho]; simp) hl (if_neg hl)
  | .home .rest => exact fin (op := .rest) hs
  | .home .wake => exact fin (op := .wake) hs
  | .home (.accept n) => exact fin (op := .accept n) hs
  | .home (.deliver n) => exact fin (op := .deliver n) hs
  | .home (.answer r) => exact fin (op := .answer r) hs
  | .home (.say m) => exact fin (op := .say m) hs
  | .home (.post p c) => exact fin (op := .post p c) hs

theorem hands (hC : Course2 b0 line early ops) :
    ∀ w, w ≠ none → ∀ n, ∃ m, n ≤ m ∧ hand (ops m) = w := by
  intro w hw n
  match w with
  | none => exact absurd rfl hw
  | some true =>
    obtain ⟨m, cx, pf, h1, h2⟩ := hC.act.bridge n
    exact ⟨m, h1, by rw [h2]; rfl⟩
  | some false =>
    obtain ⟨m, h1, h2⟩ := hC.act.client n
    exact ⟨m, h1, by rw [h2]; rfl⟩

/-- The bridge gets all its requests into the queue. -/
theorem out_empties (hC : Course2 b0 line early ops) (n : Nat) :
    ∃ m, n ≤ m ∧ ∃ q, Queued.after (Queued.start b0 line early) ops m = .ok q ∧ q.out = [] := by
  obtain ⟨q, h, _⟩ := queued_at hC n
  refine eventually (lt := (· < · : Nat → Nat → Prop)) Nat.lt_wfRel.wf (σ := Queued)
    (At := fun n q => Queued.after (Queued.start b0 line early) ops n = .ok q)
    (who := fun n => hand (ops n)) (hands hC)
    (rank := fun q => 2 * q.out.length + if q.queue.length < 10 then 0 else 1)
    (helper := fun q => some (decide (q.queue.length < 10))) (fun _ h => by cases h)
    (fun n q h => ?_) n q h
  obtain ⟨q', h', _⟩ := queued_at hC (n + 1)
  by_cases ho : q.out = []
  · exact .inl ⟨q, h, ho⟩
  refine .inr (.inr ⟨q', h', ?_⟩)
  have hs := queue_step (queued_succ h h')
  generalize hand (ops n) = w at hs
  cases hs with
  | push r t g1 g2 g3 =>
    subst g3
    left
    show 2 * t.length + (if _ then _ else _) < 2 * q.out.length + _
    rw [g1, if_pos g2, List.length_cons]
    split <;> omega
  | full g1 g2 g3 =>
    subst g3
    exact .inr ⟨rfl, rfl, by simp [g2]⟩
  | select g1 => exact absurd g1 ho
  | take r t g1 g2 =>
    subst g2
    by_cases hl : q.queue.length < 10
    · refine .inr ⟨?_, ?_, by simp [hl]⟩
      · show 2 * q.out.length + (if t.length < 10 then 0 else 1) = _
        rw [if_pos hl, if_pos]
        rw [g1, List.length_cons] at hl
        omega
      · show some (decide (t.length < 10)) = _
        rw [g1, List.length_cons] at hl
        rw [g1, List.length_cons]
        simp [hl, show t.length < 10 by omega]
    · left
      obtain ⟨q1, e1, e2, _⟩ := queued_at hC n
      rw [h] at e1
      cases e1
      have := e2.size
      show 2 * q.out.length + (if t.length < 10 then 0 else 1) < _
      rw [if_neg hl, if_pos]
      · omega
      · rw [g1, List.length_cons] at this
        omega
  | empty g1 g2 =>
    subst g2
    exact .inr ⟨rfl, rfl, by simp [g1]⟩
  | other g1 g2 g3 => exact .inr ⟨by rw [g1, g2], by rw [g2], fun h => by cases h⟩

/-- The requests made so far are all transmitted. -/
theorem all_sent (hC : Course2 b0 line early ops) {n : Nat} {q : Queued}
    (h : Queued.after (Queued.start b0 line early) ops n = .ok q) :
    ∃ m, n ≤ m ∧ ∃ q', Queued.after (Queued.start b0 line early) ops m = .ok q' ∧
      (q.sent ++ q.queue ++ q.out).length ≤ q'.sent.length := by
  generalize hk : (q.sent ++ q.queue ++ q.out).length = k
  refine eventually (lt := (· < · : Nat → Nat → Prop)) Nat.lt_wfRel.wf (σ := Queued)
    (At := fun n q => Queued.after (Queued.start b0 line early) ops n = .ok q ∧
      k ≤ (q.sent ++ q.queue ++ q.out).length)
    (who := fun n => hand (ops n)) (hands hC)
    (rank := fun q => 2 * (k - q.sent.length) + if q.queue = [] then 1 else 0)
    (helper := fun q => some q.queue.isEmpty) (fun _ h => by cases h)
    (fun n q h => ?_) n q ⟨h, Nat.le_of_eq hk.symm⟩
  clear hk
  obtain ⟨h, hk⟩ := h
  obtain ⟨q', h', _⟩ := queued_at hC (n + 1)
  by_cases ho : k ≤ q.sent.length
  · exact .inl ⟨q, h, ho⟩
  have hs := queue_step (queued_succ h h')
  generalize hand (ops n) = w at hs
  simp only [List.length_append] at hk
  cases hs with
  | push r t g1 g2 g3 =>
    subst g3
    refine .inr (.inr ⟨_, ⟨h', ?_⟩, ?_⟩)
    · simp only [List.length_append, List.length_singleton]
      rw [g1, List.length_cons] at hk
      omega
    · by_cases he : q.queue = []
      · left
        show 2 * (k - q.sent.length) + (if q.queue ++ [r] = [] then 1 else 0) < _
        rw [if_pos he, if_neg (by simp)]
        omega
      · refine .inr ⟨?_, ?_, ?_⟩
        · show 2 * (k - q.sent.length) + (if q.queue ++ [r] = [] then 1 else 0) = _
          rw [if_neg he, if_neg (by simp)]
        · show some (q.queue ++ [r]).isEmpty = some q.queue.isEmpty
          cases hq : q.queue with
          | nil => exact absurd hq he
          | cons => simp
        · simp [he]
  | full g1 g2 g3 =>
    subst g3
    refine .inr (.inr ⟨_, ⟨h', by simpa [Nat.add_assoc] using hk⟩, .inr ⟨rfl, rfl, ?_⟩⟩)
    cases hq : q'.queue with
    | nil => rw [hq] at g2; exact absurd (by decide) g2
    | cons => simp
  | select g1 g2 g3 =>
    have hne : q.queue ≠ [] := by
      intro he
      rw [g1, he] at hk
      exact ho (by simpa using hk)
    refine .inr (.inr ⟨_, ⟨h', ?_⟩, .inr ⟨by rw [g2, g3], by rw [g2], by simp [hne]⟩⟩)
    rw [g2, g3]
    simp only [List.length_append]
    rw [g1] at hk
    simp at hk
    omega
  | take r t g1 g2 =>
    subst g2
    refine .inr (.inr ⟨_, ⟨h', ?_⟩, .inl ?_⟩)
    · simp only [List.length_append, List.length_singleton]
      rw [g1, List.length_cons] at hk
      omega
    · show 2 * (k - (q.sent ++ [r]).length) + (if t = [] then 1 else 0) < 2 * (k - q.sent.length) + _
      rw [List.length_append, List.length_singleton]
      split <;> omega
  | empty g1 g2 =>
    subst g2
    exact .inr (.inr ⟨_, ⟨h', by simpa [Nat.add_assoc] using hk⟩, .inr ⟨rfl, rfl, by simp [g1]⟩⟩)
  | other g1 g2 g3 =>
    refine .inr (.inr ⟨_, ⟨h', ?_⟩, .inr ⟨by rw [g2, g3], by rw [g2], fun h => by cases h⟩⟩)
    rw [g1, g2, g3]
    simpa [Nat.add_assoc] using hk

/-- Apart from the queue everyone keeps acting. -/
theorem besides_fair (hC : Course2 b0 line early ops) :
    KeepActing (besidesAll (Queued.start b0 line early) ops) := by
  have sel : ∀ n, ∃ m pf, n ≤ m ∧ Selects (Queued.start b0 line early) ops m pf := by
    intro n
    obtain ⟨m, hm, q, h1, h2⟩ := out_empties hC n
    -- the next run of the bridge
    have key : ∀ d m q, Queued.after (Queued.start b0 line early) ops m = .ok q → q.out = [] →
        hand (ops (m + d)) = some true →
        ∃ m' pf, m ≤ m' ∧ Selects (Queued.start b0 line early) ops m' pf := by
      intro d
      induction d with
      | zero =>
        intro m q h1 h2 h3
        obtain ⟨cx, pf, ho⟩ := hand_tick (op := ops m) h3
        exact ⟨m, pf, Nat.le_refl _, q, cx, h1, h2, ho⟩
      | succ d ih =>
        intro m q h1 h2 h3
        obtain ⟨q', h', _⟩ := queued_at hC (m + 1)
        by_cases ht : hand (ops m) = some true
        · obtain ⟨cx, pf, ho⟩ := hand_tick ht
          exact ⟨m, pf, Nat.le_refl _, q, cx, h1, h2, ho⟩
        · have hs := queue_step (queued_succ h1 h')
          have e : q'.out = [] := by
            generalize hand (ops m) = w at hs ht
            cases hs with
            | push => exact absurd rfl ht
            | full => exact absurd rfl ht
            | select => exact absurd rfl ht
            | take r t g1 g2 => subst g2; exact h2
            | empty g1 g2 => subst g2; exact h2
            | other g1 => exact g1.trans h2
          obtain ⟨m', pf, g1, g2⟩ := ih (m + 1) q' h' e (by rw [← h3]; congr 2; omega)
          exact ⟨m', pf, by omega, g2⟩
    obtain ⟨m2, g1, g2⟩ := hands hC (some true) (fun h => by cases h) m
    obtain ⟨m', pf, g3, g4⟩ := key (m2 - m) m q h1 h2 (by rw [show m + (m2 - m) = m2 by omega]; exact g2)
    exact ⟨m', pf, by omega, g4⟩
  intro w hw n
  by_cases hl : w = .library
  · subst hl
    obtain ⟨m, h1, q, cx, h2, h3, h4⟩ := hC.act.inbox sel n
    refine ⟨m, h1, ?_⟩
    rw [apart_at h2, h4]
    show HomeOp.who (if _ then _ else _) = _
    rw [if_pos h3]
    rfl
  · obtain ⟨m, op, h1, h2, h3⟩ := hC.act.others w hw hl n
    obtain ⟨q, g, _⟩ := queued_at hC m
    refine ⟨m, h1, ?_⟩
    rw [apart_at g, h2]
    rw [← h3] at hl hw
    rw [← h3]
    cases op with
    | tick cx pf => cases pf; exact absurd rfl hl; exact absurd rfl hw
    | _ => rfl

end

/-! ## The property -/

theorem pubs_append (a b : List Request) : pubs (a ++ b) = pubs a ++ pubs b := by
  unfold pubs
  simp

theorem pubs_publish (l : List Published) : pubs (l.map .publish) = l := by
  induction l with
  | nil => rfl
  | cons a l ih => exact congrArg (a :: ·) ih

theorem pubs_start (b : Bridge) : pubs (startRequests b) = b.log := by
  unfold startRequests
  rw [pubs_append, pubs_publish]
  show _ ++ pubs (.subscribe b.subscribed :: _) = _
  rw [show ∀ l, pubs (.subscribe b.subscribed :: l) = pubs l from fun _ => rfl, pubs_publish,
    List.dropLast_eq_take, List.take_append_drop]

theorem pubs_mono {a b : List Request} (h : a <+: b) : pubs a <+: pubs b := by
  obtain ⟨x, rfl⟩ := h
  rw [pubs_append]
  exact List.prefix_append _ _

theorem in_order_pubs {b0 : Bridge} {q : Queued} (h : InOrder b0 q) :
    pubs (q.sent ++ q.queue ++ q.out) = q.home.bridge.log := by
  rw [h.all, pubs_append, pubs_start, pubs_publish]
  obtain ⟨x, hx⟩ := h.log
  rw [← hx, List.drop_left]

/-- What the bridge has asked for so far. -/
theorem in_order_mono {hC : Course2 b0 line early ops} {n m : Nat} {q q' : Queued} (hm : n ≤ m)
    (h : Queued.after (Queued.start b0 line early) ops n = .ok q)
    (h' : Queued.after (Queued.start b0 line early) ops m = .ok q') :
    q.home.bridge.log <+: q'.home.bridge.log ∧ q.sent <+: q'.sent := by
  obtain ⟨d, rfl⟩ := Nat.le.dest hm
  clear hm
  induction d generalizing q' with
  | zero => rw [Nat.add_zero, h] at h'; cases h'; exact ⟨List.prefix_refl _, List.prefix_refl _⟩
  | succ d ih =>
    obtain ⟨q1, h1, _, reqs, msgs, k, h2⟩ := queued_at hC (n + d)
    obtain ⟨g1, g2⟩ := ih h1
    have hs := queued_succ h1 h'
    refine ⟨g1.trans ?_, g2.trans ?_⟩
    · obtain ⟨q2, e1, _, _, _, _, e2⟩ := queued_at hC (n + d + 1)
      rw [show n + (d + 1) = n + d + 1 from rfl, e1] at h'
      cases h'
      exact (home_log (after_succ h2.1 e2.1)).1
    · have := queue_step hs
      generalize hand (ops (n + d)) = w at this
      cases this with
      | push r t _ _ g => subst g; exact List.prefix_refl _
      | full _ _ g => subst g; exact List.prefix_refl _
      | select _ _ g => rw [g]; exact List.prefix_refl _
      | take r t _ g => subst g; exact List.prefix_append _ _
      | empty _ g => subst g; exact List.prefix_refl _
      | other _ _ g => rw [g]; exact List.prefix_refl _

theorem requests_mono {b0 : Bridge} {q q' : Queued} (h : q.home.bridge.log <+: q'.home.bridge.log) :
    requests b0 q <+: requests b0 q' := by
  unfold requests
  rw [List.prefix_append_right_inj]
  obtain ⟨x, hx⟩ := h
  rw [← hx, List.drop_append, List.map_append]
  exact List.prefix_append _ _

/-- **C113.** In the situation of C104, with the queue of 10 requests between the bridge and what
transmits them: the queue never overflows; what is transmitted is what the bridge asked for, each
request once and in order, beginning with the documents and states, the subscription, and the
announcement that the bridge is online; nothing panics, and all that C104 says still holds; and when
the bridge has dealt with all that was said and posted so far, then at some later time all it asked
for is transmitted. -/
theorem C113_queue {cfg : Cfg} {p0 : Panel} (hc : Connected p0) (hv : WfView p0) {b0 : Bridge}
    (hs : Bridge.start cfg p0 = .ok b0) (hd : DistinctNames cfg) (hu : Lively p0.conn)
    {line : Bytes} {early : List Message}
    (he : ∀ m ∈ early, WfMessage m ∧ ∀ r, m ≠ .zoneStatusReport r)
    (hl : p0.conn.rd.buffer ++ dataBytes p0.conn.sock.incoming ++ line = early.flatMap frame)
    {ops : Nat → QueuedOp} (hf : AllAct (Queued.start b0 line early) ops)
    (hp : ∀ n q, Queued.after (Queued.start b0 line early) ops n = .ok q → (ops n).Proper q)
    (n : Nat) :
    ∃ q, Queued.after (Queued.start b0 line early) ops n = .ok q ∧ q.queue.length ≤ 10 ∧
      q.sent <+: requests b0 q ∧ pubs (requests b0 q) = q.home.bridge.log ∧
      q.home.heard <+: q.home.posted.map commandBytes ∧ toldTo q.home.obs <+: q.home.said ∧
      ∃ m q', n ≤ m ∧ Queued.after (Queued.start b0 line early) ops m = .ok q' ∧
        q.home.posted.map commandBytes <+: q'.home.heard ∧
        q.home.said <+: toldTo q'.home.obs ∧ Quiet q'.home.bridge ∧
        ∃ m' q'', m ≤ m' ∧ Queued.after (Queued.start b0 line early) ops m' = .ok q'' ∧
          requests b0 q' <+: q''.sent := by
  have hC : Course2 b0 line early ops := ⟨⟨_, _, _, home_start hc hv hs hd hu he hl⟩, hp, hf⟩
  obtain ⟨q, h1, h2, reqs, msgs, k, h3⟩ := queued_at hC n
  obtain ⟨h, e1, e2, e3, m, h', hm, e4, e5, e6, e7⟩ :=
    C104_carried_out hc hv hs hd hu he hl (besides_fair hC) (fun n h hn => by
      obtain ⟨q, g1, _, _, _, _, g2⟩ := queued_at hC n
      rw [g2.1] at hn
      cases hn
      rw [apart_at g1]
      exact proper_apart (hp n q g1)) n
  rw [h3.1] at e1
  cases e1
  obtain ⟨q', g1, g2, _, _, _, g3⟩ := queued_at hC m
  rw [g3.1] at e4
  cases e4
  obtain ⟨m', hm', q'', g4, g5⟩ := all_sent hC g1
  obtain ⟨q2, g4', g6, _⟩ := queued_at hC m'
  rw [g4] at g4'
  cases g4'
  refine ⟨q, h1, h2.size, ?_, ?_, e2, e3, m, q', hm, g1, e5, e6, e7, m', q'', hm', g4, ?_⟩
  · unfold requests
    rw [← h2.all, List.append_assoc]
    exact List.prefix_append _ _
  · unfold requests
    rw [← h2.all]
    exact in_order_pubs h2
  · have hmono := requests_mono (b0 := b0) (in_order_mono (hC := hC) hm' g1 g4).1
    have hsent : q''.sent <+: requests b0 q'' := by
      unfold requests
      rw [← g6.all, List.append_assoc]
      exact List.prefix_append _ _
    refine List.prefix_of_prefix_length_le hmono hsent ?_
    unfold requests
    rw [← g2.all]
    exact g5

/-- The situation of C109 with the queue: the panel pauses and no more commands are posted, the clock
runs on, and timers fire. -/
structure Pauses (q0 : Queued) (ops : Nat → QueuedOp) : Prop where
  silent : ∃ n, ∀ m, n ≤ m → (∀ msg, ops m ≠ .home (.say msg)) ∧ ∀ p c, ops m ≠ .home (.post p c)
  clock : ∀ t, ∃ n, ∀ m, n ≤ m → ∀ cx pf, ops m = .home (.tick cx pf) → t ≤ cx.timer
  timers : ∀ n q pa w, Queued.after q0 ops n = .ok q → q.home.bridge.panel.pendingArm = some pa →
    pa.waker = some w → q.home.asleep = some w →
    ∃ m q', n ≤ m ∧ Queued.after q0 ops m = .ok q' ∧ q'.home.asleep ≠ some w

/-- **C113.** Once the panel pauses (C109), the queue empties for good, and from some time on, for
ever, what was transmitted shows what the panel said last. -/
theorem C113_catches_up {cfg : Cfg} {p0 : Panel} (hc : Connected p0) (hv : WfView p0)
    (hm : MapCfg cfg) (hd : DistinctNames cfg) {b0 : Bridge} (hs : Bridge.start cfg p0 = .ok b0)
    {m0 : ArmingStatusReport} (hm0 : Latest p0 m0) {z0 : ZoneStatusReport}
    (hz0 : p0.zoneStatuses = .ok z0) (hu : Lively p0.conn) {line : Bytes} {early : List Message}
    (he : ∀ m ∈ early, WfMessage m ∧ ∀ r, m ≠ .zoneStatusReport r)
    (hl : p0.conn.rd.buffer ++ dataBytes p0.conn.sock.incoming ++ line = early.flatMap frame)
    {ops : Nat → QueuedOp} (hf : AllAct (Queued.start b0 line early) ops)
    (hp : ∀ n q, Queued.after (Queued.start b0 line early) ops n = .ok q → (ops n).Proper q)
    (hq : Pauses (Queued.start b0 line early) ops) :
    ∃ n, ∀ m, n ≤ m → ∃ q, Queued.after (Queued.start b0 line early) ops m = .ok q ∧
      q.out = [] ∧ q.queue = [] ∧ Quiet q.home.bridge ∧
      q.home.heard = q.home.posted.map commandBytes ∧
      Shows cfg (pubs q.sent) (lastOr (q.home.said.filterMap armingSaid) m0)
        (fun i => lastOr (q.home.said.filterMap (zoneSaid i)) z0.zones[i]) := by
  have hC : Course2 b0 line early ops := ⟨⟨_, _, _, home_start hc hv hs hd hu he hl⟩, hp, hf⟩
  have known : ∀ {n h}, Home.after (Home.start b0 line early)
      (besidesAll (Queued.start b0 line early) ops) n = .ok h →
      ∃ q, Queued.after (Queued.start b0 line early) ops n = .ok q ∧ q.home = h ∧ InOrder b0 q := by
    intro n h hn
    obtain ⟨q, g1, g3, _, _, _, g2⟩ := queued_at hC n
    rw [g2.1] at hn
    cases hn
    exact ⟨q, g1, rfl, g3⟩
  have backs : ∀ n op, besidesAll (Queued.start b0 line early) ops n = op → op ≠ .rest →
      ops n = .home op := by
    intro n op h hne
    obtain ⟨q, g1, _⟩ := queued_at hC n
    rw [apart_at g1] at h
    match ho : ops n with
    | .transmit => rw [ho] at h; exact absurd h.symm hne
    | .home (.tick cx pf) =>
      rw [ho] at h
      unfold besides at h
      dsimp only at h
      split at h
      · rw [← h]
      · exact absurd h.symm hne
    | .home .rest => rw [ho] at h; exact absurd h.symm hne
    | .home .wake => rw [ho] at h; exact congrArg _ h
    | .home (.accept n) => rw [ho] at h; exact congrArg _ h
    | .home (.deliver n) => rw [ho] at h; exact congrArg _ h
    | .home (.answer r) => rw [ho] at h; exact congrArg _ h
    | .home (.say m) => rw [ho] at h; exact congrArg _ h
    | .home (.post p c) => rw [ho] at h; exact congrArg _ h
  obtain ⟨n, log, hn⟩ := settles_for_good hc hv hm hd hs hm0 hz0 hu he hl (besides_fair hC)
    (fun n h hn => by
      obtain ⟨q, g1, g2, _⟩ := known hn
      subst g2
      rw [apart_at g1]
      exact proper_apart (hp n q g1))
    (by
      obtain ⟨n, hn⟩ := hq.silent
      refine ⟨n, fun m hm => ⟨fun msg h => ?_, fun p c h => ?_⟩⟩
      · exact (hn m hm).1 msg (backs m _ h (fun h => by cases h))
      · exact (hn m hm).2 p c (backs m _ h (fun h => by cases h)))
    (by
      intro t
      obtain ⟨n, hn⟩ := hq.clock t
      exact ⟨n, fun m hm cx pf h => hn m hm cx pf (backs m _ h (fun h => by cases h))⟩)
    (by
      intro n h pa w h1 h2 h3 h4
      obtain ⟨q, g1, g2, _⟩ := known h1
      subst g2
      obtain ⟨m, q', hm, e1, e2⟩ := hq.timers n q pa w g1 h2 h3 h4
      obtain ⟨q2, e3, _, _, _, _, e4⟩ := queued_at hC m
      rw [e1] at e3
      cases e3
      exact ⟨m, _, hm, e4.1, e2⟩)
  obtain ⟨h, h1, h2, _⟩ := hn n (Nat.le_refl _)
  obtain ⟨q, g1, rfl, g3⟩ := known h1
  obtain ⟨n', hn', q', g4, g5⟩ := all_sent hC g1
  refine ⟨n', fun m hm' => ?_⟩
  obtain ⟨h, e1, e2, e3, e4, e5⟩ := hn m (by omega)
  obtain ⟨q2, k1, rfl, k3⟩ := known e1
  have hlen := (in_order_mono (hC := hC) hm' g4 k1).2.length_le
  have htot : (q2.sent ++ q2.queue ++ q2.out).length = (q.sent ++ q.queue ++ q.out).length := by
    rw [k3.all, g3.all, e2, h2]
  rw [← htot] at g5
  simp only [List.length_append] at g5
  have ho : q2.out = [] := List.eq_nil_of_length_eq_zero (by omega)
  have hqu : q2.queue = [] := List.eq_nil_of_length_eq_zero (by omega)
  refine ⟨q2, k1, ho, hqu, e3, e4, ?_⟩
  have := in_order_pubs k3
  rw [ho, hqu, List.append_nil, List.append_nil] at this
  rw [this]
  exact e5

/-! Non-vacuity. -/

/-- Whose turn it is. -/
def queueTurn : Nat → QueuedOp
  | 0 => .home (.tick ⟨1, 0, 0⟩ false)
  | 1 => .home (.accept 3)
  | 2 => .home (.answer noted)
  | 3 => .home (.deliver 2)
  | _ => .transmit

/-- A schedule: first a command is posted, then all take turns. -/
def queueTurns : Nat → QueuedOp
  | 0 => .home (turns 0)
  | n + 1 => queueTurn (n % 5)

theorem queueTurns_at (n j : Nat) (hj : j < 5) : queueTurns (5 * n + j + 1) = queueTurn j := by
  show queueTurn ((5 * n + j) % 5) = _
  rw [show (5 * n + j) % 5 = j by omega]

theorem queueTurns_cases (n : Nat) : n = 0 ∨ ∃ k j, j < 5 ∧ n = 5 * k + j + 1 := by
  cases n with
  | zero => exact .inl rfl
  | succ n => exact .inr ⟨n / 5, n % 5, Nat.mod_lt _ (by decide), by omega⟩

theorem queueTurns_act {q0 : Queued} : AllAct q0 queueTurns := by
  refine ⟨fun w h1 h2 n => ?_, fun n => ?_, fun n => ?_, fun h n => ?_⟩
  · cases w with
    | library => exact absurd rfl h2
    | chance => exact absurd rfl h1
    | socket => exact ⟨_, _, by omega, queueTurns_at n 1 (by decide), rfl⟩
    | panel => exact ⟨_, _, by omega, queueTurns_at n 2 (by decide), rfl⟩
    | line => exact ⟨_, _, by omega, queueTurns_at n 3 (by decide), rfl⟩
  · exact ⟨_, _, _, by omega, queueTurns_at n 0 (by decide)⟩
  · exact ⟨_, by omega, queueTurns_at n 4 (by decide)⟩
  · obtain ⟨m, pf, hm, q, cx, g1, g2, g3⟩ := h n
    refine ⟨m, hm, q, cx, g1, g2, ?_⟩
    rcases queueTurns_cases m with rfl | ⟨k, j, hj, rfl⟩
    · cases g3
    · rw [queueTurns_at k j hj] at g3 ⊢
      match j, hj with
      | 0, _ => cases g3; rfl
      | 1, _ => cases g3
      | 2, _ => cases g3
      | 3, _ => cases g3
      | 4, _ => cases g3

/-- Non-vacuity: the panel hears `ARM_AWAY`, and the subscription and the rest is transmitted. -/
theorem C113_sample : ∃ b0, Bridge.start sampleCfg (samplePanel []) = .ok b0 ∧
    b0.log.length = 7 ∧ b0.subscribed = [bs "elkm1/42/area/home/ha_command"] ∧
    ∃ m q m' q', Queued.after (Queued.start b0 [] []) queueTurns m = .ok q ∧
      [bs "0Da11001234003F\r\n"] <+: q.home.heard ∧ Quiet q.home.bridge ∧
      Queued.after (Queued.start b0 [] []) queueTurns m' = .ok q' ∧
      startRequests b0 <+: q'.sent := by
  have key : holds (Bridge.start sampleCfg (samplePanel [])) (fun b => decide
      (b.inbox = [] ∧ b.waiting = .select ∧ b.panel.cmdState = .idle ∧ b.cfg = sampleCfg ∧
        b.code = ⟨#v[48, 48, 49, 50, 51, 52]⟩ ∧ b.log.length = 7 ∧
        b.subscribed = [bs "elkm1/42/area/home/ha_command"])) = true := by decide +kernel
  obtain ⟨b0, h1, h2⟩ := of_holds key
  simp only [decide_eq_true_eq] at h2
  refine ⟨b0, h1, h2.2.2.2.2.2.1, h2.2.2.2.2.2.2, ?_⟩
  obtain ⟨q, h3, _, _, _, _, _, m, q', _, h4, h5, _, h6, m', q'', _, h7, h8⟩ := C113_queue
    (samplePanel_connected []) (samplePanel_view []) h1 sampleCfg_distinct
    (show Lively (samplePanel []).conn from ⟨rfl, rfl, (fun _ h => by cases h), (fun _ h => by cases h)⟩)
    (line := []) (early := []) (fun _ h => by cases h) rfl queueTurns_act (by
      intro n q hn
      rcases queueTurns_cases n with rfl | ⟨k, j, hj, rfl⟩
      · cases hn
        refine ⟨⟨h2.1, h2.2.1, h2.2.2.1⟩, ?_⟩
        show Asks b0.cfg b0.code _ _
        rw [h2.2.2.2.1, h2.2.2.2.2.1]
        exact .arm (1, ⟨bs "home"⟩) .armedAway (by decide) (by decide +kernel) .away
      · rw [queueTurns_at k j hj]
        match j, hj with
        | 0, _ => exact trivial
        | 1, _ => exact trivial
        | 2, _ => exact ⟨by decide, by decide⟩
        | 3, _ => exact trivial
        | 4, _ => exact trivial) 1
  refine ⟨m, q', m', q'', h4, ?_, h6, h7, ?_⟩
  · have hp : q.home.posted = [.arm ⟨⟨1⟩, .armedAway, ⟨#v[48, 48, 49, 50, 51, 52]⟩⟩] := by
      have h3 : (Queued.start b0 [] []).step (queueTurns 0) = .ok q := h3
      cases h3
      rfl
    rw [hp] at h5
    exact (by decide +kernel : [bs "0Da11001234003F\r\n"] =
      List.map commandBytes [.arm ⟨⟨1⟩, .armedAway, ⟨#v[48, 48, 49, 50, 51, 52]⟩⟩]) ▸ h5
  · obtain ⟨t, ht⟩ := h8
    exact ⟨_, by rw [← ht]; unfold requests; rw [List.append_assoc]⟩

end Elk.Props
