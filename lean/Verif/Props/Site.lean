import Verif.Lemmas.Site
/-!
# `connect` completes under every fair schedule (C101)
-/

namespace Elk.Props
open Elk.Spec

/-! ## The past -/

/-- What has been observed comes from a history of `connect`, and the descriptions in it are the
panel's. -/
structure Past (S : Server) (s : Site) : Prop where
  run : ∃ ops, Init.connect {} ops = .ok (s.seen, s.phase)
  obedient : Obedient S s.seen

theorem connect_snoc {ops : List InitOp} {seen : List Obs} {i : Init} {op o ph}
    (h : Init.connect {} ops = .ok (seen, .asking i)) (hs : i.step op = .ok (o, ph)) :
    Init.connect {} (ops ++ [op]) = .ok (seen ++ [o], ph) := by
  rw [connect_run] at *
  exact run_append h (run_step hs rfl)

theorem obedient_snoc {S : Server} {seen : List Obs} {o : Obs} (h : Obedient S seen)
    (ho : ∀ ev q r, o = .got ev → (questions seen).getLast? = some (.stringDescriptionRequest q) →
      ev.msg = some (.ok (.stringDescriptionResponse r)) →
      Responds (.stringDescriptionResponse r) (.stringDescriptionRequest q) → S.Answers q r) :
    Obedient S (seen ++ [o]) := by
  intro a ev b q r hab hq hm hr
  rcases List.append_eq_append_iff.mp hab with ⟨u, h1, h2⟩ | ⟨u, h1, h2⟩
  · cases u with
    | nil =>
      rw [List.append_nil] at h1
      subst h1
      cases h2
      exact ho ev q r rfl hq hm hr
    | cons x u =>
      exact absurd (congrArg List.length h2) (by simp)
  · cases u with
    | nil =>
      rw [List.append_nil] at h1
      subst h1
      cases h2
      exact ho ev q r rfl hq hm hr
    | cons x u =>
      cases h2
      exact h a ev u q r h1 hq hm hr

/-! ## The invariant -/

/-- A request for a description. -/
def asksName : Message → Bool
  | .stringDescriptionRequest _ => true
  | _ => false

/-- A description. -/
def tellsName : Message → Bool
  | .stringDescriptionResponse _ => true
  | _ => false

/-- The question has been handed to the connection. -/
def Awaiting (i : Init) : Prop := i.await = .flush ∨ i.await = .reply

/-- The requests for descriptions, and descriptions, that are under way: at most the one that is
awaited. -/
inductive Owed (S : Server) (i : Init) (reqs msgs : List Message) : Prop
  | nothing : reqs.filter asksName = [] → msgs.filter tellsName = [] → Owed S i reqs msgs
  | asked (d) : Awaiting i → i.send = .stringDescriptionRequest d →
      reqs.filter asksName = [i.send] → msgs.filter tellsName = [] → Owed S i reqs msgs
  | told (d r) : Awaiting i → i.send = .stringDescriptionRequest d → reqs.filter asksName = [] →
      msgs.filter tellsName = [.stringDescriptionResponse r] → S.Answers d r →
      Responds (.stringDescriptionResponse r) i.send → r.num.toNat ≤ entries r.ty →
      Owed S i reqs msgs

/-- A request for the statuses of the zones. -/
def asksZones : Message → Bool
  | .zoneStatusRequest => true
  | _ => false

/-- A report of the statuses of all zones. -/
def tellsZones : Message → Bool
  | .zoneStatusReport _ => true
  | _ => false

/-- The requests for zone statuses, and reports of them, that are under way: at most the one that is
awaited. -/
inductive ZonesOwed (i : Init) (reqs msgs : List Message) : Prop
  | nothing : reqs.filter asksZones = [] → msgs.filter tellsZones = [] → ZonesOwed i reqs msgs
  | one : Awaiting i → i.send = .zoneStatusRequest →
      (reqs.filter asksZones).length + (msgs.filter tellsZones).length ≤ 1 → ZonesOwed i reqs msgs

/-- The books: what has been said was heard or is under way, the question that is awaited is the
last one, and a panel that reports the zones only when asked has at most one such report under way. -/
structure Ledger (s : Site) (i : Init) (reqs msgs : List Message) : Prop where
  said : heard s.seen ++ msgs = s.said
  tail : Awaiting i → ∀ q, reqs.getLast? = some q → q = i.send
  zones : s.own.filter tellsZones = [] → ZonesOwed i reqs msgs

/-- What is known of library, line and panel while the library waits: `reqs` are the requests under
way to the panel, `msgs` the messages under way to the library. -/
structure SiteInv (S : Server) (s : Site) (i : Init) (reqs msgs : List Message) : Prop where
  phase : s.phase = .asking i
  good : InitGood i
  sound : Sound i.panel.conn.rd
  data : OnlyData i.panel.conn.sock.incoming
  takes : OnlyTakes i.panel.conn.sock.writes
  told : i.panel.conn.rd.buffer ++ dataOf i.panel.conn.sock.incoming ++ s.line = msgs.flatMap frame
  asked : i.panel.conn.sock.sent.drop s.taken ++ i.panel.conn.wbuf = reqs.flatMap frame
  taken : s.taken ≤ i.panel.conn.sock.sent.length
  wf : ∀ m ∈ msgs, WfMessage m
  questions : ∀ q ∈ reqs, IsQuestion q
  owed : Owed S i reqs msgs
  coming : Awaiting i → i.send ∈ reqs ∨ ∃ m ∈ msgs, Responds m i.send
  last : Awaiting i → (Elk.Spec.questions s.seen).getLast? = some i.send
  asleep : ∀ w, s.asleep = some w →
    (i.await = .flush ∧ i.panel.conn.wbuf ≠ [] ∧ i.panel.conn.sock.writes = [] ∧
      i.panel.conn.sock.writeWaker = some w) ∨
    (i.await = .reply ∧ i.panel.conn.sock.readWaker = some w ∧ ∀ m t, msgs = m :: t →
      (i.panel.conn.rd.buffer ++ dataOf i.panel.conn.sock.incoming).length < (frame m).length)
  ledger : Ledger s i reqs msgs

/-- What is known when `connect` has finished: `msgs` are the messages still under way. -/
structure SiteDone (s : Site) (p : Panel) (msgs : List Message) : Prop where
  phase : s.phase = .finished (.ok p)
  sound : Sound p.conn.rd
  data : OnlyData p.conn.sock.incoming
  takes : OnlyTakes p.conn.sock.writes
  told : p.conn.rd.buffer ++ dataOf p.conn.sock.incoming ++ s.line = msgs.flatMap frame
  taken : s.taken = p.conn.sock.sent.length
  wf : ∀ m ∈ msgs, WfMessage m
  said : heard s.seen ++ msgs = s.said
  zones : s.own.filter tellsZones = [] → msgs.filter tellsZones = []

/-- The messages before the first reply. -/
def before (i : Init) (msgs : List Message) : Nat :=
  (msgs.takeWhile fun m => !m.isResponseTo i.send).length

/-- The number of bytes that have to arrive before the first reply is complete. -/
def lacking (i : Init) (msgs : List Message) : Nat :=
  ((msgs.take (before i msgs + 1)).flatMap frame).length -
    (i.panel.conn.rd.buffer ++ dataOf i.panel.conn.sock.incoming).length

/-- How far it is to the end. -/
def rank (i : Init) (reqs msgs : List Message) : Nat × Nat × Nat :=
  match i.await with
  | .ready _ => ((remaining i.send).length, 3, 0)
  | .flush => ((remaining i.send).length, 2,
      2 * i.panel.conn.wbuf.length + if i.panel.conn.sock.writes = [] then 1 else 0)
  | .reply =>
    if msgs.any fun m => m.isResponseTo i.send then
      ((remaining i.send).length, 0, lacking i msgs + before i msgs)
    else ((remaining i.send).length, 1, reqs.length)

/-- Who can bring it nearer. -/
def helper (i : Init) (msgs : List Message) : Who :=
  match i.await with
  | .ready _ => .library
  | .flush =>
    if i.panel.conn.wbuf = [] ∨ i.panel.conn.sock.writes ≠ [] then .library else .socket
  | .reply =>
    if msgs.any fun m => m.isResponseTo i.send then
      if lacking i msgs = 0 then .library else .line
    else .panel

/-- Nearer. -/
def Nearer (a b : Nat × Nat × Nat) : Prop := Prod.Lex (· < ·) (Prod.Lex (· < ·) (· < ·)) a b

theorem nearer_wf : WellFounded Nearer :=
  (Prod.lex Nat.lt_wfRel (Prod.lex Nat.lt_wfRel Nat.lt_wfRel)).wf

theorem nearer_first {a b : Nat × Nat × Nat} (h : a.1 < b.1) : Nearer a b := .left _ _ h

theorem rank_first (i : Init) (reqs msgs : List Message) :
    (rank i reqs msgs).1 = (remaining i.send).length := by
  unfold rank
  split
  · rfl
  · rfl
  · split <;> rfl

theorem nearer_second {a b b' c c' : Nat} (h : b < b') : Nearer (a, b, c) (a, b', c') :=
  .right _ (.left _ _ h)

theorem nearer_third {a b c c' : Nat} (h : c < c') : Nearer (a, b, c) (a, b, c') :=
  .right _ (.right _ h)

/-- What one thing that happens does to the distance. -/
def Brings (w : Who) (i : Init) (reqs msgs : List Message) (i' : Init) (reqs' msgs' : List Message) :
    Prop :=
  Nearer (rank i' reqs' msgs') (rank i reqs msgs) ∨
  (rank i' reqs' msgs' = rank i reqs msgs ∧ helper i' msgs' = helper i msgs ∧ w ≠ helper i msgs)

/-! ## More messages -/

theorem before_lt {i : Init} {msgs : List Message}
    (h : (msgs.any fun m => m.isResponseTo i.send) = true) : before i msgs < msgs.length := by
  unfold before
  induction msgs with
  | nil => cases h
  | cons m t ih =>
    rw [List.takeWhile_cons]
    rw [List.any_cons, Bool.or_eq_true] at h
    cases hm : m.isResponseTo i.send with
    | true => simp
    | false =>
      rw [hm] at h
      have := ih (h.resolve_left (by simp))
      simp
      exact this

theorem before_append {i : Init} {msgs more : List Message}
    (h : (msgs.any fun m => m.isResponseTo i.send) = true) :
    before i (msgs ++ more) = before i msgs := by
  unfold before
  induction msgs with
  | nil => cases h
  | cons m t ih =>
    rw [List.cons_append, List.takeWhile_cons, List.takeWhile_cons]
    rw [List.any_cons, Bool.or_eq_true] at h
    cases hm : m.isResponseTo i.send with
    | true => rfl
    | false =>
      rw [hm] at h
      have := ih (h.resolve_left (by simp))
      simp only [Bool.not_false, if_true, List.length_cons, this]

theorem lacking_append {i : Init} {msgs more : List Message}
    (h : (msgs.any fun m => m.isResponseTo i.send) = true) :
    lacking i (msgs ++ more) = lacking i msgs := by
  unfold lacking
  rw [before_append h, List.take_append_of_le_length (before_lt h)]

/-- Messages that come later do not matter once there is a reply. -/
theorem brings_more {w : Who} {i : Init} {reqs msgs reqs' more : List Message}
    (hw : w ≠ .library ∧ w ≠ .socket ∧ w ≠ .line)
    (h : i.await = .reply → (msgs.any fun m => m.isResponseTo i.send) = false →
      (more.any fun m => m.isResponseTo i.send) = false →
      reqs'.length < reqs.length ∨ (reqs' = reqs ∧ w ≠ .panel)) :
    Brings w i reqs msgs i reqs' (msgs ++ more) := by
  unfold Brings rank helper
  match ha : i.await with
  | .ready _ => exact .inr ⟨rfl, rfl, hw.1⟩
  | .flush =>
    refine .inr ⟨rfl, rfl, ?_⟩
    dsimp only
    split
    · exact hw.1
    · exact hw.2.1
  | .reply =>
    dsimp only
    cases hm : msgs.any fun m => m.isResponseTo i.send with
    | true =>
      rw [List.any_append, hm, Bool.true_or, lacking_append hm, before_append hm]
      refine .inr ⟨rfl, rfl, ?_⟩
      rw [if_pos rfl]
      split
      · exact hw.1
      · exact hw.2.2
    | false =>
      rw [List.any_append, hm, Bool.false_or]
      cases hm' : more.any fun m => m.isResponseTo i.send with
      | true => exact .inl (nearer_second (by decide))
      | false =>
        rcases h ha hm hm' with h | ⟨h, h'⟩
        · exact .inl (nearer_third h)
        · exact .inr ⟨by simp [h], by simp, by simpa using h'⟩

/-! ## The books -/

theorem heard_snoc (seen : List Obs) (o : Obs) : heard (seen ++ [o]) = heard seen ++ heard [o] := by
  unfold heard gotten
  rw [List.filterMap_append, List.filterMap_append]

/-- The library does something other than reading a message. -/
theorem ledger_same {s s' : Site} {i i' : Init} {reqs msgs : List Message} {o : Obs}
    (h : Ledger s i reqs msgs) (hs : s'.seen = s.seen ++ [o]) (ho : heard [o] = [])
    (h1 : s'.said = s.said) (h2 : s'.own = s.own) (hi : i'.send = i.send)
    (ha : Awaiting i' ↔ Awaiting i) : Ledger s' i' reqs msgs := by
  refine ⟨?_, fun a q hq => hi ▸ h.tail (ha.mp a) q hq, fun hz => ?_⟩
  · rw [hs, heard_snoc, ho, List.append_nil, h1]; exact h.said
  · rw [h2] at hz
    cases h.zones hz with
    | nothing h1 h2 => exact .nothing h1 h2
    | one h1 h2 h3 => exact .one (ha.mpr h1) (hi.trans h2) h3

theorem zones_tail {m : Message} {t : List Message} (h : (m :: t).filter tellsZones = []) :
    t.filter tellsZones = [] := by
  rw [List.filter_cons] at h
  split at h
  · cases h
  · exact h

/-! ## One thing happens -/

/-- What is known after one thing has happened. -/
def Next (S : Server) (w : Who) (i : Init) (reqs msgs : List Message) (s' : Site) : Prop :=
  Past S s' ∧ ((∃ p rest, SiteDone s' p rest) ∨
    ∃ i' reqs' msgs', SiteInv S s' i' reqs' msgs' ∧ Brings w i reqs msgs i' reqs' msgs')

theorem library_ok {s : Site} {i : Init} {op o ph} (h : s.phase = .asking i)
    (hs : i.step op = .ok (o, ph)) : s.library op =
      .ok { s with phase := ph, seen := s.seen ++ [o], asleep := sleeps s.asleep op o } := by
  unfold Site.library
  rw [h]
  dsimp only
  rw [hs]

theorem nothing_read {S : Server} {s : Site} {i : Init} {reqs : List Message}
    (h : SiteInv S s i reqs []) :
    (i.panel.conn.rd.buffer ++ dataOf i.panel.conn.sock.incoming).length = 0 := by
  have := congrArg List.length h.told
  simp only [List.length_append, List.flatMap_nil, List.length_nil] at this ⊢
  omega

/-- The panel says something that is no description. -/
theorem step_say {S : Server} {s : Site} {i : Init} {reqs msgs : List Message} {m : Message}
    (h : SiteInv S s i reqs msgs) (hp : Past S s) (hm : WfMessage m)
    (hn : ∀ r, m ≠ .stringDescriptionResponse r) :
    Next S .chance i reqs msgs { s with
      line := s.line ++ frame m, said := s.said ++ [m], own := s.own ++ [m] } := by
  have ht : [m].filter tellsName = [] := by
    cases m with
    | stringDescriptionResponse r => exact absurd rfl (hn r)
    | _ => rfl
  have hf : (msgs ++ [m]).filter tellsName = msgs.filter tellsName := by
    rw [List.filter_append, ht, List.append_nil]
  refine ⟨⟨hp.run, hp.obedient⟩, .inr ⟨i, reqs, msgs ++ [m], ⟨h.phase, h.good, h.sound, h.data,
    h.takes, ?_, h.asked, h.taken, ?_, h.questions, ?_, ?_, h.last, ?_, ?_⟩, brings_more
      ⟨by decide, by decide, by decide⟩ fun _ _ _ => .inr ⟨rfl, by decide⟩⟩⟩
  · rw [List.flatMap_append, ← h.told]; simp
  · intro x hx
    rcases List.mem_append.mp hx with hx | hx
    · exact h.wf x hx
    · rw [List.mem_singleton.mp hx]; exact hm
  · cases h.owed with
    | nothing h1 h2 => exact .nothing h1 (hf.trans h2)
    | asked d h1 h2 h3 h4 => exact .asked d h1 h2 h3 (hf.trans h4)
    | told d r h1 h2 h3 h4 h5 h6 h7 => exact .told d r h1 h2 h3 (hf.trans h4) h5 h6 h7
  · intro ha
    rcases h.coming ha with h1 | ⟨x, h1, h2⟩
    · exact .inl h1
    · exact .inr ⟨x, List.mem_append_left _ h1, h2⟩
  · intro w hw
    rcases h.asleep w hw with h1 | ⟨h1, h2, h3⟩
    · exact .inl h1
    · refine .inr ⟨h1, h2, fun m' t hmt => ?_⟩
      cases msgs with
      | nil =>
        have := frame_length m'
        rw [nothing_read h]
        omega
      | cons x msgs => cases hmt; exact h3 _ _ rfl
  · refine ⟨?_, h.ledger.tail, fun hz => ?_⟩
    · show _ ++ (msgs ++ [m]) = s.said ++ [m]
      rw [← h.ledger.said, List.append_assoc]
    · have hz : (s.own ++ [m]).filter tellsZones = [] := hz
      rw [List.filter_append] at hz
      obtain ⟨z1, z2⟩ := List.append_eq_nil_iff.mp hz
      have e : (msgs ++ [m]).filter tellsZones = msgs.filter tellsZones := by
        rw [List.filter_append, z2, List.append_nil]
      cases h.ledger.zones z1 with
      | nothing h1 h2 => exact .nothing h1 (e.trans h2)
      | one h1 h2 h3 => exact .one h1 h2 (e ▸ h3)

theorem step_accept {S : Server} {s : Site} {i : Init} {reqs msgs : List Message} {n : Nat}
    (h : SiteInv S s i reqs msgs) (hp : Past S s) :
    ∃ s', s.step S (.accept n) = .ok s' ∧ Next S .socket i reqs msgs s' := by
  have hst : i.step (.writable (.accept (n + 1))) = .ok (.env i.panel.conn.sock.writeWaker.toList,
      .asking { i with panel := { i.panel with
        conn := (i.panel.conn.writable (.accept (n + 1))).2 } }) := rfl
  refine ⟨_, library_ok h.phase hst, ⟨?_, ?_⟩, .inr ⟨_, reqs, msgs, ⟨rfl, ?_, h.sound, h.data, ?_, h.told, h.asked, h.taken,
      h.wf, h.questions, ?_, h.coming, ?_, ?_,
      ledger_same h.ledger rfl rfl rfl rfl rfl Iff.rfl⟩, ?_⟩⟩
  · obtain ⟨ops, hr⟩ := hp.run
    rw [h.phase] at hr
    exact ⟨_, connect_snoc hr hst⟩
  · exact obedient_snoc hp.obedient (by intro ev q r he; cases he)
  · exact init_good h.good (.writable _)
  · intro w hw
    rcases List.mem_append.mp hw with hw | hw
    · exact h.takes w hw
    · exact ⟨n, List.mem_singleton.mp hw⟩
  · cases h.owed with
    | nothing h1 h2 => exact .nothing h1 h2
    | asked d h1 h2 h3 h4 => exact .asked d h1 h2 h3 h4
    | told d r h1 h2 h3 h4 h5 h6 h7 => exact .told d r h1 h2 h3 h4 h5 h6 h7
  · intro ha
    have := h.last ha
    unfold Elk.Spec.questions at *
    rw [List.filterMap_append]
    simpa using this
  · intro w hw
    have hw : (if s.asleep.any fun w => i.panel.conn.sock.writeWaker.toList.contains w then none
      else s.asleep) = some w := hw
    split at hw
    · cases hw
    · rename_i hno
      rcases h.asleep w hw with ⟨_, _, _, h1⟩ | h1
      · rw [hw, h1] at hno
        simp at hno
      · exact .inr h1
  · unfold Brings rank helper
    match ha : i.await with
    | .ready _ => exact .inr ⟨rfl, rfl, by dsimp only; decide⟩
    | .flush =>
      dsimp only
      have hne : (i.panel.conn.writable (.accept (n + 1))).2.sock.writes ≠ [] := by
        show i.panel.conn.sock.writes ++ [_] ≠ []
        simp
      have hwb : (i.panel.conn.writable (.accept (n + 1))).2.wbuf = i.panel.conn.wbuf := rfl
      by_cases hw : i.panel.conn.sock.writes = []
      · refine .inl (nearer_third ?_)
        rw [if_neg hne, if_pos hw]
        exact Nat.lt_succ_self _
      · refine .inr ⟨?_, ?_, ?_⟩
        · rw [if_neg hne, if_neg hw, hwb]
        · rw [if_pos (Or.inr hne), if_pos (Or.inr hw)]
        · rw [if_pos (Or.inr hw)]; decide
    | .reply =>
      refine .inr ⟨rfl, rfl, ?_⟩
      dsimp only
      split
      · split
        · decide
        · decide
      · decide

theorem data_snoc (q : List ReadItem) (b : Bytes) : dataOf (q ++ [.data b]) = dataOf q ++ b := by
  rw [dataOf_eq, dataOf_eq]
  unfold dataBytes
  simp

theorem step_deliver {S : Server} {s : Site} {i : Init} {reqs msgs : List Message} {n : Nat}
    (h : SiteInv S s i reqs msgs) (hp : Past S s) :
    ∃ s', s.step S (.deliver n) = .ok s' ∧ Next S .line i reqs msgs s' := by
  by_cases hl : s.line = []
  · refine ⟨s, if_pos hl, hp, .inr ⟨i, reqs, msgs, h, .inr ⟨rfl, rfl, ?_⟩⟩⟩
    have ht := h.told
    rw [hl, List.append_nil] at ht
    have : lacking i msgs = 0 := by
      unfold lacking
      rw [ht]
      have : (msgs.take (before i msgs + 1)).flatMap frame <+: msgs.flatMap frame := by
        conv => rhs; rw [← List.take_append_drop (before i msgs + 1) msgs, List.flatMap_append]
        exact List.prefix_append _ _
      have := this.length_le
      omega
    unfold helper
    match ha : i.await with
    | .ready _ => dsimp only; decide
    | .flush => dsimp only; split <;> decide
    | .reply =>
      dsimp only
      rw [if_pos this]
      split <;> decide
  · have hst : i.step (.arrive (.data (s.line.take (n + 1)))) =
        .ok (.env i.panel.conn.sock.readWaker.toList, .asking { i with panel := { i.panel with
          conn := (i.panel.conn.arrive (.data (s.line.take (n + 1)))).2 } }) := rfl
    have hd : dataOf (i.panel.conn.sock.incoming ++ [.data (s.line.take (n + 1))]) =
        dataOf i.panel.conn.sock.incoming ++ s.line.take (n + 1) := data_snoc _ _
    have hpos : 0 < (s.line.take (n + 1)).length := by
      have := List.length_pos_iff.mpr hl
      rw [List.length_take]
      omega
    refine ⟨_, (if_neg hl).trans (library_ok h.phase hst), ⟨?_, ?_⟩, .inr ⟨_, reqs, msgs, ⟨rfl, ?_, h.sound, ?_, h.takes, ?_, h.asked, h.taken,
        h.wf, h.questions, ?_, h.coming, ?_, ?_,
      ledger_same h.ledger rfl rfl rfl rfl rfl Iff.rfl⟩, ?_⟩⟩
    · obtain ⟨ops, hr⟩ := hp.run
      rw [h.phase] at hr
      exact ⟨_, connect_snoc hr hst⟩
    · exact obedient_snoc hp.obedient (by intro ev q r he; cases he)
    · exact init_good h.good (.arrive _)
    · intro w hw
      rcases List.mem_append.mp hw with hw | hw
      · exact h.data w hw
      · exact ⟨_, List.mem_singleton.mp hw, List.length_pos_iff.mp hpos⟩
    · show i.panel.conn.rd.buffer ++ dataOf (i.panel.conn.sock.incoming ++ _) ++ _ = _
      rw [hd, ← h.told]
      simp
    · cases h.owed with
      | nothing h1 h2 => exact .nothing h1 h2
      | asked d h1 h2 h3 h4 => exact .asked d h1 h2 h3 h4
      | told d r h1 h2 h3 h4 h5 h6 h7 => exact .told d r h1 h2 h3 h4 h5 h6 h7
    · intro ha
      have := h.last ha
      unfold Elk.Spec.questions at *
      rw [List.filterMap_append]
      simpa using this
    · intro w hw
      have hw : (if s.asleep.any fun w => i.panel.conn.sock.readWaker.toList.contains w then none
        else s.asleep) = some w := hw
      split at hw
      · cases hw
      · rename_i hno
        rcases h.asleep w hw with h1 | ⟨_, h1, _⟩
        · exact .inl h1
        · rw [hw, h1] at hno
          simp at hno
    · have hlack : ∀ a, lacking { i with panel := { i.panel with
          conn := (i.panel.conn.arrive (.data (s.line.take (n + 1)))).2 }, await := a } msgs =
          lacking i msgs - (s.line.take (n + 1)).length := by
        intro a
        show _ - (i.panel.conn.rd.buffer ++ dataOf (i.panel.conn.sock.incoming ++ _)).length = _
        rw [hd]
        unfold lacking
        rw [← List.append_assoc, List.length_append, Nat.sub_add_eq]
        rfl
      unfold Brings rank helper
      match ha : i.await with
      | .ready _ => exact .inr ⟨rfl, rfl, by dsimp only; decide⟩
      | .flush =>
        refine .inr ⟨rfl, rfl, ?_⟩
        dsimp only
        split <;> decide
      | .reply =>
        dsimp only at hlack ⊢
        rw [hlack]
        cases hm : msgs.any fun m => m.isResponseTo i.send with
        | false => exact .inr ⟨by simp, by simp, by simp⟩
        | true =>
          rw [if_pos rfl, if_pos rfl, if_pos rfl, if_pos rfl]
          by_cases h0 : lacking i msgs = 0
          · rw [h0, Nat.zero_sub]
            exact .inr ⟨rfl, rfl, by decide⟩
          · refine .inl (nearer_third ?_)
            show _ + before i msgs < _
            omega

theorem step_answer {S : Server} {s : Site} {i : Init} {reqs msgs : List Message} {A Z}
    (hS : Sendable S Z) (h : SiteInv S s i reqs msgs) (hp : Past S s) :
    Next S .panel i reqs msgs (s.answer S A Z) := by
  cases hn : nextRequest (i.panel.conn.sock.sent.drop s.taken) with
  | none =>
    have hs : s.answer S A Z = s := by
      unfold Site.answer
      rw [h.phase]
      dsimp only
      rw [hn]
    rw [hs]
    refine ⟨hp, .inr ⟨i, reqs, msgs, h, .inr ⟨rfl, rfl, ?_⟩⟩⟩
    unfold helper
    match ha : i.await with
    | .ready _ => dsimp only; decide
    | .flush => dsimp only; split <;> decide
    | .reply =>
      dsimp only
      have hany : (msgs.any fun m => m.isResponseTo i.send) = true := by
        rcases h.coming (.inr ha) with h1 | ⟨m, h1, h2⟩
        · have hasked := h.asked
          rw [h.good.reply ha, List.append_nil] at hasked
          cases reqs with
          | nil => cases h1
          | cons q t =>
            obtain ⟨q', hq⟩ := nextRequest_found (h.questions q (List.mem_cons_self ..)) hasked
            rw [hn] at hq
            cases hq
        · exact List.any_eq_true.mpr ⟨m, h1, (C23_responds _ _).mpr h2⟩
      rw [if_pos hany]
      split <;> decide
  | some q =>
    obtain ⟨t, rfl, h1, h2⟩ := nextRequest_some h.questions h.asked hn
    have hs : s.answer S A Z = { s with
        taken := s.taken + (frame q).length, line := s.line ++ frame (S.answer A Z q),
        said := s.said ++ [S.answer A Z q] } := by
      unfold Site.answer
      rw [h.phase]
      dsimp only
      rw [hn]
    rw [hs]
    have hq := h.questions q (List.mem_cons_self ..)
    obtain ⟨hwf, hresp, hfit, hans⟩ := answer_ok (A := A) hS hq
    have hlen : (frame q).length ≤ i.panel.conn.sock.sent.length - s.taken := by
      rw [List.length_drop] at h2; exact h2
    refine ⟨⟨hp.run, hp.obedient⟩, .inr ⟨i, t, msgs ++ [S.answer A Z q], ⟨h.phase, h.good, h.sound,
      h.data, h.takes, ?_, ?_, ?_, ?_, fun x hx => h.questions x (List.mem_cons_of_mem _ hx), ?_, ?_,
      h.last, ?_, ?_⟩, brings_more ⟨by decide, by decide, by decide⟩ fun _ _ _ => .inl
        (Nat.lt_succ_self _)⟩⟩
    · rw [List.flatMap_append, ← h.told]; simp
    · rw [← h1, List.drop_drop]
    · have := h.taken
      show s.taken + _ ≤ _
      omega
    · intro x hx
      rcases List.mem_append.mp hx with hx | hx
      · exact h.wf x hx
      · rw [List.mem_singleton.mp hx]; exact hwf
    · cases hq' : asksName q with
      | false =>
        have e1 : (q :: t).filter asksName = t.filter asksName := by
          rw [List.filter_cons, hq']; rfl
        have e2 : (msgs ++ [S.answer A Z q]).filter tellsName = msgs.filter tellsName := by
          rw [List.filter_append]
          have : [S.answer A Z q].filter tellsName = [] := by
            match q, hq, hq' with
            | .armingStatusRequest, _, _ => rfl
            | .zoneStatusRequest, _, _ => rfl
          rw [this, List.append_nil]
        cases h.owed with
        | nothing h1 h2 => exact .nothing (e1 ▸ h1) (e2.trans h2)
        | asked d h1 h2 h3 h4 => exact .asked d h1 h2 (e1 ▸ h3) (e2.trans h4)
        | told d r h1 h2 h3 h4 h5 h6 h7 => exact .told d r h1 h2 (e1 ▸ h3) (e2.trans h4) h5 h6 h7
      | true =>
        have e1 : (q :: t).filter asksName = q :: t.filter asksName := by
          rw [List.filter_cons, hq']; rfl
        cases h.owed with
        | nothing h1 h2 => rw [e1] at h1; cases h1
        | told d r h1 h2 h3 h4 h5 h6 h7 => rw [e1] at h3; cases h3
        | asked d g1 g2 h3 h4 =>
          rw [e1] at h3
          obtain ⟨h5, h6⟩ := List.cons.inj h3
          rw [g2] at h5
          subst h5
          obtain ⟨r, hr, hS', hle, _, hr'⟩ := answer_describes S A Z d hq
          refine .told d r g1 g2 h6 ?_ hS' (g2 ▸ hr') ?_
          · rw [List.filter_append, h4, hr]; rfl
          · exact hfit r hr
    · intro ha
      rcases h.coming ha with h3 | ⟨x, h3, h4⟩
      · rcases List.mem_cons.mp h3 with h3 | h3
        · exact .inr ⟨_, List.mem_append_right _ (List.mem_singleton.mpr rfl), h3 ▸ hresp⟩
        · exact .inl h3
      · exact .inr ⟨x, List.mem_append_left _ h3, h4⟩
    · intro w hw
      rcases h.asleep w hw with h1 | ⟨h1, h2, h3⟩
      · exact .inl h1
      · refine .inr ⟨h1, h2, fun m' t hmt => ?_⟩
        cases msgs with
        | nil =>
          have := frame_length m'
          rw [nothing_read h]
          omega
        | cons x msgs => cases hmt; exact h3 _ _ rfl
    · refine ⟨?_, fun ha x hx => h.ledger.tail ha x ?_, fun hz => ?_⟩
      · show _ ++ (msgs ++ [_]) = s.said ++ [_]
        rw [← h.ledger.said, List.append_assoc]
      · cases t with
        | nil => cases hx
        | cons y t => rw [List.getLast?_cons_cons]; exact hx
      · have hzo := h.ledger.zones hz
        cases hq' : asksZones q with
        | false =>
          have e1 : (q :: t).filter asksZones = t.filter asksZones := by
            rw [List.filter_cons, hq']; rfl
          have e2 : [S.answer A Z q].filter tellsZones = [] := by
            match q, hq, hq' with
            | .armingStatusRequest, _, _ => rfl
            | .stringDescriptionRequest d, hq, _ =>
              obtain ⟨r, hr, _⟩ := answer_describes S A Z d hq
              rw [hr]; rfl
          have e3 : (msgs ++ [S.answer A Z q]).filter tellsZones = msgs.filter tellsZones := by
            rw [List.filter_append, e2, List.append_nil]
          cases hzo with
          | nothing h1 h2 => exact .nothing (e1 ▸ h1) (e3.trans h2)
          | one h1 h2 h3 => exact .one h1 h2 (by rw [e3, ← e1]; exact h3)
        | true =>
          have e1 : (q :: t).filter asksZones = q :: t.filter asksZones := by
            rw [List.filter_cons, hq']; rfl
          cases hzo with
          | nothing h1 h2 => rw [e1] at h1; cases h1
          | one h1 h2 h3 =>
            refine .one h1 h2 ?_
            have := List.length_filter_le tellsZones [S.answer A Z q]
            rw [List.length_singleton] at this
            rw [e1, List.length_cons] at h3
            rw [List.filter_append, List.length_append]
            omega

/-! ## The library is polled -/

theorem no_question {seen : List Obs} {o : Obs} (h : Elk.Spec.questions [o] = []) :
    Elk.Spec.questions (seen ++ [o]) = Elk.Spec.questions seen := by
  unfold Elk.Spec.questions at *
  rw [List.filterMap_append, h, List.append_nil]

theorem lacking_pos {i : Init} {m : Message} {t : List Message}
    (h : (i.panel.conn.rd.buffer ++ dataOf i.panel.conn.sock.incoming).length < (frame m).length) :
    lacking i (m :: t) ≠ 0 := by
  unfold lacking
  rw [List.take_succ_cons, List.flatMap_cons, List.length_append]
  omega

/-- Nobody but the library can help while it sleeps. -/
theorem helper_asleep {S : Server} {s : Site} {i : Init} {reqs msgs : List Message} {w : Waker}
    (h : SiteInv S s i reqs msgs) (hw : s.asleep = some w) : .library ≠ helper i msgs := by
  unfold helper
  rcases h.asleep w hw with ⟨h1, h2, h3, _⟩ | ⟨h1, _, h3⟩
  · rw [h1]
    dsimp only
    rw [if_neg (fun h => h.elim h2 fun h => h h3)]
    decide
  · rw [h1]
    dsimp only
    split
    · cases msgs with
      | nil => rename_i h; cases h
      | cons m t =>
        rw [if_neg (lacking_pos (h3 m t rfl))]
        decide
    · decide

/-- The future hands its question to the connection. -/
theorem step_ask {S : Server} {s : Site} {i : Init} {reqs msgs : List Message} {cx : Cx} {pkt}
    (h : SiteInv S s i reqs msgs) (hp : Past S s) (ha : i.await = .ready pkt) :
    ∃ s', s.library (.tick cx) = .ok s' ∧ Next S .library i reqs msgs s' := by
  have hq : IsQuestion i.send := by rw [h.good.send]; exact stageQ_question h.good.stage
  have hno : ¬ Awaiting i := by
    rintro (h | h) <;> rw [ha] at h <;> cases h
  have hw := (h.good.ready pkt ha).2
  rcases tick_cases h.good cx with ⟨⟨o, ph⟩, h1, h2⟩ | ⟨_, c, _, _, _, h1, _⟩
  · have h1 : i.step (.tick cx) = .ok (o, ph) := h1
    cases h2 with
    | ask _ _ =>
      have hgood := tick_good h.good (cx := cx) (.ask (by
        rw [ha, (h.good.ready pkt ha).1]) hw)
      refine ⟨_, library_ok h.phase h1, ⟨?_, ?_⟩, .inr ⟨_, reqs ++ [i.send], msgs, ⟨rfl, hgood,
        h.sound, h.data, h.takes, h.told, ?_, h.taken, h.wf, ?_, ?_, ?_, ?_, ?_, ?_⟩, ?_⟩⟩
      · obtain ⟨ops, hr⟩ := hp.run
        rw [h.phase] at hr
        exact ⟨_, connect_snoc hr h1⟩
      · exact obedient_snoc hp.obedient (by intro ev q r he; cases he)
      · have := h.asked
        rw [hw, List.append_nil] at this
        show _ ++ frame i.send = _
        rw [List.flatMap_append, ← this]
        simp
      · intro x hx
        rcases List.mem_append.mp hx with hx | hx
        · exact h.questions x hx
        · rw [List.mem_singleton.mp hx]; exact hq
      · cases h.owed with
        | asked d h1 => exact absurd h1 hno
        | told d r h1 => exact absurd h1 hno
        | nothing g1 g2 =>
          have hf : asksName i.send = false ∨ ∃ d, i.send = .stringDescriptionRequest d := by
            match i.send, hq with
            | .armingStatusRequest, _ => exact .inl rfl
            | .zoneStatusRequest, _ => exact .inl rfl
            | .stringDescriptionRequest d, _ => exact .inr ⟨d, rfl⟩
          rcases hf with hf | ⟨d, hs⟩
          · refine .nothing ?_ g2
            rw [List.filter_append, g1, List.filter_cons, hf]
            rfl
          · refine .asked d (.inl rfl) hs ?_ g2
            show _ = [i.send]
            rw [List.filter_append, g1, List.filter_cons]
            have : asksName i.send = true := by rw [hs]; rfl
            rw [this]
            rfl
      · intro _
        exact .inl (List.mem_append_right _ (List.mem_singleton.mpr rfl))
      · intro _
        show (Elk.Spec.questions (s.seen ++ [.asked i.send])).getLast? = some i.send
        unfold Elk.Spec.questions
        rw [List.filterMap_append]
        simp
      · intro w hw; cases hw
      · refine ⟨?_, fun _ q hq => ?_, fun hz => ?_⟩
        · show heard (s.seen ++ [.asked i.send]) ++ _ = _
          rw [heard_snoc]
          exact (congrArg (· ++ msgs) (List.append_nil _)).trans h.ledger.said
        · rw [List.getLast?_concat] at hq
          exact (Option.some.inj hq).symm
        · cases h.ledger.zones hz with
          | one h1 => exact absurd h1 hno
          | nothing g1 g2 =>
            cases hz' : asksZones i.send with
            | false =>
              refine .nothing ?_ g2
              rw [List.filter_append, g1, List.filter_cons, hz']
              rfl
            | true =>
              have hs : i.send = .zoneStatusRequest := by
                match i.send, hz' with
                | .zoneStatusRequest, _ => rfl
              refine .one (.inl rfl) hs ?_
              rw [List.filter_append, g1, g2, List.filter_cons, hz']
              exact Nat.le_refl _
      · refine .inl ?_
        unfold rank
        rw [ha]
        exact nearer_second (by decide)
    | flushPending _ h => rw [ha] at h; cases h
    | flushFailed _ _ h => rw [ha] at h; cases h
    | flushed _ h => rw [ha] at h; cases h
    | readPending _ _ h => rw [ha] at h; cases h
    | readEnded _ _ h => rw [ha] at h; cases h
    | readFailed _ _ _ h => rw [ha] at h; cases h
    | other _ _ _ _ _ _ h => rw [ha] at h; cases h
    | reply _ _ _ _ _ _ _ _ h => rw [ha] at h; cases h
  · rw [ha] at h1; cases h1

/-- The future flushes the connection. -/
theorem step_flush {S : Server} {s : Site} {i : Init} {reqs msgs : List Message} {cx : Cx}
    (h : SiteInv S s i reqs msgs) (hp : Past S s) (ha : i.await = .flush) :
    ∃ s', s.library (.tick cx) = .ok s' ∧ Next S .library i reqs msgs s' := by
  have hspec := connFlush_spec i.panel.conn cx
  obtain ⟨htk, hres⟩ := connFlush_takes cx h.takes
  generalize hfl : i.panel.conn.pollFlush cx = x at *
  obtain ⟨r, c⟩ := x
  dsimp only at *
  obtain ⟨new, hnew⟩ := hspec.grows
  have hasked : c.sock.sent.drop s.taken ++ c.wbuf = reqs.flatMap frame := by
    have hb := hspec.bytes
    have h1 : (c.sock.sent ++ c.wbuf).drop s.taken = (i.panel.conn.sock.sent ++
      i.panel.conn.wbuf).drop s.taken := by rw [hb]
    have hle := h.taken
    rw [List.drop_append_of_le_length (by rw [hnew, List.length_append]; omega),
      List.drop_append_of_le_length hle] at h1
    rw [h1]
    exact h.asked
  have htaken : s.taken ≤ c.sock.sent.length := by
    have hle := h.taken
    rw [hnew, List.length_append]; omega
  rcases hres with rfl | ⟨rfl, hwr, hle, hlt⟩
  · have h1 : i.step (.tick cx) = .ok (.flushed, .asking { i with
        panel := { i.panel with conn := c }, await := .reply }) := by
      show i.tick cx = _
      unfold Init.tick
      rw [ha]
      dsimp only
      rw [hfl]
    refine ⟨_, library_ok h.phase h1, ⟨?_, ?_⟩, .inr ⟨_, reqs, msgs, ⟨rfl,
      tick_good h.good (.flushed c ha hspec), ?_, ?_, htk, ?_, hasked, htaken, h.wf, h.questions, ?_,
      fun _ => h.coming (.inl ha), ?_, ?_,
      ledger_same h.ledger rfl rfl rfl rfl rfl ⟨fun _ => .inl ha, fun _ => .inr rfl⟩⟩, .inl ?_⟩⟩
    · obtain ⟨ops, hr⟩ := hp.run
      rw [h.phase] at hr
      exact ⟨_, connect_snoc hr h1⟩
    · exact obedient_snoc hp.obedient (by intro ev q r he; cases he)
    · show Sound c.rd
      rw [hspec.rd]; exact h.sound
    · show OnlyData c.sock.incoming
      rw [hspec.incoming]; exact h.data
    · show c.rd.buffer ++ dataOf c.sock.incoming ++ _ = _
      rw [hspec.rd, hspec.incoming]; exact h.told
    · cases h.owed with
      | nothing h1 h2 => exact .nothing h1 h2
      | asked d h1 h2 h3 h4 => exact .asked d (.inr rfl) h2 h3 h4
      | told d r h1 h2 h3 h4 h5 h6 h7 => exact .told d r (.inr rfl) h2 h3 h4 h5 h6 h7
    · intro _
      show (Elk.Spec.questions (s.seen ++ [.flushed])).getLast? = some i.send
      rw [no_question rfl]
      exact h.last (.inl ha)
    · intro w hw; cases hw
    · unfold rank
      rw [ha]
      dsimp only
      split
      · exact nearer_second (by decide)
      · exact nearer_second (by decide)
  · have h1 : i.step (.tick cx) = .ok (.pending, .asking { i with
        panel := { i.panel with conn := c } }) := by
      show i.tick cx = _
      unfold Init.tick
      rw [ha]
      dsimp only
      rw [hfl]
    refine ⟨_, library_ok h.phase h1, ⟨?_, ?_⟩, .inr ⟨_, reqs, msgs, ⟨rfl,
      tick_good h.good (.flushPending c ha hspec), ?_, ?_, htk, ?_, hasked, htaken, h.wf, h.questions,
      ?_, fun _ => h.coming (.inl ha), ?_, ?_,
      ledger_same h.ledger rfl rfl rfl rfl rfl Iff.rfl⟩, ?_⟩⟩
    · obtain ⟨ops, hr⟩ := hp.run
      rw [h.phase] at hr
      exact ⟨_, connect_snoc hr h1⟩
    · exact obedient_snoc hp.obedient (by intro ev q r he; cases he)
    · show Sound c.rd
      rw [hspec.rd]; exact h.sound
    · show OnlyData c.sock.incoming
      rw [hspec.incoming]; exact h.data
    · show c.rd.buffer ++ dataOf c.sock.incoming ++ _ = _
      rw [hspec.rd, hspec.incoming]; exact h.told
    · cases h.owed with
      | nothing h1 h2 => exact .nothing h1 h2
      | asked d h1 h2 h3 h4 => exact .asked d (.inl ha) h2 h3 h4
      | told d r h1 h2 h3 h4 h5 h6 h7 => exact .told d r (.inl ha) h2 h3 h4 h5 h6 h7
    · intro _
      show (Elk.Spec.questions (s.seen ++ [.pending])).getLast? = some i.send
      rw [no_question rfl]
      exact h.last (.inl ha)
    · intro w hw
      have hw : some cx.waker = some w := hw
      exact .inl ⟨ha, hspec.left rfl, hwr, (hspec.pend rfl).trans hw⟩
    · unfold Brings rank helper
      rw [ha]
      dsimp only
      rw [if_pos hwr]
      have hl := hspec.left rfl
      by_cases hw : i.panel.conn.sock.writes = []
      · rw [if_pos hw]
        by_cases hlt : c.wbuf.length < i.panel.conn.wbuf.length
        · exact .inl (nearer_third (by omega))
        · have e : c.wbuf.length = i.panel.conn.wbuf.length := by omega
          have hl' : i.panel.conn.wbuf ≠ [] := by
            intro h0
            rw [h0] at e
            exact hl (List.length_eq_zero_iff.mp e)
          refine .inr ⟨by rw [e], ?_, ?_⟩
          · rw [if_neg (fun h => h.elim hl fun h => h hwr),
              if_neg (fun h => h.elim hl' fun h => h hw)]
          · rw [if_neg (fun h => h.elim hl' fun h => h hw)]
            decide
      · rw [if_neg hw]
        have := hlt hw
        exact .inl (nearer_third (by omega))

/-- The future reads and waits. -/
theorem step_wait {S : Server} {s : Site} {i : Init} {reqs msgs : List Message} {cx : Cx} {c new}
    (h : SiteInv S s i reqs msgs) (hp : Past S s) (ha : i.await = .reply)
    (hn : i.panel.conn.pollNext cx = .ok (.pending, c))
    (hs : NextSpec i.panel.conn cx .pending c new) :
    ∃ s', s.library (.tick cx) = .ok s' ∧ Next S .library i reqs msgs s' := by
  obtain ⟨hsd, hdt, _⟩ := next_data h.sound h.data hn
  have h1 : i.step (.tick cx) = .ok (.pending, .asking { i with
      panel := { i.panel with conn := c } }) := by
    show i.tick cx = _
    unfold Init.tick
    rw [ha]
    dsimp only
    rw [hn]
    rfl
  have hbuf : c.rd.buffer ++ dataOf c.sock.incoming =
      i.panel.conn.rd.buffer ++ dataOf i.panel.conn.sock.incoming := by
    rw [hs.other (by intro p h; cases h), hs.data]
    simp
  have hinv : SiteInv S { s with
      phase := .asking { i with panel := { i.panel with conn := c } },
      seen := s.seen ++ [.pending], asleep := some cx.waker }
      { i with panel := { i.panel with conn := c } } reqs msgs := by
    refine ⟨rfl, tick_good h.good (.readPending c new ha hs), hsd, hdt, ?_, ?_, ?_, ?_, h.wf,
      h.questions, ?_, fun _ => h.coming (.inr ha), ?_, ?_,
      ledger_same h.ledger rfl rfl rfl rfl rfl Iff.rfl⟩
    · show OnlyTakes c.sock.writes
      rw [hs.writes]; exact h.takes
    · show c.rd.buffer ++ dataOf c.sock.incoming ++ _ = _
      rw [hbuf]; exact h.told
    · show c.sock.sent.drop _ ++ c.wbuf = _
      rw [hs.sent, hs.wbuf]; exact h.asked
    · show _ ≤ c.sock.sent.length
      rw [hs.sent]; exact h.taken
    · cases h.owed with
      | nothing h1 h2 => exact .nothing h1 h2
      | asked d h1 h2 h3 h4 => exact .asked d (.inr ha) h2 h3 h4
      | told d r h1 h2 h3 h4 h5 h6 h7 => exact .told d r (.inr ha) h2 h3 h4 h5 h6 h7
    · intro _
      show (Elk.Spec.questions (s.seen ++ [.pending])).getLast? = some i.send
      rw [no_question rfl]
      exact h.last (.inr ha)
    · intro w hw
      have hw : some cx.waker = some w := hw
      refine .inr ⟨ha, ((hs.pend rfl).2).trans hw, fun m t hmt => ?_⟩
      subst hmt
      show (c.rd.buffer ++ dataOf c.sock.incoming).length < _
      rw [hbuf]
      exact (wait_frames hs h.data (h.wf m (List.mem_cons_self ..)) h.told).2
  have hl : lacking { i with panel := { i.panel with conn := c } } msgs = lacking i msgs := by
    show _ - (c.rd.buffer ++ dataOf c.sock.incoming).length = _
    rw [hbuf]
    rfl
  have hh : helper { i with panel := { i.panel with conn := c } } msgs = helper i msgs := by
    unfold helper
    rw [hl, ha]
  refine ⟨_, library_ok h.phase h1, ⟨?_, ?_⟩, .inr ⟨_, reqs, msgs, hinv, .inr ⟨?_, hh, ?_⟩⟩⟩
  · obtain ⟨ops, hr⟩ := hp.run
    rw [h.phase] at hr
    exact ⟨_, connect_snoc hr h1⟩
  · exact obedient_snoc hp.obedient (by intro ev q r he; cases he)
  · unfold rank
    rw [hl, ha]
    rfl
  · have := helper_asleep hinv rfl
    rw [hh] at this
    exact this

/-- What is known of a reply. -/
theorem reply_owed {S : Server} {s : Site} {i : Init} {reqs t : List Message} {m : Message}
    (h : SiteInv S s i reqs (m :: t)) (hr : Responds m i.send) :
    reqs.filter asksName = [] ∧ t.filter tellsName = [] ∧
    ∀ r, m = .stringDescriptionResponse r → r.num.toNat ≤ entries r.ty ∧
      ∀ d, i.send = .stringDescriptionRequest d → S.Answers d r := by
  cases h.owed with
  | nothing h1 h2 =>
    rw [List.filter_cons] at h2
    split at h2
    · cases h2
    · rename_i hm
      refine ⟨h1, h2, fun r hr => ?_⟩
      subst hr
      exact absurd rfl hm
  | asked d h1 h2 h3 h4 =>
    rw [h2] at hr
    cases hr with
    | text => cases h4
    | noText => cases h4
  | told d r h1 h2 h3 h4 h5 h6 h7 =>
    rw [List.filter_cons] at h4
    split at h4
    · obtain ⟨e1, e2⟩ := List.cons.inj h4
      refine ⟨h3, e2, fun r' hr' => ?_⟩
      rw [e1] at hr'
      cases hr'
      refine ⟨h7, fun d' hd => ?_⟩
      rw [h2] at hd
      cases hd
      exact h5
    · rename_i hm
      rw [h2] at hr
      cases hr with
      | text => exact absurd rfl hm
      | noText => exact absurd rfl hm

/-- The books after a reply. -/
theorem reply_ledger {S : Server} {s : Site} {i : Init} {reqs t : List Message} {m : Message}
    (h : SiteInv S s i reqs (m :: t)) (hr : Responds m i.send) {ev : Event}
    (hev : ev.msg = some (.ok m)) :
    heard (s.seen ++ [.got ev]) ++ t = s.said ∧
    (s.own.filter tellsZones = [] → reqs.filter asksZones = [] ∧ t.filter tellsZones = []) := by
  constructor
  · have : heard [.got ev] = [m] := by
      unfold heard gotten
      simp [hev]
    rw [heard_snoc, this, ← h.ledger.said, List.append_assoc]
    rfl
  · intro hz
    cases h.ledger.zones hz with
    | nothing h1 h2 => exact ⟨h1, zones_tail h2⟩
    | one h1 h2 h3 =>
      rw [h2] at hr
      cases hr
      rw [List.filter_cons, if_pos (by rfl), List.length_cons] at h3
      exact ⟨List.length_eq_zero_iff.mp (by omega), List.length_eq_zero_iff.mp (by omega)⟩

/-- When the last question is answered nothing is under way to the panel. -/
theorem last_answered {S : Server} {s : Site} {i : Init} {reqs t : List Message} {m : Message}
    (h : SiteInv S s i reqs (m :: t)) (ha : i.await = .reply)
    (ho : reqs.filter asksName = []) (hf : followUp i.send m = none) : reqs = [] := by
  cases hl : reqs.getLast? with
  | none => exact List.getLast?_eq_none_iff.mp hl
  | some q =>
    have hq := h.ledger.tail (.inr ha) q hl
    have hmem : q ∈ reqs := List.mem_of_getLast? hl
    have hno : asksName q = false := by
      cases hx : asksName q with
      | false => rfl
      | true =>
        have : q ∈ reqs.filter asksName := List.mem_filter.mpr ⟨hmem, hx⟩
        rw [ho] at this
        cases this
    have hq' := h.questions q hmem
    rw [← hq] at hf
    match q, hq', hno with
    | .armingStatusRequest, _, _ => cases hf
    | .zoneStatusRequest, _, _ => cases hf

/-- The future reads a reply. -/
theorem step_reply {S : Server} {s : Site} {i : Init} {reqs t : List Message} {m : Message}
    {cx : Cx} {c new} (h : SiteInv S s i reqs (m :: t)) (hp : Past S s) (ha : i.await = .reply)
    (hn : i.panel.conn.pollNext cx = .ok (.ready (some (.ok (.ascii ⟨sentText m⟩))), c))
    (hs : NextSpec i.panel.conn cx (.ready (some (.ok (.ascii ⟨sentText m⟩)))) c new)
    (hb : c.rd.buffer ++ dataOf c.sock.incoming ++ s.line = t.flatMap frame)
    (hr : Responds m i.send) :
    ∃ s', s.library (.tick cx) = .ok s' ∧ Next S .library i reqs (m :: t) s' := by
  obtain ⟨hsd, hdt, _⟩ := next_data h.sound h.data hn
  have hwf := h.wf m (List.mem_cons_self ..)
  obtain ⟨ho1, ho2, ho3⟩ := reply_owed h hr
  obtain ⟨ev, p', ph, h1, hc, hg, hev, hrc⟩ := tick_reply h.good ha hn (parse_sent hwf) hr
    fun r hr => (ho3 r hr).1
  have h1 : i.step (.tick cx) = .ok (.got ev, ph) := h1
  refine ⟨_, library_ok h.phase h1, ⟨?_, ?_⟩, ?_⟩
  · obtain ⟨ops, hr⟩ := hp.run
    rw [h.phase] at hr
    exact ⟨_, connect_snoc hr h1⟩
  · refine obedient_snoc hp.obedient ?_
    intro ev' q r he hq hm hr'
    cases he
    rw [hev] at hm
    cases hm
    rw [h.last (.inr ha)] at hq
    exact (ho3 r rfl).2 q (Option.some.inj hq)
  · cases hrc with
    | done p'' hnc hf =>
      have hcc : p''.conn = c := (names_keep hnc).1.trans hc
      have hnone := last_answered h ha ho1 (h.good.send ▸ hf)
      refine .inl ⟨p'', t, rfl, ?_, ?_, ?_, ?_, ?_, fun x hx => h.wf x (List.mem_cons_of_mem _ hx),
        (reply_ledger h hr hev).1, fun hz => ((reply_ledger h hr hev).2 hz).2⟩
      · rw [hcc]; exact hsd
      · rw [hcc]; exact hdt
      · rw [hcc, hs.writes]; exact h.takes
      · rw [hcc]; exact hb
      · have h3 := h.asked
        have h4 := h.taken
        rw [hnone] at h3
        have h5 := congrArg List.length h3
        rw [List.length_append, List.length_drop] at h5
        simp only [List.flatMap_nil, List.length_nil] at h5
        rw [hcc, hs.sent]
        show s.taken = _
        omega
    | ask p'' st' hnc hst hf =>
      have hcc : p''.conn = c := (names_keep hnc).1.trans hc
      refine .inr ⟨_, reqs, t, ⟨rfl, hg, ?_, ?_, ?_, ?_, ?_, ?_, fun x hx => h.wf x
        (List.mem_cons_of_mem _ hx), h.questions, .nothing ho1 ho2, ?_, ?_, ?_,
        ⟨(reply_ledger h hr hev).1, (fun h => by rcases h with h | h <;> cases h), fun hz =>
          .nothing ((reply_ledger h hr hev).2 hz).1 ((reply_ledger h hr hev).2 hz).2⟩⟩, .inl ?_⟩
      · show Sound p''.conn.rd
        rw [hcc]; exact hsd
      · show OnlyData p''.conn.sock.incoming
        rw [hcc]; exact hdt
      · show OnlyTakes p''.conn.sock.writes
        rw [hcc, hs.writes]; exact h.takes
      · show p''.conn.rd.buffer ++ dataOf p''.conn.sock.incoming ++ s.line = _
        rw [hcc]; exact hb
      · show p''.conn.sock.sent.drop _ ++ p''.conn.wbuf = _
        rw [hcc, hs.sent, hs.wbuf]; exact h.asked
      · show _ ≤ p''.conn.sock.sent.length
        rw [hcc, hs.sent]; exact h.taken
      · rintro (h | h) <;> cases h
      · rintro (h | h) <;> cases h
      · intro w hw; cases hw
      · have hq : IsQuestion i.send := by rw [h.good.send]; exact stageQ_question h.good.stage
        rw [← h.good.send] at hf
        have hsuf := (follow_remaining hq hr hf).2.length_le
        obtain ⟨l, hl⟩ := remaining_head hq
        rw [hl, List.tail_cons] at hsuf
        refine nearer_first ?_
        rw [rank_first, rank_first, hl, List.length_cons]
        exact Nat.lt_succ_of_le hsuf

/-- The future reads something else. -/
theorem step_other {S : Server} {s : Site} {i : Init} {reqs t : List Message} {m : Message}
    {cx : Cx} {c new} (h : SiteInv S s i reqs (m :: t)) (hp : Past S s) (ha : i.await = .reply)
    (hn : i.panel.conn.pollNext cx = .ok (.ready (some (.ok (.ascii ⟨sentText m⟩))), c))
    (hs : NextSpec i.panel.conn cx (.ready (some (.ok (.ascii ⟨sentText m⟩)))) c new)
    (hb : c.rd.buffer ++ dataOf c.sock.incoming ++ s.line = t.flatMap frame)
    (hr : ¬ Responds m i.send) :
    ∃ s', s.library (.tick cx) = .ok s' ∧ Next S .library i reqs (m :: t) s' := by
  obtain ⟨hsd, hdt, _⟩ := next_data h.sound h.data hn
  have hwf := h.wf m (List.mem_cons_self ..)
  obtain ⟨ev, p', h1, hc, hg, hno, hhd⟩ := tick_other h.good ha hn (by
    intro m' hm
    rw [parse_sent hwf] at hm
    cases hm
    exact hr)
  have h1 : i.step (.tick cx) = .ok (.got ev, .asking { i with panel := p' }) := h1
  have hno' : ∀ m, ev.msg = some (.ok m) → ¬ Responds m i.send :=
    hno ev (List.mem_singleton.mpr rfl)
  refine ⟨_, library_ok h.phase h1, ⟨?_, ?_⟩, .inr ⟨_, reqs, t, ⟨rfl, hg, ?_, ?_, ?_, ?_, ?_, ?_,
    fun x hx => h.wf x (List.mem_cons_of_mem _ hx), h.questions, ?_, ?_, ?_, ?_, ?_⟩, ?_⟩⟩
  · obtain ⟨ops, hr⟩ := hp.run
    rw [h.phase] at hr
    exact ⟨_, connect_snoc hr h1⟩
  · refine obedient_snoc hp.obedient ?_
    intro ev' q r he hq hm hr'
    cases he
    rw [h.last (.inr ha)] at hq
    have hq := Option.some.inj hq
    exact absurd (hq ▸ hr') (hno' _ hm)
  · show Sound p'.conn.rd
    rw [hc]; exact hsd
  · show OnlyData p'.conn.sock.incoming
    rw [hc]; exact hdt
  · show OnlyTakes p'.conn.sock.writes
    rw [hc, hs.writes]; exact h.takes
  · show p'.conn.rd.buffer ++ dataOf p'.conn.sock.incoming ++ s.line = _
    rw [hc]; exact hb
  · show p'.conn.sock.sent.drop _ ++ p'.conn.wbuf = _
    rw [hc, hs.sent, hs.wbuf]; exact h.asked
  · show _ ≤ p'.conn.sock.sent.length
    rw [hc, hs.sent]; exact h.taken
  · have drop : (m :: t).filter tellsName = [] → t.filter tellsName = [] := by
      intro h
      rw [List.filter_cons] at h
      split at h
      · cases h
      · exact h
    cases h.owed with
    | nothing h1 h2 => exact .nothing h1 (drop h2)
    | asked d h1 h2 h3 h4 => exact .asked d (.inr ha) h2 h3 (drop h4)
    | told d r h1 h2 h3 h4 h5 h6 h7 =>
      rw [List.filter_cons] at h4
      split at h4
      · have := (List.cons.inj h4).1
        rw [← this] at h6
        exact absurd h6 hr
      · exact .told d r (.inr ha) h2 h3 h4 h5 h6 h7
  · intro _
    rcases h.coming (.inr ha) with h1 | ⟨x, h1, h2⟩
    · exact .inl h1
    · rcases List.mem_cons.mp h1 with rfl | h1
      · exact absurd h2 hr
      · exact .inr ⟨x, h1, h2⟩
  · intro _
    show (Elk.Spec.questions (s.seen ++ [.got ev])).getLast? = some i.send
    rw [no_question rfl]
    exact h.last (.inr ha)
  · intro w hw; cases hw
  · refine ⟨?_, fun _ => h.ledger.tail (.inr ha), fun hz => ?_⟩
    · show heard (s.seen ++ [.got ev]) ++ t = s.said
      have : parsed (.ascii ⟨sentText m⟩) = some m := by
        unfold parsed
        rw [parse_sent hwf]
      rw [heard_snoc, hhd, this, ← h.ledger.said, List.append_assoc]
      rfl
    · cases h.ledger.zones hz with
      | nothing h1 h2 => exact .nothing h1 (zones_tail h2)
      | one h1 h2 h3 =>
        refine .one (.inr ha) h2 ?_
        rw [List.filter_cons] at h3
        split at h3
        · rw [List.length_cons] at h3
          omega
        · exact h3
  · have hres : m.isResponseTo i.send = false := by
      cases hx : m.isResponseTo i.send with
      | false => rfl
      | true => exact absurd ((C23_responds _ _).mp hx) hr
    have hbe : before i (m :: t) = before i t + 1 := by
      unfold before
      rw [List.takeWhile_cons, hres]
      rfl
    have hlack : lacking { i with panel := p' } t = lacking i (m :: t) := by
      show ((t.take (before i t + 1)).flatMap frame).length -
        (p'.conn.rd.buffer ++ dataOf p'.conn.sock.incoming).length = _
      unfold lacking
      rw [hc, hbe, List.take_succ_cons, List.flatMap_cons, List.length_append]
      have e1 := congrArg List.length h.told
      have e2 := congrArg List.length hb
      rw [List.flatMap_cons] at e1
      simp only [List.length_append] at e1 e2 ⊢
      omega
    unfold Brings rank helper
    rw [ha]
    dsimp only
    rw [List.any_cons, hres, Bool.false_or]
    cases hany : t.any fun m => m.isResponseTo i.send with
    | false => exact .inr ⟨by simp, by simp, by simp⟩
    | true =>
      refine .inl ?_
      rw [if_pos rfl, if_pos rfl]
      refine nearer_third ?_
      have e1 : lacking { i with panel := p', await := .reply } t = lacking i (m :: t) := hlack
      have e2 : before { i with panel := p', await := .reply } t = before i t := rfl
      rw [hbe]
      omega

theorem step_tick {S : Server} {s : Site} {i : Init} {reqs msgs : List Message} {cx : Cx}
    (h : SiteInv S s i reqs msgs) (hp : Past S s) :
    ∃ s', s.step S (.tick cx) = .ok s' ∧ Next S .library i reqs msgs s' := by
  cases hw : s.asleep with
  | some w =>
    refine ⟨s, if_neg (by rw [hw]; simp), hp, .inr ⟨i, reqs, msgs, h, .inr ⟨rfl, rfl, ?_⟩⟩⟩
    exact helper_asleep h hw
  | none =>
    have e : s.step S (.tick cx) = s.library (.tick cx) := if_pos hw
    rw [e]
    match ha : i.await with
    | .ready pkt => exact step_ask h hp ha
    | .flush => exact step_flush h hp ha
    | .reply =>
      obtain ⟨r, c, new, hn, hs⟩ := connNext_spec i.panel.conn cx h.good.rd
      obtain ⟨_, _, hr⟩ := next_data h.sound h.data hn
      rcases hr with rfl | ⟨pkt, rfl⟩
      · exact step_wait h hp ha hn hs
      · obtain ⟨m, t, rfl, rfl, hb⟩ := read_frames hs h.wf h.told
        by_cases hr : Responds m i.send
        · exact step_reply h hp ha hn hs hb hr
        · exact step_other h hp ha hn hs hb hr

theorem site_step {S : Server} {s : Site} {i : Init} {reqs msgs : List Message} {op : SiteOp}
    (hS : ∀ ty n t, S.name ty n = some t → WfText t) (ho : op.Proper)
    (h : SiteInv S s i reqs msgs) (hp : Past S s) :
    ∃ s', s.step S op = .ok s' ∧ Next S op.who i reqs msgs s' := by
  match op, ho with
  | .tick cx, _ => exact step_tick h hp
  | .accept n, _ => exact step_accept h hp
  | .deliver n, _ => exact step_deliver h hp
  | .answer A Z, ho => exact ⟨_, rfl, step_answer ⟨hS, ho⟩ h hp⟩
  | .say m, ho => exact ⟨_, rfl, step_say h hp ho.1 ho.2⟩

/-! ## Fair schedules -/

/-- From a state that is reached, the end is reached. -/
theorem site_finishes {S : Server} {ops : Nat → SiteOp}
    (hS : ∀ ty n t, S.name ty n = some t → WfText t) (ho : ∀ n, (ops n).Proper) (hf : Fair ops)
    (μ : Nat × Nat × Nat) : ∀ n s i reqs msgs, Site.after S ops n = .ok s →
    SiteInv S s i reqs msgs → Past S s → rank i reqs msgs = μ →
    ∃ n s p rest, Site.after S ops n = .ok s ∧ Past S s ∧ SiteDone s p rest := by
  induction μ using nearer_wf.induction with
  | _ μ ih =>
  -- the next time the helper acts
  have key : ∀ k n s i reqs msgs, Site.after S ops n = .ok s → SiteInv S s i reqs msgs →
      Past S s → rank i reqs msgs = μ → (ops (n + k)).who = helper i msgs →
      ∃ n s p rest, Site.after S ops n = .ok s ∧ Past S s ∧ SiteDone s p rest := by
    intro k
    induction k with
    | zero =>
      intro n s i reqs msgs hn h hp hμ hw
      obtain ⟨s', h1, h2, h3⟩ := site_step hS (ho n) h hp
      have hn' : Site.after S ops (n + 1) = .ok s' := by
        show (Site.after S ops n >>= fun s => s.step S (ops n)) = _
        rw [hn]; exact h1
      rcases h3 with ⟨p, rest, h3⟩ | ⟨i', reqs', msgs', h4, h5 | ⟨_, _, h5⟩⟩
      · exact ⟨n + 1, s', p, rest, hn', h2, h3⟩
      · exact ih _ (hμ ▸ h5) (n + 1) s' i' reqs' msgs' hn' h4 h2 rfl
      · exact absurd hw h5
    | succ k ihk =>
      intro n s i reqs msgs hn h hp hμ hw
      obtain ⟨s', h1, h2, h3⟩ := site_step hS (ho n) h hp
      have hn' : Site.after S ops (n + 1) = .ok s' := by
        show (Site.after S ops n >>= fun s => s.step S (ops n)) = _
        rw [hn]; exact h1
      rcases h3 with ⟨p, rest, h3⟩ | ⟨i', reqs', msgs', h4, h5 | ⟨h5, h6, _⟩⟩
      · exact ⟨n + 1, s', p, rest, hn', h2, h3⟩
      · exact ih _ (hμ ▸ h5) (n + 1) s' i' reqs' msgs' hn' h4 h2 rfl
      · refine ihk (n + 1) s' i' reqs' msgs' hn' h4 h2 (h5.trans hμ) ?_
        rw [h6, ← hw, Nat.add_assoc, Nat.add_comm 1 k]
  intro n s i reqs msgs hn h hp hμ
  have hc : helper i msgs ≠ .chance := by
    unfold helper
    split
    · decide
    · split <;> decide
    · split
      · split <;> decide
      · decide
  obtain ⟨m, hm, hw⟩ := hf _ hc n
  obtain ⟨k, rfl⟩ := Nat.exists_eq_add_of_le hm
  exact key k n s i reqs msgs hn h hp hμ hw

theorem site_start (S : Server) : ∃ s i, (∀ ops, Site.after S ops 0 = .ok s) ∧
    SiteInv S s i [] [] ∧ Past S s := by
  have hf : Fresh ({} : Connection) := ⟨rfl, rfl, rfl, rfl⟩
  refine ⟨⟨_, 0, [], [], none, [], []⟩, _, fun ops => ?_, ⟨rfl, start_good hf, ⟨rfl, rfl⟩, ?_, ?_, rfl, rfl,
    Nat.le_refl _, ?_, ?_, .nothing rfl rfl, ?_, ?_, ?_, ?_⟩, ⟨[], ?_⟩, ?_⟩
  · show (Init.start {} >>= fun phase => _) = _
    rw [start_ok]
    rfl
  · intro r hr; cases hr
  · intro r hr; cases hr
  · intro r hr; cases hr
  · intro r hr; cases hr
  · rintro (h | h) <;> cases h
  · rintro (h | h) <;> cases h
  · intro w hw; cases hw
  · exact ⟨rfl, (fun h => by rcases h with h | h <;> cases h), fun _ => .nothing rfl rfl⟩
  · rw [connect_run]; rfl
  · intro a ev b q r h; cases a <;> cases h

/-- **C101** The panel, the line and the task that runs `connect` act when they like, the task only
when it has been woken, the panel saying other things in between; bytes are taken from and handed
to the library in pieces of any sizes.  As long as each of them keeps acting, `connect` finishes,
without an error or a panic, and the names are those of the panel. -/
theorem C101_connects (S : Server) (hS : ∀ ty n t, S.name ty n = some t → WfText t)
    (ops : Nat → SiteOp) (ho : ∀ n, (ops n).Proper) (hf : Fair ops) :
    ∃ n s p, Site.after S ops n = .ok s ∧ s.phase = .finished (.ok p) ∧ Connected p ∧
      (∀ zone : Zone, 1 ≤ zone.val.toNat ∧ zone.val.toNat ≤ 208 →
        p.zoneName zone = .ok ((S.name .zone zone.val.toNat).getD .empty)) ∧
      (∀ i, ∀ hi : i < 8, p.areaNames[i] = (S.name .area (i + 1)).getD .empty) ∧
      (∀ i, ∀ hi : i < 32, p.state.taskNames[i] = (S.name .task (i + 1)).getD .empty) := by
  obtain ⟨s, i, h1, h2, h3⟩ := site_start S
  obtain ⟨n, s', p, _, h4, h5, h6⟩ := site_finishes hS ho hf _ 0 s i [] [] (h1 ops) h2 h3 rfl
  obtain ⟨iops, h7⟩ := h5.run
  rw [h6.phase] at h7
  have hfr : Fresh ({} : Connection) := ⟨rfl, rfl, rfl, rfl⟩
  exact ⟨n, s', p, h4, h6.phase, C36_connect_establishes _ hfr iops _ p h7,
    C38_names S _ hfr iops _ p h7 h5.obedient⟩

/-- Whatever happens, in whatever order, `connect` neither panics nor fails: it waits, or has
finished. -/
theorem C101_never_fails (S : Server) (hS : ∀ ty n t, S.name ty n = some t → WfText t)
    (ops : Nat → SiteOp) (ho : ∀ n, (ops n).Proper) (n : Nat) :
    ∃ s, Site.after S ops n = .ok s ∧
      ((∃ i, s.phase = .asking i) ∨ ∃ p, s.phase = .finished (.ok p)) := by
  have : ∃ s, Site.after S ops n = .ok s ∧
      ((∃ i reqs msgs, SiteInv S s i reqs msgs ∧ Past S s) ∨ ∃ p, s.phase = .finished (.ok p)) := by
    induction n with
    | zero =>
      obtain ⟨s, i, h1, h2, h3⟩ := site_start S
      exact ⟨s, h1 ops, .inl ⟨i, [], [], h2, h3⟩⟩
    | succ n ih =>
      obtain ⟨s, h1, h2⟩ := ih
      have hn : Site.after S ops (n + 1) = s.step S (ops n) := by
        show (Site.after S ops n >>= fun s => s.step S (ops n)) = _
        rw [h1]; rfl
      rw [hn]
      rcases h2 with ⟨i, reqs, msgs, h3, h4⟩ | ⟨p, h3⟩
      · obtain ⟨s', h5, h6, h7⟩ := site_step hS (ho n) h3 h4
        refine ⟨s', h5, ?_⟩
        rcases h7 with ⟨p, _, h7⟩ | ⟨i', reqs', msgs', h7, _⟩
        · exact .inr ⟨p, h7.phase⟩
        · exact .inl ⟨i', reqs', msgs', h7, h6⟩
      · have hlib : ∀ op (s : Site), s.phase = .finished (.ok p) → s.library op = .ok s := by
          intro op s h
          unfold Site.library
          rw [h]
        have hans : ∀ A Z, s.answer S A Z = s := by
          intro A Z
          unfold Site.answer
          rw [h3]
        match ops n with
        | .tick cx =>
          by_cases hw : s.asleep = none
          · exact ⟨s, (if_pos hw).trans (hlib _ s h3), .inr ⟨p, h3⟩⟩
          · exact ⟨s, if_neg hw, .inr ⟨p, h3⟩⟩
        | .accept k => exact ⟨s, hlib (.writable (.accept (k + 1))) s h3, .inr ⟨p, h3⟩⟩
        | .deliver k =>
          by_cases hl : s.line = []
          · exact ⟨s, if_pos hl, .inr ⟨p, h3⟩⟩
          · exact ⟨_, (if_neg hl).trans (hlib _ _ h3), .inr ⟨p, h3⟩⟩
        | .answer A Z => exact ⟨s, congrArg Except.ok (hans A Z), .inr ⟨p, h3⟩⟩
        | .say m => exact ⟨_, rfl, .inr ⟨p, h3⟩⟩
  obtain ⟨s, h1, h2⟩ := this
  refine ⟨s, h1, ?_⟩
  rcases h2 with ⟨i, _, _, h2, _⟩ | h2
  · exact .inl ⟨i, h2.phase⟩
  · exact .inr h2

/-! ## A schedule -/

/-- Everyone in turn, with a report of a violated zone in between. -/
def inTurn (n : Nat) : SiteOp :=
  match n % 5 with
  | 0 => .tick ⟨n, n, n⟩
  | 1 => .accept 2
  | 2 => .say (.zoneStatusReport violatedReport)
  | 3 => .answer armedReport violatedReport
  | _ => .deliver 6

theorem inTurn_fair : Fair inTurn := by
  have key : ∀ n k, k < 5 → ∃ m, n ≤ m ∧ m % 5 = k := by
    intro n k hk
    exact ⟨5 * n + k, by omega, by omega⟩
  intro w hw n
  have h0 := key n 0 (by decide)
  have h1 := key n 1 (by decide)
  have h3 := key n 3 (by decide)
  have h4 := key n 4 (by decide)
  cases w with
  | chance => exact absurd rfl hw
  | library => obtain ⟨m, h1, h2⟩ := h0; exact ⟨m, h1, by unfold inTurn; rw [h2]; rfl⟩
  | socket => obtain ⟨m, h1, h2⟩ := h1; exact ⟨m, h1, by unfold inTurn; rw [h2]; rfl⟩
  | panel => obtain ⟨m, h1, h2⟩ := h3; exact ⟨m, h1, by unfold inTurn; rw [h2]; rfl⟩
  | line => obtain ⟨m, h1, h2⟩ := h4; exact ⟨m, h1, by unfold inTurn; rw [h2]; rfl⟩

/-- A name is learnt with this schedule. -/
example : ∃ n s p, Site.after sampleServer inTurn n = .ok s ∧ s.phase = .finished (.ok p) ∧
    p.zoneName ⟨3⟩ = .ok frontDoor := by
  obtain ⟨n, s, p, h1, h2, _, h3, _⟩ := C101_connects sampleServer sample_sendable.names inTurn (by
    intro n
    unfold inTurn
    split
    · exact True.intro
    · exact True.intro
    · exact ⟨sample_sendable.zones, by intro r h; cases h⟩
    · exact sample_sendable.zones
    · exact True.intro) inTurn_fair
  exact ⟨n, s, p, h1, h2, h3 ⟨3⟩ ⟨by decide, by decide⟩⟩

end Elk.Props
