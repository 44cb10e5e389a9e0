import Verif.Lemmas.Init
import Verif.Props.State
/-!
# Properties of initialisation (C36–C39)

A history is a list of operations (`InitOp`) during `connect` on a fresh connection: answers of the
socket and polls of the future, in any order.
-/

namespace Elk.Props
open Elk.Spec

/-! ## C36: the result is a connected panel -/

/-- **C36** whatever was received, if `connect` succeeds then the panel is connected: both statuses
are known, no command is outstanding, nothing is left to write. -/
theorem C36_connect_establishes (c : Connection) (hc : Fresh c) (ops : List InitOp)
    (outs : List Obs) (p : Panel) (h : Init.connect c ops = .ok (outs, .finished (.ok p))) :
    Connected p := (connect_hist hc h).good

theorem run_total {later : List Op} : ∀ {p : Panel}, Good p → (∀ cmd, .startSend cmd ∉ later) →
    ∃ os p', Panel.run later p = .ok (os, p') := by
  induction later with
  | nil => intro p _ _; exact ⟨_, _, rfl⟩
  | cons op later ih =>
    intro p hg hl
    obtain ⟨⟨o, p1⟩, h1⟩ := step_total hg.sane op fun c h => hl c (h ▸ List.mem_cons_self ..)
    obtain ⟨os, p2, h2⟩ := ih (step_good hg (step_cases hg.sane h1))
      fun c h => hl c (List.mem_cons_of_mem _ h)
    exact ⟨o :: os, p2, run_cons.mpr ⟨o, p1, os, h1, h2, rfl⟩⟩

/-- **C36** after a successful `connect`, polling never panics and nor do the accessors, whatever
happens. -/
theorem C36_after_connect (c : Connection) (hc : Fresh c) (ops : List InitOp) (outs : List Obs)
    (p : Panel) (h : Init.connect c ops = .ok (outs, .finished (.ok p))) (later : List Op)
    (hl : ∀ cmd, .startSend cmd ∉ later) :
    ∃ os p', Panel.run later p = .ok (os, p') ∧ (∃ m, p'.armingStatus = .ok m) ∧
      (∃ z, p'.zoneStatuses = .ok z) ∧
      ∀ zone : Zone, 1 ≤ zone.val.toNat ∧ zone.val.toNat ≤ 208 → ∃ t, p'.zoneName zone = .ok t := by
  have hp := C36_connect_establishes c hc ops outs p h
  obtain ⟨os, p', hr⟩ := run_total (connected_good hp) hl
  obtain ⟨h1, h2, h3, _⟩ := C36_connected_never_panics hp hr
  exact ⟨os, p', hr, h1, h2, h3⟩

/-! ## C37: one question at a time -/

/-- Where the dialogue is, from the state of the future. -/
def talkOf : Phase → Talk
  | .asking i => match i.await with
    | .ready _ => .toAsk i.send
    | _ => .waiting i.send
  | .finished (.ok _) => .done
  | .finished (.error _) => .failed

theorem talk_env {i : Init} {c : Connection} :
    talkOf (.asking { i with panel := { i.panel with conn := c } }) = talkOf (.asking i) := rfl

theorem talk_wait {i : Init} (h : i.await = .flush ∨ i.await = .reply) :
    talkOf (.asking i) = .waiting i.send := by
  unfold talkOf
  dsimp only
  rcases h with h | h <;> rw [h]

theorem talk_asking (p : Panel) (st : Stage) :
    talkOf (.asking (asking p st)) = .toAsk (stageQ st) := rfl

theorem finished_end {r ops outs ph} (h : IHist (.finished r) ops outs ph) :
    outs = [] ∧ ph = .finished r := by
  cases h <;> exact ⟨rfl, rfl⟩

theorem dialogue_of_hist {ph ph' : Phase} {ops outs} (h : IHist ph ops outs ph') :
    Dialogue (talkOf ph) outs (talkOf ph') := by
  induction h with
  | nil _ => exact .nil
  | finished _ => exact .nil
  | @cons i op o ph ops os ph' hg hc ht ih =>
    cases hc with
    | arrive r => exact .env ih
    | writable r => exact .env ih
    | tick cx _ hc =>
      cases hc with
      | ask ha hw =>
        rw [show talkOf (.asking i) = .toAsk i.send by unfold talkOf; dsimp only; rw [ha]]
        exact .ask ih
      | flushPending c ha hs =>
        rw [talk_env, talk_wait (.inl ha)] at ih
        rw [talk_wait (.inl ha)]
        exact .pending ih
      | flushFailed c e ha hs =>
        obtain ⟨rfl, rfl⟩ := finished_end ht
        rw [talk_wait (.inl ha)]
        exact .failed
      | flushed c ha hs =>
        rw [talk_wait (.inl ha)]
        exact .flushed ih
      | readPending c new ha hs =>
        rw [talk_env, talk_wait (.inr ha)] at ih
        rw [talk_wait (.inr ha)]
        exact .pending ih
      | readEnded c new ha hs =>
        obtain ⟨rfl, rfl⟩ := finished_end ht
        rw [talk_wait (.inr ha)]
        exact .failed
      | readFailed c new e ha hs =>
        obtain ⟨rfl, rfl⟩ := finished_end ht
        rw [talk_wait (.inr ha)]
        exact .failed
      | other c new pkt ev w p' ha hs hi hn =>
        rw [talk_wait (.inr ha)]
        rw [talk_wait (i := { i with panel := p' }) (.inr ha)] at ih
        exact .other hn ih
      | reply c new pkt ev w p' m _ ha hs hi hm hr hc =>
        rw [talk_wait (.inr ha)]
        cases hc with
        | ask q st' _ _ hf =>
          rw [← hg.send] at hf
          exact .reply hm hr hf ih
        | done q _ hf =>
          rw [← hg.send] at hf
          obtain ⟨rfl, rfl⟩ := finished_end ht
          exact .last hm hr hf

/-- **C37** every history of `connect` is a dialogue starting with the arming status request, one
question at a time, each followed by the next only after a reply to it; and `connect` succeeds
exactly when the last question has been answered. -/
theorem C37_dialogue (c : Connection) (hc : Fresh c) (ops : List InitOp) (outs : List Obs)
    (ph : Phase) (h : Init.connect c ops = .ok (outs, ph)) :
    ∃ x, Dialogue (.toAsk .armingStatusRequest) outs x ∧
      (x = .done ↔ ∃ p, ph = .finished (.ok p)) := by
  refine ⟨talkOf ph, dialogue_of_hist (connect_hist hc h), ?_⟩
  match ph with
  | .finished (.ok p) => exact ⟨fun _ => ⟨p, rfl⟩, fun _ => rfl⟩
  | .finished (.error e) => exact ⟨fun h => (by cases h), fun ⟨p, h⟩ => (by cases h)⟩
  | .asking i =>
    refine ⟨fun h => ?_, fun ⟨p, h⟩ => by cases h⟩
    unfold talkOf at h
    dsimp only at h
    split at h <;> cases h

/-- The questions that may still be asked from `q` on. -/
def remaining : Message → List Message
  | .armingStatusRequest => allQuestions
  | .zoneStatusRequest => allQuestions.drop 1
  | .stringDescriptionRequest q =>
    (List.range' q.num.toNat (entries q.ty + 1 - q.num.toNat)).map (describe q.ty) ++
    match q.ty with
    | .area => (List.range' 1 32).map (describe .task) ++ (List.range' 1 208).map (describe .zone)
    | .task => (List.range' 1 208).map (describe .zone)
    | _ => []
  | _ => []

/-- A question that occurs. -/
def IsQuestion : Message → Prop
  | .armingStatusRequest => True
  | .zoneStatusRequest => True
  | .stringDescriptionRequest q => 1 ≤ q.num.toNat ∧ q.num.toNat ≤ entries q.ty
  | _ => False

theorem describe_num (q : StringDescriptionRequest) :
    describe q.ty q.num.toNat = .stringDescriptionRequest q := by
  unfold describe
  rw [UInt8.ofNat_toNat]

theorem remaining_head {q : Message} (h : IsQuestion q) :
    ∃ l, remaining q = q :: l := by
  match q, h with
  | .armingStatusRequest, _ => exact ⟨_, rfl⟩
  | .zoneStatusRequest, _ => exact ⟨_, rfl⟩
  | .stringDescriptionRequest q, h =>
    obtain ⟨h1, h2⟩ := h
    unfold remaining
    dsimp only
    have e : entries q.ty + 1 - q.num.toNat = entries q.ty - q.num.toNat + 1 := by omega
    rw [e, List.range'_succ, List.map_cons, describe_num]
    exact ⟨_, rfl⟩

theorem follow_remaining {q m q' : Message} (hq : IsQuestion q) (hr : Responds m q)
    (h : followUp q m = some q') : IsQuestion q' ∧ remaining q' <:+ (remaining q).tail := by
  match q, hq with
  | .armingStatusRequest, _ =>
    cases h
    exact ⟨True.intro, List.suffix_refl _⟩
  | .zoneStatusRequest, _ =>
    cases h
    exact ⟨⟨by decide, by decide⟩, List.suffix_refl _⟩
  | .stringDescriptionRequest q, hq =>
    obtain ⟨h1, h2⟩ := hq
    obtain ⟨l, hl⟩ := remaining_head (q := .stringDescriptionRequest q) ⟨h1, h2⟩
    have htail : (remaining (.stringDescriptionRequest q)).tail =
        (List.range' (q.num.toNat + 1) (entries q.ty - q.num.toNat)).map (describe q.ty) ++
        match q.ty with
        | .area => (List.range' 1 32).map (describe .task) ++ (List.range' 1 208).map (describe .zone)
        | .task => (List.range' 1 208).map (describe .zone)
        | _ => [] := by
      unfold remaining
      dsimp only
      have e : entries q.ty + 1 - q.num.toNat = entries q.ty - q.num.toNat + 1 := by omega
      rw [e, List.range'_succ, List.map_cons, List.cons_append, List.tail_cons]
    rw [htail]
    obtain ⟨r, rfl, hty, hn⟩ : ∃ r, m = .stringDescriptionResponse r ∧ r.ty = q.ty ∧
        (q.num.toNat ≤ r.num.toNat ∨ r.num.toNat = 0) := by
      cases hr with
      | text r q h1 h2 => exact ⟨r, rfl, h1, .inl h2⟩
      | noText r q h1 h2 => exact ⟨r, rfl, h1, .inr h2⟩
    have h : (if r.num.toNat = 0 ∨ entries q.ty ≤ r.num.toNat then afterType q.ty
      else some (describe q.ty (r.num.toNat + 1))) = some q' := h
    split at h
    · obtain ⟨ty, n⟩ := q
      dsimp only at *
      cases ty <;> cases h
      · exact ⟨⟨by decide, by decide⟩, List.suffix_append _ _⟩
      · exact ⟨⟨by decide, by decide⟩, List.suffix_append _ _⟩
    · rename_i hx
      cases h
      have hsm := entries_small q.ty
      have hk : (UInt8.ofNat (r.num.toNat + 1)).toNat = r.num.toNat + 1 := by simp; omega
      refine ⟨?_, ?_⟩
      · show 1 ≤ (UInt8.ofNat (r.num.toNat + 1)).toNat ∧ _ ≤ entries q.ty
        show 1 ≤ (UInt8.ofNat (r.num.toNat + 1)).toNat ∧
          (UInt8.ofNat (r.num.toNat + 1)).toNat ≤ entries q.ty
        omega
      · unfold describe remaining
        dsimp only
        rw [hk]
        have e : List.range' (q.num.toNat + 1) (entries q.ty - q.num.toNat) =
            List.range' (q.num.toNat + 1) (r.num.toNat - q.num.toNat) ++
            List.range' (r.num.toNat + 1) (entries q.ty + 1 - (r.num.toNat + 1)) := by
          have := List.range'_append (s := q.num.toNat + 1) (m := r.num.toNat - q.num.toNat)
            (n := entries q.ty + 1 - (r.num.toNat + 1)) (step := 1)
          rw [show q.num.toNat + 1 + 1 * (r.num.toNat - q.num.toNat) = r.num.toNat + 1 by omega,
            show r.num.toNat - q.num.toNat + (entries q.ty + 1 - (r.num.toNat + 1)) =
              entries q.ty - q.num.toNat by omega] at this
          exact this.symm
        rw [e, List.map_append, List.append_assoc]
        exact List.suffix_append _ _

theorem questions_cons (o : Obs) (l : List Obs) :
    questions (o :: l) = questions [o] ++ questions l := by
  unfold questions
  rw [← List.filterMap_append]
  rfl

/-- Questions that may still be asked. -/
def ahead : Talk → List Message
  | .toAsk q => remaining q
  | .waiting q => (remaining q).tail
  | _ => []

/-- The question is one that occurs. -/
def _root_.Elk.Spec.Talk.Proper : Talk → Prop
  | .toAsk q => IsQuestion q
  | .waiting q => IsQuestion q
  | _ => True

theorem dialogue_sublist {s x : Talk} {outs : List Obs} (h : Dialogue s outs x)
    (hq : s.Proper) :
    (questions outs).Sublist (ahead s) := by
  induction h with
  | nil => exact List.nil_sublist _
  | @ask q l x _ ih =>
    obtain ⟨r, hr⟩ := remaining_head hq
    have := ih hq
    unfold ahead at *
    dsimp only at *
    rw [hr] at *
    exact List.Sublist.cons_cons _ this
  | @reply q q' ev m l x hm hr hf _ ih =>
    obtain ⟨h1, h2⟩ := follow_remaining hq hr hf
    exact (ih h1).trans h2.sublist
  | last _ _ _ => exact List.nil_sublist _
  | other _ _ ih => exact ih hq
  | flushed _ ih => exact ih hq
  | pending _ ih => exact ih hq
  | env _ ih => exact ih hq
  | failed => exact List.nil_sublist _

/-- **C37** the questions asked are among the 250 possible ones, each at most once and in order:
as, zs, then areas, tasks and zones with increasing numbers. -/
theorem C37_questions (c : Connection) (hc : Fresh c) (ops : List InitOp) (outs : List Obs)
    (ph : Phase) (h : Init.connect c ops = .ok (outs, ph)) :
    (questions outs).Sublist allQuestions ∧ (questions outs).length ≤ 250 := by
  have hs : (questions outs).Sublist allQuestions :=
    dialogue_sublist (dialogue_of_hist (connect_hist hc h)) True.intro
  exact ⟨hs, Nat.le_trans hs.length_le (by simp [allQuestions])⟩

theorem dialogue_append {a b : List Obs} : ∀ {s x : Talk}, Dialogue s (a ++ b) x →
    ∃ y, Dialogue s a y ∧ Dialogue y b x := by
  induction a with
  | nil => intro s x h; exact ⟨s, .nil, h⟩
  | cons o a ih =>
    intro s x h
    rw [List.cons_append] at h
    generalize hl : o :: (a ++ b) = l at h
    cases h with
    | nil => cases hl
    | ask h => cases hl; obtain ⟨y, h1, h2⟩ := ih h; exact ⟨y, .ask h1, h2⟩
    | reply hm hr hf h =>
      cases hl; obtain ⟨y, h1, h2⟩ := ih h; exact ⟨y, .reply hm hr hf h1, h2⟩
    | last hm hr hf =>
      simp only [List.cons.injEq] at hl
      obtain ⟨rfl, hl⟩ := hl
      obtain ⟨rfl, rfl⟩ := List.append_eq_nil_iff.mp hl
      exact ⟨.done, .last hm hr hf, .nil⟩
    | other hn h => cases hl; obtain ⟨y, h1, h2⟩ := ih h; exact ⟨y, .other hn h1, h2⟩
    | flushed h => cases hl; obtain ⟨y, h1, h2⟩ := ih h; exact ⟨y, .flushed h1, h2⟩
    | pending h => cases hl; obtain ⟨y, h1, h2⟩ := ih h; exact ⟨y, .pending h1, h2⟩
    | env h => cases hl; obtain ⟨y, h1, h2⟩ := ih h; exact ⟨y, .env h1, h2⟩
    | failed =>
      simp only [List.cons.injEq] at hl
      obtain ⟨rfl, hl⟩ := hl
      obtain ⟨rfl, rfl⟩ := List.append_eq_nil_iff.mp hl
      exact ⟨.failed, .failed, .nil⟩

theorem asked_talk {s x : Talk} {q l} (h : Dialogue s (.asked q :: l) x) :
    s = .toAsk q ∧ Dialogue (.waiting q) l x := by
  cases h with
  | ask h => exact ⟨rfl, h⟩

theorem between_reply {b : List Obs} : ∀ {q q' : Message}, questions b = [] →
    Dialogue (.waiting q) b (.toAsk q') → ∃ ev m, .got ev ∈ b ∧ ev.msg = some (.ok m) ∧
      Responds m q ∧ followUp q m = some q' := by
  induction b with
  | nil => intro q q' _ h; cases h
  | cons o b ih =>
    intro q q' hb h
    rw [questions_cons, List.append_eq_nil_iff] at hb
    have more : Dialogue (.waiting q) b (.toAsk q') → ∃ ev m, .got ev ∈ o :: b ∧
        ev.msg = some (.ok m) ∧ Responds m q ∧ followUp q m = some q' := fun h => by
      obtain ⟨ev, m, h1, h2⟩ := ih hb.2 h
      exact ⟨ev, m, List.mem_cons_of_mem _ h1, h2⟩
    cases h with
    | reply hm hr hf h =>
      rename_i q1 ev m
      have : q1 = q' := by
        clear more ih
        have hb2 := hb.2
        clear hb
        induction b with
        | nil => cases h; rfl
        | cons o b ih2 =>
          rw [questions_cons, List.append_eq_nil_iff] at hb2
          cases h with
          | ask h => simp [questions] at hb2
          | env h => exact ih2 h hb2.2
      subst this
      exact ⟨ev, m, List.mem_cons_self .., hm, hr, hf⟩
    | other hn h => exact more h
    | flushed h => exact more h
    | pending h => exact more h
    | env h => exact more h

/-- **C37** between two consecutive questions a reply to the first was received, and the second is
the one that follows from it. -/
theorem C37_reply_between (c : Connection) (hc : Fresh c) (ops : List InitOp)
    (a b d : List Obs) (q q' : Message) (ph : Phase)
    (h : Init.connect c ops = .ok (a ++ .asked q :: b ++ .asked q' :: d, ph))
    (hb : questions b = []) :
    ∃ ev m, .got ev ∈ b ∧ ev.msg = some (.ok m) ∧ Responds m q ∧ followUp q m = some q' := by
  have hd := dialogue_of_hist (connect_hist hc h)
  obtain ⟨y, h1, h2⟩ := dialogue_append hd
  obtain ⟨z, h3, h4⟩ := dialogue_append h1
  obtain ⟨rfl, h5⟩ := asked_talk h4
  obtain ⟨rfl, _⟩ := asked_talk h2
  exact between_reply hb h5

/-- The connection of a phase. -/
def connOf : Phase → Option Connection
  | .asking i => some i.panel.conn
  | .finished (.ok p) => some p.conn
  | .finished (.error _) => none

theorem reply_conn {p : Panel} {st m ph} (h : ReplyCase p st m ph) : connOf ph = some p.conn := by
  cases h with
  | ask p' st' hn _ _ => exact congrArg some (names_keep hn).1
  | done p' hn _ => exact congrArg some (names_keep hn).1

theorem wire_step {i : Init} {op o ph} (h : InitCase i op (o, ph)) {c' : Connection}
    (hc : connOf ph = some c') : c'.sock.sent ++ c'.wbuf =
      i.panel.conn.sock.sent ++ i.panel.conn.wbuf ++
        (questions [o]).flatMap fun q => asciiFrame (sentText q) := by
  cases h with
  | arrive r => cases hc; simp [questions, Connection.arrive]
  | writable r => cases hc; simp [questions, Connection.writable]
  | tick cx _ h =>
    cases h with
    | ask ha hw => cases hc; simp [questions, hw]
    | flushPending c ha hs => cases hc; simpa [questions] using hs.bytes
    | flushFailed c e ha hs => cases hc
    | flushed c ha hs => cases hc; simpa [questions] using hs.bytes
    | readPending c new ha hs => cases hc; simp [questions, hs.sent, hs.wbuf]
    | readEnded c new ha hs => cases hc
    | readFailed c new e ha hs => cases hc
    | other c new pkt ev w p' ha hs hi hn =>
      cases hc
      obtain ⟨h1, _⟩ := interp_keeps hi
      simp [questions, h1, hs.sent, hs.wbuf]
    | reply c new pkt ev w p' m _ ha hs hi hm hr hcase =>
      rw [reply_conn hcase] at hc
      cases hc
      obtain ⟨h1, _⟩ := interp_keeps hi
      simp [questions, h1, hs.sent, hs.wbuf]

theorem wire_hist {ph ph' : Phase} {ops outs} (h : IHist ph ops outs ph') {c' : Connection}
    (hc' : connOf ph' = some c') : ∃ c, connOf ph = some c ∧ c'.sock.sent ++ c'.wbuf =
      c.sock.sent ++ c.wbuf ++ (questions outs).flatMap fun q => asciiFrame (sentText q) := by
  induction h with
  | nil _ => exact ⟨c', hc', by simp [questions]⟩
  | finished _ => exact ⟨c', hc', by simp [questions]⟩
  | @cons _ _ o _ _ os _ _ hc ht ih =>
    obtain ⟨c, h1, h2⟩ := ih hc'
    refine ⟨_, rfl, ?_⟩
    rw [h2, wire_step hc h1, questions_cons o os, List.flatMap_append]
    simp only [List.append_assoc]

/-- **C37** what has been written, and what is still to be written, are together exactly the frames
of the questions asked, in order; when `connect` succeeds all of it has been written. -/
theorem C37_wire (c : Connection) (hc : Fresh c) (ops : List InitOp) (outs : List Obs) (ph : Phase)
    (h : Init.connect c ops = .ok (outs, ph)) :
    (∀ i, ph = .asking i → i.panel.conn.sock.sent ++ i.panel.conn.wbuf =
      (questions outs).flatMap fun q => asciiFrame (sentText q)) ∧
    (∀ p, ph = .finished (.ok p) → p.conn.sock.sent =
      (questions outs).flatMap fun q => asciiFrame (sentText q)) := by
  have hh := connect_hist hc h
  have key : ∀ c', connOf ph = some c' → c'.sock.sent ++ c'.wbuf =
      (questions outs).flatMap fun q => asciiFrame (sentText q) := by
    intro c' hc'
    obtain ⟨c0, h1, h2⟩ := wire_hist hh hc'
    cases h1
    rw [h2]
    show c.sock.sent ++ c.wbuf ++ _ = _
    rw [hc.sent, hc.wbuf]
    rfl
  refine ⟨fun i hi => key _ (by rw [hi]; rfl), fun p hp => ?_⟩
  have hg := hh.good
  rw [hp] at hg
  have := key p.conn (by rw [hp]; rfl)
  rw [hg.flushed, List.append_nil] at this
  exact this

/-! ## C38: what `connect` learns -/

/-- The panel of a phase. -/
def panelOf : Phase → Option Panel
  | .asking i => some i.panel
  | .finished (.ok p) => some p
  | .finished (.error _) => none

theorem gotten_cons (o : Obs) (l : List Obs) : gotten (o :: l) = gotten [o] ++ gotten l := by
  unfold gotten
  rw [← List.filterMap_append]
  rfl

/-- What a step does to the views: nothing, or what interpreting a packet does. -/
theorem step_panel {i : Init} {op o ph} (h : InitCase i op (o, ph)) {p : Panel}
    (hp : panelOf ph = some p) :
    (gotten [o] = [] ∧ p.state = i.panel.state ∧ p.pendingArm = i.panel.pendingArm) ∨
    ∃ ev c now pkt w p1, o = .got ev ∧ InterpCase { i.panel with conn := c } now pkt (ev, w, p1) ∧
      p.pendingArm = p1.pendingArm ∧ p.state.armingStatus = p1.state.armingStatus ∧
      p.state.zoneStatuses = p1.state.zoneStatuses := by
  cases h with
  | arrive r => cases hp; exact .inl ⟨rfl, rfl, rfl⟩
  | writable r => cases hp; exact .inl ⟨rfl, rfl, rfl⟩
  | tick cx _ h =>
    cases h with
    | ask ha hw => cases hp; exact .inl ⟨rfl, rfl, rfl⟩
    | flushPending c ha hs => cases hp; exact .inl ⟨rfl, rfl, rfl⟩
    | flushFailed c e ha hs => cases hp
    | flushed c ha hs => cases hp; exact .inl ⟨rfl, rfl, rfl⟩
    | readPending c new ha hs => cases hp; exact .inl ⟨rfl, rfl, rfl⟩
    | readEnded c new ha hs => cases hp
    | readFailed c new e ha hs => cases hp
    | other c new pkt ev w p' ha hs hi hn =>
      cases hp
      exact .inr ⟨ev, c, _, pkt, w, p', rfl, hi, rfl, rfl, rfl⟩
    | reply c new pkt ev w p' m _ ha hs hi hm hr hcase =>
      refine .inr ⟨ev, c, _, pkt, w, p', rfl, hi, ?_⟩
      cases hcase with
      | ask q st' hn _ _ =>
        cases hp
        obtain ⟨_, _, n3, n4, n5⟩ := names_keep hn
        exact ⟨n3, n4, n5⟩
      | done q hn _ =>
        cases hp
        obtain ⟨_, _, n3, n4, n5⟩ := names_keep hn
        exact ⟨n3, n4, n5⟩

/-- The views agree with the messages received. -/
structure Views (p : Panel) (evs : List Event) : Prop where
  arming : (evs.filterMap reportOf = [] ∧ p.state.armingStatus = none) ∨
    ∃ m, (evs.filterMap reportOf).getLast? = some m ∧ Latest p m
  shown : ∀ v, p.state.armingStatus = some v → v ∈ evs.filterMap reportOf
  zones : p.state.zoneStatuses = none ∨ ∃ z, p.state.zoneStatuses = some z ∧
    ∀ i, ∀ hi : i < 208, (evs.filterMap (zoneReport i)).getLast? = some z.zones[i]

theorem views_keep {p p' : Panel} {evs} (h1 : p'.state.armingStatus = p.state.armingStatus)
    (h2 : p'.pendingArm = p.pendingArm) (h3 : p'.state.zoneStatuses = p.state.zoneStatuses)
    (h : Views p evs) : Views p' evs := by
  refine ⟨?_, by rw [h1]; exact h.shown, by rw [h3]; exact h.zones⟩
  rcases h.arming with ⟨a, b⟩ | ⟨m, a, b⟩
  · exact .inl ⟨a, h1.trans b⟩
  · exact .inr ⟨m, a, latest_keep h1 h2 b⟩

theorem views_interp {p p' : Panel} {now pkt ev w evs} (hi : InterpCase p now pkt (ev, w, p'))
    (hheld : p.state.armingStatus = none → p.pendingArm = none)
    (h : Views p evs) : Views p' (evs ++ [ev]) := by
  cases hi with
  | bad e _ =>
    exact ⟨by simpa [reportOf] using h.arming, by simpa [reportOf] using h.shown,
      by simpa [zoneReport] using h.zones⟩
  | skip _ =>
    exact ⟨by simpa [reportOf] using h.arming, by simpa [reportOf] using h.shown,
      by simpa [zoneReport] using h.zones⟩
  | msg m ch p1 c w _ _ _ ht hc =>
    obtain ⟨g1, g2, g3, g4⟩ := complete_keeps hc
    refine views_keep (p := p1) (by rw [g2]) g3 (by rw [g2]) ?_
    constructor
    · rcases h.arming with ⟨a, b⟩ | ⟨m0, a, b⟩
      · cases ht with
        | asFirst r _ =>
          refine .inr ⟨r, by simp [reportOf], .inl ⟨arming_iff.mpr rfl, hheld b⟩⟩
        | asHeld r prior ha _ _ => rw [b] at ha; cases ha
        | asNew r prior ha _ _ => rw [b] at ha; cases ha
        | asSame r ha _ => rw [b] at ha; cases ha
        | zcNone r hn => exact .inl ⟨by simpa [reportOf] using a, b⟩
        | zcSet r z i hi h1 h2 => exact .inl ⟨by simpa [reportOf] using a, b⟩
        | zs r => exact .inl ⟨by simpa [reportOf] using a, b⟩
        | other m h1 h2 h3 =>
          refine .inl ⟨?_, b⟩
          rw [List.filterMap_append, a]
          cases m <;> first | exact absurd rfl (h1 _) | rfl
      · have := latest_track ht b
        refine .inr ⟨_, ?_, this⟩
        rw [List.filterMap_append, List.getLast?_append]
        cases m <;> first | rfl | (show some _ = _; rfl) | (simp only [reportOf]; exact a)
    · intro v hv
      rw [List.filterMap_append, List.mem_append]
      cases ht with
      | asFirst r _ => cases hv; exact .inr (by simp [reportOf])
      | asNew r prior ha _ _ => cases hv; exact .inr (by simp [reportOf])
      | asHeld r prior ha _ _ => exact .inl (h.shown v hv)
      | asSame r ha _ => exact .inl (h.shown v hv)
      | zcNone r hn => exact .inl (h.shown v hv)
      | zcSet r z i hi h1 h2 => exact .inl (h.shown v hv)
      | zs r => exact .inl (h.shown v hv)
      | other m h1 h2 h3 => exact .inl (h.shown v hv)
    · cases hz : p.state.zoneStatuses with
      | some z =>
        obtain ⟨z', hz', hh⟩ := zone_track ht hz
        refine .inr ⟨z', hz', fun i hi => ?_⟩
        rcases h.zones with hn | ⟨z0, h0, hl⟩
        · rw [hz] at hn; cases hn
        · rw [hz] at h0; cases h0
          rw [List.filterMap_append, List.getLast?_append, hl i hi,
            hh i hi ⟨some pkt, some (.ok m), c, ch⟩ rfl]
          rw [List.filterMap_cons]
          cases zoneReport i ⟨some pkt, some (.ok m), c, ch⟩ <;> rfl
      | none =>
        cases ht with
        | zs r =>
          refine .inr ⟨r, rfl, fun i hi => ?_⟩
          rw [List.filterMap_append, List.getLast?_append]
          simp [zoneReport, hi]
        | zcSet r z i hi h1 h2 => rw [hz] at h1; cases h1
        | asFirst r _ => exact .inl hz
        | asHeld r prior ha _ _ => exact .inl hz
        | asNew r prior ha _ _ => exact .inl hz
        | asSame r ha _ => exact .inl hz
        | zcNone r hn => exact .inl hz
        | other m _ _ _ => exact .inl hz

theorem views_hist {ph ph' : Phase} {ops outs} (h : IHist ph ops outs ph') :
    ∀ {evs : List Event}, (∀ p, panelOf ph = some p → Views p evs) →
    ∀ p', panelOf ph' = some p' → Views p' (evs ++ gotten outs) := by
  induction h with
  | nil _ => intro evs hv p' hp'; simpa [gotten] using hv p' hp'
  | finished _ => intro evs hv p' hp'; simpa [gotten] using hv p' hp'
  | @cons i op o ph ops os ph' hg hc ht ih =>
    intro evs hv p' hp'
    rw [gotten_cons, ← List.append_assoc]
    refine ih ?_ p' hp'
    intro p hp
    have hi := hv _ rfl
    rcases step_panel hc hp with ⟨h1, h2, h3⟩ | ⟨ev, c, now, pkt, w, p1, rfl, h2, h3, h4, h5⟩
    · rw [h1, List.append_nil]
      exact views_keep (by rw [h2]) h3 (by rw [h2]) hi
    · refine views_keep h4 h3 h5 (views_interp (evs := evs) h2 ?_
        (views_keep (p := i.panel) (by rfl) (by rfl) (by rfl) hi))
      intro hn
      cases hpa : i.panel.pendingArm with
      | none => exact rfl
      | some pa =>
        obtain ⟨v, hv, _⟩ := hg.held pa hpa
        have hn : i.panel.state.armingStatus = none := hn
        rw [hv] at hn
        cases hn

/-- **C38** after a successful `connect` the arming status shown is that of the last report received
(or that report is being withheld as suspicious, and an earlier one shown), and every zone has the status given by the last
message about it. -/
theorem C38_views (c : Connection) (hc : Fresh c) (ops : List InitOp) (outs : List Obs) (p : Panel)
    (h : Init.connect c ops = .ok (outs, .finished (.ok p))) :
    (∃ m, ((gotten outs).filterMap reportOf).getLast? = some m ∧ Latest p m) ∧
    (∀ v, p.armingStatus = .ok v → v ∈ (gotten outs).filterMap reportOf) ∧
    ∃ z, p.zoneStatuses = .ok z ∧
      ∀ i, ∀ hi : i < 208, ((gotten outs).filterMap (zoneReport i)).getLast? = some z.zones[i] := by
  have hh := connect_hist hc h
  have hcon := C36_connect_establishes c hc ops outs p h
  have hv := views_hist hh (evs := []) (by
    intro p hp
    cases hp
    exact ⟨.inl ⟨rfl, rfl⟩, (fun v h => (by cases h)), .inl rfl⟩) p rfl
  rw [List.nil_append] at hv
  refine ⟨?_, fun v h => hv.shown v (arming_iff.mp h), ?_⟩
  · rcases hv.arming with ⟨_, b⟩ | hm
    · obtain ⟨m, hm⟩ := hcon.arming
      rw [arming_iff, b] at hm; cases hm
    · exact hm
  · rcases hv.zones with hn | ⟨z, hz, hl⟩
    · obtain ⟨z, hz⟩ := hcon.zones
      rw [zones_iff, hn] at hz; cases hz
    · exact ⟨z, zones_iff.mpr hz, hl⟩

/-- The order of the types. -/
def typeRank : TextDescriptionType → Nat
  | .area => 0
  | .task => 1
  | .zone => 2
  | _ => 3

/-- How many entries of a type have been settled when `next` is the next question, if any. -/
def settled (next : Option Message) (ty : TextDescriptionType) : Nat :=
  match next with
  | none => entries ty
  | some (.stringDescriptionRequest q) =>
    if ty = q.ty then q.num.toNat - 1 else if typeRank ty < typeRank q.ty then entries ty else 0
  | some _ => 0

/-- The names agree with those of the panel as far as settled, and are empty after that. -/
def NamesTo (S : Server) (s : PanelState) (next : Option Message) : Prop :=
  ∀ ty i, i < entries ty → nameAt s ty i =
    some (if i < settled next ty then (S.name ty (i + 1)).getD .empty else .empty)

theorem names_init (S : Server) : NamesTo S PanelState.default (some .armingStatusRequest) := by
  intro ty i hi
  rw [show settled (some .armingStatusRequest) ty = 0 from rfl, if_neg (by omega)]
  cases ty with
  | area =>
    show (Vector.replicate 8 TextDescription.empty).toList[i]? = _
    rw [Vector.toList_replicate, List.getElem?_replicate, if_pos (show i < 8 from hi)]
  | task =>
    show (Vector.replicate 32 TextDescription.empty).toList[i]? = _
    rw [Vector.toList_replicate, List.getElem?_replicate, if_pos (show i < 32 from hi)]
  | zone =>
    show (Vector.replicate 208 TextDescription.empty).toList[i]? = _
    rw [Vector.toList_replicate, List.getElem?_replicate, if_pos (show i < 208 from hi)]
  | _ => exact absurd hi (Nat.not_lt_zero _)

theorem names_eq {s s' : PanelState} (h1 : s'.zoneNames = s.zoneNames)
    (h2 : s'.areaNames = s.areaNames) (h3 : s'.taskNames = s.taskNames) (ty : TextDescriptionType)
    (i : Nat) : nameAt s' ty i = nameAt s ty i := by
  cases ty <;> simp [nameAt, PanelState.names, h1, h2, h3]

theorem namesTo_eq {S : Server} {s s' : PanelState} {next} (h1 : s'.zoneNames = s.zoneNames)
    (h2 : s'.areaNames = s.areaNames) (h3 : s'.taskNames = s.taskNames)
    (h : NamesTo S s next) : NamesTo S s' next :=
  fun ty i hi => (names_eq h1 h2 h3 ty i).trans (h ty i hi)

theorem settled_follow {q : StringDescriptionRequest} {r : StringDescriptionResponse}
    (hty : 0 < entries q.ty) (hfit : r.num.toNat ≤ entries q.ty) (ty : TextDescriptionType)
    (he : 0 < entries ty) :
    settled (followUp (.stringDescriptionRequest q) (.stringDescriptionResponse r)) ty =
      if ty = q.ty then (if r.num.toNat = 0 then entries q.ty else r.num.toNat)
      else settled (some (.stringDescriptionRequest q)) ty := by
  have hf : followUp (.stringDescriptionRequest q) (.stringDescriptionResponse r) =
    if r.num.toNat = 0 ∨ entries q.ty ≤ r.num.toNat then afterType q.ty
    else some (describe q.ty (r.num.toNat + 1)) := rfl
  rw [hf]
  have hsm := entries_small q.ty
  by_cases h : r.num.toNat = 0 ∨ entries q.ty ≤ r.num.toNat
  · rw [if_pos h]
    have hx : (if r.num.toNat = 0 then entries q.ty else r.num.toNat) = entries q.ty := by
      split <;> omega
    rw [hx]
    obtain ⟨t, n⟩ := q
    dsimp only at *
    cases t <;> first
      | exact absurd hty (Nat.lt_irrefl _)
      | (cases ty <;> first
          | exact absurd he (Nat.lt_irrefl _)
          | simp [afterType, settled, describe, typeRank, entries])
  · rw [if_neg h]
    have hk : (UInt8.ofNat (r.num.toNat + 1)).toNat = r.num.toNat + 1 := by simp; omega
    unfold describe settled
    dsimp only
    by_cases ht : ty = q.ty
    · rw [if_pos ht, if_pos ht, hk, if_neg (by omega)]; rfl
    · rw [if_neg ht, if_neg ht, if_neg ht]

/-- A documented answer settles the entries up to the one described. -/
theorem names_reply {S : Server} {p p' : Panel} {st : Stage} {m : Message}
    (hst : StageOk st) (hr : Responds m (stageQ st)) (hn : NamesCase p st m p')
    (hS : ∀ q r, stageQ st = .stringDescriptionRequest q → m = .stringDescriptionResponse r →
      S.Answers q r)
    (h : NamesTo S p.state (some (stageQ st))) :
    NamesTo S p'.state (followUp (stageQ st) m) := by
  match st, hst with
  | .arming, _ =>
    cases hn with
    | status _ => exact fun ty i hi => h ty i hi
    | none _ _ _ _ _ he _ _ _ => cases he
    | named _ _ _ _ _ _ he _ _ _ _ _ => cases he
  | .zones, _ =>
    cases hn with
    | status _ =>
      intro ty i hi
      rw [h ty i hi]
      have e : settled (followUp (stageQ .zones) m) ty = 0 := by
        show settled (some (describe .area 1)) ty = 0
        cases ty <;> rfl
      rw [e]
      rfl
    | none _ _ _ _ _ he _ _ _ => cases he
    | named _ _ _ _ _ _ he _ _ _ _ _ => cases he
  | .names ty max u todo, hst =>
    obtain ⟨hmax, hu, -⟩ := stage_max hst
    have hsm := entries_small ty
    have hq : (⟨ty, UInt8.ofNat (u + 1)⟩ : StringDescriptionRequest).num.toNat = u + 1 := by
      show (UInt8.ofNat (u + 1)).toNat = u + 1
      simp; omega
    have hold : ∀ i, i < entries ty → nameAt p.state ty i =
        some (if i < u then (S.name ty (i + 1)).getD .empty else .empty) := by
      intro i hi
      rw [h ty i hi]
      have : settled (some (stageQ (.names ty max u todo))) ty = u := by
        show (if ty = ty then _ - 1 else _) = u
        rw [if_pos rfl, hq]; rfl
      rw [this]
    cases hn with
    | status hx => exact absurd rfl (hx ty max u todo)
    | none ty' max' u' todo' r he hm hrt h0 =>
      cases he
      subst hm
      obtain ⟨-, ⟨-, hno⟩ | ⟨h1, -⟩⟩ := hS _ r rfl rfl
      · intro ty' i hi
        show nameAt p.state ty' i = _
        show _ = some (if i < settled (followUp (.stringDescriptionRequest ⟨ty, UInt8.ofNat (u + 1)⟩)
          (.stringDescriptionResponse r)) ty' then _ else _)
        rw [settled_follow (q := ⟨ty, UInt8.ofNat (u + 1)⟩) (by show 0 < entries ty; omega)
          (by rw [h0]; exact Nat.zero_le _) ty' (by omega), if_pos h0]
        by_cases ht : ty' = ty
        · subst ht
          rw [if_pos rfl, if_pos hi, hold i hi]
          by_cases hiu : i < u
          · rw [if_pos hiu]
          · rw [if_neg hiu, hno (i + 1) (by rw [hq]; omega) (by show i + 1 ≤ entries ty'; omega)]
            rfl
        · rw [if_neg ht]; exact h ty' i hi
      · rw [hq] at h1; omega
    | named ty' max' u' todo' r s he hm hrt hur hre hs =>
      cases he
      subst hm
      obtain ⟨-, ⟨h0, -⟩ | ⟨h1, h2, h3, h4⟩⟩ := hS _ r rfl rfl
      · omega
      rw [hq] at h1 h4
      intro ty' i hi
      show nameAt s ty' i = _
      show _ = some (if i < settled (followUp (.stringDescriptionRequest ⟨ty, UInt8.ofNat (u + 1)⟩)
        (.stringDescriptionResponse r)) ty' then _ else _)
      rw [settled_follow (q := ⟨ty, UInt8.ofNat (u + 1)⟩) (by show 0 < entries ty; omega)
        hre ty' (by omega), if_neg (by omega : ¬ r.num.toNat = 0), hs.name]
      by_cases ht : ty' = ty
      · subst ht
        rw [if_pos rfl]
        by_cases hir : i = r.num.toNat - 1
        · rw [if_pos ⟨rfl, hir⟩, if_pos (by omega), show i + 1 = r.num.toNat by omega]
          have h3 : S.name ty' r.num.toNat = some r.text := h3
          rw [h3]; rfl
        · rw [if_neg (fun hx => hir hx.2), hold i hi]
          by_cases hiu : i < u
          · rw [if_pos hiu, if_pos (by omega)]
          · rw [if_neg hiu]
            by_cases hlt : i < r.num.toNat
            · rw [if_pos hlt]
              have : S.name ty' (i + 1) = none := h4 (i + 1) (by omega) (by omega)
              rw [this]; rfl
            · rw [if_neg hlt]
      · rw [if_neg (fun hx => ht hx.1), if_neg ht]; exact h ty' i hi

/-- The names known in a phase agree with the panel's. -/
def NamesOk (S : Server) : Phase → Prop
  | .asking i => NamesTo S i.panel.state (some i.send)
  | .finished (.ok p) => NamesTo S p.state none
  | .finished (.error _) => True

theorem obedient_at {S : Server} {pre ev os q r} (h : Obedient S (pre ++ .got ev :: os))
    (hl : (questions pre).getLast? = some q) (hq : q = .stringDescriptionRequest r)
    {m : Message} {a : StringDescriptionResponse} (hm : ev.msg = some (.ok m))
    (ha : m = .stringDescriptionResponse a) (hr : Responds m q) : S.Answers r a := by
  subst hq ha
  exact h pre ev os r a rfl hl hm hr

theorem names_hist {S : Server} {ph ph' : Phase} {ops outs} (h : IHist ph ops outs ph') :
    ∀ {pre : List Obs}, Obedient S (pre ++ outs) →
    (∀ i, ph = .asking i → i.await = .flush ∨ i.await = .reply →
      (questions pre).getLast? = some i.send) → NamesOk S ph → NamesOk S ph' := by
  induction h with
  | nil _ => intro _ _ _ h; exact h
  | finished _ => intro _ _ _ h; exact h
  | @cons i op o ph ops os ph' hg hc ht ih =>
    intro pre hob hlast hno
    have hob' : Obedient S ((pre ++ [o]) ++ os) := by
      rw [List.append_assoc]; exact hob
    have hno : NamesTo S i.panel.state (some i.send) := hno
    have quiet : questions [o] = [] → questions (pre ++ [o]) = questions pre := by
      intro h
      unfold questions at *
      rw [List.filterMap_append, h, List.append_nil]
    refine ih hob' ?_ ?_
    · intro j hj haw
      cases hc with
      | arrive r => cases hj; rw [quiet rfl]; exact hlast i rfl haw
      | writable r => cases hj; rw [quiet rfl]; exact hlast i rfl haw
      | tick cx _ h =>
        cases h with
        | ask ha hw =>
          cases hj
          unfold questions
          rw [List.filterMap_append]
          simp
        | flushPending c ha hs => cases hj; rw [quiet rfl]; exact hlast i rfl haw
        | flushFailed c e ha hs => cases hj
        | flushed c ha hs => cases hj; rw [quiet rfl]; exact hlast i rfl (.inl ha)
        | readPending c new ha hs => cases hj; rw [quiet rfl]; exact hlast i rfl haw
        | readEnded c new ha hs => cases hj
        | readFailed c new e ha hs => cases hj
        | other c new pkt ev w p' ha hs hi hn => cases hj; rw [quiet rfl]; exact hlast i rfl haw
        | reply c new pkt ev w p' m _ ha hs hi hm hr hcase =>
          cases hcase with
          | ask q st' _ _ _ => cases hj; rcases haw with h | h <;> cases h
          | done q _ _ => cases hj
    · cases hc with
      | arrive r => exact hno
      | writable r => exact hno
      | tick cx _ h =>
        cases h with
        | ask ha hw => exact hno
        | flushPending c ha hs => exact hno
        | flushFailed c e ha hs => exact True.intro
        | flushed c ha hs => exact hno
        | readPending c new ha hs => exact hno
        | readEnded c new ha hs => exact True.intro
        | readFailed c new e ha hs => exact True.intro
        | other c new pkt ev w p' ha hs hi hn =>
          obtain ⟨_, _, _, _, h5, h6, h7, _⟩ := interp_keeps hi
          exact namesTo_eq h5 h6 h7 hno
        | reply c new pkt ev w p' m _ ha hs hi hm hr hcase =>
          obtain ⟨_, _, _, _, h5, h6, h7, _⟩ := interp_keeps hi
          have hno' : NamesTo S p'.state (some (stageQ i.stage)) := by
            rw [← hg.send]; exact namesTo_eq h5 h6 h7 hno
          have hS : ∀ q r, stageQ i.stage = .stringDescriptionRequest q →
              m = .stringDescriptionResponse r → S.Answers q r := by
            intro q r hq hmr
            exact obedient_at hob (hlast i rfl (.inr ha)) (hg.send.trans hq) hm hmr hr
          rw [hg.send] at hr
          cases hcase with
          | ask q st' hn hst' hf =>
            have := names_reply hg.stage hr hn hS hno'
            rw [hf] at this
            exact this
          | done q hn hf =>
            have := names_reply hg.stage hr hn hS hno'
            rw [hf] at this
            exact this

/-- **C38** if the panel answers every request for a description as documented (the next named entry
or number 0), then after a successful `connect` every zone, area and task has exactly the name
programmed in the panel, or the empty name if it has none. -/
theorem C38_names (S : Server) (c : Connection) (hc : Fresh c) (ops : List InitOp)
    (outs : List Obs) (p : Panel) (h : Init.connect c ops = .ok (outs, .finished (.ok p)))
    (hS : Obedient S outs) :
    (∀ zone : Zone, 1 ≤ zone.val.toNat ∧ zone.val.toNat ≤ 208 →
      p.zoneName zone = .ok ((S.name .zone zone.val.toNat).getD .empty)) ∧
    (∀ i, ∀ hi : i < 8, p.areaNames[i] = (S.name .area (i + 1)).getD .empty) ∧
    (∀ i, ∀ hi : i < 32, p.state.taskNames[i] = (S.name .task (i + 1)).getD .empty) := by
  have hn : NamesTo S p.state none := names_hist (connect_hist hc h) (pre := [])
    (by rw [List.nil_append]; exact hS) (by
      intro i hi haw
      cases hi
      rcases haw with h | h <;> cases h) (names_init S)
  have key : ∀ ty i, i < entries ty →
      nameAt p.state ty i = some ((S.name ty (i + 1)).getD .empty) := by
    intro ty i hi
    rw [hn ty i hi]
    show some (if i < entries ty then _ else _) = _
    rw [if_pos hi]
  refine ⟨fun zone ⟨h1, h2⟩ => ?_, fun i hi => ?_, fun i hi => ?_⟩
  · have hk := key .zone (zone.val.toNat - 1) (by show _ < 208; omega)
    rw [show zone.val.toNat - 1 + 1 = zone.val.toNat by omega] at hk
    have hk : p.state.zoneNames.toList[zone.val.toNat - 1]? = _ := hk
    have hlt : zone.val.toNat - 1 < 208 := by omega
    rw [Vector.getElem?_toList, Vector.getElem?_eq_getElem hlt] at hk
    unfold Panel.zoneName Limited.toIndex arrGet
    rw [if_pos h1]
    simp only [bind_ok]
    rw [dif_pos hlt, Option.some.inj hk]
  · have hk : p.state.areaNames.toList[i]? = _ := key .area i hi
    rw [Vector.getElem?_toList, Vector.getElem?_eq_getElem hi] at hk
    exact Option.some.inj hk
  · have hk : p.state.taskNames.toList[i]? = _ := key .task i hi
    rw [Vector.getElem?_toList, Vector.getElem?_eq_getElem hi] at hk
    exact Option.some.inj hk

end Elk.Props
