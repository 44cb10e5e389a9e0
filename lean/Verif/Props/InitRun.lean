import Verif.Props.Init
import Verif.Props.Stream
/-!
# Properties of the course of initialisation (C38, C39)

What `connect` reads, when it waits, that every poll of it returns, and that it panics only on a
description whose number is too large.
-/

namespace Elk.Props
open Elk.Spec

/-! ## What is read -/

/-- The packets received in a history. -/
def gottenPackets (outs : List Obs) : List Packet := (gotten outs).filterMap (·.pkt)

/-- The answers to reads queued in a history. -/
def arrivedInit (ops : List InitOp) : List ReadItem :=
  ops.filterMap fun
    | .arrive r => some r
    | _ => none

theorem arrivedInit_cons (op : InitOp) (ops : List InitOp) :
    arrivedInit (op :: ops) = arrivedInit [op] ++ arrivedInit ops := by
  unfold arrivedInit
  rw [← List.filterMap_append]
  rfl

theorem gottenPackets_cons (o : Obs) (l : List Obs) :
    gottenPackets (o :: l) = gottenPackets [o] ++ gottenPackets l := by
  unfold gottenPackets
  rw [gotten_cons, List.filterMap_append]

/-- What a step does to the read side. -/
structure InitRead (c c1 : Connection) (op : InitOp) (o : Obs) (new : Bytes) : Prop where
  received : c1.sock.received = c.sock.received ++ new
  data : dataBytes (c.sock.incoming ++ arrivedInit [op]) = new ++ dataBytes c1.sock.incoming
  steps : Steps (c.rd.buffer ++ new) (gottenPackets [o]) c1.rd.buffer

theorem initRead_quiet {c c1 : Connection} {op o} (h1 : c1.sock.received = c.sock.received)
    (h2 : c1.sock.incoming = c.sock.incoming) (h3 : c1.rd = c.rd)
    (h4 : arrivedInit [op] = []) (h5 : gotten [o] = []) : InitRead c c1 op o [] := by
  refine ⟨by rw [h1, List.append_nil], by rw [h4, h2, List.append_nil]; rfl, ?_⟩
  unfold gottenPackets
  rw [h3, h5, List.append_nil]
  exact .nil

theorem initRead_packet {c c1 : Connection} {cx : Cx} {new pkt ev}
    (hs : NextSpec c cx (.ready (some (.ok pkt))) c1 new) (hp : ev.pkt = some pkt) :
    InitRead c c1 (.tick cx) (.got ev) new := by
  refine ⟨hs.received, ?_, ?_⟩
  · have := hs.data
    rw [dataOf_eq, dataOf_eq] at this
    simpa [arrivedInit] using this
  · have : gottenPackets [.got ev] = [pkt] := by simp [gottenPackets, gotten, hp]
    rw [this]
    exact .cons (hs.packet pkt rfl) .nil

theorem initRead_step {i : Init} {op o ph} (h : InitCase i op (o, ph)) {c1 : Connection}
    (hc : connOf ph = some c1) : ∃ new, InitRead i.panel.conn c1 op o new := by
  cases h with
  | arrive r =>
    cases hc
    refine ⟨[], by simp [Connection.arrive], by simp [arrivedInit, Connection.arrive], ?_⟩
    rw [List.append_nil]
    exact .nil
  | writable r => cases hc; exact ⟨[], initRead_quiet rfl rfl rfl rfl rfl⟩
  | tick cx _ h =>
    cases h with
    | ask ha hw => cases hc; exact ⟨[], initRead_quiet rfl rfl rfl rfl rfl⟩
    | flushPending c ha hs =>
      cases hc; exact ⟨[], initRead_quiet hs.received hs.incoming hs.rd rfl rfl⟩
    | flushFailed c e ha hs => cases hc
    | flushed c ha hs => cases hc; exact ⟨[], initRead_quiet hs.received hs.incoming hs.rd rfl rfl⟩
    | readPending c new ha hs =>
      cases hc
      refine ⟨new, hs.received, ?_, ?_⟩
      · have := hs.data
        rw [dataOf_eq, dataOf_eq] at this
        simpa [arrivedInit] using this
      · show Steps _ [] c.rd.buffer
        rw [hs.other (by intro q h; cases h)]
        exact .nil
    | readEnded c new ha hs => cases hc
    | readFailed c new e ha hs => cases hc
    | other c new pkt ev w p' ha hs hi hn =>
      have hp : ev.pkt = some pkt := by cases hi <;> rfl
      have h1 : p'.conn = c := (interp_keeps hi).1
      cases hc
      exact ⟨new, by show InitRead _ p'.conn _ _ _; rw [h1]; exact initRead_packet hs hp⟩
    | reply c new pkt ev w p' m _ ha hs hi hm hr hcase =>
      have hp : ev.pkt = some pkt := by cases hi <;> rfl
      have h1 : p'.conn = c := (interp_keeps hi).1
      rw [reply_conn hcase] at hc
      cases hc
      exact ⟨new, by rw [h1]; exact initRead_packet hs hp⟩

theorem initRead_hist {ph ph' : Phase} {ops outs} (h : IHist ph ops outs ph') {c' : Connection}
    (hc' : ∃ i, ph' = .asking i ∧ i.panel.conn = c') :
    ∃ c bytes, connOf ph = some c ∧ c'.sock.received = c.sock.received ++ bytes ∧
      dataBytes (c.sock.incoming ++ arrivedInit ops) = bytes ++ dataBytes c'.sock.incoming ∧
      Steps (c.rd.buffer ++ bytes) (gottenPackets outs) c'.rd.buffer := by
  induction h with
  | nil _ =>
    obtain ⟨i, rfl, rfl⟩ := hc'
    exact ⟨_, [], rfl, by simp, by simp [arrivedInit], by rw [List.append_nil]; exact .nil⟩
  | finished _ => obtain ⟨i, h, _⟩ := hc'; cases h
  | @cons i op o ph ops os ph' hg hc ht ih =>
    obtain ⟨c, bytes, h0, h1, h2, h3⟩ := ih hc'
    obtain ⟨new, hr⟩ := initRead_step hc h0
    refine ⟨_, new ++ bytes, rfl, ?_, ?_, ?_⟩
    · rw [h1, hr.received, List.append_assoc]
    · rw [arrivedInit_cons, ← List.append_assoc, dataBytes_append, hr.data, List.append_assoc,
        ← dataBytes_append, h2, List.append_assoc]
    · rw [gottenPackets_cons, ← List.append_assoc]
      exact steps_append hr.steps h3

/-! ## C39: panics -/

/-- A run of the future that panics does so in one tick, after a run that does not. -/
theorem run_panics {ops : List InitOp} : ∀ {ph : Phase} {q : Panic}, PhaseGood ph →
    Phase.run ops ph = .error q → q = .index ∧ ∃ ops₁ cx ops₂ outs i,
      ops = ops₁ ++ .tick cx :: ops₂ ∧ Phase.run ops₁ ph = .ok (outs, .asking i) ∧
      TickPanics i cx := by
  induction ops with
  | nil => intro ph q hg h; cases h
  | cons op ops ih =>
    intro ph q hg h
    match ph, hg with
    | .finished r, hg => cases h
    | .asking i, hg =>
      rw [phase_cons] at h
      rcases init_cases hg op with ⟨⟨o, ph1⟩, h1, h2⟩ | ⟨cx, rfl, h1, h2⟩
      · rw [h1] at h
        simp only [bind_ok] at h
        cases h3 : Phase.run ops ph1 with
        | ok y => rw [h3] at h; cases h
        | error e =>
          rw [h3] at h
          cases h
          obtain ⟨he, ops₁, cx, ops₂, outs, j, e1, e2, e3⟩ := ih (init_good hg h2) h3
          refine ⟨he, op :: ops₁, cx, ops₂, o :: outs, j, by rw [e1]; rfl, ?_, e3⟩
          rw [phase_cons, h1]
          simp only [bind_ok]
          rw [e2]
          rfl
      · rw [h1] at h
        cases h
        exact ⟨rfl, [], cx, ops, [], i, rfl, rfl, h2⟩

theorem connect_run {c : Connection} {ops : List InitOp} : Init.connect c ops =
    Phase.run ops (.asking (asking ⟨c, PanelState.default, none, .idle⟩ .arming)) := by
  unfold Init.connect
  rw [start_ok]
  rfl

/-- **C39** (partial: the property says `connect` never panics.)  `connect` panics only when it
reads a description, in reply to its question, whose number exceeds the number of entries of its
type. -/
theorem C39_cause_partial (c : Connection) (hc : Fresh c) (ops : List InitOp) (q : Panic)
    (h : Init.connect c ops = .error q) :
    q = .index ∧ ∃ ops₁ cx ops₂ outs i conn pkt r, ops = ops₁ ++ .tick cx :: ops₂ ∧
      Init.connect c ops₁ = .ok (outs, .asking i) ∧
      i.panel.conn.pollNext cx = .ok (.ready (some (.ok pkt)), conn) ∧
      Message.parse pkt = .ok (some (.stringDescriptionResponse r)) ∧
      Responds (.stringDescriptionResponse r) i.send ∧ entries r.ty < r.num.toNat := by
  rw [connect_run] at h
  obtain ⟨h1, ops₁, cx, ops₂, outs, i, h2, h3, conn, new, pkt, r, _, h4, _, h5, h6, h7⟩ :=
    run_panics (ph := .asking _) (start_good hc) h
  exact ⟨h1, ops₁, cx, ops₂, outs, i, conn, pkt, r, h2, by rw [connect_run]; exact h3, h4, h5, h6, h7⟩

theorem steps_then {a mid : Bytes} {ps qs left} (h : Steps a ps mid) (h' : Drains mid qs left) :
    Drains a (ps ++ qs) left := by
  induction h with
  | nil => exact h'
  | cons h _ ih => exact .step h (ih h')

/-- **C39** (partial) If no description among the bytes that arrive has a number beyond the entries
of its type, `connect` does not panic. -/
theorem C39_no_panic_partial (c : Connection) (hc : Fresh c) (ops : List InitOp)
    (hfit : ∀ ps left, Drains (dataBytes (c.sock.incoming ++ arrivedInit ops)) ps left →
      ∀ pkt ∈ ps, ∀ r, Message.parse pkt = .ok (some (.stringDescriptionResponse r)) →
        r.num.toNat ≤ entries r.ty) :
    ∃ x, Init.connect c ops = .ok x := by
  cases h : Init.connect c ops with
  | ok x => exact ⟨x, rfl⟩
  | error q =>
    exfalso
    rw [connect_run] at h
    obtain ⟨h1, ops₁, cx, ops₂, outs, i, h2, h3, conn, new, pkt, r, _, h4, hs, h5, h6, h7⟩ :=
      run_panics (ph := .asking _) (start_good hc) h
    have hh := ihist_of_run (ph := .asking _) (start_good hc) h3
    obtain ⟨c0, bytes, e0, e1, e2, e3⟩ := initRead_hist hh ⟨i, rfl, rfl⟩
    cases e0
    have e2 : dataBytes (c.sock.incoming ++ arrivedInit ops₁) = bytes ++
      dataBytes i.panel.conn.sock.incoming := e2
    have e3 : Steps (c.rd.buffer ++ bytes) (gottenPackets outs) i.panel.conn.rd.buffer := e3
    rw [hc.rd] at e3
    have hd := hs.data
    rw [dataOf_eq, dataOf_eq] at hd
    have hall : dataBytes (c.sock.incoming ++ arrivedInit ops) =
        bytes ++ (new ++ (dataBytes conn.sock.incoming ++ dataBytes (arrivedInit ops₂))) := by
      have : arrivedInit ops = arrivedInit ops₁ ++ arrivedInit ops₂ := by
        rw [h2]
        unfold arrivedInit
        rw [List.filterMap_append]
        rfl
      rw [this, ← List.append_assoc, dataBytes_append, e2, hd]
      simp only [List.append_assoc]
    have hp := hs.packet pkt rfl
    obtain ⟨ps, left, hdr, _⟩ := C05_drain_terminates
      (conn.rd.buffer ++ (dataBytes conn.sock.incoming ++ dataBytes (arrivedInit ops₂)))
    have hst : Steps ([] ++ bytes ++ (new ++ (dataBytes conn.sock.incoming ++
        dataBytes (arrivedInit ops₂)))) (gottenPackets outs ++ [pkt])
        (conn.rd.buffer ++ (dataBytes conn.sock.incoming ++ dataBytes (arrivedInit ops₂))) := by
      refine steps_append e3 (.cons ?_ .nil)
      rw [← List.append_assoc]
      exact decode_mono hp _
    have := hfit _ _ (by rw [hall]; exact steps_then hst hdr) pkt (by simp) r h5
    omega

/-- One poll of the future: a tick, and what arrives and is writable before it. -/
def sampleTicks (n : Nat) : List InitOp := List.replicate n (.tick ⟨1, 0, 0⟩)

/-- The beginning of a dialogue: both statuses are asked for and reported. -/
def sampleStatuses : List InitOp :=
  [.writable (.accept 1000), .writable (.accept 1000)] ++ sampleTicks 3 ++
  [.arrive (.data (msgBytes (.armingStatusReport armedReport)))] ++ sampleTicks 3 ++
  [.arrive (.data (msgBytes (.zoneStatusReport violatedReport)))] ++ sampleTicks 1

/-- Panics with an index out of bounds. -/
def outOfBounds {α : Type} (x : P α) : Bool :=
  match x with
  | .error .index => true
  | _ => false

theorem of_outOfBounds {α : Type} {x : P α} (h : outOfBounds x = true) : x = .error .index := by
  unfold outOfBounds at h
  split at h
  · rfl
  · cases h

/-- **C39** does not hold as stated: a panel describing area 9 makes `connect` panic. -/
theorem C39_panics : ∃ c ops, Fresh c ∧ Init.connect c ops = .error .index := by
  refine ⟨{}, sampleStatuses ++ [.writable (.accept 1000)] ++ sampleTicks 2 ++
    [.arrive (.data (msgBytes (.stringDescriptionResponse ⟨.area, 9, .empty⟩)))] ++ sampleTicks 1,
    ⟨rfl, rfl, rfl, rfl⟩, of_outOfBounds (by decide +kernel)⟩

/-! ## C38: when it waits -/

theorem ihist_append {ph ph' : Phase} {a b : List Obs} : ∀ {ph ops}, IHist ph ops (a ++ b) ph' →
    ∃ ops₁ ops₂ mid, ops = ops₁ ++ ops₂ ∧ IHist ph ops₁ a mid ∧ IHist mid ops₂ b ph' := by
  induction a with
  | nil =>
    intro ph ops h
    refine ⟨[], ops, ph, rfl, ?_, h⟩
    cases h with
    | nil h => exact .nil h
    | finished h => exact .nil h
    | cons h _ _ => exact .nil h
  | cons o a ih =>
    intro ph ops h
    rw [List.cons_append] at h
    generalize hl : o :: (a ++ b) = l at h
    cases h with
    | nil _ => cases hl
    | finished _ => cases hl
    | cons hg hc ht =>
      cases hl
      obtain ⟨ops₁, ops₂, mid, rfl, h1, h2⟩ := ih ht
      exact ⟨_ :: ops₁, ops₂, mid, rfl, .cons hg hc h1, h2⟩

/-- No reply to `q` was received. -/
def NoReply (q : Message) (outs : List Obs) : Prop :=
  ∀ ev ∈ gotten outs, ∀ m, ev.msg = some (.ok m) → ¬ Responds m q

theorem noReply_cons {q : Message} {o : Obs} {l : List Obs} (h1 : NoReply q [o])
    (h2 : NoReply q l) : NoReply q (o :: l) := by
  intro ev hev
  rw [gotten_cons, List.mem_append] at hev
  rcases hev with h | h
  · exact h1 ev h
  · exact h2 ev h

theorem noReply_quiet {q : Message} {o : Obs} (h : gotten [o] = []) : NoReply q [o] := by
  intro ev hev
  rw [h] at hev
  cases hev

/-- While waiting, the last question has not been answered. -/
theorem dialogue_waiting {s : Talk} {outs : List Obs} {x : Talk} (h : Dialogue s outs x) :
    ∀ {q : Message}, x = .waiting q → (s = .waiting q ∧ questions outs = [] ∧ NoReply q outs) ∨
    ∃ a b, outs = a ++ .asked q :: b ∧ questions b = [] ∧ NoReply q b := by
  induction h with
  | nil => intro q hx; subst hx; exact .inl ⟨rfl, rfl, by intro ev h; cases h⟩
  | @ask q0 l x _ ih =>
    intro q hx
    rcases ih hx with ⟨h1, h2, h3⟩ | ⟨a, b, h1, h2, h3⟩
    · cases h1; exact .inr ⟨[], l, rfl, h2, h3⟩
    · exact .inr ⟨_ :: a, b, by rw [h1]; rfl, h2, h3⟩
  | @reply q0 q' ev m l x _ _ _ _ ih =>
    intro q hx
    rcases ih hx with ⟨h1, h2, h3⟩ | ⟨a, b, h1, h2, h3⟩
    · cases h1
    · exact .inr ⟨_ :: a, b, by rw [h1]; rfl, h2, h3⟩
  | last _ _ _ => intro q hx; cases hx
  | @other q0 ev l x hn _ ih =>
    intro q hx
    rcases ih hx with ⟨h1, h2, h3⟩ | ⟨a, b, h1, h2, h3⟩
    · cases h1
      refine .inl ⟨rfl, by rw [questions_cons, h2]; rfl, noReply_cons ?_ h3⟩
      intro ev' hev
      have : ev' = ev := by simpa [gotten] using hev
      subst this
      exact hn
    · exact .inr ⟨_ :: a, b, by rw [h1]; rfl, h2, h3⟩
  | flushed _ ih =>
    intro q hx
    rcases ih hx with ⟨h1, h2, h3⟩ | ⟨a, b, h1, h2, h3⟩
    · exact .inl ⟨h1, by rw [questions_cons, h2]; rfl, noReply_cons (noReply_quiet rfl) h3⟩
    · exact .inr ⟨_ :: a, b, by rw [h1]; rfl, h2, h3⟩
  | pending _ ih =>
    intro q hx
    rcases ih hx with ⟨h1, h2, h3⟩ | ⟨a, b, h1, h2, h3⟩
    · exact .inl ⟨h1, by rw [questions_cons, h2]; rfl, noReply_cons (noReply_quiet rfl) h3⟩
    · exact .inr ⟨_ :: a, b, by rw [h1]; rfl, h2, h3⟩
  | env _ ih =>
    intro q hx
    rcases ih hx with ⟨h1, h2, h3⟩ | ⟨a, b, h1, h2, h3⟩
    · exact .inl ⟨h1, by rw [questions_cons, h2]; rfl, noReply_cons (noReply_quiet rfl) h3⟩
    · exact .inr ⟨_ :: a, b, by rw [h1]; rfl, h2, h3⟩
  | failed => intro q hx; cases hx

theorem ihist_end {ph ph' : Phase} {ops} (h : IHist ph ops [] ph') : ph' = ph := by
  cases h <;> rfl

/-- **C38** when a poll of `connect` is pending, it is for one of two reasons.  Either part of the
last question is still unwritten, and the task is registered to be woken when the socket is
writable.  Or all questions have been written, every complete packet received has been looked at
(and everything that arrived has been received, unless the socket would block), the last question
has not been answered, and the task is registered to be woken when more arrives. -/
theorem C38_waits (c : Connection) (hc : Fresh c) (ops : List InitOp) (outs : List Obs) (ph : Phase)
    (h : Init.connect c ops = .ok (outs ++ [.pending], ph)) :
    ∃ ops₁ cx ops₂ i, ops = ops₁ ++ .tick cx :: ops₂ ∧ ph = .asking i ∧
      (i.panel.conn.wbuf ≠ [] ∧ i.panel.conn.sock.writeWaker = some cx.waker ∨
       i.panel.conn.sock.sent = ((questions outs).flatMap fun q => asciiFrame (sentText q)) ∧
       Drains i.panel.conn.sock.received (gottenPackets outs) i.panel.conn.rd.buffer ∧
       (i.panel.conn.sock.incoming = [] → i.panel.conn.sock.received =
         dataBytes (c.sock.incoming ++ arrivedInit ops₁)) ∧
       i.panel.conn.sock.readWaker = some cx.waker ∧
       ∃ a q b, outs = a ++ .asked q :: b ∧ questions b = [] ∧ NoReply q b) := by
  have hwire := (C37_wire c hc ops _ ph h).1
  have hd := dialogue_of_hist (connect_hist hc h)
  obtain ⟨ops₁, ops₂, mid, rfl, h1, h2⟩ := ihist_append (ph := ph) (connect_hist hc h)
  have hq : questions (outs ++ [.pending]) = questions outs := by
    unfold questions
    rw [List.filterMap_append]
    exact List.append_nil _
  cases h2 with
  | @cons j op _ ph1 ops₃ _ _ hg hcase ht =>
    have := ihist_end ht
    subst this
    cases hcase with
    | tick cx _ htick =>
      cases htick with
      | flushPending c' ha hs =>
        exact ⟨ops₁, cx, ops₃, _, rfl, rfl, .inl ⟨hs.left rfl, hs.pend rfl⟩⟩
      | readPending c' new ha hs =>
        refine ⟨ops₁, cx, ops₃, _, rfl, rfl, .inr ?_⟩
        have hw := hwire _ rfl
        have hwb : c'.wbuf = [] := by rw [hs.wbuf]; exact hg.reply ha
        have hw : c'.sock.sent ++ c'.wbuf = _ := hw
        rw [hwb, List.append_nil, hq] at hw
        obtain ⟨c0, bytes, e0, e1, e2, e3⟩ := initRead_hist h1 ⟨j, rfl, rfl⟩
        cases e0
        have e1 : j.panel.conn.sock.received = c.sock.received ++ bytes := e1
        have e2 : dataBytes (c.sock.incoming ++ arrivedInit ops₁) = bytes ++
          dataBytes j.panel.conn.sock.incoming := e2
        have e3 : Steps (c.rd.buffer ++ bytes) (gottenPackets outs) j.panel.conn.rd.buffer := e3
        rw [hc.received, List.nil_append] at e1
        rw [hc.rd] at e3
        have hdat := hs.data
        rw [dataOf_eq, dataOf_eq] at hdat
        refine ⟨hw, ?_, ?_, (hs.pend rfl).2, ?_⟩
        · refine steps_drains ?_ (hs.pend rfl).1
          show Steps c'.sock.received _ c'.rd.buffer
          rw [hs.received, e1, hs.other (by intro q h; cases h)]
          have := steps_append (t := new) (qs := []) e3 .nil
          rwa [List.append_nil] at this
        · intro hin
          show c'.sock.received = _
          have hin : c'.sock.incoming = [] := hin
          rw [hs.received, e1, e2, hdat, hin]
          simp [dataBytes]
        · have h3 := dialogue_of_hist h1
          rw [talk_wait (.inr ha)] at h3
          rcases dialogue_waiting h3 rfl with ⟨h4, _⟩ | ⟨a, b, h4, h5, h6⟩
          · cases h4
          · exact ⟨a, _, b, h4, h5, h6⟩

/-! ## C38: every poll returns -/

/-- The bytes not yet decoded. -/
def unread (c : Connection) : Nat := c.rd.buffer.length + (dataBytes c.sock.incoming).length

/-- What is left to do: twice the questions not yet asked, plus one if the last is not yet
flushed. -/
def todo (i : Init) : Nat :=
  match i.await with
  | .ready _ => 2 * (remaining i.send).length
  | .flush => 2 * (remaining i.send).length - 1
  | .reply => 2 * (remaining i.send).length - 2

theorem stageQ_question {st : Stage} (h : StageOk st) : IsQuestion (stageQ st) := by
  cases h with
  | arming => exact True.intro
  | zones => exact True.intro
  | area u hu =>
    have : (UInt8.ofNat (u + 1)).toNat = u + 1 := by simp; omega
    show 1 ≤ (UInt8.ofNat (u + 1)).toNat ∧ (UInt8.ofNat (u + 1)).toNat ≤ 8
    omega
  | task u hu =>
    have : (UInt8.ofNat (u + 1)).toNat = u + 1 := by simp; omega
    show 1 ≤ (UInt8.ofNat (u + 1)).toNat ∧ (UInt8.ofNat (u + 1)).toNat ≤ 32
    omega
  | zone u hu =>
    have : (UInt8.ofNat (u + 1)).toNat = u + 1 := by simp; omega
    show 1 ≤ (UInt8.ofNat (u + 1)).toNat ∧ (UInt8.ofNat (u + 1)).toNat ≤ 208
    omega

theorem read_shrinks {c c' : Connection} {cx : Cx} {new pkt}
    (hs : NextSpec c cx (.ready (some (.ok pkt))) c' new) : unread c' < unread c := by
  have hd := hs.data
  rw [dataOf_eq, dataOf_eq] at hd
  obtain ⟨w, _, h2, h3⟩ := (C05_progress _).1 _ _ (hs.packet pkt rfl)
  have h2 := congrArg List.length h2
  have hd := congrArg List.length hd
  rw [List.length_append, List.length_append] at h2
  rw [List.length_append] at hd
  unfold unread
  omega

/-- Every tick that is not pending makes progress. -/
theorem tick_progress {i j : Init} {cx o} (hg : InitGood i) (h : TickCase i cx (o, .asking j))
    (ho : o ≠ .pending) : todo j + unread j.panel.conn < todo i + unread i.panel.conn := by
  have hr := remaining_head (hg.send ▸ stageQ_question hg.stage)
  obtain ⟨l, hr⟩ := hr
  generalize hx : Phase.asking j = ph at h
  cases h with
  | ask ha hw =>
    cases hx
    unfold todo
    rw [ha]
    dsimp only
    rw [hr]
    show _ + unread _ < _
    unfold unread
    dsimp only
    rw [List.length_cons]
    omega
  | flushPending c ha hs => exact absurd rfl ho
  | flushFailed c e ha hs => cases hx
  | flushed c ha hs =>
    cases hx
    unfold todo unread
    rw [ha]
    dsimp only
    rw [hr, hs.rd, hs.incoming, List.length_cons]
    omega
  | readPending c new ha hs => exact absurd rfl ho
  | readEnded c new ha hs => cases hx
  | readFailed c new e ha hs => cases hx
  | other c new pkt ev w p' ha hs hi hn =>
    cases hx
    have h1 : p'.conn = c := (interp_keeps hi).1
    have := read_shrinks hs
    unfold todo
    dsimp only
    rw [ha, h1]
    dsimp only
    omega
  | reply c new pkt ev w p' m _ ha hs hi hm hrr hcase =>
    have h1 : p'.conn = c := (interp_keeps hi).1
    have := read_shrinks hs
    cases hcase with
    | ask q st' hn hst' hf =>
      cases hx
      rw [hg.send] at hrr
      obtain ⟨_, hsuf⟩ := follow_remaining (stageQ_question hg.stage) hrr hf
      have hlen := hsuf.length_le
      rw [List.length_tail, ← hg.send] at hlen
      have hqc : q.conn = p'.conn := (names_keep hn).1
      unfold todo asking
      dsimp only
      rw [ha, hqc, h1]
      dsimp only
      omega
    | done q _ _ => cases hx

theorem ticks_bounded {ph ph' : Phase} {ops outs} (h : IHist ph ops outs ph') :
    ∀ (i j : Init), ph = .asking i → ph' = .asking j → (∀ op ∈ ops, ∃ cx, op = .tick cx) →
    .pending ∉ outs → ops.length ≤ todo i + unread i.panel.conn := by
  induction h with
  | nil _ => intro i j _ _ _ _; exact Nat.zero_le _
  | finished _ => intro i j h; cases h
  | @cons i op o ph ops os ph' hg hc ht ih =>
    intro i' j hi hj hops hp
    cases hi
    obtain ⟨cx, rfl⟩ := hops op (List.mem_cons_self ..)
    match ph, hc, ht, ih with
    | .finished r, _, ht, _ =>
      have := (finished_end ht).2
      rw [hj] at this; cases this
    | .asking k, hc, ht, ih =>
      have h1 := ih k j rfl hj (fun op h => hops op (List.mem_cons_of_mem _ h))
        (fun h => hp (List.mem_cons_of_mem _ h))
      cases hc with
      | tick _ _ hc =>
        have := tick_progress hg hc (fun h => hp (h ▸ List.mem_cons_self ..))
        rw [List.length_cons]
        omega

theorem remaining_le {q : Message} (h : IsQuestion q) : (remaining q).length ≤ 250 := by
  match q, h with
  | .armingStatusRequest, _ => simp [remaining, allQuestions]
  | .zoneStatusRequest, _ => simp [remaining, allQuestions]
  | .stringDescriptionRequest ⟨ty, n⟩, h =>
    have h : 1 ≤ n.toNat ∧ n.toNat ≤ entries ty := h
    cases ty <;> simp [remaining, entries] <;> omega

/-- **C38** every poll of `connect` returns: from any state it reaches, with nothing more arriving,
it makes at most 500 steps plus one for each byte not yet decoded before it is pending, or
finished. -/
theorem C38_polls_return (c : Connection) (hc : Fresh c) (ops : List InitOp) (outs : List Obs)
    (i : Init) (h : Init.connect c ops = .ok (outs, .asking i)) (cxs : List Cx) (outs' : List Obs)
    (j : Init) (h' : Phase.run (cxs.map .tick) (.asking i) = .ok (outs', .asking j))
    (hp : .pending ∉ outs') :
    cxs.length ≤ 500 + i.panel.conn.rd.buffer.length +
      (dataBytes i.panel.conn.sock.incoming).length := by
  have hg : InitGood i := (connect_hist hc h).good
  have hb := ticks_bounded (ihist_of_run (ph := .asking i) hg h') i j rfl rfl (by
    intro op hop
    obtain ⟨cx, _, rfl⟩ := List.mem_map.mp hop
    exact ⟨cx, rfl⟩) hp
  rw [List.length_map] at hb
  have hr := remaining_le (hg.send ▸ stageQ_question hg.stage)
  have ht : todo i ≤ 500 := by
    unfold todo
    split <;> omega
  unfold unread at hb
  omega

end Elk.Props
