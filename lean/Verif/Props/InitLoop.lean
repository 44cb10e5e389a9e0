import Verif.Props.InitRun
/-!
# `connect` completes against a panel that answers (C38)

The environment is a panel with any names and statuses that answers each question as documented,
after any other packets (or garbage that is skipped).
-/

namespace Elk.Spec

/-- What is sent besides answers: some bytes, and the packet they are decoded to. -/
structure Noise where
  bytes : Bytes
  pkt : Packet

/-- The bytes are one whole packet, whatever follows, and it is not a reply to `q`. -/
def Noise.Fits (n : Noise) (q : Message) : Prop :=
  (∀ rest, Packet.decode (n.bytes ++ rest) = .ok (some n.pkt, rest)) ∧
  ∀ m, Message.parse n.pkt = .ok (some m) → ¬ Responds m q

/-- The message of a packet, if it is one. -/
def parsed (pkt : Packet) : Option Message :=
  match Message.parse pkt with
  | .ok (some m) => some m
  | _ => none

/-- The messages received in a history. -/
def heard (outs : List Obs) : List Message :=
  (gotten outs).filterMap fun ev => match ev.msg with
    | some (.ok m) => some m
    | _ => none

/-- The message says nothing about the statuses. -/
def Unrelated : Message → Prop
  | .armingStatusReport _ | .zoneChange _ | .zoneStatusReport _ => False
  | _ => True

/-- What happens for one question: it is asked and written, then the panel sends some noise and the
answer, all of which is read. -/
def exchange (cx : Cx) (noise : List Noise) (q answer : Message) : List InitOp :=
  [.tick cx, .writable (.accept (asciiFrame (sentText q)).length), .tick cx,
    .arrive (.data (noise.flatMap (·.bytes) ++ asciiFrame (sentText answer)))] ++
  List.replicate (noise.length + 1) (.tick cx)

end Elk.Spec

namespace Elk.Props
open Elk.Spec

/-! ## The answers are documented -/

theorem findSome_range {S : Server} {ty : TextDescriptionType} (k : Nat) : ∀ (s : Nat),
    match (List.range' s k).findSome? fun n => (S.name ty n).map (n, ·) with
    | none => ∀ n, s ≤ n → n < s + k → S.name ty n = none
    | some (m, t) => s ≤ m ∧ m < s + k ∧ S.name ty m = some t ∧
        ∀ n, s ≤ n → n < m → S.name ty n = none := by
  induction k with
  | zero => intro s; intro n h1 h2; omega
  | succ k ih =>
    intro s
    rw [List.range'_succ, List.findSome?_cons]
    cases hs : S.name ty s with
    | some t => exact ⟨Nat.le_refl _, by omega, hs, fun n h1 h2 => by omega⟩
    | none =>
      show match (List.range' (s + 1) k).findSome? fun n => (S.name ty n).map (n, ·) with
        | none => _
        | some (m, t) => _
      have := ih (s + 1)
      split
      · rename_i hx
        rw [hx] at this
        intro n h1 h2
        by_cases hn : n = s
        · rw [hn]; exact hs
        · exact this n (by omega) (by omega)
      · rename_i m t hx
        rw [hx] at this
        obtain ⟨h1, h2, h3, h4⟩ := this
        refine ⟨by omega, by omega, h3, fun n h5 h6 => ?_⟩
        by_cases hn : n = s
        · rw [hn]; exact hs
        · exact h4 n (by omega) h6

/-- What the answer to a request for a description is. -/
theorem answer_describes (S : Server) (A Z) (q : StringDescriptionRequest)
    (hq : 1 ≤ q.num.toNat ∧ q.num.toNat ≤ entries q.ty) :
    ∃ r, S.answer A Z (.stringDescriptionRequest q) = .stringDescriptionResponse r ∧
      S.Answers q r ∧ r.num.toNat ≤ entries q.ty ∧
      (r.text = .empty ∨ ∃ n, S.name q.ty n = some r.text) ∧
      Responds (.stringDescriptionResponse r) (.stringDescriptionRequest q) := by
  have hf := findSome_range (S := S) (ty := q.ty) (entries q.ty + 1 - q.num.toNat) q.num.toNat
  have hsm := entries_small q.ty
  unfold Server.answer Server.next
  dsimp only
  split
  · rename_i n t hx
    rw [hx] at hf
    obtain ⟨h1, h2, h3, h4⟩ := hf
    have hn : (UInt8.ofNat n).toNat = n := by simp; omega
    refine ⟨_, rfl, ⟨rfl, .inr ?_⟩, ?_, .inr ⟨n, h3⟩, .text _ _ rfl ?_⟩
    · dsimp only
      rw [hn]
      exact ⟨h1, by omega, h3, h4⟩
    · dsimp only; rw [hn]; omega
    · dsimp only; rw [hn]; exact h1
  · rename_i hx
    rw [hx] at hf
    refine ⟨_, rfl, ⟨rfl, .inl ⟨rfl, fun n h1 h2 => hf n h1 (by omega)⟩⟩, Nat.zero_le _, .inl rfl,
      .noText _ _ rfl rfl⟩

theorem empty_wf : WfText .empty := by
  intro b hb
  have : b = b' ' ' := by
    have hb : b ∈ (Vector.replicate 16 (b' ' ')).toList := hb
    rw [Vector.toList_replicate] at hb
    exact (List.mem_replicate.mp hb).2
  subst this
  exact ⟨by decide, by decide⟩

/-- The names and statuses can be sent. -/
structure Sendable (S : Server) (Z : ZoneStatusReport) : Prop where
  names : ∀ ty n t, S.name ty n = some t → WfText t
  zones : ∀ z ∈ Z.zones.toList, WfZoneStatus z

/-- The answer to a question is a well-formed reply to it. -/
theorem answer_ok {S : Server} {A Z} (hS : Sendable S Z) {q : Message} (hq : IsQuestion q) :
    WfMessage (S.answer A Z q) ∧ Responds (S.answer A Z q) q ∧
    (∀ r, S.answer A Z q = .stringDescriptionResponse r → r.num.toNat ≤ entries r.ty) ∧
    ∀ d r, q = .stringDescriptionRequest d → S.answer A Z q = .stringDescriptionResponse r →
      S.Answers d r := by
  match q, hq with
  | .armingStatusRequest, _ =>
    exact ⟨True.intro, .arming A, (by intro r h; cases h), (by intro d r h; cases h)⟩
  | .zoneStatusRequest, _ =>
    exact ⟨hS.zones, .zones Z, (by intro r h; cases h), (by intro d r h; cases h)⟩
  | .stringDescriptionRequest q, hq =>
    obtain ⟨r, h1, h2, h3, h4, h5⟩ := answer_describes S A Z q hq
    rw [h1]
    refine ⟨?_, h5, ?_, ?_⟩
    · show WfText r.text
      rcases h4 with h4 | ⟨n, h4⟩
      · rw [h4]; exact empty_wf
      · exact hS.names _ _ _ h4
    · intro r' h; cases h; rw [h2.1]; exact h3
    · intro d r' h h'; cases h; cases h'; exact h2

/-! ## Ticks of a connection at rest -/

/-- Nothing is buffered or queued in either direction. -/
structure Calm (c : Connection) : Prop where
  incoming : c.sock.incoming = []
  writes : c.sock.writes = []
  wbuf : c.wbuf = []
  buffer : c.rd.buffer = []
  eof : c.rd.eof = false
  ok : c.rd.hasErrored = false

/-- The bytes to be read next, in the buffer or about to arrive. -/
structure Loaded (c : Connection) (bs : Bytes) : Prop where
  writes : c.sock.writes = []
  wbuf : c.wbuf = []
  eof : c.rd.eof = false
  ok : c.rd.hasErrored = false
  bytes : (c.rd.isReadable = true ∧ c.rd.buffer = bs ∧ c.sock.incoming = []) ∨
    (c.rd.buffer = [] ∧ c.sock.incoming = [.data bs])

theorem attempt_some {bs rest : Bytes} {pkt : Packet}
    (hd : Packet.decode bs = .ok (some pkt, rest)) :
    ReadFrame.attempt ⟨false, true, bs, false⟩ =
      .ok (some (some (.ok pkt)), ⟨false, true, rest, false⟩) := by
  unfold ReadFrame.attempt Codec.decode
  rw [if_neg (by simp), if_pos rfl, if_neg (by simp)]
  dsimp only
  rw [hd]
  rfl

/-- A packet at the front is returned. -/
theorem next_loaded {c : Connection} {bs rest : Bytes} {pkt : Packet} (hl : Loaded c bs)
    (hd : Packet.decode bs = .ok (some pkt, rest)) (cx : Cx) :
    ∃ c', c.pollNext cx = .ok (.ready (some (.ok pkt)), c') ∧ Loaded c' rest ∧
      (rest = [] → Calm c') := by
  have hb := attempt_some hd
  rcases hrd : c.rd with ⟨eof, readable, buffer, errored⟩
  have h3 := hl.eof
  have h4 := hl.ok
  have h5 := hl.bytes
  rw [hrd] at h3 h4 h5
  dsimp only at h3 h4 h5
  subst h3 h4
  have hloop : ∃ got, c.rd.loop c.sock.incoming [] =
      .ok ⟨.ready (some (.ok pkt)), ⟨false, true, rest, false⟩, [], got⟩ := by
    rw [hrd]
    rcases h5 with ⟨h2, h1, h5⟩ | ⟨h1, h5⟩
    · subst h1 h2
      unfold ReadFrame.loop
      rw [hb, h5]
      exact ⟨_, rfl⟩
    · subst h1
      have hpos : bs.length ≠ 0 := by
        have := wire_length_pos hd
        have h2 := decode_some_split hd
        rw [h2, List.length_append]
        omega
      have ha : ReadFrame.attempt ⟨false, readable, [], false⟩ =
          .ok (none, ⟨false, false, [], false⟩) := by
        cases readable <;> rfl
      rw [h5]
      unfold ReadFrame.loop
      rw [ha]
      dsimp only
      rw [if_neg hpos]
      unfold ReadFrame.loop
      rw [List.nil_append, hb]
      exact ⟨_, rfl⟩
  obtain ⟨got, hloop⟩ := hloop
  unfold Connection.pollNext
  rw [hloop]
  refine ⟨_, rfl, ⟨hl.writes, hl.wbuf, rfl, rfl, .inl ⟨rfl, rfl, rfl⟩⟩, ?_⟩
  intro hr
  exact ⟨rfl, hl.writes, hl.wbuf, hr, rfl, rfl⟩

/-- A tick that reads a packet that is no reply. -/
theorem tick_other {i : Init} (hg : InitGood i) (ha : i.await = .reply) {cx : Cx} {pkt c}
    (hn : i.panel.conn.pollNext cx = .ok (.ready (some (.ok pkt)), c))
    (hno : ∀ m, Message.parse pkt = .ok (some m) → ¬ Responds m i.send) :
    ∃ ev p', i.tick cx = .ok (.got ev, .asking { i with panel := p' }) ∧ p'.conn = c ∧
      InitGood { i with panel := p' } ∧ NoReply i.send [.got ev] ∧
      heard [.got ev] = (parsed pkt).toList := by
  obtain ⟨r, c2, new, h1, hs⟩ := connNext_spec i.panel.conn cx hg.rd
  rw [hn] at h1
  simp only [Except.ok.injEq, Prod.mk.injEq] at h1
  obtain ⟨rfl, rfl⟩ := h1
  obtain ⟨⟨ev, w, p'⟩, hi, hc⟩ := interpret_cases { i.panel with conn := c } cx.now pkt
    (parsed_wf (hs.packet pkt rfl))
  have hno' : ∀ m, ev.msg = some (.ok m) → ¬ Responds m i.send :=
    fun m hm => hno m (interp_msg hc hm)
  have hgood : InitGood { i with panel := p' } :=
    tick_good hg (.other c new pkt ev w p' ha hs hc hno')
  have htick : i.tick cx = i.received { i.panel with conn := c } cx.now pkt := by
    unfold Init.tick
    rw [ha]
    dsimp only
    rw [hn]
    rfl
  refine ⟨ev, p', ?_, (interp_keeps hc).1, hgood, ?_, ?_⟩
  · rw [htick]
    unfold Init.received
    rw [hi]
    simp only [bind_ok]
    split
    · rename_i m hm
      rw [if_neg]
      intro hr
      exact hno' m hm ((C23_responds _ _).mp hr)
    · rfl
  · intro ev' hev
    have : ev' = ev := by simpa [gotten] using hev
    subst this
    exact hno'
  · unfold heard parsed
    cases hc with
    | bad e h => rw [h]; rfl
    | skip h => rw [h]; rfl
    | msg m' _ _ _ _ _ h _ _ _ => rw [h]; rfl

/-- A tick that reads the reply. -/
theorem tick_reply {i : Init} (hg : InitGood i) (ha : i.await = .reply) {cx : Cx} {pkt c}
    (hn : i.panel.conn.pollNext cx = .ok (.ready (some (.ok pkt)), c)) {m : Message}
    (hm : Message.parse pkt = .ok (some m)) (hr : Responds m i.send)
    (hfit : ∀ r, m = .stringDescriptionResponse r → r.num.toNat ≤ entries r.ty) :
    ∃ ev p' ph, i.tick cx = .ok (.got ev, ph) ∧ p'.conn = c ∧ PhaseGood ph ∧
      ev.msg = some (.ok m) ∧ ReplyCase p' i.stage m ph := by
  obtain ⟨r, c2, new, h1, hs⟩ := connNext_spec i.panel.conn cx hg.rd
  rw [hn] at h1
  simp only [Except.ok.injEq, Prod.mk.injEq] at h1
  obtain ⟨rfl, rfl⟩ := h1
  obtain ⟨⟨ev, w, p'⟩, hi, hc⟩ := interpret_cases { i.panel with conn := c } cx.now pkt
    (parsed_wf (hs.packet pkt rfl))
  have hev : ev.msg = some (.ok m) := by
    cases hc with
    | bad e h => rw [hm] at h; cases h
    | skip h => rw [hm] at h; cases h
    | msg m' _ _ _ _ _ h _ _ _ => rw [hm] at h; cases h; rfl
  rcases replied_cases p' hg.stage (m := m) (hg.send ▸ hr) with ⟨ph, h1, h2⟩ | ⟨h1, r, h2, h3⟩
  · refine ⟨ev, p', ph, ?_, (interp_keeps hc).1,
      tick_good hg (.reply c new pkt ev w p' m ph ha hs hc hev hr h2), hev, h2⟩
    unfold Init.tick
    rw [ha]
    dsimp only
    rw [hn]
    simp only [bind_ok]
    unfold Init.received
    rw [hi]
    simp only [bind_ok]
    rw [hev]
    dsimp only
    rw [if_pos ((C23_responds _ _).mpr hr), h1]
    rfl
  · have := hfit r h2
    omega

/-! ## One exchange -/

/-- The replies in a history are the documented answers, `last` being the last question before
it. -/
def Honest (S : Server) : Option Message → List Obs → Prop
  | _, [] => True
  | _, .asked q :: l => Honest S (some q) l
  | last, .got ev :: l => (∀ q r, last = some (.stringDescriptionRequest q) →
      ev.msg = some (.ok (.stringDescriptionResponse r)) →
      Responds (.stringDescriptionResponse r) (.stringDescriptionRequest q) → S.Answers q r) ∧
      Honest S last l
  | last, .env _ :: l => Honest S last l
  | last, .pending :: l => Honest S last l
  | last, .flushed :: l => Honest S last l
  | last, .failed _ :: l => Honest S last l

theorem honest_obedient {S : Server} (outs : List Obs) : ∀ (pre : List Obs),
    Honest S (questions pre).getLast? outs → ∀ a ev b q r, outs = a ++ .got ev :: b →
    (questions (pre ++ a)).getLast? = some (.stringDescriptionRequest q) →
    ev.msg = some (.ok (.stringDescriptionResponse r)) →
    Responds (.stringDescriptionResponse r) (.stringDescriptionRequest q) → S.Answers q r := by
  induction outs with
  | nil => intro pre _ a ev b q r h; cases a <;> cases h
  | cons o l ih =>
    intro pre hh a ev b q r h hl hm hr
    have quiet : questions [o] = [] → questions (pre ++ [o]) = questions pre := by
      intro h
      unfold questions at *
      rw [List.filterMap_append, h, List.append_nil]
    cases a with
    | nil =>
      rw [List.append_nil] at hl
      cases h
      exact hh.1 q r hl hm hr
    | cons o' a =>
      cases h
      refine ih (pre ++ [o]) ?_ a ev b q r rfl (by simpa using hl) hm hr
      match o, hh, quiet with
      | .asked q0, hh, _ =>
        have : (questions (pre ++ [.asked q0])).getLast? = some q0 := by
          unfold questions
          rw [List.filterMap_append]
          simp
        rw [this]; exact hh
      | .got ev', hh, quiet => rw [quiet rfl]; exact hh.2
      | .env _, hh, quiet => rw [quiet rfl]; exact hh
      | .pending, hh, quiet => rw [quiet rfl]; exact hh
      | .flushed, hh, quiet => rw [quiet rfl]; exact hh
      | .failed _, hh, quiet => rw [quiet rfl]; exact hh

theorem honest_append {S : Server} {a b : List Obs} : ∀ {last},
    Honest S last a → (∀ last, Honest S last b) → Honest S last (a ++ b) := by
  induction a with
  | nil => intro last _ h; exact h last
  | cons o a ih =>
    intro last ha hb
    cases o with
    | got ev => exact ⟨ha.1, ih ha.2 hb⟩
    | _ => exact ih ha hb

theorem run_append {a b : List InitOp} : ∀ {ph mid ph' : Phase} {os os' : List Obs},
    Phase.run a ph = .ok (os, mid) → Phase.run b mid = .ok (os', ph') →
    Phase.run (a ++ b) ph = .ok (os ++ os', ph') := by
  induction a with
  | nil => intro ph mid ph' os os' h h'; cases h; exact h'
  | cons op a ih =>
    intro ph mid ph' os os' h h'
    match ph with
    | .finished r =>
      cases h
      cases b with
      | nil => cases h'; rfl
      | cons _ _ => cases h'; rfl
    | .asking i =>
      rw [List.cons_append, phase_cons]
      rw [phase_cons] at h
      cases h1 : i.step op with
      | error e => rw [h1] at h; cases h
      | ok x =>
        obtain ⟨o, ph1⟩ := x
        rw [h1] at h
        simp only [bind_ok] at h ⊢
        cases h2 : Phase.run a ph1 with
        | error e => rw [h2] at h; cases h
        | ok y =>
          obtain ⟨os1, ph2⟩ := y
          rw [h2] at h
          simp only [bind_ok, Except.ok.injEq, Prod.mk.injEq] at h
          obtain ⟨rfl, rfl⟩ := h
          rw [ih h2 h']
          rfl

theorem run_step {i : Init} {op ops o ph os ph'} (h : i.step op = .ok (o, ph))
    (h' : Phase.run ops ph = .ok (os, ph')) :
    Phase.run (op :: ops) (.asking i) = .ok (o :: os, ph') := by
  rw [phase_cons, h]
  simp only [bind_ok]
  rw [h']
  rfl

/-- What is left of an exchange: the next question, or the end. -/
inductive Onward (m : Message) (st : Stage) : Phase → Prop
  | ask (p' st') : Calm p'.conn → followUp (stageQ st) m = some (stageQ st') →
      Onward m st (.asking (asking p' st'))
  | done (p') : followUp (stageQ st) m = none → Onward m st (.finished (.ok p'))

/-- The noise and the answer are read. -/
theorem read_answer {S : Server} {m : Message} (hw : WfMessage m)
    (hfit : ∀ r, m = .stringDescriptionResponse r → r.num.toNat ≤ entries r.ty) (cx : Cx)
    (noise : List Noise) : ∀ (i : Init), InitGood i → i.await = .reply →
    (∀ n ∈ noise, n.Fits i.send) → Responds m i.send →
    (∀ d r, i.send = .stringDescriptionRequest d → m = .stringDescriptionResponse r →
      S.Answers d r) →
    Loaded i.panel.conn (noise.flatMap (·.bytes) ++ asciiFrame (sentText m)) →
    ∃ outs ph, Phase.run (List.replicate (noise.length + 1) (.tick cx)) (.asking i) =
        .ok (outs, ph) ∧ questions outs = [] ∧
      heard outs = noise.filterMap (fun n => parsed n.pkt) ++ [m] ∧
      Honest S (some i.send) outs ∧ PhaseGood ph ∧ Onward m i.stage ph := by
  induction noise with
  | nil =>
    intro i hg ha _ hr hans hl
    have hd := decode_wire (p := .ascii ⟨sentText m⟩) (sentText_valid hw) []
    rw [List.append_nil] at hd
    obtain ⟨c, hn, _, hcalm⟩ := next_loaded hl hd cx
    obtain ⟨ev, p', ph, h1, h2, h3, h4, h5⟩ := tick_reply hg ha hn (parse_sent hw) hr hfit
    refine ⟨[.got ev], ph, run_step (o := .got ev) h1 rfl, rfl, ?_, ⟨?_, True.intro⟩, h3, ?_⟩
    · simp [heard, gotten, h4]
    · intro q r hq hev _
      rw [h4] at hev
      cases hev
      cases hq' : i.send <;> rw [hq'] at hq <;> cases hq
      exact hans _ _ hq' rfl
    · cases h5 with
      | ask p'' st' hnm _ hf =>
        exact .ask p'' st' (by rw [(names_keep hnm).1, h2]; exact hcalm rfl) hf
      | done p'' _ hf => exact .done p'' hf
  | cons n noise ih =>
    intro i hg ha hfits hr hans hl
    obtain ⟨hd, hno⟩ := hfits n (List.mem_cons_self ..)
    rw [List.flatMap_cons, List.append_assoc] at hl
    obtain ⟨c, hn, hl', _⟩ := next_loaded hl (hd _) cx
    obtain ⟨ev, p', h1, h2, h3, h4, h4'⟩ := tick_other hg ha hn hno
    obtain ⟨outs, ph, h5, h6, h6', h7, h8, h9⟩ := ih { i with panel := p' } h3 ha
      (fun n' hn' => hfits n' (List.mem_cons_of_mem _ hn')) hr hans (by rw [← h2] at hl'; exact hl')
    refine ⟨.got ev :: outs, ph, ?_, ?_, ?_, ⟨?_, h7⟩, h8, h9⟩
    · rw [List.length_cons, List.replicate_succ]
      exact run_step h1 h5
    · rw [questions_cons (.got ev) outs, h6]; rfl
    · rw [show heard (.got ev :: outs) = heard [.got ev] ++ heard outs by
        unfold heard; rw [gotten_cons, List.filterMap_append], h4', h6', List.filterMap_cons]
      cases parsed n.pkt <;> rfl
    · intro q r hq hev hresp
      refine absurd ?_ (h4 ev (by simp [gotten]) _ hev)
      have hq : i.send = _ := Option.some.inj hq
      show Responds _ i.send
      rw [hq]
      exact hresp

/-- One exchange. -/
theorem exchange_ok {S : Server} {m : Message} (hw : WfMessage m)
    (hfit : ∀ r, m = .stringDescriptionResponse r → r.num.toNat ≤ entries r.ty) (cx : Cx)
    (noise : List Noise) {p : Panel} {st : Stage} (hg : InitGood (asking p st)) (hcalm : Calm p.conn)
    (hfits : ∀ n ∈ noise, n.Fits (stageQ st)) (hr : Responds m (stageQ st))
    (hans : ∀ d r, stageQ st = .stringDescriptionRequest d → m = .stringDescriptionResponse r →
      S.Answers d r) :
    ∃ outs ph, Phase.run (exchange cx noise (stageQ st) m) (.asking (asking p st)) =
        .ok (outs, ph) ∧ questions outs = [stageQ st] ∧
      heard outs = noise.filterMap (fun n => parsed n.pkt) ++ [m] ∧ (∀ last, Honest S last outs) ∧
      PhaseGood ph ∧ Onward m st ph := by
  have hv : WfMessage (stageQ st) := stageQ_wf st
  have hpos : (asciiFrame (sentText (stageQ st))).length ≠ 0 := by
    have := decode_wire (p := .ascii ⟨sentText (stageQ st)⟩) (sentText_valid hv) []
    have := wire_length_pos this
    unfold wire at this
    dsimp only at this
    omega
  obtain ⟨conn, state, pend, cmd⟩ := p
  have hcalm : Calm conn := hcalm
  -- the question is asked
  have s1 : (asking ⟨conn, state, pend, cmd⟩ st).step (.tick cx) = .ok (.asked (stageQ st),
      .asking ⟨⟨{ conn with wbuf := asciiFrame (sentText (stageQ st)) }, state, pend, cmd⟩, st,
        stageQ st, .flush⟩) := by
    unfold Init.step Init.tick asking Connection.pollReady
    dsimp only
    rw [hcalm.wbuf, if_neg (by simp)]
    dsimp only
    rw [encode_sent hv, hcalm.wbuf]
    rfl
  -- it is written
  have hf : ({ conn with
      wbuf := asciiFrame (sentText (stageQ st))
      sock := { conn.sock with
        writes := [.accept (asciiFrame (sentText (stageQ st))).length], writeWaker := none } } :
      Connection).pollFlush cx = (.ready (.ok ()), { conn with
        wbuf := []
        sock := { conn.sock with
          writes := [], sent := conn.sock.sent ++ asciiFrame (sentText (stageQ st)),
          writeWaker := none } }) := by
    generalize asciiFrame (sentText (stageQ st)) = w at hpos
    unfold Connection.pollFlush
    dsimp only
    have : flushLoop [.accept w.length] w conn.sock.sent =
        ⟨.ready (.ok ()), [], [], conn.sock.sent ++ w⟩ := by
      unfold flushLoop
      rw [if_neg hpos]
      dsimp only
      rw [Nat.min_self, if_neg hpos, List.drop_length, List.take_length]
      unfold flushLoop
      rfl
    rw [this]
  have s3 : Init.step ⟨⟨{ conn with
      wbuf := asciiFrame (sentText (stageQ st))
      sock := { conn.sock with
        writes := [.accept (asciiFrame (sentText (stageQ st))).length], writeWaker := none } },
      state, pend, cmd⟩, st, stageQ st, .flush⟩ (.tick cx) = .ok (.flushed,
      .asking ⟨⟨{ conn with
        wbuf := []
        sock := { conn.sock with
          writes := [], sent := conn.sock.sent ++ asciiFrame (sentText (stageQ st)),
          writeWaker := none } }, state, pend, cmd⟩, st, stageQ st, .reply⟩) := by
    unfold Init.step Init.tick
    dsimp only
    rw [hf]
  -- the answer arrives
  obtain ⟨outs, ph, h1, h2, h2', h3, h4, h5⟩ := read_answer (S := S) hw hfit cx noise
    ⟨⟨{ conn with
        wbuf := []
        sock := { conn.sock with
          writes := [], sent := conn.sock.sent ++ asciiFrame (sentText (stageQ st)),
          writeWaker := none, readWaker := none,
          incoming := conn.sock.incoming ++
            [.data (noise.flatMap (·.bytes) ++ asciiFrame (sentText m))] } },
      state, pend, cmd⟩, st, stageQ st, .reply⟩
    ⟨hg.rd, hg.idle, hg.stage, rfl, fun _ h => (by cases h), fun _ => rfl, hg.arming, hg.zones,
      hg.held⟩ rfl hfits hr hans
    ⟨rfl, rfl, hcalm.eof, hcalm.ok, .inr ⟨hcalm.buffer, by
      dsimp only; rw [hcalm.incoming, List.nil_append]⟩⟩
  refine ⟨_, ph, run_step s1 (run_step (o := .env conn.sock.writeWaker.toList) ?_
    (run_step s3 (run_step (o := .env conn.sock.readWaker.toList) rfl h1))), ?_, h2', ?_, h4, h5⟩
  · unfold Init.step Connection.writable
    dsimp only
    rw [hcalm.writes]
    rfl
  · show stageQ st :: questions outs = _
    rw [h2]
  · intro last
    exact h3

/-- The invariant of the loop. -/
theorem completes {S : Server} {A : ArmingStatusReport} {Z : ZoneStatusReport} (hS : Sendable S Z)
    (cx : Cx) (noise : Message → List Noise) (hn : ∀ q, ∀ n ∈ noise q, n.Fits q) (k : Nat) :
    ∀ (p : Panel) (st : Stage), (remaining (stageQ st)).length ≤ k → IsQuestion (stageQ st) →
    InitGood (asking p st) → Calm p.conn →
    ∃ qs outs p', Phase.run (qs.flatMap fun q => exchange cx (noise q) q (S.answer A Z q))
        (.asking (asking p st)) = .ok (outs, .finished (.ok p')) ∧ questions outs = qs ∧
      heard outs = (qs.flatMap fun q => (noise q).filterMap (fun n => parsed n.pkt) ++
        [S.answer A Z q]) ∧
      ∀ last, Honest S last outs := by
  induction k with
  | zero =>
    intro p st hk hq
    obtain ⟨l, hl⟩ := remaining_head hq
    rw [hl] at hk
    simp at hk
  | succ k ih =>
    intro p st hk hq hg hcalm
    obtain ⟨h1, h2, h3, h4⟩ := answer_ok (A := A) hS hq
    obtain ⟨outs, ph, h5, h6, h6', h7, h8, h9⟩ := exchange_ok h1 h3 cx (noise (stageQ st)) hg hcalm
      (hn _) h2 h4
    cases h9 with
    | done p' _ =>
      refine ⟨[stageQ st], outs, p', ?_, h6, ?_, h7⟩
      · rw [List.flatMap_singleton]
        exact h5
      · rw [List.flatMap_singleton]
        exact h6'
    | ask p' st' hc hf =>
      obtain ⟨hq', hsuf⟩ := follow_remaining hq h2 hf
      have hlen := hsuf.length_le
      rw [List.length_tail] at hlen
      obtain ⟨l, hl⟩ := remaining_head hq
      have : 0 < (remaining (stageQ st)).length := by rw [hl]; simp
      obtain ⟨qs, outs', p'', h10, h11, h11', h12⟩ := ih p' st' (by omega) hq' h8 hc
      refine ⟨stageQ st :: qs, outs ++ outs', p'', ?_, ?_, ?_, ?_⟩
      · rw [List.flatMap_cons]
        exact run_append h5 h10
      · rw [show questions (outs ++ outs') = questions outs ++ questions outs' by
          unfold questions; rw [List.filterMap_append], h6, h11]
        rfl
      · rw [show heard (outs ++ outs') = heard outs ++ heard outs' by
          unfold heard gotten; rw [List.filterMap_append, List.filterMap_append], h6', h11',
          List.flatMap_cons]
      · intro last
        exact honest_append (h7 last) h12

/-! ## C38: `connect` completes -/

/-- **C38** Against a panel with any names and statuses that answers each question as documented,
after any packets that are no replies to it, `connect` completes; it has received exactly what was
sent, and every description it received as a reply is the documented answer.  (What it has learnt
then: `C38_learns`, and in general `C38_views` and `C38_names`.) -/
theorem C38_completes (S : Server) (A : ArmingStatusReport) (Z : ZoneStatusReport)
    (hS : Sendable S Z) (cx : Cx) (noise : Message → List Noise)
    (hn : ∀ q, ∀ n ∈ noise q, n.Fits q) :
    ∃ qs outs p, Init.connect {} (qs.flatMap fun q => exchange cx (noise q) q (S.answer A Z q)) =
        .ok (outs, .finished (.ok p)) ∧ questions outs = qs ∧
      heard outs = (qs.flatMap fun q => (noise q).filterMap (fun n => parsed n.pkt) ++
        [S.answer A Z q]) ∧ Obedient S outs := by
  obtain ⟨qs, outs, p, h1, h2, h3, h4⟩ := completes (A := A) hS cx noise hn _
    ⟨{}, PanelState.default, none, .idle⟩ .arming (Nat.le_refl _) True.intro
    (start_good ⟨rfl, rfl, rfl, rfl⟩) ⟨rfl, rfl, rfl, rfl, rfl, rfl⟩
  refine ⟨qs, outs, p, by rw [connect_run]; exact h1, h2, h3, ?_⟩
  intro a ev b q r ho hl hm hr
  exact honest_obedient outs [] (h4 _) a ev b q r ho hl hm hr

theorem heard_report {outs : List Obs} {v : ArmingStatusReport}
    (h : v ∈ (gotten outs).filterMap reportOf) : .armingStatusReport v ∈ heard outs := by
  obtain ⟨ev, hev, hr⟩ := List.mem_filterMap.mp h
  refine List.mem_filterMap.mpr ⟨ev, hev, ?_⟩
  unfold reportOf at hr
  split at hr
  · rename_i m hm; cases hr; rw [hm]
  · cases hr

theorem heard_zone {outs : List Obs} {i : Nat} {v : ZoneStatus}
    (h : v ∈ (gotten outs).filterMap (zoneReport i)) :
    (∃ c, .zoneChange c ∈ heard outs) ∨ ∃ z, .zoneStatusReport z ∈ heard outs ∧ z.zones[i]? = some v := by
  obtain ⟨ev, hev, hr⟩ := List.mem_filterMap.mp h
  unfold zoneReport at hr
  split at hr
  · rename_i m hm
    exact .inl ⟨m, List.mem_filterMap.mpr ⟨ev, hev, by rw [hm]⟩⟩
  · rename_i m hm
    exact .inr ⟨m, List.mem_filterMap.mpr ⟨ev, hev, by rw [hm]⟩, hr⟩
  · cases hr

/-- **C38** If moreover those other packets say nothing about the statuses, then `connect` completes
with exactly the statuses and names of the panel. -/
theorem C38_learns (S : Server) (A : ArmingStatusReport) (Z : ZoneStatusReport)
    (hS : Sendable S Z) (cx : Cx) (noise : Message → List Noise)
    (hn : ∀ q, ∀ n ∈ noise q, n.Fits q)
    (hu : ∀ q, ∀ n ∈ noise q, ∀ m, parsed n.pkt = some m → Unrelated m) :
    ∃ qs outs p, Init.connect {} (qs.flatMap fun q => exchange cx (noise q) q (S.answer A Z q)) =
        .ok (outs, .finished (.ok p)) ∧ questions outs = qs ∧
      p.armingStatus = .ok A ∧ p.pendingArm = none ∧ p.zoneStatuses = .ok Z ∧
      (∀ zone : Zone, 1 ≤ zone.val.toNat ∧ zone.val.toNat ≤ 208 →
        p.zoneName zone = .ok ((S.name .zone zone.val.toNat).getD .empty)) ∧
      (∀ i, ∀ hi : i < 8, p.areaNames[i] = (S.name .area (i + 1)).getD .empty) ∧
      (∀ i, ∀ hi : i < 32, p.state.taskNames[i] = (S.name .task (i + 1)).getD .empty) := by
  obtain ⟨qs, outs, p, h1, h2, h3, h4⟩ := C38_completes S A Z hS cx noise hn
  refine ⟨qs, outs, p, h1, h2, ?_⟩
  have hf : Fresh {} := ⟨rfl, rfl, rfl, rfl⟩
  obtain ⟨⟨m, hm, hlat⟩, hshown, z, hz, hzs⟩ := C38_views {} hf _ _ _ h1
  have hheard : ∀ m ∈ heard outs, Unrelated m ∨ ∃ q, m = S.answer A Z q := by
    intro m hm
    rw [h3, List.mem_flatMap] at hm
    obtain ⟨q, _, hm⟩ := hm
    rcases List.mem_append.mp hm with hm | hm
    · obtain ⟨n, hn, hp⟩ := List.mem_filterMap.mp hm
      exact .inl (hu q n hn m hp)
    · exact .inr ⟨q, List.mem_singleton.mp hm⟩
  have hA : ∀ v, v ∈ (gotten outs).filterMap reportOf → v = A := by
    intro v hv
    rcases hheard _ (heard_report hv) with h | ⟨q, h⟩
    · cases h
    · unfold Server.answer at h
      split at h
      · cases h; rfl
      · cases h
      · split at h <;> cases h
      · cases h
  have hmA : m = A := hA m (List.mem_of_getLast? hm)
  subst hmA
  have hZ : z = Z := by
    obtain ⟨z⟩ := z
    obtain ⟨Z⟩ := Z
    congr 1
    apply Vector.ext
    intro i hi
    have hzi := List.mem_of_getLast? (hzs i hi)
    rcases heard_zone hzi with ⟨c, hc⟩ | ⟨z', hz', hv⟩
    · rcases hheard _ hc with h | ⟨q, h⟩
      · cases h
      · unfold Server.answer at h
        split at h
        · cases h
        · cases h
        · split at h <;> cases h
        · cases h
    · rcases hheard _ hz' with h | ⟨q, h⟩
      · cases h
      · have : z' = ⟨Z⟩ := by
          unfold Server.answer at h
          split at h
          · cases h
          · cases h; rfl
          · split at h <;> cases h
          · cases h
        subst this
        dsimp only at hv
        rw [Vector.getElem?_eq_getElem hi] at hv
        exact (Option.some.inj hv).symm
  have hlat' : p.armingStatus = .ok m ∧ p.pendingArm = none := by
    rcases hlat with h | ⟨v, pa, g1, g2, g3, g4⟩
    · exact h
    · have := hA v (hshown v g1)
      subst this
      obtain ⟨i, h1, h2, _⟩ := g4
      rw [h1] at h2
      rcases h2 with h | h | h | h <;> cases h
  exact ⟨hlat'.1, hlat'.2, hZ ▸ hz, C38_names S {} hf _ _ _ h1 h4⟩

/-- Every packet that is no reply can come in between. -/
theorem packet_fits {pkt : Packet} (hv : ValidPacket pkt) {q : Message}
    (hno : ∀ m, Message.parse pkt = .ok (some m) → ¬ Responds m q) :
    Noise.Fits ⟨wire pkt, pkt⟩ q :=
  ⟨fun rest => decode_wire hv rest, hno⟩

/-- A line with a wrong checksum. -/
def sampleNoise : Noise := ⟨bs "06as0067\r\n", .invalid ⟨.asciiCsum 0x66, bs "06as0067\r\n"⟩⟩

theorem sampleNoise_fits (q : Message) : sampleNoise.Fits q :=
  ⟨fun _ => by rfl, fun m h => by cases h⟩

/-- A name. -/
def frontDoor : TextDescription := ⟨⟨(bs "Front door      ").toArray, rfl⟩⟩

/-- A panel with one zone name. -/
def sampleServer : Server := ⟨fun ty n => if ty = .zone ∧ n = 3 then some frontDoor else none⟩

theorem sample_sendable : Sendable sampleServer violatedReport := by
  refine ⟨fun ty n t h => ?_, fun z hz => ?_⟩
  · unfold sampleServer at h
    dsimp only at h
    split at h
    · cases h
      intro b hb
      have : ∀ b ∈ bs "Front door      ", Printable b := by
        unfold Printable; decide
      exact this b hb
    · cases h
  · have : ∀ z ∈ violatedReport.zones.toList, WfZoneStatus z := by
      unfold WfZoneStatus; decide +kernel
    exact this z hz

/-- Its name is learnt, although such a line precedes every answer. -/
example : ∃ ops outs p, Init.connect {} ops = .ok (outs, .finished (.ok p)) ∧
    p.zoneName ⟨3⟩ = .ok frontDoor ∧ p.zoneName ⟨4⟩ = .ok .empty := by
  obtain ⟨qs, outs, p, h1, _, _, _, _, h2, _, _⟩ := C38_learns sampleServer armedReport
    violatedReport sample_sendable ⟨0, 0, 0⟩ (fun _ => [sampleNoise])
    (fun q n hn => by rw [List.mem_singleton.mp hn]; exact sampleNoise_fits q)
    (fun q n hn m hm => by rw [List.mem_singleton.mp hn] at hm; cases hm)
  exact ⟨_, outs, p, h1, h2 ⟨3⟩ ⟨by decide, by decide⟩, h2 ⟨4⟩ ⟨by decide, by decide⟩⟩

/-- A whole dialogue (for C36, C37 and C38): five questions, and the result is a panel. -/
example : ∃ x, Init.connect {} (sampleStatuses ++ [.writable (.accept 1000)] ++ sampleTicks 2 ++
      [.arrive (.data (msgBytes (.stringDescriptionResponse ⟨.area, 0, .empty⟩)))] ++
      [.writable (.accept 1000)] ++ sampleTicks 3 ++
      [.arrive (.data (msgBytes (.stringDescriptionResponse ⟨.task, 0, .empty⟩)))] ++
      [.writable (.accept 1000)] ++ sampleTicks 3 ++
      [.arrive (.data (msgBytes (.stringDescriptionResponse ⟨.zone, 208, frontDoor⟩)))] ++
      sampleTicks 1) = .ok x ∧
    (match x with
      | (outs, .finished (.ok p)) => decide (questions outs = [.armingStatusRequest,
          .zoneStatusRequest, describe .area 1, describe .task 1, describe .zone 1]) &&
          decide ((p.zoneName ⟨208⟩).toOption = some frontDoor)
      | _ => false) = true := of_holds (by decide +kernel)

end Elk.Props
