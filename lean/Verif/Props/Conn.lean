import Verif.Spec.Conn
import Verif.Props.Stream
/-!
# Properties of a `Connection` used on its own (C95–C98)
-/

namespace Elk.Props
open Elk.Spec

/-! ## Writing -/

theorem encode_sendable {p : Packet} (h : Sendable p) : p.encode = .ok (wire p) := by
  rcases h with h | ⟨i, rfl⟩
  · exact encode_valid h
  · rfl

theorem connRun_cons {op : ConnOp} {ops : List ConnOp} {c c' : Connection} {outs : List ConnOut} :
    connRun (op :: ops) c = .ok (outs, c') ↔ ∃ o c1 os, connStep c op = .ok (o, c1) ∧
      connRun ops c1 = .ok (os, c') ∧ outs = o :: os := by
  cases h : connStep c op with
  | error e =>
    have : connRun (op :: ops) c = .error e := by
      show (connStep c op >>= _) = _
      rw [h]
      rfl
    rw [this]
    constructor
    · intro h; cases h
    · rintro ⟨_, _, _, h, _⟩; cases h
  | ok x =>
    obtain ⟨o, c1⟩ := x
    cases h2 : connRun ops c1 with
    | error e =>
      have : connRun (op :: ops) c = .error e := by
        show (connStep c op >>= _) = _
        rw [h, bind_ok]
        dsimp only
        rw [h2]
        rfl
      rw [this]
      constructor
      · intro h; cases h
      · rintro ⟨o', c1', os, e1, e2, _⟩
        cases e1
        rw [h2] at e2
        cases e2
    | ok y =>
      obtain ⟨os, c2⟩ := y
      have : connRun (op :: ops) c = .ok (o :: os, c2) := by
        show (connStep c op >>= _) = _
        rw [h, bind_ok]
        dsimp only
        rw [h2]
        rfl
      rw [this]
      constructor
      · intro h; cases h; exact ⟨o, c1, os, rfl, h2, rfl⟩
      · rintro ⟨o', c1', os', e1, e2, e3⟩
        cases e1
        rw [h2] at e2
        cases e2
        rw [e3]

/-- What `poll_ready` does, seen as a flush or nothing. -/
theorem ready_cases (c : Connection) (cx : Cx) :
    (8192 ≤ c.wbuf.length ∧ c.pollReady cx = c.pollFlush cx) ∨
    (c.wbuf.length < 8192 ∧ c.pollReady cx = (.ready (.ok ()), c)) := by
  unfold Connection.pollReady
  by_cases h : 8192 ≤ c.wbuf.length
  · exact .inl ⟨h, if_pos h⟩
  · exact .inr ⟨by omega, if_neg h⟩

theorem handed_cons (op : ConnOp) (ops : List ConnOp) :
    handed (op :: ops) = handed [op] ++ handed ops := by
  unfold handed
  rw [← List.filterMap_append]
  rfl

theorem startSend_eq {c : Connection} {p : Packet} (h : Sendable p) :
    c.startSend p = .ok { c with wbuf := c.wbuf ++ wire p } := by
  unfold Connection.startSend Codec.encode
  rw [encode_sendable h]
  rfl

/-- One step: it does not panic, keeps the reader's invariant and accounts for the bytes. -/
theorem conn_step {c : Connection} (hk : RdOk c.rd) (op : ConnOp)
    (hs : ∀ p ∈ handed [op], Sendable p) :
    ∃ o c1, connStep c op = .ok (o, c1) ∧ RdOk c1.rd ∧
      (∃ new, c1.sock.sent = c.sock.sent ++ new) ∧
      c1.sock.sent ++ c1.wbuf = c.sock.sent ++ c.wbuf ++ (handed [op]).flatMap wire := by
  have flush : ∀ cx, RdOk (c.pollFlush cx).2.rd ∧
      (∃ new, (c.pollFlush cx).2.sock.sent = c.sock.sent ++ new) ∧
      (c.pollFlush cx).2.sock.sent ++ (c.pollFlush cx).2.wbuf = c.sock.sent ++ c.wbuf ++ [] := by
    intro cx
    have hf := connFlush_spec c cx
    exact ⟨by rw [hf.rd]; exact hk, hf.grows, by rw [hf.bytes, List.append_nil]⟩
  match op with
  | .arrive r => exact ⟨_, _, rfl, hk, ⟨[], by simp [Connection.arrive]⟩, by simp [Connection.arrive, handed]⟩
  | .writable w => exact ⟨_, _, rfl, hk, ⟨[], by simp [Connection.writable]⟩, by simp [Connection.writable, handed]⟩
  | .pollNext cx =>
    obtain ⟨r, c', new, h, hn⟩ := connNext_spec c cx hk
    refine ⟨.next r, c', ?_, hn.inv, ⟨[], by rw [hn.sent, List.append_nil]⟩, ?_⟩
    · show (c.pollNext cx >>= _) = _
      rw [h]
      rfl
    · rw [hn.sent, hn.wbuf]
      simp [handed]
  | .pollReady cx =>
    refine ⟨_, _, rfl, ?_⟩
    rcases ready_cases c cx with ⟨_, h⟩ | ⟨_, h⟩
    · rw [h]; exact flush cx
    · rw [h]; exact ⟨hk, ⟨[], by simp⟩, by simp [handed]⟩
  | .startSend p =>
    have hp := hs p (by simp [handed])
    refine ⟨.accepted, { c with wbuf := c.wbuf ++ wire p }, ?_, hk, ⟨[], by simp⟩, by simp [handed]⟩
    show (c.startSend p >>= _) = _
    rw [startSend_eq hp]
    rfl
  | .pollFlush cx => exact ⟨_, _, rfl, flush cx⟩
  | .pollClose cx => exact ⟨_, _, rfl, flush cx⟩

theorem conn_run (ops : List ConnOp) : ∀ {c : Connection}, RdOk c.rd →
    (∀ p ∈ handed ops, Sendable p) →
    ∃ outs c', connRun ops c = .ok (outs, c') ∧ RdOk c'.rd ∧
      (∃ new, c'.sock.sent = c.sock.sent ++ new) ∧
      c'.sock.sent ++ c'.wbuf = c.sock.sent ++ c.wbuf ++ (handed ops).flatMap wire := by
  induction ops with
  | nil => intro c hk _; exact ⟨[], c, rfl, hk, ⟨[], by simp⟩, by simp [handed]⟩
  | cons op ops ih =>
    intro c hk hs
    rw [handed_cons] at hs
    obtain ⟨o, c1, h1, k1, ⟨n1, g1⟩, e1⟩ := conn_step hk op
      (fun p hp => hs p (List.mem_append_left _ hp))
    obtain ⟨os, c2, h2, k2, ⟨n2, g2⟩, e2⟩ := ih k1 (fun p hp => hs p (List.mem_append_right _ hp))
    refine ⟨o :: os, c2, connRun_cons.mpr ⟨o, c1, os, h1, h2, rfl⟩, k2,
      ⟨n1 ++ n2, by rw [g2, g1, List.append_assoc]⟩, ?_⟩
    rw [e2, e1, handed_cons op ops, List.flatMap_append]
    simp only [List.append_assoc]

theorem fresh_ok {f : ReadFrame} (h : f = {}) : RdOk f := by
  subst h
  intro _
  exact dry_nil

/-- **C95** However a connection is used, sending packets that can exist, no operation panics, and at
any time the bytes handed to the socket, followed by those still buffered, are exactly the frames of
the packets given so far, in order. -/
theorem C95_writes {c0 : Connection} (h0 : c0 = { sock := c0.sock }) (hs0 : c0.sock.sent = [])
    (ops : List ConnOp) (hs : ∀ p ∈ handed ops, Sendable p) :
    ∃ outs c, connRun ops c0 = .ok (outs, c) ∧
      c.sock.sent ++ c.wbuf = (handed ops).flatMap wire ∧
      (∀ cx, (c.pollFlush cx).1 = .ready (.ok ()) →
        (c.pollFlush cx).2.sock.sent = (handed ops).flatMap wire) ∧
      (∀ cx, (c.pollClose cx).1 = .ready (.ok ()) →
        (c.pollClose cx).2.sock.sent = (handed ops).flatMap wire) := by
  have hr : c0.rd = {} := by rw [h0]
  have hb : c0.wbuf = [] := by rw [h0]
  obtain ⟨outs, c, h1, _, _, h2⟩ := conn_run ops (fresh_ok hr) hs
  rw [hs0, hb] at h2
  have fl : ∀ cx, (c.pollFlush cx).1 = .ready (.ok ()) →
      (c.pollFlush cx).2.sock.sent = (handed ops).flatMap wire := by
    intro cx h
    have hf := connFlush_spec c cx
    have := hf.bytes
    rw [hf.done h, List.append_nil, h2] at this
    simpa using this
  exact ⟨outs, c, h1, by simpa using h2, fl, fl⟩

/-- A packet for the examples. -/
def onePkt : Packet := .ascii ⟨bs "as00"⟩

theorem onePkt_valid : ValidPacket onePkt := by
  refine ⟨by decide, by decide, ?_⟩
  unfold Printable
  decide

/-- Non-vacuity: a packet given twice and written in two pieces. -/
example : ∃ r, connRun [.startSend onePkt, .writable (.accept 3), .pollFlush ⟨1, 0, 0⟩,
        .startSend onePkt] {} = .ok r ∧
    decide (r.2.sock.sent = (wire onePkt).take 3 ∧
      r.2.wbuf = (wire onePkt).drop 3 ++ wire onePkt) = true :=
  of_holds (by decide +kernel)

/-! ## C96: a willing socket gets everything -/

theorem flush_willing (q rest : List WriteItem) : ∀ buf sent, Willing q →
    (buf.length ≤ room q → ∃ q', flushLoop (q ++ rest) buf sent =
      ⟨.ready (.ok ()), [], q', sent ++ buf⟩) ∧
    (room q < buf.length → flushLoop (q ++ rest) buf sent =
      flushLoop rest (buf.drop (room q)) (sent ++ buf.take (room q))) := by
  induction q with
  | nil =>
    intro buf sent _
    constructor
    · intro h
      have hb : buf = [] := List.length_eq_zero_iff.mp (by simpa [room] using h)
      subst hb
      unfold flushLoop
      exact ⟨rest, by simp⟩
    · intro _
      simp [room]
  | cons w q ih =>
    intro buf sent hw
    have h1 : 1 ≤ capacity w := hw w (List.mem_cons_self ..)
    have hq : Willing q := fun x hx => hw x (List.mem_cons_of_mem _ hx)
    match w, h1 with
    | .accept n, h1 =>
      have h1' : 1 ≤ n := h1
      have hroom : room (.accept n :: q) = n + room q := by simp [room, capacity]
      rw [hroom]
      by_cases hb : buf.length = 0
      · have hb' := List.length_eq_zero_iff.mp hb
        subst hb'
        refine ⟨fun _ => ?_, fun h => by simp at h⟩
        refine ⟨.accept n :: q ++ rest, ?_⟩
        unfold flushLoop
        simp
      · have step : flushLoop (.accept n :: q ++ rest) buf sent =
            flushLoop (q ++ rest) (buf.drop (min n buf.length)) (sent ++ buf.take (min n buf.length)) := by
          rw [List.cons_append]
          conv => lhs; unfold flushLoop
          rw [if_neg hb]
          dsimp only
          rw [if_neg (by omega)]
        rw [step]
        obtain ⟨i1, i2⟩ := ih (buf.drop (min n buf.length)) (sent ++ buf.take (min n buf.length)) hq
        constructor
        · intro h
          obtain ⟨q', e⟩ := i1 (by rw [List.length_drop]; omega)
          exact ⟨q', by rw [e, List.append_assoc, List.take_append_drop]⟩
        · intro h
          have hm : min n buf.length = n := by omega
          rw [hm] at i2 ⊢
          rw [i2 (by rw [List.length_drop]; omega), List.drop_drop, List.append_assoc]
          rw [List.take_add]

/-- **C96** What `poll_flush` of a connection does, for every state of the socket: with answers that
each accept at least a byte and together everything buffered, it returns `Ok` and everything has been
handed over.  If they accept less, exactly that much has been handed over, the rest stays buffered,
and the result is `Pending` if the socket then has no answer or blocks, the socket's own error if it
fails, and `WriteZero` only if it accepts no byte. -/
theorem C96_flush (c : Connection) (cx : Cx) {q rest : List WriteItem} (hw : Willing q)
    (hq : c.sock.writes = q ++ rest) :
    (c.wbuf.length ≤ room q → (c.pollFlush cx).1 = .ready (.ok ()) ∧
      (c.pollFlush cx).2.wbuf = [] ∧ (c.pollFlush cx).2.sock.sent = c.sock.sent ++ c.wbuf) ∧
    (room q < c.wbuf.length → (∀ w ws, rest = w :: ws → capacity w = 0) →
      (c.pollFlush cx).2.wbuf = c.wbuf.drop (room q) ∧
      (c.pollFlush cx).2.sock.sent = c.sock.sent ++ c.wbuf.take (room q) ∧
      (c.pollFlush cx).1 = match rest with
        | [] => .pending
        | .blocked :: _ => .pending
        | .error e :: _ => .ready (.error (.socket e))
        | .accept _ :: _ => .ready (.error .writeZero)) := by
  obtain ⟨h1, h2⟩ := flush_willing q rest c.wbuf c.sock.sent hw
  rw [← hq] at h1 h2
  have k1 : (c.pollFlush cx).1 = (flushLoop c.sock.writes c.wbuf c.sock.sent).res := rfl
  have k2 : (c.pollFlush cx).2.wbuf = (flushLoop c.sock.writes c.wbuf c.sock.sent).wbuf := rfl
  have k3 : (c.pollFlush cx).2.sock.sent = (flushLoop c.sock.writes c.wbuf c.sock.sent).sent := rfl
  rw [k1, k2, k3]
  constructor
  · intro h
    obtain ⟨q', e⟩ := h1 h
    rw [e]
    exact ⟨rfl, rfl, rfl⟩
  · intro h hz
    rw [h2 h]
    have hb : ¬ (c.wbuf.drop (room q)).length = 0 := by rw [List.length_drop]; omega
    unfold flushLoop
    rw [if_neg hb]
    match rest, hz with
    | [], _ => exact ⟨rfl, rfl, rfl⟩
    | .blocked :: _, _ => exact ⟨rfl, rfl, rfl⟩
    | .error _ :: _, _ => exact ⟨rfl, rfl, rfl⟩
    | .accept n :: _, hz =>
      have : n = 0 := hz _ _ rfl
      subst this
      dsimp only
      rw [Nat.zero_min]
      exact ⟨rfl, rfl, rfl⟩

/-- **C96** A panel that has accepted a command and whose socket is willing hands it over in one
flush (so every byte of every command accepted so far is on the wire). -/
theorem C96_command {p0 p : Panel} (hc : Connected p0) {ops : List Op} {outs : List Out}
    (hr : Panel.run ops p0 = .ok (outs, p)) (hwf : ∀ c ∈ commands ops, WfCommand c) {cmd : Command}
    (hcmd : WfCommand cmd) {p1 : Panel} (hs : p.step (.startSend cmd) = .ok (.accepted, p1))
    {q rest : List WriteItem} (hw : Willing q) (hq : p1.conn.sock.writes = q ++ rest)
    (hroom : p1.conn.wbuf.length ≤ room q) (cx : Cx) :
    ∃ p2, p1.step (.pollFlush cx) = .ok (.sink (.ready (.ok ())), p2) ∧ p2.conn.wbuf = [] ∧
      p2.conn.sock.sent =
        p0.conn.sock.sent ++ (commands ops).flatMap commandBytes ++ commandBytes cmd := by
  have hr2 : Panel.run (ops ++ [.startSend cmd]) p0 = .ok (outs ++ [.accepted], p1) :=
    run_append.mpr ⟨p, outs, [.accepted], hr, run_cons.mpr ⟨_, _, _, hs, rfl, rfl⟩, rfl⟩
  have hcs : commands (ops ++ [.startSend cmd]) = commands ops ++ [cmd] := by
    unfold commands; rw [List.filterMap_append]; rfl
  obtain ⟨new, h1, h2⟩ := C44_wire_is_commands hc hr2 (by
    rw [hcs]; intro c hm
    rcases List.mem_append.mp hm with h | h
    · exact hwf c h
    · rw [List.mem_singleton.mp h]; exact hcmd)
  obtain ⟨e1, e2, e3⟩ := (C96_flush p1.conn cx hw hq).1 hroom
  have hbusy : ∃ r w, p1.cmdState = .busy r false w := by
    unfold Panel.step at hs
    dsimp only at hs
    unfold Panel.startSend at hs
    split at hs
    · cases hs
    · cases hp : cmd.intoMsg.toPkt with
      | error e => rw [hp] at hs; cases hs
      | ok pkt =>
        rw [hp, bind_ok] at hs
        cases hcn : p.conn.startSend pkt with
        | error e => rw [hcn] at hs; cases hs
        | ok cn => rw [hcn] at hs; cases hs; exact ⟨_, _, rfl⟩
  obtain ⟨r, w, hb⟩ := hbusy
  refine ⟨{ p1 with conn := (p1.conn.pollFlush cx).2, cmdState := .busy r true w }, ?_, e2, ?_⟩
  · unfold Panel.step
    dsimp only
    unfold Panel.pollFlush
    rw [hb]
    dsimp only
    rw [← Prod.eta (p1.conn.pollFlush cx), e1]
  · show (p1.conn.pollFlush cx).2.sock.sent = _
    rw [e3, h1, List.append_assoc, h2, hcs, List.flatMap_append, List.append_assoc]
    simp

/-- Non-vacuity of the hypotheses: answers that accept three bytes and then the rest. -/
example : Willing [.accept 3, .accept 100] ∧ room [.accept 3, .accept 100] = 103 ∧
    ∃ r, Panel.run [.startSend sampleCmd, .writable (.accept 3), .writable (.accept 100)]
        (samplePanel []) = .ok r ∧
      decide (r.2.conn.sock.writes = [.accept 3, .accept 100] ∧ r.2.conn.wbuf.length ≤ 103) = true :=
  ⟨by unfold Willing; decide, rfl, of_holds (by decide +kernel)⟩

/-! ## C97: the write buffer is bounded -/

theorem connStep_next {c c1 : Connection} {cx o} (h : connStep c (.pollNext cx) = .ok (o, c1)) :
    ∃ r, c.pollNext cx = .ok (r, c1) ∧ o = .next r := by
  have h' : (c.pollNext cx >>= fun x => Except.ok (ConnOut.next x.1, x.2)) = .ok (o, c1) := h
  cases hx : c.pollNext cx with
  | error e => rw [hx] at h'; cases h'
  | ok x => rw [hx] at h'; cases h'; exact ⟨_, rfl, rfl⟩

theorem flush_shrinks (c : Connection) (cx : Cx) : (c.pollFlush cx).2.wbuf.length ≤ c.wbuf.length := by
  have hf := connFlush_spec c cx
  obtain ⟨new, hn⟩ := hf.grows
  have := congrArg List.length hf.bytes
  rw [hn] at this
  simp only [List.length_append] at this
  omega

theorem polite_bound {n : Nat} (ops : List ConnOp) : ∀ {outs : List ConnOut} {c c' : Connection}
    {ok : Bool}, RdOk c.rd → (∀ p ∈ handed ops, Sendable p ∧ (wire p).length ≤ n) →
    connRun ops c = .ok (outs, c') → Polite ok ops outs →
    (ok = true → c.wbuf.length < 8192) → c.wbuf.length < 8192 + n →
    c'.wbuf.length < 8192 + n := by
  induction ops with
  | nil => intro outs c c' ok _ _ h _ _ hb; cases h; exact hb
  | cons op ops ih =>
    intro outs c c' ok hk hs h hp hok hb
    obtain ⟨o, c1, os, h1, h2, rfl⟩ := connRun_cons.mp h
    rw [handed_cons] at hs
    obtain ⟨o', c1', h1', hk1, _, _⟩ := conn_step hk op
      (fun p hp => (hs p (List.mem_append_left _ hp)).1)
    rw [h1] at h1'
    cases h1'
    have hs2 : ∀ p ∈ handed ops, Sendable p ∧ (wire p).length ≤ n :=
      fun p hp => hs p (List.mem_append_right _ hp)
    have go : ∀ {ok' : Bool}, Polite ok' ops os → (ok' = true → c1.wbuf.length < 8192) →
        c1.wbuf.length < 8192 + n → c'.wbuf.length < 8192 + n :=
      fun hp hx hy => ih hk1 hs2 h2 hp hx hy
    have smaller : Polite ok ops os → c1.wbuf.length ≤ c.wbuf.length →
        c'.wbuf.length < 8192 + n :=
      fun hp hl => go hp (fun h => by have := hok h; omega) (by omega)
    match op, h1, hp with
    | .arrive r, h1, hp => cases h1; exact smaller hp (Nat.le_refl _)
    | .writable w, h1, hp => cases h1; exact smaller hp (Nat.le_refl _)
    | .pollNext cx, h1, hp =>
      obtain ⟨r, c2, new, hx, hn⟩ := connNext_spec c cx hk
      obtain ⟨r', hy, rfl⟩ := connStep_next h1
      rw [hx] at hy
      cases hy
      exact smaller hp (by rw [hn.wbuf]; exact Nat.le_refl _)
    | .pollFlush cx, h1, hp => cases h1; exact smaller hp (flush_shrinks c cx)
    | .pollClose cx, h1, hp => cases h1; exact smaller hp (flush_shrinks c cx)
    | .startSend p, h1, hp =>
      obtain ⟨hok', hpol⟩ := hp
      have hsp := hs p (List.mem_append_left _ (by simp [handed]))
      have h1' : (c.startSend p >>= fun x => Except.ok (ConnOut.accepted, x)) = .ok (o, c1) := h1
      rw [startSend_eq hsp.1] at h1'
      cases h1'
      have := hok hok'
      refine go hpol (by intro h; cases h) ?_
      simp only [List.length_append]
      have := hsp.2
      omega
    | .pollReady cx, h1, hp =>
      have e1 : o = .sink (c.pollReady cx).1 := by cases h1; rfl
      have e2 : c1 = (c.pollReady cx).2 := by cases h1; rfl
      have hl : c1.wbuf.length ≤ c.wbuf.length := by
        rw [e2]
        rcases ready_cases c cx with ⟨_, h⟩ | ⟨_, h⟩
        · rw [h]; exact flush_shrinks c cx
        · rw [h]; exact Nat.le_refl _
      by_cases hr : (c.pollReady cx).1 = .ready (.ok ())
      · rw [e1, hr] at hp
        have hlt : c1.wbuf.length < 8192 := by
          rw [e2]
          rcases ready_cases c cx with ⟨_, h⟩ | ⟨hlt, h⟩
          · rw [h] at hr ⊢
            rw [(connFlush_spec c cx).done hr]
            decide
          · rw [h]; exact hlt
        exact go (ok' := true) hp (fun _ => hlt) (by omega)
      · have hp' : Polite ok ops os := by
          rw [e1] at hp
          generalize (c.pollReady cx).1 = r at hp hr
          match r, hr, hp with
          | .pending, _, hp => exact hp
          | .ready (.error _), _, hp => exact hp
          | .ready (.ok ()), hr, _ => exact absurd rfl hr
        exact smaller hp' hl

theorem wire_short {p : Packet} (h : ValidPacket p) : (wire p).length ≤ 1024 := by
  match p, h with
  | .ascii q, h =>
    have hl := h.2.1
    show (asciiFrame q.body).length ≤ 1024
    unfold asciiFrame
    simp only [List.length_append, hex2, List.length_cons, List.length_nil]
    omega
  | .rp q, h => exact h

/-- **C97** A user of a fresh connection who sends valid packets, each after `poll_ready` said `Ok`,
never makes it buffer 9216 bytes or more, however slow the socket is. -/
theorem C97_bounded {c0 c : Connection} (h0 : c0 = { sock := c0.sock }) {ops : List ConnOp}
    {outs : List ConnOut} (hs : ∀ p ∈ handed ops, ValidPacket p)
    (hr : connRun ops c0 = .ok (outs, c)) (hp : Polite false ops outs) :
    c.wbuf.length < 8192 + 1024 := by
  have hrd : c0.rd = {} := by rw [h0]
  have hb : c0.wbuf = [] := by rw [h0]
  exact polite_bound ops (fresh_ok hrd) (fun p hm => ⟨.inl (hs p hm), wire_short (hs p hm)⟩) hr hp
    (fun h => by cases h) (by rw [hb]; decide)

/-- **C97** `poll_ready` says `Ok` at once, without touching the socket, while fewer than 8192 bytes
are buffered; from then on it says so only when everything has been handed over. -/
theorem C97_ready (c : Connection) (cx : Cx) :
    (c.wbuf.length < 8192 → c.pollReady cx = (.ready (.ok ()), c)) ∧
    (8192 ≤ c.wbuf.length → (c.pollReady cx).1 = .ready (.ok ()) →
      (c.pollReady cx).2.wbuf = [] ∧
      (c.pollReady cx).2.sock.sent = c.sock.sent ++ c.wbuf) := by
  rcases ready_cases c cx with ⟨h1, h⟩ | ⟨h1, h⟩
  · refine ⟨fun h2 => by omega, fun _ hr => ?_⟩
    rw [h] at hr ⊢
    have hf := connFlush_spec c cx
    have hb := hf.bytes
    rw [hf.done hr, List.append_nil] at hb
    exact ⟨hf.done hr, hb⟩
  · exact ⟨fun _ => h, fun h2 => by omega⟩

/-- Non-vacuity: a polite history. -/
example : ∃ r, connRun [.pollReady ⟨1, 0, 0⟩, .startSend onePkt, .pollReady ⟨1, 0, 0⟩,
        .startSend onePkt] {} = .ok r ∧
    Polite false [.pollReady ⟨1, 0, 0⟩, .startSend onePkt, .pollReady ⟨1, 0, 0⟩,
        .startSend onePkt] r.1 :=
  ⟨_, rfl, rfl, rfl, trivial⟩

/-- The bound is nearly reached: 8191 bytes buffered still take another packet. -/
example (cx : Cx) : ({ wbuf := List.replicate 8191 0 } : Connection).pollReady cx =
    (.ready (.ok ()), { wbuf := List.replicate 8191 0 }) :=
  (C97_ready _ cx).1 (by rw [List.length_replicate]; decide)

/-- With 8192 bytes buffered and a socket that blocks, the user has to wait. -/
example (cx : Cx) : (({ wbuf := List.replicate 8192 0 } : Connection).pollReady cx).1 = .pending := by
  rcases ready_cases { wbuf := List.replicate 8192 0 } cx with ⟨_, h⟩ | ⟨h, _⟩
  · rw [h]
    exact ((C96_flush { wbuf := List.replicate 8192 0 } cx (q := []) (rest := [])
      (by intro w hw; cases hw) rfl).2 (by rw [List.length_replicate]; decide)
      (by intro w ws h; cases h)).2.2
  · simp only [List.length_replicate] at h
    omega

/-! ## C98: two connections -/

theorem yielded_cons (o : ConnOut) (os : List ConnOut) :
    yielded (o :: os) = yielded [o] ++ yielded os := by
  unfold yielded
  rw [← List.filterMap_append]
  rfl

theorem cameIn_cons (op : ConnOp) (ops : List ConnOp) :
    cameIn (op :: ops) = cameIn [op] ++ cameIn ops := by
  unfold cameIn
  rw [← List.flatMap_append]
  rfl

theorem conn_read_step {c c1 : Connection} (hk : RdOk c.rd) {op : ConnOp} {o : ConnOut}
    (hs : ∀ p ∈ handed [op], Sendable p) (h : connStep c op = .ok (o, c1)) :
    ∃ new, dataOf c.sock.incoming ++ cameIn [op] = new ++ dataOf c1.sock.incoming ∧
      Steps (c.rd.buffer ++ new) (yielded [o]) c1.rd.buffer := by
  have quiet : ∀ (c2 : Connection) (o2 : ConnOut), c2.rd = c.rd → c2.sock.incoming = c.sock.incoming →
      cameIn [op] = [] → yielded [o2] = [] →
      ∃ new, dataOf c.sock.incoming ++ cameIn [op] = new ++ dataOf c2.sock.incoming ∧
        Steps (c.rd.buffer ++ new) (yielded [o2]) c2.rd.buffer := by
    intro c2 o2 h1 h2 h3 h4
    refine ⟨[], by rw [h2, h3, List.append_nil]; rfl, ?_⟩
    rw [h4, h1, List.append_nil]
    exact .nil
  match op, h, quiet, hs with
  | .arrive r, h, _, _ =>
    cases h
    refine ⟨[], ?_, by rw [List.append_nil]; exact .nil⟩
    show _ = dataOf (c.sock.incoming ++ [r])
    rw [dataOf_append]
    congr 1
    cases r <;> simp [cameIn, dataOf]
  | .writable w, h, quiet, _ => cases h; exact quiet _ _ rfl rfl rfl rfl
  | .pollNext cx, h, _, _ =>
    obtain ⟨r, c2, new, hx, hn⟩ := connNext_spec c cx hk
    obtain ⟨r', hy, rfl⟩ := connStep_next h
    rw [hx] at hy
    cases hy
    refine ⟨new, by rw [hn.data]; simp [cameIn], ?_⟩
    have other : (∀ p, r ≠ .ready (some (.ok p))) → yielded [ConnOut.next r] = [] →
        Steps (c.rd.buffer ++ new) (yielded [ConnOut.next r]) c1.rd.buffer := by
      intro h1 h2
      rw [h2, hn.other h1]
      exact .nil
    match r, hn, other with
    | .pending, _, other => exact other (by intro p h; cases h) rfl
    | .ready none, _, other => exact other (by intro p h; cases h) rfl
    | .ready (some (.error e)), _, other => exact other (by intro p h; cases h) rfl
    | .ready (some (.ok p)), hn, _ => exact .cons (hn.packet p rfl) .nil
  | .pollReady cx, h, quiet, _ =>
    have e2 : c1 = (c.pollReady cx).2 := by cases h; rfl
    have e1 : o = .sink (c.pollReady cx).1 := by cases h; rfl
    subst e1 e2
    rcases ready_cases c cx with ⟨_, h⟩ | ⟨_, h⟩
    · rw [h]
      have hf := connFlush_spec c cx
      exact quiet _ _ hf.rd hf.incoming rfl rfl
    · rw [h]; exact quiet _ _ rfl rfl rfl rfl
  | .startSend p, h, quiet, hs =>
    have h1' : (c.startSend p >>= fun x => Except.ok (ConnOut.accepted, x)) = .ok (o, c1) := h
    rw [startSend_eq (hs p (by simp [handed]))] at h1'
    cases h1'
    exact quiet _ _ rfl rfl rfl rfl
  | .pollFlush cx, h, quiet, _ =>
    cases h
    have hf := connFlush_spec c cx
    exact quiet _ _ hf.rd hf.incoming rfl rfl
  | .pollClose cx, h, quiet, _ =>
    cases h
    have hf := connFlush_spec c cx
    exact quiet _ _ hf.rd hf.incoming rfl rfl

theorem conn_read (ops : List ConnOp) : ∀ {c c' : Connection} {outs : List ConnOut}, RdOk c.rd →
    (∀ p ∈ handed ops, Sendable p) → connRun ops c = .ok (outs, c') →
    RdOk c'.rd ∧ ∃ bytes, dataOf c.sock.incoming ++ cameIn ops = bytes ++ dataOf c'.sock.incoming ∧
      Steps (c.rd.buffer ++ bytes) (yielded outs) c'.rd.buffer := by
  induction ops with
  | nil =>
    intro c c' outs hk _ h
    cases h
    exact ⟨hk, [], by simp [cameIn], by rw [List.append_nil]; exact .nil⟩
  | cons op ops ih =>
    intro c c' outs hk hs h
    rw [handed_cons] at hs
    obtain ⟨o, c1, os, h1, h2, rfl⟩ := connRun_cons.mp h
    have hs1 : ∀ p ∈ handed [op], Sendable p := fun p hp => hs p (List.mem_append_left _ hp)
    obtain ⟨o', c1', h1', hk1, _, _⟩ := conn_step hk op hs1
    rw [h1] at h1'
    cases h1'
    obtain ⟨new, d1, s1⟩ := conn_read_step hk hs1 h1
    obtain ⟨hk2, bytes, d2, s2⟩ := ih hk1 (fun p hp => hs p (List.mem_append_right _ hp)) h2
    refine ⟨hk2, new ++ bytes, ?_, ?_⟩
    · rw [cameIn_cons, ← List.append_assoc, d1, List.append_assoc, d2, List.append_assoc]
    · rw [yielded_cons, ← List.append_assoc]
      exact steps_append s1 s2

/-- Decoding part of a stream of valid frames returns some of the first packets, unaltered. -/
theorem steps_prefix : ∀ (ps : List Packet) {a more : Bytes} {qs : List Packet} {left : Bytes},
    (∀ p ∈ ps, ValidPacket p) → a ++ more = ps.flatMap wire → Steps a qs left →
    ∃ ps', ps = qs ++ ps' ∧ left ++ more = ps'.flatMap wire := by
  intro ps
  induction ps with
  | nil =>
    intro a more qs left _ he h
    have ha : a = [] := (List.append_eq_nil_iff.mp he).1
    subst ha
    cases h with
    | nil => exact ⟨[], rfl, he⟩
    | cons hd _ => have hd' : Packet.decode [] = .ok (some _, _) := hd
                   rw [show Packet.decode [] = .ok (none, []) from rfl] at hd'
                   cases hd'
  | cons p ps ih =>
    intro a more qs left hv he h
    cases h with
    | nil => exact ⟨p :: ps, rfl, he⟩
    | @cons _ mid q qs _ hd hr =>
      have hd2 := decode_mono hd more
      rw [he, List.flatMap_cons, decode_wire (hv p (List.mem_cons_self ..))] at hd2
      injection hd2 with hd2
      injection hd2 with e1 e2
      injection e1 with e1
      subst e1
      obtain ⟨ps', e, hl⟩ := ih (fun x hx => hv x (List.mem_cons_of_mem _ hx)) e2.symm hr
      exact ⟨ps', by rw [e]; rfl, hl⟩

/-- **C98** Two fresh connections at the ends of a line that delivers, in order, some of the bytes
handed to the first one's socket (in whatever pieces and at whatever times): the second yields exactly
the first packets given to the first, unaltered, none twice; whatever else the two do. -/
theorem C98_received {a b a' b' : Connection} (ha : a = { sock := a.sock }) (has : a.sock.sent = [])
    (hb : b = { sock := b.sock }) (hbi : b.sock.incoming = []) {aops bops : List ConnOp}
    {aouts bouts : List ConnOut} (hav : ∀ p ∈ handed aops, ValidPacket p)
    (hbv : ∀ p ∈ handed bops, Sendable p) (hra : connRun aops a = .ok (aouts, a'))
    (hrb : connRun bops b = .ok (bouts, b')) (line : cameIn bops <+: a'.sock.sent) :
    yielded bouts <+: handed aops := by
  obtain ⟨outs, c, h1, h2, _⟩ := C95_writes ha has aops (fun p hp => .inl (hav p hp))
  rw [hra] at h1
  cases h1
  have hr : b.rd = {} := by rw [hb]
  obtain ⟨_, bytes, d, s⟩ := conn_read bops (fresh_ok hr) hbv hrb
  rw [hbi, hr] at *
  obtain ⟨t, ht⟩ := line
  have he : bytes ++ (dataOf b'.sock.incoming ++ t ++ a'.wbuf) = (handed aops).flatMap wire := by
    rw [← h2, ← ht]
    have d' : cameIn bops = bytes ++ dataOf b'.sock.incoming := d
    rw [d']
    simp [List.append_assoc]
  obtain ⟨ps', e, _⟩ := steps_prefix (handed aops) hav he s
  exact ⟨ps', e.symm⟩

/-- **C98** When everything has been handed over by the first and delivered, and the second's stream
has nothing more to return, it has yielded all the packets. -/
theorem C98_all {a b a' b' b'' : Connection} (ha : a = { sock := a.sock }) (has : a.sock.sent = [])
    (hb : b = { sock := b.sock }) (hbi : b.sock.incoming = []) {aops bops : List ConnOp}
    {aouts bouts : List ConnOut} (hav : ∀ p ∈ handed aops, ValidPacket p)
    (hbv : ∀ p ∈ handed bops, Sendable p) (hra : connRun aops a = .ok (aouts, a'))
    (hrb : connRun bops b = .ok (bouts, b')) (line : cameIn bops = a'.sock.sent)
    (flushed : a'.wbuf = []) {cx : Cx} (hn : connStep b' (.pollNext cx) = .ok (.next .pending, b''))
    (hbl : .blocked ∉ b'.sock.incoming) :
    yielded bouts = handed aops := by
  obtain ⟨outs, c, h1, h2, _⟩ := C95_writes ha has aops (fun p hp => .inl (hav p hp))
  rw [hra] at h1
  cases h1
  have hr : b.rd = {} := by rw [hb]
  obtain ⟨hk, bytes, d, s⟩ := conn_read bops (fresh_ok hr) hbv hrb
  rw [hbi, hr] at *
  have d' : cameIn bops = bytes ++ dataOf b'.sock.incoming := d
  obtain ⟨r, c2, new, hx, hs⟩ := connNext_spec b' cx hk
  obtain ⟨r', hy, hrr⟩ := connStep_next hn
  rw [hx] at hy
  cases hy
  cases hrr
  have hinc := hs.drained rfl hbl
  have hnew := hs.data
  rw [hinc] at hnew
  have hnew' : dataOf b'.sock.incoming = new := by simpa [dataOf] using hnew
  have s2 : Steps (bytes ++ new) (yielded bouts) b''.rd.buffer := by
    have := steps_append (t := new) (qs := []) s .nil
    rw [List.append_nil] at this
    rw [hs.other (by intro p h; cases h)]
    exact this
  have he : (bytes ++ new) ++ [] = (handed aops).flatMap wire := by
    rw [← h2, flushed, ← line, d', hnew', List.append_nil]
  obtain ⟨ps', e, hl⟩ := steps_prefix (handed aops) hav he s2
  rw [List.append_nil] at hl
  have hdry := (hs.pend rfl).1
  cases ps' with
  | nil => rw [e, List.append_nil]
  | cons p ps' =>
    have hp : ValidPacket p := hav p (by rw [e]; simp)
    unfold Dry at hdry
    rw [hl, List.flatMap_cons, decode_wire hp] at hdry
    cases hdry

/-- Non-vacuity: two packets, flushed by one connection and read by another in two pieces. -/
example : (∃ r, connRun [.startSend onePkt, .startSend onePkt, .writable (.accept 100),
        .pollFlush ⟨1, 0, 0⟩] {} = .ok r ∧
      decide (r.2.sock.sent = wire onePkt ++ wire onePkt ∧ r.2.wbuf = []) = true) ∧
    ∃ r, connRun [.arrive (.data ((wire onePkt).take 3)), .pollNext ⟨1, 0, 0⟩,
        .arrive (.data ((wire onePkt).drop 3 ++ wire onePkt)), .pollNext ⟨1, 0, 0⟩,
        .pollNext ⟨1, 0, 0⟩] {} = .ok r ∧
      (decide (yielded r.1 = [onePkt, onePkt]) &&
        (match r.2.pollNext ⟨1, 0, 0⟩ with | .ok (.pending, _) => true | _ => false)) = true :=
  ⟨of_holds (by decide +kernel), of_holds (by decide +kernel)⟩

end Elk.Props
