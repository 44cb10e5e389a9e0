import Verif.Props.State
/-!
# Properties of sending commands (C40–C44, C47, C61)
-/

namespace Elk.Props
open Elk.Spec

/-- The command waiting for its reply. -/
def outstanding : CmdState → Option Message
  | .idle => none
  | .busy r _ _ => some r

/-! ## C40: one command at a time -/

theorem flow_event {p p1 : Panel} {now pkt ev w cx l x} (hi : InterpCase p now pkt (ev, w, p1))
    (hf : Flow (outstanding p1.cmdState) l x) :
    Flow (outstanding p.cmdState) ((.pollNext cx, .next (.ready (some (.ok ev))) w) :: l) x := by
  cases hi with
  | bad e _ => exact .event rfl (by intro r m _ h; cases h) hf
  | skip _ => exact .event rfl (by intro r m _ h; cases h) hf
  | msg m ch q comp w p2 _ _ ht hc =>
    have hk := (track_keeps ht).2.1
    rw [← hk]
    cases hc with
    | done r f wk hb hr =>
      rw [hb]
      exact .complete rfl rfl hr hf
    | busy r f wk hb hr =>
      refine .event rfl ?_ hf
      intro r' m' h1 h2
      rw [hb] at h1
      cases h1; cases h2
      exact hr
    | idle hb =>
      refine .event rfl ?_ hf
      intro r' m' h1 h2
      rw [hb] at h1
      cases h1

theorem flush_outstanding {p p1 : Panel} {cx r} (h : FlushCase p cx (r, p1)) :
    outstanding p1.cmdState = outstanding p.cmdState := by
  cases h with
  | nothing _ => rfl
  | flushed _ _ _ hb _ => rw [hb]; rfl
  | blocked _ _ _ _ _ => rfl
  | failed _ _ _ _ _ _ => rfl

theorem flow_step {p p1 : Panel} {op o l x} (hs : StepCase p op (o, p1))
    (hf : Flow (outstanding p1.cmdState) l x) :
    Flow (outstanding p.cmdState) ((op, o) :: l) x := by
  cases hs with
  | arrive _ => exact .arrive hf
  | writable _ => exact .writable hf
  | next cx new r w _ hn =>
    cases hn with
    | error e c _ => exact .noEvent (by intro ev h; cases h) hf
    | ended c _ => exact .noEvent (by intro ev h; cases h) hf
    | packet pkt c ev w _ _ hi => exact flow_event (p := { p with conn := c }) hi hf
    | idle c _ _ => exact .noEvent (by intro ev h; cases h) hf
    | wait c pa _ _ _ => exact .noEvent (by intro ev h; cases h) hf
    | fire c pa prior _ _ _ _ => exact .event rfl (by intro r m _ h; cases h) hf
  | ready cx r _ hr =>
    cases hr with
    | idle hi => rw [hi] at hf ⊢; exact .readyIdle hf
    | wait rq w hb => rw [hb]; exact .readyBusy (by simp) hf
    | flushed rq w c hb _ => rw [hb]; exact .readyBusy (by simp) hf
    | blocked rq w c hb _ => dsimp only at hf; rw [hb] at hf ⊢; exact .readyBusy (by simp) hf
    | failed rq w c e hb _ => dsimp only at hf; rw [hb] at hf ⊢; exact .readyBusy (by simp) hf
  | send cmd pkt e hi _ _ => rw [hi]; exact .accept hf
  | flush cx r _ hc => rw [flush_outstanding hc] at hf; exact .flush hf
  | close cx r _ hc =>
    cases hc with
    | flushed q r c hc _ => dsimp only at hf; rw [flush_outstanding hc] at hf; exact .close hf
    | stuck r _ _ hc => rw [flush_outstanding hc] at hf; exact .close hf

theorem flow_hist {p p' : Panel} {ops outs} (h : Hist p ops outs p') :
    Flow (outstanding p.cmdState) (ops.zip outs) (outstanding p'.cmdState) := by
  induction h with
  | nil _ => exact .nil
  | cons _ hs _ ih => exact flow_step hs ih

theorem run_length {ops : List Op} : ∀ {p p' : Panel} {outs : List Out},
    Panel.run ops p = .ok (outs, p') → outs.length = ops.length := by
  induction ops with
  | nil => intro p p' outs h; cases h; rfl
  | cons op ops ih =>
    intro p p' outs h
    obtain ⟨o, p1, os, _, h2, rfl⟩ := run_cons.mp h
    simp [ih h2]

/-- **C40** Every history follows the discipline `Flow`: a command is accepted only when none is
outstanding, and then is outstanding until the first event whose message is a reply to it, which
completes it; nothing else is ever completed; `poll_ready` says ready iff none is outstanding. -/
theorem C40_flow {p0 p : Panel} (hc : Connected p0) {ops : List Op} {outs : List Out}
    (hr : Panel.run ops p0 = .ok (outs, p)) : ∃ o, Flow none (ops.zip outs) o := by
  have := flow_hist (hist_of_run (connected_good hc) hr)
  rw [hc.idle] at this
  exact ⟨_, this⟩

theorem flow_account {a b : Option Message} {l : List (Op × Out)} (h : Flow a l b) :
    a.toList ++ (commands (l.map (·.1))).map Command.intoMsg =
      completions (l.map (·.2)) ++ b.toList := by
  induction h with
  | nil => simp [commands, completions, events]
  | @accept c l x _ ih =>
    have : commands (Op.startSend c :: l.map (·.1)) = c :: commands (l.map (·.1)) := rfl
    simp only [List.map_cons, this]
    exact ih
  | @complete cx ev r m w l x h1 _ _ _ ih =>
    have e1 : commands (Op.pollNext cx :: l.map (·.1)) = commands (l.map (·.1)) := rfl
    have e2 : completions (Out.next (.ready (some (.ok ev))) w :: l.map (·.2)) =
        r :: completions (l.map (·.2)) := by
      show (ev :: events (l.map (·.2))).filterMap (·.completes) = _
      rw [List.filterMap_cons, h1]
      rfl
    simp only [List.map_cons, e1, e2]
    simp only [Option.toList_none, List.nil_append] at ih
    rw [ih]
    rfl
  | @event cx ev o w l x h1 _ _ ih =>
    have e1 : commands (Op.pollNext cx :: l.map (·.1)) = commands (l.map (·.1)) := rfl
    have e2 : completions (Out.next (.ready (some (.ok ev))) w :: l.map (·.2)) =
        completions (l.map (·.2)) := by
      show (ev :: events (l.map (·.2))).filterMap (·.completes) = _
      rw [List.filterMap_cons, h1]
      rfl
    simp only [List.map_cons, e1, e2]
    exact ih
  | @noEvent cx res o w l x h1 _ ih =>
    have e1 : commands (Op.pollNext cx :: l.map (·.1)) = commands (l.map (·.1)) := rfl
    have e2 : completions (Out.next res w :: l.map (·.2)) = completions (l.map (·.2)) := by
      match res, h1 with
      | .pending, _ => rfl
      | .ready none, _ => rfl
      | .ready (some (.error e)), _ => rfl
      | .ready (some (.ok ev)), h1 => exact absurd rfl (h1 ev)
    simp only [List.map_cons, e1, e2]
    exact ih
  | readyIdle _ ih => exact ih
  | readyBusy _ _ ih => exact ih
  | flush _ ih => exact ih
  | close _ ih => exact ih
  | arrive _ ih => exact ih
  | writable _ ih => exact ih

theorem map_zip_fst {α β : Type} (a : List α) (b : List β) (h : b.length = a.length) :
    (a.zip b).map (·.1) = a := List.map_fst_zip (by omega)

theorem map_zip_snd {α β : Type} (a : List α) (b : List β) (h : b.length = a.length) :
    (a.zip b).map (·.2) = b := List.map_snd_zip (by omega)

theorem account {p0 p : Panel} (hc : Connected p0) {ops : List Op} {outs : List Out}
    (hr : Panel.run ops p0 = .ok (outs, p)) :
    (commands ops).map Command.intoMsg = completions outs ++ (outstanding p.cmdState).toList := by
  have hf := flow_hist (hist_of_run (connected_good hc) hr)
  rw [hc.idle] at hf
  have := flow_account hf
  have hl := run_length hr
  rw [map_zip_fst _ _ hl, map_zip_snd _ _ hl] at this
  simpa [outstanding] using this

/-- **C40** The commands completed are exactly those accepted, in order, each once, except that the
last accepted one may still be outstanding. -/
theorem C40_each_once {p0 p : Panel} (hc : Connected p0) {ops : List Op} {outs : List Out}
    (hr : Panel.run ops p0 = .ok (outs, p)) :
    ∃ last : Option Message,
      (commands ops).map Command.intoMsg = completions outs ++ last.toList :=
  ⟨_, account hc hr⟩

/-- **C40** Between two accepted commands there is an event that completes the first. -/
theorem C40_between {p0 p1 p2 p3 p4 : Panel} (hc : Connected p0) {ops₁ ops₂ : List Op}
    {outs₁ outs₂ : List Out} {c c' : Command}
    (h1 : Panel.run ops₁ p0 = .ok (outs₁, p1)) (h2 : p1.step (.startSend c) = .ok (.accepted, p2))
    (h3 : Panel.run ops₂ p2 = .ok (outs₂, p3))
    (h4 : p3.step (.startSend c') = .ok (.accepted, p4)) (hn : commands ops₂ = []) :
    completions outs₂ = [c.intoMsg] := by
  have g1 := (hist_of_run (connected_good hc) h1).good
  have c2 := step_cases g1.sane h2
  have g2 := step_good g1 c2
  have hh := hist_of_run g2 h3
  have c4 := step_cases hh.good.sane h4
  have hf := flow_account (flow_hist hh)
  have hl := run_length h3
  rw [map_zip_fst _ _ hl, map_zip_snd _ _ hl, hn] at hf
  cases c2 with
  | send _ _ _ _ _ _ =>
    cases c4 with
    | send _ _ _ hi _ _ =>
      rw [hi] at hf
      simpa [outstanding] using hf.symm

/-- **C40** With a command outstanding `poll_ready` does not say ready, with none it does. -/
theorem C40_ready {p0 p : Panel} (hc : Connected p0) {ops : List Op} {outs : List Out}
    (hr : Panel.run ops p0 = .ok (outs, p)) (cx : Cx) :
    (p.pollReady cx).1 = .ready (.ok ()) ↔
      (commands ops).map Command.intoMsg = completions outs := by
  rw [account hc hr]
  have hrc := pollReady_cases p cx
  generalize p.pollReady cx = x at hrc
  cases hrc with
  | idle hi => rw [hi]; simp [outstanding]
  | wait rq w hb => rw [hb]; simp [outstanding]
  | flushed rq w c hb _ => rw [hb]; simp [outstanding]
  | blocked rq w c hb _ => rw [hb]; simp [outstanding]
  | failed rq w c e hb _ => rw [hb]; simp [outstanding]

/-! Sample commands and their replies, for non-vacuity. -/

/-- Activate task 1. -/
def sampleCmd : Command := .activateTask ⟨1⟩

theorem sampleCmd_wf : WfCommand sampleCmd := ⟨by decide, by decide⟩

/-- The panel's reply to `sampleCmd`. -/
def sampleReply : Bytes := msgBytes (.taskChange ⟨1⟩)

/-- Two commands in a row, each completed by its reply. -/
example : ∃ r, Panel.run [.startSend sampleCmd, .pollNext ⟨1, 0, 0⟩, .startSend sampleCmd]
      (samplePanel [.data sampleReply]) = .ok r ∧
    decide (completions r.1 = [sampleCmd.intoMsg]) = true :=
  of_holds (by decide +kernel)

/-! ## C41: only reading frees a busy panel -/

theorem busy_step {p p1 : Panel} {op o} (hs : StepCase p op (o, p1))
    (hop : ∀ cx, op ≠ .pollNext cx) {r} (hb : outstanding p.cmdState = some r) :
    outstanding p1.cmdState = some r ∧ ∀ cx, op = .pollReady cx → o ≠ .sink (.ready (.ok ())) := by
  cases hs with
  | arrive _ => exact ⟨hb, by intro cx h; cases h⟩
  | writable _ => exact ⟨hb, by intro cx h; cases h⟩
  | next cx _ _ _ _ _ => exact absurd rfl (hop cx)
  | ready cx _ _ hr =>
    cases hr with
    | idle hi => rw [hi] at hb; cases hb
    | wait rq w hc => rw [hc] at hb; exact ⟨hb, by intro cx _ h; cases h⟩
    | flushed rq w c hc _ => rw [hc] at hb; exact ⟨hb, by intro cx _ h; cases h⟩
    | blocked rq w c hc _ => exact ⟨hb, by intro cx _ h; cases h⟩
    | failed rq w c e hc _ => exact ⟨hb, by intro cx _ h; cases h⟩
  | send cmd _ _ hi _ _ => rw [hi] at hb; cases hb
  | flush cx _ _ hf =>
    rw [flush_outstanding hf]; exact ⟨hb, by intro cx h; cases h⟩
  | close cx _ _ hc =>
    cases hc with
    | flushed q r c hf _ =>
      dsimp only
      rw [flush_outstanding hf]; exact ⟨hb, by intro cx h; cases h⟩
    | stuck r _ _ hf => rw [flush_outstanding hf]; exact ⟨hb, by intro cx h; cases h⟩

theorem busy_hist {p p' : Panel} {ops outs} (h : Hist p ops outs p')
    (hop : ∀ cx, .pollNext cx ∉ ops) {r} (hb : outstanding p.cmdState = some r) :
    outstanding p'.cmdState = some r ∧
      ∀ cx, (.pollReady cx, .sink (.ready (.ok ()))) ∉ ops.zip outs := by
  induction h with
  | nil _ => exact ⟨hb, by simp⟩
  | @cons p op o p1 ops os p2 _ hs _ ih =>
    have hop1 : ∀ cx, op ≠ .pollNext cx := by
      intro cx h
      exact hop cx (by rw [h]; exact List.mem_cons_self ..)
    obtain ⟨h1, h2⟩ := busy_step hs hop1 hb
    obtain ⟨h3, h4⟩ := ih (fun cx hm => hop cx (List.mem_cons_of_mem _ hm)) h1
    refine ⟨h3, fun cx hm => ?_⟩
    rw [List.zip_cons_cons, List.mem_cons] at hm
    rcases hm with hm | hm
    · simp only [Prod.mk.injEq] at hm
      exact h2 cx hm.1.symm hm.2.symm
    · exact h4 cx hm

/-- **C41** After a command was accepted, without reading the stream, `poll_ready` never says ready
and another `start_send` panics, whatever sink operations are performed and however the socket
behaves. -/
theorem C41_busy_until_read {p0 p1 p2 p3 : Panel} (hc : Connected p0) {ops₁ ops₂ : List Op}
    {outs₁ outs₂ : List Out} {c : Command}
    (h1 : Panel.run ops₁ p0 = .ok (outs₁, p1)) (h2 : p1.step (.startSend c) = .ok (.accepted, p2))
    (h3 : Panel.run ops₂ p2 = .ok (outs₂, p3)) (hn : ∀ cx, .pollNext cx ∉ ops₂) :
    (∀ cx, (.pollReady cx, .sink (.ready (.ok ()))) ∉ ops₂.zip outs₂) ∧
    (∀ cx, (p3.pollReady cx).1 ≠ .ready (.ok ())) ∧
    ∀ c', p3.step (.startSend c') = .error .assertion := by
  have g1 := (hist_of_run (connected_good hc) h1).good
  have c2 := step_cases g1.sane h2
  have hh := hist_of_run (step_good g1 c2) h3
  cases c2 with
  | send _ _ _ _ _ _ =>
    obtain ⟨hb, hz⟩ := busy_hist hh hn (r := c.intoMsg) rfl
    refine ⟨hz, fun cx hx => ?_, fun c' => ?_⟩
    · have hs := busy_step (.ready cx _ _ (pollReady_cases p3 cx)) (by intro cx h; cases h) hb
      exact hs.2 cx rfl (congrArg Out.sink hx)
    · rcases startSend_cases p3 c' with ⟨r, f, w, _, hx⟩ | ⟨hi, _⟩
      · unfold Panel.step
        dsimp only
        rw [hx]
        rfl
      · rw [hi] at hb; cases hb

/-- Non-vacuity: a command, fully flushed, then asked again. -/
example : ∃ r, Panel.run [.startSend sampleCmd, .pollFlush ⟨1, 0, 0⟩, .writable (.accept 100),
        .pollReady ⟨1, 0, 0⟩, .pollReady ⟨1, 0, 0⟩] (samplePanel []) = .ok r ∧
    decide (r.2.conn.sock.sent = commandBytes sampleCmd) = true :=
  of_holds (by decide +kernel)

/-! ## C44: bytes on the wire -/

theorem bytes_flush {p p1 : Panel} {cx r} (h : FlushCase p cx (r, p1)) :
    p1.conn.sock.sent ++ p1.conn.wbuf = p.conn.sock.sent ++ p.conn.wbuf ∧
    ∃ new, p1.conn.sock.sent = p.conn.sock.sent ++ new := by
  cases h with
  | nothing _ => exact ⟨rfl, [], by simp⟩
  | flushed _ _ _ _ hs => exact ⟨hs.bytes, hs.grows⟩
  | blocked _ _ _ _ hs => exact ⟨hs.bytes, hs.grows⟩
  | failed _ _ _ _ _ hs => exact ⟨hs.bytes, hs.grows⟩

theorem bytes_next {p p1 : Panel} {cx new r w} (h : NextCase p cx new (r, w, p1)) :
    p1.conn.sock.sent = p.conn.sock.sent ∧ p1.conn.wbuf = p.conn.wbuf := by
  cases h with
  | error e c hs => exact ⟨hs.sent, hs.wbuf⟩
  | ended c hs => exact ⟨hs.sent, hs.wbuf⟩
  | packet pkt c ev w p' hs hi =>
    have := (interp_keeps hi).1
    rw [this]
    exact ⟨hs.sent, hs.wbuf⟩
  | idle c hs _ => exact ⟨hs.sent, hs.wbuf⟩
  | wait c pa hs _ _ => exact ⟨hs.sent, hs.wbuf⟩
  | fire c pa prior hs _ _ _ => exact ⟨hs.sent, hs.wbuf⟩

theorem bytes_step {p p1 : Panel} {op o} (hs : StepCase p op (o, p1))
    (hw : ∀ c, op = .startSend c → WfCommand c) :
    p1.conn.sock.sent ++ p1.conn.wbuf =
      p.conn.sock.sent ++ p.conn.wbuf ++ (commands [op]).flatMap commandBytes ∧
    ∃ new, p1.conn.sock.sent = p.conn.sock.sent ++ new := by
  cases hs with
  | arrive _ => exact ⟨by simp [commands], [], by simp⟩
  | writable _ => exact ⟨by simp [commands], [], by simp⟩
  | next cx new r w _ hn =>
    obtain ⟨h1, h2⟩ := bytes_next hn
    rw [h1, h2]
    exact ⟨by simp [commands], [], by simp⟩
  | ready cx r _ hr =>
    have e : (commands [Op.pollReady cx]).flatMap commandBytes = [] := rfl
    rw [e, List.append_nil]
    cases hr with
    | idle _ => exact ⟨rfl, [], by simp⟩
    | wait rq w hb => exact ⟨rfl, [], by simp⟩
    | flushed rq w c _ hs => exact ⟨hs.bytes, hs.grows⟩
    | blocked rq w c _ hs => exact ⟨hs.bytes, hs.grows⟩
    | failed rq w c e _ hs => exact ⟨hs.bytes, hs.grows⟩
  | send cmd pkt e hi hp he =>
    have := command_bytes (hw cmd rfl) hp he
    subst this
    exact ⟨by simp [commands], [], by simp⟩
  | flush cx r _ hf =>
    have e : (commands [Op.pollFlush cx]).flatMap commandBytes = [] := rfl
    rw [e, List.append_nil]
    exact bytes_flush hf
  | close cx r _ hc =>
    have e : (commands [Op.pollClose cx]).flatMap commandBytes = [] := rfl
    rw [e, List.append_nil]
    cases hc with
    | flushed q r c hf hs =>
      obtain ⟨h1, n1, h2⟩ := bytes_flush hf
      obtain ⟨n2, h3⟩ := hs.grows
      exact ⟨hs.bytes.trans h1, n1 ++ n2, by rw [h3, h2, List.append_assoc]⟩
    | stuck r _ _ hf => exact bytes_flush hf

theorem commands_cons (op : Op) (ops : List Op) :
    commands (op :: ops) = commands [op] ++ commands ops := by
  unfold commands
  rw [← List.filterMap_append]
  rfl

theorem bytes_hist {p p' : Panel} {ops outs} (h : Hist p ops outs p')
    (hw : ∀ c ∈ commands ops, WfCommand c) :
    p'.conn.sock.sent ++ p'.conn.wbuf =
      p.conn.sock.sent ++ p.conn.wbuf ++ (commands ops).flatMap commandBytes ∧
    ∃ new, p'.conn.sock.sent = p.conn.sock.sent ++ new := by
  induction h with
  | nil _ => exact ⟨by simp [commands], [], by simp⟩
  | @cons p op o p1 ops os p2 _ hs _ ih =>
    rw [commands_cons] at hw ⊢
    obtain ⟨h1, n1, h2⟩ := bytes_step hs (by
      intro c hc; subst hc; exact hw c (List.mem_append_left _ (List.mem_singleton.mpr rfl)))
    obtain ⟨h3, n2, h4⟩ := ih fun c hc => hw c (List.mem_append_right _ hc)
    refine ⟨?_, n1 ++ n2, by rw [h4, h2, List.append_assoc]⟩
    rw [h3, h1, List.flatMap_append, List.append_assoc]

/-- **C44** What the socket accepted since the panel was connected is a prefix of the encodings of
the commands accepted so far, in order; the rest is waiting in the write buffer. -/
theorem C44_wire_is_commands {p0 p : Panel} (hc : Connected p0) {ops : List Op} {outs : List Out}
    (hr : Panel.run ops p0 = .ok (outs, p)) (hw : ∀ c ∈ commands ops, WfCommand c) :
    ∃ new, p.conn.sock.sent = p0.conn.sock.sent ++ new ∧
      new ++ p.conn.wbuf = (commands ops).flatMap commandBytes := by
  obtain ⟨h1, new, h2⟩ := bytes_hist (hist_of_run (connected_good hc) hr) hw
  refine ⟨new, h2, ?_⟩
  rw [h2, hc.flushed, List.append_nil, List.append_assoc, List.append_cancel_left_eq] at h1
  exact h1

/-- Non-vacuity: a command written in two pieces. -/
example : ∃ r, Panel.run [.startSend sampleCmd, .writable (.accept 3), .pollFlush ⟨1, 0, 0⟩]
      (samplePanel []) = .ok r ∧
    decide (r.2.conn.sock.sent = (commandBytes sampleCmd).take 3 ∧
      r.2.conn.wbuf = (commandBytes sampleCmd).drop 3) = true :=
  of_holds (by decide +kernel)

/-! ## C43: a completed flush -/

/-- **C43** (partial) When `poll_flush` says Ok while a command is outstanding, every byte of every
accepted command has been handed to the socket.  Missing: the same with no command outstanding,
which is false of the code (`C43_flush_forgotten`). -/
theorem C43_flushed_partial {p0 p p' : Panel} (hc : Connected p0) {ops : List Op} {outs : List Out}
    (hr : Panel.run ops p0 = .ok (outs, p)) (hw : ∀ c ∈ commands ops, WfCommand c) {cx : Cx}
    (hf : p.step (.pollFlush cx) = .ok (.sink (.ready (.ok ())), p'))
    (ho : (completions outs).length < (commands ops).length) :
    p'.conn.sock.sent = p0.conn.sock.sent ++ (commands ops).flatMap commandBytes := by
  have hh := hist_of_run (connected_good hc) hr
  have ha := congrArg List.length (account hc hr)
  rw [List.length_map, List.length_append] at ha
  have hsc := step_cases hh.good.sane hf
  have hg' := step_good hh.good hsc
  obtain ⟨h1, _⟩ := bytes_hist hh hw
  cases hsc with
  | flush _ _ _ hfc =>
    obtain ⟨h3, _⟩ := bytes_flush hfc
    rw [h1, hc.flushed, List.append_nil] at h3
    have hb : ∃ r w, p'.cmdState = .busy r true w := by
      cases hfc with
      | nothing hn =>
        match hcs : p.cmdState with
        | .idle => rw [hcs] at ha; simp only [outstanding, Option.toList_none, List.length_nil] at ha; omega
        | .busy r false w => exact absurd hcs (hn r w)
        | .busy r true w => exact ⟨r, w, rfl⟩
      | flushed r w c hb hs => exact ⟨r, w, rfl⟩
    obtain ⟨r, w, hb⟩ := hb
    rw [hg'.flushed r w hb, List.append_nil] at h3
    exact h3

/-- **C43 is false of the code**: a message that happens to be a reply frees the panel before the
command was written, and then `poll_flush` says Ok although none of its bytes have been handed to
the socket (which would have accepted them). -/
theorem C43_flush_forgotten : ∃ p0 ops outs p cx p', Connected p0 ∧
    Panel.run ops p0 = .ok (outs, p) ∧ (∀ c ∈ commands ops, WfCommand c) ∧
    p.step (.pollFlush cx) = .ok (.sink (.ready (.ok ())), p') ∧
    commands ops = [sampleCmd] ∧ p'.conn.sock.sent = [] ∧ p'.conn.wbuf = commandBytes sampleCmd ∧
    p'.conn.sock.writes = [.accept 100] := by
  obtain ⟨⟨outs, p⟩, h, hd⟩ := of_holds (x := Panel.run [.startSend sampleCmd,
      .writable (.accept 100), .pollNext ⟨1, 0, 0⟩] (samplePanel [.data sampleReply]))
    (f := fun x => decide (x.2.cmdState = .idle ∧ x.2.conn.sock.sent = [] ∧
      x.2.conn.wbuf = commandBytes sampleCmd ∧ x.2.conn.sock.writes = [.accept 100]))
    (by decide +kernel)
  simp only [decide_eq_true_eq] at hd
  obtain ⟨h1, h2, h3, h4⟩ := hd
  refine ⟨_, _, outs, p, ⟨1, 0, 0⟩, p, samplePanel_connected _, h, ?_, ?_, rfl, h2, h3, h4⟩
  · intro c hc
    have : c = sampleCmd := List.mem_singleton.mp hc
    subst this; exact sampleCmd_wf
  · unfold Panel.step Panel.pollFlush
    dsimp only
    rw [h1]

/-! ## C47: closing -/

/-- **C47** (partial) When `poll_close` says Ok every byte of every accepted command has been handed
to the socket.  Missing: that the socket's write side is shut down, which is false of the code
(`C47_never_shut_down`). -/
theorem C47_handed_over_partial {p0 p p' : Panel} (hc : Connected p0) {ops : List Op}
    {outs : List Out} (hr : Panel.run ops p0 = .ok (outs, p))
    (hw : ∀ c ∈ commands ops, WfCommand c) {cx : Cx}
    (hf : p.step (.pollClose cx) = .ok (.sink (.ready (.ok ())), p')) :
    p'.conn.sock.sent = p0.conn.sock.sent ++ (commands ops).flatMap commandBytes := by
  have hh := hist_of_run (connected_good hc) hr
  have hsc := step_cases hh.good.sane hf
  obtain ⟨h1, _⟩ := bytes_hist hh hw
  obtain ⟨h3, _⟩ := bytes_step hsc (by intro c h; cases h)
  have e : (commands [Op.pollClose cx]).flatMap commandBytes = [] := rfl
  rw [e, List.append_nil, h1, hc.flushed, List.append_nil] at h3
  cases hsc with
  | close _ _ _ hcc =>
    cases hcc with
    | flushed q _ c _ hs =>
      rw [hs.done rfl, List.append_nil] at h3
      exact h3
    | stuck _ _ hne _ => exact absurd rfl hne

/-- Nothing ever shuts the socket down. -/
theorem shutdown_hist {p p' : Panel} {ops outs} (h : Hist p ops outs p') :
    p'.conn.sock.shutdown = p.conn.sock.shutdown := by
  induction h with
  | nil _ => rfl
  | @cons p op o p1 ops os p2 _ hs _ ih =>
    rw [ih]
    have fl : ∀ {p p1 : Panel} {cx r}, FlushCase p cx (r, p1) →
        p1.conn.sock.shutdown = p.conn.sock.shutdown := by
      intro p p1 cx r hf
      cases hf with
      | nothing _ => rfl
      | flushed _ _ _ _ hs => exact hs.shutdown
      | blocked _ _ _ _ hs => exact hs.shutdown
      | failed _ _ _ _ _ hs => exact hs.shutdown
    cases hs with
    | arrive _ => rfl
    | writable _ => rfl
    | next cx new r w _ hn =>
      cases hn with
      | error e c hs => exact hs.shutdown
      | ended c hs => exact hs.shutdown
      | packet pkt c ev w _ hs hi => rw [(interp_keeps hi).1]; exact hs.shutdown
      | idle c hs _ => exact hs.shutdown
      | wait c pa hs _ _ => exact hs.shutdown
      | fire c pa prior hs _ _ _ => exact hs.shutdown
    | ready cx r _ hr =>
      cases hr with
      | idle _ => rfl
      | wait rq w hb => rfl
      | flushed rq w c _ hs => exact hs.shutdown
      | blocked rq w c _ hs => exact hs.shutdown
      | failed rq w c e _ hs => exact hs.shutdown
    | send _ _ _ _ _ _ => rfl
    | flush cx r _ hf => exact fl hf
    | close cx r _ hc =>
      cases hc with
      | flushed q r c hf hs => exact hs.shutdown.trans (fl hf)
      | stuck r _ _ hf => exact fl hf

/-- **C47 is false of the code**: `poll_close` says Ok (already on a fresh panel) and the write side
is not shut down; no history ever shuts it down. -/
theorem C47_never_shut_down :
    (∃ p cx p', Connected p ∧ p.step (.pollClose cx) = .ok (.sink (.ready (.ok ())), p') ∧
      p'.conn.sock.shutdown = false) ∧
    ∀ p0 p ops outs, Connected p0 → Panel.run ops p0 = .ok (outs, p) →
      p.conn.sock.shutdown = p0.conn.sock.shutdown := by
  refine ⟨⟨samplePanel [], ⟨1, 0, 0⟩, _, samplePanel_connected _, rfl, rfl⟩, ?_⟩
  intro p0 p ops outs hc hr
  exact shutdown_hist (hist_of_run (connected_good hc) hr)

/-! ## C42: wake-ups of blocked senders -/

/-- Task `w` will hear of the completion: it is registered with the socket's write side or waits for
the reply. -/
def Waits (p : Panel) (w : Waker) : Prop :=
  p.conn.sock.writeWaker = some w ∨ ∃ r, p.cmdState = .busy r true (some w)

theorem wait_ready {p p1 : Panel} {cx r} (h : ReadyCase p cx (r, p1)) :
    (r = .pending → Waits p1 cx.waker) ∧ (Waits p cx.waker → Waits p1 cx.waker) := by
  cases h with
  | idle _ => exact ⟨by simp, id⟩
  | wait rq w hb => exact ⟨fun _ => .inr ⟨rq, rfl⟩, fun _ => .inr ⟨rq, rfl⟩⟩
  | flushed rq w c hb hs => exact ⟨fun _ => .inr ⟨rq, rfl⟩, fun _ => .inr ⟨rq, rfl⟩⟩
  | blocked rq w c hb hs => exact ⟨fun _ => .inl (hs.pend rfl), fun _ => .inl (hs.pend rfl)⟩
  | failed rq w c e hb hs =>
    refine ⟨by simp, ?_⟩
    rintro (h | ⟨r, h⟩)
    · exact .inl ((hs.unpend (by simp)).trans h)
    · rw [hb] at h; cases h

theorem wait_step {p p1 : Panel} {op o} (hs : StepCase p op (o, p1)) {w : Waker}
    (hr : ∀ cx, op = .pollReady cx → cx.waker = w)
    (hf : ∀ cx, op ≠ .pollFlush cx) (hc : ∀ cx, op ≠ .pollClose cx) (hw : Waits p w) :
    w ∈ wokenOf o ∨ Waits p1 w := by
  have keep : ∀ {c : Connection} {p1 : Panel}, c.sock.writeWaker = p.conn.sock.writeWaker →
      p1.conn = c → p1.cmdState = p.cmdState → Waits p1 w := by
    intro c p1 h1 h2 h3
    unfold Waits
    rw [h2, h1, h3]; exact hw
  cases hs with
  | arrive _ => exact .inr hw
  | writable _ =>
    rcases hw with h | ⟨r, h⟩
    · left; unfold wokenOf; rw [h]; simp
    · exact .inr (.inr ⟨r, h⟩)
  | next cx new r wk _ hn =>
    cases hn with
    | error e c hs => exact .inr (keep hs.writeWaker rfl rfl)
    | ended c hs => exact .inr (keep hs.writeWaker rfl rfl)
    | packet pkt c ev wk _ hs hi =>
      cases hi with
      | bad e _ => exact .inr (keep hs.writeWaker rfl rfl)
      | skip _ => exact .inr (keep hs.writeWaker rfl rfl)
      | msg m ch q comp wk _ _ _ ht hcc =>
        obtain ⟨k1, k2, _⟩ := track_keeps ht
        cases hcc with
        | done rq f wk' hb _ =>
          rcases hw with h | ⟨r, h⟩
          · right; left
            show q.conn.sock.writeWaker = _
            rw [k1]; exact hs.writeWaker.trans h
          · left
            rw [k2] at hb
            dsimp only at hb
            rw [hb] at h
            cases h
            simp [wokenOf]
        | busy _ _ _ _ _ => exact .inr (keep hs.writeWaker k1 k2)
        | idle _ => exact .inr (keep hs.writeWaker k1 k2)
    | idle c hs _ => exact .inr (keep hs.writeWaker rfl rfl)
    | wait c pa hs _ _ => exact .inr (keep hs.writeWaker rfl rfl)
    | fire c pa prior hs _ _ _ => exact .inr (keep hs.writeWaker rfl rfl)
  | ready cx r _ hrc =>
    have := hr cx rfl
    subst this
    exact .inr ((wait_ready hrc).2 hw)
  | send cmd pkt e hi _ _ =>
    rcases hw with h | ⟨r, h⟩
    · exact .inr (.inl h)
    · rw [hi] at h; cases h
  | flush cx _ _ _ => exact absurd rfl (hf cx)
  | close cx _ _ _ => exact absurd rfl (hc cx)

theorem woken_cons (o : Out) (os : List Out) : woken (o :: os) = wokenOf o ++ woken os := rfl

theorem wait_hist {p p' : Panel} {ops outs} (h : Hist p ops outs p') {w : Waker}
    (hr : ∀ cx, .pollReady cx ∈ ops → cx.waker = w)
    (hf : ∀ cx, .pollFlush cx ∉ ops) (hc : ∀ cx, .pollClose cx ∉ ops) (hw : Waits p w) :
    w ∈ woken outs ∨ Waits p' w := by
  induction h with
  | nil _ => exact .inr hw
  | @cons p op o p1 ops os p2 _ hs _ ih =>
    rw [woken_cons, List.mem_append]
    rcases wait_step hs (fun cx h => hr cx (by rw [h]; exact List.mem_cons_self ..))
      (fun cx h => hf cx (by rw [h]; exact List.mem_cons_self ..))
      (fun cx h => hc cx (by rw [h]; exact List.mem_cons_self ..)) hw with h | h
    · exact .inl (.inl h)
    · rcases ih (fun cx h => hr cx (List.mem_cons_of_mem _ h))
        (fun cx h => hf cx (List.mem_cons_of_mem _ h))
        (fun cx h => hc cx (List.mem_cons_of_mem _ h)) h with h | h
      · exact .inl (.inr h)
      · exact .inr h

/-- **C42** (partial) If `poll_ready` told a task Pending, then, unless another task calls
`poll_ready` or any task calls `poll_flush` or `poll_close`, once no command is outstanding any more
the task has been woken or is registered with the socket's write side.  Missing: those other calls,
with which it is false of the code (`C42_lost_wakeup`). -/
theorem C42_woken_partial {p0 p1 p2 p3 : Panel} (hc : Connected p0) {ops₁ ops₂ : List Op}
    {outs₁ outs₂ : List Out} {cx : Cx}
    (h1 : Panel.run ops₁ p0 = .ok (outs₁, p1))
    (h2 : p1.step (.pollReady cx) = .ok (.sink .pending, p2))
    (h3 : Panel.run ops₂ p2 = .ok (outs₂, p3))
    (hr : ∀ cx', .pollReady cx' ∈ ops₂ → cx'.waker = cx.waker)
    (hf : ∀ cx, .pollFlush cx ∉ ops₂) (hcl : ∀ cx, .pollClose cx ∉ ops₂)
    (hi : (p3.pollReady cx).1 = .ready (.ok ())) :
    cx.waker ∈ woken outs₂ ∨ p3.conn.sock.writeWaker = some cx.waker := by
  have g1 := (hist_of_run (connected_good hc) h1).good
  have c2 := step_cases g1.sane h2
  have hh := hist_of_run (step_good g1 c2) h3
  cases c2 with
  | ready _ _ _ hrc =>
    rcases wait_hist hh hr hf hcl ((wait_ready hrc).1 rfl) with h | h | ⟨r, h⟩
    · exact .inl h
    · exact .inr h
    · unfold Panel.pollReady at hi
      rw [h] at hi
      cases hi

/-- Once the command is flushed, `poll_flush` and `poll_close` do not disturb a waiting task. -/
theorem waits_flushed {p p' : Panel} {ops outs} (h : Hist p ops outs p') {w : Waker} {r : Message}
    (hr : ∀ cx, .pollReady cx ∈ ops → cx.waker = w)
    (hw : p.cmdState = .busy r true (some w)) :
    w ∈ woken outs ∨ p'.cmdState = .busy r true (some w) := by
  have fl : ∀ {p p1 : Panel} {cx x}, FlushCase p cx (x, p1) → p.cmdState = .busy r true (some w) →
      p1.cmdState = .busy r true (some w) := by
    intro p p1 cx x hf hb
    cases hf with
    | nothing _ => exact hb
    | flushed _ _ _ h _ => rw [hb] at h; cases h
    | blocked _ _ _ h _ => rw [hb] at h; cases h
    | failed _ _ _ _ h _ => rw [hb] at h; cases h
  induction h with
  | nil _ => exact .inr hw
  | @cons p op o p1 ops os p2 _ hs _ ih =>
    rw [woken_cons, List.mem_append]
    have tail : p1.cmdState = .busy r true (some w) →
        (w ∈ wokenOf o ∨ w ∈ woken os) ∨ p2.cmdState = .busy r true (some w) := by
      intro hb
      rcases ih (fun cx h => hr cx (List.mem_cons_of_mem _ h)) hb with h | h
      · exact .inl (.inr h)
      · exact .inr h
    cases hs with
    | arrive _ => exact tail hw
    | writable _ => exact tail hw
    | next cx new x wk _ hn =>
      cases hn with
      | error e c hs => exact tail hw
      | ended c hs => exact tail hw
      | packet pkt c ev wk _ hs hi =>
        cases hi with
        | bad e _ => exact tail hw
        | skip _ => exact tail hw
        | msg m ch q comp wk _ _ _ ht hcc =>
          obtain ⟨k1, k2, _⟩ := track_keeps ht
          cases hcc with
          | done rq f wk' hb _ =>
            rw [k2] at hb
            dsimp only at hb
            rw [hb] at hw
            cases hw
            left; left; simp [wokenOf]
          | busy _ _ _ _ _ => exact tail (k2.trans hw)
          | idle _ => exact tail (k2.trans hw)
      | idle c hs _ => exact tail hw
      | wait c pa hs _ _ => exact tail hw
      | fire c pa prior hs _ _ _ => exact tail hw
    | ready cx x _ hrc =>
      have := hr cx (List.mem_cons_self ..)
      subst this
      cases hrc with
      | idle hi => exact tail hw
      | wait rq wk hb => rw [hw] at hb; cases hb; exact tail rfl
      | flushed rq wk c hb _ => rw [hw] at hb; cases hb
      | blocked rq wk c hb _ => rw [hw] at hb; cases hb
      | failed rq wk c e hb _ => rw [hw] at hb; cases hb
    | send cmd pkt e hi _ _ => rw [hi] at hw; cases hw
    | flush cx _ _ hf => exact tail (fl hf hw)
    | close cx _ _ hc =>
      cases hc with
      | flushed q x c hf _ =>
        have := fl hf hw
        exact tail this
      | stuck x _ _ hf => exact tail (fl hf hw)

/-- **C42** (partial) If nothing is left to write after `poll_ready` told a task Pending, then,
unless another task calls `poll_ready`, the task is woken by the time the command completes. -/
theorem C42_woken_flushed_partial {p0 p1 p2 p3 : Panel} (hc : Connected p0) {ops₁ ops₂ : List Op}
    {outs₁ outs₂ : List Out} {cx : Cx}
    (h1 : Panel.run ops₁ p0 = .ok (outs₁, p1))
    (h2 : p1.step (.pollReady cx) = .ok (.sink .pending, p2))
    (hf : p2.conn.wbuf = [])
    (h3 : Panel.run ops₂ p2 = .ok (outs₂, p3))
    (hr : ∀ cx', .pollReady cx' ∈ ops₂ → cx'.waker = cx.waker)
    (hi : (p3.pollReady cx).1 = .ready (.ok ())) : cx.waker ∈ woken outs₂ := by
  have g1 := (hist_of_run (connected_good hc) h1).good
  have c2 := step_cases g1.sane h2
  have hh := hist_of_run (step_good g1 c2) h3
  cases c2 with
  | ready _ _ _ hrc =>
    have hb : ∃ r, p2.cmdState = .busy r true (some cx.waker) := by
      generalize hx : (Poll.pending : Poll (Except IoErr Unit)) = x at hrc
      cases hrc with
      | idle _ => cases hx
      | wait rq w _ => exact ⟨rq, rfl⟩
      | flushed rq w c _ _ => exact ⟨rq, rfl⟩
      | blocked rq w c hb hs => exact absurd hf (hs.left rfl)
      | failed rq w c e _ _ => cases hx
    obtain ⟨r, hb⟩ := hb
    rcases waits_flushed hh hr hb with h | h
    · exact h
    · unfold Panel.pollReady at hi
      rw [h] at hi
      cases hi

/-- Whether a sink operation said Pending. -/
def saysPending : Out → Bool
  | .sink .pending => true
  | _ => false

theorem saysPending_iff {o : Out} : saysPending o = true ↔ o = .sink .pending := by
  constructor
  · intro h
    unfold saysPending at h
    split at h
    · rfl
    · cases h
  · rintro rfl; rfl

/-- **C42 is false of the code**: task 1 is told Pending while the socket does not accept the
command; then task 2 flushes, the reply arrives and task 3 reads it.  Task 1 is never woken and is
registered nowhere. -/
theorem C42_lost_wakeup : ∃ p0 p1 p2 p3 outs₁ outs₂ ops₂, Connected p0 ∧
    Panel.run [.startSend sampleCmd] p0 = .ok (outs₁, p1) ∧
    p1.step (.pollReady ⟨1, 0, 0⟩) = .ok (.sink .pending, p2) ∧
    Panel.run ops₂ p2 = .ok (outs₂, p3) ∧
    (∀ w n t, .pollFlush ⟨w, n, t⟩ ∈ ops₂ → w = 2) ∧
    completions outs₂ = [sampleCmd.intoMsg] ∧ p3.cmdState = .idle ∧
    1 ∉ woken outs₂ ∧ p3.conn.sock.writeWaker = none ∧ p3.conn.sock.readWaker ≠ some 1 := by
  have hx := of_holds (x := Panel.run [.startSend sampleCmd] (samplePanel []) >>= fun a =>
      a.2.step (.pollReady ⟨1, 0, 0⟩) >>= fun b =>
      Panel.run [.pollFlush ⟨2, 0, 0⟩, .writable (.accept 100), .pollFlush ⟨2, 0, 0⟩,
        .arrive (.data sampleReply), .pollNext ⟨3, 0, 0⟩] b.2 >>= fun c => Except.ok (a, b, c))
    (f := fun x => saysPending x.2.1.1 && decide (completions x.2.2.1 = [sampleCmd.intoMsg] ∧
        x.2.2.2.cmdState = .idle ∧ 1 ∉ woken x.2.2.1 ∧
        x.2.2.2.conn.sock.writeWaker = none ∧ x.2.2.2.conn.sock.readWaker ≠ some 1))
    (by decide +kernel)
  obtain ⟨⟨⟨o1, p1⟩, ⟨o, p2⟩, ⟨o2, p3⟩⟩, h, hd⟩ := hx
  cases h1 : Panel.run [.startSend sampleCmd] (samplePanel []) with
  | error e => rw [h1] at h; cases h
  | ok a =>
    rw [h1] at h
    simp only [bind_ok] at h
    cases h2 : a.2.step (.pollReady ⟨1, 0, 0⟩) with
    | error e => rw [h2] at h; cases h
    | ok b =>
      rw [h2] at h
      simp only [bind_ok] at h
      cases h3 : Panel.run [.pollFlush ⟨2, 0, 0⟩, .writable (.accept 100), .pollFlush ⟨2, 0, 0⟩,
        .arrive (.data sampleReply), .pollNext ⟨3, 0, 0⟩] b.2 with
      | error e => rw [h3] at h; cases h
      | ok c =>
        rw [h3] at h
        simp only [bind_ok, Except.ok.injEq, Prod.mk.injEq] at h
        obtain ⟨rfl, rfl, rfl⟩ := h
        rw [Bool.and_eq_true, decide_eq_true_eq] at hd
        obtain ⟨hp, hd⟩ := hd
        have := saysPending_iff.mp hp
        subst this
        refine ⟨_, p1, p2, p3, o1, o2, _, samplePanel_connected [], h1, h2, h3, ?_, hd⟩
        intro w n t hm
        simp at hm
        exact hm.1

/-! ## C61: wake-ups of readers -/

theorem reader_next {p p1 : Panel} {cx new r w} (h : NextCase p cx new (r, w, p1))
    (hp : r = .pending) : p1.conn.sock.readWaker = some cx.waker ∧
      (∀ pa, p1.pendingArm = some pa → pa.waker = some cx.waker ∧ cx.timer < pa.deadline) ∧
      Dry p1.conn.rd.buffer := by
  cases h with
  | error e c _ => cases hp
  | ended c _ => cases hp
  | packet pkt c ev w _ _ _ => cases hp
  | idle c hs hn =>
    refine ⟨(hs.pend rfl).2, ?_, (hs.pend rfl).1⟩
    intro pa h
    dsimp only at h
    rw [hn] at h; cases h
  | wait c pa hs _ ht =>
    refine ⟨(hs.pend rfl).2, ?_, (hs.pend rfl).1⟩
    intro pa' h
    cases h
    exact ⟨rfl, ht⟩
  | fire _ _ _ _ _ _ _ => cases hp

/-- Other operations leave the reader's registrations alone, or wake it. -/
theorem reader_step {p p1 : Panel} {op o} (hs : StepCase p op (o, p1)) {w : Waker}
    (hn : ∀ cx, op ≠ .pollNext cx) (hw : p.conn.sock.readWaker = some w) :
    (w ∈ wokenOf o ∧ ∃ r, op = .arrive r) ∨
    (p1.conn.sock.readWaker = some w ∧ (∀ r, op ≠ .arrive r)) := by
  have fl : ∀ {p p1 : Panel} {cx x}, FlushCase p cx (x, p1) →
      p1.conn.sock.readWaker = p.conn.sock.readWaker := by
    intro p p1 cx x hf
    cases hf with
    | nothing _ => rfl
    | flushed _ _ _ _ hs => exact hs.readWaker
    | blocked _ _ _ _ hs => exact hs.readWaker
    | failed _ _ _ _ _ hs => exact hs.readWaker
  cases hs with
  | arrive r =>
    left
    refine ⟨?_, r, rfl⟩
    unfold wokenOf
    rw [hw]; simp
  | writable _ => exact .inr ⟨hw, by intro r h; cases h⟩
  | next cx _ _ _ _ _ => exact absurd rfl (hn cx)
  | ready cx r _ hr =>
    refine .inr ⟨?_, by intro r h; cases h⟩
    cases hr with
    | idle _ => exact hw
    | wait rq wk hb => exact hw
    | flushed rq wk c _ hs => exact hs.readWaker.trans hw
    | blocked rq wk c _ hs => exact hs.readWaker.trans hw
    | failed rq wk c e _ hs => exact hs.readWaker.trans hw
  | send _ _ _ _ _ _ => exact .inr ⟨hw, by intro r h; cases h⟩
  | flush cx r _ hf => exact .inr ⟨(fl hf).trans hw, by intro r h; cases h⟩
  | close cx r _ hc =>
    refine .inr ⟨?_, by intro r h; cases h⟩
    cases hc with
    | flushed q r c hf hs => exact (hs.readWaker.trans (fl hf)).trans hw
    | stuck r _ _ hf => exact (fl hf).trans hw

theorem reader_hist {p p' : Panel} {ops outs} (h : Hist p ops outs p') {w : Waker}
    (hn : ∀ cx, .pollNext cx ∉ ops) (hw : p.conn.sock.readWaker = some w) :
    (w ∈ woken outs) ∨ (p'.conn.sock.readWaker = some w ∧ arrived ops = []) := by
  induction h with
  | nil _ => exact .inr ⟨hw, rfl⟩
  | @cons p op o p1 ops os p2 _ hs _ ih =>
    rw [woken_cons, List.mem_append]
    rcases reader_step hs (fun cx h => hn cx (by rw [h]; exact List.mem_cons_self ..)) hw with
      ⟨h, _⟩ | ⟨h, hne⟩
    · exact .inl (.inl h)
    · rcases ih (fun cx h => hn cx (List.mem_cons_of_mem _ h)) h with h | ⟨h1, h2⟩
      · exact .inl (.inr h)
      · refine .inr ⟨h1, ?_⟩
        cases op <;> first
          | exact h2
          | exact absurd rfl (hne _)

/-- **C61** A reader told Pending is registered with the socket's read side, and with the timer of
the withheld report if there is one (whose deadline is still ahead); and as long as nobody polls the
stream again, whatever the other operations, it is woken as soon as anything arrives. -/
theorem C61_reader_woken {p0 p1 p2 p3 : Panel} (hc : Connected p0) {ops₁ ops₂ : List Op}
    {outs₁ outs₂ : List Out} {cx : Cx} {w : List Waker}
    (h1 : Panel.run ops₁ p0 = .ok (outs₁, p1))
    (h2 : p1.step (.pollNext cx) = .ok (.next .pending w, p2))
    (h3 : Panel.run ops₂ p2 = .ok (outs₂, p3)) (hn : ∀ cx, .pollNext cx ∉ ops₂) :
    (∀ pa, p3.pendingArm = some pa → pa.waker = some cx.waker ∧ cx.timer < pa.deadline) ∧
    (arrived ops₂ ≠ [] → cx.waker ∈ woken outs₂) ∧
    (arrived ops₂ = [] → cx.waker ∈ woken outs₂ ∨ p3.conn.sock.readWaker = some cx.waker) := by
  have g1 := (hist_of_run (connected_good hc) h1).good
  have c2 := step_cases g1.sane h2
  have hh := hist_of_run (step_good g1 c2) h3
  cases c2 with
  | next _ new _ _ _ hnc =>
    obtain ⟨a, b, hdry⟩ := reader_next hnc rfl
    refine ⟨?_, ?_, ?_⟩
    · have : p3.pendingArm = p2.pendingArm := by
        clear h3 hnc b a h2 hdry
        induction hh with
        | nil _ => rfl
        | @cons p op o p1 ops os p2 _ hs _ ih =>
          rw [ih (fun cx h => hn cx (List.mem_cons_of_mem _ h))]
          exact (step_views hs (fun cx h => hn cx (by rw [h]; exact List.mem_cons_self ..))).2.1
      rw [this]; exact b
    · intro ha
      rcases reader_hist hh hn a with h | ⟨_, h⟩
      · exact h
      · exact absurd h ha
    · intro ha
      rcases reader_hist hh hn a with h | ⟨h, _⟩
      · exact .inl h
      · exact .inr h

/-- Non-vacuity: a reader told Pending, then a byte arrives. -/
example : ∃ r, Panel.run [.pollNext ⟨7, 0, 0⟩, .pollFlush ⟨8, 0, 0⟩, .arrive (.data [48])]
      (samplePanel []) = .ok r ∧ decide (woken r.1 = [7]) = true :=
  of_holds (by decide +kernel)

end Elk.Props
