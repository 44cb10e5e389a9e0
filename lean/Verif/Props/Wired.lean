import Verif.Props.Home
import Verif.Props.Conn
import Verif.Props.EndToEnd
import Verif.Props.Documented
import Verif.Spec.Wired
/-!
# What "completed" means for the panel (C111)
-/

namespace Elk.Props
open Elk.Spec

/-! ## Lists -/

theorem wire_frames (ms : List Message) :
    ms.flatMap frame = (ms.map fun m => Packet.ascii ⟨sentText m⟩).flatMap wire := by
  rw [List.flatMap_map]
  rfl

theorem says_frames {ms : List Message} (h : ∀ m ∈ ms, WfMessage m) :
    (ms.map fun m => Packet.ascii ⟨sentText m⟩).filterMap says = ms := by
  induction ms with
  | nil => rfl
  | cons m ms ih =>
    rw [List.map_cons, List.filterMap_cons, says_sent (h m (List.mem_cons_self ..))]
    dsimp only
    rw [ih fun x hx => h x (List.mem_cons_of_mem _ hx)]

theorem confirmations_append (a b : List Message) :
    confirmations (a ++ b) = confirmations a ++ confirmations b := List.filter_append ..

theorem completed_append (a b : List Out) : completed (a ++ b) = completed a ++ completed b := by
  unfold completed
  rw [events_append, List.filterMap_append]

/-- Replies to commands are confirmations. -/
theorem responds_confirms {m : Message} {c : Command} (h : Responds m c.intoMsg) :
    confirms m = true := by
  cases c with
  | arm q => cases h; rfl
  | activateTask t => cases h; rfl

/-- What the library was told, as far as it has looked. -/
def told (outs : List Out) : List Message := (events outs).filterMap messageOf

theorem told_append (a b : List Out) : told (a ++ b) = told a ++ told b := by
  unfold told
  rw [events_append, List.filterMap_append]

/-! ## The invariant -/

structure WiredInv (p0 : Panel) (t : Wired) : Prop where
  run : Panel.run t.ops p0 = .ok (t.outs, t.panel)
  wf : ∀ c ∈ commands t.ops, WfCommand c
  bytes : p0.conn.rd.buffer ++ dataBytes (p0.conn.sock.incoming ++ arrived t.ops) ++ t.line =
    t.said.flatMap frame
  good : ∀ m ∈ t.said, WfMessage m
  heard : ∃ hs reqs, commands t.ops = hs ++ reqs ∧ t.heard = hs.map commandBytes ∧
    t.taken = p0.conn.sock.sent.length + (hs.flatMap commandBytes).length
  got : t.taken ≤ t.panel.conn.sock.sent.length
  conf : ∀ (j : Nat) m, (confirmations t.said)[j]? = some m → ∃ l, t.heard[j]? = some l ∧
    ∀ c, WfCommand c → l = commandBytes c → Responds m c.intoMsg
  first : (completed t.outs).map (·.1) = completions t.outs
  second : (completed t.outs).map (·.2) = confirmations (told t.outs)

/-- The library is told what the panel said, in order. -/
theorem told_said {p0 p : Panel} (hc : Connected p0) {ops : List Op} {outs : List Out}
    (hr : Panel.run ops p0 = .ok (outs, p)) {line : Bytes} {said : List Message}
    (hb : p0.conn.rd.buffer ++ dataBytes (p0.conn.sock.incoming ++ arrived ops) ++ line =
      said.flatMap frame) (hg : ∀ m ∈ said, WfMessage m) : told outs <+: said := by
  obtain ⟨bytes, _, ⟨more, hm⟩, hs, _⟩ := C45_mirror hc hr
  have he : (p0.conn.rd.buffer ++ bytes) ++ (more ++ line) =
      (said.map fun m => Packet.ascii ⟨sentText m⟩).flatMap wire := by
    rw [← wire_frames, ← hb, ← hm]
    simp only [List.append_assoc]
  obtain ⟨ps', h1, _⟩ := steps_prefix _ (by
    intro p hp
    obtain ⟨m, hm, rfl⟩ := List.mem_map.mp hp
    exact sentText_valid (hg m hm)) he hs
  refine ⟨ps'.filterMap says, ?_⟩
  unfold told
  rw [hist_says (hist_of_run (connected_good hc) hr), ← List.filterMap_append, ← h1,
    says_frames hg]

theorem start_wired {p0 : Panel} {line : Bytes} {said : List Message}
    (hb : p0.conn.rd.buffer ++ dataBytes p0.conn.sock.incoming ++ line = said.flatMap frame)
    (hg : ∀ m ∈ said, WfMessage m ∧ confirms m = false) : WiredInv p0 (Wired.start p0 line said) where
  run := rfl
  wf := by intro c h; cases h
  bytes := by
    show p0.conn.rd.buffer ++ dataBytes (p0.conn.sock.incoming ++ []) ++ line = _
    rw [List.append_nil]
    exact hb
  good m hm := (hg m hm).1
  heard := ⟨[], [], rfl, rfl, rfl⟩
  got := Nat.le_refl _
  conf := by
    have : confirmations (Wired.start p0 line said).said = [] := by
      unfold confirmations
      rw [List.filter_eq_nil_iff]
      intro m hm
      rw [(hg m hm).2]
      decide
    intro j m h
    rw [this] at h
    cases h
  first := rfl
  second := rfl

theorem panel_snoc {ops : List Op} {p0 p p' : Panel} {outs : List Out} {op : Op} {o : Out}
    (hr : Panel.run ops p0 = .ok (outs, p)) (hs : p.step op = .ok (o, p')) :
    Panel.run (ops ++ [op]) p0 = .ok (outs ++ [o], p') :=
  Elk.run_append.mpr ⟨p, outs, [o], hr, run_cons.mpr ⟨o, p', [], hs, rfl, rfl⟩, rfl⟩

/-- Something happens to the library. -/
theorem act_wired {p0 : Panel} (hc : Connected p0) {t t' : Wired} (hi : WiredInv p0 t) {line : Bytes}
    {op : Op} (hw : ∀ c, op = .startSend c → WfCommand c)
    (hb : dataBytes (arrived [op]) ++ line = t.line)
    (ht : { t with line }.act op = .ok t') : WiredInv p0 t' := by
  unfold Wired.act at ht
  dsimp only at ht
  split at ht
  case h_1 => cases ht
  case h_2 o p hs =>
  cases ht
  have hrun := panel_snoc hi.run hs
  have hbytes : p0.conn.rd.buffer ++ dataBytes (p0.conn.sock.incoming ++ arrived (t.ops ++ [op])) ++
      line = t.said.flatMap frame := by
    rw [← hi.bytes, ← hb, arrived_append, ← List.append_assoc, dataBytes_append]
    simp only [List.append_assoc]
  have htold := told_said hc hrun hbytes hi.good
  have hpc : (completed [o]).map (·.1) = completions [o] ∧
      (completed [o]).map (·.2) = confirmations (told [o]) := by
    have hsc := step_cases ((hist_of_run (connected_good hc) hi.run).good).sane hs
    have hf := flow_step (l := []) (x := outstanding p.cmdState) hsc .nil
    have hacc := account hc hi.run
    -- what is outstanding is a command
    have hout : ∀ r, outstanding t.panel.cmdState = some r → ∃ c : Command, r = c.intoMsg := by
      intro r hr
      rw [hr] at hacc
      have : r ∈ (commands t.ops).map Command.intoMsg := by rw [hacc]; simp
      obtain ⟨c, _, rfl⟩ := List.mem_map.mp this
      exact ⟨c, rfl⟩
    generalize ho : outstanding t.panel.cmdState = out at hf
    cases hf with
    | accept _ => exact ⟨rfl, rfl⟩
    | @complete cx ev r m w _ _ h1 h2 h3 _ =>
      obtain ⟨c, rfl⟩ := hout r ho
      have hm := responds_confirms h3
      simp [completed, completions, told, events, eventOf, messageOf, h1, h2, confirmations, hm]
    | @event cx ev _ w _ _ h1 h2 _ =>
      refine ⟨by simp [completed, completions, events, eventOf, h1], ?_⟩
      have e : completed [Out.next (.ready (some (.ok ev))) w] = [] := by
        simp [completed, events, eventOf, h1]
      rw [e]
      cases hm : messageOf ev with
      | none => simp [told, events, eventOf, hm, confirmations]
      | some m =>
        cases hcm : confirms m with
        | false => simp [told, events, eventOf, hm, confirmations, hcm]
        | true =>
          exfalso
          have et : told [Out.next (.ready (some (.ok ev))) w] = [m] := by
            simp [told, events, eventOf, hm]
          obtain ⟨more, hmore⟩ := htold
          have hj : (confirmations t.said)[(completions t.outs).length]? = some m := by
            show (confirmations t.said)[_]? = _
            have hl : (completions t.outs).length = (confirmations (told t.outs)).length := by
              rw [← hi.first, ← hi.second, List.length_map, List.length_map]
            have hsd : t.said = told t.outs ++ [m] ++ more := by
              rw [← hmore, told_append, et]
            rw [hsd, confirmations_append, confirmations_append, hl, List.append_assoc]
            rw [List.getElem?_append_right (Nat.le_refl _), Nat.sub_self]
            show (List.filter confirms [m] ++ _)[0]? = _
            rw [List.filter_cons_of_pos hcm]
            rfl
          obtain ⟨l, hl1, hl2⟩ := hi.conf _ _ hj
          obtain ⟨hs', reqs, e1, e2, _⟩ := hi.heard
          rw [e2, List.getElem?_map] at hl1
          obtain ⟨c, hc1, hc2⟩ := Option.map_eq_some_iff.mp hl1
          have hcm' : (commands t.ops)[(completions t.outs).length]? = some c := by
            rw [e1, List.getElem?_append_left (List.getElem?_eq_some_iff.mp hc1).1]
            exact hc1
          have hmem : c ∈ commands t.ops := List.mem_of_getElem? hcm'
          have hresp := hl2 c (hi.wf c hmem) hc2.symm
          have : (completions t.outs ++ (outstanding t.panel.cmdState).toList)[
              (completions t.outs).length]? = some c.intoMsg := by
            rw [← hacc, List.getElem?_map, hcm']
            rfl
          rw [List.getElem?_append_right (Nat.le_refl _), Nat.sub_self] at this
          have hcx : out = some c.intoMsg := by
            rw [ho] at this
            cases out with
            | none => cases this
            | some r => simpa using this
          have hmsg : ev.msg = some (.ok m) := by
            unfold messageOf at hm
            split at hm
            next h => cases hm; exact h
            next => cases hm
          exact h2 _ m hcx hmsg hresp
    | @noEvent cx res _ w _ _ h1 _ =>
      match res, h1 with
      | .pending, _ => exact ⟨rfl, rfl⟩
      | .ready none, _ => exact ⟨rfl, rfl⟩
      | .ready (some (.error e)), _ => exact ⟨rfl, rfl⟩
      | .ready (some (.ok ev)), h1 => exact absurd rfl (h1 ev)
    | readyIdle _ => exact ⟨rfl, rfl⟩
    | readyBusy _ _ => exact ⟨rfl, rfl⟩
    | flush _ => exact ⟨rfl, rfl⟩
    | close _ => exact ⟨rfl, rfl⟩
    | arrive _ => exact ⟨rfl, rfl⟩
    | writable _ => exact ⟨rfl, rfl⟩
  exact {
    run := hrun
    wf := by
      show ∀ c ∈ commands (t.ops ++ [op]), WfCommand c
      rw [commands_append]
      intro c hcm
      rcases List.mem_append.mp hcm with h | h
      · exact hi.wf c h
      · refine hw c ?_
        cases op <;> simp [commands] at h
        rw [h]
    bytes := hbytes
    good := hi.good
    heard := by
      obtain ⟨hs', reqs, e1, e2, e3⟩ := hi.heard
      refine ⟨hs', reqs ++ commands [op], ?_, e2, e3⟩
      show commands (t.ops ++ [op]) = _
      rw [commands_append, e1, List.append_assoc]
    got := by
      have hsc := step_cases ((hist_of_run (connected_good hc) hi.run).good).sane hs
      obtain ⟨_, new, hn⟩ := bytes_step hsc hw
      show t.taken ≤ p.conn.sock.sent.length
      rw [hn, List.length_append]
      exact Nat.le_trans hi.got (Nat.le_add_right ..)
    conf := hi.conf
    first := by
      show (completed (t.outs ++ [o])).map (·.1) = completions (t.outs ++ [o])
      rw [completed_append, List.map_append, hi.first, hpc.1]
      unfold completions
      rw [events_append, List.filterMap_append]
    second := by
      show (completed (t.outs ++ [o])).map (·.2) = confirmations (told (t.outs ++ [o]))
      rw [completed_append, List.map_append, hi.second, hpc.2, told_append, confirmations_append] }

/-- One thing happens. -/
theorem step_wired {p0 : Panel} (hc : Connected p0) {t t' : Wired} (hi : WiredInv p0 t) {op : WiredOp}
    (hf : op.Fair) (hcd : op.Candid t) (ht : t.step op = .ok t') : WiredInv p0 t' := by
  match op with
  | .use op =>
    refine act_wired hc hi (line := t.line) (op := op) ?_ ?_ ht
    · rintro c rfl; exact hf
    · cases op with
      | arrive r =>
        cases r with
        | data b => exact hf.elim
        | _ => rfl
      | _ => rfl
  | .deliver n =>
    unfold Wired.step at ht
    dsimp only at ht
    split at ht
    next => cases ht; exact hi
    next =>
      refine act_wired hc hi (op := .arrive (.data (t.line.take (n + 1)))) ?_ ?_ ht
      · intro c h; cases h
      · show (t.line.take (n + 1) ++ []) ++ t.line.drop (n + 1) = t.line
        rw [List.append_nil, List.take_append_drop]
  | .hear =>
    unfold Wired.step at ht
    dsimp only at ht
    split at ht
    next => cases ht; exact hi
    next l hl =>
      cases ht
      obtain ⟨hs, reqs, e1, e2, e3⟩ := hi.heard
      obtain ⟨new, w1, w2⟩ := C44_wire_is_commands hc hi.run hi.wf
      have hdrop : t.panel.conn.sock.sent.drop t.taken =
          new.drop (hs.flatMap commandBytes).length := by
        rw [w1, e3, List.drop_append, List.drop_of_length_le (by omega), List.nil_append]
        congr 1
        omega
      rw [hdrop] at hl
      by_cases hlt : new.length < (hs.flatMap commandBytes).length
      · rw [List.drop_of_length_le (by omega)] at hl
        cases hl
      · have hlast : new.drop (hs.flatMap commandBytes).length ++ t.panel.conn.wbuf =
            reqs.flatMap commandBytes := by
          have := congrArg (List.drop (hs.flatMap commandBytes).length) w2
          rw [List.drop_append_of_le_length (by omega), e1, List.flatMap_append,
            List.drop_left] at this
          exact this
        rcases firstLine_commands (fun c hcm => hi.wf c (by
            rw [e1]; exact List.mem_append_right _ hcm)) hlast with ⟨h1, _⟩ | ⟨c, r, h1, h2, _, hgot⟩
        · rw [h1] at hl; cases hl
        · rw [h2] at hl
          cases hl
          exact {
            run := hi.run, wf := hi.wf, bytes := hi.bytes, good := hi.good
            heard := ⟨hs ++ [c], r, by rw [e1, h1]; simp, by
                show t.heard ++ [commandBytes c] = _
                rw [e2, List.map_append]; rfl, by
                show t.taken + _ = _
                rw [e3, List.flatMap_append, List.length_append, List.flatMap_cons,
                  List.flatMap_nil, List.append_nil]
                omega⟩
            got := by
              show t.taken + (commandBytes c).length ≤ _
              rw [List.length_drop] at hgot
              rw [w1, List.length_append, e3]
              omega
            conf := by
              intro j m h
              obtain ⟨l, h3, h4⟩ := hi.conf j m h
              refine ⟨l, ?_, h4⟩
              show (t.heard ++ _)[j]? = _
              rw [List.getElem?_append_left (List.getElem?_eq_some_iff.mp h3).1]
              exact h3
            first := hi.first, second := hi.second }
  | .say m =>
    cases ht
    exact {
      run := hi.run, wf := hi.wf
      bytes := by
        show _ ++ (t.line ++ frame m) = (t.said ++ [m]).flatMap frame
        rw [List.flatMap_append, ← hi.bytes]
        simp only [List.append_assoc, List.flatMap_cons, List.flatMap_nil, List.append_nil]
      good := by
        intro x hx
        rcases List.mem_append.mp hx with h | h
        · exact hi.good x h
        · cases List.mem_singleton.mp h
          exact hf
      heard := hi.heard
      got := hi.got
      conf := by
        intro j x hx
        have hx' : (confirmations (t.said ++ [m]))[j]? = some x := hx
        rw [confirmations_append] at hx'
        by_cases hj : j < (confirmations t.said).length
        · rw [List.getElem?_append_left hj] at hx'
          exact hi.conf j x hx'
        · rw [List.getElem?_append_right (by omega)] at hx'
          cases hm : confirms m with
          | false =>
            rw [show confirmations [m] = [] by simp [confirmations, hm]] at hx'
            cases hx'
          | true =>
            rw [show confirmations [m] = [m] by simp [confirmations, hm]] at hx'
            have hlt := (List.getElem?_eq_some_iff.mp hx').1
            have : j = (confirmations t.said).length := by simp at hlt; omega
            subst this
            rw [Nat.sub_self] at hx'
            cases hx'
            exact hcd hm
      first := hi.first, second := hi.second }

theorem run_wired {p0 : Panel} (hc : Connected p0) : ∀ {ops : List WiredOp} {t t' : Wired},
    WiredInv p0 t → (∀ op ∈ ops, op.Fair) → AllAlong (fun t op => op.Candid t) ops t →
    Wired.run ops t = .ok t' → WiredInv p0 t' := by
  intro ops
  induction ops with
  | nil => intro t t' hi _ _ h; cases h; exact hi
  | cons op ops ih =>
    intro t t' hi hf hcd h
    have h' : (t.step op >>= fun t => Wired.run ops t) = .ok t' := h
    obtain ⟨t1, h1, h2⟩ := P_bind_ok.mp h'
    exact ih (step_wired hc hi (hf op (List.mem_cons_self ..)) hcd.1 h1)
      (fun op' ho => hf op' (List.mem_cons_of_mem _ ho)) (hcd.2 t1 h1) h2

theorem account_wired {p0 : Panel} (hc : Connected p0) {t : Wired} (hi : WiredInv p0 t) :
    ∃ hs reqs, commands t.ops = hs ++ reqs ∧ t.heard = hs.map commandBytes ∧
      t.taken = p0.conn.sock.sent.length + (hs.flatMap commandBytes).length ∧
      (completions t.outs).length ≤ hs.length ∧ reqs.length ≤ 1 := by
  obtain ⟨hs, reqs, e1, e2, e3⟩ := hi.heard
  have hacc := account hc hi.run
  have hpre : (completed t.outs).map (·.2) <+: confirmations t.said := by
    rw [hi.second]
    obtain ⟨more, hm⟩ := told_said hc hi.run hi.bytes hi.good
    exact ⟨confirmations more, by rw [← confirmations_append, hm]⟩
  have hle : (completions t.outs).length ≤ hs.length := by
    rcases Nat.eq_zero_or_pos (completions t.outs).length with h0 | hpos
    · omega
    · have hl : (completions t.outs).length ≤ (confirmations t.said).length := by
        rw [← hi.first, List.length_map]
        have := hpre.length_le
        rwa [List.length_map] at this
      have hlt : (completions t.outs).length - 1 < (confirmations t.said).length := by omega
      obtain ⟨l, h1, _⟩ := hi.conf _ _ (List.getElem?_eq_getElem hlt)
      have := (List.getElem?_eq_some_iff.mp h1).1
      rw [e2, List.length_map] at this
      omega
  refine ⟨hs, reqs, e1, e2, e3, hle, ?_⟩
  have h1 := congrArg List.length hacc
  have h2 : (outstanding t.panel.cmdState).toList.length ≤ 1 := by
    cases outstanding t.panel.cmdState <;> simp
  rw [e1, List.length_map, List.length_append, List.length_append] at h1
  omega

/-! ## C111 -/

/-- **C111** (partial) Let the library be used in any way on a connected panel, on a line that hands
over what the panel says in pieces of any sizes, and let the panel confirm only commands it got
(`Candid`).  Whenever an event says that a command is completed, the panel has received this very
command, and the message of the event is the panel's reply to it: the commands completed so far are,
in order, the first lines the panel heard, and the messages of these events are, in order, its first
confirmations.  Missing: panels that say of their own accord what looks like a confirmation, for which
this is false (`C111_false`). -/
theorem C111_reached_partial {p0 : Panel} (hc : Connected p0) {line : Bytes} {early : List Message}
    (hb : p0.conn.rd.buffer ++ dataBytes p0.conn.sock.incoming ++ line = early.flatMap frame)
    (he : ∀ m ∈ early, WfMessage m ∧ confirms m = false) {ops : List WiredOp} {t : Wired}
    (hf : ∀ op ∈ ops, op.Fair)
    (hcd : AllAlong (fun t op => op.Candid t) ops (Wired.start p0 line early))
    (ht : Wired.run ops (Wired.start p0 line early) = .ok t) :
    ∃ done : List Command, done.map Command.intoMsg = completions t.outs ∧
      done.map commandBytes <+: t.heard ∧ (completed t.outs).map (·.1) = completions t.outs ∧
      (completed t.outs).map (·.2) <+: confirmations t.said := by
  have hi := run_wired hc (start_wired hb he) hf hcd ht
  have hpre : (completed t.outs).map (·.2) <+: confirmations t.said := by
    rw [hi.second]
    obtain ⟨more, hm⟩ := told_said hc hi.run hi.bytes hi.good
    exact ⟨confirmations more, by rw [← confirmations_append, hm]⟩
  have hacc := account hc hi.run
  refine ⟨(commands t.ops).take (completions t.outs).length, ?_, ?_, hi.first, hpre⟩
  · rw [List.map_take, hacc, List.take_left]
  · obtain ⟨hs, reqs, e1, e2, _, hle, _⟩ := account_wired hc hi
    rw [e1, List.take_append_of_le_length hle, e2]
    exact (List.take_prefix _ _).map commandBytes

/-- **C111** is false of the code (state.rs:30-33): if the panel reports of its own accord that
task 1 was run, just before the library is told to run it, then the command is reported completed
although it has not even left. -/
theorem C111_false : ∃ ops t, (∀ op ∈ ops, WiredOp.Fair op) ∧
    Wired.run ops (Wired.start (samplePanel []) [] []) = .ok t ∧
    completions t.outs = [sampleCmd.intoMsg] ∧ t.heard = [] ∧ t.panel.conn.sock.sent = [] := by
  have h : ∃ t, Wired.run [.say (.taskChange ⟨⟨1⟩⟩), .deliver 100, .use (.startSend sampleCmd),
        .use (.pollNext ⟨1, 0, 0⟩)] (Wired.start (samplePanel []) [] []) = .ok t ∧
      decide (completions t.outs = [sampleCmd.intoMsg] ∧ t.heard = [] ∧
        t.panel.conn.sock.sent = []) = true := of_holds (by decide +kernel)
  obtain ⟨t, h1, h2⟩ := h
  refine ⟨_, t, ?_, h1, of_decide_eq_true h2⟩
  intro op ho
  simp only [List.mem_cons, List.not_mem_nil, or_false] at ho
  rcases ho with rfl | rfl | rfl | rfl
  · exact ⟨by decide, by decide⟩
  · trivial
  · exact sampleCmd_wf
  · trivial

/-! ## C43, C88 -/

/-- **C43** (partial) With a panel that confirms only commands it got, a completed `poll_flush` means
that every byte of every accepted command has been handed to the socket.  Missing: other panels
(`C43_flush_forgotten`). -/
theorem C43_candid_partial {p0 : Panel} (hc : Connected p0) {line : Bytes} {early : List Message}
    (hb : p0.conn.rd.buffer ++ dataBytes p0.conn.sock.incoming ++ line = early.flatMap frame)
    (he : ∀ m ∈ early, WfMessage m ∧ confirms m = false) {ops : List WiredOp} {t : Wired}
    (hf : ∀ op ∈ ops, op.Fair)
    (hcd : AllAlong (fun t op => op.Candid t) ops (Wired.start p0 line early))
    (ht : Wired.run ops (Wired.start p0 line early) = .ok t) {cx : Cx} {p' : Panel}
    (hs : t.panel.step (.pollFlush cx) = .ok (.sink (.ready (.ok ())), p')) :
    p'.conn.sock.sent = p0.conn.sock.sent ++ (commands t.ops).flatMap commandBytes := by
  have hi := run_wired hc (start_wired hb he) hf hcd ht
  obtain ⟨hs', reqs, e1, e2, e3, hle, _⟩ := account_wired hc hi
  have hacc := account hc hi.run
  cases ho : outstanding t.panel.cmdState with
  | some r =>
    refine C43_flushed_partial hc hi.run hi.wf hs ?_
    have := congrArg List.length hacc
    rw [ho] at this
    simp only [List.length_map, List.length_append, Option.toList_some, List.length_singleton] at this
    omega
  | none =>
    have hl := congrArg List.length hacc
    rw [ho] at hl
    simp only [List.length_map, List.length_append, Option.toList_none, List.length_nil] at hl
    have hl2 := congrArg List.length e1
    rw [List.length_append] at hl2
    have hr : reqs = [] := List.length_eq_zero_iff.mp (by omega)
    have hsc := step_cases ((hist_of_run (connected_good hc) hi.run).good).sane hs
    obtain ⟨_, new', hn⟩ := bytes_step hsc (by intro c h; cases h)
    have hrun := panel_snoc hi.run hs
    obtain ⟨new, w1, w2⟩ := C44_wire_is_commands hc hrun (by
      rw [commands_append]
      intro c hcm
      rcases List.mem_append.mp hcm with h | h
      · exact hi.wf c h
      · cases h)
    rw [commands_append, show commands [Op.pollFlush cx] = [] from rfl, List.append_nil] at w2
    rw [w1]
    have h1 := congrArg List.length w2
    have h2 := congrArg List.length w1
    have h3 := congrArg List.length hn
    have h4 := hi.got
    rw [e1, hr, List.append_nil] at h1 w2 ⊢
    rw [List.length_append] at h1 h2 h3
    have : p'.conn.wbuf = [] := List.length_eq_zero_iff.mp (by omega)
    rw [this, List.append_nil] at w2
    rw [w2]

/-- **C88** With a panel that confirms only commands it got, the characters it has received and not
yet taken are at most one command of at most 17 characters, and it has room for 250: it never has to
drop anything. -/
theorem C88_no_overflow {p0 : Panel} (hc : Connected p0) {line : Bytes} {early : List Message}
    (hb : p0.conn.rd.buffer ++ dataBytes p0.conn.sock.incoming ++ line = early.flatMap frame)
    (he : ∀ m ∈ early, WfMessage m ∧ confirms m = false) {ops : List WiredOp} {t : Wired}
    (hf : ∀ op ∈ ops, op.Fair)
    (hcd : AllAlong (fun t op => op.Candid t) ops (Wired.start p0 line early))
    (ht : Wired.run ops (Wired.start p0 line early) = .ok t) :
    ∃ last : List Command, last.length ≤ 1 ∧
      t.panel.conn.sock.sent.drop t.taken <+: last.flatMap commandBytes ∧
      (t.panel.conn.sock.sent.drop t.taken).length ≤ 17 ∧ 17 ≤ bufferSize := by
  have hi := run_wired hc (start_wired hb he) hf hcd ht
  obtain ⟨hs, reqs, e1, e2, e3, hle, hlast⟩ := account_wired hc hi
  obtain ⟨new, w1, w2⟩ := C44_wire_is_commands hc hi.run hi.wf
  have hgot := hi.got
  rw [w1, e3, List.length_append] at hgot
  have hdrop : t.panel.conn.sock.sent.drop t.taken =
      new.drop (hs.flatMap commandBytes).length := by
    rw [w1, e3, List.drop_append, List.drop_of_length_le (by omega), List.nil_append]
    congr 1
    omega
  have hpre : new.drop (hs.flatMap commandBytes).length ++ t.panel.conn.wbuf =
      reqs.flatMap commandBytes := by
    have := congrArg (List.drop (hs.flatMap commandBytes).length) w2
    rw [List.drop_append_of_le_length (by omega), e1, List.flatMap_append, List.drop_left] at this
    exact this
  have hp : t.panel.conn.sock.sent.drop t.taken <+: reqs.flatMap commandBytes :=
    ⟨_, by rw [hdrop]; exact hpre⟩
  refine ⟨reqs, hlast, hp, Nat.le_trans hp.length_le ?_, by decide⟩
  match reqs, hlast with
  | [], _ => simp
  | [c], _ => simpa using command_short c

/-! Non-vacuity. -/

theorem command_inj {c c' : Command} (h : WfCommand c) (h' : WfCommand c')
    (e : commandBytes c = commandBytes c') : c.intoMsg = c'.intoMsg := by
  have hv : ValidPacket (.ascii ⟨sentText c.intoMsg⟩) := sentText_valid h
  have hv' : ValidPacket (.ascii ⟨sentText c'.intoMsg⟩) := sentText_valid h'
  have h1 := decode_wire hv []
  have h2 := decode_wire hv' []
  have e' : wire (.ascii ⟨sentText c.intoMsg⟩) = wire (.ascii ⟨sentText c'.intoMsg⟩) := e
  rw [e', h2, Except.ok.injEq, Prod.mk.injEq, Option.some.injEq] at h1
  have h3 := says_sent h
  rw [← h1.1, says_sent h', Option.some.injEq] at h3
  exact h3.symm

theorem allAlong_append {P : Wired → WiredOp → Prop} : ∀ {a b : List WiredOp} {t : Wired},
    AllAlong P a t → (∀ t', Wired.run a t = .ok t' → AllAlong P b t') → AllAlong P (a ++ b) t := by
  intro a
  induction a with
  | nil => intro b t _ h; exact h t rfl
  | cons op a ih =>
    intro b t h h'
    refine ⟨h.1, fun t' ht => ih (h.2 t' ht) fun t2 h2 => h' t2 ?_⟩
    show (t.step op >>= fun t => Wired.run a t) = _
    rw [ht]
    exact h2

theorem allAlong_all {P : Wired → WiredOp → Prop} : ∀ {a : List WiredOp} {t : Wired},
    (∀ op ∈ a, ∀ t, P t op) → AllAlong P a t := by
  intro a
  induction a with
  | nil => intro t _; trivial
  | cons op a ih =>
    intro t h
    exact ⟨h op (List.mem_cons_self ..) t,
      fun t' _ => ih fun op' ho => h op' (List.mem_cons_of_mem _ ho)⟩

/-- Task 1 is activated, and the panel takes the command. -/
def askTask : List WiredOp := [.use (.startSend sampleCmd), .use (.writable (.accept 100)),
  .use (.pollFlush ⟨1, 0, 0⟩), .hear]

/-- The panel says that task 1 was run, and the library reads it. -/
def taskDone : List WiredOp := [.say (.taskChange ⟨1⟩), .deliver 100, .use (.pollNext ⟨1, 0, 0⟩)]

/-- Non-vacuity: a command is taken, confirmed and reported completed. -/
theorem C111_sample : (∀ op ∈ askTask ++ taskDone, op.Fair) ∧
    AllAlong (fun t op => op.Candid t) (askTask ++ taskDone) (Wired.start (samplePanel []) [] []) ∧
    ∃ t, Wired.run (askTask ++ taskDone) (Wired.start (samplePanel []) [] []) = .ok t ∧
      completions t.outs = [sampleCmd.intoMsg] ∧ t.heard = [commandBytes sampleCmd] := by
  refine ⟨?_, allAlong_append (allAlong_all ?_) ?_, ?_⟩
  · intro op ho
    simp only [askTask, taskDone, List.mem_append, List.mem_cons, List.not_mem_nil, or_false] at ho
    rcases ho with (rfl | rfl | rfl | rfl) | (rfl | rfl | rfl)
    · exact sampleCmd_wf
    · trivial
    · trivial
    · trivial
    · exact ⟨by decide, by decide⟩
    · trivial
    · trivial
  · intro op ho t
    simp only [askTask, List.mem_cons, List.not_mem_nil, or_false] at ho
    rcases ho with rfl | rfl | rfl | rfl <;> trivial
  · intro t' ht
    have h : ∃ t, Wired.run askTask (Wired.start (samplePanel []) [] []) = .ok t ∧
        decide (t.heard = [commandBytes sampleCmd] ∧ t.said = []) = true :=
      of_holds (by decide +kernel)
    obtain ⟨t, h1, h2⟩ := h
    rw [h1] at ht
    cases ht
    obtain ⟨h3, h4⟩ := of_decide_eq_true h2
    refine ⟨?_, fun t2 _ => allAlong_all ?_⟩
    · intro _
      rw [h3, h4]
      refine ⟨_, rfl, ?_⟩
      intro c hc he
      rw [← command_inj sampleCmd_wf hc he]
      exact .task _
    · intro op ho t
      simp only [List.mem_cons, List.not_mem_nil, or_false] at ho
      rcases ho with rfl | rfl <;> trivial
  · have h : ∃ t, Wired.run (askTask ++ taskDone) (Wired.start (samplePanel []) [] []) = .ok t ∧
        decide (completions t.outs = [sampleCmd.intoMsg] ∧ t.heard = [commandBytes sampleCmd]) =
          true := of_holds (by decide +kernel)
    obtain ⟨t, h1, h2⟩ := h
    exact ⟨t, h1, of_decide_eq_true h2⟩

end Elk.Props
