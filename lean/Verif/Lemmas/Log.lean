import Verif.Spec.Log
import Verif.Lemmas.DebugMsg
import Verif.Props.Machine
/-!
# Lemmas about the log

Each function with its log returns what the function without returns, and a log that is, up to the
filter, given by `…Log`.
-/

namespace Elk
open Spec Props

theorem enabled_append (on : Callsite → Bool) (a b : List Record) :
    enabled on (a ++ b) = enabled on a ++ enabled on b := List.filter_append ..

theorem enabled_nil (on : Callsite → Bool) : enabled on [] = [] := rfl

theorem emit_ok (on : Callsite → Bool) (s : Callsite) (f : List (String × FieldValue)) :
    emit on s (.ok f) = .ok (enabled on [⟨s, f⟩]) := by
  unfold emit enabled
  by_cases h : on s
  · rw [if_pos h, List.filter_cons_of_pos (by simpa using h)]; rfl
  · rw [if_neg h, List.filter_cons_of_neg (by simpa using h)]; rfl

theorem oneField_ok {name : String} {x : P Dbg} {d : Dbg} (h : x = .ok d) :
    oneField name x = .ok [(name, .debug d)] := by
  subst h; rfl

/-! ## The connection -/

/-- What a poll of a connection logs. -/
def recvLog : Poll (Option (Except IoErr Packet)) → List Record
  | .ready (some (.ok pkt)) => [jot .received [("pkt", pkt.debug)]]
  | _ => []

theorem connNextL_eq (on : Callsite → Bool) (c : Connection) (cx : Cx) :
    c.pollNextL on cx = c.pollNext cx >>= fun x => .ok (enabled on (recvLog x.1), x) := by
  unfold Connection.pollNextL
  cases c.pollNext cx with
  | error e => rfl
  | ok x =>
    obtain ⟨r, c'⟩ := x
    simp only [bind_ok]
    match r with
    | .ready (some (.ok pkt)) => dsimp only; rw [emit_ok]; rfl
    | .ready (some (.error e)) => rfl
    | .ready none => rfl
    | .pending => rfl

theorem connSendL_eq (on : Callsite → Bool) (c : Connection) (pkt : Packet) :
    c.startSendL on pkt = c.startSend pkt >>= fun c' =>
      .ok (enabled on [jot .sending [("pkt", pkt.debug)]], c') := by
  unfold Connection.startSendL
  rw [emit_ok]
  rfl

/-! ## The panel -/

/-- What the interpretation of an arming report logs. -/
def armLog (p : Panel) (m : ArmingStatusReport) : List Record :=
  match p.state.armingStatus with
  | none => []
  | some prior =>
    if prior.isTransitionSuspicious m then
      match p.pendingArm with
      | some pa => [jot .alsoSuspicious [("prior", prior.debug), ("pending", pa.report.debug),
          ("new", m.debug)]]
      | none => [jot .delaying [("prior", prior.debug), ("pending", m.debug)]]
    else []

theorem armingL_eq (on : Callsite → Bool) (p : Panel) (now : Nat) (m : ArmingStatusReport) :
    p.interpretArmingStatusL on now m =
      .ok (enabled on (armLog p m), p.interpretArmingStatus now m) := by
  unfold Panel.interpretArmingStatusL Panel.interpretArmingStatus armLog
  cases p.state.armingStatus with
  | none => rfl
  | some prior =>
    dsimp only
    generalize prior.isTransitionSuspicious m = q
    cases p.pendingArm <;> cases q <;> by_cases hne : prior = m <;>
    simp only [hne, emit_ok, bind_ok, jot, List.map_cons, List.map_nil, if_true, if_false,
      Bool.false_eq_true, and_false, and_true, ne_eq, not_true, not_false_eq_true, reduceCtorEq,
      enabled_nil]

/-- What the interpretation of a message logs. -/
def msgLog (p : Panel) : Option (Except Bytes Message) → List Record
  | some (.ok (.armingStatusReport m)) => armLog p m
  | _ => []

theorem trackL_eq (on : Callsite → Bool) (p : Panel) (now : Nat) (m : Message) :
    p.trackL on now m = p.track now m >>= fun x => .ok (enabled on (msgLog p (some (.ok m))), x) := by
  cases m with
  | armingStatusReport m =>
    show p.interpretArmingStatusL on now m = _
    rw [armingL_eq]; rfl
  | _ => rfl

theorem interpretL_eq (on : Callsite → Bool) (p : Panel) (now : Nat) (pkt : Packet) :
    p.interpretL on now pkt = p.interpret now pkt >>= fun x =>
      .ok (enabled on (msgLog p x.1.msg), x) := by
  unfold Panel.interpretL Panel.interpret
  match Message.parse pkt with
  | .error (.panic q) => rfl
  | .error (.err e) => rfl
  | .ok none => rfl
  | .ok (some m) =>
    dsimp only
    rw [trackL_eq]
    cases p.track now m with
    | error e => rfl
    | ok x => rfl

/-- What the timer logs. -/
def timerLog (p : Panel) : List Record :=
  match p.state.armingStatus, p.pendingArm with
  | some prior, some pa =>
    [jot .deferred [("prior", prior.debug), ("pending", pa.report.debug)]]
  | _, _ => []

/-- What a poll of a panel logs. -/
def nextLog (p : Panel) : Poll PanelItem → List Record
  | .ready (some (.ok ev)) =>
    match ev.pkt with
    | some pkt => jot .received [("pkt", pkt.debug)] :: msgLog p ev.msg
    | none => timerLog p
  | _ => []

theorem timerL_eq (on : Callsite → Bool) (p : Panel) (cx : Cx) :
    p.pollTimerL on cx = p.pollTimer cx >>= fun x => .ok (enabled on (nextLog p x.1), x) := by
  unfold Panel.pollTimerL Panel.pollTimer
  cases hp : p.pendingArm with
  | none => rfl
  | some pa =>
    dsimp only
    by_cases hd : pa.deadline ≤ cx.timer
    · rw [if_pos hd, if_pos hd]
      cases ha : p.state.armingStatus with
      | none => rfl
      | some prior =>
        simp only [expectSome, bind_ok]
        rw [emit_ok]
        simp only [bind_ok, nextLog, timerLog]
        rw [ha, hp]
        rfl
    · rw [if_neg hd, if_neg hd]; rfl

theorem interp_pkt {p : Panel} {now : Nat} {pkt : Packet} {x}
    (h : p.interpret now pkt = .ok x) : x.1.pkt = some pkt := by
  unfold Panel.interpret at h
  match hm : Message.parse pkt with
  | .error (.panic q) => rw [hm] at h; cases h
  | .error (.err e) => rw [hm] at h; cases h; rfl
  | .ok none => rw [hm] at h; cases h; rfl
  | .ok (some m) =>
    rw [hm] at h
    dsimp only at h
    cases ht : p.track now m with
    | error e => rw [ht] at h; cases h
    | ok y => rw [ht] at h; cases h; rfl

theorem timer_pkt {p : Panel} {cx : Cx} {r p'} (h : p.pollTimer cx = .ok (r, p')) :
    r = .pending ∨ ∃ c, r = .ready (some (.ok ⟨none, none, none, c⟩)) := by
  unfold Panel.pollTimer at h
  split at h
  · cases h; exact .inl rfl
  · split at h
    · rename_i pa _ _
      cases ha : p.state.armingStatus with
      | none => rw [ha] at h; cases h
      | some prior => rw [ha] at h; cases h; exact .inr ⟨_, rfl⟩
    · cases h; exact .inl rfl

theorem panelNextL_eq (on : Callsite → Bool) (p : Panel) (cx : Cx) :
    p.pollNextL on cx = p.pollNext cx >>= fun x => .ok (enabled on (nextLog p x.1), x) := by
  unfold Panel.pollNextL Panel.pollNext
  rw [connNextL_eq]
  cases p.conn.pollNext cx with
  | error e => rfl
  | ok x =>
    obtain ⟨r, c⟩ := x
    simp only [bind_ok]
    match r with
    | .ready (some (.error e)) => rfl
    | .ready none => rfl
    | .ready (some (.ok pkt)) =>
      dsimp only
      rw [interpretL_eq]
      cases hi : Panel.interpret { p with conn := c } cx.now pkt with
      | error e => rfl
      | ok y =>
        obtain ⟨ev, w, p'⟩ := y
        simp only [bind_ok]
        rw [← enabled_append]
        have := interp_pkt hi
        dsimp only at this
        show _ = Except.ok (enabled on (match ev.pkt with
          | some pkt => jot .received [("pkt", pkt.debug)] :: msgLog p ev.msg
          | none => timerLog p), _)
        rw [this]
        rfl
    | .pending =>
      dsimp only
      rw [timerL_eq]
      cases hi : Panel.pollTimer { p with conn := c } cx with
      | error e => rfl
      | ok y =>
        obtain ⟨r, p'⟩ := y
        rcases timer_pkt hi with rfl | ⟨ch, rfl⟩ <;> rfl

/-- What sending a command logs. -/
def sendLog (c : Command) (d : Dbg) : List Record :=
  [jot .command [("msg", d)], jot .sending [("pkt", (Packet.ascii ⟨sentText c.intoMsg⟩).debug)]]

theorem panelSendL_eq (on : Callsite → Bool) (p : Panel) {c : Command} (hc : WfCommand c) {d : Dbg}
    (hd : c.intoMsg.debug = .ok d) :
    p.startSendL on c = p.startSend c >>= fun x => .ok (enabled on (sendLog c d), x) := by
  unfold Panel.startSendL Panel.startSend
  cases p.cmdState with
  | busy _ _ _ => rfl
  | idle =>
    dsimp only
    rw [oneField_ok hd, emit_ok, toPkt_eq hc]
    simp only [bind_ok]
    rw [connSendL_eq]
    cases p.conn.startSend (.ascii ⟨sentText c.intoMsg⟩) with
    | error e => rfl
    | ok x =>
      simp only [bind_ok]
      rw [← enabled_append]
      rfl

end Elk
