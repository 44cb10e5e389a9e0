import Verif.Model.Said
import Verif.Lemmas.LogRun
/-!
# Lemmas about logs that are kept through a panic

Each function with suffix `S` (Model/Said.lean) agrees with that with suffix `L` where there is no panic,
and panics where that does.
-/

namespace Elk
open Spec Props

/-- The log and the result, unless there was a panic. -/
def Said.kept {α : Type} (x : Said α) : P (List Record × α) :=
  x.result >>= fun a => .ok (x.log, a)

theorem said_bind {α β : Type} (x : Said α) (f : α → Said β) : (x >>= f) = x.bind f := rfl

theorem said_ext {α : Type} {x y : Said α} (h : x.log = y.log) (h' : x.result = y.result) : x = y := by
  cases x; cases y; cases h; cases h'; rfl

theorem kept_ok {α : Type} {x : Said α} {l : List Record} {a : α} :
    x.kept = .ok (l, a) ↔ x = ⟨l, .ok a⟩ := by
  obtain ⟨j, r⟩ := x
  cases r with
  | error e => exact ⟨fun h => (nomatch h), fun h => (nomatch h)⟩
  | ok b =>
    constructor
    · intro h; cases h; rfl
    · intro h; cases h; rfl

theorem kept_error {α : Type} {x : Said α} {e : Panic} : x.kept = .error e ↔ x.result = .error e := by
  obtain ⟨j, r⟩ := x
  cases r with
  | error e' => exact Iff.of_eq (congrArg _ rfl) |>.trans ⟨fun h => by cases h; rfl, fun h => by cases h; rfl⟩
  | ok b => exact ⟨fun h => (nomatch h), fun h => (nomatch h)⟩

theorem kept_bind {α β : Type} (x : Said α) (f : α → Said β) :
    (x >>= f).kept = x.kept >>= fun y => (f y.2).kept >>= fun z => .ok (y.1 ++ z.1, z.2) := by
  rw [said_bind]
  obtain ⟨j, r⟩ := x
  cases r with
  | error e => rfl
  | ok a =>
    unfold Said.bind Said.kept
    simp only [bind_ok]
    cases (f a).result <;> rfl

theorem kept_of {α : Type} (x : P α) : (Said.of x).kept = x >>= fun a => .ok ([], a) := rfl

theorem kept_say (on : Callsite → Bool) (s : Callsite) (f : P (List (String × FieldValue))) :
    (say on s f).kept = emit on s f >>= fun l => .ok (l, ()) := by
  unfold say emit
  split
  · cases f <;> rfl
  · rfl

/-! ## Where the log is known -/

theorem say_ok (on : Callsite → Bool) (s : Callsite) (f : List (String × FieldValue)) :
    say on s (.ok f) = ⟨enabled on [⟨s, f⟩], .ok ()⟩ :=
  kept_ok.mp (by rw [kept_say, emit_ok]; rfl)

theorem bind_said {α β : Type} (l : List Record) (a : α) (f : α → Said β) :
    ((⟨l, .ok a⟩ : Said α) >>= f) = ⟨l ++ (f a).log, (f a).result⟩ := rfl

theorem bind_died {α β : Type} (l : List Record) (e : Panic) (f : α → Said β) :
    ((⟨l, .error e⟩ : Said α) >>= f) = ⟨l, .error e⟩ := rfl

theorem of_bind {α β : Type} (a : α) (f : α → Said β) : (Said.of (.ok a) >>= f) = f a := rfl

theorem of_died {α β : Type} (e : Panic) (f : α → Said β) :
    ((Said.of (.error e) : Said α) >>= f) = ⟨[], .error e⟩ := rfl

/-! ## The connection and the panel -/

theorem connNext_kept (on : Callsite → Bool) (c : Connection) (cx : Cx) :
    (c.pollNextS on cx).kept = c.pollNextL on cx := by
  unfold Connection.pollNextS Connection.pollNextL
  rw [kept_bind, kept_of]
  cases c.pollNext cx with
  | error e => rfl
  | ok x =>
    obtain ⟨r, c'⟩ := x
    simp only [bind_ok]
    match r with
    | .ready (some (.ok pkt)) =>
      dsimp only
      rw [kept_bind, kept_say, emit_ok]
      simp only [bind_ok, kept_of, List.nil_append, List.append_nil]
    | .ready (some (.error e)) => rfl
    | .ready none => rfl
    | .pending => rfl

theorem connSend_kept (on : Callsite → Bool) (c : Connection) (pkt : Packet) :
    (c.startSendS on pkt).kept = c.startSendL on pkt := by
  unfold Connection.startSendS Connection.startSendL
  rw [kept_bind, kept_say, emit_ok]
  simp only [bind_ok, kept_of]
  cases c.startSend pkt with
  | error e => rfl
  | ok x => simp only [bind_ok, List.append_nil]

theorem arming_kept (on : Callsite → Bool) (p : Panel) (now : Nat) (m : ArmingStatusReport) :
    (p.interpretArmingStatusS on now m).kept = p.interpretArmingStatusL on now m := by
  unfold Panel.interpretArmingStatusS Panel.interpretArmingStatusL
  cases p.state.armingStatus with
  | none => rfl
  | some prior =>
    dsimp only
    cases p.pendingArm with
    | some pa =>
      dsimp only
      by_cases hs : prior.isTransitionSuspicious m = true
      · rw [if_pos hs, if_pos hs, kept_bind, kept_say, emit_ok]
        simp only [bind_ok]
        by_cases hne : prior ≠ m
        · rw [if_pos hne, if_pos hne, kept_of]
          simp only [bind_ok, List.append_nil]
        · rw [if_neg hne, if_neg hne, kept_of]
          simp only [bind_ok, List.append_nil]
      · rw [if_neg hs, if_neg hs, kept_bind, kept_of]
        simp only [bind_ok]
        by_cases hne : prior ≠ m
        · rw [if_pos hne, if_pos hne]; rfl
        · rw [if_neg hne, if_neg hne]; rfl
    | none =>
      dsimp only
      by_cases hs : prior.isTransitionSuspicious m = true
      · rw [if_pos hs, if_pos hs, kept_bind, kept_say, emit_ok]
        simp only [bind_ok, kept_of, List.append_nil]
      · rw [if_neg hs, if_neg hs]
        by_cases hne : prior ≠ m
        · rw [if_pos hne, if_pos hne]; rfl
        · rw [if_neg hne, if_neg hne]; rfl

theorem track_kept (on : Callsite → Bool) (p : Panel) (now : Nat) (m : Message) :
    (p.trackS on now m).kept = p.trackL on now m := by
  cases m with
  | armingStatusReport m => exact arming_kept on p now m
  | _ => rfl

theorem interpret_kept (on : Callsite → Bool) (p : Panel) (now : Nat) (pkt : Packet) :
    (p.interpretS on now pkt).kept = p.interpretL on now pkt := by
  unfold Panel.interpretS Panel.interpretL
  match Message.parse pkt with
  | .error (.panic q) => rfl
  | .error (.err e) => rfl
  | .ok none => rfl
  | .ok (some m) =>
    dsimp only
    rw [kept_bind, track_kept]
    cases p.trackL on now m with
    | error e => rfl
    | ok x => simp only [bind_ok, kept_of, List.append_nil]

theorem timer_kept (on : Callsite → Bool) (p : Panel) (cx : Cx) :
    (p.pollTimerS on cx).kept = p.pollTimerL on cx := by
  unfold Panel.pollTimerS Panel.pollTimerL
  cases p.pendingArm with
  | none => rfl
  | some pa =>
    dsimp only
    split
    · rw [kept_bind, kept_of]
      cases expectSome p.state.armingStatus with
      | error e => rfl
      | ok prior =>
        simp only [bind_ok, kept_bind, kept_say, emit_ok, kept_of, List.nil_append, List.append_nil]
    · rfl

theorem panelNext_kept (on : Callsite → Bool) (p : Panel) (cx : Cx) :
    (p.pollNextS on cx).kept = p.pollNextL on cx := by
  unfold Panel.pollNextS Panel.pollNextL
  rw [kept_bind, connNext_kept]
  cases p.conn.pollNextL on cx with
  | error e => rfl
  | ok x =>
    obtain ⟨l, r, c⟩ := x
    simp only [bind_ok]
    match r with
    | .ready (some (.error e)) => simp only [kept_of, bind_ok, List.append_nil]
    | .ready none => simp only [kept_of, bind_ok, List.append_nil]
    | .ready (some (.ok pkt)) =>
      dsimp only
      rw [kept_bind, interpret_kept]
      cases ({ p with conn := c } : Panel).interpretL on cx.now pkt with
      | error e => rfl
      | ok x => simp only [bind_ok, kept_of, List.append_nil]
    | .pending =>
      dsimp only
      rw [kept_bind, timer_kept]
      cases ({ p with conn := c } : Panel).pollTimerL on cx with
      | error e => rfl
      | ok x => simp only [bind_ok, kept_of, List.append_nil]

theorem panelSend_kept (on : Callsite → Bool) (p : Panel) (c : Command) :
    (p.startSendS on c).kept = p.startSendL on c := by
  unfold Panel.startSendS Panel.startSendL
  cases p.cmdState with
  | busy => rfl
  | idle =>
    dsimp only
    rw [kept_bind, kept_say]
    cases emit on .command (oneField "msg" c.intoMsg.debug) with
    | error e => rfl
    | ok l =>
      simp only [bind_ok, kept_bind, kept_of]
      cases c.intoMsg.toPkt with
      | error e => rfl
      | ok pkt =>
        simp only [bind_ok, connSend_kept]
        cases p.conn.startSendL on pkt with
        | error e => rfl
        | ok x => simp only [bind_ok, List.nil_append, List.append_nil]

/-! ## Connecting -/

theorem started_kept (on : Callsite → Bool) (ph : Phase) :
    (ph.startedS on).kept = ph.startedL on >>= fun l => .ok (l, ()) := by
  cases ph with
  | asking i => exact kept_say ..
  | finished r => rfl

theorem start_kept (on : Callsite → Bool) (c : Connection) :
    (Init.startS on c).kept = Init.startL on c := by
  unfold Init.startS Init.startL
  rw [kept_bind, kept_of]
  cases Init.start c with
  | error e => rfl
  | ok ph =>
    simp only [bind_ok, kept_bind, started_kept]
    cases ph.startedL on with
    | error e => rfl
    | ok l => simp only [bind_ok, kept_of, List.nil_append, List.append_nil]

theorem received_kept (on : Callsite → Bool) (i : Init) (p : Panel) (now : Nat) (pkt : Packet) :
    (i.receivedS on p now pkt).kept = i.receivedL on p now pkt := by
  unfold Init.receivedS Init.receivedL
  rw [kept_bind, interpret_kept]
  cases p.interpretL on now pkt with
  | error e => rfl
  | ok x =>
    obtain ⟨l, ev, w, p'⟩ := x
    simp only [bind_ok]
    match ev.msg with
    | none => simp only [kept_of, bind_ok, List.append_nil]
    | some (.error e) => simp only [kept_of, bind_ok, List.append_nil]
    | some (.ok r) =>
      dsimp only
      by_cases hr : r.isResponseTo i.send = true
      · rw [if_pos hr, if_pos hr, kept_bind, kept_say]
        cases emit on .reply (oneField "msg" ev.debug) with
        | error e => rfl
        | ok l' =>
          simp only [bind_ok, kept_bind, kept_of]
          cases Init.replied p' i.stage (some (.ok r)) with
          | error e => rfl
          | ok ph =>
            simp only [bind_ok, started_kept]
            cases ph.startedL on with
            | error e => rfl
            | ok l'' => simp only [bind_ok, List.nil_append, List.append_nil, List.append_assoc]
      · rw [if_neg hr, if_neg hr, kept_bind, kept_say]
        cases emit on .unrelated (oneField "msg" ev.debug) with
        | error e => rfl
        | ok l' => simp only [bind_ok, kept_of, List.append_nil]

theorem initTick_kept (on : Callsite → Bool) (i : Init) (cx : Cx) :
    (i.tickS on cx).kept = i.tickL on cx := by
  unfold Init.tickS Init.tickL
  match i.await with
  | .ready pkt =>
    dsimp only
    generalize i.panel.conn.pollReady cx = x
    match x with
    | (.pending, c) => rfl
    | (.ready (.error e), c) => rfl
    | (.ready (.ok ()), c) =>
      dsimp only
      rw [kept_bind, connSend_kept]
      cases c.startSendL on pkt with
      | error e => rfl
      | ok x => simp only [bind_ok, kept_of, List.append_nil]
  | .flush => rfl
  | .reply =>
    dsimp only
    rw [kept_bind, connNext_kept]
    cases i.panel.conn.pollNextL on cx with
    | error e => rfl
    | ok x =>
      obtain ⟨l, r, c⟩ := x
      simp only [bind_ok]
      match r with
      | .pending => simp only [kept_of, bind_ok, List.append_nil]
      | .ready none => simp only [kept_of, bind_ok, List.append_nil]
      | .ready (some (.error e)) => simp only [kept_of, bind_ok, List.append_nil]
      | .ready (some (.ok pkt)) =>
        dsimp only
        rw [received_kept]

theorem initStep_kept (on : Callsite → Bool) (i : Init) (op : InitOp) :
    (i.stepS on op).kept = i.stepL on op := by
  match op with
  | .arrive r => rfl
  | .writable r => rfl
  | .tick cx => exact initTick_kept on i cx

/-! ## The bridge -/

theorem commandFor_kept (on : Callsite → Bool) (pre : Bytes) (code : ArmCode) (p : Publish) :
    ∀ l, (commandForS on pre code p l).kept = commandForL on pre code p l := by
  intro l
  induction l with
  | nil =>
    unfold commandForS commandForL
    rw [kept_bind, kept_say, emit_ok]
    simp only [bind_ok, kept_of, List.append_nil]
  | cons a l ih =>
    obtain ⟨id, cfg⟩ := a
    unfold commandForS commandForL
    split
    · exact ih
    · rw [kept_bind, kept_say, emit_ok]
      simp only [bind_ok]
      by_cases hu : utf8Valid p.payload = false
      · rw [if_pos hu, if_pos hu]; rfl
      · rw [if_neg hu, if_neg hu]
        cases haLevel p.payload with
        | none => simp only [kept_bind, kept_say, emit_ok, bind_ok, kept_of, List.append_nil]
        | some lv =>
          dsimp only
          rw [kept_bind, kept_of]
          cases (unwrapR (Limited.tryFrom id) : P (Limited 8)) with
          | error e => rfl
          | ok a => simp only [bind_ok, kept_of, List.append_nil]

theorem bridgeStart_kept (on : Callsite → Bool) (cfg : Cfg) (p : Panel) :
    (Bridge.startS on cfg p).kept = Bridge.startL on cfg p := by
  unfold Bridge.startS Bridge.startL
  rw [kept_bind, kept_say, emit_ok]
  simp only [bind_ok, kept_of]
  cases Bridge.start cfg p with
  | error e => rfl
  | ok b => simp only [bind_ok, List.append_nil]

theorem pollPanel_kept (on : Callsite → Bool) (b : Bridge) (cx : Cx) :
    (b.pollPanelS on cx).kept = b.pollPanelL on cx := by
  unfold Bridge.pollPanelS Bridge.pollPanelL
  rw [kept_bind, panelNext_kept]
  cases b.panel.pollNextL on cx with
  | error e => rfl
  | ok x =>
    obtain ⟨l, r, w, p⟩ := x
    simp only [bind_ok]
    match r with
    | .pending => simp only [kept_of, bind_ok, List.append_nil]
    | .ready none => rfl
    | .ready (some (.error e)) => rfl
    | .ready (some (.ok ev)) =>
      dsimp only
      rw [kept_bind, kept_say]
      cases emit on .panelEvent (oneField "panel_event" ev.debug) with
      | error e => rfl
      | ok l' =>
        simp only [bind_ok, kept_bind, kept_of]
        cases publishEvent p b.cfg ev with
        | error e => rfl
        | ok out => simp only [bind_ok, List.nil_append, List.append_nil]

theorem pollInbox_kept (on : Callsite → Bool) (b : Bridge) :
    (b.pollInboxS on).kept = b.pollInboxL on := by
  unfold Bridge.pollInboxS Bridge.pollInboxL
  cases b.inbox with
  | nil => rfl
  | cons p inbox =>
    dsimp only
    rw [kept_bind, kept_say, emit_ok]
    simp only [bind_ok, kept_bind, commandFor_kept]
    cases commandForL on b.cfg.prefix b.code p b.cfg.elk.areas with
    | error e => rfl
    | ok x =>
      obtain ⟨l, c⟩ := x
      cases c with
      | none => simp only [bind_ok, kept_of, List.append_nil]
      | some c => simp only [bind_ok, kept_of, List.append_nil]

theorem select_kept (on : Callsite → Bool) (b : Bridge) (cx : Cx) (pf : Bool) :
    (b.selectS on cx pf).kept = b.selectL on cx pf := by
  unfold Bridge.selectS Bridge.selectL
  cases pf with
  | true =>
    simp only [if_true]
    rw [kept_bind, pollPanel_kept]
    cases b.pollPanelL on cx with
    | error e => rfl
    | ok x =>
      obtain ⟨l, o, b'⟩ := x
      simp only [bind_ok]
      cases o with
      | some o => simp only [kept_of, bind_ok, List.append_nil]
      | none =>
        dsimp only
        rw [kept_bind, pollInbox_kept]
        cases b'.pollInboxL on with
        | error e => rfl
        | ok x => simp only [bind_ok, kept_of, List.append_nil]
  | false =>
    simp only [Bool.false_eq_true, if_false]
    rw [kept_bind, pollInbox_kept]
    cases b.pollInboxL on with
    | error e => rfl
    | ok x =>
      obtain ⟨l, o, b'⟩ := x
      simp only [bind_ok]
      cases o with
      | some o => simp only [kept_of, bind_ok, List.append_nil]
      | none =>
        dsimp only
        rw [kept_bind, pollPanel_kept]
        cases b'.pollPanelL on cx with
        | error e => rfl
        | ok x => simp only [bind_ok, kept_of, List.append_nil]

theorem bridgeStep_kept (on : Callsite → Bool) (b : Bridge) (op : BOp) :
    (b.stepS on op).kept = b.stepL on op := by
  match op with
  | .arrive r => rfl
  | .writable r => rfl
  | .deliver p => rfl
  | .tick cx pf =>
    show (b.tickS on cx pf).kept = b.tickL on cx pf
    unfold Bridge.tickS Bridge.tickL
    match b.waiting with
    | .select => exact select_kept on b cx pf
    | .ready c =>
      dsimp only
      generalize b.panel.pollReady cx = x
      match x with
      | (.pending, p) => rfl
      | (.ready (.error e), p) => rfl
      | (.ready (.ok ()), p) =>
        dsimp only
        rw [kept_bind, panelSend_kept]
        cases p.startSendL on c with
        | error e => rfl
        | ok x => simp only [bind_ok, kept_of, List.append_nil]
    | .flush => rfl

/-! ## The programs -/

theorem connected_kept (on : Callsite → Bool) (s : Setup) (ph : Phase) :
    (Prog.connectedS on s ph).kept = Prog.connectedL on s ph := by
  match ph with
  | .asking i => rfl
  | .finished (.error e) => rfl
  | .finished (.ok p) =>
    unfold Prog.connectedS Prog.connectedL
    dsimp only
    rw [kept_bind, bridgeStart_kept]
    cases Bridge.startL on s.cfg p with
    | error e => rfl
    | ok x => simp only [bind_ok, kept_of, List.append_nil]

theorem progStep_kept (on : Callsite → Bool) (p : Prog) (op : POp) :
    (p.stepS on op).kept = p.stepL on op := by
  have key : ∀ s (i : Init) q,
      (i.stepS on q >>= fun y => Prog.connectedS on s y.2).kept =
        i.stepL on q >>= fun y => Prog.connectedL on s y.2.2 >>= fun z => .ok (y.1 ++ z.1, z.2) := by
    intro s i q
    rw [kept_bind, initStep_kept]
    simp only [connected_kept]
  match p, op with
  | .dialing _, .dialed (.error _) => rfl
  | .dialing s, .dialed (.ok ()) =>
    show (Init.startS on {} >>= fun y => Prog.connectedS on s y).kept = _
    rw [kept_bind, start_kept]
    simp only [connected_kept]
    rfl
  | .dialing s, .op _ => rfl
  | .connecting s i, .dialed _ => rfl
  | .connecting s i, .op (.arrive r) => exact key s i (.arrive r)
  | .connecting s i, .op (.writable w) => exact key s i (.writable w)
  | .connecting s i, .op (.tick cx _) => exact key s i (.tick cx)
  | .connecting s i, .op (.deliver _) => rfl
  | .running s b, .dialed _ => rfl
  | .running s b, .op op =>
    show (b.stepS on op >>= fun x => _).kept = _
    rw [kept_bind, bridgeStep_kept]
    show _ = b.stepL on op >>= fun x => _
    cases b.stepL on op with
    | error e => rfl
    | ok x => simp only [bind_ok, kept_of, List.append_nil]

theorem watchLines_kept (on : Callsite → Bool) (p : Panel) (ev : Event) :
    (Cli.linesS on p ev).kept = Cli.linesL on p ev >>= fun l => .ok (l, ()) := by
  have line : ∀ prior cur names i, (Cli.areaLineS on prior cur names i).kept =
      Cli.areaLineL on prior cur names i >>= fun l => .ok (l, ()) := by
    intro prior cur names i
    unfold Cli.areaLineS Cli.areaLineL
    rw [kept_bind, kept_of]
    cases prior.areaStates i with
    | error e => rfl
    | ok a =>
      simp only [bind_ok, kept_bind, kept_of]
      cases cur.areaStates i with
      | error e => rfl
      | ok b =>
        simp only [bind_ok]
        split
        · rw [kept_say]
          cases emit on .areaLine _ with
          | error e => rfl
          | ok l => rfl
        · rfl
  have lines : ∀ prior cur names is, (Cli.areaLinesS on prior cur names is).kept =
      Cli.areaLinesL on prior cur names is >>= fun l => .ok (l, ()) := by
    intro prior cur names is
    induction is with
    | nil => rfl
    | cons i is ih =>
      unfold Cli.areaLinesS Cli.areaLinesL
      rw [kept_bind, line]
      cases Cli.areaLineL on prior cur names i with
      | error e => rfl
      | ok x =>
        simp only [bind_ok, ih]
        cases Cli.areaLinesL on prior cur names is with
        | error e => rfl
        | ok y => rfl
  unfold Cli.linesS Cli.linesL
  match ev.change with
  | none => rfl
  | some (.zoneChange z prior) => exact kept_say ..
  | some (.armingStatus prior) =>
    dsimp only
    rw [kept_bind, kept_of]
    cases p.armingStatus with
    | error e => rfl
    | ok cur =>
      simp only [bind_ok, lines]
      cases Cli.areaLinesL on prior cur p.areaNames (List.range 8) with
      | error e => rfl
      | ok y => rfl

theorem watchStep_kept (on : Callsite → Bool) (p : Panel) (op : InitOp) :
    (Cli.watchStepS on p op).kept = Cli.watchStepL on p op := by
  match op with
  | .arrive r => rfl
  | .writable r => rfl
  | .tick cx =>
    show (Cli.watchTickS on p cx).kept = Cli.watchTickL on p cx
    unfold Cli.watchTickS Cli.watchTickL
    rw [kept_bind, panelNext_kept]
    cases p.pollNextL on cx with
    | error e => rfl
    | ok x =>
      obtain ⟨l, r, w, p'⟩ := x
      simp only [bind_ok]
      match r with
      | .pending => simp only [kept_of, bind_ok, List.append_nil]
      | .ready none => simp only [kept_of, bind_ok, List.append_nil]
      | .ready (some (.error e)) => rfl
      | .ready (some (.ok ev)) =>
        dsimp only
        rw [kept_bind, kept_say]
        cases emit on .polled (oneField "pkt" ev.debug) with
        | error e => rfl
        | ok l' =>
          simp only [bind_ok, kept_bind, watchLines_kept]
          cases Cli.linesL on p' ev with
          | error e => rfl
          | ok l'' => simp only [bind_ok, kept_of, List.append_nil, List.append_assoc]

theorem watcherConnected_kept (on : Callsite → Bool) (ph : Phase) :
    (Watcher.connectedS on ph).kept = Watcher.connectedL on ph := by
  match ph with
  | .asking i => rfl
  | .finished (.error e) => rfl
  | .finished (.ok p) =>
    unfold Watcher.connectedS Watcher.connectedL
    dsimp only
    rw [kept_bind, kept_say, emit_ok]
    simp only [bind_ok, kept_of, List.append_nil]

theorem watcherStep_kept (on : Callsite → Bool) (w : Watcher) (op : WatcherOp) :
    (w.stepS on op).kept = w.stepL on op := by
  match w, op with
  | .dialing, .dialed (.error _) => rfl
  | .dialing, .dialed (.ok ()) =>
    show (Init.startS on {} >>= fun y => Watcher.connectedS on y).kept = _
    rw [kept_bind, start_kept]
    simp only [watcherConnected_kept]
    rfl
  | .dialing, .op _ => rfl
  | .connecting i, .dialed _ => rfl
  | .connecting i, .op op =>
    show (i.stepS on op >>= fun y => Watcher.connectedS on y.2).kept = _
    rw [kept_bind, initStep_kept]
    simp only [watcherConnected_kept]
    rfl
  | .watching w, .dialed _ => cases w <;> rfl
  | .watching (.done p), .op _ => rfl
  | .watching (.watching p), .op op =>
    show (Cli.watchStepS on p op >>= fun x => _).kept = _
    rw [kept_bind, watchStep_kept]
    show _ = Cli.watchStepL on p op >>= fun x => _
    cases Cli.watchStepL on p op with
    | error e => rfl
    | ok x => simp only [bind_ok, kept_of, List.append_nil]

theorem progRun_kept (on : Callsite → Bool) : ∀ (ops : List POp) (p : Prog),
    (Prog.runS on ops p).kept = Prog.runL on ops p >>= fun y => .ok (y.1.flatten, y.2) := by
  intro ops
  induction ops with
  | nil => intro p; rfl
  | cons op ops ih =>
    intro p
    unfold Prog.runS Prog.runL
    rw [kept_bind, progStep_kept]
    cases p.stepL on op with
    | error e => rfl
    | ok x =>
      obtain ⟨l, out, p'⟩ := x
      simp only [bind_ok, kept_bind, ih]
      cases Prog.runL on ops p' with
      | error e => rfl
      | ok y => simp only [bind_ok, kept_of, List.append_nil, List.flatten_cons]

theorem watcherRun_kept (on : Callsite → Bool) : ∀ (ops : List WatcherOp) (w : Watcher),
    (Watcher.runS on ops w).kept = Watcher.runL on ops w := by
  intro ops
  induction ops with
  | nil => intro w; rfl
  | cons op ops ih =>
    intro w
    unfold Watcher.runS Watcher.runL
    rw [kept_bind, watcherStep_kept]
    cases w.stepL on op with
    | error e => rfl
    | ok x => simp only [bind_ok, ih]

end Elk
