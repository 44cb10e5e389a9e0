import Verif.Model.ProgLog
/-!
# What is logged by the end, whether it is reached well or by a panic

Model/Log.lean and Model/ProgLog.lean give the log of operations that do not panic.  Here the functions
that may log are written once more so that what was logged before a panic is kept (`Said`).  They agree
with the former where there is no panic (`C144_same`).

Simplifications.  A `tracing` call whose field cannot be shown logs nothing.  That the runtime itself
prints the message of a panic is left out.
-/

namespace Elk

/-- A computation: what it has logged when it ends, and its result or its panic. -/
structure Said (α : Type) where
  log : List Record
  result : P α

/-- Nothing is logged. -/
def Said.of {α : Type} (x : P α) : Said α := ⟨[], x⟩

/-- One after the other: after a panic nothing more is logged. -/
def Said.bind {α β : Type} (x : Said α) (f : α → Said β) : Said β :=
  match x.result with
  | .ok a => ⟨x.log ++ (f a).log, (f a).result⟩
  | .error e => ⟨x.log, .error e⟩

instance : Monad Said where
  pure a := .of (.ok a)
  bind := .bind

/-- A `tracing` call: its fields are evaluated only if it is enabled. -/
def say (on : Callsite → Bool) (s : Callsite) (fields : P (List (String × FieldValue))) : Said Unit :=
  if on s then
    match fields with
    | .ok f => ⟨[⟨s, f⟩], .ok ()⟩
    | .error e => ⟨[], .error e⟩
  else ⟨[], .ok ()⟩

/-! ## elkm1/src/tokio.rs -/

/-- tokio.rs:39-48 `<Connection as Stream>::poll_next`. -/
def Connection.pollNextS (on : Callsite → Bool) (c : Connection) (cx : Cx) :
    Said (Poll (Option (Except IoErr Packet)) × Connection) := do
  let (r, c) ← Said.of (c.pollNext cx)
  match r with
  | .ready (some (.ok pkt)) => do
    say on .received (.ok [("pkt", .debug pkt.debug)])
    .of (.ok (.ready (some (.ok pkt)), c))
  | r => .of (.ok (r, c))

/-- tokio.rs:61-67 `<Connection as Sink>::start_send`. -/
def Connection.startSendS (on : Callsite → Bool) (c : Connection) (pkt : Packet) :
    Said Connection := do
  say on .sending (.ok [("pkt", .debug pkt.debug)])
  .of (c.startSend pkt)

/-! ## elkm1/src/state.rs, the panel -/

/-- state.rs:259-301 `Panel::interpret_arming_status`. -/
def Panel.interpretArmingStatusS (on : Callsite → Bool) (p : Panel) (now : Nat)
    (msg : ArmingStatusReport) : Said (Option Change × Panel) :=
  match p.state.armingStatus with
  | none => .of (.ok (none, { p with state := { p.state with armingStatus := some msg } }))
  | some prior =>
    match p.pendingArm with
    | some pa => do
      if prior.isTransitionSuspicious msg then
        say on .alsoSuspicious (.ok [("prior", .debug prior.debug),
          ("pending", .debug pa.report.debug), ("new", .debug msg.debug)])
      else .of (.ok ())
      if prior ≠ msg then
        .of (.ok (some (.armingStatus prior),
          { p with pendingArm := none, state := { p.state with armingStatus := some msg } }))
      else .of (.ok (none, { p with pendingArm := none }))
    | none =>
      if prior.isTransitionSuspicious msg then do
        say on .delaying (.ok [("prior", .debug prior.debug), ("pending", .debug msg.debug)])
        .of (.ok (none, { p with pendingArm := some ⟨now + suspiciousTransitionDelay, msg, none⟩ }))
      else if prior ≠ msg then
        .of (.ok (some (.armingStatus prior),
          { p with pendingArm := none, state := { p.state with armingStatus := some msg } }))
      else .of (.ok (none, { p with pendingArm := none }))

/-- state.rs:217-238 the state update of `Panel::interpret`. -/
def Panel.trackS (on : Callsite → Bool) (p : Panel) (now : Nat) (m : Message) :
    Said (Option Change × Panel) :=
  match m with
  | .armingStatusReport m => p.interpretArmingStatusS on now m
  | m => .of (p.track now m)

/-- state.rs:211-257 `Panel::interpret`. -/
def Panel.interpretS (on : Callsite → Bool) (p : Panel) (now : Nat) (pkt : Packet) :
    Said (Event × List Waker × Panel) :=
  match Message.parse pkt with
  | .error (.panic q) => .of (.error q)
  | .error (.err e) => .of (.ok (⟨some pkt, some (.error e), none, none⟩, [], p))
  | .ok none => .of (.ok (⟨some pkt, none, none, none⟩, [], p))
  | .ok (some m) => do
    let (change, p) ← p.trackS on now m
    let (completes, woken, p) := p.complete m
    .of (.ok (⟨some pkt, some (.ok m), completes, change⟩, woken, p))

/-- state.rs:323-340 `Panel::poll_next`, the timer. -/
def Panel.pollTimerS (on : Callsite → Bool) (p : Panel) (cx : Cx) : Said (Poll PanelItem × Panel) :=
  match p.pendingArm with
  | none => .of (.ok (.pending, p))
  | some pa =>
    if pa.deadline ≤ cx.timer then do
      let prior ← Said.of (expectSome p.state.armingStatus)
      say on .deferred (.ok [("prior", .debug prior.debug), ("pending", .debug pa.report.debug)])
      .of (.ok (.ready (some (.ok ⟨none, none, none, some (.armingStatus prior)⟩)),
        { p with pendingArm := none, state := { p.state with armingStatus := some pa.report } }))
    else .of (.ok (.pending, { p with pendingArm := some { pa with waker := some cx.waker } }))

/-- state.rs:304-346 `<Panel as Stream>::poll_next`. -/
def Panel.pollNextS (on : Callsite → Bool) (p : Panel) (cx : Cx) :
    Said (Poll PanelItem × List Waker × Panel) := do
  let (r, conn) ← p.conn.pollNextS on cx
  let p := { p with conn }
  match r with
  | .ready (some (.error e)) => .of (.ok (.ready (some (.error e)), [], p))
  | .ready none => .of (.ok (.ready none, [], p))
  | .ready (some (.ok pkt)) => do
    let (ev, woken, p) ← p.interpretS on cx.now pkt
    .of (.ok (.ready (some (.ok ev)), woken, p))
  | .pending => do
    let (r, p) ← p.pollTimerS on cx
    .of (.ok (r, [], p))

/-- state.rs:378-390 `<Panel as Sink>::start_send`. -/
def Panel.startSendS (on : Callsite → Bool) (p : Panel) (item : Command) : Said Panel :=
  match p.cmdState with
  | .busy .. => .of (.error .assertion)
  | .idle => do
    say on .command (oneField "msg" item.intoMsg.debug)
    let pkt ← Said.of item.intoMsg.toPkt
    let conn ← p.conn.startSendS on pkt
    .of (.ok { p with conn, cmdState := .busy item.intoMsg false none })

/-! ## elkm1/src/state.rs, initialisation -/

/-- state.rs:162 the beginning of `init_req`: the question that was started, if any.  (In /repo the
call comes before the packet is made, which does not fail for these questions.) -/
def Phase.startedS (on : Callsite → Bool) : Phase → Said Unit
  | .asking i => say on .asking (oneField "msg" i.send.debug)
  | .finished _ => .of (.ok ())

/-- state.rs:135-142 the beginning of `with_connection`. -/
def Init.startS (on : Callsite → Bool) (conn : Connection) : Said Phase := do
  let ph ← Said.of (Init.start conn)
  ph.startedS on
  .of (.ok ph)

/-- state.rs:165-172 the body of the loop of `init_req`. -/
def Init.receivedS (on : Callsite → Bool) (i : Init) (p : Panel) (now : Nat) (pkt : Packet) :
    Said (Obs × Phase) := do
  let (ev, _, p) ← p.interpretS on now pkt
  match ev.msg with
  | some (.ok r) =>
    if r.isResponseTo i.send then do
      say on .reply (oneField "msg" ev.debug)
      let ph ← Said.of (Init.replied p i.stage ev.msg)
      ph.startedS on
      .of (.ok (.got ev, ph))
    else do
      say on .unrelated (oneField "msg" ev.debug)
      .of (.ok (.got ev, .asking { i with panel := p }))
  | _ => .of (.ok (.got ev, .asking { i with panel := p }))

/-- state.rs:161-178 `init_req` (and what follows it): one poll of the connection. -/
def Init.tickS (on : Callsite → Bool) (i : Init) (cx : Cx) : Said (Obs × Phase) :=
  match i.await with
  | .ready pkt =>
    match i.panel.conn.pollReady cx with
    | (.pending, conn) => .of (.ok (.pending, .asking { i with panel := { i.panel with conn } }))
    | (.ready (.error e), _) => .of (.ok (.failed e, .finished (.error e)))
    | (.ready (.ok ()), conn) => do
      let conn ← conn.startSendS on pkt
      .of (.ok (.asked i.send,
        .asking { i with panel := { i.panel with conn }, await := .flush }))
  | .flush => .of (i.tick cx)
  | .reply => do
    let (r, conn) ← i.panel.conn.pollNextS on cx
    match r with
    | .pending => .of (.ok (.pending, .asking { i with panel := { i.panel with conn } }))
    | .ready none => .of (.ok (.failed .unexpectedEof, .finished (.error .unexpectedEof)))
    | .ready (some (.error e)) => .of (.ok (.failed e, .finished (.error e)))
    | .ready (some (.ok pkt)) => i.receivedS on { i.panel with conn } cx.now pkt

/-- One operation.  (Not a definition of /repo: the ways `connect` is used.) -/
def Init.stepS (on : Callsite → Bool) (i : Init) : InitOp → Said (Obs × Phase)
  | .tick cx => i.tickS on cx
  | op => .of (i.step op)

/-! ## elkm1-mqtt/src/main.rs -/

/-- main.rs:291-326 `handle_publish`, up to the `send` and after its first line. -/
def commandForS (on : Callsite → Bool) (pre : Bytes) (code : ArmCode) (p : Publish) :
    List (UInt8 × AreaCfg) → Said (Option Command)
  | [] => do
    say on .unknownTopic (.ok [("publish.topic", .text p.topic)])
    .of (.ok none)
  | (id, cfg) :: areas =>
    if p.topic ≠ areaCommandTopic pre cfg.name then commandForS on pre code p areas
    else do
      say on .matched (.ok [("area.name", .text cfg.name), ("publish.topic", .text p.topic)])
      if utf8Valid p.payload = false then .of (.error .expect)
      else
        match haLevel p.payload with
        | none => do
          say on .unknownLevel (.ok [("ha_level", .text p.payload)])
          .of (.ok none)
        | some level => do
          let area ← Said.of (unwrapR (Limited.tryFrom id))
          .of (.ok (some (.arm { area, level, code })))

/-- main.rs:419-443 `inner` from the connected panel up to its loop. -/
def Bridge.startS (on : Callsite → Bool) (cfg : Cfg) (panel : Panel) : Said Bridge := do
  say on .initialized (.ok [])
  .of (Bridge.start cfg panel)

/-- main.rs:446-468 the panel's branch of `select!`. -/
def Bridge.pollPanelS (on : Callsite → Bool) (b : Bridge) (cx : Cx) :
    Said (Option BObs × Bridge) := do
  let (r, woken, panel) ← b.panel.pollNextS on cx
  match r with
  | .pending => .of (.ok (none, { b with panel }))
  | .ready none => .of (.error .expect)
  | .ready (some (.error _)) => .of (.error .expect)
  | .ready (some (.ok ev)) => do
    say on .panelEvent (oneField "panel_event" ev.debug)
    let out ← Said.of (publishEvent panel b.cfg ev)
    .of (.ok (some (.event ev out woken), { b with panel, log := b.log ++ out }))

/-- main.rs:288, 469-472 the channel's branch of `select!`. -/
def Bridge.pollInboxS (on : Callsite → Bool) (b : Bridge) : Said (Option BObs × Bridge) :=
  match b.inbox with
  | [] => .of (.ok (none, b))
  | p :: inbox => do
    say on .publish (.ok [("publish", .publish p.topic p.payload.length),
      ("payload", .bytes p.payload)])
    let cmd ← commandForS on b.cfg.prefix b.code p b.cfg.elk.areas
    match cmd with
    | none => .of (.ok (some (.taken p none), { b with inbox }))
    | some c => .of (.ok (some (.taken p (some c)), { b with inbox, waiting := .ready c }))

/-- main.rs:445-473 `select!`. -/
def Bridge.selectS (on : Callsite → Bool) (b : Bridge) (cx : Cx) (panelFirst : Bool) :
    Said (BObs × Bridge) :=
  if panelFirst then do
    let (o, b) ← b.pollPanelS on cx
    match o with
    | some o => .of (.ok (o, b))
    | none => do
      let (o, b) ← b.pollInboxS on
      .of (.ok (o.getD .pending, b))
  else do
    let (o, b) ← b.pollInboxS on
    match o with
    | some o => .of (.ok (o, b))
    | none => do
      let (o, b) ← b.pollPanelS on cx
      .of (.ok (o.getD .pending, b))

/-- One poll of what `inner` waits for. -/
def Bridge.tickS (on : Callsite → Bool) (b : Bridge) (cx : Cx) (panelFirst : Bool) :
    Said (BObs × Bridge) :=
  match b.waiting with
  | .select => b.selectS on cx panelFirst
  | .ready cmd =>
    match b.panel.pollReady cx with
    | (.pending, panel) => .of (.ok (.pending, { b with panel }))
    | (.ready (.error _), _) => .of (.error .expect)
    | (.ready (.ok ()), panel) => do
      let panel ← panel.startSendS on cmd
      .of (.ok (.accepted cmd, { b with panel, waiting := .flush }))
  | .flush => .of (b.tick cx panelFirst)

/-- One operation.  (Not a definition of /repo: the ways the bridge runs.) -/
def Bridge.stepS (on : Callsite → Bool) (b : Bridge) : BOp → Said (BObs × Bridge)
  | .tick cx panelFirst => b.tickS on cx panelFirst
  | op => .of (b.step op)

/-- main.rs:418-443 what follows a step of `connect`. -/
def Prog.connectedS (on : Callsite → Bool) (s : Setup) : Phase → Said (List Published × Prog)
  | .asking i => .of (.ok ([], .connecting s i))
  | .finished (.error _) => .of (.error .expect)
  | .finished (.ok panel) => do
    let b ← Bridge.startS on s.cfg panel
    .of (.ok (b.log, .running s b))

/-- One operation (`Prog.step`), with what is logged. -/
def Prog.stepS (on : Callsite → Bool) : Prog → POp → Said (List Published × Prog)
  | .dialing _, .dialed (.error _) => .of (.error .expect)
  | .dialing s, .dialed (.ok ()) => do
    let ph ← Init.startS on {}
    Prog.connectedS on s ph
  | .dialing s, .op _ => .of (.ok ([], .dialing s))
  | .connecting s i, .dialed _ => .of (.ok ([], .connecting s i))
  | .connecting s i, .op (.arrive r) => do
    let (_, ph) ← i.stepS on (.arrive r)
    Prog.connectedS on s ph
  | .connecting s i, .op (.writable w) => do
    let (_, ph) ← i.stepS on (.writable w)
    Prog.connectedS on s ph
  | .connecting s i, .op (.tick cx _) => do
    let (_, ph) ← i.stepS on (.tick cx)
    Prog.connectedS on s ph
  | .connecting s i, .op (.deliver _) => .of (.ok ([], .connecting s i))
  | .running s b, .dialed _ => .of (.ok ([], .running s b))
  | .running s b, .op op => do
    let (o, b) ← b.stepS on op
    .of (.ok (o.out, .running s b))

/-- A sequence of operations, with what is logged up to the end or up to the panic. -/
def Prog.runS (on : Callsite → Bool) : List POp → Prog → Said (List (List Published) × Prog)
  | [], p => .of (.ok ([], p))
  | op :: ops, p => do
    let (out, p) ← p.stepS on op
    let (outs, p) ← Prog.runS on ops p
    .of (.ok (out :: outs, p))

/-! ## elkm1-cli/src/main.rs -/

/-- main.rs:38-52 the body of the loop over the areas. -/
def Cli.areaLineS (on : Callsite → Bool) (prior cur : ArmingStatusReport)
    (names : Vector TextDescription 8) (i : Nat) : Said Unit := do
  let a ← Said.of (prior.areaStates i)
  let b ← Said.of (cur.areaStates i)
  if a ≠ b then
    say on .areaLine (do
      let name ← arrGet names i
      let name ← name.asStr
      .ok [("area.name", .text name),
        ("prior.arming_status", .debug (Variants.debug a.armingStatus)),
        ("prior.up_state", .debug (Variants.debug a.upState)),
        ("prior.alarm_state", .debug (Variants.debug a.alarmState)),
        ("new.arming_status", .debug (Variants.debug b.armingStatus)),
        ("new.up_state", .debug (Variants.debug b.upState)),
        ("new.alarm_state", .debug (Variants.debug b.alarmState))])
  else .of (.ok ())

/-- main.rs:37-53 the loop over the areas. -/
def Cli.areaLinesS (on : Callsite → Bool) (prior cur : ArmingStatusReport)
    (names : Vector TextDescription 8) : List Nat → Said Unit
  | [] => .of (.ok ())
  | i :: is => do
    Cli.areaLineS on prior cur names i
    Cli.areaLinesS on prior cur names is

/-- main.rs:25-56 what is logged for an event; `panel` is the panel after it. -/
def Cli.linesS (on : Callsite → Bool) (panel : Panel) (ev : Event) : Said Unit :=
  match ev.change with
  | some (.zoneChange zone prior) =>
    say on .zoneLine (do
      let name ← panel.zoneName zone
      let name ← name.asStr
      let prior ← prior.debugTree
      let statuses ← panel.zoneStatuses
      let i ← zone.toIndex
      let new ← arrGet statuses.zones i
      let new ← new.debugTree
      .ok [("zone.name", .text name), ("prior.state", .debug prior), ("new.state", .debug new)])
  | some (.armingStatus prior) => do
    let cur ← Said.of panel.armingStatus
    Cli.areaLinesS on prior cur panel.areaNames (List.range 8)
  | none => .of (.ok ())

/-- main.rs:22-57 one poll of `panel.next()` and the code that runs on its result. -/
def Cli.watchTickS (on : Callsite → Bool) (p : Panel) (cx : Cx) : Said Watch := do
  let (r, _, p) ← p.pollNextS on cx
  match r with
  | .pending => .of (.ok (.watching p))
  | .ready none => .of (.ok (.done p))
  | .ready (some (.error _)) => .of (.error .expect)
  | .ready (some (.ok ev)) => do
    say on .polled (oneField "pkt" ev.debug)
    Cli.linesS on p ev
    .of (.ok (.watching p))

/-- One operation.  (Not a definition of /repo: the ways `watch` runs.) -/
def Cli.watchStepS (on : Callsite → Bool) (p : Panel) : InitOp → Said Watch
  | .arrive r => .of (.ok (.watching { p with conn := (p.conn.arrive r).2 }))
  | .writable r => .of (.ok (.watching { p with conn := (p.conn.writable r).2 }))
  | .tick cx => Cli.watchTickS on p cx

/-- main.rs:19-20 what follows a step of `connect`. -/
def Watcher.connectedS (on : Callsite → Bool) : Phase → Said Watcher
  | .asking i => .of (.ok (.connecting i))
  | .finished (.error _) => .of (.error .expect)
  | .finished (.ok p) => do
    say on .tracking (.ok [])
    .of (.ok (.watching (.watching p)))

/-- One operation (`Watcher.stepL`). -/
def Watcher.stepS (on : Callsite → Bool) : Watcher → WatcherOp → Said Watcher
  | .dialing, .dialed (.error _) => .of (.error .expect)
  | .dialing, .dialed (.ok ()) => do
    let ph ← Init.startS on {}
    Watcher.connectedS on ph
  | .dialing, .op _ => .of (.ok .dialing)
  | .connecting i, .dialed _ => .of (.ok (.connecting i))
  | .connecting i, .op op => do
    let (_, ph) ← i.stepS on op
    Watcher.connectedS on ph
  | .watching w, .dialed _ => .of (.ok (.watching w))
  | .watching (.done p), .op _ => .of (.ok (.watching (.done p)))
  | .watching (.watching p), .op op => do
    let w ← Cli.watchStepS on p op
    .of (.ok (.watching w))

/-- A sequence of operations, with what is logged up to the end or up to the panic. -/
def Watcher.runS (on : Callsite → Bool) : List WatcherOp → Watcher → Said Watcher
  | [], w => .of (.ok w)
  | op :: ops, w => do
    let w ← w.stepS on op
    Watcher.runS on ops w

end Elk
