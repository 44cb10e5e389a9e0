import Verif.Model.Debug
/-!
# What is logged

The `tracing` calls of the library and of the two programs.  Each function here is a function of the
model with its `tracing` calls put back; besides its result it returns what was logged.  `on` says
which calls are enabled, as `EnvFilter` decides from the environment (elkm1-cli/src/main.rs:83-85,
elkm1-mqtt/src/main.rs:356-358); the fields of a call that is not enabled are not evaluated.

What is logged is modelled as data: the call and its fields, not how `tracing_subscriber` lays them
out.  Left out are what the crates outside /repo log themselves, and the `trace!` of MQTT
notifications (elkm1-mqtt/src/main.rs:335).
-/

namespace Elk

/-- The levels used. -/
inductive LogLevel where
  | trace
  | debug
  | info
  | warn
  deriving DecidableEq

/-- The calls. -/
inductive Callsite where
  /-- tokio.rs:44 -/
  | received
  /-- tokio.rs:65 -/
  | sending
  /-- state.rs:162 -/
  | asking
  /-- state.rs:168 -/
  | reply
  /-- state.rs:171 -/
  | unrelated
  /-- state.rs:275-281 -/
  | alsoSuspicious
  /-- state.rs:284-288 -/
  | delaying
  /-- state.rs:335 -/
  | deferred
  /-- state.rs:382 -/
  | command
  /-- elkm1-mqtt/src/main.rs:288 -/
  | publish
  /-- elkm1-mqtt/src/main.rs:297-301 -/
  | matched
  /-- elkm1-mqtt/src/main.rs:308 -/
  | unknownLevel
  /-- elkm1-mqtt/src/main.rs:326 -/
  | unknownTopic
  /-- elkm1-mqtt/src/main.rs:419 -/
  | initialized
  /-- elkm1-mqtt/src/main.rs:448 -/
  | panelEvent
  /-- elkm1-cli/src/main.rs:20 -/
  | tracking
  /-- elkm1-cli/src/main.rs:24 -/
  | polled
  /-- elkm1-cli/src/main.rs:27-32 -/
  | zoneLine
  /-- elkm1-cli/src/main.rs:42-51 -/
  | areaLine
  deriving DecidableEq

/-- The level of each call, at the lines cited there. -/
def Callsite.level : Callsite → LogLevel
  | .received | .sending => .trace
  | .asking | .reply | .unrelated | .delaying | .command | .polled => .debug
  | .publish | .matched | .initialized | .panelEvent | .tracking | .zoneLine | .areaLine => .info
  | .alsoSuspicious | .deferred | .unknownLevel | .unknownTopic => .warn

/-- The message of each call, at the lines cited there. -/
def Callsite.text : Callsite → String
  | .received => "received packet"
  | .sending => "sending packet"
  | .asking => "sending initialization message"
  | .reply => "received reply"
  | .unrelated => "received unrelated message while awaiting reply"
  | .alsoSuspicious =>
    "next arming report after suspicious transition is also suspicious; applying anyway"
  | .delaying => "delaying arming status transition suspected to be spurious"
  | .deferred => "deferred arming status taking effect"
  | .command => "sending message"
  | .publish => "received mqtt publish"
  | .matched => "matched to known area"
  | .unknownLevel => "ignoring unknown level"
  | .unknownTopic => "ignoring publish to unknown topic"
  | .initialized => "panel initialized"
  | .panelEvent => "panel event"
  | .tracking => "tracking changes"
  | .polled => "received packet"
  | .zoneLine => "zone change"
  | .areaLine => "arming status change"

/-- elkm1-cli/src/main.rs:84, elkm1-mqtt/src/main.rs:357: what is enabled unless the environment says
otherwise. -/
def Callsite.byDefault (s : Callsite) : Bool := s.level = .info ∨ s.level = .warn

/-- The value of a field. -/
inductive FieldValue where
  /-- `?x` of a value of this repository -/
  | debug (d : Dbg)
  /-- `%x` and strings -/
  | text (s : Bytes)
  /-- `?x` of a message of rumqttc, which shows its topic and the length of its payload -/
  | publish (topic : Bytes) (length : Nat)
  /-- `?x` of its payload -/
  | bytes (b : Bytes)

/-- What is logged by a call. -/
structure Record where
  site : Callsite
  fields : List (String × FieldValue)

/-- A `tracing` call: its fields are evaluated only if it is enabled. -/
def emit (on : Callsite → Bool) (s : Callsite) (fields : P (List (String × FieldValue))) :
    P (List Record) :=
  if on s then do
    let fields ← fields
    .ok [⟨s, fields⟩]
  else .ok []

/-- A field `?x`. -/
def oneField (name : String) (d : P Dbg) : P (List (String × FieldValue)) := do
  let d ← d
  .ok [(name, .debug d)]

/-! ## elkm1/src/tokio.rs -/

/-- tokio.rs:39-48 `<Connection as Stream>::poll_next`. -/
def Connection.pollNextL (on : Callsite → Bool) (c : Connection) (cx : Cx) :
    P (List Record × Poll (Option (Except IoErr Packet)) × Connection) := do
  let (r, c) ← c.pollNext cx
  match r with
  | .ready (some (.ok pkt)) => do
    let l ← emit on .received (.ok [("pkt", .debug pkt.debug)])
    .ok (l, .ready (some (.ok pkt)), c)
  | r => .ok ([], r, c)

/-- tokio.rs:61-67 `<Connection as Sink>::start_send`. -/
def Connection.startSendL (on : Callsite → Bool) (c : Connection) (pkt : Packet) :
    P (List Record × Connection) := do
  let l ← emit on .sending (.ok [("pkt", .debug pkt.debug)])
  let c ← c.startSend pkt
  .ok (l, c)

/-! ## elkm1/src/state.rs, the panel -/

/-- state.rs:259-301 `Panel::interpret_arming_status`. -/
def Panel.interpretArmingStatusL (on : Callsite → Bool) (p : Panel) (now : Nat)
    (msg : ArmingStatusReport) : P (List Record × Option Change × Panel) :=
  match p.state.armingStatus with
  | none => .ok ([], none, { p with state := { p.state with armingStatus := some msg } })
  | some prior => do
    match p.pendingArm with
    | some pa => do
      let l ←
        if prior.isTransitionSuspicious msg then
          emit on .alsoSuspicious (.ok [("prior", .debug prior.debug),
            ("pending", .debug pa.report.debug), ("new", .debug msg.debug)])
        else .ok []
      if prior ≠ msg then
        .ok (l, some (.armingStatus prior),
          { p with pendingArm := none, state := { p.state with armingStatus := some msg } })
      else .ok (l, none, { p with pendingArm := none })
    | none =>
      if prior.isTransitionSuspicious msg then do
        let l ← emit on .delaying (.ok [("prior", .debug prior.debug),
          ("pending", .debug msg.debug)])
        .ok (l, none, { p with pendingArm := some ⟨now + suspiciousTransitionDelay, msg, none⟩ })
      else if prior ≠ msg then
        .ok ([], some (.armingStatus prior),
          { p with pendingArm := none, state := { p.state with armingStatus := some msg } })
      else .ok ([], none, { p with pendingArm := none })

/-- state.rs:217-238 the state update of `Panel::interpret`. -/
def Panel.trackL (on : Callsite → Bool) (p : Panel) (now : Nat) (m : Message) :
    P (List Record × Option Change × Panel) :=
  match m with
  | .armingStatusReport m => p.interpretArmingStatusL on now m
  | m => do
    let (change, p) ← p.track now m
    .ok ([], change, p)

/-- state.rs:211-257 `Panel::interpret`. -/
def Panel.interpretL (on : Callsite → Bool) (p : Panel) (now : Nat) (pkt : Packet) :
    P (List Record × Event × List Waker × Panel) :=
  match Message.parse pkt with
  | .error (.panic q) => .error q
  | .error (.err e) => .ok ([], ⟨some pkt, some (.error e), none, none⟩, [], p)
  | .ok none => .ok ([], ⟨some pkt, none, none, none⟩, [], p)
  | .ok (some m) => do
    let (l, change, p) ← p.trackL on now m
    let (completes, woken, p) := p.complete m
    .ok (l, ⟨some pkt, some (.ok m), completes, change⟩, woken, p)

/-- state.rs:323-340 `Panel::poll_next`, the timer. -/
def Panel.pollTimerL (on : Callsite → Bool) (p : Panel) (cx : Cx) :
    P (List Record × Poll PanelItem × Panel) :=
  match p.pendingArm with
  | none => .ok ([], .pending, p)
  | some pa =>
    if pa.deadline ≤ cx.timer then do
      let prior ← expectSome p.state.armingStatus
      let l ← emit on .deferred (.ok [("prior", .debug prior.debug),
        ("pending", .debug pa.report.debug)])
      .ok (l, .ready (some (.ok ⟨none, none, none, some (.armingStatus prior)⟩)),
        { p with pendingArm := none, state := { p.state with armingStatus := some pa.report } })
    else .ok ([], .pending, { p with pendingArm := some { pa with waker := some cx.waker } })

/-- state.rs:304-346 `<Panel as Stream>::poll_next`. -/
def Panel.pollNextL (on : Callsite → Bool) (p : Panel) (cx : Cx) :
    P (List Record × Poll PanelItem × List Waker × Panel) := do
  let (l, r, conn) ← p.conn.pollNextL on cx
  let p := { p with conn }
  match r with
  | .ready (some (.error e)) => .ok (l, .ready (some (.error e)), [], p)
  | .ready none => .ok (l, .ready none, [], p)
  | .ready (some (.ok pkt)) => do
    let (l', ev, woken, p) ← p.interpretL on cx.now pkt
    .ok (l ++ l', .ready (some (.ok ev)), woken, p)
  | .pending => do
    let (l', r, p) ← p.pollTimerL on cx
    .ok (l ++ l', r, [], p)

/-- state.rs:378-390 `<Panel as Sink>::start_send`. -/
def Panel.startSendL (on : Callsite → Bool) (p : Panel) (item : Command) :
    P (List Record × Panel) :=
  match p.cmdState with
  | .busy .. => .error .assertion
  | .idle => do
    let l ← emit on .command (oneField "msg" item.intoMsg.debug)
    let pkt ← item.intoMsg.toPkt
    let (l', conn) ← p.conn.startSendL on pkt
    .ok (l ++ l', { p with conn, cmdState := .busy item.intoMsg false none })

/-- One operation.  (Not a definition of /repo: the ways a panel is used.) -/
def Panel.stepL (on : Callsite → Bool) (p : Panel) : Op → P (List Record × Out × Panel)
  | .pollNext cx => do
    let (l, r, w, p) ← p.pollNextL on cx
    .ok (l, .next r w, p)
  | .startSend c => do
    let (l, p) ← p.startSendL on c
    .ok (l, .accepted, p)
  | op => do
    let (o, p) ← p.step op
    .ok ([], o, p)

/-- A sequence of operations, with what was logged. -/
def Panel.runL (on : Callsite → Bool) : List Op → Panel → P (List Record × List Out × Panel)
  | [], p => .ok ([], [], p)
  | op :: ops, p => do
    let (l, o, p) ← p.stepL on op
    let (l', os, p) ← Panel.runL on ops p
    .ok (l ++ l', o :: os, p)

/-! ## elkm1/src/state.rs, initialisation -/

/-- state.rs:162 the beginning of `init_req`: the question that was started, if any.  (In /repo the
call comes before the packet is made, which does not fail for these questions.) -/
def Phase.startedL (on : Callsite → Bool) : Phase → P (List Record)
  | .asking i => emit on .asking (oneField "msg" i.send.debug)
  | .finished _ => .ok []

/-- state.rs:135-142 the beginning of `with_connection`. -/
def Init.startL (on : Callsite → Bool) (conn : Connection) : P (List Record × Phase) := do
  let ph ← Init.start conn
  let l ← ph.startedL on
  .ok (l, ph)

/-- state.rs:165-172 the body of the loop of `init_req`. -/
def Init.receivedL (on : Callsite → Bool) (i : Init) (p : Panel) (now : Nat) (pkt : Packet) :
    P (List Record × Obs × Phase) := do
  let (l, ev, _, p) ← p.interpretL on now pkt
  match ev.msg with
  | some (.ok r) =>
    if r.isResponseTo i.send then do
      let l' ← emit on .reply (oneField "msg" ev.debug)
      let ph ← Init.replied p i.stage ev.msg
      let l'' ← ph.startedL on
      .ok (l ++ l' ++ l'', .got ev, ph)
    else do
      let l' ← emit on .unrelated (oneField "msg" ev.debug)
      .ok (l ++ l', .got ev, .asking { i with panel := p })
  | _ => .ok (l, .got ev, .asking { i with panel := p })

/-- state.rs:161-178 `init_req` (and what follows it): one poll of the connection. -/
def Init.tickL (on : Callsite → Bool) (i : Init) (cx : Cx) : P (List Record × Obs × Phase) :=
  match i.await with
  | .ready pkt =>
    match i.panel.conn.pollReady cx with
    | (.pending, conn) => .ok ([], .pending, .asking { i with panel := { i.panel with conn } })
    | (.ready (.error e), _) => .ok ([], .failed e, .finished (.error e))
    | (.ready (.ok ()), conn) => do
      let (l, conn) ← conn.startSendL on pkt
      .ok (l, .asked i.send, .asking { i with panel := { i.panel with conn }, await := .flush })
  | .flush => do
    let (o, ph) ← i.tick cx
    .ok ([], o, ph)
  | .reply => do
    let (l, r, conn) ← i.panel.conn.pollNextL on cx
    match r with
    | .pending => .ok (l, .pending, .asking { i with panel := { i.panel with conn } })
    | .ready none => .ok (l, .failed .unexpectedEof, .finished (.error .unexpectedEof))
    | .ready (some (.error e)) => .ok (l, .failed e, .finished (.error e))
    | .ready (some (.ok pkt)) => do
      let (l', o, ph) ← i.receivedL on { i.panel with conn } cx.now pkt
      .ok (l ++ l', o, ph)

/-- One operation.  (Not a definition of /repo: the ways `connect` is used.) -/
def Init.stepL (on : Callsite → Bool) (i : Init) : InitOp → P (List Record × Obs × Phase)
  | .tick cx => i.tickL on cx
  | op => do
    let (o, ph) ← i.step op
    .ok ([], o, ph)

/-- A sequence of operations, with what was logged. -/
def Phase.runL (on : Callsite → Bool) : List InitOp → Phase → P (List Record × List Obs × Phase)
  | [], ph => .ok ([], [], ph)
  | _ :: _, .finished r => .ok ([], [], .finished r)
  | op :: ops, .asking i => do
    let (l, o, ph) ← i.stepL on op
    let (l', os, ph) ← Phase.runL on ops ph
    .ok (l ++ l', o :: os, ph)

/-- state.rs:107-110, 135-156: `connect` on a fresh connection, through a history. -/
def Init.connectL (on : Callsite → Bool) (conn : Connection) (ops : List InitOp) :
    P (List Record × List Obs × Phase) := do
  let (l, ph) ← Init.startL on conn
  let (l', os, ph) ← ph.runL on ops
  .ok (l ++ l', os, ph)

/-! ## elkm1-mqtt/src/main.rs -/

/-- main.rs:291-326 `handle_publish`, up to the `send` and after its first line. -/
def commandForL (on : Callsite → Bool) (pre : Bytes) (code : ArmCode) (p : Publish) :
    List (UInt8 × AreaCfg) → P (List Record × Option Command)
  | [] => do
    let l ← emit on .unknownTopic (.ok [("publish.topic", .text p.topic)])
    .ok (l, none)
  | (id, cfg) :: areas =>
    if p.topic ≠ areaCommandTopic pre cfg.name then commandForL on pre code p areas
    else do
      let l ← emit on .matched (.ok [("area.name", .text cfg.name), ("publish.topic", .text p.topic)])
      if utf8Valid p.payload = false then .error .expect
      else
        match haLevel p.payload with
        | none => do
          let l' ← emit on .unknownLevel (.ok [("ha_level", .text p.payload)])
          .ok (l ++ l', none)
        | some level => do
          let area ← unwrapR (Limited.tryFrom id)
          .ok (l, some (.arm { area, level, code }))

/-- main.rs:419-443 `inner` from the connected panel up to its loop. -/
def Bridge.startL (on : Callsite → Bool) (cfg : Cfg) (panel : Panel) : P (List Record × Bridge) := do
  let l ← emit on .initialized (.ok [])
  let b ← Bridge.start cfg panel
  .ok (l, b)

/-- main.rs:446-468 the panel's branch of `select!`. -/
def Bridge.pollPanelL (on : Callsite → Bool) (b : Bridge) (cx : Cx) :
    P (List Record × Option BObs × Bridge) := do
  let (l, r, woken, panel) ← b.panel.pollNextL on cx
  match r with
  | .pending => .ok (l, none, { b with panel })
  | .ready none => .error .expect
  | .ready (some (.error _)) => .error .expect
  | .ready (some (.ok ev)) => do
    let l' ← emit on .panelEvent (oneField "panel_event" ev.debug)
    let out ← publishEvent panel b.cfg ev
    .ok (l ++ l', some (.event ev out woken), { b with panel, log := b.log ++ out })

/-- main.rs:288, 469-472 the channel's branch of `select!`. -/
def Bridge.pollInboxL (on : Callsite → Bool) (b : Bridge) :
    P (List Record × Option BObs × Bridge) :=
  match b.inbox with
  | [] => .ok ([], none, b)
  | p :: inbox => do
    let l ← emit on .publish (.ok [("publish", .publish p.topic p.payload.length),
      ("payload", .bytes p.payload)])
    let (l', cmd) ← commandForL on b.cfg.prefix b.code p b.cfg.elk.areas
    match cmd with
    | none => .ok (l ++ l', some (.taken p none), { b with inbox })
    | some c => .ok (l ++ l', some (.taken p (some c)), { b with inbox, waiting := .ready c })

/-- main.rs:445-473 `select!`. -/
def Bridge.selectL (on : Callsite → Bool) (b : Bridge) (cx : Cx) (panelFirst : Bool) :
    P (List Record × BObs × Bridge) :=
  if panelFirst then do
    let (l, o, b) ← b.pollPanelL on cx
    match o with
    | some o => .ok (l, o, b)
    | none => do
      let (l', o, b) ← b.pollInboxL on
      .ok (l ++ l', o.getD .pending, b)
  else do
    let (l, o, b) ← b.pollInboxL on
    match o with
    | some o => .ok (l, o, b)
    | none => do
      let (l', o, b) ← b.pollPanelL on cx
      .ok (l ++ l', o.getD .pending, b)

/-- One poll of what `inner` waits for. -/
def Bridge.tickL (on : Callsite → Bool) (b : Bridge) (cx : Cx) (panelFirst : Bool) :
    P (List Record × BObs × Bridge) :=
  match b.waiting with
  | .select => b.selectL on cx panelFirst
  | .ready cmd =>
    match b.panel.pollReady cx with
    | (.pending, panel) => .ok ([], .pending, { b with panel })
    | (.ready (.error _), _) => .error .expect
    | (.ready (.ok ()), panel) => do
      let (l, panel) ← panel.startSendL on cmd
      .ok (l, .accepted cmd, { b with panel, waiting := .flush })
  | .flush => do
    let (o, b) ← b.tick cx panelFirst
    .ok ([], o, b)

/-- One operation.  (Not a definition of /repo: the ways the bridge runs.) -/
def Bridge.stepL (on : Callsite → Bool) (b : Bridge) : BOp → P (List Record × BObs × Bridge)
  | .tick cx panelFirst => b.tickL on cx panelFirst
  | op => do
    let (o, b) ← b.step op
    .ok ([], o, b)

/-- A sequence of operations, with what was logged. -/
def Bridge.runL (on : Callsite → Bool) : List BOp → Bridge → P (List Record × List BObs × Bridge)
  | [], b => .ok ([], [], b)
  | op :: ops, b => do
    let (l, o, b) ← b.stepL on op
    let (l', os, b) ← Bridge.runL on ops b
    .ok (l ++ l', o :: os, b)

/-! ## elkm1-cli/src/main.rs -/

/-- main.rs:38-52 the body of the loop over the areas. -/
def Cli.areaLineL (on : Callsite → Bool) (prior cur : ArmingStatusReport)
    (names : Vector TextDescription 8) (i : Nat) : P (List Record) := do
  let a ← prior.areaStates i
  let b ← cur.areaStates i
  if a ≠ b then
    emit on .areaLine (do
      let name ← arrGet names i
      let name ← name.asStr
      .ok [("area.name", .text name),
        ("prior.arming_status", .debug (Variants.debug a.armingStatus)),
        ("prior.up_state", .debug (Variants.debug a.upState)),
        ("prior.alarm_state", .debug (Variants.debug a.alarmState)),
        ("new.arming_status", .debug (Variants.debug b.armingStatus)),
        ("new.up_state", .debug (Variants.debug b.upState)),
        ("new.alarm_state", .debug (Variants.debug b.alarmState))])
  else .ok []

/-- main.rs:37-53 the loop over the areas. -/
def Cli.areaLinesL (on : Callsite → Bool) (prior cur : ArmingStatusReport)
    (names : Vector TextDescription 8) : List Nat → P (List Record)
  | [] => .ok []
  | i :: is => do
    let x ← Cli.areaLineL on prior cur names i
    let y ← Cli.areaLinesL on prior cur names is
    .ok (x ++ y)

/-- main.rs:25-56 what is logged for an event; `panel` is the panel after it. -/
def Cli.linesL (on : Callsite → Bool) (panel : Panel) (ev : Event) : P (List Record) :=
  match ev.change with
  | some (.zoneChange zone prior) =>
    emit on .zoneLine (do
      let name ← panel.zoneName zone
      let name ← name.asStr
      let prior ← prior.debugTree
      let statuses ← panel.zoneStatuses
      let i ← zone.toIndex
      let new ← arrGet statuses.zones i
      let new ← new.debugTree
      .ok [("zone.name", .text name), ("prior.state", .debug prior), ("new.state", .debug new)])
  | some (.armingStatus prior) => do
    let cur ← panel.armingStatus
    Cli.areaLinesL on prior cur panel.areaNames (List.range 8)
  | none => .ok []

/-- main.rs:22-57 one poll of `panel.next()` and the code that runs on its result. -/
def Cli.watchTickL (on : Callsite → Bool) (p : Panel) (cx : Cx) : P (List Record × Watch) := do
  let (l, r, _, p) ← p.pollNextL on cx
  match r with
  | .pending => .ok (l, .watching p)
  | .ready none => .ok (l, .done p)
  | .ready (some (.error _)) => .error .expect
  | .ready (some (.ok ev)) => do
    let l' ← emit on .polled (oneField "pkt" ev.debug)
    let l'' ← Cli.linesL on p ev
    .ok (l ++ l' ++ l'', .watching p)

/-- One operation.  (Not a definition of /repo: the ways `watch` runs.) -/
def Cli.watchStepL (on : Callsite → Bool) (p : Panel) : InitOp → P (List Record × Watch)
  | .arrive r => .ok ([], .watching { p with conn := (p.conn.arrive r).2 })
  | .writable r => .ok ([], .watching { p with conn := (p.conn.writable r).2 })
  | .tick cx => Cli.watchTickL on p cx

/-- A sequence of operations, with what was logged, up to the return of `watch`. -/
def Watch.runL (on : Callsite → Bool) : List InitOp → Watch → P (List Record × Watch)
  | [], w => .ok ([], w)
  | _ :: _, .done p => .ok ([], .done p)
  | op :: ops, .watching p => do
    let (l, w) ← Cli.watchStepL on p op
    let (l', w) ← Watch.runL on ops w
    .ok (l ++ l', w)

/-- main.rs:18-57 the state of `watch`: waiting for the TCP connection or within `Panel::connect`
(main.rs:19), or after it. -/
inductive Watcher where
  | dialing
  | connecting (i : Init)
  | watching (w : Watch)

/-- What can happen to it: the attempt to reach the panel ends, or the environment answers a read or a
write or it is polled. -/
inductive WatcherOp where
  | dialed (r : Except IoErr Unit)
  | op (op : InitOp)

/-- main.rs:19-20 what follows a step of `connect`. -/
def Watcher.connectedL (on : Callsite → Bool) : Phase → P (List Record × Watcher)
  | .asking i => .ok ([], .connecting i)
  | .finished (.error _) => .error .expect
  | .finished (.ok p) => do
    let l ← emit on .tracking (.ok [])
    .ok (l, .watching (.watching p))

/-- One operation, with what was logged.  An operation that does not fit the state changes nothing. -/
def Watcher.stepL (on : Callsite → Bool) : Watcher → WatcherOp → P (List Record × Watcher)
  | .dialing, .dialed (.error _) => .error .expect
  | .dialing, .dialed (.ok ()) => do
    let (l, ph) ← Init.startL on {}
    let (l', w) ← Watcher.connectedL on ph
    .ok (l ++ l', w)
  | .dialing, .op _ => .ok ([], .dialing)
  | .connecting i, .dialed _ => .ok ([], .connecting i)
  | .connecting i, .op op => do
    let (l, _, ph) ← i.stepL on op
    let (l', w) ← Watcher.connectedL on ph
    .ok (l ++ l', w)
  | .watching w, .dialed _ => .ok ([], .watching w)
  | .watching (.done p), .op _ => .ok ([], .watching (.done p))
  | .watching (.watching p), .op op => do
    let (l, w) ← Cli.watchStepL on p op
    .ok (l, .watching w)

/-- A sequence of operations, with what was logged. -/
def Watcher.runL (on : Callsite → Bool) : List WatcherOp → Watcher → P (List Record × Watcher)
  | [], w => .ok ([], w)
  | op :: ops, w => do
    let (l, w) ← w.stepL on op
    let (l', w) ← Watcher.runL on ops w
    .ok (l ++ l', w)

end Elk
