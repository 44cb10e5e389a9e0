import Verif.Model.Json
/-!
# Model of `elkm1-mqtt/src/main.rs` (the MQTT bridge)

`inner` is an `async` function; once the panel is connected and the initial state is published it is
a loop around `select!`.  It is modelled as a machine like `connect`: `Bridge` is what the future
holds while it waits, and `Bridge.tick` is one poll of what it waits for together with the code that
runs on the result.

Simplifications.  The MQTT client (`rumqttc`, not in /repo) is a log of what was published:
`publish(..).await` succeeds at once unless the topic contains a wildcard, which `rumqttc` refuses
(the queue of 10 requests is drained by `run_eventloop`, main.rs:329-342, which runs concurrently).
The broker is the environment: what it delivers on the subscribed topics is appended to the channel
(main.rs:337-339).  A panic, here as everywhere, ends the program, and so does a failing MQTT
connection (main.rs:334), which is not modelled.  `HashMap`s are association lists with distinct
keys: the code iterates over them in an unspecified order, so properties are proved for every order.
Logging is left out.
-/

namespace Elk

/-! ## Configuration -/

/-- main.rs:102-105 `AreaCfg`. -/
structure AreaCfg where
  name : Bytes
  deriving DecidableEq, Repr

/-- main.rs:109-116 `ZoneCfg`. -/
structure ZoneCfg where
  name : Bytes
  binarySensorDeviceClass : Bytes
  deriving DecidableEq, Repr

/-- main.rs:79-98 `ElkCfg`, without the address. -/
structure ElkCfg where
  serialNumber : Bytes
  code : UInt32
  areas : List (UInt8 × AreaCfg)
  zones : List (UInt8 × ZoneCfg)
  deriving DecidableEq, Repr

/-- main.rs:55-75 `MqttCfg`, without what is needed to reach the broker. -/
structure MqttCfg where
  topicPrefix : Option Bytes
  haDiscoveryPrefix : Option Bytes
  deriving DecidableEq, Repr

/-- main.rs:44-47 `Cfg`. -/
structure Cfg where
  elk : ElkCfg
  mqtt : MqttCfg
  deriving DecidableEq, Repr

/-- main.rs:390-397 the prefix of all topics. -/
def Cfg.prefix (c : Cfg) : Bytes :=
  match c.mqtt.topicPrefix with
  | some p => p
  | none => bs "elkm1/" ++ c.elk.serialNumber

/-! ## Topics -/

/-- main.rs:154, 238 the state topic of an area. -/
def areaStateTopic (pre name : Bytes) : Bytes := pre ++ bs "/area/" ++ name ++ bs "/ha_state"
/-- main.rs:239, 292, 430 the command topic of an area. -/
def areaCommandTopic (pre name : Bytes) : Bytes := pre ++ bs "/area/" ++ name ++ bs "/ha_command"
/-- main.rs:180, 260 the state topic of a zone. -/
def zoneStateTopic (pre name : Bytes) : Bytes := pre ++ bs "/zone/" ++ name ++ bs "/ha_state"
/-- main.rs:237, 259, 399, 436 the availability topic. -/
def availabilityTopic (pre : Bytes) : Bytes := pre ++ bs "/availability"
/-- main.rs:450 the event topic. -/
def eventTopic (pre : Bytes) : Bytes := pre ++ bs "/event"
/-- main.rs:240 the unique id of an area. -/
def areaUniqueId (serial : Bytes) (id : UInt8) : Bytes :=
  bs "elk-" ++ serial ++ bs "-area-" ++ decStr id.toNat
/-- main.rs:261 the unique id of a zone. -/
def zoneUniqueId (serial : Bytes) (id : UInt8) : Bytes :=
  bs "elk-" ++ serial ++ bs "-zone-" ++ decStr id.toNat
/-- main.rs:246-249 the discovery topic of an area. -/
def areaDiscoveryTopic (ha uid : Bytes) : Bytes :=
  ha ++ bs "/alarm_control_panel/" ++ uid ++ bs "/config"
/-- main.rs:268-271 the discovery topic of a zone. -/
def zoneDiscoveryTopic (ha uid : Bytes) : Bytes :=
  ha ++ bs "/binary_sensor/" ++ uid ++ bs "/config"

/-! ## Publishing -/

/-- What is published: text, or the text of a JSON value. -/
inductive Payload where
  | text (b : Bytes)
  | json (j : Json)

/-- A message handed to the broker. -/
structure Published where
  topic : Bytes
  retain : Bool
  payload : Payload

/-- rumqttc `valid_topic`: no wildcards. -/
def validTopic (t : Bytes) : Bool := !(t.contains (b' '+') || t.contains (b' '#'))

/-- `mqtt_cli.publish(..).await.unwrap()`: what is added to the log. -/
def publish (topic : Bytes) (retain : Bool) (payload : Payload) : P (List Published) :=
  if validTopic topic then .ok [⟨topic, retain, payload⟩] else .error .expect

/-- `mqtt_cli.subscribe_many(..).await.unwrap()`: the topics subscribed to.  rumqttc refuses an empty
list of filters, and filters with misplaced wildcards, which cannot occur after states have been
published for the same areas. -/
def subscribeMany (topics : List Bytes) : P (List Bytes) :=
  if topics.isEmpty then .error .expect else .ok topics

/-- `for x in l { .. }` where each pass publishes. -/
def publishEach {α : Type} (f : α → P (List Published)) : List α → P (List Published)
  | [] => .ok []
  | a :: l => do
    let x ← f a
    let y ← publishEach f l
    .ok (x ++ y)

/-- `.unwrap()` on a `Result<_, String>`. -/
def unwrapR {α : Type} (x : R α) : P α :=
  match x with
  | .ok a => .ok a
  | .error (.err _) => .error .expect
  | .error (.panic p) => .error p

/-- main.rs:135-141 the mode of an area that is neither in alarm nor in a delay. -/
def haMode : ArmingStatus → Bytes
  | .disarmed => bs "disarmed"
  | .armedStay | .armedStayInstant => bs "armed_home"
  | .armedAway => bs "armed_away"
  | .armedNight | .armedNightInstant => bs "armed_night"
  | .armedVacation => bs "armed_vacation"

/-- main.rs:120-142 `ha_area_state`. -/
def haAreaState (report : ArmingStatusReport) (area : Area) : P Bytes := do
  let i ← area.toIndex
  let armingStatus ← arrGet report.armingStatus i
  let upState ← arrGet report.upState i
  let alarmState ← arrGet report.alarmState i
  if alarmState.isFiring then .ok (bs "triggered")
  else if alarmState = .alarmAbortDelayActive then .ok (bs "pending")
  else if upState = .armedWithExitTimer then .ok (bs "arming")
  else .ok (haMode armingStatus)

/-- main.rs:150-161 the body of the loop of `publish_area_states`. -/
def publishAreaState (panel : Panel) (pre : Bytes) (a : UInt8 × AreaCfg) : P (List Published) := do
  let area ← unwrapR (Limited.tryFrom a.1)
  let report ← panel.armingStatus
  let state ← haAreaState report area
  publish (areaStateTopic pre a.2.name) true (.text state)

/-- main.rs:144-162 `publish_area_states`. -/
def publishAreaStates (panel : Panel) (pre : Bytes) (areas : List (UInt8 × AreaCfg)) :
    P (List Published) := publishEach (publishAreaState panel pre) areas

/-- main.rs:172-177 the state of a zone for Home Assistant. -/
def haZoneState : ZoneLogicalStatus → Bytes
  | .normal => bs "off"
  | .trouble => bs "offline"
  | .violated => bs "on"
  | .bypassed => bs "on"

/-- main.rs:164-187 `publish_zone_state`. -/
def publishZoneState (panel : Panel) (pre : Bytes) (zone : Zone) (cfg : ZoneCfg) :
    P (List Published) := do
  let statuses ← panel.zoneStatuses
  let i ← zone.toIndex
  let status ← arrGet statuses.zones i
  let logical ← status.logical
  publish (zoneStateTopic pre cfg.name) true (.text (haZoneState logical))

/-- main.rs:212-221, 229-234 `HaDeviceConfig`, as JSON. -/
def deviceConfig (serial : Bytes) : Json :=
  .obj [(bs "manufacturer", .str (bs "Elk Products")), (bs "model", .str (bs "M1")),
    (bs "identifiers", .arr [.str serial])]

/-- main.rs:191-199, 236-243 `HaAlarmPanelConfig`, as JSON. -/
def alarmPanelConfig (pre serial : Bytes) (id : UInt8) (cfg : AreaCfg) : Json :=
  .obj [(bs "availability_topic", .str (availabilityTopic pre)),
    (bs "state_topic", .str (areaStateTopic pre cfg.name)),
    (bs "command_topic", .str (areaCommandTopic pre cfg.name)),
    (bs "unique_id", .str (areaUniqueId serial id)), (bs "name", .str cfg.name),
    (bs "device", deviceConfig serial)]

/-- main.rs:202-210, 258-265 `HaBinarySensorConfig`, as JSON. -/
def binarySensorConfig (pre serial : Bytes) (id : UInt8) (cfg : ZoneCfg) : Json :=
  .obj [(bs "availability_topic", .str (availabilityTopic pre)),
    (bs "state_topic", .str (zoneStateTopic pre cfg.name)),
    (bs "unique_id", .str (zoneUniqueId serial id)), (bs "name", .str cfg.name),
    (bs "device", deviceConfig serial),
    (bs "device_class", .str cfg.binarySensorDeviceClass)]

/-- main.rs:223-279 `publish_ha_discovery`. -/
def publishHaDiscovery (pre ha : Bytes) (elk : ElkCfg) : P (List Published) := do
  let areas ← publishEach (fun a =>
    publish (areaDiscoveryTopic ha (areaUniqueId elk.serialNumber a.1)) true
      (.json (alarmPanelConfig pre elk.serialNumber a.1 a.2))) elk.areas
  let zones ← publishEach (fun z =>
    publish (zoneDiscoveryTopic ha (zoneUniqueId elk.serialNumber z.1)) true
      (.json (binarySensorConfig pre elk.serialNumber z.1 z.2))) elk.zones
  .ok (areas ++ zones)

/-! ## Commands from MQTT -/

/-- A message received from the broker. -/
structure Publish where
  topic : Bytes
  payload : Bytes
  deriving DecidableEq, Repr

/-- main.rs:303-311 the level asked for. -/
def haLevel (payload : Bytes) : Option ArmLevel :=
  if payload = bs "DISARM" then some .disarm
  else if payload = bs "ARM_AWAY" then some .armedAway
  else if payload = bs "ARM_HOME" then some .armedStay
  else none

/-- main.rs:291-326 `handle_publish`, up to the `send`: the command to send, if any. -/
def commandFor (pre : Bytes) (code : ArmCode) (p : Publish) :
    List (UInt8 × AreaCfg) → P (Option Command)
  | [] => .ok none
  | (id, cfg) :: areas =>
    if p.topic ≠ areaCommandTopic pre cfg.name then commandFor pre code p areas
    else if utf8Valid p.payload = false then .error .expect
    else
      match haLevel p.payload with
      | none => .ok none
      | some level => do
        let area ← unwrapR (Limited.tryFrom id)
        .ok (some (.arm { area, level, code }))

/-! ## The program -/

/-- What the future of `inner` waits for once it is in its loop. -/
inductive Waiting where
  /-- main.rs:445 `select!` -/
  | select
  /-- main.rs:315-321 `panel.send(..)`, before the command was handed over -/
  | ready (cmd : Command)
  /-- main.rs:315-321 `panel.send(..)`, afterwards -/
  | flush
  deriving DecidableEq

/-- The future of `inner` in its loop.  `inbox` is the channel of received messages, `log` what has
been published so far, `subscribed` the topics subscribed to. -/
structure Bridge where
  cfg : Cfg
  code : ArmCode
  panel : Panel
  inbox : List Publish
  log : List Published
  subscribed : List Bytes
  waiting : Waiting

/-- main.rs:425-428 the initial states of the zones. -/
def publishZoneStates (panel : Panel) (pre : Bytes) (zones : List (UInt8 × ZoneCfg)) :
    P (List Published) :=
  publishEach (fun z => do
    let zone ← unwrapR (Limited.tryFrom z.1)
    publishZoneState panel pre zone z.2) zones

/-- main.rs:421-423 discovery, if configured. -/
def publishDiscovery (cfg : Cfg) : P (List Published) :=
  match cfg.mqtt.haDiscoveryPrefix with
  | some ha => publishHaDiscovery cfg.prefix ha cfg.elk
  | none => .ok []

/-- main.rs:420-443 `inner` from the connected panel up to its loop. -/
def Bridge.start (cfg : Cfg) (panel : Panel) : P Bridge := do
  let code ← unwrapR (ArmCode.tryFromNum cfg.elk.code)
  let discovery ← publishDiscovery cfg
  let areas ← publishAreaStates panel cfg.prefix cfg.elk.areas
  let zones ← publishZoneStates panel cfg.prefix cfg.elk.zones
  let subscribed ← subscribeMany (cfg.elk.areas.map fun a => areaCommandTopic cfg.prefix a.2.name)
  let online ← publish (availabilityTopic cfg.prefix) true (.text (bs "online"))
  .ok { cfg, code, panel, inbox := [], log := discovery ++ areas ++ zones ++ online, subscribed,
        waiting := .select }

/-- main.rs:455-467 what is published for the change of an event. -/
def publishChange (panel : Panel) (cfg : Cfg) : Option Change → P (List Published)
  | some (.armingStatus _) => publishAreaStates panel cfg.prefix cfg.elk.areas
  | some (.zoneChange zone _) =>
    match cfg.elk.zones.lookup zone.val with
    | none => .ok []
    | some z => publishZoneState panel cfg.prefix zone z
  | none => .ok []

/-- main.rs:449-467 the handling of an event: what is published. -/
def publishEvent (panel : Panel) (cfg : Cfg) (ev : Event) : P (List Published) := do
  let json ← ev.serialize
  let event ← publish (eventTopic cfg.prefix) false (.json json)
  let change ← publishChange panel cfg ev.change
  .ok (event ++ change)

/-- What is observed of one step of the bridge. -/
inductive BObs where
  /-- an environment operation, and the tasks it woke -/
  | env (woken : List Waker)
  | pending
  /-- an event was handled; what was published for it and the tasks woken -/
  | event (ev : Event) (out : List Published) (woken : List Waker)
  /-- a message from the broker was taken up: the command it asks for, if any -/
  | taken (p : Publish) (cmd : Option Command)
  /-- a command was handed to the panel -/
  | accepted (cmd : Command)
  /-- the panel has flushed the command -/
  | sent

/-- main.rs:446-468 the panel's branch of `select!`; `none` is `Pending`. -/
def Bridge.pollPanel (b : Bridge) (cx : Cx) : P (Option BObs × Bridge) := do
  let (r, woken, panel) ← b.panel.pollNext cx
  match r with
  | .pending => .ok (none, { b with panel })
  | .ready none => .error .expect
  | .ready (some (.error _)) => .error .expect
  | .ready (some (.ok ev)) => do
    let out ← publishEvent panel b.cfg ev
    .ok (some (.event ev out woken), { b with panel, log := b.log ++ out })

/-- main.rs:469-472 the channel's branch of `select!`; `none` is `Pending`. -/
def Bridge.pollInbox (b : Bridge) : P (Option BObs × Bridge) :=
  match b.inbox with
  | [] => .ok (none, b)
  | p :: inbox => do
    let cmd ← commandFor b.cfg.prefix b.code p b.cfg.elk.areas
    match cmd with
    | none => .ok (some (.taken p none), { b with inbox })
    | some c => .ok (some (.taken p (some c)), { b with inbox, waiting := .ready c })

/-- main.rs:445-473 `select!`, polling its branches in the given order (`select!` chooses at
random). -/
def Bridge.select (b : Bridge) (cx : Cx) (panelFirst : Bool) : P (BObs × Bridge) :=
  if panelFirst then do
    let (o, b) ← b.pollPanel cx
    match o with
    | some o => .ok (o, b)
    | none => do
      let (o, b) ← b.pollInbox
      .ok (o.getD .pending, b)
  else do
    let (o, b) ← b.pollInbox
    match o with
    | some o => .ok (o, b)
    | none => do
      let (o, b) ← b.pollPanel cx
      .ok (o.getD .pending, b)

/-- One poll of what `inner` waits for; for the `send`, `SinkExt::send` (futures 0.3, not in
/repo): `poll_ready`, `start_send`, then `poll_flush`. -/
def Bridge.tick (b : Bridge) (cx : Cx) (panelFirst : Bool) : P (BObs × Bridge) :=
  match b.waiting with
  | .select => b.select cx panelFirst
  | .ready cmd =>
    match b.panel.pollReady cx with
    | (.pending, panel) => .ok (.pending, { b with panel })
    | (.ready (.error _), _) => .error .expect
    | (.ready (.ok ()), panel) => do
      let panel ← panel.startSend cmd
      .ok (.accepted cmd, { b with panel, waiting := .flush })
  | .flush =>
    match b.panel.pollFlush cx with
    | (.pending, panel) => .ok (.pending, { b with panel })
    | (.ready (.error _), _) => .error .expect
    | (.ready (.ok ()), panel) => .ok (.sent, { b with panel, waiting := .select })

/-! ## Histories -/

/-- What can happen to the bridge: the environment answers a read or a write, the broker delivers a
message, or the future is polled. -/
inductive BOp where
  | arrive (r : ReadItem)
  | writable (w : WriteItem)
  | deliver (p : Publish)
  | tick (cx : Cx) (panelFirst : Bool)
  deriving DecidableEq

/-- One operation.  (Not a definition of /repo: the ways the bridge runs.) -/
def Bridge.step (b : Bridge) : BOp → P (BObs × Bridge)
  | .arrive r =>
    let (w, conn) := b.panel.conn.arrive r
    .ok (.env w, { b with panel := { b.panel with conn } })
  | .writable r =>
    let (w, conn) := b.panel.conn.writable r
    .ok (.env w, { b with panel := { b.panel with conn } })
  | .deliver p => .ok (.env [], { b with inbox := b.inbox ++ [p] })
  | .tick cx panelFirst => b.tick cx panelFirst

/-- A sequence of operations, with what was observed of each. -/
def Bridge.run : List BOp → Bridge → P (List BObs × Bridge)
  | [], b => .ok ([], b)
  | op :: ops, b => do
    let (o, b) ← b.step op
    let (os, b) ← Bridge.run ops b
    .ok (o :: os, b)

end Elk
