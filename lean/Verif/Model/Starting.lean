import Verif.Model.Mqtt
/-!
# Model of the start of the bridge, request by request

`Bridge.start` (Model/Mqtt.lean) yields all that `inner` publishes before its loop, or a panic.  Here
the requests that are made before a panic are kept, and the queue of the MQTT client between them and
the broker: it holds 10 (main.rs:404), and a request waits while it is full.

`inner` and `run_eventloop` are polled by one task (main.rs:365, 406-409).  A poll of `inner` makes
requests until the queue is full or the start is over: `publish` and `subscribe_many` are ready at once
while there is room.  Requests are taken out of the queue by `run_eventloop`, between polls.  A panic
ends the program, and what is in the queue is lost.

Simplification: rumqttc moves a waiting request into the queue as soon as there is room; here that
happens when `inner` is polled next.
-/

namespace Elk

/-- What the MQTT client is asked for. -/
inductive ClientReq where
  | publish (m : Published)
  | subscribe (topics : List Bytes)

/-- What a function asks the client for, and how it ends. -/
structure Work where
  made : List ClientReq
  ends : P Unit

/-- One thing after another. -/
def Work.andThen (w u : Work) : Work :=
  match w.ends with
  | .error e => ⟨w.made, .error e⟩
  | .ok () => ⟨w.made ++ u.made, u.ends⟩

/-- Something that makes no request. -/
def Work.quietly {α : Type} (x : P α) : Work :=
  match x with
  | .error e => ⟨[], .error e⟩
  | .ok _ => ⟨[], .ok ()⟩

/-- At most one `publish(..).await.unwrap()`. -/
def Work.publishing (x : P (List Published)) : Work :=
  match x with
  | .error e => ⟨[], .error e⟩
  | .ok l => ⟨l.map .publish, .ok ()⟩

/-- `for x in l { .. }` where each pass publishes. -/
def Work.each {α : Type} (f : α → P (List Published)) : List α → Work
  | [] => ⟨[], .ok ()⟩
  | a :: l => (Work.publishing (f a)).andThen (Work.each f l)

/-- main.rs:223-279 `publish_ha_discovery`. -/
def Work.haDiscovery (pre ha : Bytes) (elk : ElkCfg) : Work :=
  (Work.each (fun a =>
    publish (areaDiscoveryTopic ha (areaUniqueId elk.serialNumber a.1)) true
      (.json (alarmPanelConfig pre elk.serialNumber a.1 a.2))) elk.areas).andThen
  (Work.each (fun z =>
    publish (zoneDiscoveryTopic ha (zoneUniqueId elk.serialNumber z.1)) true
      (.json (binarySensorConfig pre elk.serialNumber z.1 z.2))) elk.zones)

/-- main.rs:421-423 discovery, if configured. -/
def Work.discovery (cfg : Cfg) : Work :=
  match cfg.mqtt.haDiscoveryPrefix with
  | some ha => Work.haDiscovery cfg.prefix ha cfg.elk
  | none => ⟨[], .ok ()⟩

/-- main.rs:144-162 `publish_area_states`. -/
def Work.areaStates (panel : Panel) (cfg : Cfg) : Work :=
  Work.each (publishAreaState panel cfg.prefix) cfg.elk.areas

/-- main.rs:425-428 the initial states of the zones. -/
def Work.zoneStates (panel : Panel) (cfg : Cfg) : Work :=
  Work.each (fun z => do
    let zone ← unwrapR (Limited.tryFrom z.1)
    publishZoneState panel cfg.prefix zone z.2) cfg.elk.zones

/-- main.rs:429-433 the subscription. -/
def Work.subscription (cfg : Cfg) : Work :=
  match subscribeMany (cfg.elk.areas.map fun a => areaCommandTopic cfg.prefix a.2.name) with
  | .error e => ⟨[], .error e⟩
  | .ok topics => ⟨[.subscribe topics], .ok ()⟩

/-- main.rs:434-442 the announcement. -/
def Work.online (cfg : Cfg) : Work :=
  Work.publishing (publish (availabilityTopic cfg.prefix) true (.text (bs "online")))

/-- main.rs:420-443 `inner` from the connected panel up to its loop. -/
def Work.start (cfg : Cfg) (panel : Panel) : Work :=
  (Work.quietly (unwrapR (ArmCode.tryFromNum cfg.elk.code))).andThen
  ((Work.discovery cfg).andThen
  ((Work.areaStates panel cfg).andThen
  ((Work.zoneStates panel cfg).andThen
  ((Work.subscription cfg).andThen (Work.online cfg)))))

/-- The start under way: the requests still to be made, how it will end, the queue, what was
transmitted, and whether it is over. -/
structure Startup where
  todo : List ClientReq
  ends : P Unit
  queue : List ClientReq
  sent : List ClientReq
  over : Bool

/-- main.rs:404-409 the start begins with an empty queue. -/
def Startup.begin (w : Work) : Startup := ⟨w.made, w.ends, [], [], false⟩

inductive StartupOp where
  /-- `inner` is polled -/
  | poll
  /-- main.rs:334 `run_eventloop` transmits a request -/
  | transmit

/-- One thing happens. -/
def Startup.step (s : Startup) : StartupOp → Startup
  | .poll =>
    if s.over then s
    else if s.todo.length ≤ 10 - s.queue.length then
      match s.ends with
      | .ok () => { s with todo := [], queue := s.queue ++ s.todo, over := true }
      | .error _ => { s with todo := [], queue := [], over := true }
    else { s with
      todo := s.todo.drop (10 - s.queue.length)
      queue := s.queue ++ s.todo.take (10 - s.queue.length) }
  | .transmit =>
    match s.queue with
    | [] => s
    | r :: q => { s with queue := q, sent := s.sent ++ [r] }

def Startup.run (ops : List StartupOp) (s : Startup) : Startup := ops.foldl Startup.step s

end Elk
