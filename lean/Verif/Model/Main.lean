import Verif.Model.Init
import Verif.Model.Mqtt
import Verif.Model.JsonRead
/-!
# Model of `main` of `elkm1-mqtt/src/main.rs`: configuration, start and end of the program

The configuration file is bytes, which Model/JsonRead.lean takes for JSON; the functions
`deserialize` stand for the derived `Deserialize` of the configuration types.  A struct is read from an
object or, as serde has it, from a list of the values of its fields.

`main` runs `run_eventloop` and `inner` concurrently (main.rs:406-409); neither returns, so the
program ends by a panic (or by being killed) only.  `Prog` is the state of `inner` while it waits:
before the TCP connection to the panel exists, while the panel is initialised, or in its loop.

Simplification: what a step publishes can be transmitted only after the step, and if the step panics
nothing of it is; in the code, what is published before the panic (discovery documents and states,
when the start fails half-way) may still be transmitted: Model/Starting.lean is about that.
-/

namespace Elk

/-! ## Configuration -/

namespace Doc

/-- A field of a struct with these fields: derived `Deserialize` demands that it occurs at most once;
`none` if it is missing.  All names must be text, known or not.  A list must have as many elements as
the struct has fields (a shorter one is refused because in each struct the last field has no
`#[serde(default)]`). -/
def member (fields : List String) (k : String) : Doc → R (Option Doc)
  | .obj l =>
    if l.all fun e => (text e.1).isSome then
      match l.filter (fun e => text e.1 == some (bs k)) with
      | [] => .ok none
      | [e] => .ok (some e.2)
      | _ => errR (bs "duplicate field")
    else errR (bs "invalid string")
  | .arr l =>
    if l.length = fields.length then
      match l[fields.idxOf k]? with
      | some d => .ok (some d)
      | none => errR (bs "invalid length")
    else errR (bs "invalid length")
  | _ => errR (bs "expected an object")

/-- A field without default. -/
def required {α : Type} (f : Doc → R α) (fields : List String) (k : String) (d : Doc) : R α := do
  let v ← d.member fields k
  match v with
  | some x => f x
  | none => errR (bs "missing field")

/-- A field with `#[serde(default = ..)]`. -/
def defaulted {α : Type} (f : Doc → R α) (a : α) (fields : List String) (k : String) (d : Doc) :
    R α := do
  let v ← d.member fields k
  match v with
  | some x => f x
  | none => .ok a

/-- A field of type `Option<T>`. -/
def optional {α : Type} (f : Doc → R α) (fields : List String) (k : String) (d : Doc) :
    R (Option α) := do
  let v ← d.member fields k
  match v with
  | none => .ok none
  | some .null => .ok none
  | some x => do
    let a ← f x
    .ok (some a)

/-- `String`, read. -/
def toStr : Doc → R Bytes
  | .str raw => okOr (text raw) (bs "invalid string")
  | _ => errR (bs "expected a string")

/-- `u16`, read. -/
def toU16 : Doc → R UInt16
  | .nat n => if n < 65536 then .ok (UInt16.ofNat n) else errR (bs "expected u16")
  | _ => errR (bs "expected u16")

/-- `u32`, read. -/
def toU32 : Doc → R UInt32
  | .nat n => if n < 4294967296 then .ok (UInt32.ofNat n) else errR (bs "expected u32")
  | _ => errR (bs "expected u32")

/-- A key of a map with `u8` keys: `serde_json` reads what is written between the quotation marks as a
number, which for a `u8` has no sign, no fraction and no leading zero. -/
def toKey (k : Bytes) : R UInt8 :=
  okOr (((List.range 256).find? fun n => decStr n == k).map UInt8.ofNat) (bs "expected u8")

end Doc

/-- `HashMap::insert` on an association list. -/
def insertKey {β : Type} (k : UInt8) (v : β) : List (UInt8 × β) → List (UInt8 × β)
  | [] => [(k, v)]
  | e :: l => if e.1 = k then (k, v) :: l else e :: insertKey k v l

/-- `HashMap<u8, V>`, the entries read one after another into a map. -/
def readEntries {β : Type} (f : Doc → R β) : List (Bytes × Doc) → List (UInt8 × β) →
    R (List (UInt8 × β))
  | [], m => .ok m
  | (k, j) :: l, m => do
    let key ← Doc.toKey k
    let v ← f j
    readEntries f l (insertKey key v m)

/-- `HashMap<u8, V>`, read back. -/
def readMap {β : Type} (f : Doc → R β) : Doc → R (List (UInt8 × β))
  | .obj l => readEntries f l []
  | _ => errR (bs "expected a map")

/-- main.rs:100-105 `AreaCfg`, derived `Deserialize`. -/
def AreaCfg.deserialize (d : Doc) : R AreaCfg := do
  let name ← d.required Doc.toStr ["name"] "name"
  .ok { name }

/-- main.rs:107-116 `ZoneCfg`, derived `Deserialize`. -/
def ZoneCfg.deserialize (d : Doc) : R ZoneCfg := do
  let fields := ["name", "binarySensorDeviceClass"]
  let name ← d.required Doc.toStr fields "name"
  let binarySensorDeviceClass ← d.required Doc.toStr fields "binarySensorDeviceClass"
  .ok { name, binarySensorDeviceClass }

/-- main.rs:42-98 the whole of `Cfg`: what the bridge uses once it is connected, and what it needs
to reach the panel and the broker. -/
structure Setup where
  cfg : Cfg
  hostPort : Bytes
  clientId : Bytes
  host : Bytes
  port : UInt16
  username : Option Bytes
  password : Option Bytes
  deriving DecidableEq, Repr

/-- main.rs:77-98 `ElkCfg`, derived `Deserialize`: with the address of the panel. -/
def ElkCfg.deserialize (d : Doc) : R (ElkCfg × Bytes) := do
  let fields := ["serialNumber", "code", "hostPort", "areas", "zones"]
  let serialNumber ← d.required Doc.toStr fields "serialNumber"
  let code ← d.required Doc.toU32 fields "code"
  let hostPort ← d.required Doc.toStr fields "hostPort"
  let areas ← d.required (readMap AreaCfg.deserialize) fields "areas"
  let zones ← d.required (readMap ZoneCfg.deserialize) fields "zones"
  .ok ({ serialNumber, code, areas, zones }, hostPort)

/-- main.rs:42-75 `Cfg` with `MqttCfg`, derived `Deserialize`; main.rs:49-51 `mqtt_default_port`. -/
def Setup.deserialize (d : Doc) : R Setup := do
  let fields := ["elk", "mqtt"]
  let (elk, hostPort) ← d.required ElkCfg.deserialize fields "elk"
  let mqtt ← d.required .ok fields "mqtt"
  let fields := ["clientId", "host", "port", "username", "password", "topicPrefix",
    "haDiscoveryPrefix"]
  let clientId ← mqtt.defaulted Doc.toStr [] fields "clientId"
  let host ← mqtt.required Doc.toStr fields "host"
  let port ← mqtt.defaulted Doc.toU16 1883 fields "port"
  let username ← mqtt.optional Doc.toStr fields "username"
  let password ← mqtt.optional Doc.toStr fields "password"
  let topicPrefix ← mqtt.optional Doc.toStr fields "topicPrefix"
  let haDiscoveryPrefix ← mqtt.optional Doc.toStr fields "haDiscoveryPrefix"
  .ok { cfg := { elk, mqtt := { topicPrefix, haDiscoveryPrefix } }, hostPort, clientId, host, port,
        username, password }

/-- main.rs:381-389 the credentials for the broker. -/
def Setup.credentials (s : Setup) : P (Option (Bytes × Bytes)) :=
  match s.username, s.password with
  | some u, some p => .ok (some (u, p))
  | none, none => .ok none
  | _, _ => .error .expect

/-- main.rs:398-403 what the broker publishes when the program is gone. -/
def Setup.will (s : Setup) : Published :=
  ⟨availabilityTopic s.cfg.prefix, true, .text (bs "offline")⟩

/-! ## The program -/

/-- The state of `inner`: main.rs:418 waiting for the TCP connection, main.rs:418 within
`Panel::connect`, and from main.rs:444 on. -/
inductive Prog where
  | dialing (s : Setup)
  | connecting (s : Setup) (i : Init)
  | running (s : Setup) (b : Bridge)

/-- The configuration a program runs with. -/
def Prog.setup : Prog → Setup
  | .dialing s => s
  | .connecting s _ => s
  | .running s _ => s

/-- main.rs:367-405 `main`, up to its `select!`.  `args` are the arguments after the name of the
program, `file` what reading a file yields. -/
def Prog.main (args : List Bytes) (file : Bytes → Option Bytes) : P Prog :=
  match args with
  | [path] => do
    let bytes ← expectSome (file path)
    let d ← expectSome (Doc.parse bytes)
    let s ← unwrapR (Setup.deserialize d)
    let _ ← s.credentials
    .ok (.dialing s)
  | _ => .error .expect

/-- main.rs:418-443 what follows a step of `connect`: the messages published, and the program. -/
def Prog.connected (s : Setup) : Phase → P (List Published × Prog)
  | .asking i => .ok ([], .connecting s i)
  | .finished (.error _) => .error .expect
  | .finished (.ok panel) => do
    let b ← Bridge.start s.cfg panel
    .ok (b.log, .running s b)

/-- What can happen to the program: the attempt to reach the panel ends, the environment answers a
read or a write, the broker delivers a message, or the program is polled. -/
inductive POp where
  | dialed (r : Except IoErr Unit)
  | op (op : BOp)

/-- What an observed step of the bridge publishes. -/
def BObs.out : BObs → List Published
  | .event _ out _ => out
  | _ => []

/-- One operation, with what is published.  An operation that does not fit the state changes nothing:
there is no socket to answer before there is a connection, and the broker delivers nothing before
the program subscribes (main.rs:433).  tokio.rs:28-31 `Connection::connect`: a fresh `Framed`. -/
def Prog.step : Prog → POp → P (List Published × Prog)
  | .dialing _, .dialed (.error _) => .error .expect
  | .dialing s, .dialed (.ok ()) => do
    let ph ← Init.start {}
    Prog.connected s ph
  | .dialing s, .op _ => .ok ([], .dialing s)
  | .connecting s i, .dialed _ => .ok ([], .connecting s i)
  | .connecting s i, .op (.arrive r) => do
    let (_, ph) ← i.step (.arrive r)
    Prog.connected s ph
  | .connecting s i, .op (.writable w) => do
    let (_, ph) ← i.step (.writable w)
    Prog.connected s ph
  | .connecting s i, .op (.tick cx _) => do
    let (_, ph) ← i.step (.tick cx)
    Prog.connected s ph
  | .connecting s i, .op (.deliver _) => .ok ([], .connecting s i)
  | .running s b, .dialed _ => .ok ([], .running s b)
  | .running s b, .op op => do
    let (o, b) ← b.step op
    .ok (o.out, .running s b)

/-! ## The program and the broker -/

/-- The program (if it runs) and the broker.  `queue` is what the program has published and the MQTT
client has not yet transmitted (main.rs:404 and `run_eventloop`), `link` whether the client is
connected to the broker, `broker` what the broker has accepted so far, from anybody. -/
structure Site where
  prog : Option Prog
  queue : List Published
  link : Bool
  broker : List Published

/-- The end of the program: what was not transmitted is lost, and the broker publishes the will if
the client was connected (MQTT 3.1.1, section 3.1.2.5). -/
def Site.die (s : Site) (p : Prog) : Site :=
  ⟨none, [], false, s.broker ++ if s.link then [p.setup.will] else []⟩

/-- What can happen at a site. -/
inductive SOp where
  /-- the program is started -/
  | launch (args : List Bytes) (file : Bytes → Option Bytes)
  /-- something happens to the program -/
  | prog (op : POp)
  /-- the client is connected to the broker -/
  | link
  /-- the client transmits a message -/
  | transmit
  /-- the connection to the broker fails: main.rs:334 ends the program -/
  | unlink
  /-- the program is killed -/
  | kill

/-- One event.  (Not a definition of /repo: the environment of the program.) -/
def Site.step (s : Site) : SOp → Site
  | .launch args file =>
    match s.prog, Prog.main args file with
    | none, .ok p => ⟨some p, [], false, s.broker⟩
    | _, _ => s
  | .prog op =>
    match s.prog with
    | none => s
    | some p =>
      match p.step op with
      | .ok (out, p') => { s with prog := some p', queue := s.queue ++ out }
      | .error _ => s.die p
  | .link => if s.prog.isSome then { s with link := true } else s
  | .transmit =>
    match s.link, s.queue with
    | true, m :: queue => { s with queue, broker := s.broker ++ [m] }
    | _, _ => s
  | .unlink | .kill =>
    match s.prog with
    | none => s
    | some p => s.die p

/-- A sequence of events. -/
def Site.run (ops : List SOp) (s : Site) : Site := ops.foldl Site.step s

end Elk
