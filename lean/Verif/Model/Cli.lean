import Verif.Model.Init
/-!
# Model of `elkm1-cli/src/main.rs` (the command-line tool)

Simplifications.  What is printed is modelled as data: the packet or bytes that a line shows, not
the rendering by `Debug` and `hex_dump` (for which see Model/Debug.lean).  Log lines below the
default level (main.rs:24) are left out; for them see Model/Log.lean, for the set-up of logging
(main.rs:71-94) Model/Clock.lean and Model/EnvFilter.lean, for the arguments and `main`
(main.rs:12-16, 97-103) Model/Args.lean.
-/

namespace Elk

/-! ## `read` -/

/-- A line that `read` prints. -/
inductive Printed where
  /-- main.rs:64 -/
  | packet (p : Packet)
  /-- main.rs:67 -/
  | incomplete (left : Bytes)
  deriving DecidableEq

/-- main.rs:63-65 the loop of `read`: the packets printed and what is left.  `fuel` bounds the
iterations; `Cli.readData` supplies enough (each iteration takes at least one byte off `left`). -/
def Cli.readLoop : Nat → Bytes → P (List Packet × Bytes)
  | 0, _ => .error .unreachable
  | fuel + 1, left => do
    let (r, left) ← Packet.decode left
    match r with
    | none => .ok ([], left)
    | some p => do
      let (ps, left) ← Cli.readLoop fuel left
      .ok (p :: ps, left)

/-- main.rs:62-68 `read` from the contents of the file on. -/
def Cli.readData (data : Bytes) : P (List Printed) := do
  let (ps, left) ← Cli.readLoop (data.length + 1) data
  .ok (ps.map .packet ++ if left = [] then [] else [.incomplete left])

/-- main.rs:60-69 `read`; the argument is what `std::fs::read` returns. -/
def Cli.read : Except IoErr Bytes → P (List Printed)
  | .ok data => Cli.readData data
  | .error _ => .error .expect

/-! ## `watch` -/

/-- main.rs:38-49 the three states of an area. -/
structure AreaStates where
  armingStatus : ArmingStatus
  upState : ArmUpState
  alarmState : AlarmState
  deriving DecidableEq

/-- A line that `watch` logs. -/
inductive WatchLine where
  /-- main.rs:27-32 -/
  | zone (name : Bytes) (prior new : ZoneLogicalStatus × ZonePhysicalStatus)
  /-- main.rs:42-51 -/
  | area (name : Bytes) (prior new : AreaStates)
  deriving DecidableEq

/-- msg.rs:860-867 `Debug` of a zone status: what it shows. -/
def ZoneStatus.debug (s : ZoneStatus) : P (ZoneLogicalStatus × ZonePhysicalStatus) := do
  let l ← s.logical
  let p ← s.physical
  .ok (l, p)

/-- main.rs:38-40, 44-49 the states of the area with index `i`. -/
def ArmingStatusReport.areaStates (r : ArmingStatusReport) (i : Nat) : P AreaStates := do
  let armingStatus ← arrGet r.armingStatus i
  let upState ← arrGet r.upState i
  let alarmState ← arrGet r.alarmState i
  .ok ⟨armingStatus, upState, alarmState⟩

/-- main.rs:38-52 the body of the loop over the areas. -/
def Cli.areaLine (prior cur : ArmingStatusReport) (names : Vector TextDescription 8) (i : Nat) :
    P (List WatchLine) := do
  let a ← prior.areaStates i
  let b ← cur.areaStates i
  if a ≠ b then do
    let name ← arrGet names i
    let name ← name.asStr
    .ok [.area name a b]
  else .ok []

/-- main.rs:37-53 the loop over the areas. -/
def Cli.areaLines (prior cur : ArmingStatusReport) (names : Vector TextDescription 8) :
    List Nat → P (List WatchLine)
  | [] => .ok []
  | i :: is => do
    let x ← Cli.areaLine prior cur names i
    let y ← Cli.areaLines prior cur names is
    .ok (x ++ y)

/-- main.rs:25-56 what is logged for an event; `panel` is the panel after it. -/
def Cli.lines (panel : Panel) (ev : Event) : P (List WatchLine) :=
  match ev.change with
  | some (.zoneChange zone prior) => do
    let name ← panel.zoneName zone
    let name ← name.asStr
    let prior ← prior.debug
    let statuses ← panel.zoneStatuses
    let i ← zone.toIndex
    let new ← arrGet statuses.zones i
    let new ← new.debug
    .ok [.zone name prior new]
  | some (.armingStatus prior) => do
    let cur ← panel.armingStatus
    Cli.areaLines prior cur panel.areaNames (List.range 8)
  | none => .ok []

/-- What is observed of one step of `watch`. -/
inductive WObs where
  /-- an environment operation -/
  | env
  | pending
  /-- an event was received, and these lines logged -/
  | event (ev : Event) (lines : List WatchLine)
  /-- main.rs:22 `None`: `watch` returns -/
  | returned

/-- `watch` in its loop, or returned. -/
inductive Watch where
  | watching (p : Panel)
  | done (p : Panel)

/-- main.rs:22-57 one poll of `panel.next()` and the code that runs on its result. -/
def Cli.watchTick (p : Panel) (cx : Cx) : P (WObs × Watch) := do
  let (r, _, p) ← p.pollNext cx
  match r with
  | .pending => .ok (.pending, .watching p)
  | .ready none => .ok (.returned, .done p)
  | .ready (some (.error _)) => .error .expect
  | .ready (some (.ok ev)) => do
    let lines ← Cli.lines p ev
    .ok (.event ev lines, .watching p)

/-- One operation.  (Not a definition of /repo: the ways `watch` runs; it never writes.) -/
def Cli.watchStep (p : Panel) : InitOp → P (WObs × Watch)
  | .arrive r => .ok (.env, .watching { p with conn := (p.conn.arrive r).2 })
  | .writable r => .ok (.env, .watching { p with conn := (p.conn.writable r).2 })
  | .tick cx => Cli.watchTick p cx

/-- A sequence of operations, with what was observed of each, up to the return of `watch`. -/
def Watch.run : List InitOp → Watch → P (List WObs × Watch)
  | [], w => .ok ([], w)
  | _ :: _, .done p => .ok ([], .done p)
  | op :: ops, .watching p => do
    let (o, w) ← Cli.watchStep p op
    let (os, w) ← Watch.run ops w
    .ok (o :: os, w)

end Elk
