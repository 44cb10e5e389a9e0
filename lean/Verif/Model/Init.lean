import Verif.Model.State
/-!
# Model of `Panel::connect` (initialisation) in `elkm1/src/state.rs`

`with_connection`, `init_req` and `send_sds` are `async` functions.  Their common future is modelled
as a machine: `Init` holds what the future holds while it waits, and `Init.tick` is one poll of the
connection together with the code that runs on its result.  Polling the future is a sequence of
ticks up to one that is `pending` or finishes; properties are proved of all sequences of ticks, so
for all polls.

`SinkExt::send` (futures 0.3, not in /repo) is `poll_ready`, `start_send`, then `poll_flush`.
`Connection::connect` is assumed to give a fresh connection (or an error).
-/

namespace Elk

/-- state.rs:443-451 `PanelState::names_mut`, read: the names of a type, if there are any. -/
def PanelState.names (s : PanelState) : TextDescriptionType → Option (List TextDescription)
  | .area => some s.areaNames.toList
  | .task => some s.taskNames.toList
  | .zone => some s.zoneNames.toList
  | _ => none

/-- state.rs:197, 205 `names_mut(ty).expect(..)[i] = text`. -/
def PanelState.setName (s : PanelState) (ty : TextDescriptionType) (i : Nat)
    (text : TextDescription) : P PanelState :=
  match ty with
  | .area => do
    let v ← arrSet s.areaNames i text
    .ok { s with areaNames := v }
  | .task => do
    let v ← arrSet s.taskNames i text
    .ok { s with taskNames := v }
  | .zone => do
    let v ← arrSet s.zoneNames i text
    .ok { s with zoneNames := v }
  | _ => .error .expect

/-- Where `with_connection` is: in one of its two `init_req`s, or in a `send_sds` with its locals
and the `send_sds` calls that follow. -/
inductive Stage where
  | arming
  | zones
  | names (ty : TextDescriptionType) (max unfilled : Nat)
      (todo : List (TextDescriptionType × Nat))
  deriving DecidableEq

/-- What `init_req` is waiting for. -/
inductive Await where
  /-- state.rs:163 `send`, before the item was handed over -/
  | ready (pkt : Packet)
  /-- state.rs:163 `send`, afterwards -/
  | flush
  /-- state.rs:164 `next` -/
  | reply
  deriving DecidableEq

/-- The future of `with_connection` while it waits. -/
structure Init where
  panel : Panel
  stage : Stage
  send : Message
  await : Await
  deriving DecidableEq

/-- The future: waiting, or finished with its result. -/
inductive Phase where
  | asking (i : Init)
  | finished (r : Except IoErr Panel)

/-- state.rs:142, 143, 188-190 the message of the current `init_req`. -/
def Stage.request : Stage → P Message
  | .arming => .ok .armingStatusRequest
  | .zones => .ok .zoneStatusRequest
  | .names ty _ unfilled _ => do
    let num ← addU8 (UInt8.ofNat unfilled) 1
    .ok (.stringDescriptionRequest ⟨ty, num⟩)

/-- state.rs:161-163 the beginning of `init_req`. -/
def Init.ask (p : Panel) (stage : Stage) : P Phase := do
  let send ← stage.request
  let pkt ← send.toPkt
  .ok (.asking ⟨p, stage, send, .ready pkt⟩)

/-- state.rs:144-149, 155, 186-187 the remaining calls of `send_sds`. -/
def Init.callSds (p : Panel) : List (TextDescriptionType × Nat) → P Phase
  | [] => .ok (.finished (.ok p))
  | (ty, max) :: todo =>
    if 0 < max then Init.ask p (.names ty max 0 todo) else Init.callSds p todo

/-- state.rs:187-190, 208 the head of the loop of `send_sds`. -/
def Init.loopSds (p : Panel) (ty : TextDescriptionType) (max unfilled : Nat)
    (todo : List (TextDescriptionType × Nat)) : P Phase :=
  if unfilled < max then Init.ask p (.names ty max unfilled todo) else Init.callSds p todo

/-- state.rs:192-206 the body of the loop of `send_sds` after a reply. -/
def Init.described (p : Panel) (ty : TextDescriptionType) (max unfilled : Nat)
    (todo : List (TextDescriptionType × Nat)) (msg : Option (Except Bytes Message)) : P Phase :=
  match msg with
  | some (.ok (.stringDescriptionResponse reply)) =>
    if ty ≠ reply.ty then .error .assertion
    else do
      let _ ← expectSome (p.state.names ty)
      if reply.num = 0 then Init.callSds p todo
      else if reply.num.toNat - 1 < unfilled then .error .assertion
      else do
        let state ← p.state.setName ty (reply.num.toNat - 1) reply.text
        Init.loopSds { p with state } ty max (reply.num.toNat - 1 + 1) todo
  | _ => .error .unreachable

/-- state.rs:142-149 what follows the `init_req` of a stage. -/
def Init.replied (p : Panel) (stage : Stage) (msg : Option (Except Bytes Message)) : P Phase :=
  match stage with
  | .arming => Init.ask p .zones
  | .zones => Init.callSds p [(.area, 8), (.task, 32), (.zone, 208)]
  | .names ty max unfilled todo => Init.described p ty max unfilled todo msg

/-- What is observed of one tick. -/
inductive Obs where
  /-- an environment operation, and the tasks it woke -/
  | env (woken : List Waker)
  | pending
  /-- a question was handed to the connection -/
  | asked (q : Message)
  | flushed
  /-- a packet was received and interpreted -/
  | got (ev : Event)
  | failed (e : IoErr)

/-- state.rs:135-142 the beginning of `with_connection`. -/
def Init.start (conn : Connection) : P Phase :=
  Init.ask ⟨conn, PanelState.default, none, .idle⟩ .arming

/-- state.rs:165-172 the body of the loop of `init_req`: interprets a packet.  (No command is
outstanding, so `interpret` wakes no task.) -/
def Init.received (i : Init) (p : Panel) (now : Nat) (pkt : Packet) : P (Obs × Phase) := do
  let (ev, _, p) ← p.interpret now pkt
  match ev.msg with
  | some (.ok r) =>
    if r.isResponseTo i.send then do
      let ph ← Init.replied p i.stage ev.msg
      .ok (.got ev, ph)
    else .ok (.got ev, .asking { i with panel := p })
  | _ => .ok (.got ev, .asking { i with panel := p })

/-- state.rs:161-178 `init_req` (and what follows it): one poll of the connection. -/
def Init.tick (i : Init) (cx : Cx) : P (Obs × Phase) :=
  match i.await with
  | .ready pkt =>
    match i.panel.conn.pollReady cx with
    | (.pending, conn) => .ok (.pending, .asking { i with panel := { i.panel with conn } })
    | (.ready (.error e), _) => .ok (.failed e, .finished (.error e))
    | (.ready (.ok ()), conn) => do
      let conn ← conn.startSend pkt
      .ok (.asked i.send, .asking { i with panel := { i.panel with conn }, await := .flush })
  | .flush =>
    match i.panel.conn.pollFlush cx with
    | (.pending, conn) => .ok (.pending, .asking { i with panel := { i.panel with conn } })
    | (.ready (.error e), _) => .ok (.failed e, .finished (.error e))
    | (.ready (.ok ()), conn) =>
      .ok (.flushed, .asking { i with panel := { i.panel with conn }, await := .reply })
  | .reply => do
    let (r, conn) ← i.panel.conn.pollNext cx
    match r with
    | .pending => .ok (.pending, .asking { i with panel := { i.panel with conn } })
    | .ready none => .ok (.failed .unexpectedEof, .finished (.error .unexpectedEof))
    | .ready (some (.error e)) => .ok (.failed e, .finished (.error e))
    | .ready (some (.ok pkt)) => i.received { i.panel with conn } cx.now pkt

/-! ## Histories -/

/-- What can happen while connecting: the environment answers a read or a write, or the future is
polled. -/
inductive InitOp where
  | arrive (r : ReadItem)
  | writable (w : WriteItem)
  | tick (cx : Cx)
  deriving DecidableEq

/-- One operation.  (Not a definition of /repo: the ways `connect` is used.) -/
def Init.step (i : Init) : InitOp → P (Obs × Phase)
  | .arrive r =>
    let (w, conn) := i.panel.conn.arrive r
    .ok (.env w, .asking { i with panel := { i.panel with conn } })
  | .writable r =>
    let (w, conn) := i.panel.conn.writable r
    .ok (.env w, .asking { i with panel := { i.panel with conn } })
  | .tick cx => i.tick cx

/-- A sequence of operations, with what was observed of each, up to the end of the future. -/
def Phase.run : List InitOp → Phase → P (List Obs × Phase)
  | [], ph => .ok ([], ph)
  | _ :: _, .finished r => .ok ([], .finished r)
  | op :: ops, .asking i => do
    let (o, ph) ← i.step op
    let (os, ph) ← Phase.run ops ph
    .ok (o :: os, ph)

/-- state.rs:107-110, 135-156: `connect` on a fresh connection, through a history. -/
def Init.connect (conn : Connection) (ops : List InitOp) : P (List Obs × Phase) := do
  let ph ← Init.start conn
  ph.run ops

end Elk
