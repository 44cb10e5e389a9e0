import Verif.Spec.Panel
import Verif.Spec.Home
/-!
# A connected `Panel` together with the real panel

The library, used in any way, the line from the panel, which hands over bytes in pieces of any
sizes, and the panel, which takes the commands it gets line by line and says things.
-/

namespace Elk.Spec

/-- The state of library, line and panel. -/
structure Wired where
  /-- the library's side -/
  panel : Panel
  /-- what happened to it -/
  ops : List Op
  /-- what was observed of it -/
  outs : List Out
  /-- the number of bytes the panel has taken -/
  taken : Nat
  /-- bytes sent by the panel and not yet handed over -/
  line : Bytes
  /-- what the panel has said -/
  said : List Message
  /-- the lines the panel has heard -/
  heard : List Bytes

/-- What can happen. -/
inductive WiredOp where
  /-- the library is used, or the socket does something other than handing over bytes -/
  | use (op : Op)
  /-- up to `n + 1` bytes arrive at the library -/
  | deliver (n : Nat)
  /-- the panel takes the next line it got, if any -/
  | hear
  /-- the panel says something -/
  | say (m : Message)

/-- Something happens to the library. -/
def Wired.act (t : Wired) (op : Op) : P Wired :=
  match t.panel.step op with
  | .error e => .error e
  | .ok (o, p) => .ok { t with panel := p, ops := t.ops ++ [op], outs := t.outs ++ [o] }

/-- One thing happens. -/
def Wired.step (t : Wired) : WiredOp → P Wired
  | .use op => t.act op
  | .deliver n =>
    if t.line = [] then .ok t
    else { t with line := t.line.drop (n + 1) }.act (.arrive (.data (t.line.take (n + 1))))
  | .hear =>
    match firstLine (t.panel.conn.sock.sent.drop t.taken) with
    | none => .ok t
    | some l => .ok { t with taken := t.taken + l.length, heard := t.heard ++ [l] }
  | .say m => .ok { t with line := t.line ++ frame m, said := t.said ++ [m] }

/-- A sequence of things. -/
def Wired.run : List WiredOp → Wired → P Wired
  | [], t => .ok t
  | op :: ops, t => do
    let t ← t.step op
    Wired.run ops t

/-- The state when the panel is connected; `line` is under way, `said` what is said there. -/
def Wired.start (p : Panel) (line : Bytes) (said : List Message) : Wired :=
  ⟨p, [], [], p.conn.sock.sent.length, line, said, []⟩

/-- Whether a message confirms a command: that of a code or of a task. -/
def confirms : Message → Bool
  | .sendCode _ | .taskChange _ => true
  | _ => false

/-- The messages that confirm commands. -/
def confirmations (ms : List Message) : List Message := ms.filter confirms

/-- The socket hands over bytes by `deliver` only; the commands are well-formed. -/
def WiredOp.Fair : WiredOp → Prop
  | .use (.arrive (.data _)) => False
  | .use (.startSend c) => WfCommand c
  | .say m => WfMessage m
  | _ => True

/-- The panel confirms commands only: its `n`-th confirmation comes after it has taken the `n`-th
line, and is a reply to the command there. -/
def WiredOp.Candid (t : Wired) : WiredOp → Prop
  | .say m => confirms m = true → ∃ l, t.heard[(confirmations t.said).length]? = some l ∧
      ∀ c, WfCommand c → l = commandBytes c → Responds m c.intoMsg
  | _ => True

/-- Each thing that happens has a property, which may depend on the state before it. -/
def AllAlong (P : Wired → WiredOp → Prop) : List WiredOp → Wired → Prop
  | [], _ => True
  | op :: ops, t => P t op ∧ ∀ t', t.step op = .ok t' → AllAlong P ops t'

/-- The commands that events said to be completed, each with the message of the event. -/
def completed (outs : List Out) : List (Message × Message) :=
  (events outs).filterMap fun e =>
    match e.completes, e.msg with
    | some c, some (.ok m) => some (c, m)
    | _, _ => none

end Elk.Spec
