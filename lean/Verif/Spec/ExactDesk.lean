import Verif.Spec.Desk
import Verif.Spec.Exact
/-!
# The reference machine of the bridge, exactly

The machine of Spec/Desk.lean allows whatever the bridge does.  With the rules added here it allows
nothing else: nothing is read while a packet is at the front, and the bridge ends only with the
errors there are.
-/

namespace Elk.Spec

/-- What happens to the connection, as opposed to what the broker and the bridge do. -/
def isJob : BOp → Bool
  | .arrive _ => false
  | .writable _ => false
  | _ => true

def jobs (ts : List Turn) : List Turn := ts.filter fun t => isJob t.op

/-- A history of the bridge. -/
inductive Toils (cfg : Cfg) (code : ArmCode) : Desk → List Turn → Desk → Prop
  | nil {d} : Toils cfg code d [] d
  | cons {d d' d'' t l} : isJob t.op = true → Serves cfg code d t.op t.rd t.wr t.out d' →
      Ripe d.view.unread t.rd → Toils cfg code d' l d'' → Toils cfg code d (t :: l) d''

/-- How polling the bridge here can end it. -/
inductive Quits (cfg : Cfg) (d : Desk) (cx : Cx) (pf : Bool) : Panic → Prop
  /-- reading fails, or the connection has ended -/
  | over {io r v' e'} : d.doing = .select → (pf = false → d.inbox = []) →
      Reading cx d.view io (.ready r) v' → (∀ ev, r ≠ some (.ok ev)) →
      Hears ⟨false, false⟩ d.view.unread io (.ready r) e' → Quits cfg d cx pf .expect
  /-- a report on all zones cannot be published -/
  | report {io ev r v'} : d.doing = .select → (pf = false → d.inbox = []) →
      Reading cx d.view io (.ready (some (.ok ev))) v' →
      ev.msg = some (.ok (.zoneStatusReport r)) → Ripe d.view.unread io → Quits cfg d cx pf .todo
  /-- a message on a topic for commands is not text -/
  | garbage {io v' p rest} : d.doing = .select → d.inbox = p :: rest →
      Looked cx d.view pf io v' → ForCommands cfg p.topic → ¬ Rfc.Utf8 p.payload →
      Ripe d.view.unread io → Quits cfg d cx pf .expect
  /-- writing fails -/
  | unready {c io e v'} : d.doing = .ready c → Readying d.view io (.ready (.error e)) v' →
      Halts (.ready (.error e)) v'.unsent → Quits cfg d cx pf .expect
  | unsent {io e v'} : d.doing = .flush → Flushing d.view io (.ready (.error e)) v' →
      Halts (.ready (.error e)) v'.unsent → Quits cfg d cx pf .expect

/-- A history of the bridge: what was done, what was read from and written to the panel, and what
was observed. -/
def tracedBridge : List BOp → Bridge → P (List Turn × Bridge)
  | [], b => .ok ([], b)
  | op :: ops, b => do
    let (o, b₁) ← b.step op
    let (ts, b₂) ← tracedBridge ops b₁
    .ok (⟨op, b₁.panel.conn.sock.received.drop b.panel.conn.sock.received.length,
      b₁.panel.conn.sock.sent.drop b.panel.conn.sock.sent.length, o⟩ :: ts, b₂)

/-- A turn without the tasks woken. -/
def hushed (t : Turn) : Turn :=
  match t.out with
  | .event ev out _ => { t with out := .event ev out [] }
  | .env _ => { t with out := .env [] }
  | _ => t

end Elk.Spec
