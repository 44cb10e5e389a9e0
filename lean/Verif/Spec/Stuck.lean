import Verif.Spec.Main
import Verif.Props.Sink
/-!
# A bridge that is stuck

What does not change any more, once the bridge has taken up a command while the panel awaits the
reply to another.
-/

namespace Elk.Spec
open Elk.Props

/-- The second bridge shows nothing that the first did not: what it has published, what it knows of
the panel, what it has read of the connection (and left of it unread, as the list `new` was added to
what the socket holds ready) and what it has sent are the same, and of the messages of the broker
none was taken up: `more` were added. -/
structure Frozen (new : List ReadItem) (more : List Publish) (b b' : Bridge) : Prop where
  waiting : b'.waiting = b.waiting
  request : outstanding b'.panel.cmdState = outstanding b.panel.cmdState
  log : b'.log = b.log
  cfg : b'.cfg = b.cfg
  code : b'.code = b.code
  state : b'.panel.state = b.panel.state
  pending : b'.panel.pendingArm = b.panel.pendingArm
  unread : b'.panel.conn.rd = b.panel.conn.rd
  received : b'.panel.conn.sock.received = b.panel.conn.sock.received
  incoming : b'.panel.conn.sock.incoming = b.panel.conn.sock.incoming ++ new
  sent : b'.panel.conn.sock.sent = b.panel.conn.sock.sent
  inbox : b'.inbox = b.inbox ++ more

/-- Nothing from outside ends the program: it is not killed, and its connection to the broker
holds. -/
def Spared (ops : List SOp) : Prop := SOp.unlink ∉ ops ∧ SOp.kill ∉ ops

/-- The messages of the broker for the program in a history of the site. -/
def deliveredTo (ops : List SOp) : List Publish :=
  ops.filterMap fun
    | .prog (.op (.deliver p)) => some p
    | _ => none

/-- What the panel's socket is given to read in a history of the site. -/
def arrivedTo (ops : List SOp) : List ReadItem :=
  ops.filterMap fun
    | .prog (.op (.arrive r)) => some r
    | _ => none

end Elk.Spec
