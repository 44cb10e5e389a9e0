import Verif.Model.Conn
import Verif.Spec.Wire
/-!
# Vocabulary for properties of a `Connection` used on its own

`Connection` is public (`elkm1::tokio::Connection`): a program can use it without a `Panel`.
-/

namespace Elk.Spec

/-- What can happen to a connection: the environment answers a read or a write, or some task calls a
`Stream` or `Sink` function. -/
inductive ConnOp where
  | arrive (r : ReadItem)
  | writable (w : WriteItem)
  | pollNext (cx : Cx)
  | pollReady (cx : Cx)
  | startSend (p : Packet)
  | pollFlush (cx : Cx)
  | pollClose (cx : Cx)

/-- What is observed of an operation. -/
inductive ConnOut where
  | env (woken : List Waker)
  | next (r : Poll Item)
  | sink (r : Poll (Except IoErr Unit))
  | accepted

/-- One operation on a connection. -/
def connStep (c : Connection) : ConnOp → P (ConnOut × Connection)
  | .arrive r => .ok (.env (c.arrive r).1, (c.arrive r).2)
  | .writable w => .ok (.env (c.writable w).1, (c.writable w).2)
  | .pollNext cx => do
    let (r, c) ← c.pollNext cx
    .ok (.next r, c)
  | .pollReady cx => .ok (.sink (c.pollReady cx).1, (c.pollReady cx).2)
  | .startSend p => do
    let c ← c.startSend p
    .ok (.accepted, c)
  | .pollFlush cx => .ok (.sink (c.pollFlush cx).1, (c.pollFlush cx).2)
  | .pollClose cx => .ok (.sink (c.pollClose cx).1, (c.pollClose cx).2)

/-- A sequence of operations, with what was observed of each. -/
def connRun : List ConnOp → Connection → P (List ConnOut × Connection)
  | [], c => .ok ([], c)
  | op :: ops, c => do
    let (o, c) ← connStep c op
    let (os, c) ← connRun ops c
    .ok (o :: os, c)

/-- The packets given to `start_send`. -/
def handed (ops : List ConnOp) : List Packet :=
  ops.filterMap fun
    | .startSend p => some p
    | _ => none

/-- The packets returned by `poll_next`. -/
def yielded (outs : List ConnOut) : List Packet :=
  outs.filterMap fun
    | .next (.ready (some (.ok p))) => some p
    | _ => none

/-- The bytes that came from the network, in whatever pieces. -/
def cameIn (ops : List ConnOp) : Bytes :=
  ops.flatMap fun
    | .arrive (.data b) => b
    | _ => []

/-- A packet that can be in a program's hands: built by a constructor, or an `InvalidPacket` that
was received. -/
def Sendable (p : Packet) : Prop := ValidPacket p ∨ ∃ i, p = .invalid i

/-- How many bytes an answer to a write accepts. -/
def capacity : WriteItem → Nat
  | .accept n => n
  | _ => 0

/-- How many bytes a list of answers to writes accepts. -/
def room (q : List WriteItem) : Nat := (q.map capacity).sum

/-- Every answer accepts at least one byte. -/
def Willing (q : List WriteItem) : Prop := ∀ w ∈ q, 1 ≤ capacity w

/-- The user keeps to the contract of `Sink`: each `start_send` is preceded by a `poll_ready` that
returned `Ok`, with no other `start_send` in between.  The first argument says whether such a
`poll_ready` has happened already. -/
def Polite : Bool → List ConnOp → List ConnOut → Prop
  | _, [], [] => True
  | ok, .startSend _ :: ops, _ :: outs => ok = true ∧ Polite false ops outs
  | _, .pollReady _ :: ops, .sink (.ready (.ok ())) :: outs => Polite true ops outs
  | ok, _ :: ops, _ :: outs => Polite ok ops outs
  | _, _, _ => False

end Elk.Spec
