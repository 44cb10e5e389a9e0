import Verif.Spec.Exact
import Verif.Spec.Panel
/-!
# The reference machine of a panel, with the tasks that are woken

A task that is told `Pending` is remembered in one of three places, the last one told for each: the
reading side of the connection, the writing side, and the command that is outstanding.  It is woken
from there once.
-/

namespace Elk.Spec

/-- The tasks that wait. -/
structure Sleepers where
  /-- for something to arrive -/
  reader : Option Waker
  /-- for the connection to take more bytes -/
  writer : Option Waker
  /-- for the outstanding command to be completed -/
  sender : Option Waker

/-- Whether `poll_next` found nothing to read when it returned this: an event without a packet is
that of the timer. -/
def foundNothing : Poll PanelItem → Bool
  | .pending => true
  | .ready (some (.ok ev)) => ev.pkt.isNone
  | _ => false

/-- Whether an event that completes a command was returned. -/
def finishes : Poll PanelItem → Bool
  | .ready (some (.ok ev)) => ev.completes.isSome
  | _ => false

/-- The tasks woken by an operation that returned this. -/
def Sleepers.woken (s : Sleepers) (op : Op) (o : Out) : List Waker :=
  match op, o with
  | .arrive _, _ => s.reader.toList
  | .writable _, _ => s.writer.toList
  | .pollNext _, .next r _ => if finishes r then s.sender.toList else []
  | _, _ => []

/-- The tasks that wait after an operation that returned this, and left `unsent` to be written. -/
def Sleepers.next (s : Sleepers) (unsent : Bytes) (op : Op) (o : Out) : Sleepers :=
  match op, o with
  | .arrive _, _ => { s with reader := none }
  | .writable _, _ => { s with writer := none }
  | .pollNext cx, .next r _ =>
    { s with reader := if foundNothing r then some cx.waker else s.reader
             sender := if finishes r then none else s.sender }
  | .pollReady cx, .sink .pending =>
    if unsent = [] then { s with sender := some cx.waker } else { s with writer := some cx.waker }
  | .pollFlush cx, .sink .pending => { s with writer := some cx.waker }
  | .pollClose cx, .sink .pending => { s with writer := some cx.waker }
  | _, _ => s

/-- A history, with what happens to the connection. -/
inductive Stirs : View → Ear → Sleepers → List Deed → View → Ear → Sleepers → Prop
  | nil {v e s} : Stirs v e s [] v e s
  | cons {v e s d v' e' l v'' e'' s''} :
      (isCall d.op = true → Does v e d v' e') →
      (isCall d.op = false → d.io = [] ∧ (∃ w, d.out = .env w) ∧ v' = v ∧ e' = e) →
      wokenOf d.out = s.woken d.op d.out →
      Stirs v' e' (s.next v'.unsent d.op d.out) l v'' e'' s'' → Stirs v e s (d :: l) v'' e'' s''

end Elk.Spec
