import Verif.Model.ProgLog
/-!
# The whole of `main`

`main` runs `run_eventloop` and `inner` side by side in one task (elkm1-mqtt/src/main.rs:405-408).
`Prog` (Model/Main.lean) is `inner`; messages of the broker that come before it serves are left out
there.  Here is `run_eventloop` too, with the channel between the two from the start, and with the one
call of `tracing` that Model/Log.lean leaves out.

Simplifications.  A notification that is not a message of the broker is a number.  Neither side returns
(`run_eventloop` is `-> !`, `inner` ends with `loop` without `break`), so that the receiver of the channel
is there as long as the program is, and `tx.send(p).unwrap()` (main.rs:338) does not panic.
-/

namespace Elk

/-- `rumqttc::Event`: a message of the broker, or anything else. -/
inductive Notification where
  | publish (p : Publish)
  | other (n : Nat)
  deriving DecidableEq

/-- What the program logs: a notification (main.rs:335, at level `trace`), or a record of `inner`. -/
inductive Line where
  | notification (n : Notification)
  | record (r : Record)

/-- `inner`, and what is in the channel (main.rs:404) as long as `inner` does not yet receive; what is in
it later is the inbox of the bridge. -/
structure Whole where
  prog : Prog
  rx : List Publish

/-- What happens to `inner`: the attempt to reach the panel ends, the panel's socket answers a read or
a write, or it is polled. -/
inductive PanelOp where
  | dialed (r : Except IoErr Unit)
  | arrive (r : ReadItem)
  | writable (r : WriteItem)
  | tick (cx : Cx) (panelFirst : Bool)

/-- What that is for `Prog`. -/
def PanelOp.pop : PanelOp → POp
  | .dialed r => .dialed r
  | .arrive r => .op (.arrive r)
  | .writable r => .op (.writable r)
  | .tick cx pf => .op (.tick cx pf)

/-- What happens to the program: the client notifies it of something or fails, or something happens to
`inner`. -/
inductive WholeOp where
  | mqtt (r : Except Nat Notification)
  | panel (op : PanelOp)

/-- main.rs:444-471 once `inner` serves, it receives what is in the channel. -/
def Whole.hand (rx : List Publish) : Prog → Whole
  | .running s b => ⟨.running s { b with inbox := b.inbox ++ rx }, []⟩
  | p => ⟨p, rx⟩

/-- main.rs:329-342 `run_eventloop`, one round of its loop after `unwrap`. -/
def Whole.notified (on : Callsite → Bool) (trace : Bool) (w : Whole) (n : Notification) :
    P (List Line × List Published × Whole) :=
  let l := if trace then [Line.notification n] else []
  match n with
  | .other _ => .ok (l, [], w)
  | .publish p =>
    match w.prog with
    | .running s b => do
      let (l', out, q) ← Prog.stepL on (.running s b) (.op (.deliver p))
      .ok (l ++ l'.map .record, out, { w with prog := q })
    | _ => .ok (l, [], { w with rx := w.rx ++ [p] })

/-- One operation: main.rs:334 `eventloop.poll().await.unwrap()`, or one of `inner`. -/
def Whole.stepL (on : Callsite → Bool) (trace : Bool) (w : Whole) :
    WholeOp → P (List Line × List Published × Whole)
  | .mqtt (.error _) => .error .expect
  | .mqtt (.ok n) => w.notified on trace n
  | .panel op => do
    let (l, out, q) ← w.prog.stepL on op.pop
    .ok (l.map .record, out, Whole.hand w.rx q)

/-- A sequence of operations, with what each logs and what each publishes. -/
def Whole.runL (on : Callsite → Bool) (trace : Bool) :
    List WholeOp → Whole → P (List (List Line) × List (List Published) × Whole)
  | [], w => .ok ([], [], w)
  | op :: ops, w => do
    let (l, out, w) ← w.stepL on trace op
    let (ls, outs, w) ← Whole.runL on trace ops w
    .ok (l :: ls, out :: outs, w)

end Elk
