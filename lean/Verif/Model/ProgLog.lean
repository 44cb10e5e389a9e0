import Verif.Model.Log
import Verif.Model.Main
/-!
# What the bridge program logs, from its start on

`Prog.step` (Model/Main.lean) with the records of the `tracing` calls on the way.  `main` itself logs
nothing (elkm1-mqtt/src/main.rs:367-405).
-/

namespace Elk

/-- main.rs:418-443 what follows a step of `connect`. -/
def Prog.connectedL (on : Callsite → Bool) (s : Setup) :
    Phase → P (List Record × List Published × Prog)
  | .asking i => .ok ([], [], .connecting s i)
  | .finished (.error _) => .error .expect
  | .finished (.ok panel) => do
    let (l, b) ← Bridge.startL on s.cfg panel
    .ok (l, b.log, .running s b)

/-- One operation, with what is logged and published (`Prog.step`). -/
def Prog.stepL (on : Callsite → Bool) : Prog → POp → P (List Record × List Published × Prog)
  | .dialing _, .dialed (.error _) => .error .expect
  | .dialing s, .dialed (.ok ()) => do
    let (l, ph) ← Init.startL on {}
    let (l', out, p) ← Prog.connectedL on s ph
    .ok (l ++ l', out, p)
  | .dialing s, .op _ => .ok ([], [], .dialing s)
  | .connecting s i, .dialed _ => .ok ([], [], .connecting s i)
  | .connecting s i, .op (.arrive r) => do
    let (l, _, ph) ← i.stepL on (.arrive r)
    let (l', out, p) ← Prog.connectedL on s ph
    .ok (l ++ l', out, p)
  | .connecting s i, .op (.writable w) => do
    let (l, _, ph) ← i.stepL on (.writable w)
    let (l', out, p) ← Prog.connectedL on s ph
    .ok (l ++ l', out, p)
  | .connecting s i, .op (.tick cx _) => do
    let (l, _, ph) ← i.stepL on (.tick cx)
    let (l', out, p) ← Prog.connectedL on s ph
    .ok (l ++ l', out, p)
  | .connecting s i, .op (.deliver _) => .ok ([], [], .connecting s i)
  | .running s b, .dialed _ => .ok ([], [], .running s b)
  | .running s b, .op op => do
    let (l, o, b) ← b.stepL on op
    .ok (l, o.out, .running s b)

/-- A sequence of operations, with what was logged by each and what was published by each. -/
def Prog.runL (on : Callsite → Bool) :
    List POp → Prog → P (List (List Record) × List (List Published) × Prog)
  | [], p => .ok ([], [], p)
  | op :: ops, p => do
    let (l, out, p) ← p.stepL on op
    let (ls, outs, p) ← Prog.runL on ops p
    .ok (l :: ls, out :: outs, p)

end Elk
