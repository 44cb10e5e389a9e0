import Verif.Spec.Whole
import Verif.Spec.ExactProgram
/-!
# The reference machine of the whole of `main`, exactly

The machine of Spec/Whole.lean allows whatever the program does.  With the rules added here it allows
nothing else.
-/

namespace Elk.Spec

/-- What happens to the program, as opposed to what happens to its connection to the panel. -/
def isStride : WholeOp → Bool
  | .mqtt _ => true
  | .panel (.dialed _) => true
  | .panel (.tick _ _) => true
  | .panel _ => false

def strides (ds : List Scene) : List Scene := ds.filter fun d => isStride d.op

/-- A history of the program: nothing is read while a packet is at the front. -/
inductive Persists (cfg : Cfg) : List Publish → Point → List Scene → List Publish → Point → Prop
  | nil {q x} : Persists cfg q x [] q x
  | cons {q x q' y q'' z d l} : isStride d.op = true →
      Abides cfg q x d.op d.rd d.wr d.out d.log q' y → Ripe x.unread d.rd →
      Persists cfg q' y l q'' z → Persists cfg q x (d :: l) q'' z

/-- How the program can end here, and with what panic. -/
inductive Fells (cfg : Cfg) (x : Point) : WholeOp → Panic → Prop
  /-- the MQTT client fails -/
  | mqtt {e} : Fells cfg x (.mqtt (.error e)) .expect
  | panel {op q} : Dies cfg x op.pop q → Fells cfg x (.panel op) q

/-- With only what is enabled of the log. -/
def Scene.logging (on : Callsite → Bool) (trace : Bool) (d : Scene) : Scene :=
  { d with log := enabledLines on trace d.log }

/-- A history of the program: what was done, what was read from and written to the panel, what was
published, and what of the log is enabled. -/
def tracedWhole (on : Callsite → Bool) (trace : Bool) :
    List WholeOp → Whole → P (List Scene × Whole)
  | [], w => .ok ([], w)
  | op :: ops, w => do
    let (log, out, w₁) ← w.stepL on trace op
    let (ds, w₂) ← tracedWhole on trace ops w₁
    .ok (⟨op, (lineOf w₁.prog).1.drop (lineOf w.prog).1.length,
      (lineOf w₁.prog).2.drop (lineOf w.prog).2.length, out, log⟩ :: ds, w₂)

end Elk.Spec
