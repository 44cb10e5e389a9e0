import Verif.Spec.Watching
import Verif.Spec.ExactGreeting
/-!
# The reference machine of `elkm1-cli watch`, exactly

The machine of Spec/Watching.lean allows whatever `watch` does.  With the rules added here it allows
nothing else.
-/

namespace Elk.Spec

/-- What happens to `watch`, as opposed to what happens to its connection. -/
def isGlance : WatcherOp → Bool
  | .op op => isTick op
  | .dialed _ => true

def glances (ds : List Glance) : List Glance := ds.filter fun d => isGlance d.op

/-- What has been read and not yet taken. -/
def Vantage.unread : Vantage → Bytes
  | .dialing => []
  | .greeting _ g => g.unread
  | .seeing _ _ v => v.unread
  | .over => []

/-- A history of `watch`: nothing is read while a packet is at the front, and `watch` returns only if
the connection ends between packets. -/
inductive Keeps : Vantage → List Glance → Vantage → Prop
  | nil {x} : Keeps x [] x
  | cons {x y z d l} : isGlance d.op = true → Spots x d.op d.rd d.wr d.log y → Ripe x.unread d.rd →
      (y = .over → x.unread ++ d.rd = []) → Keeps y l z → Keeps x (d :: l) z

/-- How `watch` can panic here. -/
inductive Darkens : Vantage → WatcherOp → Panic → Prop
  /-- the panel cannot be reached -/
  | unreachable {e} : Darkens .dialing (.dialed (.error e)) .expect
  /-- while connecting, reading or writing fails or the connection ends -/
  | lost {w g cx rd wr o e} : Connects w g (.tick cx) rd wr o (.failed e) → Bears w g rd wr o →
      Darkens (.greeting w g) (.op (.tick cx)) .expect
  /-- the panel names something that there is no room for -/
  | room {w g cx rd} : Breaks w g (.tick cx) rd → Ripe g.unread rd →
      Darkens (.greeting w g) (.op (.tick cx)) .index
  /-- reading fails -/
  | broken {areas zones v cx} : Waits v.unread → Darkens (.seeing areas zones v) (.op (.tick cx)) .expect

/-- A history of `watch`: what was done, what was read from and written to the panel, and what of the
log is enabled. -/
def tracedWatch (on : Callsite → Bool) : List WatcherOp → Watcher → P (List Glance × Watcher)
  | [], w => .ok ([], w)
  | op :: ops, w => do
    let (log, w₁) ← w.stepL on op
    let (ds, w₂) ← tracedWatch on ops w₁
    .ok (⟨op, (lineSeen w₁).1.drop (lineSeen w).1.length, (lineSeen w₁).2.drop (lineSeen w).2.length,
      log⟩ :: ds, w₂)

/-- With only what is enabled of the log. -/
def Glance.logging (on : Callsite → Bool) (d : Glance) : Glance :=
  { d with log := enabled on d.log }

/-- There are only names of entries that exist. -/
def Trim : Vantage → Prop
  | .greeting w g => Tidy (.asking w g)
  | _ => True

end Elk.Spec
