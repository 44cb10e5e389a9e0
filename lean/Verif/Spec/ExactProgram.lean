import Verif.Spec.Program
import Verif.Spec.ExactGreeting
import Verif.Spec.ExactDesk
/-!
# The reference machine of the bridge program, exactly

The machine of Spec/Program.lean allows whatever the program does.  With the rules added here it
allows nothing else.
-/

namespace Elk.Spec

/-- What happens to the connection to the panel, as opposed to all else. -/
def isMove : POp → Bool
  | .op op => isJob op
  | .dialed _ => true

def moves (ds : List Deal) : List Deal := ds.filter fun d => isMove d.op

/-- What has been read and not yet taken. -/
def Point.unread : Point → Bytes
  | .dialing => []
  | .greeting _ g => g.unread
  | .serving _ d => d.view.unread

/-- A history of the program: nothing is read while a packet is at the front. -/
inductive Endures (cfg : Cfg) : Point → List Deal → Point → Prop
  | nil {x} : Endures cfg x [] x
  | cons {x y z d l} : isMove d.op = true → Proceeds cfg x d.op d.rd d.wr d.out y →
      Ripe x.unread d.rd → Endures cfg y l z → Endures cfg x (d :: l) z

/-- How the program can end here, and with what panic. -/
inductive Dies (cfg : Cfg) : Point → POp → Panic → Prop
  /-- the panel cannot be reached -/
  | unreachable {e} : Dies cfg .dialing (.dialed (.error e)) .expect
  /-- while connecting, reading or writing fails or the connection ends -/
  | lost {w g cx pf rd wr o e} : Connects w g (.tick cx) rd wr o (.failed e) → Bears w g rd wr o →
      Dies cfg (.greeting w g) (.op (.tick cx pf)) .expect
  /-- the panel names something that there is no room for -/
  | room {w g cx pf rd} : Breaks w g (.tick cx) rd → Ripe g.unread rd →
      Dies cfg (.greeting w g) (.op (.tick cx pf)) .index
  /-- it is connected, but the configuration is not usable -/
  | unusable {w g cx pf rd wr o g'} : Connects w g (.tick cx) rd wr o (.done g') →
      Ripe g.unread rd → ¬ UsableCfg cfg → Dies cfg (.greeting w g) (.op (.tick cx pf)) .expect
  | quits {code d cx pf q} : Quits cfg d cx pf q →
      Dies cfg (.serving code d) (.op (.tick cx pf)) q

/-- A history of the program: what was done, what was read from and written to the panel, and what
was published. -/
def tracedProg : List POp → Prog → P (List Deal × Prog)
  | [], p => .ok ([], p)
  | op :: ops, p => do
    let (out, p₁) ← p.step op
    let (ds, p₂) ← tracedProg ops p₁
    .ok (⟨op, (lineOf p₁).1.drop (lineOf p).1.length, (lineOf p₁).2.drop (lineOf p).2.length, out⟩
      :: ds, p₂)

/-- There are only names of entries that exist. -/
def Neat : Point → Prop
  | .greeting w g => Tidy (.asking w g)
  | _ => True

end Elk.Spec
