import Verif.Spec.Greeting
import Verif.Spec.Desk
import Verif.Spec.Main
/-!
# Reference machine of the bridge program

The whole of `elkm1-mqtt` after its configuration has been read: it reaches the panel, connects,
announces itself and serves.  The machine of `connect` (`Connects`) and that of the bridge (`Serves`)
put together; nothing here uses the functions of the model of the program.
-/

namespace Elk.Spec

/-- Where the program is: reaching the panel, connecting, or serving with an arm code. -/
inductive Point where
  | dialing
  | greeting (w : Where) (g : Greet)
  | serving (code : ArmCode) (d : Desk)

/-- What an operation on the program is while connecting: nothing is delivered yet. -/
inductive Polls : BOp → InitOp → Prop
  | arrive {r} : Polls (.arrive r) (.arrive r)
  | writable {r} : Polls (.writable r) (.writable r)
  | tick {cx pf} : Polls (.tick cx pf) (.tick cx)

/-- The six digits of a number. -/
def SixDigits (n : Nat) (code : ArmCode) : Prop :=
  (∀ b ∈ code.code.toList, IsDigit b) ∧ digitsValue code.code.toList = n

/-- What an observation of the bridge publishes. -/
inductive Voices : BObs → List Published → Prop
  | event {ev out w} : Voices (.event ev out w) out
  | silent {o} : (∀ ev out w, o ≠ .event ev out w) → Voices o []

/-- One operation on the program, what it read from and wrote to the panel, what it published, and
where it left the program. -/
inductive Proceeds (cfg : Cfg) : Point → POp → Bytes → Bytes → List Published → Point → Prop
  | reached : Proceeds cfg .dialing (.dialed (.ok ())) [] [] []
      (.greeting (.toAsk .armingStatusRequest) .new)
  | early {op} : Proceeds cfg .dialing (.op op) [] [] [] .dialing
  | dialed {x r} : x ≠ .dialing → Proceeds cfg x (.dialed r) [] [] [] x
  | undelivered {w g p} : Proceeds cfg (.greeting w g) (.op (.deliver p)) [] [] [] (.greeting w g)
  | greets {w g op q rd wr o w' g'} : Polls op q → Connects w g q rd wr o (.asking w' g') →
      Proceeds cfg (.greeting w g) (.op op) rd wr [] (.greeting w' g')
  /-- the last reply: what is known is announced -/
  | opens {w g op q rd wr o g' a z code out} : Polls op q → Connects w g q rd wr o (.done g') →
      UsableCfg cfg → SixDigits cfg.elk.code.toNat code → g'.shown = some a → g'.zones = some z →
      Opens cfg ⟨g'.unread, a, z, g'.held, none, []⟩ out →
      Proceeds cfg (.greeting w g) (.op op) rd wr out
        (.serving code ⟨⟨g'.unread, a, z, g'.held, none, []⟩, [], .select⟩)
  | serves {code d op rd wr o d' out} : Serves cfg code d op rd wr o d' → Voices o out →
      Proceeds cfg (.serving code d) (.op op) rd wr out (.serving code d')

/-- What ends the program. -/
inductive Perishes (cfg : Cfg) : Point → POp → Bytes → Bytes → Prop
  /-- the panel cannot be reached -/
  | unreachable {e} : Perishes cfg .dialing (.dialed (.error e)) [] []
  /-- while connecting, reading or writing fails or the connection ends -/
  | lost {w g op q rd wr o e} : Polls op q → Connects w g q rd wr o (.failed e) →
      Perishes cfg (.greeting w g) (.op op) rd wr
  /-- the panel names something that there is no room for -/
  | room {w g op q rd} : Polls op q → Breaks w g q rd → Perishes cfg (.greeting w g) (.op op) rd []
  /-- it is connected, but the configuration is not usable -/
  | unusable {w g op q rd wr o g'} : Polls op q → Connects w g q rd wr o (.done g') →
      ¬ UsableCfg cfg → Perishes cfg (.greeting w g) (.op op) rd wr
  | stops {code d op rd wr} : Stops cfg d op rd wr → Perishes cfg (.serving code d) (.op op) rd wr

/-- What happened in one operation of the program. -/
structure Deal where
  op : POp
  rd : Bytes
  wr : Bytes
  out : List Published

/-- A history of the program. -/
inductive Career (cfg : Cfg) : Point → List Deal → Point → Prop
  | nil {x} : Career cfg x [] x
  | cons {x y z d l} : Proceeds cfg x d.op d.rd d.wr d.out y → Career cfg y l z →
      Career cfg x (d :: l) z

/-- The program is here. -/
inductive Being : Prog → Point → Prop
  | dialing {s} : Being (.dialing s) .dialing
  | greeting {s i w g} : Stands (.asking i) (.asking w g) → Being (.connecting s i) (.greeting w g)
  | serving {s b d} : Sits b d → Being (.running s b) (.serving b.code d)

/-- What the program has read from and written to the panel. -/
def lineOf : Prog → Bytes × Bytes
  | .dialing _ => ([], [])
  | .connecting _ i => (i.panel.conn.sock.received, i.panel.conn.sock.sent)
  | .running _ b => (b.panel.conn.sock.received, b.panel.conn.sock.sent)

/-- A sequence of operations on the program, with what each publishes. -/
def progRun : List POp → Prog → P (List (List Published) × Prog)
  | [], p => .ok ([], p)
  | op :: ops, p => do
    let (out, p) ← p.step op
    let (outs, p) ← progRun ops p
    .ok (out :: outs, p)

end Elk.Spec
