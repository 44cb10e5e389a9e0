import Verif.Spec.ProgLog
import Verif.Model.Whole
/-!
# The reference machine of the whole of `main`

That of the bridge program (`Recounts`) and a waiting room for messages of the broker that come before it
serves.
-/

namespace Elk.Spec

/-- It serves. -/
def Point.Open (x : Point) : Prop := ∃ code d, x = .serving code d

/-- The messages in the waiting room come into the inbox when it serves, and wait on otherwise. -/
inductive LetIn (q : List Publish) : Point → List Publish → Point → Prop
  | closed {x} : ¬ x.Open → LetIn q x q x
  | opened {code d} :
      LetIn q (.serving code d) [] (.serving code { d with inbox := d.inbox ++ q })

/-- One operation, what it read from and wrote to the panel, what it published and logged, and what is
in the waiting room and where the program is, before and after. -/
inductive Abides (cfg : Cfg) : List Publish → Point → WholeOp → Bytes → Bytes → List Published →
    List Line → List Publish → Point → Prop
  /-- a message that comes before the program serves -/
  | early {q x p} : ¬ x.Open →
      Abides cfg q x (.mqtt (.ok (.publish p))) [] [] [] [.notification (.publish p)] (q ++ [p]) x
  /-- a message that comes later -/
  | delivered {x y p rd wr out l} : x.Open → Recounts cfg x (.op (.deliver p)) rd wr out l y →
      Abides cfg [] x (.mqtt (.ok (.publish p))) rd wr out
        (.notification (.publish p) :: l.map .record) [] y
  /-- anything else that the MQTT client says -/
  | other {q x n} :
      Abides cfg q x (.mqtt (.ok (.other n))) [] [] [] [.notification (.other n)] q x
  | panel {q x op rd wr out l y q' y'} : Recounts cfg x op.pop rd wr out l y → LetIn q y q' y' →
      Abides cfg q x (.panel op) rd wr out (l.map .record) q' y'

/-- What ends the program. -/
inductive Collapses (cfg : Cfg) (x : Point) : WholeOp → Prop
  /-- the MQTT client fails -/
  | mqtt {e} : Collapses cfg x (.mqtt (.error e))
  | panel {op rd wr} : Perishes cfg x op.pop rd wr → Collapses cfg x (.panel op)

/-- What happened in one operation. -/
structure Scene where
  op : WholeOp
  rd : Bytes
  wr : Bytes
  out : List Published
  log : List Line

/-- A history of the whole program. -/
inductive Saga (cfg : Cfg) : List Publish → Point → List Scene → List Publish → Point → Prop
  | nil {q x} : Saga cfg q x [] q x
  | cons {q x q' y q'' z d l} : Abides cfg q x d.op d.rd d.wr d.out d.log q' y →
      Saga cfg q' y l q'' z → Saga cfg q x (d :: l) q'' z

/-- The lines that are enabled. -/
def enabledLines (on : Callsite → Bool) (trace : Bool) (l : List Line) : List Line :=
  l.filter fun
    | .notification _ => trace
    | .record r => on r.site

/-- The messages that the broker sent. -/
def notifiedOf (l : List Scene) : List Publish :=
  l.filterMap fun d => match d.op with
    | .mqtt (.ok (.publish p)) => some p
    | _ => none

/-- The records of messages taken up, in a log. -/
def receipts (l : List Line) : List Record :=
  l.filterMap fun
    | .record r => if r.site = .publish then some r else none
    | .notification _ => none

/-- The messages that wait to be taken up. -/
def waitingAt (q : List Publish) : Point → List Publish
  | .serving _ d => d.inbox ++ q
  | _ => q

/-- The records of `inner` in a log. -/
def recordsOf (l : List Line) : List Record :=
  l.filterMap fun
    | .record r => some r
    | .notification _ => none

/-- The notifications in a log. -/
def notesOf (l : List Line) : List Notification :=
  l.filterMap fun
    | .notification n => some n
    | .record _ => none

/-- The messages delivered in a history of the bridge program. -/
def deliveredIn (l : List Entry) : List Publish :=
  l.filterMap fun d => match d.op with
    | .op (.deliver p) => some p
    | _ => none

/-- What the client said, in a history of the whole program. -/
def saidBy (l : List Scene) : List Notification :=
  l.filterMap fun d => match d.op with
    | .mqtt (.ok n) => some n
    | _ => none

/-- The program is here. -/
structure Dwells (w : Whole) (q : List Publish) (x : Point) : Prop where
  being : Being w.prog x
  room : w.rx = q

end Elk.Spec
