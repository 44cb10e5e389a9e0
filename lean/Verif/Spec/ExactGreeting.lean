import Verif.Spec.Greeting
import Verif.Spec.Exact
/-!
# The reference machine of `connect`, exactly

The machine of Spec/Greeting.lean allows whatever `connect` does.  With the rules added here it
allows nothing else.
-/

namespace Elk.Spec

/-- The errors with which reading ends that has read `b` and found no packet at the front. -/
inductive Ceases (b : Bytes) : IoErr → Prop
  | socket {c} : Ceases b (.socket c)
  | cut : b ≠ [] → Ceases b .bytesRemaining
  | over : b = [] → Ceases b .unexpectedEof

/-- Nothing is read while a packet is at the front, and errors of writing only occur while there is
something to write. -/
def Bears : Where → Greet → Bytes → Bytes → Obs → Prop
  | .toAsk _, _, _, _, _ => True
  | .sending _, g, _, wr, o => ∀ e, o = .failed e →
      wr ≠ g.unsent ∧ (e = .writeZero ∨ ∃ c, e = .socket c)
  | .waiting _, g, rd, _, o => Ripe g.unread rd ∧ ∀ e, o = .failed e → Ceases (g.unread ++ rd) e

/-- A history of polls of `connect`. -/
inductive Tries : Outcome → List Act → Outcome → Prop
  | nil {x} : Tries x [] x
  | cons {w g d cx x l y} : d.op = .tick cx → Connects w g (.tick cx) d.rd d.wr d.out x →
      Bears w g d.rd d.wr d.out → Tries x l y → Tries (.asking w g) (d :: l) y

/-- What the socket of the future has more of, unless it is gone. -/
def gained (f : Socket → Bytes) (s : Socket) (ph : Phase) : Bytes :=
  match sockOf ph with
  | some s' => (f s').drop (f s).length
  | none => []

/-- A history of connecting: what was done, what was read and written, and what was observed. -/
def tracedInit : List InitOp → Phase → P (List Act × Phase)
  | [], ph => .ok ([], ph)
  | _ :: _, .finished r => .ok ([], .finished r)
  | op :: ops, .asking i => do
    let (o, ph) ← i.step op
    let (as, ph') ← tracedInit ops ph
    .ok (⟨op, gained (·.received) i.panel.conn.sock ph, gained (·.sent) i.panel.conn.sock ph, o⟩
      :: as, ph')

/-- Polls, as opposed to what happens to the connection. -/
def isTick : InitOp → Bool
  | .tick _ => true
  | _ => false

def polls (as : List Act) : List Act := as.filter fun d => isTick d.op

/-- A poll, if it fails without what it read or wrote: the connection is dropped then. -/
def calm (d : Act) : Act :=
  match d.out with
  | .failed e => ⟨d.op, [], [], .failed e⟩
  | _ => d

/-- There are only names of entries that exist. -/
def Tidy : Outcome → Prop
  | .asking _ g => ∀ ty n, (n = 0 ∨ entries ty < n) → g.name ty n = .empty
  | .done g => ∀ ty n, (n = 0 ∨ entries ty < n) → g.name ty n = .empty
  | .failed _ => True

end Elk.Spec
