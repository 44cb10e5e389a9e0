import Verif.Spec.Home
import Verif.Spec.EndToEnd
/-!
# Silence and time

What it takes for the broker to catch up with the panel (Spec/Home.lean): the panel pauses, and time
goes on.
-/

namespace Elk.Spec

/-- From some time on the panel says nothing of its own accord, and nothing is posted. -/
def FallsSilent (ops : Nat → HomeOp) : Prop :=
  ∃ n, ∀ m, n ≤ m → (∀ msg, ops m ≠ .say msg) ∧ ∀ p c, ops m ≠ .post p c

/-- The clock runs on: any time is past at last. -/
def ClockRuns (ops : Nat → HomeOp) : Prop :=
  ∀ t, ∃ n, ∀ m, n ≤ m → ∀ cx pf, ops m = .tick cx pf → t ≤ cx.timer

/-- Timers fire: if the task of the bridge sleeps, and the timer of a withheld report has the waker
it sleeps with, then it does not sleep on for ever. -/
def TimersFire (h0 : Home) (ops : Nat → HomeOp) : Prop :=
  ∀ n h pa w, Home.after h0 ops n = .ok h → h.bridge.panel.pendingArm = some pa →
    pa.waker = some w → h.asleep = some w →
    ∃ m h', n ≤ m ∧ Home.after h0 ops m = .ok h' ∧ h'.asleep ≠ some w

end Elk.Spec
