import Verif.Model.World
import Verif.Spec.Main
/-!
# Vocabulary for properties of the bridge program among other clients of the broker
-/

namespace Elk.Spec

/-- A topic for commands. -/
def CommandTopic (t : Bytes) : Prop :=
  ∃ pre name, t = pre ++ bs "/area/" ++ name ++ bs "/ha_command"

/-- What other clients posted in a history. -/
def posted (ops : List WOp) : List Published :=
  ops.filterMap fun
    | .post m => some m
    | _ => none

/-- Nothing has happened yet: no program runs. -/
structure Dawn (w : World) : Prop where
  prog : w.site.prog = none
  queue : w.site.queue = []
  subs : w.subs = []
  down : w.down = []
  seen : w.seen = []

/-- At some moment of this history a bridge was running that understands this message as asking for
this command. -/
def AskedIn (render : Json → Bytes) (w0 : World) (ops : List WOp) (p : Publish) (c : Command) :
    Prop :=
  ∃ before cf b code, before <+: ops ∧ Running (World.run render before w0).site cf b ∧
    ArmCode.tryFromNum cf.cfg.elk.code = .ok code ∧ Asks cf.cfg code p (some c)

/-- No command is or was posted to be retained. -/
def NoneKept (w0 : World) (ops : List WOp) : Prop :=
  ∀ m ∈ w0.site.broker ++ posted ops, CommandTopic m.topic → m.retain = false

end Elk.Spec
