import Verif.Model.Main
import Verif.Spec.Mqtt
/-!
# The bridge program, the broker and other clients of the broker

Not a definition of /repo except where cited: the environment in which commands reach the program.
It extends `Site` by what other clients post and by what the broker delivers.

The program subscribes to the command topics with QoS 0 (main.rs:429-433), and its session is not
kept by the broker (the default of `rumqttc`): what the broker forwards may get lost, and nothing is
kept for a program that is gone.  When a subscription is made, the broker sends the message it
retains for the topic (MQTT 3.1.1, section 3.8.4); `handle_publish` does not look at the mark that
distinguishes these.  A broker forwards a client's own messages to it, too.

Simplifications: the subscription may happen at any time while the program is in its loop and
connected to the broker (in the code, just before `online` is transmitted).  A message on a topic to
which the program subscribed twice (two areas of the same name) is forwarded once.
-/

namespace Elk
open Spec (retained)

/-- `down` is what the broker has forwarded and the program has not received yet, `subs` the topics
for which it forwards, and `seen` what has been observed of the program's loop, in all its runs. -/
structure World where
  site : Site
  subs : List Bytes
  down : List Publish
  seen : List BObs

/-- A message as it is forwarded; `render` is the text of JSON values. -/
def Published.forwarded (render : Json → Bytes) (m : Published) : Publish :=
  ⟨m.topic, match m.payload with
    | .text b => b
    | .json j => render j⟩

/-- What can happen. -/
inductive WOp where
  /-- something happens at the site (other than a delivery) -/
  | site (op : SOp)
  /-- the subscription is made -/
  | subscribe
  /-- another client posts a message -/
  | post (m : Published)
  /-- the oldest forwarded message reaches the program -/
  | deliver
  /-- the oldest forwarded message is lost -/
  | lose

/-- What is observed of the program's loop. -/
def Prog.observe : Prog → POp → List BObs
  | .running _ b, .op op =>
    match b.step op with
    | .ok (o, _) => [o]
    | .error _ => []
  | _, _ => []

/-- What the broker forwards of a message it accepts. -/
def World.forward (render : Json → Bytes) (w : World) (m : Published) : List Publish :=
  if m.topic ∈ w.subs then [m.forwarded render] else []

/-- What the broker forwards because of an event at the site: the program's own messages. -/
def World.echo (render : Json → Bytes) (w : World) : SOp → List Publish
  | .transmit =>
    match w.site.link, w.site.queue with
    | true, m :: _ => w.forward render m
    | _, _ => []
  | _ => []

/-- What is observed of the program's loop because of an event at the site. -/
def World.observe (w : World) : SOp → List BObs
  | .prog op =>
    match w.site.prog with
    | some p => p.observe op
    | none => []
  | _ => []

/-- The effect of an event at the site. -/
def World.atSite (render : Json → Bytes) (w : World) (op : SOp) : World :=
  let site := w.site.step op
  match site.prog with
  | none => ⟨site, [], [], w.seen ++ w.observe op⟩
  | some _ => ⟨site, w.subs, w.down ++ w.echo render op, w.seen ++ w.observe op⟩

/-- The retained message for a topic, as it is forwarded. -/
def World.kept (render : Json → Bytes) (w : World) (topic : Bytes) : List Publish :=
  match retained w.site.broker topic with
  | none => []
  | some payload => [Published.forwarded render ⟨topic, true, payload⟩]

/-- One event. -/
def World.step (render : Json → Bytes) (w : World) : WOp → World
  | .site (.prog (.op (.deliver _))) => w
  | .site op => w.atSite render op
  | .subscribe =>
    match w.site.prog, w.site.link, w.subs with
    | some (.running _ b), true, [] =>
      { w with subs := b.subscribed, down := w.down ++ b.subscribed.flatMap (w.kept render) }
    | _, _, _ => w
  | .post m =>
    { w with site := { w.site with broker := w.site.broker ++ [m] },
             down := w.down ++ w.forward render m }
  | .deliver =>
    match w.down with
    | [] => w
    | p :: down => World.atSite render { w with down } (.prog (.op (.deliver p)))
  | .lose => { w with down := w.down.tail }

/-- A sequence of events. -/
def World.run (render : Json → Bytes) (ops : List WOp) (w : World) : World :=
  ops.foldl (World.step render) w

end Elk
