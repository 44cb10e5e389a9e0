import Verif.Spec.Calm
/-!
# What matters of the packets of a panel

Reports on the areas, reports and changes of the zones, and names.  The rest is chatter: other
messages, texts that are at fault, packets of ElkRP, bytes that are no packet.
-/

namespace Elk.Spec

/-- The messages that matter for what is shown. -/
def Counting : Message → Prop
  | .armingStatusReport _ => True
  | .zoneStatusReport _ => True
  | .zoneChange _ => True
  | .stringDescriptionResponse _ => True
  | _ => False

/-- The messages that matter, in order. -/
inductive Gist : List Packet → List Message → Prop
  | nil : Gist [] []
  | tells {pkt m ps ms} : Means pkt (some (.ok m)) → Counting m → Gist ps ms →
      Gist (pkt :: ps) (m :: ms)
  | skip {pkt x ps ms} : Means pkt x → (∀ m, x = some (.ok m) → ¬ Counting m) → Gist ps ms →
      Gist (pkt :: ps) ms

/-- The messages that matter in some bytes. -/
def GistBytes (b : Bytes) (ms : List Message) : Prop :=
  ∃ ps left, Taken b ps left ∧ Waits left ∧ Gist ps ms

end Elk.Spec
