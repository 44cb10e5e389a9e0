import Verif.Spec.Wire
import Verif.Model.Log
/-!
# Text that a terminal shows as it is
-/

namespace Elk.Spec

/-- Printable ASCII and new lines: no other control characters, and none beyond ASCII. -/
def Legible (t : Bytes) : Prop := ∀ b ∈ t, Printable b ∨ b = 0x0a

/-- A field of a record, as far as it shows values of this repository: what `?` shows is legible, what
`%` shows is printable and thus on one line. -/
def LegibleField : FieldValue → Prop
  | .debug d => Legible d.text
  | .text t => ∀ b ∈ t, Printable b
  | .publish _ _ => False
  | .bytes _ => False

/-- All fields of a record. -/
def LegibleRecord (r : Record) : Prop := ∀ f ∈ r.fields, LegibleField f.2

/-- The calls of the bridge that show what the broker sent. -/
def brokerSites : List Callsite := [.publish, .matched, .unknownLevel, .unknownTopic]

end Elk.Spec
