import Verif.Spec.Mqtt
/-!
# Vocabulary for several bridges at one broker, and for what Home Assistant makes a device of
-/

namespace Elk.Spec

/-- The value of a field of a JSON object. -/
def field (k : String) : Payload → Option Json
  | .json (.obj l) => l.lookup (bs k)
  | _ => none

/-- The document belongs to the device that is the panel with this serial number: the `device` of
Home Assistant's discovery, with its three fields. -/
def OfDevice (serial : Bytes) (doc : Payload) : Prop :=
  ∃ d, field "device" doc = some d ∧
    stringField "manufacturer" (.json d) = some (bs "Elk Products") ∧
    stringField "model" (.json d) = some (bs "M1") ∧
    field "identifiers" (.json d) = some (.arr [.str serial])

/-- No topic is under both prefixes. -/
def Apart (p q : Bytes) : Prop := ∀ x y, p ++ b' '/' :: x ≠ q ++ b' '/' :: y

/-- `l` consists of `l1` and `l2`, each in its order. -/
inductive Shuffle {α : Type} : List α → List α → List α → Prop
  | nil : Shuffle [] [] []
  | left {x l1 l2 l} : Shuffle l1 l2 l → Shuffle (x :: l1) l2 (x :: l)
  | right {x l1 l2 l} : Shuffle l1 l2 l → Shuffle l1 (x :: l2) (x :: l)

end Elk.Spec
