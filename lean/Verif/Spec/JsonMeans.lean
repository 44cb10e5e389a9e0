import Verif.Spec.JsonGrammar
import Verif.Model.JsonText
/-!
# What a JSON text says

`Means d j`: the text that was read as `d` says `j`.
-/

namespace Elk.Spec.Rfc

/-- UTF-8. -/
def Utf8 (s : Bytes) : Prop := ∃ cs : List Char, s = cs.flatMap String.utf8EncodeChar

mutual
/-- What was read, and what it says. -/
inductive Means : Doc → Json → Prop
  | null : Means .null .null
  | bool (b) : Means (.bool b) (.bool b)
  | nat (n) : Means (.nat n) (.num n)
  | str {raw t} : Says raw t → Means (.str raw) (.str t)
  | arr {l l'} : MeansAll l l' → Means (.arr l) (.arr l')
  | obj {l l'} : MeansFields l l' → Means (.obj l) (.obj l')
/-- Lists of values. -/
inductive MeansAll : List Doc → List Json → Prop
  | nil : MeansAll [] []
  | cons {d j l l'} : Means d j → MeansAll l l' → MeansAll (d :: l) (j :: l')
/-- Names and values. -/
inductive MeansFields : List (Bytes × Doc) → List (Bytes × Json) → Prop
  | nil : MeansFields [] []
  | cons {raw d k j l l'} : Says raw k → Means d j → MeansFields l l' →
      MeansFields ((raw, d) :: l) ((k, j) :: l')
end

/-- The bytes are, by RFC 8259, a JSON text that says this. -/
def JsonFor (j : Json) (s : Bytes) : Prop := ∃ d, Text d s ∧ Means d j

mutual
/-- All strings and names in a JSON value are UTF-8. -/
def Textual : Json → Prop
  | .null => True
  | .bool _ => True
  | .num _ => True
  | .str s => Utf8 s
  | .arr l => TextualAll l
  | .obj l => TextualFields l
/-- Lists of values. -/
def TextualAll : List Json → Prop
  | [] => True
  | x :: l => Textual x ∧ TextualAll l
/-- Names and values. -/
def TextualFields : List (Bytes × Json) → Prop
  | [] => True
  | (k, x) :: l => Utf8 k ∧ Textual x ∧ TextualFields l
end

/-- The configured texts are UTF-8. -/
structure TextCfg (cfg : Cfg) : Prop where
  serial : Utf8 cfg.elk.serialNumber
  topicPrefix : ∀ p, cfg.mqtt.topicPrefix = some p → Utf8 p
  ha : ∀ p, cfg.mqtt.haDiscoveryPrefix = some p → Utf8 p
  areas : ∀ a ∈ cfg.elk.areas, Utf8 a.2.name
  zones : ∀ a ∈ cfg.elk.zones, Utf8 a.2.name ∧ Utf8 a.2.binarySensorDeviceClass

/-- What is published can be read: the topic is UTF-8, and so is the payload, which is text or JSON. -/
def Legible (m : Published) : Prop :=
  Utf8 m.topic ∧ match m.payload with
    | .text t => Utf8 t
    | .json j => JsonFor j m.payload.bytes

end Elk.Spec.Rfc
