import Verif.Model.Fuzz
import Verif.Spec.Msg
/-!
# Vocabulary of the properties of the fuzz targets
-/

namespace Elk.Spec

/-- A six-digit code whose number is `hi * 65536 + lo` with `lo` below 256. -/
def TriedCode (c : ArmCode) : Prop :=
  ∃ hi lo, hi < 16 ∧ lo < 256 ∧ digitsValue c.code.toList = hi * 65536 + lo

/-- The fuzzer can present this message to the target. -/
def Tried (m : Message) : Prop := Message.arbitrary.Yields m

end Elk.Spec
