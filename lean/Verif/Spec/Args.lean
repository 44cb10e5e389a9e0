import Verif.Model.Args
/-!
# The command line of elkm1-cli

    elkm1-cli watch ADDR
    elkm1-cli read FILENAME

with `--` before a value that begins with a dash.
-/

namespace Elk.Spec

/-- How a value is given. -/
inductive GivenAs (v : Bytes) : List Bytes → Prop
  | plain : (v.head? ≠ some 0x2D ∨ v = bs "-") → GivenAs v [v]
  | escaped : GivenAs v [bs "--", v]
  /-- `--` with nothing after it -/
  | ended : (v.head? ≠ some 0x2D ∨ v = bs "-") → GivenAs v [v, bs "--"]

/-- How a command is given. -/
inductive Given : Cmd → List Bytes → Prop
  | watch {addr args} : utf8Valid addr = true → GivenAs addr args →
    Given (.watch addr) (bs "watch" :: args)
  | read {filename args} : filename ≠ [] → GivenAs filename args →
    Given (.read filename) (bs "read" :: args)

end Elk.Spec
