import Verif.Model.EnvFilter
/-!
# What directives mean
-/

namespace Elk.Spec

/-- A directive is for a target. -/
def Applies (d : Directive) (target : Bytes) : Prop := ∀ t, d.target = some t → t <+: target

/-- How precise a directive is: one without target least, others by the length of the target. -/
def precision (d : Directive) : Option Nat := d.target.map List.length

/-- Less precise, or as precise. -/
def NoFiner (e d : Directive) : Prop :=
  ∀ n, precision e = some n → ∃ m, precision d = some m ∧ n ≤ m

/-- The directive that decides for a target: of those for it the most precise one, and of equally precise
ones the last. -/
def Decides (ds : List Directive) (target : Bytes) (d : Directive) : Prop :=
  ∃ before after, ds = before ++ d :: after ∧ Applies d target ∧
    (∀ e ∈ before, Applies e target → NoFiner e d) ∧
    (∀ e ∈ after, Applies e target → ¬ NoFiner d e)

/-- What a directive lets through. -/
def Admits : Verbosity → LogLevel → Prop
  | .trace, _ => True
  | .debug, l => l ≠ .trace
  | .info, l => l = .info ∨ l = .warn
  | .warn, l => l = .warn
  | .error, _ => False
  | .off, _ => False

/-- What the directives of the environment let through. -/
def LetsThrough (ds : List Directive) (target : Bytes) (l : LogLevel) : Prop :=
  (ds = [] ∧ Admits .info l) ∨ ∃ d, Decides ds target d ∧ Admits d.max l

end Elk.Spec
