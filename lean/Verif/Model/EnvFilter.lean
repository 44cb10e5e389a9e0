import Verif.Model.Log
/-!
# Which calls are enabled

elkm1-cli/src/main.rs:80-94 and elkm1-mqtt/src/main.rs:353-366 `setup_tracing`, the same in both: an
`EnvFilter` made of the directives in the environment (`RUST_LOG`), or of `INFO` if there are none.

Simplifications.  `tracing_subscriber` is not in /repo; of `EnvFilter` there is what its documentation
says.  The environment is given as the directives that are in it, in their order: how they are written,
and that what is no directive is left out (`from_env_lossy`), is not modelled.  Of directives there are
those with a target, a level or both; those with a span or with fields are left out.
-/

namespace Elk

/-- `tracing::level_filters::LevelFilter`. -/
inductive Verbosity where
  | off | error | warn | info | debug | trace
  deriving DecidableEq

/-- The order of `LevelFilter`. -/
def Verbosity.rank : Verbosity → Nat
  | .off => 0 | .error => 1 | .warn => 2 | .info => 3 | .debug => 4 | .trace => 5

/-- The order of `tracing::Level`. -/
def LogLevel.rank : LogLevel → Nat
  | .warn => 2 | .info => 3 | .debug => 4 | .trace => 5

/-- `target=level`; without a target it is for all. -/
structure Directive where
  target : Option Bytes
  max : Verbosity
  deriving DecidableEq

/-- `cares_about`: the target of the call begins with that of the directive. -/
def Directive.caresAbout (d : Directive) (target : Bytes) : Bool :=
  match d.target with
  | none => true
  | some t => t.isPrefixOf target

/-- The order of directives: by the lengths of their targets. -/
def Directive.weight (d : Directive) : Nat :=
  match d.target with
  | none => 0
  | some t => t.length + 1

/-- `DirectiveSet::add`: the set is sorted, the most specific directives first; one with the same target
is replaced. -/
def addDirective (d : Directive) : List Directive → List Directive
  | [] => [d]
  | e :: l =>
    if e.target = d.target then d :: l
    else if e.weight < d.weight then d :: e :: l
    else e :: addDirective d l

/-- elkm1-cli/src/main.rs:83-85, elkm1-mqtt/src/main.rs:356-358: the filter for the directives in the
environment. -/
def envFilter (ds : List Directive) : List Directive :=
  if ds.isEmpty then addDirective ⟨none, .info⟩ []
  else ds.foldl (fun l d => addDirective d l) []

/-- `DirectiveSet::enabled`: the first directive that applies decides. -/
def filterEnabled (l : List Directive) (target : Bytes) (level : LogLevel) : Bool :=
  match l.find? (·.caresAbout target) with
  | some d => level.rank ≤ d.max.rank
  | none => false

/-- The target of each call, `module_path!()`, at the lines cited at `Callsite`. -/
def Callsite.target : Callsite → Bytes
  | .received | .sending => bs "elkm1::tokio"
  | .asking | .reply | .unrelated | .alsoSuspicious | .delaying | .deferred | .command =>
    bs "elkm1::state"
  | .publish | .matched | .unknownLevel | .unknownTopic | .initialized | .panelEvent =>
    bs "elkm1_mqtt"
  | .tracking | .polled | .zoneLine | .areaLine => bs "elkm1_cli"

/-- elkm1-cli/src/main.rs:80-94, elkm1-mqtt/src/main.rs:353-366: which calls are enabled. -/
def setupTracing (ds : List Directive) (s : Callsite) : Bool :=
  filterEnabled (envFilter ds) s.target s.level

end Elk
