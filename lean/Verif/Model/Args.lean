import Verif.Model.Debug
import Verif.Model.Log
/-!
# The arguments of elkm1-cli, and its `main`

elkm1-cli/src/main.rs:12-16, 96-103.

Simplifications.  `clap` is not in /repo; of its derived parser there is what its documentation says of
two subcommands with one required positional argument each.  What is printed about the usage, and the
status then returned, is not modelled; in both cases the program ends without doing anything.
-/

namespace Elk

/-- elkm1-cli/src/main.rs:13-16 `Cmd`. -/
inductive Cmd where
  | watch (addr : Bytes)
  | read (filename : Bytes)
  deriving DecidableEq

/-- What an argument can be to `clap`. -/
inductive ArgKind where
  | escape | flag | value
  deriving DecidableEq

/-- What an argument looks like to `clap`: a lone `-` is a value.  The only flags there are (`-h`,
`--help`) end the program, and so does one that does not exist. -/
def argKind (a : Bytes) : ArgKind :=
  match a with
  | 0x2D :: r => if r = bs "-" then .escape else if r = [] then .value else .flag
  | _ => .value

/-- The value of the one positional argument, or `none` if the program ends; `ok` are the values that
its type takes. -/
def positional (ok : Bytes → Bool) : Option Bytes → Bool → List Bytes → Option Bytes
  | got, _, [] => got
  | got, trailing, a :: rest =>
    match if trailing then .value else argKind a with
    | .escape => positional ok got true rest
    | .flag => none
    | .value =>
      match got with
      | some _ => none
      | none => if ok a then positional ok (some a) trailing rest else none

/-- elkm1-cli/src/main.rs:99 `Cmd::parse`, of the arguments after the name of the program: the command,
or `none` if the program ends with a text about its usage.  `String` takes UTF-8 only, `PathBuf` all but
the empty text. -/
def Cmd.parse : List Bytes → Option Cmd
  | [] => none
  | sub :: args =>
    if sub = bs "watch" then (positional utf8Valid none false args).map .watch
    else if sub = bs "read" then (positional (fun a => !a.isEmpty) none false args).map .read
    else none

/-- What `main` of elkm1-cli comes to. -/
inductive CliMain where
  /-- it ended, having printed something about its usage -/
  | usage
  /-- it printed this, or panicked -/
  | read (printed : P Bytes)
  /-- it is on its way to connect to this address -/
  | watch (addr : Bytes) (w : Watcher)

/-- elkm1-cli/src/main.rs:97-103 `main`; `files` are the contents of the files. -/
def Cli.main (files : Bytes → Except IoErr Bytes) (args : List Bytes) : CliMain :=
  match Cmd.parse args with
  | none => .usage
  | some (.watch addr) => .watch addr .dialing
  | some (.read filename) => .read (Cli.output (files filename))

end Elk
