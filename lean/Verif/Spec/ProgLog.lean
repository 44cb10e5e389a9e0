import Verif.Spec.Program
import Verif.Spec.Minutes
import Verif.Model.ProgLog
/-!
# The reference machine of the bridge program, with all that it logs

`Proceeds` with the records of `Utters` (connecting) and `Notices` (serving).
-/

namespace Elk.Spec

/-- One operation on the program, what it read from and wrote to the panel, what it published, what is
logged (as far as it is enabled), and where it left the program. -/
inductive Recounts (cfg : Cfg) :
    Point → POp → Bytes → Bytes → List Published → List Record → Point → Prop
  | reached {d} : Message.debug .armingStatusRequest = .ok d →
      Recounts cfg .dialing (.dialed (.ok ())) [] [] [] [jot .asking [("msg", d)]]
        (.greeting (.toAsk .armingStatusRequest) .new)
  | early {op} : Recounts cfg .dialing (.op op) [] [] [] [] .dialing
  | dialed {x r} : x ≠ .dialing → Recounts cfg x (.dialed r) [] [] [] [] x
  | undelivered {w g p} :
      Recounts cfg (.greeting w g) (.op (.deliver p)) [] [] [] [] (.greeting w g)
  | greets {w g op q rd wr o w' g' l} : Polls op q → Connects w g q rd wr o (.asking w' g') →
      Utters g w o (.asking w' g') l →
      Recounts cfg (.greeting w g) (.op op) rd wr [] l (.greeting w' g')
  | opens {w g op q rd wr o g' a z code out l} : Polls op q → Connects w g q rd wr o (.done g') →
      Utters g w o (.done g') l →
      UsableCfg cfg → SixDigits cfg.elk.code.toNat code → g'.shown = some a → g'.zones = some z →
      Opens cfg ⟨g'.unread, a, z, g'.held, none, []⟩ out →
      Recounts cfg (.greeting w g) (.op op) rd wr out (l ++ [⟨.initialized, []⟩])
        (.serving code ⟨⟨g'.unread, a, z, g'.held, none, []⟩, [], .select⟩)
  | serves {code d op rd wr o d' out l} : Serves cfg code d op rd wr o d' → Voices o out →
      Notices cfg d.view op o l → Recounts cfg (.serving code d) (.op op) rd wr out l (.serving code d')

/-- What happened in one operation of the program, and what is logged. -/
structure Entry where
  op : POp
  rd : Bytes
  wr : Bytes
  out : List Published
  log : List Record

/-- A history of the program and its log. -/
inductive Annals (cfg : Cfg) : Point → List Entry → Point → Prop
  | nil {x} : Annals cfg x [] x
  | cons {x y z d l} : Recounts cfg x d.op d.rd d.wr d.out d.log y → Annals cfg y l z →
      Annals cfg x (d :: l) z

/-- What is logged at level `info` in one operation: nothing before the panel is connected, one record
when it is, and then one for each event, and one or two for each message of the broker that is taken
up. -/
inductive Bulletin (cfg : Cfg) : Point → Point → List Published → List Record → Prop
  | before {x y} : (∀ code d, y ≠ .serving code d) → Bulletin cfg x y [] []
  | opened {w g code d out} :
      Bulletin cfg (.greeting w g) (.serving code d) out [⟨.initialized, []⟩]
  /-- nothing is taken up and nothing published -/
  | idle {code d d'} : d.inbox.length ≤ d'.inbox.length →
      Bulletin cfg (.serving code d) (.serving code d') [] []
  /-- an event: the record shows what is published first -/
  | event {code d d' out ev t j} : ev.debug = .ok t → eventDoc ev = some j →
      Bulletin cfg (.serving code d) (.serving code d')
        (⟨cfg.prefix ++ bs "/event", false, .json j⟩ :: out) [jot .panelEvent [("panel_event", t)]]
  /-- a message for no area -/
  | unknown {code d d' p} : d.inbox = p :: d'.inbox → ¬ ForCommands cfg p.topic →
      Bulletin cfg (.serving code d) (.serving code d') [] [mailed p]
  | known {code d d' p a} : d.inbox = p :: d'.inbox → a ∈ cfg.elk.areas →
      p.topic = cfg.prefix ++ bs "/area/" ++ a.2.name ++ bs "/ha_command" →
      Bulletin cfg (.serving code d) (.serving code d') [] [mailed p, wanted a.2.name p]

end Elk.Spec
