import Verif.Spec.ProgLog
import Verif.Spec.Watching
import Verif.Model.Said
/-!
# The log of an operation in which a program panics

`Perishes` (the bridge program) and `Blinds` (`elkm1-cli watch`) with the records logged before the panic.
-/

namespace Elk.Spec

/-- Why a program panics. -/
inductive Cause where
  /-- the panel is not reached, reading or writing fails, or the connection ends -/
  | line
  /-- the panel names something that there is no room for -/
  | room
  /-- the configuration is not usable -/
  | config
  /-- the panel reports on all zones -/
  | report
  /-- a message on a topic for commands is not text -/
  | garbage
  deriving DecidableEq

/-- While connecting: why an operation fails, what it read and wrote, and what is logged before. -/
inductive Dashes (w : Where) (g : Greet) : InitOp → Bytes → Bytes → Cause → List Record → Prop
  | lost {op rd wr o e} : Connects w g op rd wr o (.failed e) → Dashes w g op rd wr .line []
  /-- the packet with the name, and that it is the reply -/
  | room {q cx io rest body r d} : w = .waiting q →
      Front (g.unread ++ io) (some (.ascii ⟨body⟩)) rest → Says body (.stringDescriptionResponse r) →
      Responds (.stringDescriptionResponse r) q → entries r.ty < r.num.toNat →
      Event.debug ⟨some (.ascii ⟨body⟩), some (.ok (.stringDescriptionResponse r)), none, none⟩ = .ok d →
      Dashes w g (.tick cx) io [] .room
        [jot .received [("pkt", (Packet.ascii ⟨body⟩).debug)], jot .reply [("msg", d)]]

/-- Why the bridge program panics in an operation, what that read and wrote, and what is logged
before. -/
inductive LastWords (cfg : Cfg) : Point → POp → Bytes → Bytes → Cause → List Record → Prop
  | unreachable {e} : LastWords cfg .dialing (.dialed (.error e)) [] [] .line []
  | dashes {w g op q rd wr c l} : Polls op q → Dashes w g q rd wr c l →
      LastWords cfg (.greeting w g) (.op op) rd wr c l
  /-- what the last reply logs, and that the panel is initialised -/
  | unusable {w g op q rd wr o g' l} : Polls op q → Connects w g q rd wr o (.done g') →
      Utters g w o (.done g') l → ¬ UsableCfg cfg →
      LastWords cfg (.greeting w g) (.op op) rd wr .config (l ++ [⟨.initialized, []⟩])
  | over {code d cx pf io r v'} : d.doing = .select → (pf = false → d.inbox = []) →
      Reading cx d.view io (.ready r) v' → (∀ ev, r ≠ some (.ok ev)) →
      LastWords cfg (.serving code d) (.op (.tick cx pf)) io [] .line []
  /-- the packet, and the event that cannot be published -/
  | report {code d cx pf io ev r v' pkt t} : d.doing = .select → (pf = false → d.inbox = []) →
      Reading cx d.view io (.ready (some (.ok ev))) v' →
      ev.msg = some (.ok (.zoneStatusReport r)) → ev.pkt = some pkt → ev.debug = .ok t →
      LastWords cfg (.serving code d) (.op (.tick cx pf)) io [] .report
        [jot .received [("pkt", pkt.debug)], jot .panelEvent [("panel_event", t)]]
  /-- the message, and the area that it is for -/
  | garbage {code d cx pf io v' p rest a} : d.doing = .select → d.inbox = p :: rest →
      Looked cx d.view pf io v' → a ∈ cfg.elk.areas →
      p.topic = cfg.prefix ++ bs "/area/" ++ a.2.name ++ bs "/ha_command" → ¬ Rfc.Utf8 p.payload →
      LastWords cfg (.serving code d) (.op (.tick cx pf)) io [] .garbage
        [mailed p, wanted a.2.name p]
  | unready {code d cx pf c io e v'} : d.doing = .ready c → Readying d.view io (.ready (.error e)) v' →
      LastWords cfg (.serving code d) (.op (.tick cx pf)) [] io .line []
  | unsent {code d cx pf io e v'} : d.doing = .flush → Flushing d.view io (.ready (.error e)) v' →
      LastWords cfg (.serving code d) (.op (.tick cx pf)) [] io .line []

/-- What is logged at level `info` in the operation in which the bridge program panics. -/
inductive Epitaph (cfg : Cfg) : Cause → List Record → Prop
  | line : Epitaph cfg .line []
  | room : Epitaph cfg .room []
  | config : ¬ UsableCfg cfg → Epitaph cfg .config [⟨.initialized, []⟩]
  | report {ev : Event} {r t} : ev.msg = some (.ok (.zoneStatusReport r)) → ev.debug = .ok t →
      Epitaph cfg .report [jot .panelEvent [("panel_event", t)]]
  | garbage {p : Publish} {a} : a ∈ cfg.elk.areas →
      p.topic = cfg.prefix ++ bs "/area/" ++ a.2.name ++ bs "/ha_command" → ¬ Rfc.Utf8 p.payload →
      Epitaph cfg .garbage [mailed p, wanted a.2.name p]

/-- What in a log at level `info` gives away why the bridge program panicked. -/
inductive Telling (cfg : Cfg) (l : List Record) : Cause → Prop
  /-- that the panel is initialised, although the configuration is not usable -/
  | config : ⟨.initialized, []⟩ ∈ l → ¬ UsableCfg cfg → Telling cfg l .config
  /-- an event that shows a report on all zones -/
  | report {ev : Event} {r t} : ev.msg = some (.ok (.zoneStatusReport r)) → ev.debug = .ok t →
      jot .panelEvent [("panel_event", t)] ∈ l → Telling cfg l .report
  /-- a message on a topic for commands that is not text -/
  | garbage {p : Publish} : mailed p ∈ l → ForCommands cfg p.topic → ¬ Rfc.Utf8 p.payload →
      Telling cfg l .garbage

/-- Why `watch` panics in an operation, what that read and wrote, and what is logged before. -/
inductive LastSight : Vantage → WatcherOp → Bytes → Bytes → Cause → List Record → Prop
  | unreachable {e} : LastSight .dialing (.dialed (.error e)) [] [] .line []
  | dashes {w g q rd wr c l} : Dashes w g q rd wr c l → LastSight (.greeting w g) (.op q) rd wr c l
  | broken {areas zones v cx io e v'} : Reading cx v io (.ready (some (.error e))) v' →
      LastSight (.seeing areas zones v) (.op (.tick cx)) io [] .line []

end Elk.Spec
