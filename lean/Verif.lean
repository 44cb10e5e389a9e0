import Verif.Props.Pkt
import Verif.Props.Crc
import Verif.Props.Msg
import Verif.Props.State
import Verif.Props.Sink
import Verif.Props.Stream
import Verif.Props.Init
import Verif.Props.InitRun
import Verif.Props.InitLoop
import Verif.Props.Keypad
import Verif.Props.Mqtt
import Verif.Props.Json
import Verif.Props.Secret
import Verif.Props.Cli
import Verif.Props.Fuzz
import Verif.Props.Config
import Verif.Props.ConfigText
import Verif.Props.Published
import Verif.Props.Main
import Verif.Props.World
import Verif.Props.HomeAssistant
import Verif.Props.Documented
import Verif.Props.EndToEnd
import Verif.Props.Bridges
import Verif.Props.Conn
import Verif.Props.JsonText
import Verif.Props.JsonSize
import Verif.Props.Site
import Verif.Props.Complaint
import Verif.Props.Objection
import Verif.Props.Diagnosis
import Verif.Props.Home
import Verif.Props.Debug
import Verif.Props.Settle
import Verif.Props.Starved
import Verif.Props.PowerOn
import Verif.Tests.Repo
import Verif.Props.Wired
import Verif.Props.Duo
import Verif.Props.Queue
import Verif.Props.Memory
import Verif.Props.Grammar
import Verif.Props.Written
import Verif.Props.Iso
import Verif.Props.Equal
import Verif.Props.Machine
import Verif.Props.Greeting
import Verif.Props.Desk
import Verif.Props.LogSecret
import Verif.Props.Minutes
import Verif.Props.Program
import Verif.Props.Watching
import Verif.Props.Exact
import Verif.Props.ProgLog
import Verif.Props.ExactGreeting
import Verif.Props.Document
import Verif.Props.ExactDesk
import Verif.Props.ExactProgram
import Verif.Props.ExactWatching
import Verif.Props.ExactWakes
import Verif.Props.Starting
import Verif.Props.LastWords
import Verif.Props.Whole
import Verif.Props.Stuck
import Verif.Spec.ExactWhole
import Verif.Props.ExactWhole
import Verif.Model.Clock
import Verif.Spec.Clock
import Verif.Props.Clock
import Verif.Model.EnvFilter
import Verif.Spec.EnvFilter
import Verif.Props.EnvFilter
import Verif.Model.Args
import Verif.Spec.Args
import Verif.Props.Args
import Verif.Spec.Legible
import Verif.Lemmas.Legible
import Verif.Lemmas.LegibleMsg
import Verif.Props.Legible
import Verif.Spec.Ledger
import Verif.Spec.Senses
import Verif.Props.Ledger
import Verif.Props.Twins
import Verif.Props.Capture
import Verif.Props.ZoneNews
import Verif.Props.Measure
import Verif.Spec.Calm
import Verif.Props.Calm
import Verif.Props.Sentry
import Verif.Spec.Gist
import Verif.Props.Gist
import Verif.Props.Prompt
import Verif.Props.Joined
import Verif.Spec.Relay
import Verif.Props.Relay
import Verif.Spec.FinalSay
import Verif.Props.FinalSay
import Verif.Spec.OneZone
import Verif.Props.OneZone
import Verif.Spec.OneArea
import Verif.Props.OneArea
import Verif.Spec.Shuffle
import Verif.Props.Shuffle
import Verif.Props.Restarted
import Verif.Tests.Files
