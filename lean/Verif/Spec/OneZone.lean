import Verif.Spec.FinalSay
/-!
# One zone on its own

What is told of a zone, given nothing but what its status was and what has been said on it since.
-/

namespace Elk.Spec

/-- A word on a zone. -/
inductive Word
  /-- Its status in a report on all zones. -/
  | report (s : ZoneStatus)
  /-- Its status in the report of a change. -/
  | change (s : ZoneStatus)
  deriving DecidableEq

/-- What a message says on a zone (counted from 0), and how. -/
def zoneWord (i : Fin 208) : Message → Option Word
  | .zoneStatusReport z => some (.report z.zones[i])
  | .zoneChange c => if c.zone.val.toNat = i.val + 1 then some (.change c.status) else none
  | _ => none

/-- The changes to tell of a zone: what it was and what it is now. A report on all zones is taken over
without telling a change. -/
def follows : ZoneStatus → List Word → List (ZoneStatus × ZoneStatus)
  | _, [] => []
  | _, .report t :: ws => follows t ws
  | s, .change t :: ws => if s = t then follows s ws else (s, t) :: follows t ws

/-- The status in a word. -/
def Word.status : Word → ZoneStatus
  | .report s => s
  | .change s => s

/-- The words that say something new. -/
def newWords : ZoneStatus → List Word → List Word
  | _, [] => []
  | s, w :: ws => if s = w.status then newWords s ws else w :: newWords w.status ws

/-- The messages on the topic of one zone. -/
def topicLog (cfg : Cfg) (name : Bytes) (log : List Published) : List Published :=
  log.filter fun m => decide (m.topic = cfg.prefix ++ bs "/zone/" ++ name ++ bs "/ha_state")

/-- The text for the status of a zone, on its topic. -/
def topicLine (cfg : Cfg) (name : Bytes) (s : ZoneStatus) : Published :=
  ⟨cfg.prefix ++ bs "/zone/" ++ name ++ bs "/ha_state", true, .text (bs (zoneText s.val.toNat))⟩

end Elk.Spec
