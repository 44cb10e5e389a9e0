import Verif.Spec.Init
import Verif.Spec.Machine
/-!
# Reference machine of `connect`

What `Panel::connect` asks, what it makes of the packets it reads and what the panel knows in the end
follows from the bytes read and written, as for a connected panel (`Acts`).  Nothing here uses the
functions of the model.
-/

namespace Elk.Spec

/-- What matters while connecting: the bytes read and not yet returned in a packet, the bytes not yet
written, the reports received, the report withheld with the time at which that ends, and the names by
type and number. -/
structure Greet where
  unread : Bytes
  unsent : Bytes
  shown : Option ArmingStatusReport
  zones : Option ZoneStatusReport
  held : Option (Nat × ArmingStatusReport)
  name : TextDescriptionType → Nat → TextDescription

/-- In the beginning nothing is known. -/
def Greet.new : Greet := ⟨[], [], none, none, none, fun _ _ => .empty⟩

/-- Where connecting is: about to ask, writing the question, or waiting for the reply. -/
inductive Where where
  | toAsk (q : Message)
  | sending (q : Message)
  | waiting (q : Message)

/-- What connecting comes to. -/
inductive Outcome where
  | asking (w : Where) (g : Greet)
  | done (g : Greet)
  | failed (e : IoErr)

/-- What is learned from a message received at a time. -/
inductive Notes (now : Nat) (g : Greet) : Message → Option Change → Greet → Prop
  | first {m} : g.shown = none →
      Notes now g (.armingStatusReport m) none { g with shown := some m }
  | withhold {m s} : g.shown = some s → g.held = none → Suspicious s m →
      Notes now g (.armingStatusReport m) none { g with held := some (now + 5000, m) }
  | show {m s} : g.shown = some s → g.held ≠ none ∨ ¬ Suspicious s m → m ≠ s →
      Notes now g (.armingStatusReport m) (some (.armingStatus s))
        { g with shown := some m, held := none }
  | again {s} : g.shown = some s → g.held ≠ none ∨ ¬ Suspicious s s →
      Notes now g (.armingStatusReport s) none { g with held := none }
  | early {m} : g.zones = none → Notes now g (.zoneChange m) none g
  | zone {m : ZoneChange} {z : ZoneStatusReport} {i : Nat} {hi : i < 208} : g.zones = some z →
      m.zone.val.toNat = i + 1 → z.zones[i] ≠ m.status →
      Notes now g (.zoneChange m) (some (.zoneChange m.zone z.zones[i]))
        { g with zones := some ⟨z.zones.set i m.status⟩ }
  | zoneSame {m : ZoneChange} {z : ZoneStatusReport} {i : Nat} {hi : i < 208} : g.zones = some z →
      m.zone.val.toNat = i + 1 → z.zones[i] = m.status → Notes now g (.zoneChange m) none g
  | zones {m} : Notes now g (.zoneStatusReport m) none { g with zones := some m }
  | nothing {m} : (∀ r, m ≠ .armingStatusReport r) → (∀ r, m ≠ .zoneChange r) →
      (∀ r, m ≠ .zoneStatusReport r) → Notes now g m none g

/-- The event for a packet received at a time. -/
inductive Observes (now : Nat) (g : Greet) (pkt : Packet) : Event → Greet → Prop
  | message {m change g'} : Means pkt (some (.ok m)) → Notes now g m change g' →
      Observes now g pkt ⟨some pkt, some (.ok m), none, change⟩ g'
  | fault {e} : Means pkt (some (.error e)) →
      Observes now g pkt ⟨some pkt, some (.error e), none, none⟩ g
  | nothing : Means pkt none → Observes now g pkt ⟨some pkt, none, none, none⟩ g

/-- What a reply says of the names: only the reply to a question for a name counts, and only if there
is room for it. -/
inductive Fills (g : Greet) (q : Message) : Message → Greet → Prop
  | status {m} : (∀ r, q ≠ .stringDescriptionRequest r) → Fills g q m g
  | none {r : StringDescriptionResponse} : (∃ s, q = .stringDescriptionRequest s) →
      r.num.toNat = 0 → Fills g q (.stringDescriptionResponse r) g
  | named {r : StringDescriptionResponse} : (∃ s, q = .stringDescriptionRequest s) →
      1 ≤ r.num.toNat → r.num.toNat ≤ entries r.ty →
      Fills g q (.stringDescriptionResponse r) { g with
        name := fun ty n => if ty = r.ty ∧ n = r.num.toNat then r.text else g.name ty n }

/-- One operation while connecting, what it read, what it wrote, what was observed and what it came
to. -/
inductive Connects : Where → Greet → InitOp → Bytes → Bytes → Obs → Outcome → Prop
  | arrive {w g r l} : Connects w g (.arrive r) [] [] (.env l) (.asking w g)
  | writable {w g r l} : Connects w g (.writable r) [] [] (.env l) (.asking w g)
  /-- the question is accepted -/
  | ask {q g cx} : Connects (.toAsk q) g (.tick cx) [] [] (.asked q)
      (.asking (.sending q) { g with unsent := g.unsent ++ asciiFrame (sentText q) })
  /-- and written -/
  | writing {q g cx io u} : Writes g.unsent io .pending u →
      Connects (.sending q) g (.tick cx) [] io .pending (.asking (.sending q) { g with unsent := u })
  | written {q g cx io u} : Writes g.unsent io (.ready (.ok ())) u →
      Connects (.sending q) g (.tick cx) [] io .flushed (.asking (.waiting q) { g with unsent := u })
  | unwritten {q g cx io e u} : Writes g.unsent io (.ready (.error e)) u →
      Connects (.sending q) g (.tick cx) [] io (.failed e) (.failed e)
  /-- no packet at the front -/
  | quiet {q g cx io} : Waits (g.unread ++ io) →
      Connects (.waiting q) g (.tick cx) io [] .pending
        (.asking (.waiting q) { g with unread := g.unread ++ io })
  | ended {q g cx io} : Waits (g.unread ++ io) →
      Connects (.waiting q) g (.tick cx) io [] (.failed .unexpectedEof) (.failed .unexpectedEof)
  | lost {q g cx io e} : Waits (g.unread ++ io) →
      Connects (.waiting q) g (.tick cx) io [] (.failed e) (.failed e)
  /-- a packet that is no reply -/
  | other {q g cx io pkt rest ev g'} : Front (g.unread ++ io) (some pkt) rest →
      Observes cx.now { g with unread := rest } pkt ev g' →
      (∀ m, ev.msg = some (.ok m) → ¬ Responds m q) →
      Connects (.waiting q) g (.tick cx) io [] (.got ev) (.asking (.waiting q) g')
  /-- the reply, and another question -/
  | reply {q q' g cx io pkt rest ev g₁ g₂ m} : Front (g.unread ++ io) (some pkt) rest →
      Observes cx.now { g with unread := rest } pkt ev g₁ → ev.msg = some (.ok m) → Responds m q →
      Fills g₁ q m g₂ → followUp q m = some q' →
      Connects (.waiting q) g (.tick cx) io [] (.got ev) (.asking (.toAsk q') g₂)
  /-- the last reply -/
  | last {q g cx io pkt rest ev g₁ g₂ m} : Front (g.unread ++ io) (some pkt) rest →
      Observes cx.now { g with unread := rest } pkt ev g₁ → ev.msg = some (.ok m) → Responds m q →
      Fills g₁ q m g₂ → followUp q m = none →
      Connects (.waiting q) g (.tick cx) io [] (.got ev) (.done g₂)

/-- There is no room for the name in the reply. -/
inductive Breaks : Where → Greet → InitOp → Bytes → Prop
  | room {q g cx io rest body r} : Front (g.unread ++ io) (some (.ascii ⟨body⟩)) rest →
      Says body (.stringDescriptionResponse r) →
      Responds (.stringDescriptionResponse r) q → entries r.ty < r.num.toNat →
      Breaks (.waiting q) g (.tick cx) io

/-- What happened in one operation. -/
structure Act where
  op : InitOp
  rd : Bytes
  wr : Bytes
  out : Obs

/-- A history of connecting. -/
inductive Greets : Outcome → List Act → Outcome → Prop
  | nil {x} : Greets x [] x
  | cons {w g d x l y} : Connects w g d.op d.rd d.wr d.out x → Greets x l y →
      Greets (.asking w g) (d :: l) y

/-- The socket of the future, unless it failed. -/
def sockOf : Phase → Option Socket
  | .asking i => some i.panel.conn.sock
  | .finished (.ok p) => some p.conn.sock
  | .finished (.error _) => none

/-- What the panel knows. -/
structure Knows (p : Panel) (g : Greet) : Prop where
  unread : p.conn.rd.buffer = g.unread
  unsent : p.conn.wbuf = g.unsent
  shown : p.state.armingStatus = g.shown
  zones : p.state.zoneStatuses = g.zones
  held : p.pendingArm.map (fun pa => (pa.deadline, pa.report)) = g.held
  idle : p.cmdState = .idle
  areas : ∀ i, ∀ h : i < 8, p.state.areaNames[i] = g.name .area (i + 1)
  tasks : ∀ i, ∀ h : i < 32, p.state.taskNames[i] = g.name .task (i + 1)
  zoneNames : ∀ i, ∀ h : i < 208, p.state.zoneNames[i] = g.name .zone (i + 1)

/-- The future is here. -/
inductive Stands : Phase → Outcome → Prop
  | toAsk {i : Init} {g pkt} : i.await = .ready pkt → Knows i.panel g →
      Stands (.asking i) (.asking (.toAsk i.send) g)
  | sending {i : Init} {g} : i.await = .flush → Knows i.panel g →
      Stands (.asking i) (.asking (.sending i.send) g)
  | waiting {i : Init} {g} : i.await = .reply → Knows i.panel g →
      Stands (.asking i) (.asking (.waiting i.send) g)
  | done {p g} : Knows p g → Stands (.finished (.ok p)) (.done g)
  | failed {e} : Stands (.finished (.error e)) (.failed e)

end Elk.Spec
