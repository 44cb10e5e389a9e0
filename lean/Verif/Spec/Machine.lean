import Verif.Spec.Panel
import Verif.Spec.Grammar
import Verif.Spec.Objection
/-!
# Reference machine of a panel

What the functions of `Panel` return, and what its accessors say, follows from the bytes it read and
wrote and from the clock.  `Acts` says how, in terms of the grammar of packets (`Front`, `Waits`), of
the texts of messages (`Says`) and of faults (`Objects`), of `Suspicious` and of `Responds`; nothing here uses the functions of
the model.
-/

namespace Elk.Spec

/-- What matters of a panel: the bytes read and not yet returned in a packet, the arming report and
the zones that it shows, the report that it withholds with the time at which it stops to, the command
that is outstanding and whether it is still to be flushed, and the bytes accepted and not yet
written. -/
structure View where
  unread : Bytes
  shown : ArmingStatusReport
  zones : ZoneStatusReport
  held : Option (Nat × ArmingStatusReport)
  asked : Option (Message × Bool)
  unsent : Bytes

/-- The text of an ASCII packet is at fault: too short, or of a supported kind without being a
message. -/
def Faulty (body : Bytes) : Prop :=
  body.length < 4 ∨
    ((∃ c ∈ supportedCodes, body.take 2 = [b' c.1, b' c.2]) ∧ ¬ ∃ m, Says body m)

/-- What a packet means: a message, a fault, or nothing. -/
inductive Means : Packet → Option (Except Bytes Message) → Prop
  | says {body m} : Says body m → Means (.ascii ⟨body⟩) (some (.ok m))
  | fault {body e} : Objects body e → Means (.ascii ⟨body⟩) (some (.error e))
  | other {body} : ¬ Faulty body → (¬ ∃ m, Says body m) → Means (.ascii ⟨body⟩) none
  | rp {r} : Means (.rp r) none
  | invalid {i} : Means (.invalid i) none

/-- What is learned from a message received at a time. -/
inductive Learns (now : Nat) (v : View) : Message → Option Change → View → Prop
  /-- a suspicious report is withheld for five seconds -/
  | withhold {m} : v.held = none → Suspicious v.shown m →
      Learns now v (.armingStatusReport m) none { v with held := some (now + 5000, m) }
  /-- any other report is shown, and so is one that follows a withheld report -/
  | show {m} : v.held ≠ none ∨ ¬ Suspicious v.shown m → m ≠ v.shown →
      Learns now v (.armingStatusReport m) (some (.armingStatus v.shown))
        { v with shown := m, held := none }
  | again : v.held ≠ none ∨ ¬ Suspicious v.shown v.shown →
      Learns now v (.armingStatusReport v.shown) none { v with held := none }
  | zone {m : ZoneChange} {i : Nat} {hi : i < 208} : m.zone.val.toNat = i + 1 →
      v.zones.zones[i] ≠ m.status →
      Learns now v (.zoneChange m) (some (.zoneChange m.zone v.zones.zones[i]))
        { v with zones := ⟨v.zones.zones.set i m.status⟩ }
  | zoneSame {m : ZoneChange} {i : Nat} {hi : i < 208} : m.zone.val.toNat = i + 1 →
      v.zones.zones[i] = m.status → Learns now v (.zoneChange m) none v
  | zones {m} : Learns now v (.zoneStatusReport m) none { v with zones := m }
  | nothing {m} : (∀ r, m ≠ .armingStatusReport r) → (∀ r, m ≠ .zoneChange r) →
      (∀ r, m ≠ .zoneStatusReport r) → Learns now v m none v

/-- The command that a message completes. -/
inductive Completes (v : View) (m : Message) : Option Message → View → Prop
  | done {q f} : v.asked = some (q, f) → Responds m q → Completes v m (some q) { v with asked := none }
  | unrelated {q f} : v.asked = some (q, f) → ¬ Responds m q → Completes v m none v
  | idle : v.asked = none → Completes v m none v

/-- The event for a packet received at a time. -/
inductive Tells (now : Nat) (v : View) (pkt : Packet) : Event → View → Prop
  | message {m change done v₁ v₂} : Means pkt (some (.ok m)) → Learns now v m change v₁ →
      Completes v₁ m done v₂ → Tells now v pkt ⟨some pkt, some (.ok m), done, change⟩ v₂
  | fault {e} : Means pkt (some (.error e)) → Tells now v pkt ⟨some pkt, some (.error e), none, none⟩ v
  | nothing : Means pkt none → Tells now v pkt ⟨some pkt, none, none, none⟩ v

/-- What `poll_next` returns, having read `io`. -/
inductive Reading (cx : Cx) (v : View) (io : Bytes) : Poll PanelItem → View → Prop
  /-- the packet at the front -/
  | event {pkt rest ev v'} : Front (v.unread ++ io) (some pkt) rest →
      Tells cx.now { v with unread := rest } pkt ev v' → Reading cx v io (.ready (some (.ok ev))) v'
  /-- nothing at the front, and an error or the end -/
  | failed {e} : Waits (v.unread ++ io) →
      Reading cx v io (.ready (some (.error e))) { v with unread := v.unread ++ io }
  | ended : Waits (v.unread ++ io) →
      Reading cx v io (.ready none) { v with unread := v.unread ++ io }
  /-- nothing at the front, and no report withheld for long enough -/
  | quiet : Waits (v.unread ++ io) → (∀ due m, v.held = some (due, m) → cx.timer < due) →
      Reading cx v io .pending { v with unread := v.unread ++ io }
  /-- nothing at the front, and a report withheld for long enough -/
  | late {due m} : Waits (v.unread ++ io) → v.held = some (due, m) → due ≤ cx.timer →
      Reading cx v io (.ready (some (.ok ⟨none, none, none, some (.armingStatus v.shown)⟩)))
        { v with unread := v.unread ++ io, shown := m, held := none }

/-- What is written: `io`, of the bytes that were to be written, all of them if it succeeds and not
all if it is to be continued. -/
def Writes (unsent io : Bytes) (r : Poll (Except IoErr Unit)) (unsent' : Bytes) : Prop :=
  unsent = io ++ unsent' ∧ (r = .ready (.ok ()) → unsent' = []) ∧ (r = .pending → unsent' ≠ [])

/-- What `poll_flush` returns, having written `io`. -/
inductive Flushing (v : View) (io : Bytes) : Poll (Except IoErr Unit) → View → Prop
  | nothing : (∀ q, v.asked ≠ some (q, true)) → io = [] → Flushing v io (.ready (.ok ())) v
  | flushed {q u} : v.asked = some (q, true) → Writes v.unsent io (.ready (.ok ())) u →
      Flushing v io (.ready (.ok ())) { v with asked := some (q, false), unsent := u }
  | stuck {q r u} : v.asked = some (q, true) → r ≠ .ready (.ok ()) → Writes v.unsent io r u →
      Flushing v io r { v with unsent := u }

/-- What `poll_ready` returns, having written `io`: ready exactly if no command is outstanding. -/
inductive Readying (v : View) (io : Bytes) : Poll (Except IoErr Unit) → View → Prop
  | idle : v.asked = none → io = [] → Readying v io (.ready (.ok ())) v
  | flushed {v'} : v.asked ≠ none → Flushing v io (.ready (.ok ())) v' → Readying v io .pending v'
  | stuck {r v'} : v.asked ≠ none → r ≠ .ready (.ok ()) → Flushing v io r v' → Readying v io r v'

/-- One operation on a panel, what it read or wrote, and what it returned. -/
inductive Acts (v : View) : Op → Bytes → Out → View → Prop
  | arrive {r w} : Acts v (.arrive r) [] (.env w) v
  | writable {r w} : Acts v (.writable r) [] (.env w) v
  | next {cx io r w v'} : Reading cx v io r v' → Acts v (.pollNext cx) io (.next r w) v'
  | send {c} : v.asked = none → Acts v (.startSend c) [] .accepted
      { v with asked := some (c.intoMsg, true), unsent := v.unsent ++ commandBytes c }
  | ready {cx io r v'} : Readying v io r v' → Acts v (.pollReady cx) io (.sink r) v'
  | flush {cx io r v'} : Flushing v io r v' → Acts v (.pollFlush cx) io (.sink r) v'
  /-- closing flushes, whatever was to be flushed -/
  | close {cx io io' r v' u} : Flushing v io (.ready (.ok ())) v' → Writes v'.unsent io' r u →
      Acts v (.pollClose cx) (io ++ io') (.sink r) { v' with unsent := u }
  | closeStuck {cx io r v'} : r ≠ .ready (.ok ()) → Flushing v io r v' →
      Acts v (.pollClose cx) io (.sink r) v'

/-- What happened in one operation: what was done, what was read or written, what was returned. -/
structure Deed where
  op : Op
  io : Bytes
  out : Out

/-- A history. -/
inductive Lives : View → List Deed → View → Prop
  | nil {v} : Lives v [] v
  | cons {v v' v'' d l} : Acts v d.op d.io d.out v' → Lives v' l v'' → Lives v (d :: l) v''

/-- The bytes read in a history. -/
def bytesRead (l : List Deed) : Bytes :=
  l.flatMap fun d =>
    match d.op with
    | .pollNext _ => d.io
    | _ => []

/-- The bytes written in a history. -/
def bytesWritten (l : List Deed) : Bytes :=
  l.flatMap fun d =>
    match d.op with
    | .pollNext _ => []
    | _ => d.io

/-- The panel looks like this. -/
structure Looks (p : Panel) (v : View) : Prop where
  unread : p.conn.rd.buffer = v.unread
  shown : p.armingStatus = .ok v.shown
  zones : p.zoneStatuses = .ok v.zones
  held : p.pendingArm.map (fun pa => (pa.deadline, pa.report)) = v.held
  asked : (match p.cmdState with
    | .idle => none
    | .busy q f _ => some (q, !f)) = v.asked
  unsent : p.conn.wbuf = v.unsent

end Elk.Spec
