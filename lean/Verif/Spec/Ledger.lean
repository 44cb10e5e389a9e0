import Verif.Spec.Greeting
/-!
# What the packets of a panel add up to

A book-keeping of the packets a panel sent, without clock, sockets or withheld reports: what question
is not yet answered, the last arming report, the zones and the names.
-/

namespace Elk.Spec

/-- What the packets so far add up to. -/
structure Ledger where
  /-- the question that is not yet answered; none once the panel is connected -/
  open' : Option Message
  /-- the last arming report -/
  arming : Option ArmingStatusReport
  zones : Option ZoneStatusReport
  name : TextDescriptionType → Nat → TextDescription

/-- Before the first packet. -/
def Ledger.new : Ledger := ⟨some .armingStatusRequest, none, none, fun _ _ => .empty⟩

/-- A message is entered. -/
def Ledger.enter (l : Ledger) : Message → Ledger
  | .armingStatusReport m => { l with arming := some m }
  | .zoneStatusReport m => { l with zones := some m }
  | .zoneChange m => { l with zones := l.zones.map fun z =>
      if h : m.zone.val.toNat - 1 < 208 then ⟨z.zones.set (m.zone.val.toNat - 1) m.status⟩ else z }
  | _ => l

/-- The reply to a question closes it, opens the next, and may tell a name. -/
def Ledger.close (l : Ledger) (q m : Message) : Ledger :=
  match q, m with
  | .stringDescriptionRequest _, .stringDescriptionResponse r =>
    { l with
      open' := followUp q m
      name := fun ty n =>
        if ty = r.ty ∧ n = r.num.toNat ∧ 1 ≤ n then r.text else l.name ty n }
  | _, _ => { l with open' := followUp q m }

/-- One packet. -/
inductive Books (l : Ledger) (pkt : Packet) : Ledger → Prop
  | reply {m q} : Means pkt (some (.ok m)) → l.open' = some q → Responds m q →
      Books l pkt ((l.enter m).close q m)
  | message {m} : Means pkt (some (.ok m)) → (∀ q, l.open' = some q → ¬ Responds m q) →
      Books l pkt (l.enter m)
  | other {r} : Means pkt r → (∀ m, r ≠ some (.ok m)) → Books l pkt l

/-- All packets, in order. -/
inductive Tallies : Ledger → List Packet → Ledger → Prop
  | nil {l} : Tallies l [] l
  | cons {l l' l'' pkt ps} : Books l pkt l' → Tallies l' ps l'' → Tallies l (pkt :: ps) l''

/-- The packets taken off the front of some bytes so far, and what is left. -/
inductive Taken : Bytes → List Packet → Bytes → Prop
  | nil {b} : Taken b [] b
  | cons {b pkt rest ps left} : Front b (some pkt) rest → Taken rest ps left →
      Taken b (pkt :: ps) left

/-- The panel shows what its packets add up to, except that a withheld report is not shown yet. -/
structure Amounting (p : Panel) (l : Ledger) : Prop where
  arming : (match p.pendingArm with
    | some pa => some pa.report
    | none => p.state.armingStatus) = l.arming
  zones : p.state.zoneStatuses = l.zones
  areas : ∀ i, ∀ h : i < 8, p.state.areaNames[i] = l.name .area (i + 1)
  tasks : ∀ i, ∀ h : i < 32, p.state.taskNames[i] = l.name .task (i + 1)
  zoneNames : ∀ i, ∀ h : i < 208, p.state.zoneNames[i] = l.name .zone (i + 1)

end Elk.Spec
