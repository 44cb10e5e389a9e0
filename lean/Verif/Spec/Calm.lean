import Verif.Spec.Desk
import Verif.Spec.Ledger
/-!
# A stream in which no report is suspicious

Of such a stream everything follows without clock: there is nothing to withhold.
-/

namespace Elk.Spec

/-- No report on the areas among the packets is suspicious, given the report before it; the first
index is the report before the first packet, the last the report after the last. -/
inductive Calm : Option ArmingStatusReport → List Packet → Option ArmingStatusReport → Prop
  | nil {r} : Calm r [] r
  | report {r r' pkt m ps} : Means pkt (some (.ok (.armingStatusReport m))) →
      (∀ s, r = some s → ¬ Suspicious s m) → Calm (some m) ps r' → Calm r (pkt :: ps) r'
  | other {r r' pkt x ps} : Means pkt x → (∀ m, x ≠ some (.ok (.armingStatusReport m))) →
      Calm r ps r' → Calm r (pkt :: ps) r'

/-- No report in the bytes is suspicious, from the first on. -/
def CalmBytes (b : Bytes) : Prop := ∃ ps left r, Taken b ps left ∧ Waits left ∧ Calm none ps r

/-- What is shown. -/
structure Vista where
  shown : ArmingStatusReport
  zones : ZoneStatusReport

/-- The event for a packet, apart from the command it completes, and what is shown then. -/
inductive Picks (s : Vista) (pkt : Packet) : Event → Vista → Prop
  | report {m} : Means pkt (some (.ok (.armingStatusReport m))) → m ≠ s.shown →
      Picks s pkt ⟨some pkt, some (.ok (.armingStatusReport m)), none, some (.armingStatus s.shown)⟩
        ⟨m, s.zones⟩
  | again : Means pkt (some (.ok (.armingStatusReport s.shown))) →
      Picks s pkt ⟨some pkt, some (.ok (.armingStatusReport s.shown)), none, none⟩ s
  | zone {m : ZoneChange} {i : Nat} {hi : i < 208} : Means pkt (some (.ok (.zoneChange m))) →
      m.zone.val.toNat = i + 1 → s.zones.zones[i] ≠ m.status →
      Picks s pkt ⟨some pkt, some (.ok (.zoneChange m)), none,
        some (.zoneChange m.zone s.zones.zones[i])⟩ ⟨s.shown, ⟨s.zones.zones.set i m.status⟩⟩
  | zoneSame {m : ZoneChange} {i : Nat} {hi : i < 208} : Means pkt (some (.ok (.zoneChange m))) →
      m.zone.val.toNat = i + 1 → s.zones.zones[i] = m.status →
      Picks s pkt ⟨some pkt, some (.ok (.zoneChange m)), none, none⟩ s
  | zones {m} : Means pkt (some (.ok (.zoneStatusReport m))) →
      Picks s pkt ⟨some pkt, some (.ok (.zoneStatusReport m)), none, none⟩ ⟨s.shown, m⟩
  | other {x} : Means pkt x → (∀ m, x ≠ some (.ok (.armingStatusReport m))) →
      (∀ m, x ≠ some (.ok (.zoneChange m))) → (∀ m, x ≠ some (.ok (.zoneStatusReport m))) →
      Picks s pkt ⟨some pkt, x, none, none⟩ s

/-- The events for all packets, each with what is shown then. -/
inductive PicksAll : Vista → List Packet → List (Event × Vista) → Vista → Prop
  | nil {s} : PicksAll s [] [] s
  | cons {s s' s'' pkt ps ev l} : Picks s pkt ev s' → PicksAll s' ps l s'' →
      PicksAll s (pkt :: ps) ((ev, s') :: l) s''

/-- An event apart from the command that it completes. -/
def told (ev : Event) : Event := { ev with completes := none }

/-- What a view shows. -/
def View.vista (v : View) : Vista := ⟨v.shown, v.zones⟩

/-- A view that shows this. -/
def Vista.view (s : Vista) : View := ⟨[], s.shown, s.zones, none, none, []⟩

end Elk.Spec
