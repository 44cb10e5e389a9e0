import Verif.Spec.Machine
/-!
# The reference machine of a panel, exactly

The machine of Spec/Machine.lean allows whatever a panel does.  With the rules added here it allows
nothing else: when `poll_next` reads from the connection at all, which errors there are, and what
comes after an error and after the end.
-/

namespace Elk.Spec

/-- What a panel remembers of its connection: that an error was just returned, and that the end was
seen and nothing since. -/
structure Ear where
  broken : Bool
  over : Bool

/-- Nothing is read while a packet is at the front. -/
def Ripe (unread io : Bytes) : Prop := io = [] ∨ Waits unread

/-- Bytes after the end are taken for more of the stream. -/
def Ear.after (e : Ear) (io : Bytes) : Ear := ⟨false, e.over && io.isEmpty⟩

/-- What is remembered of the connection by a `poll_next` that reads `io` and returns this. -/
inductive Hears {α : Type} (e : Ear) (unread io : Bytes) :
    Poll (Option (Except IoErr α)) → Ear → Prop
  /-- after an error comes the end, once -/
  | spent : e.broken = true → io = [] → Hears e unread io (.ready none) { e with broken := false }
  | goes {r} : e.broken = false → Ripe unread io → (∀ x, r ≠ .ready (some (.error x))) →
      r ≠ .ready none → Hears e unread io r (e.after io)
  | failed {c} : e.broken = false → Ripe unread io →
      Hears e unread io (.ready (some (.error (.socket c)))) { e.after io with broken := true }
  /-- the stream ends within a packet -/
  | cut : e.broken = false → Ripe unread io → unread ++ io ≠ [] → (e.after io).over = false →
      Hears e unread io (.ready (some (.error .bytesRemaining))) ⟨true, true⟩
  /-- the stream ends between packets, or has ended before -/
  | ended : e.broken = false → Ripe unread io → unread ++ io = [] ∨ (e.after io).over = true →
      Hears e unread io (.ready none) ⟨false, true⟩

/-- The errors of writing, which only occur while there is something to write. -/
def Halts (r : Poll (Except IoErr Unit)) (unsent : Bytes) : Prop :=
  ∀ x, r = .ready (.error x) → unsent ≠ [] ∧ (x = .writeZero ∨ ∃ c, x = .socket c)

/-- One call: what `Acts` says of it, and what was heard or why writing stopped. -/
inductive Does (v : View) (e : Ear) : Deed → View → Ear → Prop
  | next {cx io r w v' e'} : Acts v (.pollNext cx) io (.next r w) v' → Hears e v.unread io r e' →
      Does v e ⟨.pollNext cx, io, .next r w⟩ v' e'
  | send {c io v'} : Acts v (.startSend c) io .accepted v' →
      Does v e ⟨.startSend c, io, .accepted⟩ v' e
  | sink {op io r v'} : Acts v op io (.sink r) v' → Halts r v'.unsent →
      Does v e ⟨op, io, .sink r⟩ v' e

/-- A history of calls. -/
inductive Behaves : View → Ear → List Deed → View → Ear → Prop
  | nil {v e} : Behaves v e [] v e
  | cons {v e v' e' v'' e'' d l} : Does v e d v' e' → Behaves v' e' l v'' e'' →
      Behaves v e (d :: l) v'' e''

/-- A history of a panel: what was done, what was read from or written to the connection, and what
was returned. -/
def traced : List Op → Panel → P (List Deed × Panel)
  | [], p => .ok ([], p)
  | op :: ops, p => do
    let (o, p₁) ← p.step op
    let (ds, p₂) ← traced ops p₁
    .ok (⟨op, p₁.conn.sock.received.drop p.conn.sock.received.length ++
      p₁.conn.sock.sent.drop p.conn.sock.sent.length, o⟩ :: ds, p₂)

/-- Calls, as opposed to what happens to the connection. -/
def isCall : Op → Bool
  | .arrive _ => false
  | .writable _ => false
  | _ => true

def calls (ds : List Deed) : List Deed := ds.filter fun d => isCall d.op

/-- A deed without the tasks woken. -/
def quiet (d : Deed) : Deed :=
  match d.out with
  | .next r _ => { d with out := .next r [] }
  | _ => d

end Elk.Spec
