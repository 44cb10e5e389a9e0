import Verif.Model.Log
import Verif.Spec.Machine
/-!
# Vocabulary for what is logged
-/

namespace Elk.Spec

/-- What is left of a log when only some calls are enabled. -/
def enabled (on : Callsite → Bool) (l : List Record) : List Record := l.filter fun r => on r.site

/-- A call that shows values. -/
def jot (s : Callsite) (fields : List (String × Dbg)) : Record :=
  ⟨s, fields.map fun f => (f.1, .debug f.2)⟩

/-- The packets shown by a call, and their bytes. -/
def Traced (s : Callsite) (l : List Record) (ps : List Packet) (b : Bytes) : Prop :=
  enabled (fun t => t = s) l = ps.map (fun p => jot s [("pkt", p.debug)]) ∧
    ∃ ws, ps.mapM Packet.encode = .ok ws ∧ ws.flatten = b

/-- What is logged about a message: only suspicious arming reports are worth it. -/
inductive Remarks (v : View) : Message → List Record → Prop
  | withheld {m} : v.held = none → Suspicious v.shown m →
      Remarks v (.armingStatusReport m)
        [jot .delaying [("prior", v.shown.debug), ("pending", m.debug)]]
  | twice {due h m} : v.held = some (due, h) → Suspicious v.shown m →
      Remarks v (.armingStatusReport m)
        [jot .alsoSuspicious [("prior", v.shown.debug), ("pending", h.debug), ("new", m.debug)]]
  | plain {m} : ¬ Suspicious v.shown m → Remarks v (.armingStatusReport m) []
  | other {m} : (∀ r, m ≠ .armingStatusReport r) → Remarks v m []

/-- What is logged for an operation on a panel, given what it returns. -/
inductive Jots (v : View) : Op → Out → List Record → Prop
  /-- a message: its packet, and what is remarkable -/
  | message {cx pkt m done change w l} : Remarks v m l →
      Jots v (.pollNext cx) (.next (.ready (some (.ok ⟨some pkt, some (.ok m), done, change⟩))) w)
        (jot .received [("pkt", pkt.debug)] :: l)
  /-- any other packet -/
  | packet {cx pkt msg done change w} : (∀ m, msg ≠ some (.ok m)) →
      Jots v (.pollNext cx) (.next (.ready (some (.ok ⟨some pkt, msg, done, change⟩))) w)
        [jot .received [("pkt", pkt.debug)]]
  /-- a withheld report takes effect -/
  | late {cx due h msg done change w} : v.held = some (due, h) →
      Jots v (.pollNext cx) (.next (.ready (some (.ok ⟨none, msg, done, change⟩))) w)
        [jot .deferred [("prior", v.shown.debug), ("pending", h.debug)]]
  | quiet {cx r w} : (∀ ev, r ≠ .ready (some (.ok ev))) → Jots v (.pollNext cx) (.next r w) []
  /-- a command: the message, and its packet -/
  | send {c d} : c.intoMsg.debug = .ok d →
      Jots v (.startSend c) .accepted [jot .command [("msg", d)],
        jot .sending [("pkt", (Packet.ascii ⟨sentText c.intoMsg⟩).debug)]]
  | other {op o} : (∀ cx, op ≠ .pollNext cx) → (∀ c, op ≠ .startSend c) → Jots v op o []

/-- A history and its log. -/
inductive Chronicle : View → List (Deed × List Record) → View → Prop
  | nil {v} : Chronicle v [] v
  | cons {v v' v'' d j l} : Acts v d.op d.io d.out v' → Jots v d.op d.out j →
      Chronicle v' l v'' → Chronicle v ((d, j) :: l) v''

end Elk.Spec
