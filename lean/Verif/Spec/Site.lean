import Verif.Spec.Init
import Verif.Spec.Msg
/-!
# `connect` together with a panel

The library, a line and a panel, all of which act when they like: the line hands over bytes in
pieces of any sizes, the panel answers requests in the order it gets them, and says things of its
own accord.
-/

namespace Elk.Spec

/-- The state of library, line and panel. -/
structure Site where
  /-- the future of `connect` -/
  phase : Phase
  /-- the number of bytes of requests the panel has answered -/
  taken : Nat
  /-- bytes sent by the panel and not yet handed over -/
  line : Bytes
  /-- what was observed of the library -/
  seen : List Obs
  /-- while the task of the library sleeps: the waker it was last polled with -/
  asleep : Option Waker
  /-- what the panel has said -/
  said : List Message
  /-- what the panel has said of its own accord -/
  own : List Message

/-- What can happen. -/
inductive SiteOp where
  /-- the task of the library is run, unless it sleeps -/
  | tick (cx : Cx)
  /-- the socket of the library takes up to `n + 1` bytes -/
  | accept (n : Nat)
  /-- up to `n + 1` bytes arrive at the library -/
  | deliver (n : Nat)
  /-- the panel, with these statuses at the moment, answers the next request it got, if any -/
  | answer (A : ArmingStatusReport) (Z : ZoneStatusReport)
  /-- the panel says something of its own accord -/
  | say (m : Message)

/-- The frame of a message. -/
def frame (m : Message) : Bytes := asciiFrame (sentText m)

/-- The request at the front of what the panel got, if it is complete. -/
def nextRequest (got : Bytes) : Option Message :=
  allQuestions.find? fun q => (frame q).isPrefixOf got

/-- Whether the task of the library sleeps: it falls asleep when a poll is pending, and is woken by
the waker it was last polled with only. -/
def sleeps (asleep : Option Waker) : InitOp → Obs → Option Waker
  | .tick cx, .pending => some cx.waker
  | .tick _, _ => none
  | _, .env ws => if asleep.any fun w => ws.contains w then none else asleep
  | _, _ => asleep

/-- The library does something, or something happens to it. -/
def Site.library (s : Site) (op : InitOp) : P Site :=
  match s.phase with
  | .finished _ => .ok s
  | .asking i =>
    match i.step op with
    | .error e => .error e
    | .ok (o, ph) =>
      .ok { s with phase := ph, seen := s.seen ++ [o], asleep := sleeps s.asleep op o }

/-- The panel answers a request. -/
def Site.answer (S : Server) (A : ArmingStatusReport) (Z : ZoneStatusReport) (s : Site) : Site :=
  match s.phase with
  | .finished _ => s
  | .asking i =>
    match nextRequest (i.panel.conn.sock.sent.drop s.taken) with
    | none => s
    | some q => { s with
        taken := s.taken + (frame q).length
        line := s.line ++ frame (S.answer A Z q)
        said := s.said ++ [S.answer A Z q] }

/-- One thing happens. -/
def Site.step (S : Server) (s : Site) : SiteOp → P Site
  | .tick cx => if s.asleep = none then s.library (.tick cx) else .ok s
  | .accept n => s.library (.writable (.accept (n + 1)))
  | .deliver n =>
    if s.line = [] then .ok s
    else { s with line := s.line.drop (n + 1) }.library (.arrive (.data (s.line.take (n + 1))))
  | .answer A Z => .ok (s.answer S A Z)
  | .say m => .ok { s with
      line := s.line ++ frame m, said := s.said ++ [m], own := s.own ++ [m] }

/-- The state after `n` things have happened, from a fresh connection. -/
def Site.after (S : Server) (ops : Nat → SiteOp) : Nat → P Site
  | 0 => do
    let phase ← Init.start {}
    .ok ⟨phase, 0, [], [], none, [], []⟩
  | n + 1 => do
    let s ← Site.after S ops n
    s.step S (ops n)

/-- Who acts. -/
inductive Who where
  | library
  | socket
  | line
  | panel
  | chance
  deriving DecidableEq

/-- Who acts. -/
def SiteOp.who : SiteOp → Who
  | .tick _ => .library
  | .accept _ => .socket
  | .deliver _ => .line
  | .answer .. => .panel
  | .say _ => .chance

/-- Everyone keeps acting. -/
def Fair (ops : Nat → SiteOp) : Prop :=
  ∀ w, w ≠ .chance → ∀ n, ∃ m, n ≤ m ∧ (ops m).who = w

/-- What the panel says can be said; of its own accord it says no descriptions. -/
def SiteOp.Proper : SiteOp → Prop
  | .answer _ Z => WfMessage (.zoneStatusReport Z)
  | .say m => WfMessage m ∧ ∀ r, m ≠ .stringDescriptionResponse r
  | _ => True

end Elk.Spec
