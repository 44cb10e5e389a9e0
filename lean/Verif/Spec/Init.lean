import Verif.Model.Init
import Verif.Spec.Panel
/-!
# Vocabulary for properties of initialisation

The dialogue `connect` has with the panel, from what is observed: the questions asked and the
packets received.
-/

namespace Elk.Spec

/-- A connection as `Connection::connect` gives it: nothing sent, received or buffered yet. -/
structure Fresh (c : Connection) : Prop where
  sent : c.sock.sent = []
  received : c.sock.received = []
  wbuf : c.wbuf = []
  rd : c.rd = {}

/-- The questions asked in a history. -/
def questions (outs : List Obs) : List Message :=
  outs.filterMap fun
    | .asked q => some q
    | _ => none

/-- The events received in a history. -/
def gotten (outs : List Obs) : List Event :=
  outs.filterMap fun
    | .got ev => some ev
    | _ => none

/-- The number of entries of a type that have names the library keeps. -/
def entries : TextDescriptionType → Nat
  | .area => 8
  | .task => 32
  | .zone => 208
  | _ => 0

/-- The question for the description of entry `n`. -/
def describe (ty : TextDescriptionType) (n : Nat) : Message :=
  .stringDescriptionRequest ⟨ty, UInt8.ofNat n⟩

/-- All questions that may be asked, in order. -/
def allQuestions : List Message :=
  [.armingStatusRequest, .zoneStatusRequest] ++
  (List.range' 1 8).map (describe .area) ++ (List.range' 1 32).map (describe .task) ++
  (List.range' 1 208).map (describe .zone)

/-- The first question after those about a type. -/
def afterType : TextDescriptionType → Option Message
  | .area => some (describe .task 1)
  | .task => some (describe .zone 1)
  | _ => none

/-- The question that follows once `q` has been answered by `r`, if any: the statuses first, then
for each type the entry after the one described, skipping to the next type when there are no
more. -/
def followUp (q r : Message) : Option Message :=
  match q, r with
  | .armingStatusRequest, _ => some .zoneStatusRequest
  | .zoneStatusRequest, _ => some (describe .area 1)
  | .stringDescriptionRequest q, .stringDescriptionResponse r =>
    if r.num.toNat = 0 ∨ entries q.ty ≤ r.num.toNat then afterType q.ty
    else some (describe q.ty (r.num.toNat + 1))
  | _, _ => none

/-- Where the dialogue is. -/
inductive Talk where
  | toAsk (q : Message)
  | waiting (q : Message)
  | done
  | failed

/-- The dialogue: one question at a time, each asked once and followed by the next only after a
reply to it. -/
inductive Dialogue : Talk → List Obs → Talk → Prop
  | nil {s} : Dialogue s [] s
  | ask {q l x} : Dialogue (.waiting q) l x → Dialogue (.toAsk q) (.asked q :: l) x
  | reply {q q' ev m l x} : ev.msg = some (.ok m) → Responds m q → followUp q m = some q' →
      Dialogue (.toAsk q') l x → Dialogue (.waiting q) (.got ev :: l) x
  | last {q ev m} : ev.msg = some (.ok m) → Responds m q → followUp q m = none →
      Dialogue (.waiting q) [.got ev] .done
  | other {q ev l x} : (∀ m, ev.msg = some (.ok m) → ¬ Responds m q) →
      Dialogue (.waiting q) l x → Dialogue (.waiting q) (.got ev :: l) x
  | flushed {q l x} : Dialogue (.waiting q) l x → Dialogue (.waiting q) (.flushed :: l) x
  | pending {q l x} : Dialogue (.waiting q) l x → Dialogue (.waiting q) (.pending :: l) x
  | env {s w l x} : Dialogue s l x → Dialogue s (.env w :: l) x
  | failed {q e} : Dialogue (.waiting q) [.failed e] .failed

/-- The names a panel has been programmed with, by type and number. -/
structure Server where
  name : TextDescriptionType → Nat → Option TextDescription

/-- The documented answer to a request for a description: the next named entry, or number 0. -/
def Server.Answers (S : Server) (q : StringDescriptionRequest) (r : StringDescriptionResponse) :
    Prop :=
  r.ty = q.ty ∧
  ((r.num.toNat = 0 ∧ ∀ n, q.num.toNat ≤ n → n ≤ entries q.ty → S.name q.ty n = none) ∨
   (q.num.toNat ≤ r.num.toNat ∧ r.num.toNat ≤ entries q.ty ∧
    S.name q.ty r.num.toNat = some r.text ∧
    ∀ n, q.num.toNat ≤ n → n < r.num.toNat → S.name q.ty n = none))

/-- The first entry from `start` on that has a name. -/
def Server.next (S : Server) (ty : TextDescriptionType) (start : Nat) :
    Option (Nat × TextDescription) :=
  (List.range' start (entries ty + 1 - start)).findSome? fun n => (S.name ty n).map (n, ·)

/-- The answer of a panel with names `S` and statuses `A` and `Z`. -/
def Server.answer (S : Server) (A : ArmingStatusReport) (Z : ZoneStatusReport) : Message → Message
  | .armingStatusRequest => .armingStatusReport A
  | .zoneStatusRequest => .zoneStatusReport Z
  | .stringDescriptionRequest q =>
    match S.next q.ty q.num.toNat with
    | some (n, text) => .stringDescriptionResponse ⟨q.ty, UInt8.ofNat n, text⟩
    | none => .stringDescriptionResponse ⟨q.ty, 0, .empty⟩
  | _ => .rtcRequest

/-- Every description received as a reply to the question last asked is the documented answer. -/
def Obedient (S : Server) (outs : List Obs) : Prop :=
  ∀ a ev b q r, outs = a ++ .got ev :: b →
    (questions a).getLast? = some (.stringDescriptionRequest q) →
    ev.msg = some (.ok (.stringDescriptionResponse r)) →
    Responds (.stringDescriptionResponse r) (.stringDescriptionRequest q) → S.Answers q r

/-- Every description received has a number the library has room for. -/
def NumbersFit (outs : List Obs) : Prop :=
  ∀ ev ∈ gotten outs, ∀ r, ev.msg = some (.ok (.stringDescriptionResponse r)) →
    r.num.toNat ≤ entries r.ty

end Elk.Spec
