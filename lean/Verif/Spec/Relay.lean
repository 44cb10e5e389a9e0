import Verif.Spec.EndToEnd
/-!
# A relay

A client of the library that stands between a panel and others: it takes the bytes of the panel apart,
and writes the messages that are understood anew.
-/

namespace Elk.Spec

/-- The messages in some bytes. -/
def Messages (b : Bytes) (ms : List Message) : Prop :=
  ∃ ps left, Drains b ps left ∧ ms = ps.filterMap says

/-- What the relay writes for some bytes. -/
def Relayed (b out : Bytes) : Prop :=
  ∃ ms qs ws, Messages b ms ∧ ms.mapM Message.toPkt = .ok qs ∧ qs.mapM Packet.encode = .ok ws ∧
    out = ws.flatten

end Elk.Spec
