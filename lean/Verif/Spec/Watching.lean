import Verif.Spec.Minutes
/-!
# Reference machine of `elkm1-cli watch`, and all that it logs

The machines of `connect` (`Connects`, with `Utters` for the log) and of the loop of `watch` (`Sees`,
with `Prints`) put together.
-/

namespace Elk.Spec

/-- Where `watch` is: reaching the panel, connecting, in its loop with the names of areas and zones as
they are shown, or past it. -/
inductive Vantage where
  | dialing
  | greeting (w : Where) (g : Greet)
  | seeing (areas : Fin 8 → Bytes) (zones : Fin 208 → Bytes) (v : View)
  | over

/-- The names as they are shown. -/
def Greet.areas (g : Greet) (i : Fin 8) : Bytes := Spec.shown (g.name .area (i.val + 1)).text.toList

/-- The names as they are shown. -/
def Greet.zoneNames (g : Greet) (i : Fin 208) : Bytes := Spec.shown (g.name .zone (i.val + 1)).text.toList

/-- One operation of `watch`, what it read and wrote, what is logged (as far as it is enabled), and
where that left it. -/
inductive Spots : Vantage → WatcherOp → Bytes → Bytes → List Record → Vantage → Prop
  | reached {d} : Message.debug .armingStatusRequest = .ok d →
      Spots .dialing (.dialed (.ok ())) [] [] [jot .asking [("msg", d)]]
        (.greeting (.toAsk .armingStatusRequest) .new)
  | early {op} : Spots .dialing (.op op) [] [] [] .dialing
  | dialed {x r} : x ≠ .dialing → Spots x (.dialed r) [] [] [] x
  | greets {w g op rd wr o w' g' l} : Connects w g op rd wr o (.asking w' g') →
      Utters g w o (.asking w' g') l → Spots (.greeting w g) (.op op) rd wr l (.greeting w' g')
  | tracks {w g op rd wr o g' a z l} : Connects w g op rd wr o (.done g') →
      Utters g w o (.done g') l → g'.shown = some a → g'.zones = some z →
      Spots (.greeting w g) (.op op) rd wr (l ++ [⟨.tracking, []⟩])
        (.seeing g'.areas g'.zoneNames ⟨g'.unread, a, z, g'.held, none, []⟩)
  | sees {areas zones v op rd o v' l} : Sees areas zones v op rd o v' → o ≠ .returned →
      Prints v op o l → Spots (.seeing areas zones v) (.op op) rd [] l (.seeing areas zones v')
  | returns {areas zones v op rd v'} : Sees areas zones v op rd .returned v' →
      Spots (.seeing areas zones v) (.op op) rd [] [] .over
  | past {op} : Spots .over (.op op) [] [] [] .over

/-- What makes `watch` panic. -/
inductive Blinds : Vantage → WatcherOp → Bytes → Bytes → Prop
  | unreachable {e} : Blinds .dialing (.dialed (.error e)) [] []
  | lost {w g op rd wr o e} : Connects w g op rd wr o (.failed e) →
      Blinds (.greeting w g) (.op op) rd wr
  | room {w g op rd} : Breaks w g op rd → Blinds (.greeting w g) (.op op) rd []
  | broken {areas zones v cx rd e v'} : Reading cx v rd (.ready (some (.error e))) v' →
      Blinds (.seeing areas zones v) (.op (.tick cx)) rd []

/-- What happened in one operation. -/
structure Glance where
  op : WatcherOp
  rd : Bytes
  wr : Bytes
  log : List Record

/-- A history of `watch`. -/
inductive Vigil : Vantage → List Glance → Vantage → Prop
  | nil {x} : Vigil x [] x
  | cons {x y z d l} : Spots x d.op d.rd d.wr d.log y → Vigil y l z → Vigil x (d :: l) z

/-- `watch` is here. -/
inductive Posted : Watcher → Vantage → Prop
  | dialing : Posted .dialing .dialing
  | greeting {i w g} : Stands (.asking i) (.asking w g) → Posted (.connecting i) (.greeting w g)
  | seeing {p v} : Looks p v → Posted (.watching (.watching p)) (.seeing (areaShown p) (zoneShown p) v)
  | over {p} : Posted (.watching (.done p)) .over

/-- What `watch` has read from and written to the panel. -/
def lineSeen : Watcher → Bytes × Bytes
  | .dialing => ([], [])
  | .connecting i => (i.panel.conn.sock.received, i.panel.conn.sock.sent)
  | .watching (.watching p) => (p.conn.sock.received, p.conn.sock.sent)
  | .watching (.done p) => (p.conn.sock.received, p.conn.sock.sent)

/-- What is logged at level `info` in one operation, which read `rd`: nothing before and after the
loop, one record on coming to it, and in the loop the differences between what was shown before and
after; but nothing for a report on all zones. -/
inductive Informs (rd : Bytes) : Vantage → Vantage → List Record → Prop
  | outside {x y} : (∀ areas zones v, y ≠ .seeing areas zones v) → Informs rd x y []
  | comes {w g areas zones v} : Informs rd (.greeting w g) (.seeing areas zones v) [⟨.tracking, []⟩]
  | lines {areas zones v v'} : Informs rd (.seeing areas zones v) (.seeing areas zones v')
      ((areaDiff areas v.shown v'.shown ++ zoneDiff zones v.zones v'.zones).map lineShown)
  | report {areas zones v v' rest body r} : Front (v.unread ++ rd) (some (.ascii ⟨body⟩)) rest →
      Says body (.zoneStatusReport r) → v'.shown = v.shown → v'.zones = r →
      Informs rd (.seeing areas zones v) (.seeing areas zones v') []

end Elk.Spec
