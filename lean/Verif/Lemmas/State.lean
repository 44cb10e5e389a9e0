import Verif.Lemmas.Conn
import Verif.Spec.Panel
import Verif.Props.Msg
/-!
# Lemmas about the panel: what each operation does
-/

namespace Elk
open Spec Props

theorem dataOf_eq (q : List ReadItem) : dataOf q = dataBytes q := by
  induction q with
  | nil => rfl
  | cons i q ih => cases i <;> simp_all [dataOf, dataBytes]

/-- What the state update does. -/
inductive TrackCase (p : Panel) (now : Nat) : Message → Option Change × Panel → Prop
  | asFirst (m) : p.state.armingStatus = none →
      TrackCase p now (.armingStatusReport m)
        (none, { p with state := { p.state with armingStatus := some m } })
  | asHeld (m prior) : p.state.armingStatus = some prior → p.pendingArm = none →
      Suspicious prior m →
      TrackCase p now (.armingStatusReport m)
        (none, { p with pendingArm := some ⟨now + 5000, m, none⟩ })
  | asNew (m prior) : p.state.armingStatus = some prior →
      (p.pendingArm ≠ none ∨ ¬ Suspicious prior m) → prior ≠ m →
      TrackCase p now (.armingStatusReport m)
        (some (.armingStatus prior),
          { p with pendingArm := none, state := { p.state with armingStatus := some m } })
  | asSame (m) : p.state.armingStatus = some m →
      (p.pendingArm ≠ none ∨ ¬ Suspicious m m) →
      TrackCase p now (.armingStatusReport m) (none, { p with pendingArm := none })
  | zcNone (m) : p.state.zoneStatuses = none → TrackCase p now (.zoneChange m) (none, p)
  | zcSet (m : ZoneChange) (z : ZoneStatusReport) (i : Nat) (hi : i < 208) :
      p.state.zoneStatuses = some z → m.zone.val.toNat = i + 1 →
      TrackCase p now (.zoneChange m)
        (if z.zones[i] ≠ m.status then some (.zoneChange m.zone z.zones[i]) else none,
          { p with state := { p.state with zoneStatuses := some ⟨z.zones.set i m.status⟩ } })
  | zs (m) : TrackCase p now (.zoneStatusReport m)
      (none, { p with state := { p.state with zoneStatuses := some m } })
  | other (m) : (∀ r, m ≠ .armingStatusReport r) → (∀ r, m ≠ .zoneChange r) →
      (∀ r, m ≠ .zoneStatusReport r) → TrackCase p now m (none, p)

theorem track_cases (p : Panel) (now : Nat) (m : Message) (hm : WfMessage m) :
    ∃ x, p.track now m = .ok x ∧ TrackCase p now m x := by
  match m with
  | .armingStatusReport m =>
    refine ⟨_, rfl, ?_⟩
    unfold Panel.interpretArmingStatus
    split
    · rename_i h; exact .asFirst m h
    · rename_i prior h
      split
      · rename_i hs
        exact .asHeld m prior h hs.1 ((suspicious_iff _ _).mp hs.2)
      · rename_i hs
        have hs' : p.pendingArm ≠ none ∨ ¬ Suspicious prior m := by
          by_cases hp : p.pendingArm = none
          · exact .inr fun hx => hs ⟨hp, (suspicious_iff _ _).mpr hx⟩
          · exact .inl hp
        split
        · rename_i hne; exact .asNew m prior h hs' hne
        · rename_i hne
          simp only [ne_eq, Decidable.not_not] at hne
          subst hne
          exact .asSame prior h hs'
  | .zoneChange m =>
    unfold Panel.track Panel.interpretZoneChange
    dsimp only
    split
    · rename_i h; exact ⟨_, rfl, .zcNone m h⟩
    · rename_i z h
      obtain ⟨⟨h1, h2⟩, _⟩ := hm
      have hx : m.zone.toIndex = .ok (m.zone.val.toNat - 1) := by
        unfold Limited.toIndex; rw [if_pos h1]
      have hi : m.zone.val.toNat - 1 < 208 := by omega
      rw [hx]
      simp only [bind_ok, arrGet, arrSet, dif_pos hi]
      exact ⟨_, rfl, .zcSet m z _ hi h (by omega)⟩
  | .zoneStatusReport m => exact ⟨_, rfl, .zs m⟩
  | .armRequest _ | .armingStatusRequest | .sendTimeData _ | .sendCode _ | .rtcRequest
  | .rtcResponse _ | .stringDescriptionRequest _ | .stringDescriptionResponse _ | .activateTask _
  | .taskChange _ | .heartbeat _ | .zoneStatusRequest =>
    exact ⟨_, rfl, .other _ (by intro r h; cases h) (by intro r h; cases h)
      (by intro r h; cases h)⟩

/-- What the completion of commands does. -/
inductive CompleteCase (p : Panel) (m : Message) : Option Message × List Waker × Panel → Prop
  | done (request flushed waker) : p.cmdState = .busy request flushed waker → Responds m request →
      CompleteCase p m (some request, waker.toList, { p with cmdState := .idle })
  | busy (request flushed waker) : p.cmdState = .busy request flushed waker →
      ¬ Responds m request → CompleteCase p m (none, [], p)
  | idle : p.cmdState = .idle → CompleteCase p m (none, [], p)

theorem complete_cases (p : Panel) (m : Message) : CompleteCase p m (p.complete m) := by
  unfold Panel.complete
  split
  · rename_i request flushed waker h
    split
    · rename_i hr; exact .done request flushed waker h ((C23_responds _ _).mp hr)
    · rename_i hr; exact .busy request flushed waker h fun hx => hr ((C23_responds _ _).mpr hx)
  · rename_i h; exact .idle h

/-- What interpreting a packet does. -/
inductive InterpCase (p : Panel) (now : Nat) (pkt : Packet) : Event × List Waker × Panel → Prop
  | bad (e) : Message.parse pkt = .error (.err e) →
      InterpCase p now pkt (⟨some pkt, some (.error e), none, none⟩, [], p)
  | skip : Message.parse pkt = .ok none →
      InterpCase p now pkt (⟨some pkt, none, none, none⟩, [], p)
  | msg (m change p1 completes woken p2) : Message.parse pkt = .ok (some m) → WfMessage m →
      TrackCase p now m (change, p1) → CompleteCase p1 m (completes, woken, p2) →
      InterpCase p now pkt (⟨some pkt, some (.ok m), completes, change⟩, woken, p2)

theorem interpret_cases (p : Panel) (now : Nat) (pkt : Packet)
    (hp : ∀ m, Message.parse pkt = .ok (some m) → WfMessage m) :
    ∃ x, p.interpret now pkt = .ok x ∧ InterpCase p now pkt x := by
  unfold Panel.interpret
  split
  · rename_i q h; exact absurd h (C18_parse_never_panics pkt q)
  · rename_i e h; exact ⟨_, rfl, .bad e h⟩
  · rename_i h; exact ⟨_, rfl, .skip h⟩
  · rename_i m h
    obtain ⟨⟨ch, p1⟩, ht, hc⟩ := track_cases p now m (hp m h)
    rw [ht]
    have hcc := complete_cases p1 m
    exact ⟨_, rfl, .msg m ch p1 _ _ _ h (hp m h) hc hcc⟩

theorem parsed_wf {src rest : Bytes} {pkt : Packet} (hd : Packet.decode src = .ok (some pkt, rest))
    (m : Message) (h : Message.parse pkt = .ok (some m)) : WfMessage m := by
  rcases decode_some_cond hd with hv | ⟨i, rfl, _⟩
  · exact C19_parsed_wellformed pkt m hv h
  · cases h

/-- What `poll_next` does. -/
inductive NextCase (p : Panel) (cx : Cx) (new : Bytes) : Poll PanelItem × List Waker × Panel → Prop
  | error (e c) : NextSpec p.conn cx (.ready (some (.error e))) c new →
      NextCase p cx new (.ready (some (.error e)), [], { p with conn := c })
  | ended (c) : NextSpec p.conn cx (.ready none) c new →
      NextCase p cx new (.ready none, [], { p with conn := c })
  | packet (pkt c ev w p') : NextSpec p.conn cx (.ready (some (.ok pkt))) c new →
      InterpCase { p with conn := c } cx.now pkt (ev, w, p') →
      NextCase p cx new (.ready (some (.ok ev)), w, p')
  | idle (c) : NextSpec p.conn cx .pending c new → p.pendingArm = none →
      NextCase p cx new (.pending, [], { p with conn := c })
  | wait (c pa) : NextSpec p.conn cx .pending c new → p.pendingArm = some pa →
      cx.timer < pa.deadline →
      NextCase p cx new (.pending, [],
        { p with conn := c, pendingArm := some { pa with waker := some cx.waker } })
  | fire (c pa prior) : NextSpec p.conn cx .pending c new → p.pendingArm = some pa →
      pa.deadline ≤ cx.timer → p.state.armingStatus = some prior →
      NextCase p cx new (.ready (some (.ok ⟨none, none, none, some (.armingStatus prior)⟩)), [],
        { p with conn := c, pendingArm := none,
                 state := { p.state with armingStatus := some pa.report } })

theorem pollNext_cases (p : Panel) (cx : Cx) (hr : RdOk p.conn.rd)
    (ha : p.pendingArm ≠ none → p.state.armingStatus ≠ none) :
    ∃ x new, p.pollNext cx = .ok x ∧ NextCase p cx new x := by
  obtain ⟨r, c, new, h, hs⟩ := connNext_spec p.conn cx hr
  unfold Panel.pollNext
  rw [h]
  simp only [bind_ok]
  match r, hs with
  | .ready (some (.error e)), hs => exact ⟨_, new, rfl, .error e c hs⟩
  | .ready none, hs => exact ⟨_, new, rfl, .ended c hs⟩
  | .ready (some (.ok pkt)), hs =>
    obtain ⟨⟨ev, w, p'⟩, hi, hc⟩ := interpret_cases { p with conn := c } cx.now pkt
      (parsed_wf (hs.packet pkt rfl))
    dsimp only
    rw [hi]
    exact ⟨_, new, rfl, .packet pkt c ev w p' hs hc⟩
  | .pending, hs =>
    dsimp only
    unfold Panel.pollTimer
    dsimp only
    split
    · rename_i hp; exact ⟨_, new, rfl, .idle c hs hp⟩
    · rename_i pa hp
      split
      · rename_i hd
        cases hst : p.state.armingStatus with
        | none => exact absurd hst (ha (by rw [hp]; simp))
        | some prior => exact ⟨_, new, rfl, .fire c pa prior hs hp hd hst⟩
      · rename_i hd
        refine ⟨_, new, rfl, ?_⟩
        have := NextCase.wait (p := p) (cx := cx) (new := new) c pa hs hp (by omega)
        exact this

/-- What `poll_ready` does. -/
inductive ReadyCase (p : Panel) (cx : Cx) : Poll (Except IoErr Unit) × Panel → Prop
  | idle : p.cmdState = .idle → ReadyCase p cx (.ready (.ok ()), p)
  | wait (request waker) : p.cmdState = .busy request true waker →
      ReadyCase p cx (.pending, { p with cmdState := .busy request true (some cx.waker) })
  | flushed (request waker c) : p.cmdState = .busy request false waker →
      FlushSpec p.conn cx (.ready (.ok ())) c →
      ReadyCase p cx
        (.pending, { p with conn := c, cmdState := .busy request true (some cx.waker) })
  | blocked (request waker c) : p.cmdState = .busy request false waker →
      FlushSpec p.conn cx .pending c → ReadyCase p cx (.pending, { p with conn := c })
  | failed (request waker c e) : p.cmdState = .busy request false waker →
      FlushSpec p.conn cx (.ready (.error e)) c →
      ReadyCase p cx (.ready (.error e), { p with conn := c })

theorem pollReady_cases (p : Panel) (cx : Cx) : ReadyCase p cx (p.pollReady cx) := by
  unfold Panel.pollReady
  have hf := connFlush_spec p.conn cx
  split
  · rename_i h; exact .idle h
  · rename_i request waker h; exact .wait request waker h
  · rename_i request waker h
    generalize p.conn.pollFlush cx = x at hf
    match x, hf with
    | (.ready (.ok ()), c), hf => exact .flushed request waker c h hf
    | (.pending, c), hf => exact .blocked request waker c h hf
    | (.ready (.error e), c), hf => exact .failed request waker c e h hf

/-- What `poll_flush` does. -/
inductive FlushCase (p : Panel) (cx : Cx) : Poll (Except IoErr Unit) × Panel → Prop
  | nothing : (∀ request waker, p.cmdState ≠ .busy request false waker) →
      FlushCase p cx (.ready (.ok ()), p)
  | flushed (request waker c) : p.cmdState = .busy request false waker →
      FlushSpec p.conn cx (.ready (.ok ())) c →
      FlushCase p cx (.ready (.ok ()), { p with conn := c, cmdState := .busy request true waker })
  | blocked (request waker c) : p.cmdState = .busy request false waker →
      FlushSpec p.conn cx .pending c → FlushCase p cx (.pending, { p with conn := c })
  | failed (request waker c e) : p.cmdState = .busy request false waker →
      FlushSpec p.conn cx (.ready (.error e)) c →
      FlushCase p cx (.ready (.error e), { p with conn := c })

theorem pollFlush_cases (p : Panel) (cx : Cx) : FlushCase p cx (p.pollFlush cx) := by
  unfold Panel.pollFlush
  have hf := connFlush_spec p.conn cx
  split
  · rename_i request waker h
    generalize p.conn.pollFlush cx = x at hf
    match x, hf with
    | (.ready (.ok ()), c), hf => exact .flushed request waker c h hf
    | (.pending, c), hf => exact .blocked request waker c h hf
    | (.ready (.error e), c), hf => exact .failed request waker c e h hf
  · rename_i h; exact .nothing fun r w hx => h r w hx

/-- What `poll_close` does. -/
inductive CloseCase (p : Panel) (cx : Cx) : Poll (Except IoErr Unit) × Panel → Prop
  | flushed (p1 r c) : FlushCase p cx (.ready (.ok ()), p1) → FlushSpec p1.conn cx r c →
      CloseCase p cx (r, { p1 with conn := c })
  | stuck (r p1) : r ≠ .ready (.ok ()) → FlushCase p cx (r, p1) → CloseCase p cx (r, p1)

theorem pollClose_cases (p : Panel) (cx : Cx) : CloseCase p cx (p.pollClose cx) := by
  unfold Panel.pollClose
  have hf := pollFlush_cases p cx
  generalize p.pollFlush cx = x at hf
  match x, hf with
  | (.ready (.ok ()), p1), hf => exact .flushed p1 _ _ hf (connFlush_spec p1.conn cx)
  | (.pending, p1), hf => exact .stuck _ p1 (by simp) hf
  | (.ready (.error e), p1), hf => exact .stuck _ p1 (by simp) hf

theorem startSend_cases (p : Panel) (cmd : Command) :
    (∃ r f w, p.cmdState = .busy r f w ∧ p.startSend cmd = .error .assertion) ∨
    (p.cmdState = .idle ∧ ((∃ pkt e, cmd.intoMsg.toPkt = .ok pkt ∧ pkt.encode = .ok e ∧
      p.startSend cmd = .ok { p with
        conn := { p.conn with wbuf := p.conn.wbuf ++ e },
        cmdState := .busy cmd.intoMsg false none }) ∨
      ∃ q, p.startSend cmd = .error q)) := by
  unfold Panel.startSend
  cases h : p.cmdState with
  | busy r f w => exact .inl ⟨r, f, w, rfl, rfl⟩
  | idle =>
    refine .inr ⟨rfl, ?_⟩
    dsimp only
    cases hp : cmd.intoMsg.toPkt with
    | error q => exact .inr ⟨q, rfl⟩
    | ok pkt =>
      cases he : pkt.encode with
      | error q =>
        refine .inr ⟨q, ?_⟩
        simp only [bind_ok, Connection.startSend, Codec.encode, he]
        rfl
      | ok e =>
        refine .inl ⟨pkt, e, rfl, he, ?_⟩
        simp only [bind_ok, Connection.startSend, Codec.encode, he]

/-- The encoding of a well-formed command. -/
theorem command_bytes {cmd : Command} (h : WfCommand cmd) {pkt e}
    (hp : cmd.intoMsg.toPkt = .ok pkt) (he : pkt.encode = .ok e) : e = commandBytes cmd := by
  rw [toPkt_eq h] at hp
  simp only [Except.ok.injEq] at hp
  subst hp
  rw [encode_valid (p := .ascii ⟨sentText cmd.intoMsg⟩) (sentText_valid h)] at he
  simp only [Except.ok.injEq] at he
  exact he.symm

theorem startSend_wf {cmd : Command} (h : WfCommand cmd) {p : Panel} (hi : p.cmdState = .idle) :
    p.startSend cmd = .ok { p with
      conn := { p.conn with wbuf := p.conn.wbuf ++ commandBytes cmd },
      cmdState := .busy cmd.intoMsg false none } := by
  unfold Panel.startSend
  rw [hi]
  dsimp only
  rw [toPkt_eq h]
  simp only [bind_ok, Connection.startSend, Codec.encode]
  rw [encode_valid (p := .ascii ⟨sentText cmd.intoMsg⟩) (sentText_valid h)]
  rfl

/-- What one operation does. -/
inductive StepCase (p : Panel) : Op → Out × Panel → Prop
  | arrive (r) : StepCase p (.arrive r) (.env p.conn.sock.readWaker.toList,
      { p with conn := { p.conn with sock := { p.conn.sock with
        incoming := p.conn.sock.incoming ++ [r], readWaker := none } } })
  | writable (w) : StepCase p (.writable w) (.env p.conn.sock.writeWaker.toList,
      { p with conn := { p.conn with sock := { p.conn.sock with
        writes := p.conn.sock.writes ++ [w], writeWaker := none } } })
  | next (cx new r w p') : NextCase p cx new (r, w, p') → StepCase p (.pollNext cx) (.next r w, p')
  | ready (cx r p') : ReadyCase p cx (r, p') → StepCase p (.pollReady cx) (.sink r, p')
  | send (cmd pkt e) : p.cmdState = .idle → cmd.intoMsg.toPkt = .ok pkt → pkt.encode = .ok e →
      StepCase p (.startSend cmd) (.accepted, { p with
        conn := { p.conn with wbuf := p.conn.wbuf ++ e },
        cmdState := .busy cmd.intoMsg false none })
  | flush (cx r p') : FlushCase p cx (r, p') → StepCase p (.pollFlush cx) (.sink r, p')
  | close (cx r p') : CloseCase p cx (r, p') → StepCase p (.pollClose cx) (.sink r, p')

/-- What is needed for a poll not to panic. -/
structure Sane (p : Panel) : Prop where
  rd : RdOk p.conn.rd
  arming : p.pendingArm ≠ none → p.state.armingStatus ≠ none

theorem step_cases {p : Panel} (hs : Sane p) {op : Op} {x : Out × Panel}
    (h : p.step op = .ok x) : StepCase p op x := by
  match op with
  | .arrive r => cases h; exact .arrive r
  | .writable w => cases h; exact .writable w
  | .pollNext cx =>
    obtain ⟨⟨r, w, p'⟩, new, hn, hc⟩ := pollNext_cases p cx hs.rd hs.arming
    unfold Panel.step at h
    dsimp only at h
    rw [hn] at h
    cases h
    exact .next cx new r w p' hc
  | .pollReady cx =>
    cases h
    exact .ready cx _ _ (pollReady_cases p cx)
  | .startSend cmd =>
    unfold Panel.step at h
    dsimp only at h
    rcases startSend_cases p cmd with ⟨_, _, _, _, hx⟩ | ⟨hi, ⟨pkt, e, hp, he, hx⟩ | ⟨q, hx⟩⟩
    · rw [hx] at h; cases h
    · rw [hx] at h; cases h; exact .send cmd pkt e hi hp he
    · rw [hx] at h; cases h
  | .pollFlush cx =>
    cases h
    exact .flush cx _ _ (pollFlush_cases p cx)
  | .pollClose cx =>
    cases h
    exact .close cx _ _ (pollClose_cases p cx)

/-- Invariant of panels after initialisation. -/
structure Good (p : Panel) : Prop extends Sane p where
  has : p.state.armingStatus ≠ none
  zones : p.state.zoneStatuses ≠ none
  flushed : ∀ r w, p.cmdState = .busy r true w → p.conn.wbuf = []
  held : ∀ pa, p.pendingArm = some pa → ∃ v, p.state.armingStatus = some v ∧ Suspicious v pa.report

theorem Good.sane {p : Panel} (h : Good p) : Sane p := h.toSane

theorem Good.mk' {p : Panel} (rd : RdOk p.conn.rd) (has : p.state.armingStatus ≠ none)
    (zones : p.state.zoneStatuses ≠ none)
    (fl : ∀ r w, p.cmdState = .busy r true w → p.conn.wbuf = [])
    (held : ∀ pa, p.pendingArm = some pa →
      ∃ v, p.state.armingStatus = some v ∧ Suspicious v pa.report) : Good p :=
  ⟨⟨rd, fun _ => has⟩, has, zones, fl, held⟩

theorem expectSome_ok {α : Type} {o : Option α} {a : α} : expectSome o = .ok a ↔ o = some a := by
  cases o <;> simp [expectSome]

theorem connected_good {p : Panel} (h : Connected p) : Good p := by
  obtain ⟨m, hm⟩ := h.arming
  obtain ⟨z, hz⟩ := h.zones
  unfold Panel.armingStatus at hm
  unfold Panel.zoneStatuses at hz
  rw [expectSome_ok] at hm hz
  refine .mk' h.read (by rw [hm]; simp) (by rw [hz]; simp) ?_ ?_
  · intro r w hb
    rw [h.idle] at hb
    cases hb
  · intro pa hpa
    obtain ⟨v, hv, hs⟩ := h.held pa hpa
    exact ⟨v, expectSome_ok.mp hv, hs⟩

/-- Tracking keeps everything but the views and the withheld report. -/
theorem track_keeps {p p1 : Panel} {now m ch} (h : TrackCase p now m (ch, p1)) :
    p1.conn = p.conn ∧ p1.cmdState = p.cmdState ∧
    (p.state.armingStatus ≠ none → p1.state.armingStatus ≠ none) ∧
    (p.state.zoneStatuses ≠ none → p1.state.zoneStatuses ≠ none) ∧
    p1.state.zoneNames = p.state.zoneNames ∧ p1.state.areaNames = p.state.areaNames ∧
    p1.state.taskNames = p.state.taskNames ∧
    ((p.pendingArm ≠ none → p.state.armingStatus ≠ none) →
      (p1.pendingArm ≠ none → p1.state.armingStatus ≠ none)) := by
  cases h <;> simp_all

/-- Tracking keeps a withheld report suspicious. -/
theorem track_held {p p1 : Panel} {now m ch} (h : TrackCase p now m (ch, p1))
    (hh : ∀ pa, p.pendingArm = some pa → ∃ v, p.state.armingStatus = some v ∧
      Suspicious v pa.report) :
    ∀ pa, p1.pendingArm = some pa → ∃ v, p1.state.armingStatus = some v ∧
      Suspicious v pa.report := by
  cases h with
  | asFirst m hn =>
    intro pa hpa
    obtain ⟨v, hv, _⟩ := hh pa hpa
    rw [hn] at hv; cases hv
  | asHeld m prior ha hp hs =>
    intro pa hpa
    simp only [Option.some.injEq] at hpa
    subst hpa
    exact ⟨prior, ha, hs⟩
  | asNew m prior _ _ _ => intro pa hpa; cases hpa
  | asSame m _ _ => intro pa hpa; cases hpa
  | zcNone _ _ => exact hh
  | zcSet _ _ _ _ _ _ => exact hh
  | zs _ => exact hh
  | other _ _ _ _ => exact hh

theorem complete_keeps {p p1 : Panel} {m c w} (h : CompleteCase p m (c, w, p1)) :
    p1.conn = p.conn ∧ p1.state = p.state ∧ p1.pendingArm = p.pendingArm ∧
    (p1.cmdState = p.cmdState ∨ p1.cmdState = .idle) := by
  cases h <;> simp

theorem interp_keeps {p p1 : Panel} {now pkt ev w} (h : InterpCase p now pkt (ev, w, p1)) :
    p1.conn = p.conn ∧ (p1.cmdState = p.cmdState ∨ p1.cmdState = .idle) ∧
    (p.state.armingStatus ≠ none → p1.state.armingStatus ≠ none) ∧
    (p.state.zoneStatuses ≠ none → p1.state.zoneStatuses ≠ none) ∧
    p1.state.zoneNames = p.state.zoneNames ∧ p1.state.areaNames = p.state.areaNames ∧
    p1.state.taskNames = p.state.taskNames ∧
    ((p.pendingArm ≠ none → p.state.armingStatus ≠ none) →
      (p1.pendingArm ≠ none → p1.state.armingStatus ≠ none)) := by
  cases h with
  | bad e _ => simp
  | skip _ => simp
  | msg m ch p1 c w p2 _ _ ht hc =>
    obtain ⟨h1, h2, h3, h4, h5, h6, h7, h8⟩ := track_keeps ht
    obtain ⟨g1, g2, g3, g4⟩ := complete_keeps hc
    rw [g1, g2, g3, h1]
    refine ⟨rfl, ?_, h3, h4, h5, h6, h7, h8⟩
    rw [← h2]; exact g4

theorem interp_held {p p1 : Panel} {now pkt ev w} (h : InterpCase p now pkt (ev, w, p1))
    (hh : ∀ pa, p.pendingArm = some pa → ∃ v, p.state.armingStatus = some v ∧
      Suspicious v pa.report) :
    ∀ pa, p1.pendingArm = some pa → ∃ v, p1.state.armingStatus = some v ∧
      Suspicious v pa.report := by
  cases h with
  | bad e _ => exact hh
  | skip _ => exact hh
  | msg m ch p1 c w p2 _ _ ht hc =>
    obtain ⟨g1, g2, g3, g4⟩ := complete_keeps hc
    rw [g2, g3]
    exact track_held ht hh

theorem next_good {p p1 : Panel} {cx new r w} (hg : Good p) (h : NextCase p cx new (r, w, p1)) :
    Good p1 := by
  have fl : ∀ {q : Panel} {c : Connection}, c.wbuf = p.conn.wbuf → q.conn = c →
      (q.cmdState = p.cmdState ∨ q.cmdState = .idle) →
      ∀ r w, q.cmdState = .busy r true w → q.conn.wbuf = [] := by
    intro q c hc hq hs r w hb
    rw [hq, hc]
    rcases hs with hs | hs
    · exact hg.flushed r w (hs ▸ hb)
    · rw [hs] at hb; cases hb
  cases h with
  | error e c hs => exact .mk' hs.inv hg.has hg.zones (fl hs.wbuf rfl (.inl rfl)) hg.held
  | ended c hs => exact .mk' hs.inv hg.has hg.zones (fl hs.wbuf rfl (.inl rfl)) hg.held
  | packet pkt c ev w p' hs hi =>
    obtain ⟨h1, h2, h3, h4, _⟩ := interp_keeps hi
    refine .mk' ?_ (h3 hg.has) (h4 hg.zones) (fl hs.wbuf h1 h2) (interp_held hi hg.held)
    rw [h1]; exact hs.inv
  | idle c hs _ => exact .mk' hs.inv hg.has hg.zones (fl hs.wbuf rfl (.inl rfl)) hg.held
  | wait c pa hs hp _ =>
    refine .mk' hs.inv hg.has hg.zones (fl hs.wbuf rfl (.inl rfl)) ?_
    intro pa' hpa
    simp only [Option.some.injEq] at hpa
    subst hpa
    exact hg.held pa hp
  | fire c pa prior hs _ _ _ =>
    exact .mk' hs.inv (by simp) hg.zones (fl hs.wbuf rfl (.inl rfl)) (by intro pa h; cases h)

theorem flush_good {p p1 : Panel} {cx r} (hg : Good p) (h : FlushCase p cx (r, p1)) : Good p1 := by
  cases h with
  | nothing _ => exact hg
  | flushed rq w c _ hs => exact .mk' (hs.rd ▸ hg.rd) hg.has hg.zones (fun _ _ _ => hs.done rfl) hg.held
  | blocked rq w c hb hs =>
    refine .mk' (hs.rd ▸ hg.rd) hg.has hg.zones ?_ hg.held
    intro r w h
    simp only [hb] at h
    cases h
  | failed rq w c e hb hs =>
    refine .mk' (hs.rd ▸ hg.rd) hg.has hg.zones ?_ hg.held
    intro r w h
    simp only [hb] at h
    cases h

theorem step_good {p p1 : Panel} {op o} (hg : Good p) (h : StepCase p op (o, p1)) : Good p1 := by
  cases h with
  | arrive r => exact .mk' hg.rd hg.has hg.zones hg.flushed hg.held
  | writable r => exact .mk' hg.rd hg.has hg.zones hg.flushed hg.held
  | next cx new r w _ hn => exact next_good hg hn
  | ready cx r _ hr =>
    cases hr with
    | idle _ => exact hg
    | wait rq w hb => exact .mk' hg.rd hg.has hg.zones (fun _ _ _ => hg.flushed _ _ hb) hg.held
    | flushed rq w c _ hs => exact .mk' (hs.rd ▸ hg.rd) hg.has hg.zones (fun _ _ _ => hs.done rfl) hg.held
    | blocked rq w c hb hs =>
      refine .mk' (hs.rd ▸ hg.rd) hg.has hg.zones ?_ hg.held
      intro r w h
      simp only [hb] at h
      cases h
    | failed rq w c e hb hs =>
      refine .mk' (hs.rd ▸ hg.rd) hg.has hg.zones ?_ hg.held
      intro r w h
      simp only [hb] at h
      cases h
  | send cmd pkt e hi _ _ =>
    refine .mk' hg.rd hg.has hg.zones ?_ hg.held
    intro r w h
    cases h
  | flush cx r _ hf => exact flush_good hg hf
  | close cx r _ hc =>
    cases hc with
    | flushed p1 r c hf hs =>
      have g1 := flush_good hg hf
      refine .mk' (hs.rd ▸ g1.rd) g1.has g1.zones ?_ g1.held
      intro r w hb
      have hw := g1.flushed r w hb
      have := hs.bytes
      obtain ⟨new, hn⟩ := hs.grows
      rw [hw, hn, List.append_nil, List.append_assoc] at this
      have := List.append_right_eq_self.mp this
      simp only [List.append_eq_nil_iff] at this
      exact this.2
    | stuck r _ _ hf => exact flush_good hg hf

/-- Histories, with what is known at each step. -/
inductive Hist : Panel → List Op → List Out → Panel → Prop
  | nil {p} : Good p → Hist p [] [] p
  | cons {p op o p1 ops os p2} : Good p → StepCase p op (o, p1) → Hist p1 ops os p2 →
      Hist p (op :: ops) (o :: os) p2

theorem run_cons {op : Op} {ops : List Op} {p p2 : Panel} {outs : List Out} :
    Panel.run (op :: ops) p = .ok (outs, p2) ↔
      ∃ o p1 os, p.step op = .ok (o, p1) ∧ Panel.run ops p1 = .ok (os, p2) ∧ outs = o :: os := by
  have e : Panel.run (op :: ops) p = (p.step op >>= fun x => Panel.run ops x.2 >>= fun y =>
      .ok (x.1 :: y.1, y.2)) := rfl
  rw [e]
  constructor
  · intro h
    cases h1 : p.step op with
    | error e => rw [h1] at h; cases h
    | ok x =>
      obtain ⟨o, p1⟩ := x
      rw [h1] at h
      simp only [bind_ok] at h
      cases h2 : Panel.run ops p1 with
      | error e => rw [h2] at h; cases h
      | ok y =>
        obtain ⟨os, p2'⟩ := y
        rw [h2] at h
        simp only [bind_ok, Except.ok.injEq, Prod.mk.injEq] at h
        obtain ⟨rfl, rfl⟩ := h
        exact ⟨o, p1, os, rfl, h2, rfl⟩
  · rintro ⟨o, p1, os, h1, h2, rfl⟩
    rw [h1]
    simp only [bind_ok]
    rw [h2]
    rfl

theorem hist_of_run {ops : List Op} : ∀ {p p' : Panel} {outs : List Out}, Good p →
    Panel.run ops p = .ok (outs, p') → Hist p ops outs p' := by
  induction ops with
  | nil => intro p p' outs hg h; cases h; exact .nil hg
  | cons op ops ih =>
    intro p p' outs hg h
    obtain ⟨o, p1, os, h1, h2, rfl⟩ := run_cons.mp h
    have hc := step_cases hg.sane h1
    exact .cons hg hc (ih (step_good hg hc) h2)

theorem Hist.good {p p' : Panel} {ops outs} (h : Hist p ops outs p') : Good p' := by
  induction h with
  | nil h => exact h
  | cons _ _ _ ih => exact ih

theorem Hist.good0 {p p' : Panel} {ops outs} (h : Hist p ops outs p') : Good p := by
  cases h <;> assumption

theorem run_append {a b : List Op} : ∀ {p p2 : Panel} {outs : List Out},
    Panel.run (a ++ b) p = .ok (outs, p2) ↔
      ∃ p1 o1 o2, Panel.run a p = .ok (o1, p1) ∧ Panel.run b p1 = .ok (o2, p2) ∧
        outs = o1 ++ o2 := by
  induction a with
  | nil =>
    intro p p2 outs
    constructor
    · intro h; exact ⟨p, [], outs, rfl, h, rfl⟩
    · rintro ⟨p1, o1, o2, h1, h2, rfl⟩; cases h1; exact h2
  | cons op a ih =>
    intro p p2 outs
    rw [List.cons_append, run_cons]
    constructor
    · rintro ⟨o, q, os, h1, h2, rfl⟩
      obtain ⟨p1, o1, o2, h3, h4, rfl⟩ := ih.mp h2
      exact ⟨p1, o :: o1, o2, run_cons.mpr ⟨o, q, o1, h1, h3, rfl⟩, h4, rfl⟩
    · rintro ⟨p1, o1, o2, h1, h2, rfl⟩
      obtain ⟨o, q, os, h3, h4, rfl⟩ := run_cons.mp h1
      exact ⟨o, q, os ++ o2, h3, ih.mpr ⟨p1, os, o2, h4, h2, rfl⟩, rfl⟩

/-- Only starting to send can panic. -/
theorem step_total {p : Panel} (hs : Sane p) (op : Op) (hop : ∀ c, op ≠ .startSend c) :
    ∃ x, p.step op = .ok x := by
  match op with
  | .pollNext cx =>
    obtain ⟨⟨r, w, p'⟩, new, hn, hc⟩ := pollNext_cases p cx hs.rd hs.arming
    refine ⟨(.next r w, p'), ?_⟩
    unfold Panel.step
    dsimp only
    rw [hn]
    rfl
  | .arrive _ | .writable _ | .pollReady _ | .pollFlush _ | .pollClose _ => exact ⟨_, rfl⟩
  | .startSend c => exact absurd rfl (hop c)

end Elk
