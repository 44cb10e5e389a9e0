import Verif.Lemmas.State
/-!
# Properties of the panel's view of the system (C31–C36, C59–C61)

A history is a list of operations (`Op`) performed on a connected panel: answers of the socket,
polls of the stream at arbitrary times by arbitrary tasks, and sink operations, in any order.
-/

namespace Elk.Props
open Elk.Spec

/-! ## A sample panel, for non-vacuity -/

/-- A connected panel with all areas disarmed, and some answers queued on its socket. -/
def samplePanel (q : List ReadItem) : Panel where
  conn := { sock := { incoming := q } }
  state := { PanelState.default with
    armingStatus := some (sameReport .disarmed .readyToArm)
    zoneStatuses := some .allUnconfigured }
  pendingArm := none
  cmdState := .idle

theorem samplePanel_connected (q : List ReadItem) : Connected (samplePanel q) :=
  ⟨⟨_, rfl⟩, ⟨_, rfl⟩, rfl, rfl, (by intro pa h; cases h), fun _ => rfl⟩

/-- A report of area 1 fully armed, which is suspicious coming from disarmed. -/
def armedReport : ArmingStatusReport := sameReport .armedAway .armedFully

theorem arming_iff {p : Panel} {m : ArmingStatusReport} :
    p.armingStatus = .ok m ↔ p.state.armingStatus = some m := expectSome_ok

theorem zones_iff {p : Panel} {z : ZoneStatusReport} :
    p.zoneStatuses = .ok z ↔ p.state.zoneStatuses = some z := expectSome_ok

theorem suspicious_ne {v m : ArmingStatusReport} (h : Suspicious v m) : v ≠ m := by
  rintro rfl
  obtain ⟨i, h1, h2, _⟩ := h
  rw [h1] at h2
  rcases h2 with h | h | h | h <;> cases h

/-! ## C31: the view follows the latest report -/

theorem reports_cons (o : Out) (os : List Out) : reports (o :: os) = reports [o] ++ reports os := by
  unfold reports events
  rw [← List.filterMap_append, ← List.filterMap_append]
  rfl

theorem lastOr_append {α : Type} (a b : List α) (d : α) :
    lastOr (a ++ b) d = lastOr b (lastOr a d) := by
  unfold lastOr
  rw [List.getLast?_append]
  cases b.getLast? <;> rfl

theorem latest_keep {p p' : Panel} {m} (h1 : p'.state.armingStatus = p.state.armingStatus)
    (h2 : p'.pendingArm = p.pendingArm) (h : Latest p m) : Latest p' m := by
  unfold Latest Panel.armingStatus at *
  rw [h1, h2]; exact h

theorem latest_track {p p1 : Panel} {now msg ch} (h : TrackCase p now msg (ch, p1)) {m}
    (hl : Latest p m) :
    Latest p1 (match msg with | .armingStatusReport r => r | _ => m) := by
  cases h with
  | asFirst r hn =>
    rcases hl with ⟨h1, _⟩ | ⟨v, pa, h1, _⟩ <;> rw [arming_iff, hn] at h1 <;> cases h1
  | asHeld r prior ha hp hs => exact .inr ⟨prior, _, arming_iff.mpr ha, rfl, rfl, hs⟩
  | asNew r prior _ _ _ => exact .inl ⟨rfl, rfl⟩
  | asSame r ha _ => exact .inl ⟨arming_iff.mpr ha, rfl⟩
  | zcNone _ _ => exact hl
  | zcSet _ _ _ _ _ _ => exact latest_keep rfl rfl hl
  | zs _ => exact latest_keep rfl rfl hl
  | other msg h1 _ _ =>
    match msg, h1 with
    | .armingStatusReport r, h1 => exact absurd rfl (h1 r)
    | .zoneChange _, _ | .zoneStatusReport _, _
    | .armRequest _, _ | .armingStatusRequest, _ | .sendTimeData _, _ | .sendCode _, _
    | .rtcRequest, _ | .rtcResponse _, _ | .stringDescriptionRequest _, _
    | .stringDescriptionResponse _, _ | .activateTask _, _ | .taskChange _, _ | .heartbeat _, _
    | .zoneStatusRequest, _ => exact hl

theorem reports_event (ev : Event) (w : List Waker) :
    reports [.next (.ready (some (.ok ev))) w] = (reportOf ev).toList := by
  show List.filterMap reportOf [ev] = _
  rw [List.filterMap_cons]
  cases reportOf ev <;> rfl

theorem latest_next {p p1 : Panel} {cx new r w} (h : NextCase p cx new (r, w, p1)) {m}
    (hl : Latest p m) : Latest p1 (lastOr (reports [.next r w]) m) := by
  cases h with
  | error e c _ => exact latest_keep rfl rfl hl
  | ended c _ => exact latest_keep rfl rfl hl
  | packet pkt c ev w p' _ hi =>
    rw [reports_event]
    cases hi with
    | bad e _ => exact latest_keep rfl rfl hl
    | skip _ => exact latest_keep rfl rfl hl
    | msg msg ch q comp w p2 _ _ ht hc =>
      obtain ⟨g1, g2, g3, _⟩ := complete_keeps hc
      have hl' : Latest { p with conn := c } m := latest_keep rfl rfl hl
      have h1 := latest_track ht hl'
      have h2 := latest_keep (p' := p1) (by rw [g2]) g3 h1
      cases msg <;> exact h2
  | idle c _ _ => exact latest_keep rfl rfl hl
  | wait c pa _ hp _ =>
    rcases hl with ⟨_, h2⟩ | ⟨v, pa', h1, h2, h3, h4⟩
    · rw [h2] at hp; cases hp
    · rw [h2] at hp
      cases hp
      exact .inr ⟨v, _, h1, rfl, h3, h4⟩
  | fire c pa prior _ hp _ _ =>
    rcases hl with ⟨_, h2⟩ | ⟨v, pa', h1, h2, h3, h4⟩
    · rw [h2] at hp; cases hp
    · rw [h2] at hp
      cases hp
      rw [← h3]
      exact .inl ⟨rfl, rfl⟩

/-- The views and the withheld report are left alone by all but reading. -/
theorem step_views {p p1 : Panel} {op o} (h : StepCase p op (o, p1)) (hop : ∀ cx, op ≠ .pollNext cx) :
    p1.state = p.state ∧ p1.pendingArm = p.pendingArm ∧ eventOf o = none := by
  cases h with
  | arrive r => exact ⟨rfl, rfl, rfl⟩
  | writable r => exact ⟨rfl, rfl, rfl⟩
  | next cx _ _ _ _ _ => exact absurd rfl (hop cx)
  | ready cx r _ hr => cases hr <;> exact ⟨rfl, rfl, rfl⟩
  | send cmd _ _ _ _ _ => exact ⟨rfl, rfl, rfl⟩
  | flush cx r _ hf => cases hf <;> exact ⟨rfl, rfl, rfl⟩
  | close cx r _ hc =>
    cases hc with
    | flushed q r c hf _ => cases hf <;> exact ⟨rfl, rfl, rfl⟩
    | stuck r _ _ hf => cases hf <;> exact ⟨rfl, rfl, rfl⟩

theorem reports_noEvent {o : Out} (h : eventOf o = none) : reports [o] = [] := by
  unfold reports events
  simp [h]

theorem latest_step {p p1 : Panel} {op o} (h : StepCase p op (o, p1)) {m} (hl : Latest p m) :
    Latest p1 (lastOr (reports [o]) m) := by
  by_cases hop : ∀ cx, op ≠ .pollNext cx
  · obtain ⟨h1, h2, h3⟩ := step_views h hop
    rw [reports_noEvent h3]
    exact latest_keep (by rw [h1]) h2 hl
  · cases h with
    | next cx new r w _ hn => exact latest_next hn hl
    | arrive _ | writable _ | ready _ _ _ _ | send _ _ _ _ _ _ | flush _ _ _ _ | close _ _ _ _ =>
      exact absurd (by intro cx h; cases h) hop

theorem latest_hist {p p' : Panel} {ops outs} (h : Hist p ops outs p') {m} (hl : Latest p m) :
    Latest p' (lastOr (reports outs) m) := by
  induction h generalizing m with
  | nil _ => exact hl
  | cons _ hs _ ih =>
    rw [reports_cons, lastOr_append]
    exact ih (latest_step hs hl)

/-- A connected panel knows a latest report. -/
theorem latest_connected {p : Panel} (h : Connected p) : ∃ m, Latest p m := by
  obtain ⟨m, hm⟩ := h.arming
  match hp : p.pendingArm with
  | none => exact ⟨m, .inl ⟨hm, hp⟩⟩
  | some pa =>
    obtain ⟨v, hv, hs⟩ := h.held pa hp
    exact ⟨pa.report, .inr ⟨v, pa, hv, hp, rfl, hs⟩⟩

/-- **C31** After any history the panel shows the most recently received arming report (`m0` if none
was received), or withholds it as suspicious.  (There always is such an `m0`:
`latest_connected`.) -/
theorem C31_latest {p0 p : Panel} (hc : Connected p0) {m0 : ArmingStatusReport}
    (h0 : Latest p0 m0) {ops : List Op} {outs : List Out}
    (hr : Panel.run ops p0 = .ok (outs, p)) : Latest p (lastOr (reports outs) m0) :=
  latest_hist (hist_of_run (connected_good hc) hr) h0

/-! ## Reading a whole packet -/

/-- A connection at rest reads a valid packet that arrived in one piece. -/
theorem conn_reads {c : Connection} {pkt : Packet} (hv : ValidPacket pkt) {q : List ReadItem}
    (h1 : c.rd = {}) (h2 : c.sock.incoming = .data (wire pkt) :: q) (cx : Cx) :
    c.pollNext cx = .ok (.ready (some (.ok pkt)),
      { c with
        rd := { isReadable := true }
        sock := { c.sock with incoming := q, received := c.sock.received ++ wire pkt } }) := by
  have hd := decode_wire hv []
  rw [List.append_nil] at hd
  have hpos := wire_length_pos hd
  unfold Connection.pollNext
  rw [h1, h2]
  have hl : ReadFrame.loop (.data (wire pkt) :: q) [] {} =
      .ok ⟨.ready (some (.ok pkt)), { isReadable := true }, q, wire pkt⟩ := by
    unfold ReadFrame.loop
    have : ReadFrame.attempt {} = .ok (none, {}) := rfl
    rw [this]
    dsimp only
    rw [if_neg (by omega)]
    unfold ReadFrame.loop
    have : ReadFrame.attempt ⟨false, true, [] ++ wire pkt, false⟩ =
        .ok (some (some (.ok pkt)), { isReadable := true }) := by
      unfold ReadFrame.attempt Codec.decode
      rw [if_neg (by simp), if_pos rfl, if_neg (by simp)]
      simp only [List.nil_append]
      rw [hd]
      rfl
    rw [this]
    simp
  rw [hl]
  rfl

/-- The packet of a message. -/
def msgPkt (m : Message) : Packet := .ascii ⟨sentText m⟩

/-- Evaluates a check on the result of a computation that does not panic. -/
def holds {α : Type} (x : P α) (f : α → Bool) : Bool :=
  match x with
  | .ok a => f a
  | .error _ => false

theorem of_holds {α : Type} {x : P α} {f : α → Bool} (h : holds x f = true) :
    ∃ a, x = .ok a ∧ f a = true := by
  unfold holds at h
  split at h
  · exact ⟨_, rfl, h⟩
  · cases h

/-- The bytes of a message on the wire. -/
def msgBytes (m : Message) : Bytes := wire (msgPkt m)

theorem armedReport_wf : WfMessage (.armingStatusReport armedReport) := trivial

theorem armedReport_suspicious : Suspicious (sameReport .disarmed .readyToArm) armedReport :=
  ⟨0, rfl, .inl rfl, rfl⟩

/-- Non-vacuity: the sample panel receives a suspicious report and withholds it, so that the latest
report is not what is shown. -/
example : ∃ r, Panel.run [.pollNext ⟨1, 0, 0⟩]
      (samplePanel [.data (msgBytes (.armingStatusReport armedReport))]) = .ok r ∧
    decide (reports r.1 = [armedReport] ∧
      r.2.state.armingStatus = some (sameReport .disarmed .readyToArm)) = true :=
  of_holds (by decide +kernel)

/-! ## C32, C33: suspicious reports are withheld for 5 seconds, then shown -/

/-- While a report is withheld, and no other report comes and no poll happens late enough, the view
stays and the report stays withheld. -/
theorem withheld_hist {p p' : Panel} {ops outs} (h : Hist p ops outs p') {v m : ArmingStatusReport}
    {d : Nat} (hv : p.state.armingStatus = some v)
    (hp : ∃ w, p.pendingArm = some ⟨d, m, w⟩) (hno : reports outs = [])
    (ht : ∀ cx, .pollNext cx ∈ ops → cx.timer < d) :
    p'.state.armingStatus = some v ∧ ∃ w, p'.pendingArm = some ⟨d, m, w⟩ := by
  induction h with
  | nil _ => exact ⟨hv, hp⟩
  | @cons p op o p1 ops os p2 _ hs _ ih =>
    rw [reports_cons, List.append_eq_nil_iff] at hno
    have ht' : ∀ cx, .pollNext cx ∈ ops → cx.timer < d :=
      fun cx hm => ht cx (List.mem_cons_of_mem _ hm)
    suffices p1.state.armingStatus = some v ∧ ∃ w, p1.pendingArm = some ⟨d, m, w⟩ from
      ih this.1 this.2 hno.2 ht'
    by_cases hop : ∀ cx, op ≠ .pollNext cx
    · obtain ⟨h1, h2, _⟩ := step_views hs hop
      rw [h1, h2]; exact ⟨hv, hp⟩
    · cases hs with
      | next cx new r w _ hn =>
        cases hn with
        | error e c _ => exact ⟨hv, hp⟩
        | ended c _ => exact ⟨hv, hp⟩
        | packet pkt c ev w _ _ hi =>
          rw [reports_event] at hno
          cases hi with
          | bad e _ => exact ⟨hv, hp⟩
          | skip _ => exact ⟨hv, hp⟩
          | msg msg ch q comp w _ _ _ htr hc =>
            obtain ⟨_, g2, g3, _⟩ := complete_keeps hc
            rw [g2, g3]
            cases htr with
            | asFirst r _ => simp [reportOf] at hno
            | asHeld r _ _ _ _ => simp [reportOf] at hno
            | asNew r _ _ _ _ => simp [reportOf] at hno
            | asSame r _ _ => simp [reportOf] at hno
            | zcNone _ _ => exact ⟨hv, hp⟩
            | zcSet _ _ _ _ _ _ => exact ⟨hv, hp⟩
            | zs _ => exact ⟨hv, hp⟩
            | other _ _ _ _ => exact ⟨hv, hp⟩
        | idle c _ _ => exact ⟨hv, hp⟩
        | wait c pa _ hpa _ =>
          obtain ⟨w, hp⟩ := hp
          rw [hp] at hpa
          cases hpa
          exact ⟨hv, _, rfl⟩
        | fire c pa prior _ hpa hd _ =>
          obtain ⟨w, hp⟩ := hp
          rw [hp] at hpa
          cases hpa
          have := ht cx (List.mem_cons_self ..)
          dsimp only at hd
          omega
      | arrive _ | writable _ | ready _ _ _ _ | send _ _ _ _ _ _ | flush _ _ _ _ | close _ _ _ _ =>
        exact absurd (by intro cx h; cases h) hop

/-- Receiving a suspicious report with none withheld. -/
theorem receive_suspicious {p p1 : Panel} (hg : Good p) {v m : ArmingStatusReport}
    (hv : p.armingStatus = .ok v) (hn : p.pendingArm = none) {cx : Cx} {ev : Event} {w}
    (hs : p.step (.pollNext cx) = .ok (.next (.ready (some (.ok ev))) w, p1))
    (hm : reportOf ev = some m) (hsus : Suspicious v m) :
    ev.change = none ∧ p1.state.armingStatus = some v ∧
      ∃ w, p1.pendingArm = some ⟨cx.now + 5000, m, w⟩ := by
  rw [arming_iff] at hv
  have hc := step_cases hg.sane hs
  cases hc with
  | next _ new _ _ _ hn' =>
    cases hn' with
    | packet pkt c ev w _ _ hi =>
      cases hi with
      | bad e _ => cases hm
      | skip _ => cases hm
      | msg msg ch q comp w _ _ _ htr hc =>
        obtain ⟨_, g2, g3, _⟩ := complete_keeps hc
        rw [g2, g3]
        cases htr with
        | asFirst r ha => simp only [] at ha; rw [hv] at ha; cases ha
        | asHeld r prior ha _ _ =>
          cases hm
          exact ⟨rfl, hv, _, rfl⟩
        | asNew r prior ha hx _ =>
          cases hm
          simp only [] at ha
          rw [hv] at ha
          cases ha
          rcases hx with hx | hx
          · exact absurd hn hx
          · exact absurd hsus hx
        | asSame r ha hx =>
          cases hm
          simp only [] at ha
          rw [hv] at ha
          cases ha
          exact absurd rfl (suspicious_ne hsus)
        | zcNone _ _ => cases hm
        | zcSet _ _ _ _ _ _ => cases hm
        | zs _ => cases hm
        | other msg h1 _ _ => cases msg <;> first | (cases hm; done) | exact absurd rfl (h1 _)
    | fire c pa prior _ _ _ _ => cases hm

/-- **C32** A report that makes a suspicious transition from the view, received while no report is
withheld, is not shown then (and no change is reported), nor by anything that happens later, until
another arming report is received or the panel is polled at least 5 seconds later. -/
theorem C32_withheld {p0 p1 p2 p3 : Panel} (hc : Connected p0) {ops₁ ops₂ : List Op}
    {outs₁ outs₂ : List Out} {cx : Cx} {ev : Event} {w : List Waker} {v m : ArmingStatusReport}
    (h1 : Panel.run ops₁ p0 = .ok (outs₁, p1))
    (hv : p1.armingStatus = .ok v) (hn : p1.pendingArm = none)
    (h2 : p1.step (.pollNext cx) = .ok (.next (.ready (some (.ok ev))) w, p2))
    (hm : reportOf ev = some m) (hs : Suspicious v m)
    (h3 : Panel.run ops₂ p2 = .ok (outs₂, p3))
    (hno : reports outs₂ = []) (ht : ∀ cx', .pollNext cx' ∈ ops₂ → cx'.timer < cx.now + 5000) :
    ev.change = none ∧ p2.armingStatus = .ok v ∧ p3.armingStatus = .ok v := by
  have g1 := (hist_of_run (connected_good hc) h1).good
  obtain ⟨a, b, c⟩ := receive_suspicious g1 hv hn h2 hm hs
  have g2 := step_good g1 (step_cases g1.sane h2)
  obtain ⟨d, _⟩ := withheld_hist (hist_of_run g2 h3) b c hno ht
  exact ⟨a, arming_iff.mpr b, arming_iff.mpr d⟩

/-- **C32** When a report is already withheld, the next one is shown at once, suspicious or not. -/
theorem C32_next_shown {p0 p1 p2 : Panel} (hc : Connected p0) {ops₁ : List Op}
    {outs₁ : List Out} {cx : Cx} {ev : Event} {w : List Waker} {m : ArmingStatusReport}
    (h1 : Panel.run ops₁ p0 = .ok (outs₁, p1)) (hn : p1.pendingArm ≠ none)
    (h2 : p1.step (.pollNext cx) = .ok (.next (.ready (some (.ok ev))) w, p2))
    (hm : reportOf ev = some m) : p2.armingStatus = .ok m ∧ p2.pendingArm = none := by
  have g1 := (hist_of_run (connected_good hc) h1).good
  have hcs := step_cases g1.sane h2
  cases hcs with
  | next _ new _ _ _ hn' =>
    cases hn' with
    | packet pkt c ev w _ _ hi =>
      cases hi with
      | bad e _ => cases hm
      | skip _ => cases hm
      | msg msg ch q comp w _ _ _ htr hc =>
        obtain ⟨_, g2, g3, _⟩ := complete_keeps hc
        rw [arming_iff, g2, g3]
        cases htr with
        | asFirst r ha => exact absurd ha g1.has
        | asHeld r prior _ hx _ => exact absurd hx hn
        | asNew r prior _ _ _ => cases hm; exact ⟨rfl, rfl⟩
        | asSame r ha _ => cases hm; exact ⟨ha, rfl⟩
        | zcNone _ _ => cases hm
        | zcSet _ _ _ _ _ _ => cases hm
        | zs _ => cases hm
        | other msg h1 _ _ => cases msg <;> first | (cases hm; done) | exact absurd rfl (h1 _)
    | fire c pa prior _ _ _ _ => cases hm

/-- **C33** In the situation of C32, a poll at least 5 seconds after the receipt that finds no packet
ready shows the withheld report and reports the change with the right prior view. -/
theorem C33_applied {p0 p1 p2 p3 : Panel} (hc : Connected p0) {ops₁ ops₂ : List Op}
    {outs₁ outs₂ : List Out} {cx cx' : Cx} {ev : Event} {w : List Waker}
    {v m : ArmingStatusReport} {conn : Connection}
    (h1 : Panel.run ops₁ p0 = .ok (outs₁, p1))
    (hv : p1.armingStatus = .ok v) (hn : p1.pendingArm = none)
    (h2 : p1.step (.pollNext cx) = .ok (.next (.ready (some (.ok ev))) w, p2))
    (hm : reportOf ev = some m) (hs : Suspicious v m)
    (h3 : Panel.run ops₂ p2 = .ok (outs₂, p3))
    (hno : reports outs₂ = []) (ht : ∀ cx', .pollNext cx' ∈ ops₂ → cx'.timer < cx.now + 5000)
    (hq : p3.conn.pollNext cx' = .ok (.pending, conn)) (hl : cx.now + 5000 ≤ cx'.timer) :
    ∃ p4, p3.step (.pollNext cx') = .ok (.next (.ready (some (.ok
        ⟨none, none, none, some (.armingStatus v)⟩))) [], p4) ∧
      p4.armingStatus = .ok m ∧ p4.pendingArm = none := by
  have g1 := (hist_of_run (connected_good hc) h1).good
  obtain ⟨a, b, c⟩ := receive_suspicious g1 hv hn h2 hm hs
  have g2 := step_good g1 (step_cases g1.sane h2)
  obtain ⟨d, w', e⟩ := withheld_hist (hist_of_run g2 h3) b c hno ht
  let st : PanelState := { p3.state with armingStatus := some m }
  refine ⟨{ p3 with conn := conn, pendingArm := none, state := st }, ?_, rfl, rfl⟩
  unfold Panel.step Panel.pollNext
  dsimp only
  rw [hq]
  simp only [bind_ok, Panel.pollTimer]
  rw [e]
  dsimp only
  rw [if_pos hl, d]
  rfl

/-- Non-vacuity of C32 and C33: the sample panel, 4999 ms later and 5000 ms later. -/
example : ∃ r, Panel.run [.pollNext ⟨1, 100, 100⟩, .pollNext ⟨1, 5099, 5099⟩]
      (samplePanel [.data (msgBytes (.armingStatusReport armedReport))]) = .ok r ∧
    decide (r.2.state.armingStatus = some (sameReport .disarmed .readyToArm)) = true :=
  of_holds (by decide +kernel)
example : ∃ r, Panel.run [.pollNext ⟨1, 100, 100⟩, .pollNext ⟨1, 5100, 5100⟩]
      (samplePanel [.data (msgBytes (.armingStatusReport armedReport))]) = .ok r ∧
    decide (r.2.state.armingStatus = some armedReport ∧
      (events r.1).map (·.change) =
        [none, some (.armingStatus (sameReport .disarmed .readyToArm))]) = true :=
  of_holds (by decide +kernel)

/-! ## C34: changes are truthful -/

theorem vec_set_ne {α : Type} {n : Nat} (v : Vector α n) {i j : Nat} (hi : i < n) (hj : j < n)
    (h : j ≠ i) (x : α) : (v.set i x)[j] = v[j] := by
  rw [Vector.getElem_set_ne _ _ (by omega)]

theorem change_track {p p1 : Panel} {now msg ch} (h : TrackCase p now msg (ch, p1))
    {a a' : ArmingStatusReport} {z z' : ZoneStatusReport}
    (ha : p.state.armingStatus = some a) (hz : p.state.zoneStatuses = some z)
    (ha' : p1.state.armingStatus = some a') (hz' : p1.state.zoneStatuses = some z')
    (hzs : ∀ r, msg ≠ .zoneStatusReport r) : ChangeTruthful a a' z z' ch := by
  cases h with
  | asFirst r hn => rw [ha] at hn; cases hn
  | asHeld r prior _ _ _ => rw [ha] at ha'; rw [hz] at hz'; cases ha'; cases hz'; exact ⟨rfl, rfl⟩
  | asNew r prior hp _ hne =>
    rw [ha] at hp; cases hp; cases ha'; rw [hz] at hz'; cases hz'
    exact ⟨rfl, fun h => hne h.symm, rfl⟩
  | asSame r _ _ => rw [ha] at ha'; rw [hz] at hz'; cases ha'; cases hz'; exact ⟨rfl, rfl⟩
  | zcNone _ hn => rw [hz] at hn; cases hn
  | zcSet m z0 i hi hz0 hzi =>
    rw [hz] at hz0; cases hz0; cases hz'; rw [ha] at ha'; cases ha'
    by_cases hd : z.zones[i] = m.status
    · rw [if_neg (by simpa using hd)]
      refine ⟨rfl, ?_⟩
      obtain ⟨zs⟩ := z
      simp only [ZoneStatusReport.mk.injEq]
      simp only at hd
      rw [← hd, Vector.set_getElem_self]
    · rw [if_pos hd]
      refine ⟨rfl, i, hi, hzi, rfl, ?_, fun j hj hne => vec_set_ne _ hi hj hne _⟩
      rw [Vector.getElem_set_self]
      exact fun h => hd h.symm
  | zs r => exact absurd rfl (hzs r)
  | other _ _ _ _ => rw [ha] at ha'; rw [hz] at hz'; cases ha'; cases hz'; exact ⟨rfl, rfl⟩

theorem change_next {p p' : Panel} (g : Good p) {cx : Cx} {ev : Event} {w : List Waker}
    (hs : p.step (.pollNext cx) = .ok (.next (.ready (some (.ok ev))) w, p'))
    (hzs : ∀ r, ev.msg ≠ some (.ok (.zoneStatusReport r))) :
    ∃ a a' z z', p.armingStatus = .ok a ∧ p'.armingStatus = .ok a' ∧
      p.zoneStatuses = .ok z ∧ p'.zoneStatuses = .ok z' ∧ ChangeTruthful a a' z z' ev.change := by
  have hsc := step_cases g.sane hs
  have g' := step_good g hsc
  obtain ⟨a, ha⟩ := Option.ne_none_iff_exists'.mp g.has
  obtain ⟨a', ha'⟩ := Option.ne_none_iff_exists'.mp g'.has
  obtain ⟨z, hz⟩ := Option.ne_none_iff_exists'.mp g.zones
  obtain ⟨z', hz'⟩ := Option.ne_none_iff_exists'.mp g'.zones
  refine ⟨a, a', z, z', arming_iff.mpr ha, arming_iff.mpr ha', zones_iff.mpr hz, zones_iff.mpr hz', ?_⟩
  cases hsc with
  | next _ new _ _ _ hn' =>
    cases hn' with
    | packet pkt c ev w _ _ hi =>
      cases hi with
      | bad e _ =>
        simp only at ha' hz'; rw [ha] at ha'; rw [hz] at hz'; cases ha'; cases hz'
        exact ⟨rfl, rfl⟩
      | skip _ =>
        simp only at ha' hz'; rw [ha] at ha'; rw [hz] at hz'; cases ha'; cases hz'
        exact ⟨rfl, rfl⟩
      | msg msg ch q comp w _ _ _ htr hc =>
        obtain ⟨_, g2, g3, _⟩ := complete_keeps hc
        rw [g2] at ha' hz'
        exact change_track htr ha hz ha' hz' (fun r h => hzs r (by rw [h]))
    | fire c pa prior _ hpa _ hpr =>
      simp only [Option.some.injEq] at ha' hz'
      rw [ha] at hpr
      rw [hz] at hz'
      cases hpr; cases hz'
      obtain ⟨v, hv, hsus⟩ := g.held pa hpa
      rw [ha] at hv
      cases hv
      refine ⟨rfl, ?_, rfl⟩
      rw [← ha']
      exact fun h => suspicious_ne hsus h.symm

theorem views_next {p p' : Panel} (g : Good p) {op : Op} {o : Out}
    (hs : p.step op = .ok (o, p')) (hne : eventOf o = none) :
    p'.armingStatus = p.armingStatus ∧ p'.zoneStatuses = p.zoneStatuses := by
  have hsc := step_cases g.sane hs
  by_cases hop : ∀ cx, op ≠ .pollNext cx
  · obtain ⟨h1, _, _⟩ := step_views hsc hop
    unfold Panel.armingStatus Panel.zoneStatuses
    rw [h1]; exact ⟨rfl, rfl⟩
  · cases hsc with
    | next cx new r w _ hn =>
      cases hn with
      | error e c _ => exact ⟨rfl, rfl⟩
      | ended c _ => exact ⟨rfl, rfl⟩
      | packet _ _ _ _ _ _ _ => cases hne
      | idle c _ _ => exact ⟨rfl, rfl⟩
      | wait c pa _ _ _ => exact ⟨rfl, rfl⟩
      | fire _ _ _ _ _ _ _ => cases hne
    | arrive _ | writable _ | ready _ _ _ _ | send _ _ _ _ _ _ | flush _ _ _ _ | close _ _ _ _ =>
      exact absurd (by intro cx h; cases h) hop

/-- **C34** (partial) An event's change says exactly what changed in the views, and is absent iff
nothing changed, for every event except those carrying a zone status report (ZS).  Missing: ZS, for
which the property is false of the code (`C34_zone_report_silent`). -/
theorem C34_truthful_partial {p0 p p' : Panel} (hc : Connected p0) {ops : List Op}
    {outs : List Out} (hr : Panel.run ops p0 = .ok (outs, p)) {cx : Cx} {ev : Event}
    {w : List Waker} (hs : p.step (.pollNext cx) = .ok (.next (.ready (some (.ok ev))) w, p'))
    (hzs : ∀ r, ev.msg ≠ some (.ok (.zoneStatusReport r))) :
    ∃ a a' z z', p.armingStatus = .ok a ∧ p'.armingStatus = .ok a' ∧
      p.zoneStatuses = .ok z ∧ p'.zoneStatuses = .ok z' ∧ ChangeTruthful a a' z z' ev.change :=
  change_next (hist_of_run (connected_good hc) hr).good hs hzs

/-- **C34** (partial) Nothing but a returned event ever alters the views. -/
theorem C34_only_events_partial {p0 p p' : Panel} (hc : Connected p0) {ops : List Op}
    {outs : List Out} (hr : Panel.run ops p0 = .ok (outs, p)) {op : Op} {o : Out}
    (hs : p.step op = .ok (o, p')) (hne : eventOf o = none) :
    p'.armingStatus = p.armingStatus ∧ p'.zoneStatuses = p.zoneStatuses :=
  views_next (hist_of_run (connected_good hc) hr).good hs hne

/-- A zone report with zone 1 violated. -/
def violatedReport : ZoneStatusReport := ⟨(Vector.replicate 208 ZoneStatus.unconfigured).set 0 ⟨9⟩⟩

/-- **C34 is false of the code**: a zone status report alters the zone view without a change. -/
theorem C34_zone_report_silent : ∃ p p' cx ev w, Connected p ∧
    p.step (.pollNext cx) = .ok (.next (.ready (some (.ok ev))) w, p') ∧
    ev.change = none ∧ p'.zoneStatuses ≠ p.zoneStatuses := by
  obtain ⟨⟨r, w, p'⟩, h, hd⟩ := of_holds (x := Panel.pollNext
      (samplePanel [.data (msgBytes (.zoneStatusReport violatedReport))]) ⟨1, 0, 0⟩)
    (f := fun x => (match x.1 with
      | .ready (some (.ok ev)) => decide (ev.change = none)
      | _ => false) && decide (x.2.2.state.zoneStatuses = some violatedReport))
    (by decide +kernel)
  match r, hd with
  | .ready (some (.ok ev)), hd =>
    simp only [Bool.and_eq_true, decide_eq_true_eq] at hd
    refine ⟨samplePanel [.data (msgBytes (.zoneStatusReport violatedReport))], p', ⟨1, 0, 0⟩, ev,
      w, samplePanel_connected _, ?_, hd.1, ?_⟩
    · unfold Panel.step
      dsimp only
      rw [h]
      rfl
    · unfold Panel.zoneStatuses
      rw [hd.2]
      intro h
      have h' := congrArg (fun x => holds x fun z => decide (z.zones[0] = ⟨9⟩)) h
      revert h'
      decide +kernel

/-- Non-vacuity of the partial form: a zone change is reported with its prior value. -/
example : ∃ r, Panel.run [.pollNext ⟨1, 0, 0⟩]
      (samplePanel [.data (msgBytes (.zoneChange ⟨⟨16⟩, ⟨2⟩⟩))]) = .ok r ∧
    decide ((events r.1).map (·.change) = [some (.zoneChange ⟨16⟩ .unconfigured)]) = true :=
  of_holds (by decide +kernel)

/-! ## C35: the zone view follows the latest zone reports -/

theorem events_cons (o : Out) (os : List Out) :
    events (o :: os) = (eventOf o).toList ++ events os := by
  unfold events
  rw [List.filterMap_cons]
  cases eventOf o <;> rfl

theorem zone_track {p p1 : Panel} {now msg ch} (h : TrackCase p now msg (ch, p1))
    {z : ZoneStatusReport} (hz : p.state.zoneStatuses = some z) :
    ∃ z', p1.state.zoneStatuses = some z' ∧ ∀ i, ∀ hi : i < 208, ∀ e : Event,
      e.msg = some (.ok msg) → z'.zones[i] = (zoneReport i e).getD z.zones[i] := by
  cases h with
  | asFirst r _ => exact ⟨z, hz, fun i hi e he => by simp [zoneReport, he]⟩
  | asHeld r _ _ _ _ => exact ⟨z, hz, fun i hi e he => by simp [zoneReport, he]⟩
  | asNew r _ _ _ _ => exact ⟨z, hz, fun i hi e he => by simp [zoneReport, he]⟩
  | asSame r _ _ => exact ⟨z, hz, fun i hi e he => by simp [zoneReport, he]⟩
  | zcNone _ hn => rw [hz] at hn; cases hn
  | zcSet m z0 j hj hz0 hzj =>
    rw [hz] at hz0; cases hz0
    refine ⟨_, rfl, fun i hi e he => ?_⟩
    simp only [zoneReport, he, hzj]
    by_cases hij : i = j
    · subst hij; simp
    · rw [vec_set_ne _ hj hi hij, if_neg (by omega)]; rfl
  | zs r => exact ⟨r, rfl, fun i hi e he => by simp [zoneReport, he, hi]⟩
  | other msg _ h2 h3 =>
    refine ⟨z, hz, fun i hi e he => ?_⟩
    cases msg <;> first
      | exact absurd rfl (h2 _)
      | exact absurd rfl (h3 _)
      | simp [zoneReport, he]

theorem zone_step {p p1 : Panel} {op o} (h : StepCase p op (o, p1)) {z : ZoneStatusReport}
    (hz : p.state.zoneStatuses = some z) :
    ∃ z', p1.state.zoneStatuses = some z' ∧ ∀ i, ∀ hi : i < 208,
      z'.zones[i] = lastOr ((eventOf o).toList.filterMap (zoneReport i)) z.zones[i] := by
  by_cases hop : ∀ cx, op ≠ .pollNext cx
  · obtain ⟨h1, _, h3⟩ := step_views h hop
    rw [h1, h3]
    exact ⟨z, hz, fun i hi => rfl⟩
  · cases h with
    | next cx new r w _ hn =>
      cases hn with
      | error e c _ => exact ⟨z, hz, fun i hi => rfl⟩
      | ended c _ => exact ⟨z, hz, fun i hi => rfl⟩
      | packet pkt c ev w _ _ hi =>
        cases hi with
        | bad e _ => exact ⟨z, hz, fun i hi => rfl⟩
        | skip _ => exact ⟨z, hz, fun i hi => rfl⟩
        | msg msg ch q comp w _ _ _ htr hc =>
          obtain ⟨_, g2, g3, _⟩ := complete_keeps hc
          obtain ⟨z', hz', hh⟩ := zone_track htr hz
          refine ⟨z', by rw [g2]; exact hz', fun i hi => ?_⟩
          rw [hh i hi ⟨some pkt, some (.ok msg), comp, ch⟩ rfl]
          show _ = lastOr (List.filterMap (zoneReport i) [⟨some pkt, some (.ok msg), comp, ch⟩]) _
          rw [List.filterMap_cons]
          cases zoneReport i ⟨some pkt, some (.ok msg), comp, ch⟩ <;> rfl
      | idle c _ _ => exact ⟨z, hz, fun i hi => rfl⟩
      | wait c pa _ _ _ => exact ⟨z, hz, fun i hi => rfl⟩
      | fire _ _ _ _ _ _ _ => exact ⟨z, hz, fun i hi => rfl⟩
    | arrive _ | writable _ | ready _ _ _ _ | send _ _ _ _ _ _ | flush _ _ _ _ | close _ _ _ _ =>
      exact absurd (by intro cx h; cases h) hop

theorem zone_hist {p p' : Panel} {ops outs} (h : Hist p ops outs p') {z : ZoneStatusReport}
    (hz : p.state.zoneStatuses = some z) :
    ∃ z', p'.state.zoneStatuses = some z' ∧ ∀ i, ∀ hi : i < 208,
      z'.zones[i] = lastOr ((events outs).filterMap (zoneReport i)) z.zones[i] := by
  induction h generalizing z with
  | nil _ => exact ⟨z, hz, fun _ _ => rfl⟩
  | cons _ hs _ ih =>
    obtain ⟨z1, hz1, h1⟩ := zone_step hs hz
    obtain ⟨z2, hz2, h2⟩ := ih hz1
    refine ⟨z2, hz2, fun i hi => ?_⟩
    rw [h2 i hi, events_cons, List.filterMap_append, lastOr_append, h1 i hi]

/-- **C35** After any history each zone has the status given by the last message about it (ZC for
that zone, or ZS), or its initial status if there was none. -/
theorem C35_zones {p0 p : Panel} (hc : Connected p0) {ops : List Op} {outs : List Out}
    (hr : Panel.run ops p0 = .ok (outs, p)) :
    ∃ z0 z, p0.zoneStatuses = .ok z0 ∧ p.zoneStatuses = .ok z ∧ ∀ i, ∀ hi : i < 208,
      z.zones[i] = lastOr ((events outs).filterMap (zoneReport i)) z0.zones[i] := by
  obtain ⟨z0, hz⟩ := hc.zones
  obtain ⟨z, h1, h2⟩ := zone_hist (hist_of_run (connected_good hc) hr) (zones_iff.mp hz)
  exact ⟨z0, z, hz, zones_iff.mpr h1, h2⟩

/-- Non-vacuity: a zone report, then a change of zone 16. -/
example : ∃ r, Panel.run [.pollNext ⟨1, 0, 0⟩, .pollNext ⟨1, 0, 0⟩]
      (samplePanel [.data (msgBytes (.zoneStatusReport violatedReport)),
        .data (msgBytes (.zoneChange ⟨⟨16⟩, ⟨2⟩⟩))]) = .ok r ∧
    decide (r.2.state.zoneStatuses = some ⟨violatedReport.zones.set 15 ⟨2⟩⟩) = true :=
  of_holds (by decide +kernel)

/-! ## C36: no panics after initialisation -/

/-- **C36** (the part after initialisation) On a connected panel, after any history, the accessors
return and no operation other than `start_send` panics. -/
theorem C36_connected_never_panics {p0 p : Panel} (hc : Connected p0) {ops : List Op}
    {outs : List Out} (hr : Panel.run ops p0 = .ok (outs, p)) :
    (∃ m, p.armingStatus = .ok m) ∧ (∃ z, p.zoneStatuses = .ok z) ∧
    (∀ zone : Zone, 1 ≤ zone.val.toNat ∧ zone.val.toNat ≤ 208 → ∃ t, p.zoneName zone = .ok t) ∧
    ∀ op, (∀ c, op ≠ .startSend c) → ∃ x, p.step op = .ok x := by
  have g := (hist_of_run (connected_good hc) hr).good
  obtain ⟨a, ha⟩ := Option.ne_none_iff_exists'.mp g.has
  obtain ⟨z, hz⟩ := Option.ne_none_iff_exists'.mp g.zones
  refine ⟨⟨a, arming_iff.mpr ha⟩, ⟨z, zones_iff.mpr hz⟩, ?_, fun op hop => step_total g.sane op hop⟩
  rintro zone ⟨h1, h2⟩
  unfold Panel.zoneName Limited.toIndex
  rw [if_pos h1]
  simp only [bind_ok, arrGet]
  rw [dif_pos (by omega)]
  exact ⟨_, rfl⟩

/-- **C36** `start_send` of a well-formed command panics exactly when a command is outstanding. -/
theorem C36_start_send {p0 p : Panel} (_hc : Connected p0) {ops : List Op}
    {outs : List Out} (_hr : Panel.run ops p0 = .ok (outs, p)) (c : Command) (hw : WfCommand c) :
    (∃ x, p.step (.startSend c) = .ok x) ↔ p.cmdState = .idle := by
  constructor
  · rintro ⟨x, hx⟩
    rcases startSend_cases p c with ⟨_, _, _, _, h⟩ | ⟨hi, _⟩
    · unfold Panel.step at hx
      dsimp only at hx
      rw [h] at hx
      cases hx
    · exact hi
  · intro hi
    unfold Panel.step
    dsimp only
    rw [startSend_wf hw hi]
    exact ⟨_, rfl⟩

/-! ## C59: events carry what was received -/

/-- **C59** An event with a packet carries its interpretation: the parsed message, the error of a
malformed one, or nothing if it is not understood; an event without a packet carries neither
message nor completed command, but a change. -/
theorem C59_event_meaning {p0 p p' : Panel} (hc : Connected p0) {ops : List Op}
    {outs : List Out} (hr : Panel.run ops p0 = .ok (outs, p)) {cx : Cx} {ev : Event}
    {w : List Waker} (hs : p.step (.pollNext cx) = .ok (.next (.ready (some (.ok ev))) w, p')) :
    match ev.pkt with
    | some pkt => Message.parse pkt = (match ev.msg with
        | none => .ok none
        | some (.error e) => .error (.err e)
        | some (.ok m) => .ok (some m))
    | none => ev.msg = none ∧ ev.completes = none ∧ ev.change ≠ none := by
  have g := (hist_of_run (connected_good hc) hr).good
  have hsc := step_cases g.sane hs
  cases hsc with
  | next _ new _ _ _ hn' =>
    cases hn' with
    | packet pkt c ev w _ _ hi =>
      cases hi with
      | bad e h => exact h
      | skip h => exact h
      | msg msg ch q comp w _ h _ _ _ => exact h
    | fire c pa prior _ hpa _ hpr => exact ⟨rfl, rfl, by simp⟩

/-! ## C60: names are fixed -/

/-- **C60** The names learnt by initialisation never change afterwards. -/
theorem C60_names_fixed {p0 p : Panel} (hc : Connected p0) {ops : List Op} {outs : List Out}
    (hr : Panel.run ops p0 = .ok (outs, p)) :
    (∀ zone, p.zoneName zone = p0.zoneName zone) ∧ p.areaNames = p0.areaNames ∧
      p.state.taskNames = p0.state.taskNames := by
  suffices h : p.state.zoneNames = p0.state.zoneNames ∧ p.state.areaNames = p0.state.areaNames ∧
      p.state.taskNames = p0.state.taskNames by
    refine ⟨fun zone => ?_, h.2.1, h.2.2⟩
    unfold Panel.zoneName
    rw [h.1]
  have hh := hist_of_run (connected_good hc) hr
  clear hc hr
  induction hh with
  | nil _ => exact ⟨rfl, rfl, rfl⟩
  | @cons p op o p1 ops os p2 _ hs _ ih =>
    suffices h : p1.state.zoneNames = p.state.zoneNames ∧ p1.state.areaNames = p.state.areaNames ∧
        p1.state.taskNames = p.state.taskNames by
      rw [← h.1, ← h.2.1, ← h.2.2]; exact ih
    by_cases hop : ∀ cx, op ≠ .pollNext cx
    · obtain ⟨h1, _, _⟩ := step_views hs hop
      rw [h1]; exact ⟨rfl, rfl, rfl⟩
    · cases hs with
      | next cx new r w _ hn =>
        cases hn with
        | error e c _ => exact ⟨rfl, rfl, rfl⟩
        | ended c _ => exact ⟨rfl, rfl, rfl⟩
        | packet pkt c ev w _ _ hi =>
          obtain ⟨_, _, _, _, h5, h6, h7, _⟩ := interp_keeps hi
          exact ⟨h5, h6, h7⟩
        | idle c _ _ => exact ⟨rfl, rfl, rfl⟩
        | wait c pa _ _ _ => exact ⟨rfl, rfl, rfl⟩
        | fire _ _ _ _ _ _ _ => exact ⟨rfl, rfl, rfl⟩
      | arrive _ | writable _ | ready _ _ _ _ | send _ _ _ _ _ _ | flush _ _ _ _
      | close _ _ _ _ => exact absurd (by intro cx h; cases h) hop

/-! ## C64: alarms are shown at once -/

/-- A report in which area 1 has just been fully armed while there is a burglar alarm in area 2. -/
def armedAndAlarm : ArmingStatusReport where
  armingStatus := (Vector.replicate 8 ArmingStatus.disarmed).set 0 .armedAway
  upState := (Vector.replicate 8 ArmUpState.readyToArm).set 0 .armedFully
  alarmState := (Vector.replicate 8 AlarmState.noAlarmActive).set 1 .burglarAlarm
  firstExitTime := 0

/-- **C64** (partial) A report in which no area changes from disarmed to fully armed in a mode with
an entry delay is shown as soon as its event is returned, with whatever alarms it contains.
Missing: other reports, for which it is false of the code (`C64_alarm_withheld`). -/
theorem C64_shown_at_once_partial {p0 p p' : Panel} (hc : Connected p0) {ops : List Op}
    {outs : List Out} (hr : Panel.run ops p0 = .ok (outs, p)) {cx : Cx} {ev : Event}
    {w : List Waker} (hs : p.step (.pollNext cx) = .ok (.next (.ready (some (.ok ev))) w, p'))
    {v m : ArmingStatusReport} (hv : p.armingStatus = .ok v) (hm : reportOf ev = some m)
    (hn : ¬ Suspicious v m) : p'.armingStatus = .ok m := by
  have g := (hist_of_run (connected_good hc) hr).good
  rw [arming_iff] at hv
  have hsc := step_cases g.sane hs
  cases hsc with
  | next _ new _ _ _ hn' =>
    cases hn' with
    | packet pkt c ev w _ _ hi =>
      cases hi with
      | bad e _ => cases hm
      | skip _ => cases hm
      | msg msg ch q comp w _ _ _ htr hc =>
        obtain ⟨_, g2, _, _⟩ := complete_keeps hc
        rw [arming_iff, g2]
        cases htr with
        | asFirst r ha => cases hm; rfl
        | asHeld r prior ha _ hsus =>
          cases hm
          simp only [] at ha
          rw [hv] at ha
          cases ha
          exact absurd hsus hn
        | asNew r prior _ _ _ => cases hm; rfl
        | asSame r ha _ => cases hm; exact ha
        | zcNone _ _ => cases hm
        | zcSet _ _ _ _ _ _ => cases hm
        | zs _ => cases hm
        | other msg h1 _ _ => cases msg <;> first | (cases hm; done) | exact absurd rfl (h1 _)
    | fire c pa prior _ _ _ _ => cases hm

/-- **C64 is false of the code**: a report of a burglar alarm in area 2 that also says that area 1
has become fully armed is withheld; the panel goes on showing no alarm. -/
theorem C64_alarm_withheld : ∃ p0 ops outs p, Connected p0 ∧ Panel.run ops p0 = .ok (outs, p) ∧
    reports outs = [armedAndAlarm] ∧ armedAndAlarm.alarmState[1] = .burglarAlarm ∧
    ∃ v, p.armingStatus = .ok v ∧ v.alarmState[1] = .noAlarmActive := by
  obtain ⟨⟨outs, p⟩, h, hd⟩ := of_holds (x := Panel.run [.pollNext ⟨1, 0, 0⟩,
      .pollNext ⟨1, 4999, 4999⟩]
      (samplePanel [.data (msgBytes (.armingStatusReport armedAndAlarm))]))
    (f := fun r => decide (reports r.1 = [armedAndAlarm] ∧
      r.2.state.armingStatus = some (sameReport .disarmed .readyToArm)))
    (by decide +kernel)
  rw [decide_eq_true_eq] at hd
  exact ⟨_, _, outs, p, samplePanel_connected _, h, hd.1, by decide +kernel,
    _, arming_iff.mpr hd.2, by decide +kernel⟩

end Elk.Props
