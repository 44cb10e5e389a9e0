import Verif.Lemmas.State
import Verif.Spec.Init
/-!
# Lemmas about initialisation
-/

namespace Elk
open Spec Props

/-! ## Stages -/

/-- The stages that occur. -/
inductive StageOk : Stage → Prop
  | arming : StageOk .arming
  | zones : StageOk .zones
  | area (u) : u < 8 → StageOk (.names .area 8 u [(.task, 32), (.zone, 208)])
  | task (u) : u < 32 → StageOk (.names .task 32 u [(.zone, 208)])
  | zone (u) : u < 208 → StageOk (.names .zone 208 u [])

/-- The question of a stage. -/
def stageQ : Stage → Message
  | .arming => .armingStatusRequest
  | .zones => .zoneStatusRequest
  | .names ty _ u _ => describe ty (u + 1)

theorem stageQ_wf (st : Stage) : WfMessage (stageQ st) := by
  cases st <;> exact True.intro

/-- The future just before it asks the question of a stage. -/
def asking (p : Panel) (st : Stage) : Init :=
  ⟨p, st, stageQ st, .ready (.ascii ⟨sentText (stageQ st)⟩)⟩

theorem request_names {ty max u todo} (h : u < 255) :
    (Stage.names ty max u todo).request = .ok (describe ty (u + 1)) := by
  unfold Stage.request addU8
  dsimp only
  have h1 : (UInt8.ofNat u).toNat = u := by simp; omega
  rw [h1, if_pos (by show u + 1 < 256; omega)]
  simp only [bind_ok, describe, Except.ok.injEq, Message.stringDescriptionRequest.injEq,
    StringDescriptionRequest.mk.injEq, true_and]
  rw [UInt8.ofNat_add]
  rfl

theorem request_ok {st : Stage} (h : StageOk st) : st.request = .ok (stageQ st) := by
  cases h with
  | arming => rfl
  | zones => rfl
  | area u hu => exact request_names (by omega)
  | task u hu => exact request_names (by omega)
  | zone u hu => exact request_names (by omega)

theorem ask_ok (p : Panel) {st : Stage} (h : StageOk st) :
    Init.ask p st = .ok (.asking (asking p st)) := by
  unfold Init.ask
  rw [request_ok h]
  simp only [bind_ok]
  rw [toPkt_eq (stageQ_wf st)]
  rfl

theorem start_ok (c : Connection) :
    Init.start c = .ok (.asking (asking ⟨c, PanelState.default, none, .idle⟩ .arming)) :=
  ask_ok _ .arming

/-! ## Names -/

/-- The name of entry `i` (from 0) of a type. -/
def nameAt (s : PanelState) (ty : TextDescriptionType) (i : Nat) : Option TextDescription :=
  (s.names ty).bind (·[i]?)

/-- What storing a name does. -/
structure SetSpec (s : PanelState) (ty : TextDescriptionType) (i : Nat) (text : TextDescription)
    (s' : PanelState) : Prop where
  arming : s'.armingStatus = s.armingStatus
  zones : s'.zoneStatuses = s.zoneStatuses
  name : ∀ ty' j, nameAt s' ty' j = if ty' = ty ∧ j = i then some text else nameAt s ty' j

theorem setName_ok {s : PanelState} {ty : TextDescriptionType} {i : Nat} (text : TextDescription)
    (hi : i < entries ty) : ∃ s', s.setName ty i text = .ok s' ∧ SetSpec s ty i text s' := by
  unfold PanelState.setName arrSet
  match ty, hi with
  | .area, hi =>
    have hi : i < 8 := hi
    simp only [dif_pos hi, bind_ok]
    refine ⟨_, rfl, rfl, rfl, ?_⟩
    intro ty' j
    cases ty' <;> simp [nameAt, PanelState.names, List.getElem?_set, hi, eq_comm]
    split <;> simp_all
  | .task, hi =>
    have hi : i < 32 := hi
    simp only [dif_pos hi, bind_ok]
    refine ⟨_, rfl, rfl, rfl, ?_⟩
    intro ty' j
    cases ty' <;> simp [nameAt, PanelState.names, List.getElem?_set, hi, eq_comm]
    split <;> simp_all
  | .zone, hi =>
    have hi : i < 208 := hi
    simp only [dif_pos hi, bind_ok]
    refine ⟨_, rfl, rfl, rfl, ?_⟩
    intro ty' j
    cases ty' <;> simp [nameAt, PanelState.names, List.getElem?_set, hi, eq_comm]
    split <;> simp_all

theorem setName_out {s : PanelState} {ty : TextDescriptionType} {i : Nat} (text : TextDescription)
    (ht : 0 < entries ty) (hi : ¬ i < entries ty) : s.setName ty i text = .error .index := by
  unfold PanelState.setName arrSet
  match ty, hi, ht with
  | .area, hi, _ => have hi : ¬ i < 8 := hi; simp only [dif_neg hi]; rfl
  | .task, hi, _ => have hi : ¬ i < 32 := hi; simp only [dif_neg hi]; rfl
  | .zone, hi, _ => have hi : ¬ i < 208 := hi; simp only [dif_neg hi]; rfl

/-! ## Replies -/

/-- How a reply affects the names. -/
inductive NamesCase (p : Panel) (st : Stage) (m : Message) : Panel → Prop
  | status : (∀ ty max u todo, st ≠ .names ty max u todo) → NamesCase p st m p
  | none (ty max u todo r) : st = .names ty max u todo → m = .stringDescriptionResponse r →
      r.ty = ty → r.num.toNat = 0 → NamesCase p st m p
  | named (ty max u todo r s) : st = .names ty max u todo → m = .stringDescriptionResponse r →
      r.ty = ty → u < r.num.toNat → r.num.toNat ≤ entries ty →
      SetSpec p.state ty (r.num.toNat - 1) r.text s →
      NamesCase p st m { p with state := s }

/-- What follows a reply. -/
inductive ReplyCase (p : Panel) (st : Stage) (m : Message) : Phase → Prop
  | ask (p' st') : NamesCase p st m p' → StageOk st' →
      followUp (stageQ st) m = some (stageQ st') →
      ReplyCase p st m (.asking (asking p' st'))
  | done (p') : NamesCase p st m p' → followUp (stageQ st) m = none →
      ReplyCase p st m (.finished (.ok p'))

theorem call_after {p : Panel} {ty : TextDescriptionType} {max u todo}
    (h : StageOk (.names ty max u todo)) :
    (∃ st', Init.callSds p todo = .ok (.asking (asking p st')) ∧ StageOk st' ∧
      afterType ty = some (stageQ st')) ∨
    (Init.callSds p todo = .ok (.finished (.ok p)) ∧ afterType ty = none) := by
  cases h with
  | area u hu =>
    exact .inl ⟨.names .task 32 0 [(.zone, 208)], ask_ok p (.task 0 (by decide)),
      .task 0 (by decide), rfl⟩
  | task u hu =>
    exact .inl ⟨.names .zone 208 0 [], ask_ok p (.zone 0 (by decide)), .zone 0 (by decide), rfl⟩
  | zone u hu => exact .inr ⟨rfl, rfl⟩

theorem stage_max {ty : TextDescriptionType} {max u todo} (h : StageOk (.names ty max u todo)) :
    max = entries ty ∧ u < max ∧ ∀ v, v < max → StageOk (.names ty max v todo) := by
  cases h with
  | area u hu => exact ⟨rfl, hu, fun v hv => .area v hv⟩
  | task u hu => exact ⟨rfl, hu, fun v hv => .task v hv⟩
  | zone u hu => exact ⟨rfl, hu, fun v hv => .zone v hv⟩

theorem stage_names {ty : TextDescriptionType} {max u todo} (h : StageOk (.names ty max u todo))
    (p : Panel) : ∃ l, p.state.names ty = some l := by
  cases h <;> exact ⟨_, rfl⟩

theorem entries_small (ty : TextDescriptionType) : entries ty < 255 := by
  cases ty <;> decide

theorem replied_cases (p : Panel) {st : Stage} (hst : StageOk st) {m : Message}
    (hr : Responds m (stageQ st)) :
    (∃ ph, Init.replied p st (some (.ok m)) = .ok ph ∧ ReplyCase p st m ph) ∨
    (Init.replied p st (some (.ok m)) = .error .index ∧
      ∃ r, m = .stringDescriptionResponse r ∧ entries r.ty < r.num.toNat) := by
  match st, hst with
  | .arming, _ =>
    exact .inl ⟨_, ask_ok p .zones, .ask p .zones (.status (by simp)) .zones rfl⟩
  | .zones, _ =>
    refine .inl ⟨_, ask_ok p (.area 0 (by decide)), .ask p _ (.status (by simp))
      (.area 0 (by decide)) rfl⟩
  | .names ty max u todo, hst =>
    obtain ⟨hmax, hu, hall⟩ := stage_max hst
    have hsm := entries_small ty
    obtain ⟨l, hl⟩ := stage_names hst p
    have hnum : (UInt8.ofNat (u + 1)).toNat = u + 1 := by simp; omega
    obtain ⟨r, rfl, hty, hn⟩ : ∃ r, m = .stringDescriptionResponse r ∧ r.ty = ty ∧
        (u + 1 ≤ r.num.toNat ∨ r.num.toNat = 0) := by
      have hr' : Responds m (.stringDescriptionRequest ⟨ty, UInt8.ofNat (u + 1)⟩) := hr
      cases hr' with
      | text r q h1 h2 => exact ⟨r, rfl, h1, .inl (by rw [← hnum]; exact h2)⟩
      | noText r q h1 h2 => exact ⟨r, rfl, h1, .inr h2⟩
    have hz : (r.num = 0) ↔ r.num.toNat = 0 := by
      constructor
      · intro h; rw [h]; rfl
      · intro h; exact UInt8.toNat_inj.mp h
    unfold Init.replied Init.described
    dsimp only
    rw [if_neg (by simp [hty]), hl]
    simp only [expectSome, bind_ok]
    by_cases h0 : r.num.toNat = 0
    · rw [if_pos (hz.mpr h0)]
      have hf : followUp (stageQ (.names ty max u todo)) (.stringDescriptionResponse r) =
          afterType ty := by
        show (if r.num.toNat = 0 ∨ _ then _ else _) = _
        rw [if_pos (.inl h0)]
      rcases call_after (p := p) hst with ⟨st', h1, h2, h3⟩ | ⟨h1, h2⟩
      · exact .inl ⟨_, h1, .ask p st' (.none ty max u todo r rfl rfl hty h0) h2 (hf.trans h3)⟩
      · exact .inl ⟨_, h1, .done p (.none ty max u todo r rfl rfl hty h0) (hf.trans h2)⟩
    · rw [if_neg (fun h => h0 (hz.mp h))]
      have hu1 : u + 1 ≤ r.num.toNat := by omega
      rw [if_neg (by omega)]
      by_cases hfit : r.num.toNat ≤ entries ty
      · obtain ⟨s, hs, hspec⟩ := setName_ok (s := p.state) (ty := ty) (i := r.num.toNat - 1)
          r.text (by omega)
        rw [hs]
        simp only [bind_ok]
        have hnc : NamesCase p (.names ty max u todo) (.stringDescriptionResponse r)
            { p with state := s } := .named ty max u todo r s rfl rfl hty (by omega) hfit hspec
        unfold Init.loopSds
        have e : r.num.toNat - 1 + 1 = r.num.toNat := by omega
        rw [e]
        by_cases hlt : r.num.toNat < max
        · rw [if_pos hlt]
          refine .inl ⟨_, ask_ok _ (hall _ hlt), .ask _ _ hnc (hall _ hlt) ?_⟩
          show (if r.num.toNat = 0 ∨ entries ty ≤ r.num.toNat then _ else _) = _
          rw [if_neg (by omega)]
          rfl
        · rw [if_neg hlt]
          have hf : followUp (stageQ (.names ty max u todo)) (.stringDescriptionResponse r) =
              afterType ty := by
            show (if r.num.toNat = 0 ∨ entries ty ≤ r.num.toNat then _ else _) = _
            rw [if_pos (.inr (by omega))]
          rcases call_after (p := { p with state := s }) hst with ⟨st', h1, h2, h3⟩ | ⟨h1, h2⟩
          · exact .inl ⟨_, h1, .ask _ st' hnc h2 (hf.trans h3)⟩
          · exact .inl ⟨_, h1, .done _ hnc (hf.trans h2)⟩
      · rw [setName_out (s := p.state) r.text (by omega) (by omega)]
        exact .inr ⟨rfl, r, rfl, by rw [hty]; omega⟩

/-! ## The invariant -/

/-- Invariant of the future while it waits. -/
structure InitGood (i : Init) : Prop where
  rd : RdOk i.panel.conn.rd
  idle : i.panel.cmdState = .idle
  stage : StageOk i.stage
  send : i.send = stageQ i.stage
  ready : ∀ pkt, i.await = .ready pkt →
    pkt = .ascii ⟨sentText i.send⟩ ∧ i.panel.conn.wbuf = []
  reply : i.await = .reply → i.panel.conn.wbuf = []
  arming : i.stage ≠ .arming → i.panel.state.armingStatus ≠ none
  zones : i.stage ≠ .arming → i.stage ≠ .zones → i.panel.state.zoneStatuses ≠ none
  held : ∀ pa, i.panel.pendingArm = some pa →
    ∃ v, i.panel.state.armingStatus = some v ∧ Suspicious v pa.report

/-- The result of the future is a connected panel. -/
def PhaseGood : Phase → Prop
  | .asking i => InitGood i
  | .finished (.ok p) => Connected p
  | .finished (.error _) => True

theorem start_good {c : Connection} (h : Fresh c) :
    InitGood (asking ⟨c, PanelState.default, none, .idle⟩ .arming) := by
  refine ⟨?_, rfl, .arming, rfl, ?_, ?_, ?_, ?_, ?_⟩
  · intro _
    show Dry c.rd.buffer
    rw [h.rd]
    exact dry_nil
  · intro pkt hp
    cases hp
    exact ⟨rfl, h.wbuf⟩
  · intro hp; cases hp
  · intro hp; exact absurd rfl hp
  · intro hp; exact absurd rfl hp
  · intro pa hp; cases hp

/-! ## Ticks -/

/-- What one tick does. -/
inductive TickCase (i : Init) (cx : Cx) : Obs × Phase → Prop
  | ask : i.await = .ready (.ascii ⟨sentText i.send⟩) → i.panel.conn.wbuf = [] →
      TickCase i cx (.asked i.send, .asking { i with
        panel := { i.panel with
          conn := { i.panel.conn with wbuf := asciiFrame (sentText i.send) } },
        await := .flush })
  | flushPending (c) : i.await = .flush → FlushSpec i.panel.conn cx .pending c →
      TickCase i cx (.pending, .asking { i with panel := { i.panel with conn := c } })
  | flushFailed (c e) : i.await = .flush → FlushSpec i.panel.conn cx (.ready (.error e)) c →
      TickCase i cx (.failed e, .finished (.error e))
  | flushed (c) : i.await = .flush → FlushSpec i.panel.conn cx (.ready (.ok ())) c →
      TickCase i cx
        (.flushed, .asking { i with panel := { i.panel with conn := c }, await := .reply })
  | readPending (c new) : i.await = .reply → NextSpec i.panel.conn cx .pending c new →
      TickCase i cx (.pending, .asking { i with panel := { i.panel with conn := c } })
  | readEnded (c new) : i.await = .reply → NextSpec i.panel.conn cx (.ready none) c new →
      TickCase i cx (.failed .unexpectedEof, .finished (.error .unexpectedEof))
  | readFailed (c new e) : i.await = .reply →
      NextSpec i.panel.conn cx (.ready (some (.error e))) c new →
      TickCase i cx (.failed e, .finished (.error e))
  | other (c new pkt ev w p') : i.await = .reply →
      NextSpec i.panel.conn cx (.ready (some (.ok pkt))) c new →
      InterpCase { i.panel with conn := c } cx.now pkt (ev, w, p') →
      (∀ m, ev.msg = some (.ok m) → ¬ Responds m i.send) →
      TickCase i cx (.got ev, .asking { i with panel := p' })
  | reply (c new pkt ev w p' m ph) : i.await = .reply →
      NextSpec i.panel.conn cx (.ready (some (.ok pkt))) c new →
      InterpCase { i.panel with conn := c } cx.now pkt (ev, w, p') →
      ev.msg = some (.ok m) → Responds m i.send → ReplyCase p' i.stage m ph →
      TickCase i cx (.got ev, ph)

/-- How a tick can panic. -/
def TickPanics (i : Init) (cx : Cx) : Prop :=
  ∃ c new pkt r, i.await = .reply ∧ i.panel.conn.pollNext cx = .ok (.ready (some (.ok pkt)), c) ∧
    NextSpec i.panel.conn cx (.ready (some (.ok pkt))) c new ∧
    Message.parse pkt = .ok (some (.stringDescriptionResponse r)) ∧
    Responds (.stringDescriptionResponse r) i.send ∧ entries r.ty < r.num.toNat

theorem interp_msg {p p' : Panel} {now pkt ev w} (h : InterpCase p now pkt (ev, w, p')) {m}
    (hm : ev.msg = some (.ok m)) : Message.parse pkt = .ok (some m) := by
  cases h with
  | bad e _ => cases hm
  | skip _ => cases hm
  | msg m' ch p1 c w p2 hp _ _ _ => cases hm; exact hp

theorem encode_sent {m : Message} (h : WfMessage m) (c : Connection) :
    c.startSend (.ascii ⟨sentText m⟩) =
      .ok { c with wbuf := c.wbuf ++ asciiFrame (sentText m) } := by
  unfold Connection.startSend Codec.encode
  rw [encode_valid (p := .ascii ⟨sentText m⟩) (sentText_valid h)]
  rfl

theorem tick_cases {i : Init} (hg : InitGood i) (cx : Cx) :
    (∃ x, i.tick cx = .ok x ∧ TickCase i cx x) ∨
    (i.tick cx = .error .index ∧ TickPanics i cx) := by
  unfold Init.tick
  match ha : i.await with
  | .ready pkt =>
    obtain ⟨rfl, hw⟩ := hg.ready pkt ha
    have hr : i.panel.conn.pollReady cx = (.ready (.ok ()), i.panel.conn) := by
      unfold Connection.pollReady
      rw [hw, if_neg (by simp)]
    dsimp only
    rw [hr]
    dsimp only
    rw [encode_sent (by rw [hg.send]; exact stageQ_wf _), hw]
    refine .inl ⟨_, rfl, ?_⟩
    rw [List.nil_append]
    exact .ask ha hw
  | .flush =>
    have hf := connFlush_spec i.panel.conn cx
    dsimp only
    generalize i.panel.conn.pollFlush cx = x at hf
    match x, hf with
    | (.ready (.ok ()), c), hf => exact .inl ⟨_, rfl, .flushed c ha hf⟩
    | (.pending, c), hf =>
      have := TickCase.flushPending (i := i) c ha hf
      rw [ha] at this
      exact .inl ⟨_, rfl, this⟩
    | (.ready (.error e), c), hf => exact .inl ⟨_, rfl, .flushFailed c e ha hf⟩
  | .reply =>
    obtain ⟨r, c, new, h, hs⟩ := connNext_spec i.panel.conn cx hg.rd
    dsimp only
    rw [h]
    simp only [bind_ok]
    match r, hs with
    | .pending, hs =>
      have := TickCase.readPending (i := i) c new ha hs
      rw [ha] at this
      exact .inl ⟨_, rfl, this⟩
    | .ready none, hs => exact .inl ⟨_, rfl, .readEnded c new ha hs⟩
    | .ready (some (.error e)), hs => exact .inl ⟨_, rfl, .readFailed c new e ha hs⟩
    | .ready (some (.ok pkt)), hs =>
      dsimp only
      unfold Init.received
      obtain ⟨⟨ev, w, p'⟩, hi, hc⟩ := interpret_cases { i.panel with conn := c } cx.now pkt
        (parsed_wf (hs.packet pkt rfl))
      rw [hi]
      simp only [bind_ok]
      match hm : ev.msg with
      | none =>
        refine .inl ⟨_, rfl, .other c new pkt ev w p' ha hs hc ?_⟩
        intro m h; rw [hm] at h; cases h
      | some (.error e) =>
        refine .inl ⟨_, rfl, .other c new pkt ev w p' ha hs hc ?_⟩
        intro m h; rw [hm] at h; cases h
      | some (.ok m) =>
        dsimp only
        by_cases hr : m.isResponseTo i.send = true
        · rw [if_pos hr]
          have hr' := (C23_responds _ _).mp hr
          rcases replied_cases p' hg.stage (m := m) (hg.send ▸ hr') with ⟨ph, h1, h2⟩ |
            ⟨h1, r, h2, h3⟩
          · rw [h1]
            exact .inl ⟨_, rfl, .reply c new pkt ev w p' m ph ha hs hc hm hr' h2⟩
          · rw [h1]
            refine .inr ⟨rfl, c, new, pkt, r, ha, h, hs, ?_, h2 ▸ hr', h3⟩
            rw [← h2]; exact interp_msg hc hm
        · rw [if_neg hr]
          refine .inl ⟨_, rfl, .other c new pkt ev w p' ha hs hc ?_⟩
          intro m' h hx
          rw [hm] at h
          cases h
          exact hr ((C23_responds _ _).mpr hx)

/-- Interpreting with no command outstanding changes only the views. -/
theorem interp_idle {p p' : Panel} {now pkt ev w} (h : InterpCase p now pkt (ev, w, p'))
    (hi : p.cmdState = .idle) : p'.cmdState = .idle := by
  obtain ⟨_, h2 | h2, _⟩ := interp_keeps h
  · rw [h2]; exact hi
  · exact h2

/-- A status report sets the view it is about. -/
theorem interp_status {p p' : Panel} {now pkt ev w} (h : InterpCase p now pkt (ev, w, p')) :
    (∀ m, ev.msg = some (.ok (.armingStatusReport m)) → p'.state.armingStatus ≠ none) ∧
    (∀ m, ev.msg = some (.ok (.zoneStatusReport m)) → p'.state.zoneStatuses ≠ none) := by
  cases h with
  | bad e _ => exact ⟨by simp, by simp⟩
  | skip _ => exact ⟨by simp, by simp⟩
  | msg m ch p1 c w p2 _ _ ht hc =>
    obtain ⟨g1, g2, g3, g4⟩ := complete_keeps hc
    rw [g2]
    constructor
    · intro m' hm
      cases hm
      cases ht with
      | asFirst _ _ => simp
      | asHeld _ prior ha _ _ => show p.state.armingStatus ≠ none; rw [ha]; simp
      | asNew _ _ _ _ _ => simp
      | asSame _ ha _ => show p.state.armingStatus ≠ none; rw [ha]; simp
      | other _ h1 _ _ => exact absurd rfl (h1 _)
    · intro m' hm
      cases hm
      cases ht with
      | zs _ => simp
      | other _ _ _ h3 => exact absurd rfl (h3 _)

theorem names_keep {p p' : Panel} {st m} (h : NamesCase p st m p') :
    p'.conn = p.conn ∧ p'.cmdState = p.cmdState ∧ p'.pendingArm = p.pendingArm ∧
    p'.state.armingStatus = p.state.armingStatus ∧
    p'.state.zoneStatuses = p.state.zoneStatuses := by
  cases h with
  | status _ => exact ⟨rfl, rfl, rfl, rfl, rfl⟩
  | none _ _ _ _ _ _ _ _ _ => exact ⟨rfl, rfl, rfl, rfl, rfl⟩
  | named _ _ _ _ _ s _ _ _ _ _ hs => exact ⟨rfl, rfl, rfl, hs.arming, hs.zones⟩

theorem afterType_describe {ty : TextDescriptionType} {q : Message} (h : afterType ty = some q) :
    ∃ ty' n, q = describe ty' n := by
  cases ty <;> cases h <;> exact ⟨_, _, rfl⟩

theorem follow_names {ty max u todo} {m q : Message}
    (hf : followUp (stageQ (.names ty max u todo)) m = some q) : ∃ ty' n, q = describe ty' n := by
  unfold stageQ describe followUp at hf
  dsimp only at hf
  split at hf
  · rename_i h; cases h
  · rename_i h; cases h
  · split at hf
    · exact afterType_describe hf
    · cases hf; exact ⟨_, _, rfl⟩
  · cases hf

theorem follow_order {st st' : Stage} {m : Message}
    (hf : followUp (stageQ st) m = some (stageQ st')) :
    st' ≠ .arming ∧ (st = .arming → st' = .zones) ∧ (st' = .zones → st = .arming) := by
  match st with
  | .arming =>
    have hf : some Message.zoneStatusRequest = some (stageQ st') := hf
    match st', hf with
    | .zones, _ => exact ⟨by simp, fun _ => rfl, fun _ => rfl⟩
  | .zones =>
    have hf : some (describe .area 1) = some (stageQ st') := hf
    match st', hf with
    | .names _ _ _ _, _ => exact ⟨by simp, by simp, by simp⟩
  | .names ty max u todo =>
    obtain ⟨ty', n, h⟩ := follow_names hf
    match st', h with
    | .names _ _ _ _, _ => exact ⟨by simp, by simp, by simp⟩

theorem follow_end {st : Stage} {m : Message} (hf : followUp (stageQ st) m = none) :
    st ≠ .arming ∧ st ≠ .zones := by
  match st with
  | .arming => cases hf
  | .zones => cases hf
  | .names _ _ _ _ => exact ⟨by simp, by simp⟩

theorem tick_good {i : Init} {cx o ph} (hg : InitGood i) (h : TickCase i cx (o, ph)) :
    PhaseGood ph := by
  cases h with
  | ask ha hw => exact ⟨hg.rd, hg.idle, hg.stage, hg.send, by simp, by simp, hg.arming, hg.zones,
      hg.held⟩
  | flushPending c ha hs =>
    refine ⟨by rw [hs.rd]; exact hg.rd, hg.idle, hg.stage, hg.send, ?_, ?_, hg.arming, hg.zones,
      hg.held⟩
    · intro pkt h; simp only [ha] at h; cases h
    · intro h; simp only [ha] at h; cases h
  | flushFailed c e ha hs => exact True.intro
  | flushed c ha hs =>
    refine ⟨by rw [hs.rd]; exact hg.rd, hg.idle, hg.stage, hg.send, ?_, ?_, hg.arming, hg.zones,
      hg.held⟩
    · intro pkt h; cases h
    · intro h; exact hs.done rfl
  | readPending c new ha hs =>
    refine ⟨hs.inv, hg.idle, hg.stage, hg.send, ?_, ?_, hg.arming, hg.zones, hg.held⟩
    · intro pkt h; simp only [ha] at h; cases h
    · intro h; show c.wbuf = []; rw [hs.wbuf]; exact hg.reply ha
  | readEnded c new ha hs => exact True.intro
  | readFailed c new e ha hs => exact True.intro
  | other c new pkt ev w p' ha hs hi hn =>
    obtain ⟨h1, h2, h3, h4, _⟩ := interp_keeps hi
    refine ⟨?_, interp_idle hi hg.idle, hg.stage, hg.send, ?_, ?_, fun h => h3 (hg.arming h),
      fun h h' => h4 (hg.zones h h'), interp_held hi hg.held⟩
    · show RdOk p'.conn.rd; rw [h1]; exact hs.inv
    · intro pkt h; simp only [ha] at h; cases h
    · intro h
      show p'.conn.wbuf = []
      rw [h1]
      show c.wbuf = []
      rw [hs.wbuf]
      exact hg.reply ha
  | reply c new pkt ev w p' m _ ha hs hi hm hr hc =>
    obtain ⟨h1, h2, h3, h4, _⟩ := interp_keeps hi
    obtain ⟨s1, s2⟩ := interp_status hi
    have hrd : RdOk p'.conn.rd := by rw [h1]; exact hs.inv
    have hwb : p'.conn.wbuf = [] := by
      rw [h1]
      show c.wbuf = []
      rw [hs.wbuf]
      exact hg.reply ha
    have hidle := interp_idle hi hg.idle
    have hheld := interp_held hi hg.held
    rw [hg.send] at hr
    have harm : p'.state.armingStatus ≠ none := by
      by_cases hst : i.stage = .arming
      · rw [hst] at hr
        cases hr with
        | arming r => exact s1 r hm
      · exact h3 (hg.arming hst)
    have hzon : i.stage ≠ .arming → p'.state.zoneStatuses ≠ none := by
      intro hna
      by_cases hst : i.stage = .zones
      · rw [hst] at hr
        cases hr with
        | zones r => exact s2 r hm
      · exact h4 (hg.zones hna hst)
    cases hc with
    | ask q st' hn hst' hf =>
      obtain ⟨n1, n2, n3, n4, n5⟩ := names_keep hn
      obtain ⟨f1, f2, f3⟩ := follow_order hf
      refine ⟨?_, n2.trans hidle, hst', rfl, ?_, ?_, ?_, ?_, ?_⟩
      · show RdOk q.conn.rd; rw [n1]; exact hrd
      · intro pkt h
        cases h
        exact ⟨rfl, by show q.conn.wbuf = []; rw [n1]; exact hwb⟩
      · intro h; cases h
      · intro _; show q.state.armingStatus ≠ none; rw [n4]; exact harm
      · intro h h'
        show q.state.zoneStatuses ≠ none
        rw [n5]
        exact hzon fun hx => h' (f2 hx)
      · show ∀ pa, q.pendingArm = some pa → _
        rw [n3]
        show ∀ pa, _ → ∃ v, q.state.armingStatus = some v ∧ _
        rw [n4]
        exact hheld
    | done q hn hf =>
      obtain ⟨n1, n2, n3, n4, n5⟩ := names_keep hn
      obtain ⟨f1, f2⟩ := follow_end hf
      have hz := hzon f1
      have get : ∀ {α : Type} {o : Option α}, o ≠ none → ∃ a, o = some a := by
        intro α o h
        cases o with
        | none => exact absurd rfl h
        | some a => exact ⟨a, rfl⟩
      obtain ⟨a, ha'⟩ := get harm
      obtain ⟨z, hz'⟩ := get hz
      refine ⟨⟨a, expectSome_ok.mpr (n4.trans ha')⟩, ⟨z, expectSome_ok.mpr (n5.trans hz')⟩,
        n2.trans hidle, by rw [n1]; exact hwb, ?_, ?_⟩
      · intro pa hpa
        rw [n3] at hpa
        obtain ⟨v, hv, hs⟩ := hheld pa hpa
        exact ⟨v, expectSome_ok.mpr (n4.trans hv), hs⟩
      · show RdOk q.conn.rd
        rw [n1]; exact hrd

/-! ## Histories -/

/-- What one operation does. -/
inductive InitCase (i : Init) : InitOp → Obs × Phase → Prop
  | arrive (r) : InitCase i (.arrive r) (.env i.panel.conn.sock.readWaker.toList,
      .asking { i with panel := { i.panel with conn := (i.panel.conn.arrive r).2 } })
  | writable (w) : InitCase i (.writable w) (.env i.panel.conn.sock.writeWaker.toList,
      .asking { i with panel := { i.panel with conn := (i.panel.conn.writable w).2 } })
  | tick (cx x) : TickCase i cx x → InitCase i (.tick cx) x

theorem init_cases {i : Init} (hg : InitGood i) (op : InitOp) :
    (∃ x, i.step op = .ok x ∧ InitCase i op x) ∨
    ∃ cx, op = .tick cx ∧ i.step op = .error .index ∧ TickPanics i cx := by
  match op with
  | .arrive r => exact .inl ⟨_, rfl, .arrive r⟩
  | .writable r => exact .inl ⟨_, rfl, .writable r⟩
  | .tick cx =>
    rcases tick_cases hg cx with ⟨x, h1, h2⟩ | ⟨h1, h2⟩
    · exact .inl ⟨x, h1, .tick cx x h2⟩
    · exact .inr ⟨cx, rfl, h1, h2⟩

theorem init_good {i : Init} {op o ph} (hg : InitGood i) (h : InitCase i op (o, ph)) :
    PhaseGood ph := by
  cases h with
  | arrive r =>
    exact ⟨hg.rd, hg.idle, hg.stage, hg.send, hg.ready, hg.reply, hg.arming, hg.zones, hg.held⟩
  | writable r =>
    exact ⟨hg.rd, hg.idle, hg.stage, hg.send, hg.ready, hg.reply, hg.arming, hg.zones, hg.held⟩
  | tick cx _ h => exact tick_good hg h

/-- Histories of the future, with what is known at each step. -/
inductive IHist : Phase → List InitOp → List Obs → Phase → Prop
  | nil {ph} : PhaseGood ph → IHist ph [] [] ph
  | finished {r ops} : PhaseGood (.finished r) → IHist (.finished r) ops [] (.finished r)
  | cons {i op o ph ops os ph'} : InitGood i → InitCase i op (o, ph) → IHist ph ops os ph' →
      IHist (.asking i) (op :: ops) (o :: os) ph'

theorem phase_cons {op : InitOp} {ops : List InitOp} {i : Init} :
    Phase.run (op :: ops) (.asking i) = (i.step op >>= fun x => Phase.run ops x.2 >>= fun y =>
      .ok (x.1 :: y.1, y.2)) := rfl

theorem ihist_of_run {ops : List InitOp} : ∀ {ph ph' : Phase} {outs : List Obs}, PhaseGood ph →
    Phase.run ops ph = .ok (outs, ph') → IHist ph ops outs ph' := by
  induction ops with
  | nil => intro ph ph' outs hg h; cases h; exact .nil hg
  | cons op ops ih =>
    intro ph ph' outs hg h
    match ph, hg with
    | .finished r, hg => cases h; exact .finished hg
    | .asking i, hg =>
      rw [phase_cons] at h
      rcases init_cases hg op with ⟨⟨o, ph1⟩, h1, h2⟩ | ⟨cx, _, h1, _⟩
      · rw [h1] at h
        simp only [bind_ok] at h
        cases h3 : Phase.run ops ph1 with
        | error e => rw [h3] at h; cases h
        | ok y =>
          obtain ⟨os, ph2⟩ := y
          rw [h3] at h
          simp only [bind_ok, Except.ok.injEq, Prod.mk.injEq] at h
          obtain ⟨rfl, rfl⟩ := h
          exact .cons hg h2 (ih (init_good hg h2) h3)
      · rw [h1] at h; cases h

theorem connect_hist {c : Connection} (hc : Fresh c) {ops outs ph}
    (h : Init.connect c ops = .ok (outs, ph)) :
    IHist (.asking (asking ⟨c, PanelState.default, none, .idle⟩ .arming)) ops outs ph := by
  unfold Init.connect at h
  rw [start_ok] at h
  exact ihist_of_run (ph := .asking _) (start_good hc) h

theorem IHist.good {ph ph' : Phase} {ops outs} (h : IHist ph ops outs ph') : PhaseGood ph' := by
  induction h with
  | nil h => exact h
  | finished h => exact h
  | cons _ _ _ ih => exact ih

end Elk
