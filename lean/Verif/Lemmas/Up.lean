import Verif.Props.Stream
import Verif.Props.Init
import Verif.Lemmas.MqttPub
import Verif.Spec.Cli
/-!
# Lemmas about connections that stay up
-/

namespace Elk
open Spec Props

theorem loop_up (q : List ReadItem) : ∀ (got : Bytes) (f : ReadFrame) (o : ReadOut), RdOk f →
    f.eof = false → f.hasErrored = false → (∀ r ∈ q, Up r) → f.loop q got = .ok o →
    ((∃ p, o.res = .ready (some (.ok p))) ∨ o.res = .pending) ∧ ∀ r ∈ o.incoming, Up r := by
  induction q with
  | nil =>
    intro got f o hok he hk hq h
    obtain ⟨⟨x, g⟩, hx, hc⟩ := attempt_cases f
    obtain ⟨h1, h2, h3⟩ := attempt_live hc he hk
    unfold ReadFrame.loop at h
    rw [hx] at h
    cases x with
    | some it =>
      obtain ⟨p, rfl⟩ := h3 _ rfl
      cases h
      exact ⟨.inl ⟨p, rfl⟩, hq⟩
    | none => cases h; exact ⟨.inr rfl, hq⟩
  | cons i q ih =>
    intro got f o hok he hk hq h
    obtain ⟨⟨x, g⟩, hx, hc⟩ := attempt_cases f
    obtain ⟨h1, h2, h3⟩ := attempt_live hc he hk
    have hq' := fun r hr => hq r (List.mem_cons_of_mem _ hr)
    unfold ReadFrame.loop at h
    rw [hx] at h
    cases x with
    | some it =>
      obtain ⟨p, rfl⟩ := h3 _ rfl
      cases h
      exact ⟨.inl ⟨p, rfl⟩, hq⟩
    | none =>
      rcases hq i (List.mem_cons_self ..) with rfl | ⟨b, rfl, hb⟩
      · cases h; exact ⟨.inr rfl, hq'⟩
      · dsimp only at h
        rw [if_neg (fun hl => hb (List.length_eq_zero_iff.mp hl))] at h
        refine ih _ _ o ?_ ?_ ?_ hq' h
        · intro hx
          simp [h2] at hx
        · rfl
        · exact h2

/-- A connection on which no error or end has been read. -/
def LiveConn (c : Connection) : Prop := c.rd.eof = false ∧ c.rd.hasErrored = false

theorem conn_live {c c' : Connection} {cx r} (hok : RdOk c.rd) (hl : LiveConn c)
    (h : c.pollNext cx = .ok (r, c')) (hr : (∃ p, r = .ready (some (.ok p))) ∨ r = .pending) :
    LiveConn c' := by
  unfold Connection.pollNext at h
  rw [P_bind_ok] at h
  obtain ⟨o, h1, h2⟩ := h
  simp only [Except.ok.injEq, Prod.mk.injEq] at h2
  obtain ⟨rfl, rfl⟩ := h2
  exact loop_live _ _ _ _ hok hl.1 hl.2 h1 hr

theorem conn_up {c c' : Connection} {cx r} (hok : RdOk c.rd) (hl : LiveConn c)
    (hq : ∀ r ∈ c.sock.incoming, Up r)
    (h : c.pollNext cx = .ok (r, c')) :
    ((∃ p, r = .ready (some (.ok p))) ∨ r = .pending) ∧ LiveConn c' ∧
      ∀ r ∈ c'.sock.incoming, Up r := by
  have h' := h
  unfold Connection.pollNext at h
  rw [P_bind_ok] at h
  obtain ⟨o, h1, h2⟩ := h
  simp only [Except.ok.injEq, Prod.mk.injEq] at h2
  obtain ⟨rfl, rfl⟩ := h2
  obtain ⟨h3, h4⟩ := loop_up _ _ _ _ hok hl.1 hl.2 hq h1
  exact ⟨h3, conn_live hok hl h' h3, h4⟩

/-- Reading from a connection that is up: the panel's connection and what it returns. -/
theorem next_up {p p' : Panel} {cx r w} (hg : Good p) (hl : LiveConn p.conn)
    (hq : ∀ r ∈ p.conn.sock.incoming, Up r) (h : p.pollNext cx = .ok (r, w, p')) :
    (r = .pending ∨ ∃ ev, r = .ready (some (.ok ev))) ∧ LiveConn p'.conn ∧
      ∀ r ∈ p'.conn.sock.incoming, Up r := by
  obtain ⟨res, c, new, hcp, hcs⟩ := connNext_spec p.conn cx hg.rd
  obtain ⟨h1, h2, h3⟩ := conn_up hg.rd hl hq hcp
  unfold Panel.pollNext at h
  rw [hcp] at h
  simp only [bind_ok] at h
  rcases h1 with ⟨q, rfl⟩ | rfl
  · obtain ⟨⟨ev, w, p2⟩, hi, hic⟩ := interpret_cases { p with conn := c } cx.now q
      (parsed_wf (hcs.packet q rfl))
    dsimp only at h
    rw [hi] at h
    cases h
    rw [(interp_keeps hic).1]
    exact ⟨.inr ⟨ev, rfl⟩, h2, h3⟩
  · dsimp only at h
    unfold Panel.pollTimer at h
    dsimp only at h
    cases hpa : p.pendingArm with
    | none => rw [hpa] at h; cases h; exact ⟨.inl rfl, h2, h3⟩
    | some pa =>
      rw [hpa] at h
      dsimp only at h
      split at h
      · cases hst : p.state.armingStatus with
        | none => rw [hst] at h; cases h
        | some v => rw [hst] at h; cases h; exact ⟨.inr ⟨_, rfl⟩, h2, h3⟩
      · cases h; exact ⟨.inl rfl, h2, h3⟩

theorem step_up {p p' : Panel} {op o} (hg : Good p) (hl : LiveConn p.conn)
    (hq : ∀ r ∈ p.conn.sock.incoming, Up r) (ha : ∀ r ∈ arrived [op], Up r)
    (h : p.step op = .ok (o, p')) :
    ¬ saysEnd o ∧ LiveConn p'.conn ∧ ∀ r ∈ p'.conn.sock.incoming, Up r := by
  have hsc := step_cases hg.sane h
  have quiet : itemOf o = none → p'.conn.rd = p.conn.rd →
      p'.conn.sock.incoming = p.conn.sock.incoming →
      ¬ saysEnd o ∧ LiveConn p'.conn ∧ ∀ r ∈ p'.conn.sock.incoming, Up r := by
    intro h1 h2 h3
    refine ⟨?_, ?_, h3 ▸ hq⟩
    · unfold saysEnd
      rw [h1]
      rintro (h | ⟨_, h⟩) <;> cases h
    · unfold LiveConn
      rw [h2]
      exact hl
  cases hsc with
  | arrive r =>
    refine ⟨?_, hl, ?_⟩
    · rintro (h | ⟨_, h⟩) <;> cases h
    · intro x hx
      rcases List.mem_append.mp hx with hx | hx
      · exact hq x hx
      · exact ha x hx
  | writable r => exact quiet rfl rfl rfl
  | next cx new r w _ hnc =>
    obtain ⟨h1, h2, h3⟩ := next_up hg hl hq (next_step.mp h)
    refine ⟨?_, h2, h3⟩
    rcases h1 with rfl | ⟨ev, rfl⟩
    · rintro (h | ⟨_, h⟩) <;> cases h
    · unfold saysEnd itemOf
      dsimp only
      cases ev.pkt <;> (rintro (h | ⟨_, h⟩) <;> cases h)
  | ready cx r _ hr =>
    cases hr with
    | idle _ => exact quiet rfl rfl rfl
    | wait _ _ _ => exact quiet rfl rfl rfl
    | flushed _ _ _ _ hs => exact quiet rfl hs.rd hs.incoming
    | blocked _ _ _ _ hs => exact quiet rfl hs.rd hs.incoming
    | failed _ _ _ _ _ hs => exact quiet rfl hs.rd hs.incoming
  | send _ _ _ _ _ _ => exact quiet rfl rfl rfl
  | flush cx r _ hf => exact quiet rfl (read_flush hf).2.2 (read_flush hf).2.1
  | close cx r _ hc =>
    cases hc with
    | flushed q r c hf hs =>
      exact quiet rfl (hs.rd.trans (read_flush hf).2.2) (hs.incoming.trans (read_flush hf).2.1)
    | stuck r _ _ hf => exact quiet rfl (read_flush hf).2.2 (read_flush hf).2.1

/-! ## `connect` yields a live connection and printable names -/

/-- The connection of a phase is live. -/
def PhaseLive : Phase → Prop
  | .asking i => LiveConn i.panel.conn
  | .finished (.ok p) => LiveConn p.conn
  | .finished (.error _) => True

theorem reply_live {p : Panel} {st m ph} (h : ReplyCase p st m ph) (hl : LiveConn p.conn) :
    PhaseLive ph := by
  cases h with
  | ask p' st' hn _ _ =>
    show LiveConn p'.conn
    rw [(names_keep hn).1]; exact hl
  | done p' hn _ =>
    show LiveConn p'.conn
    rw [(names_keep hn).1]; exact hl

theorem flush_live {c c' : Connection} {cx r} (h : FlushSpec c cx r c') (hl : LiveConn c) :
    LiveConn c' := by
  unfold LiveConn
  rw [h.rd]; exact hl

theorem tick_live {i : Init} {cx o ph} (hg : InitGood i) (hl : LiveConn i.panel.conn)
    (h : i.tick cx = .ok (o, ph)) : PhaseLive ph := by
  by_cases ha : i.await = .reply
  · obtain ⟨r, c, new, hn, hs⟩ := connNext_spec i.panel.conn cx hg.rd
    unfold Init.tick at h
    rw [ha] at h
    dsimp only at h
    rw [hn] at h
    simp only [bind_ok] at h
    match r, hs, hn, h with
    | .pending, hs, hn, h =>
      cases h
      exact conn_live hg.rd hl hn (.inr rfl)
    | .ready none, hs, hn, h => cases h; trivial
    | .ready (some (.error e)), hs, hn, h => cases h; trivial
    | .ready (some (.ok pkt)), hs, hn, h =>
      have hc := conn_live hg.rd hl hn (.inl ⟨_, rfl⟩)
      unfold Init.received at h
      dsimp only at h
      obtain ⟨⟨ev, w, p'⟩, hi, hic⟩ := interpret_cases { i.panel with conn := c } cx.now pkt
        (parsed_wf (hs.packet pkt rfl))
      rw [hi] at h
      simp only [bind_ok] at h
      have hc' : LiveConn p'.conn := by rw [(interp_keeps hic).1]; exact hc
      match hm : ev.msg, h with
      | none, h => cases h; exact hc'
      | some (.error e), h => cases h; exact hc'
      | some (.ok m), h =>
        dsimp only at h
        by_cases hr : m.isResponseTo i.send = true
        · rw [if_pos hr] at h
          have hr' := (C23_responds _ _).mp hr
          rcases replied_cases p' hg.stage (m := m) (hg.send ▸ hr') with ⟨ph, h1, h2⟩ |
            ⟨h1, r, h2, h3⟩
          · rw [h1] at h
            cases h
            exact reply_live h2 hc'
          · rw [h1] at h
            cases h
        · rw [if_neg hr] at h
          cases h
          exact hc'
  · rcases tick_cases hg cx with ⟨x, h1, h2⟩ | ⟨h1, _⟩
    · rw [h1] at h
      cases h
      cases h2 with
      | ask _ _ => exact hl
      | flushPending _ _ h => exact flush_live h hl
      | flushFailed _ _ _ _ => trivial
      | flushed _ _ h => exact flush_live h hl
      | readPending _ _ h _ => exact absurd h ha
      | readEnded _ _ h _ => exact absurd h ha
      | readFailed _ _ _ h _ => exact absurd h ha
      | other _ _ _ _ _ _ h _ _ _ => exact absurd h ha
      | reply _ _ _ _ _ _ _ _ h _ _ _ _ _ => exact absurd h ha
    · rw [h1] at h; cases h

theorem phase_live {ops : List InitOp} : ∀ {ph ph' : Phase} {outs : List Obs}, PhaseGood ph →
    PhaseLive ph → Phase.run ops ph = .ok (outs, ph') → PhaseLive ph' := by
  induction ops with
  | nil => intro ph ph' outs hg hl h; cases h; exact hl
  | cons op ops ih =>
    intro ph ph' outs hg hl h
    match ph, hg, hl with
    | .finished r, hg, hl => cases h; exact hl
    | .asking i, hg, hl =>
      rw [phase_cons] at h
      rcases init_cases hg op with ⟨⟨o, ph1⟩, h1, h2⟩ | ⟨cx, _, h1, _⟩
      · rw [h1] at h
        simp only [bind_ok] at h
        rw [P_bind_ok] at h
        obtain ⟨⟨os, ph2⟩, h3, h4⟩ := h
        cases h4
        refine ih (init_good hg h2) ?_ h3
        match op, h1 with
        | .arrive r, h1 => cases h1; exact hl
        | .writable r, h1 => cases h1; exact hl
        | .tick cx, h1 => exact tick_live hg hl h1
      · rw [h1] at h; cases h

/-- `connect` yields a live connection. -/
theorem connect_live {c : Connection} (hc : Fresh c) {ops outs p}
    (h : Init.connect c ops = .ok (outs, .finished (.ok p))) : LiveConn p.conn := by
  unfold Init.connect at h
  rw [start_ok] at h
  refine phase_live (ph := .asking _) (start_good hc) ?_ h
  show LiveConn c
  unfold LiveConn
  rw [hc.rd]
  exact ⟨rfl, rfl⟩

/-- All names are printable text. -/
def NamesOk (s : PanelState) : Prop := ∀ ty i t, nameAt s ty i = some t → WfText t

theorem wfNames_of {p : Panel} (h : NamesOk p.state) : WfNames p := by
  constructor
  · intro t ht
    obtain ⟨i, hi⟩ := List.getElem?_of_mem ht
    exact h .area i t (by simpa [nameAt, PanelState.names, Panel.areaNames] using hi)
  · intro zone t ht
    unfold Panel.zoneName at ht
    rw [P_bind_ok] at ht
    obtain ⟨i, _, ht⟩ := ht
    unfold arrGet at ht
    split at ht
    · rename_i hi
      cases ht
      refine h .zone i _ ?_
      simp [nameAt, PanelState.names, hi]
    · cases ht

theorem default_namesOk : NamesOk PanelState.default := by
  have he : WfText TextDescription.empty := by
    unfold WfText Printable
    decide
  intro ty i t h
  have key : ∀ n, (Vector.replicate n TextDescription.empty).toList[i]? = some t → WfText t := by
    intro n h
    have := List.mem_of_getElem? h
    rw [Vector.toList_replicate] at this
    rw [(List.mem_replicate.mp this).2]
    exact he
  cases ty <;> first | exact key _ h | cases h

theorem interp_names {p p1 : Panel} {now pkt ev w} (h : InterpCase p now pkt (ev, w, p1)) :
    p1.state.zoneNames = p.state.zoneNames ∧ p1.state.areaNames = p.state.areaNames ∧
      p1.state.taskNames = p.state.taskNames := by
  cases h with
  | bad e _ => exact ⟨rfl, rfl, rfl⟩
  | skip _ => exact ⟨rfl, rfl, rfl⟩
  | msg m ch p1 c w p2 _ _ ht hc =>
    rw [(complete_keeps hc).2.1]
    cases ht <;> exact ⟨rfl, rfl, rfl⟩

theorem interp_namesOk {p p1 : Panel} {now pkt ev w} (h : InterpCase p now pkt (ev, w, p1))
    (hn : NamesOk p.state) : NamesOk p1.state := by
  obtain ⟨h1, h2, h3⟩ := interp_names h
  intro ty i t ht
  refine hn ty i t ?_
  rw [← ht]
  unfold nameAt PanelState.names
  rw [h1, h2, h3]

theorem interp_msg_wf {p p1 : Panel} {now pkt ev w} (h : InterpCase p now pkt (ev, w, p1)) {m}
    (hm : ev.msg = some (.ok m)) : WfMessage m := by
  cases h with
  | bad e _ => cases hm
  | skip _ => cases hm
  | msg m' ch p1 c w p2 _ hw _ _ => cases hm; exact hw

theorem names_namesOk {p p' : Panel} {st m} (h : NamesCase p st m p') (hm : WfMessage m)
    (hn : NamesOk p.state) : NamesOk p'.state := by
  cases h with
  | status _ => exact hn
  | none _ _ _ _ _ _ _ _ _ => exact hn
  | named ty max u todo r s _ hr _ _ _ hs =>
    subst hr
    intro ty' i t ht
    have ht : nameAt s ty' i = some t := ht
    rw [hs.name] at ht
    split at ht
    · cases ht; exact hm
    · exact hn ty' i t ht

/-- The names in a phase are printable text. -/
def PhaseNames : Phase → Prop
  | .asking i => NamesOk i.panel.state
  | .finished (.ok p) => NamesOk p.state
  | .finished (.error _) => True

theorem init_namesOk {i : Init} {op o ph} (h : InitCase i op (o, ph))
    (hw : NamesOk i.panel.state) : PhaseNames ph := by
  cases h with
  | arrive r => exact hw
  | writable r => exact hw
  | tick cx _ h =>
    cases h with
    | ask _ _ => exact hw
    | flushPending _ _ _ => exact hw
    | flushFailed _ _ _ _ => trivial
    | flushed _ _ _ => exact hw
    | readPending _ _ _ _ => exact hw
    | readEnded _ _ _ _ => trivial
    | readFailed _ _ _ _ _ => trivial
    | other c new pkt ev w p' _ _ hi _ =>
      exact interp_namesOk (p := { i.panel with conn := c }) hi hw
    | reply c new pkt ev w p' m _ _ _ hi hm _ hr =>
      have h1 := interp_namesOk (p := { i.panel with conn := c }) hi hw
      have h2 := interp_msg_wf hi hm
      cases hr with
      | ask p' st' hn _ _ => exact names_namesOk hn h2 h1
      | done p' hn _ => exact names_namesOk hn h2 h1

theorem ihist_namesOk {ph ph' : Phase} {ops outs} (h : IHist ph ops outs ph')
    (hw : PhaseNames ph) : PhaseNames ph' := by
  induction h with
  | nil _ => exact hw
  | finished _ => exact hw
  | cons _ hc _ ih => exact ih (init_namesOk hc hw)

/-- `connect` yields printable names. -/
theorem connect_wfNames {c : Connection} (hc : Fresh c) {ops outs p}
    (h : Init.connect c ops = .ok (outs, .finished (.ok p))) : WfNames p :=
  wfNames_of (ihist_namesOk (connect_hist hc h) default_namesOk)

end Elk
