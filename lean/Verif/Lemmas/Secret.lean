import Verif.Lemmas.Json
import Verif.Props.Mqtt
/-!
# Lemmas for the secrecy of the code: two runs of the bridge that differ in the code only

`mask…` blanks out what may depend on the code: the code itself wherever it is held, and the values
(not the number) of the bytes written or to be written.
-/

namespace Elk
open Spec Props

def maskCode : ArmCode := ⟨#v[48, 48, 48, 48, 48, 48]⟩

def maskReq : Message → Message
  | .armRequest m => .armRequest { m with code := maskCode }
  | m => m

def maskCmd : Command → Command
  | .arm m => .arm { m with code := maskCode }
  | c => c

def blank (b : Bytes) : Bytes := List.replicate b.length 0

def maskConn (c : Connection) : Connection :=
  { c with wbuf := blank c.wbuf, sock := { c.sock with sent := blank c.sock.sent } }

def maskCs : CmdState → CmdState
  | .idle => .idle
  | .busy r f w => .busy (maskReq r) f w

def maskPanel (p : Panel) : Panel :=
  { p with conn := maskConn p.conn, cmdState := maskCs p.cmdState }

def maskEv (e : Event) : Event := { e with completes := e.completes.map maskReq }

def maskItem : Poll PanelItem → Poll PanelItem
  | .ready (some (.ok e)) => .ready (some (.ok (maskEv e)))
  | r => r

theorem maskCmd_intoMsg (c : Command) : (maskCmd c).intoMsg = maskReq c.intoMsg := by
  cases c <;> rfl

theorem blank_append (a b : Bytes) : blank (a ++ b) = blank a ++ blank b := by
  unfold blank
  rw [List.length_append, List.replicate_append_replicate]

theorem blank_take (n : Nat) (a : Bytes) : blank (a.take n) = (blank a).take n := by
  unfold blank
  rw [List.length_take, List.take_replicate]

theorem blank_drop (n : Nat) (a : Bytes) : blank (a.drop n) = (blank a).drop n := by
  unfold blank
  rw [List.length_drop, List.drop_replicate]

theorem blank_length (a : Bytes) : (blank a).length = a.length := by
  unfold blank; simp

theorem blank_eq {a b : Bytes} (h : a.length = b.length) : blank a = blank b := by
  unfold blank; rw [h]

theorem flushLoop_blank (q : List WriteItem) : ∀ (buf sent : Bytes),
    flushLoop q (blank buf) (blank sent) =
      ⟨(flushLoop q buf sent).res, blank (flushLoop q buf sent).wbuf,
        (flushLoop q buf sent).writes, blank (flushLoop q buf sent).sent⟩ := by
  induction q with
  | nil =>
    intro buf sent
    rw [flushLoop.eq_def, flushLoop.eq_def [] buf]
    dsimp only
    rw [blank_length]
    split <;> rfl
  | cons w q ih =>
    intro buf sent
    rw [flushLoop.eq_def, flushLoop.eq_def (w :: q) buf]
    dsimp only
    rw [blank_length]
    split
    · rfl
    · cases w with
      | blocked => rfl
      | error c => rfl
      | accept n =>
        dsimp only
        split
        · rfl
        · rw [← blank_take, ← blank_drop, ← blank_append, ih]

theorem connFlush_mask (c : Connection) (cx : Cx) :
    (maskConn c).pollFlush cx = ((c.pollFlush cx).1, maskConn (c.pollFlush cx).2) := by
  unfold Connection.pollFlush
  dsimp only [maskConn]
  rw [flushLoop_blank]

theorem connNext_mask (c : Connection) (cx : Cx) :
    (maskConn c).pollNext cx = (c.pollNext cx).map fun x => (x.1, maskConn x.2) := by
  unfold Connection.pollNext
  dsimp only [maskConn]
  cases c.rd.loop c.sock.incoming [] <;> rfl

theorem response_mask (m r : Message) : m.isResponseTo (maskReq r) = m.isResponseTo r := by
  cases m <;> cases r <;> rfl

theorem complete_mask (p : Panel) (m : Message) :
    (maskPanel p).complete m =
      ((p.complete m).1.map maskReq, (p.complete m).2.1, maskPanel (p.complete m).2.2) := by
  obtain ⟨c, s, pa, cs⟩ := p
  cases cs with
  | idle => rfl
  | busy r f w =>
    unfold Panel.complete
    dsimp only [maskPanel, maskCs]
    rw [response_mask]
    split <;> rfl

theorem track_mask (p : Panel) (now : Nat) (m : Message) :
    (maskPanel p).track now m = (p.track now m).map fun x => (x.1, maskPanel x.2) := by
  cases m with
  | armingStatusReport m =>
    obtain ⟨c, ⟨a, z, zn, an, tn⟩, pa, cs⟩ := p
    cases a with
    | none => rfl
    | some prior =>
      have key : ∀ q : Panel, q.state.armingStatus = some prior →
          q.interpretArmingStatus now m =
            if q.pendingArm = none ∧ prior.isTransitionSuspicious m then
              (none, { q with pendingArm := some ⟨now + suspiciousTransitionDelay, m, none⟩ })
            else if prior ≠ m then
              (some (.armingStatus prior),
                { q with pendingArm := none, state := { q.state with armingStatus := some m } })
            else (none, { q with pendingArm := none }) := by
        intro q hq
        unfold Panel.interpretArmingStatus
        rw [hq]
      unfold Panel.track
      dsimp only
      rw [key _ rfl, key _ rfl]
      split
      · rename_i h1; rw [if_pos (show pa = none ∧ _ from h1)]; rfl
      · rename_i h1
        rw [if_neg (show ¬ (pa = none ∧ _) from h1)]
        split <;> rfl
  | zoneChange m =>
    simp only [Panel.track, Panel.interpretZoneChange, maskPanel]
    split
    · rfl
    · rename_i s _
      cases m.zone.toIndex with
      | error q => rfl
      | ok i =>
        simp only [bind_ok]
        cases arrGet s.zones i with
        | error q => rfl
        | ok old =>
          simp only [bind_ok]
          cases arrSet s.zones i m.status <;> rfl
  | _ => rfl

theorem interpret_mask (p : Panel) (now : Nat) (pkt : Packet) :
    (maskPanel p).interpret now pkt =
      (p.interpret now pkt).map fun x => (maskEv x.1, x.2.1, maskPanel x.2.2) := by
  unfold Panel.interpret
  split
  · rfl
  · rfl
  · rfl
  · rename_i m _
    rw [track_mask]
    cases p.track now m with
    | error q => rfl
    | ok x =>
      obtain ⟨ch, p1⟩ := x
      simp only [Except.map, bind_ok]
      rw [complete_mask]
      rfl

theorem pollTimer_mask (p : Panel) (cx : Cx) :
    (maskPanel p).pollTimer cx = (p.pollTimer cx).map fun x => (maskItem x.1, maskPanel x.2) := by
  obtain ⟨c, s, pa, cs⟩ := p
  cases pa with
  | none => rfl
  | some pa =>
    unfold Panel.pollTimer
    dsimp only [maskPanel]
    split
    · cases expectSome s.armingStatus <;> rfl
    · rfl

theorem pollNext_mask (p : Panel) (cx : Cx) :
    (maskPanel p).pollNext cx =
      (p.pollNext cx).map fun x => (maskItem x.1, x.2.1, maskPanel x.2.2) := by
  unfold Panel.pollNext
  rw [show (maskPanel p).conn = maskConn p.conn from rfl, connNext_mask]
  cases p.conn.pollNext cx with
  | error q => rfl
  | ok x =>
    obtain ⟨r, conn⟩ := x
    simp only [Except.map, bind_ok]
    have hp : ({ maskPanel p with conn := maskConn conn } : Panel) =
      maskPanel { p with conn := conn } := rfl
    rw [hp]
    match r with
    | .ready (some (.error e)) => rfl
    | .ready none => rfl
    | .ready (some (.ok pkt)) =>
      dsimp only
      rw [interpret_mask]
      cases Panel.interpret { p with conn := conn } cx.now pkt <;> rfl
    | .pending =>
      dsimp only
      rw [pollTimer_mask]
      cases Panel.pollTimer { p with conn := conn } cx <;> rfl

theorem pollReady_mask (p : Panel) (cx : Cx) :
    (maskPanel p).pollReady cx = ((p.pollReady cx).1, maskPanel (p.pollReady cx).2) := by
  obtain ⟨c, s, pa, cs⟩ := p
  cases cs with
  | idle => rfl
  | busy r f w =>
    cases f with
    | true => rfl
    | false =>
      unfold Panel.pollReady
      dsimp only [maskPanel, maskCs]
      rw [connFlush_mask]
      match c.pollFlush cx with
      | (.ready (.ok ()), conn) => rfl
      | (.ready (.error e), conn) => rfl
      | (.pending, conn) => rfl

theorem pollFlush_mask (p : Panel) (cx : Cx) :
    (maskPanel p).pollFlush cx = ((p.pollFlush cx).1, maskPanel (p.pollFlush cx).2) := by
  obtain ⟨c, s, pa, cs⟩ := p
  cases cs with
  | idle => rfl
  | busy r f w =>
    cases f with
    | true => rfl
    | false =>
      unfold Panel.pollFlush
      dsimp only [maskPanel, maskCs]
      rw [connFlush_mask]
      match c.pollFlush cx with
      | (.ready (.ok ()), conn) => rfl
      | (.ready (.error e), conn) => rfl
      | (.pending, conn) => rfl

theorem commandBytes_mask {c c' : Command} (h : maskCmd c = maskCmd c') :
    blank (commandBytes c) = blank (commandBytes c') := by
  cases c with
  | arm m =>
    cases c' with
    | arm m' =>
      obtain ⟨a, l, k⟩ := m
      obtain ⟨a', l', k'⟩ := m'
      simp only [maskCmd, Command.arm.injEq, ArmRequest.mk.injEq, and_true] at h
      obtain ⟨rfl, rfl⟩ := h
      refine blank_eq ?_
      have : (sentText (Command.intoMsg (.arm ⟨a, l, k⟩))).length =
          (sentText (Command.intoMsg (.arm ⟨a, l, k'⟩))).length := by
        simp [sentText, msgText, msgData, Command.intoMsg, reservedLen]
      unfold commandBytes asciiFrame
      simp [this, hex2]
    | activateTask t => cases h
  | activateTask t =>
    cases c' with
    | arm m' => cases h
    | activateTask t' => cases h; rfl

/-! ## The bridge -/

def maskCfg (c : Cfg) : Cfg := { c with elk := { c.elk with code := 0 } }

def maskWaiting : Waiting → Waiting
  | .ready c => .ready (maskCmd c)
  | w => w

/-- The log is left out. -/
def maskBridge (b : Bridge) : Bridge :=
  { b with cfg := maskCfg b.cfg, code := maskCode, panel := maskPanel b.panel, log := []
           waiting := maskWaiting b.waiting }

/-- Of what was published for an event, only the rest is kept. -/
def maskObs : BObs → BObs
  | .event ev out w => .event (maskEv ev) (out.drop 1) w
  | .taken p c => .taken p (c.map maskCmd)
  | .accepted c => .accepted (maskCmd c)
  | o => o

/-- The parts of equal masked bridges. -/
structure Alike (b b' : Bridge) : Prop where
  cfg : maskCfg b.cfg = maskCfg b'.cfg
  panel : maskPanel b.panel = maskPanel b'.panel
  inbox : b.inbox = b'.inbox
  subscribed : b.subscribed = b'.subscribed
  waiting : maskWaiting b.waiting = maskWaiting b'.waiting

theorem cfg_parts {c c' : Cfg} (h : maskCfg c = maskCfg c') :
    c.prefix = c'.prefix ∧ c.elk.areas = c'.elk.areas ∧ c.elk.zones = c'.elk.zones ∧
      c.mqtt = c'.mqtt ∧ c.elk.serialNumber = c'.elk.serialNumber := by
  obtain ⟨e, m⟩ := c
  obtain ⟨e', m'⟩ := c'
  obtain ⟨a, b, c, d⟩ := e
  obtain ⟨a', b', c', d'⟩ := e'
  simp only [maskCfg, Cfg.mk.injEq, ElkCfg.mk.injEq] at h
  obtain ⟨⟨rfl, _, rfl, rfl⟩, rfl⟩ := h
  exact ⟨rfl, rfl, rfl, rfl, rfl⟩

theorem state_of_mask {p p' : Panel} (h : maskPanel p = maskPanel p') : p.state = p'.state := by
  have := congrArg Panel.state h
  exact this

theorem publishChange_alike {p p' : Panel} {c c' : Cfg} (hp : p.state = p'.state)
    (hc : maskCfg c = maskCfg c') (ch : Option Change) :
    publishChange p c ch = publishChange p' c' ch := by
  obtain ⟨h1, h2, h3, _⟩ := cfg_parts hc
  unfold publishChange publishAreaStates publishAreaState publishZoneState Panel.armingStatus
    Panel.zoneStatuses
  rw [h1, h2, h3, hp]

theorem next_alike {p p' : Panel} (h : maskPanel p = maskPanel p') {cx r w p1}
    (hn : p.pollNext cx = .ok (r, w, p1)) :
    ∃ r' p1', p'.pollNext cx = .ok (r', w, p1') ∧ maskItem r = maskItem r' ∧
      maskPanel p1 = maskPanel p1' := by
  have h1 := pollNext_mask p cx
  rw [h, pollNext_mask p' cx, hn] at h1
  cases hn' : p'.pollNext cx with
  | error q => rw [hn'] at h1; cases h1
  | ok x =>
    obtain ⟨r', w', p1'⟩ := x
    rw [hn'] at h1
    simp only [Except.map, Except.ok.injEq, Prod.mk.injEq] at h1
    obtain ⟨h2, rfl, h3⟩ := h1
    exact ⟨r', p1', rfl, h2.symm, h3.symm⟩

theorem maskItem_pending {r : Poll PanelItem} : maskItem r = .pending ↔ r = .pending := by
  match r with
  | .pending => simp [maskItem]
  | .ready none => simp [maskItem]
  | .ready (some (.error e)) => simp [maskItem]
  | .ready (some (.ok e)) => simp [maskItem]

theorem maskItem_event {r : Poll PanelItem} {e : Event}
    (h : maskItem r = .ready (some (.ok e))) :
    ∃ e', r = .ready (some (.ok e')) ∧ maskEv e' = e := by
  match r with
  | .pending => simp [maskItem] at h
  | .ready none => simp [maskItem] at h
  | .ready (some (.error e)) => simp [maskItem] at h
  | .ready (some (.ok e')) =>
    simp only [maskItem, Poll.ready.injEq, Option.some.injEq, Except.ok.injEq] at h
    exact ⟨e', rfl, h⟩

theorem pollPanel_alike {b b' : Bridge} (hg : BGood b) (hg' : BGood b') (h : Alike b b') {cx o b1}
    (hp : b.pollPanel cx = .ok (o, b1)) :
    ∃ o' b1', b'.pollPanel cx = .ok (o', b1') ∧ o.map maskObs = o'.map maskObs ∧ Alike b1 b1' := by
  rcases pollPanel_ok hp with ⟨w, panel, hn, rfl, rfl⟩ | ⟨ev, w, panel, out, hn, ho, rfl, rfl⟩
  · obtain ⟨r', p1', hn', hr, hm⟩ := next_alike h.panel hn
    have : r' = .pending := maskItem_pending.mp (hr.symm.trans rfl)
    subst this
    refine ⟨none, { b' with panel := p1' }, ?_, rfl, h.cfg, hm, h.inbox, h.subscribed, h.waiting⟩
    unfold Bridge.pollPanel
    rw [hn']
    rfl
  · obtain ⟨r', p1', hn', hr, hm⟩ := next_alike h.panel hn
    obtain ⟨ev', rfl, hev⟩ := maskItem_event hr.symm
    rcases publishEvent_iff hg hn with ⟨_, _, h1⟩ | ⟨hz, json, ch, _, hch, h1⟩
    · rw [h1] at ho; cases ho
    · rw [h1] at ho
      cases ho
      have e1 : ev'.msg = ev.msg := by have := congrArg Event.msg hev; exact this
      have e2 : ev'.change = ev.change := by have := congrArg Event.change hev; exact this
      rcases publishEvent_iff hg' hn' with ⟨r, hr, _⟩ | ⟨_, json', ch', _, hch', h1'⟩
      · rw [e1] at hr; exact absurd hr (hz r)
      · have e3 : ch = ch' := by
          rw [e2, ← publishChange_alike (state_of_mask hm) h.cfg] at hch'
          rw [hch] at hch'; cases hch'; rfl
        subst e3
        refine ⟨some (.event ev' (⟨eventTopic b'.cfg.prefix, false, .json json'⟩ :: ch) w),
          { b' with panel := p1', log := b'.log ++
            (⟨eventTopic b'.cfg.prefix, false, .json json'⟩ :: ch) }, ?_, ?_, ?_⟩
        · unfold Bridge.pollPanel
          rw [hn']
          simp only [bind_ok]
          rw [h1']
          rfl
        · simp [maskObs, hev]
        · exact ⟨h.cfg, hm, h.inbox, h.subscribed, h.waiting⟩

theorem commandFor_alike {pre : Bytes} {code code' : ArmCode} {p : Publish} :
    ∀ {l : List (UInt8 × AreaCfg)} {c}, commandFor pre code p l = .ok c →
      ∃ c', commandFor pre code' p l = .ok c' ∧ c.map maskCmd = c'.map maskCmd := by
  intro l
  induction l with
  | nil => intro c h; cases h; exact ⟨none, rfl, rfl⟩
  | cons a l ih =>
    intro c h
    obtain ⟨id, cfg⟩ := a
    unfold commandFor at h ⊢
    split at h
    · rename_i ht; rw [if_pos ht]; exact ih h
    · rename_i ht
      rw [if_neg ht]
      split at h
      · cases h
      · rename_i hu
        rw [if_neg hu]
        cases hl : haLevel p.payload with
        | none => rw [hl] at h; cases h; exact ⟨none, rfl, rfl⟩
        | some lv =>
          rw [hl] at h
          dsimp only at h ⊢
          rw [P_bind_ok] at h
          obtain ⟨area, h1, h2⟩ := h
          cases h2
          rw [h1]
          exact ⟨_, rfl, rfl⟩

theorem pollInbox_alike {b b' : Bridge} (h : Alike b b') {o b1}
    (hp : b.pollInbox = .ok (o, b1)) :
    ∃ o' b1', b'.pollInbox = .ok (o', b1') ∧ o.map maskObs = o'.map maskObs ∧ Alike b1 b1' := by
  obtain ⟨e1, e2, _⟩ := cfg_parts h.cfg
  unfold Bridge.pollInbox at hp ⊢
  cases hi : b.inbox with
  | nil =>
    rw [hi] at hp
    cases hp
    rw [← h.inbox, hi]
    exact ⟨none, b', rfl, rfl, h⟩
  | cons p inbox =>
    rw [hi] at hp
    dsimp only at hp
    rw [P_bind_ok] at hp
    obtain ⟨c, hc, hp⟩ := hp
    obtain ⟨c', hc', he⟩ := commandFor_alike (code' := b'.code) hc
    rw [e1, e2] at hc'
    rw [← h.inbox, hi]
    dsimp only
    rw [hc', bind_ok]
    cases c with
    | none =>
      cases c' with
      | none =>
        cases hp
        exact ⟨_, _, rfl, rfl, h.cfg, h.panel, rfl, h.subscribed, h.waiting⟩
      | some c' => cases he
    | some c =>
      cases c' with
      | none => cases he
      | some c' =>
        cases hp
        refine ⟨_, _, rfl, ?_, h.cfg, h.panel, rfl, h.subscribed, ?_⟩
        · simp only [Option.map_some, maskObs]
          rw [Option.map_some, Option.map_some] at he
          simp [he]
        · rw [Option.map_some, Option.map_some, Option.some.injEq] at he
          simp only [maskWaiting, he]

theorem select_alike {b b' : Bridge} (hg : BGood b) (hg' : BGood b') (h : Alike b b') {cx pf o b1}
    (hp : b.select cx pf = .ok (o, b1)) :
    ∃ o' b1', b'.select cx pf = .ok (o', b1') ∧ maskObs o = maskObs o' ∧ Alike b1 b1' := by
  unfold Bridge.select at hp ⊢
  cases pf with
  | true =>
    rw [if_pos rfl] at hp ⊢
    rw [P_bind_ok] at hp
    obtain ⟨⟨x, c⟩, h1, hp⟩ := hp
    obtain ⟨x', c', h1', hx, hc⟩ := pollPanel_alike hg hg' h h1
    rw [h1', bind_ok]
    cases x with
    | some x =>
      cases x' with
      | none => cases hx
      | some x' =>
        cases hp
        exact ⟨x', c', rfl, by simpa using hx, hc⟩
    | none =>
      cases x' with
      | some x' => cases hx
      | none =>
        dsimp only at hp ⊢
        rw [P_bind_ok] at hp
        obtain ⟨⟨y, d⟩, h2, hp⟩ := hp
        obtain ⟨y', d', h2', hy, hd⟩ := pollInbox_alike hc h2
        cases hp
        rw [h2', bind_ok]
        refine ⟨_, d', rfl, ?_, hd⟩
        cases y with
        | none => cases y' with
          | none => rfl
          | some y' => cases hy
        | some y => cases y' with
          | none => cases hy
          | some y' => simpa using hy
  | false =>
    rw [if_neg (by simp)] at hp ⊢
    rw [P_bind_ok] at hp
    obtain ⟨⟨x, c⟩, h1, hp⟩ := hp
    obtain ⟨x', c', h1', hx, hc⟩ := pollInbox_alike h h1
    rw [h1', bind_ok]
    cases x with
    | some x =>
      cases x' with
      | none => cases hx
      | some x' =>
        cases hp
        exact ⟨x', c', rfl, by simpa using hx, hc⟩
    | none =>
      cases x' with
      | some x' => cases hx
      | none =>
        dsimp only at hp ⊢
        rw [P_bind_ok] at hp
        obtain ⟨⟨y, d⟩, h2, hp⟩ := hp
        have ec : c = b := by
          rcases pollInbox_ok h1 with ⟨_, _, rfl⟩ | ⟨_, _, _, _, h, _⟩ | ⟨_, _, _, _, _, h, _⟩
          · rfl
          · cases h
          · cases h
        have ec' : c' = b' := by
          rcases pollInbox_ok h1' with ⟨_, _, rfl⟩ | ⟨_, _, _, _, h, _⟩ | ⟨_, _, _, _, _, h, _⟩
          · rfl
          · cases h
          · cases h
        subst ec; subst ec'
        obtain ⟨y', d', h2', hy, hd⟩ := pollPanel_alike hg hg' hc h2
        cases hp
        rw [h2', bind_ok]
        refine ⟨_, d', rfl, ?_, hd⟩
        cases y with
        | none => cases y' with
          | none => rfl
          | some y' => cases hy
        | some y => cases y' with
          | none => cases hy
          | some y' => simpa using hy

theorem ready_alike {p p' : Panel} (h : maskPanel p = maskPanel p') (cx : Cx) :
    (p.pollReady cx).1 = (p'.pollReady cx).1 ∧
      maskPanel (p.pollReady cx).2 = maskPanel (p'.pollReady cx).2 := by
  have h1 := pollReady_mask p cx
  rw [h, pollReady_mask p' cx, Prod.mk.injEq] at h1
  exact ⟨h1.1.symm, h1.2.symm⟩

theorem flush_alike {p p' : Panel} (h : maskPanel p = maskPanel p') (cx : Cx) :
    (p.pollFlush cx).1 = (p'.pollFlush cx).1 ∧
      maskPanel (p.pollFlush cx).2 = maskPanel (p'.pollFlush cx).2 := by
  have h1 := pollFlush_mask p cx
  rw [h, pollFlush_mask p' cx, Prod.mk.injEq] at h1
  exact ⟨h1.1.symm, h1.2.symm⟩

theorem send_alike {p p' p1 : Panel} (h : maskPanel p = maskPanel p') {c c' : Command}
    (hc : maskCmd c = maskCmd c') (hw : WfCommand c) (hw' : WfCommand c')
    (hs : p.startSend c = .ok p1) :
    ∃ p1', p'.startSend c' = .ok p1' ∧ maskPanel p1 = maskPanel p1' := by
  have hi : p.cmdState = .idle := by
    rcases startSend_cases p c with ⟨_, _, _, _, h⟩ | ⟨h, _⟩
    · rw [h] at hs; cases hs
    · exact h
  have hi' : p'.cmdState = .idle := by
    have := congrArg Panel.cmdState h
    simp only [maskPanel, hi, maskCs] at this
    cases hx : p'.cmdState with
    | idle => rfl
    | busy r f w => rw [hx] at this; cases this
  rw [startSend_wf hw hi] at hs
  cases hs
  refine ⟨_, startSend_wf hw' hi', ?_⟩
  have e1 := congrArg Panel.conn h
  have e2 := congrArg Panel.state h
  have e3 := congrArg Panel.pendingArm h
  have e4 := congrArg Connection.sock e1
  have e5 := congrArg Connection.rd e1
  have e6 := congrArg Connection.wbuf e1
  simp only [maskPanel, maskConn] at e2 e3 e4 e5 e6
  simp only [maskPanel, maskConn, maskCs, blank_append, commandBytes_mask hc, e2, e3, e4, e5, e6,
    ← maskCmd_intoMsg, hc]

theorem tick_alike {b b' : Bridge} (hg : BGood b) (hg' : BGood b') (h : Alike b b') {cx pf o b1}
    (hp : b.tick cx pf = .ok (o, b1)) :
    ∃ o' b1', b'.tick cx pf = .ok (o', b1') ∧ maskObs o = maskObs o' ∧ Alike b1 b1' := by
  have hw := h.waiting
  unfold Bridge.tick at hp ⊢
  cases ew : b.waiting with
  | select =>
    rw [ew] at hp hw
    cases ew' : b'.waiting with
    | select => exact select_alike hg hg' h hp
    | ready c => rw [ew'] at hw; cases hw
    | flush => rw [ew'] at hw; cases hw
  | ready c =>
    rw [ew] at hp hw
    cases ew' : b'.waiting with
    | select => rw [ew'] at hw; cases hw
    | flush => rw [ew'] at hw; cases hw
    | ready c' =>
      rw [ew'] at hw
      simp only [maskWaiting, Waiting.ready.injEq] at hw
      obtain ⟨h1, h2⟩ := ready_alike h.panel cx
      dsimp only at hp ⊢
      match hr : b.panel.pollReady cx, hr' : b'.panel.pollReady cx with
      | (r, p1), (r', p1') =>
        rw [hr, hr'] at h1 h2
        dsimp only at h1 h2
        subst h1
        rw [hr] at hp
        match r with
        | .pending =>
          cases hp
          exact ⟨_, _, rfl, rfl, h.cfg, h2, h.inbox, h.subscribed, by simp only [maskWaiting, hw]⟩
        | .ready (.error e) => cases hp
        | .ready (.ok ()) =>
          dsimp only at hp ⊢
          rw [P_bind_ok] at hp
          obtain ⟨p2, h3, h4⟩ := hp
          cases h4
          obtain ⟨p2', h3', hm⟩ := send_alike h2 hw (hg.cmd c ew) (hg'.cmd c' ew') h3
          rw [h3']
          exact ⟨_, _, rfl, by simp only [maskObs, hw], h.cfg, hm, h.inbox, h.subscribed, rfl⟩
  | flush =>
    rw [ew] at hp hw
    cases ew' : b'.waiting with
    | select => rw [ew'] at hw; cases hw
    | ready c => rw [ew'] at hw; cases hw
    | flush =>
      obtain ⟨h1, h2⟩ := flush_alike h.panel cx
      dsimp only at hp ⊢
      match hr : b.panel.pollFlush cx, hr' : b'.panel.pollFlush cx with
      | (r, p1), (r', p1') =>
        rw [hr, hr'] at h1 h2
        dsimp only at h1 h2
        subst h1
        rw [hr] at hp
        match r with
        | .pending =>
          cases hp
          exact ⟨_, _, rfl, rfl, h.cfg, h2, h.inbox, h.subscribed, rfl⟩
        | .ready (.error e) => cases hp
        | .ready (.ok ()) =>
          cases hp
          exact ⟨_, _, rfl, rfl, h.cfg, h2, h.inbox, h.subscribed, rfl⟩

theorem panel_ext {p p' : Panel} (h : maskPanel p = maskPanel p') :
    maskConn p.conn = maskConn p'.conn ∧ p.state = p'.state ∧ p.pendingArm = p'.pendingArm ∧
      maskCs p.cmdState = maskCs p'.cmdState := by
  have h1 := congrArg Panel.conn h
  have h2 := congrArg Panel.state h
  have h3 := congrArg Panel.pendingArm h
  have h4 := congrArg Panel.cmdState h
  exact ⟨h1, h2, h3, h4⟩

theorem conn_alike {p p' : Panel} (h : maskPanel p = maskPanel p') {c c' : Connection}
    (hc : maskConn c = maskConn c') :
    maskPanel { p with conn := c } = maskPanel { p' with conn := c' } := by
  obtain ⟨_, h2, h3, h4⟩ := panel_ext h
  simp only [maskPanel, hc, h2, h3, h4]

theorem bstep_alike {b b' : Bridge} (hg : BGood b) (hg' : BGood b') (h : Alike b b') {op o b1}
    (hp : b.step op = .ok (o, b1)) :
    ∃ o' b1', b'.step op = .ok (o', b1') ∧ maskObs o = maskObs o' ∧ Alike b1 b1' := by
  have hc := (panel_ext h.panel).1
  cases op with
  | arrive r =>
    cases hp
    have e : (b.panel.conn.arrive r).1 = (b'.panel.conn.arrive r).1 := by
      have := congrArg (fun c => (Connection.arrive c r).1) hc
      exact this
    have e2 : maskConn (b.panel.conn.arrive r).2 = maskConn (b'.panel.conn.arrive r).2 := by
      have := congrArg (fun c => (Connection.arrive c r).2) hc
      exact this
    exact ⟨_, _, rfl, congrArg BObs.env e, h.cfg, conn_alike h.panel e2, h.inbox, h.subscribed, h.waiting⟩
  | writable r =>
    cases hp
    have e : (b.panel.conn.writable r).1 = (b'.panel.conn.writable r).1 := by
      have := congrArg (fun c => (Connection.writable c r).1) hc
      exact this
    have e2 : maskConn (b.panel.conn.writable r).2 = maskConn (b'.panel.conn.writable r).2 := by
      have := congrArg (fun c => (Connection.writable c r).2) hc
      exact this
    exact ⟨_, _, rfl, congrArg BObs.env e, h.cfg, conn_alike h.panel e2, h.inbox, h.subscribed, h.waiting⟩
  | deliver p =>
    cases hp
    exact ⟨_, _, rfl, rfl, h.cfg, h.panel, congrArg (· ++ [p]) h.inbox, h.subscribed, h.waiting⟩
  | tick cx pf => exact tick_alike hg hg' h hp

theorem brun_alike {ops : List BOp} : ∀ {b b' b1 : Bridge} {obs : List BObs}, BGood b → BGood b' →
    Alike b b' → Bridge.run ops b = .ok (obs, b1) →
    ∃ obs' b1', Bridge.run ops b' = .ok (obs', b1') ∧ obs.map maskObs = obs'.map maskObs ∧
      Alike b1 b1' := by
  induction ops with
  | nil => intro b b' b1 obs _ _ h hr; cases hr; exact ⟨[], b', rfl, rfl, h⟩
  | cons op ops ih =>
    intro b b' b1 obs hg hg' h hr
    obtain ⟨o, c, os, h1, h2, rfl⟩ := brun_cons.mp hr
    obtain ⟨o', c', h1', ho, hc⟩ := bstep_alike hg hg' h h1
    obtain ⟨os', b1', h2', hos, hb⟩ := ih (bcase_good (bstep_cases h1) hg)
      (bcase_good (bstep_cases h1') hg') hc h2
    exact ⟨o' :: os', b1', brun_cons.mpr ⟨o', c', os', h1', h2', rfl⟩, by simp [ho, hos], hb⟩

/-- What was published for an event begins with the event. -/
theorem bhist_head {b b1 : Bridge} {ops obs} (h : BHist b ops obs b1) (hg : BGood b) :
    ∀ ev out w, BObs.event ev out w ∈ obs → ∃ j, ev.serialize = .ok j ∧
      out = ⟨eventTopic b.cfg.prefix, false, .json j⟩ :: out.drop 1 := by
  induction h with
  | nil => intro ev out w h; cases h
  | @cons b op o b1 ops os b2 hc _ ih =>
    intro ev out w hm
    rcases List.mem_cons.mp hm with rfl | hm
    · cases hc with
      | event cx pf ev out w panel hw hn ho =>
        rcases publishEvent_iff hg hn with ⟨_, _, h1⟩ | ⟨_, json, ch, hj, _, h1⟩
        · rw [h1] at ho; cases ho
        · rw [h1] at ho
          cases ho
          exact ⟨json, hj, rfl⟩
    · have := ih (bcase_good hc hg) ev out w hm
      rw [(bcase_static hc).1] at this
      exact this

end Elk
