import Verif.Spec.Relay
import Verif.Props.Gist
import Verif.Props.Joined
/-!
# C161: a relay cannot be told from the panel

The messages that a panel sends, written anew by the library, and nothing else.
-/

namespace Elk.Props

open Elk.Spec

/-! ## What the relay writes -/

theorem drains_all_valid {b : Bytes} {ps left} (h : Drains b ps left) :
    Taken b ps left ∧ Spec.Waits left ∧ ∀ p ∈ ps, ValidPacket p ∨ ∃ i, p = .invalid i := by
  have tk : Taken b ps left ∧ Spec.Waits left := by
    have t := C117_tokens.mp h
    clear h
    induction t with
    | done w => exact ⟨.nil, w⟩
    | next f _ ih => exact ⟨.cons f ih.1, ih.2⟩
  exact ⟨tk.1, tk.2, taken_valid tk.1⟩

theorem says_some {p : Packet} {m : Message} (h : says p = some m) :
    Message.parse p = .ok (some m) := by
  unfold says at h
  split at h
  · next h' => cases h; exact h'
  · cases h

theorem says_wf {p : Packet} {m : Message} (hv : ValidPacket p ∨ ∃ i, p = .invalid i)
    (h : says p = some m) : WfMessage m := by
  rcases hv with hv | ⟨i, rfl⟩
  · exact C19_parsed_wellformed p m hv (says_some h)
  · exact absurd (says_some h) (fun h => by cases h)

theorem messages_wf {b : Bytes} {ms : List Message} (h : Messages b ms) : ∀ m ∈ ms, WfMessage m := by
  obtain ⟨ps, left, d, rfl⟩ := h
  intro m hm
  obtain ⟨p, hp, e⟩ := List.mem_filterMap.mp hm
  exact says_wf ((drains_all_valid d).2.2 p hp) e

theorem messages_one {b : Bytes} {ms ms' : List Message} (h : Messages b ms) (h' : Messages b ms') :
    ms = ms' := by
  obtain ⟨ps, left, d, rfl⟩ := h
  obtain ⟨ps', left', d', rfl⟩ := h'
  rw [(drains_unique d d').1]

/-- The packets that the relay writes. -/
def anew (ms : List Message) : List Packet := ms.map fun m => .ascii ⟨sentText m⟩

theorem anew_valid {ms : List Message} (hw : ∀ m ∈ ms, WfMessage m) :
    ∀ p ∈ anew ms, ValidPacket p := by
  intro p hp
  obtain ⟨m, hm, rfl⟩ := List.mem_map.mp hp
  exact sentText_valid (hw m hm)

theorem anew_toPkt {ms : List Message} (hw : ∀ m ∈ ms, WfMessage m) :
    ms.mapM Message.toPkt = .ok (anew ms) := by
  induction ms with
  | nil => rfl
  | cons m ms ih =>
    rw [List.mapM_cons, toPkt_eq (hw m List.mem_cons_self), bind_ok,
      ih fun n hn => hw n (List.mem_cons_of_mem _ hn)]
    rfl

theorem anew_says {ms : List Message} (hw : ∀ m ∈ ms, WfMessage m) :
    (anew ms).filterMap says = ms := by
  induction ms with
  | nil => rfl
  | cons m ms ih =>
    have h1 : says (.ascii ⟨sentText m⟩) = some m := by
      unfold says
      rw [parse_sent (hw m List.mem_cons_self)]
    show (Packet.ascii ⟨sentText m⟩ :: anew ms).filterMap says = _
    rw [List.filterMap_cons_some h1, ih fun n hn => hw n (List.mem_cons_of_mem _ hn)]

theorem relayed_iff {b out : Bytes} {ms : List Message} (h : Messages b ms) :
    Relayed b out ↔ out = ((anew ms).map wire).flatten := by
  have hw := messages_wf h
  constructor
  · rintro ⟨ms', qs, ws, h', h1, h2, rfl⟩
    cases messages_one h h'
    rw [anew_toPkt hw] at h1
    cases h1
    rw [mapM_wires _ (anew_valid hw)] at h2
    cases h2
    rfl
  · rintro rfl
    exact ⟨ms, _, _, h, anew_toPkt hw, mapM_wires _ (anew_valid hw), rfl⟩

/-- **C161** Whatever bytes come, there is just one thing for the relay to write: neither taking them
apart nor writing the messages fails. -/
theorem C161_writes (b : Bytes) : ∃ out, Relayed b out ∧ ∀ out', Relayed b out' → out' = out := by
  obtain ⟨ps, left, d, _⟩ := C05_drain_terminates b
  have h : Messages b _ := ⟨ps, left, d, rfl⟩
  exact ⟨_, (relayed_iff h).mpr rfl, fun out' h' => (relayed_iff h).mp h'⟩

/-- **C161** What the relay writes consists of valid packets, one for each message, which is the
message. -/
theorem C161_hears {b out : Bytes} (h : Relayed b out) {ms : List Message} (hm : Messages b ms) :
    ∃ qs, Drains out qs [] ∧ (∀ q ∈ qs, ValidPacket q) ∧ qs.map says = ms.map some := by
  have hw := messages_wf hm
  rw [(relayed_iff hm).mp h]
  refine ⟨_, drains_wires _ (anew_valid hw), anew_valid hw, ?_⟩
  unfold anew
  rw [List.map_map]
  refine List.map_congr_left fun m hmem => ?_
  show says (.ascii ⟨sentText m⟩) = some m
  unfold says
  rw [parse_sent (hw m hmem)]

theorem relayed_messages {b out : Bytes} (h : Relayed b out) {ms : List Message}
    (hm : Messages b ms) : Messages out ms := by
  have hw := messages_wf hm
  rw [(relayed_iff hm).mp h]
  exact ⟨_, _, drains_wires _ (anew_valid hw), (anew_says hw).symm⟩

/-- **C161** A relay behind a relay writes what it gets. -/
theorem C161_again {b out : Bytes} (h : Relayed b out) : Relayed out out := by
  obtain ⟨ms, _, _, hm, _⟩ := id h
  exact (relayed_iff (relayed_messages h hm)).mpr ((relayed_iff hm).mp h)

/-- **C161** The relay writes the same for two streams exactly if they contain the same messages. -/
theorem C161_normal {b b' out out' : Bytes} (h : Relayed b out) (h' : Relayed b' out')
    {ms ms' : List Message} (hm : Messages b ms) (hm' : Messages b' ms') :
    out = out' ↔ ms = ms' := by
  constructor
  · rintro rfl
    exact messages_one (relayed_messages h hm) (relayed_messages h' hm')
  · rintro rfl
    rw [(relayed_iff hm).mp h, (relayed_iff hm').mp h']

/-- **C161** When more bytes come, the relay goes on: what it has written stays. -/
theorem C161_grows {b c out out' : Bytes} (h : Relayed b out) (h' : Relayed (b ++ c) out') :
    ∃ more, out' = out ++ more := by
  obtain ⟨ps, left, d, _⟩ := C05_drain_terminates b
  obtain ⟨qs, left', d', _⟩ := C05_drain_terminates (left ++ c)
  have e1 := (relayed_iff ⟨ps, left, d, rfl⟩).mp h
  have e2 := (relayed_iff ⟨ps ++ qs, left', drains_append d d', rfl⟩).mp h'
  refine ⟨((anew (qs.filterMap says)).map wire).flatten, ?_⟩
  rw [e1, e2]
  unfold anew
  rw [List.filterMap_append, List.map_append, List.map_append, List.flatten_append]

/-- Non-vacuity: a change of a zone written in an unusual way, a fault, a message that is not
understood, and the start of another. -/
example : Relayed (bs "0AZC+16200CE\r\n06as00??\r\n08XX012322\r\n06as")
    (bs "0AZC016200C9\r\n") :=
  ⟨[sampleMsg], [.ascii ⟨bs "ZC016200"⟩], [bs "0AZC016200C9\r\n"],
    ⟨_, _, .step (by rfl) (.step (by rfl) (.step (by rfl) (.stop (by rfl)))), by rfl⟩,
    by rfl, by rfl, by rfl⟩

/-! ## What is shown behind the relay -/

open Classical in
theorem gist_says {ps : List Packet} (hv : ∀ p ∈ ps, ValidPacket p ∨ ∃ i, p = .invalid i) :
    Gist ps ((ps.filterMap says).filter fun m => decide (Counting m)) := by
  induction ps with
  | nil => exact .nil
  | cons pkt ps ih =>
    have g := ih fun p hp => hv p (List.mem_cons_of_mem _ hp)
    obtain ⟨m1, m2, m3⟩ := means_of_parse (hv pkt List.mem_cons_self)
    match hp : Message.parse pkt with
    | .ok none =>
      have hs : says pkt = none := by unfold says; rw [hp]
      rw [List.filterMap_cons_none hs]
      exact .skip (m3 hp) (fun _ h => (by cases h)) g
    | .ok (some m) =>
      have hs : says pkt = some m := by unfold says; rw [hp]
      rw [List.filterMap_cons_some hs]
      by_cases ht : Counting m
      · rw [List.filter_cons_of_pos (by simpa using ht)]
        exact .tells (m1 m hp) ht g
      · rw [List.filter_cons_of_neg (by simpa using ht)]
        exact .skip (m1 m hp) (fun _ h => (by cases h; exact ht)) g
    | .error (.err e) =>
      have hs : says pkt = none := by unfold says; rw [hp]
      rw [List.filterMap_cons_none hs]
      exact .skip (m2 e hp) (fun _ h => (by cases h)) g
    | .error (.panic q) => exact absurd hp (C18_parse_never_panics pkt q)

open Classical in
theorem gist_messages {b : Bytes} {ms : List Message} (h : Messages b ms) :
    GistBytes b (ms.filter fun m => decide (Counting m)) := by
  obtain ⟨ps, left, d, rfl⟩ := h
  obtain ⟨t, w, v⟩ := drains_all_valid d
  exact ⟨ps, left, t, w, gist_says v⟩

/-- **C161** The gist of what the relay writes is that of what it gets. -/
theorem C161_gist {b out : Bytes} (h : Relayed b out) {ms : List Message} :
    GistBytes out ms ↔ GistBytes b ms := by
  obtain ⟨ns, _, _, hn, _⟩ := id h
  have g := gist_messages hn
  have g' := gist_messages (relayed_messages h hn)
  constructor
  · intro k; rw [C159_one k g']; exact g
  · intro k; rw [C159_one k g]; exact g'

/-- **C161** A settled session behind the relay shows what one with the panel itself shows. -/
theorem C161_shown {p q : Panel} (sp : Session p) (sq : Session q) (hp : SettledSession sp)
    (hq : SettledSession sq) (h : Relayed p.conn.sock.received q.conn.sock.received) :
    SameViews p q := by
  obtain ⟨ms, g⟩ := C159_exists p.conn.sock.received
  exact C159_settled sp sq hp hq g ((C161_gist h).mpr g)

/-- **C161** It has told the same changes of zones. -/
theorem C161_zones {p q : Panel} (sp : Session p) (sq : Session q)
    (h : Relayed p.conn.sock.received q.conn.sock.received)
    (wp : Spec.Waits p.conn.rd.buffer) (wq : Spec.Waits q.conn.rd.buffer) :
    zonesTold (events sp.outs') = zonesTold (events sq.outs') := by
  obtain ⟨ms, g⟩ := C159_exists p.conn.sock.received
  exact C159_zones sp sq g ((C161_gist h).mpr g) wp wq

/-- **C161** The broker retains the same of an idle bridge behind the relay as of one that is connected
to the panel itself. -/
theorem C161_retained {cfg : Cfg} (hm : MapCfg cfg) (hd : DistinctNames cfg) {b b' : Bridge}
    (s : Service cfg b) (s' : Service cfg b') (hi : Idle s) (hi' : Idle s')
    (h : Relayed b.panel.conn.sock.received b'.panel.conn.sock.received) (t : Bytes) :
    retained b.log t = retained b'.log t := by
  obtain ⟨ms, g⟩ := C159_exists b.panel.conn.sock.received
  exact C159_retained hm hd s s' hi hi' g ((C161_gist h).mpr g) t

/-- **C161** And `watch` logs the same lines on zones. -/
theorem C161_lines {w w' : Watch} (s : Sentry w) (s' : Sentry w')
    (h : Relayed w.panel.conn.sock.received w'.panel.conn.sock.received)
    (hw : Spec.Waits w.panel.conn.rd.buffer) (hw' : Spec.Waits w'.panel.conn.rd.buffer) :
    zoneLines (logged s.obs) = zoneLines (logged s'.obs) := by
  obtain ⟨ms, g⟩ := C159_exists w.panel.conn.sock.received
  exact C159_lines s s' g ((C161_gist h).mpr g) hw hw'

/-! ## Not vacuous -/

/-- What the relay does, step by step. -/
def relayRun (b : Bytes) : P Bytes := do
  let r ← Cli.readLoop (b.length + 1) b
  let qs ← (r.1.filterMap says).mapM Message.toPkt
  let ws ← qs.mapM Packet.encode
  .ok ws.flatten

theorem relayRun_relayed {b out : Bytes} (h : relayRun b = .ok out) : Relayed b out := by
  obtain ⟨ps, left, d, _⟩ := C05_drain_terminates b
  have hm : Messages b _ := ⟨ps, left, d, rfl⟩
  have hw := messages_wf hm
  unfold relayRun at h
  rw [readLoop_drains d _ (Nat.lt_succ_self _), bind_ok, anew_toPkt hw, bind_ok,
    mapM_wires _ (anew_valid hw), bind_ok] at h
  cases h
  exact (relayed_iff hm).mpr rfl

/-- `noisyNews` without the bytes that are no packet. -/
def cleanNews : Bytes :=
  msgBytes (.armingStatusReport (sameReport .armedAway .armedWithExitTimer)) ++
  msgBytes (.taskChange ⟨1⟩) ++
  msgBytes (.armingStatusReport (sameReport .armedAway .armedFully)) ++
  msgBytes (.zoneChange ⟨⟨1⟩, ⟨2⟩⟩) ++ msgBytes (.taskChange ⟨2⟩)

theorem clean_relayed : Relayed (sampleDialogue ++ noisyNews) (sampleDialogue ++ cleanNews) := by
  have h : (match relayRun (sampleDialogue ++ noisyNews) with
      | .ok out => decide (out = sampleDialogue ++ cleanNews)
      | .error _ => false) = true := by decide +kernel
  split at h
  · next e =>
      rw [decide_eq_true_eq] at h
      exact relayRun_relayed (e.trans (congrArg Except.ok h))
  · cases h

/-- A `watch` that is connected to the panel and one that is behind the relay, which have logged that an
area was armed and a zone changed. -/
example : ∃ w w', ∃ s : Sentry w, ∃ s' : Sentry w',
    w.panel.conn.sock.received ≠ w'.panel.conn.sock.received ∧
    Relayed w.panel.conn.sock.received w'.panel.conn.sock.received ∧
    Spec.Waits w.panel.conn.rd.buffer ∧ Spec.Waits w'.panel.conn.rd.buffer ∧
    (logged s.obs).length = 17 ∧ s'.obs.length < s.obs.length := by
  obtain ⟨w, s, a⟩ := sentry_of (ops := sampleConnect)
    (later := .arrive (.data noisyNews) :: List.replicate 8 (.tick ⟨1, 0, 0⟩))
    (f := fun r => decide (r.2.panel.conn.rd.buffer = [] ∧
      r.2.panel.conn.sock.received = sampleDialogue ++ noisyNews ∧ (logged r.1).length = 17 ∧
      r.1.length = 9)) (by decide +kernel)
  obtain ⟨w', s', b⟩ := sentry_of (ops := sampleConnect)
    (later := .arrive (.data cleanNews) :: List.replicate 6 (.tick ⟨1, 0, 0⟩))
    (f := fun r => decide (r.2.panel.conn.rd.buffer = [] ∧
      r.2.panel.conn.sock.received = sampleDialogue ++ cleanNews ∧ r.1.length = 7))
    (by decide +kernel)
  rw [decide_eq_true_eq] at a b
  refine ⟨w, w', s, s', ?_, ?_, waits_nil a.1, waits_nil b.1, a.2.2.1,
    by have := a.2.2.2; have := b.2.2; dsimp only at *; omega⟩
  · rw [a.2.1, b.2.1]
    intro e
    have := List.append_cancel_left e
    revert this
    decide +kernel
  · rw [a.2.1, b.2.1]
    exact clean_relayed

end Elk.Props
