import Verif.Lemmas.Home
import Verif.Props.Site
/-!
# Commands are carried out under every fair schedule (C104)
-/

namespace Elk.Props
open Elk.Spec

/-! ## The invariant -/

/-- A command to arm or disarm. -/
def IsArm (c : Command) : Prop := ∃ q, c = .arm q

/-- What is known of the bridge and of the line: `reqs` are the commands under way to the panel,
`msgs` the messages under way to the bridge. -/
structure Wires (h : Home) (reqs : List Command) (msgs : List Message) : Prop where
  good : BGood h.bridge
  distinct : DistinctNames h.bridge.cfg
  sound : Sound h.bridge.panel.conn.rd
  data : OnlyData h.bridge.panel.conn.sock.incoming
  takes : OnlyTakes h.bridge.panel.conn.sock.writes
  told : inHand h.bridge.panel ++ h.line = msgs.flatMap frame
  asked : h.bridge.panel.conn.sock.sent.drop h.taken ++ h.bridge.panel.conn.wbuf =
    reqs.flatMap commandBytes
  taken : h.taken ≤ h.bridge.panel.conn.sock.sent.length
  wf : ∀ m ∈ msgs, WfMessage m
  noZones : ∀ m ∈ msgs, ∀ r, m ≠ .zoneStatusReport r
  cmds : ∀ c ∈ reqs, WfCommand c
  tail : ∀ pre c, reqs = pre ++ [c] → h.bridge.panel.conn.wbuf.length ≤ (commandBytes c).length

/-- What has been said and what has been heard. -/
structure Books (h : Home) (reqs : List Command) (msgs : List Message) : Prop where
  said : toldTo h.obs ++ msgs = h.said
  heard : h.heard ++ reqs.map commandBytes = (given h.obs).map commandBytes

/-- A reply will come. -/
def Coming (reqs : List Command) (msgs : List Message) : Prop :=
  reqs ≠ [] ∨ ∃ r, .sendCode r ∈ msgs

/-- How far the bridge is with a command. -/
inductive AtStage (h : Home) (reqs : List Command) (msgs : List Message) : Nat → Prop
  | quiet : h.bridge.inbox = [] → h.bridge.waiting = .select → h.bridge.panel.cmdState = .idle →
      h.posted = given h.obs → AtStage h reqs msgs 4
  | posted (p c) : h.bridge.inbox = [p] → h.bridge.waiting = .select →
      h.bridge.panel.cmdState = .idle →
      commandFor h.bridge.cfg.prefix h.bridge.code p h.bridge.cfg.elk.areas = .ok (some c) →
      IsArm c → h.posted = given h.obs ++ [c] → AtStage h reqs msgs 3
  | ready (c) : h.bridge.inbox = [] → h.bridge.waiting = .ready c →
      h.bridge.panel.cmdState = .idle → IsArm c → h.posted = given h.obs ++ [c] →
      AtStage h reqs msgs 2
  | flush (q) : h.bridge.inbox = [] → h.bridge.waiting = .flush →
      h.bridge.panel.cmdState = .busy (.armRequest q) false none → Coming reqs msgs →
      h.posted = given h.obs → AtStage h reqs msgs 1
  | await (q w) : h.bridge.inbox = [] → h.bridge.waiting = .select →
      h.bridge.panel.cmdState = .busy (.armRequest q) true w → Coming reqs msgs →
      h.posted = given h.obs → AtStage h reqs msgs 0

/-- What is known of bridge, line, panel and broker. -/
structure HomeInv (h : Home) (reqs : List Command) (msgs : List Message) (k : Nat) : Prop where
  wires : Wires h reqs msgs
  books : Books h reqs msgs
  stage : AtStage h reqs msgs k
  asleep : ∀ w, h.asleep = some w →
    (k = 1 ∧ h.bridge.panel.conn.wbuf ≠ [] ∧ h.bridge.panel.conn.sock.writes = [] ∧
      h.bridge.panel.conn.sock.writeWaker = some w) ∨
    ((k = 0 ∨ k = 4) ∧ h.bridge.panel.conn.sock.readWaker = some w ∧ Awaits h.bridge.panel msgs)

/-! ## The distance -/

/-- The number of bytes that have to arrive before the next message is complete. -/
def missing (p : Panel) : List Message → Nat
  | [] => 0
  | m :: _ => (frame m).length - (inHand p).length

/-- How far it is to the next stage, or the next message. -/
def toGo (p : Panel) (msgs : List Message) : Nat → Nat
  | 1 => 2 * p.conn.wbuf.length + if p.conn.sock.writes = [] then 1 else 0
  | 2 => 0
  | 3 => 0
  | _ => missing p msgs

/-- Who can bring it nearer. -/
def aide (p : Panel) (msgs : List Message) : Nat → Who
  | 1 => if p.conn.wbuf = [] ∨ p.conn.sock.writes ≠ [] then .library else .socket
  | 2 => .library
  | 3 => .library
  | _ => if missing p msgs = 0 then .library else .line

theorem missing_cons (p : Panel) (m : Message) (t : List Message) :
    missing p (m :: t) = (frame m).length - (inHand p).length := rfl

theorem toGo_one (p : Panel) (msgs : List Message) : toGo p msgs 1 =
    2 * p.conn.wbuf.length + if p.conn.sock.writes = [] then 1 else 0 := rfl

theorem toGo_idle {k : Nat} (hk : k = 0 ∨ k = 4) (p : Panel) (msgs : List Message) :
    toGo p msgs k = missing p msgs := by
  rcases hk with rfl | rfl <;> rfl

theorem aide_one (p : Panel) (msgs : List Message) : aide p msgs 1 =
    if p.conn.wbuf = [] ∨ p.conn.sock.writes ≠ [] then .library else .socket := rfl

theorem aide_two (p : Panel) (msgs : List Message) : aide p msgs 2 = .library := rfl

theorem aide_three (p : Panel) (msgs : List Message) : aide p msgs 3 = .library := rfl

theorem aide_idle {k : Nat} (hk : k = 0 ∨ k = 4) (p : Panel) (msgs : List Message) :
    aide p msgs k = if missing p msgs = 0 then .library else .line := by
  rcases hk with rfl | rfl <;> rfl

theorem aide_chance (p : Panel) (msgs : List Message) (k : Nat) : aide p msgs k ≠ .chance := by
  unfold aide
  split
  · split <;> decide
  · decide
  · decide
  · split <;> decide

theorem aide_panel (p : Panel) (msgs : List Message) (k : Nat) : .panel ≠ aide p msgs k := by
  unfold aide
  split
  · split <;> decide
  · decide
  · decide
  · split <;> decide

/-- What one thing that happens brings. -/
inductive Near (w : Who) (h : Home) (msgs : List Message) (k : Nat) (h' : Home)
    (msgs' : List Message) (k' : Nat) : Prop
  /-- the next stage -/
  | down : k' < k → Near w h msgs k h' msgs' k'
  /-- a message is read -/
  | read (m) : toldTo h'.obs = toldTo h.obs ++ [m] → k' = k → k ≠ 1 ∧ k ≠ 2 →
      (k = 3 → w ≠ .library) →
      (k = 0 → ∀ r, m ≠ .sendCode r) → Near w h msgs k h' msgs' k'
  /-- the reply is read -/
  | reply (m) : toldTo h'.obs = toldTo h.obs ++ [m] → k = 0 → k' = 4 → Near w h msgs k h' msgs' k'
  /-- it comes nearer -/
  | nearer : k' = k → toldTo h'.obs = toldTo h.obs →
      toGo h'.bridge.panel msgs' k < toGo h.bridge.panel msgs k → Near w h msgs k h' msgs' k'
  /-- nothing is under way to the bridge -/
  | nothing : k' = k → toldTo h'.obs = toldTo h.obs → k = 0 ∨ k = 4 → msgs = [] →
      Near w h msgs k h' msgs' k'
  /-- someone who cannot help acts -/
  | stay : k' = k → toldTo h'.obs = toldTo h.obs →
      toGo h'.bridge.panel msgs' k = toGo h.bridge.panel msgs k →
      aide h'.bridge.panel msgs' k = aide h.bridge.panel msgs k → w ≠ aide h.bridge.panel msgs k →
      Near w h msgs k h' msgs' k'

/-- What one thing that happens does to the books. -/
structure Grows (w : Who) (h : Home) (reqs : List Command) (k : Nat) (h' : Home) (k' : Nat) :
    Prop where
  given : given h.obs <+: given h'.obs
  said : h.said <+: h'.said
  heard : h.heard <+: h'.heard
  posted : h.posted <+: h'.posted
  told : k' < k → toldTo h'.obs = toldTo h.obs
  same : k = 0 → Elk.Spec.given h'.obs = Elk.Spec.given h.obs
  flush : k' = 1 → k = 1 ∨ (Elk.Spec.given h.obs).length < (Elk.Spec.given h'.obs).length
  panel : w = .panel → (k ≠ 1 ∧ reqs ≠ []) ∨ 2 ≤ reqs.length → h.heard.length < h'.heard.length

/-- What is known after one thing has happened. -/
def Then (w : Who) (h : Home) (reqs : List Command) (msgs : List Message) (k : Nat) (h' : Home) :
    Prop :=
  ∃ reqs' msgs' k', HomeInv h' reqs' msgs' k' ∧ Near w h msgs k h' msgs' k' ∧ Grows w h reqs k h' k'

theorem stage_le {h : Home} {reqs : List Command} {msgs : List Message} {k : Nat}
    (hs : AtStage h reqs msgs k) : k ≤ 4 := by
  cases hs <;> decide

theorem stage_wbuf {h : Home} {reqs : List Command} {msgs : List Message} {k : Nat}
    (hg : BGood h.bridge) (hs : AtStage h reqs msgs k) (hk : k ≠ 1) :
    h.bridge.panel.conn.wbuf = [] := by
  refine hg.empty ?_
  cases hs with
  | quiet _ h => rw [h]; simp
  | posted _ _ _ h => rw [h]; simp
  | ready _ _ h => rw [h]; simp
  | flush => exact absurd rfl hk
  | await _ _ _ h => rw [h]; simp

/-! ## The panel -/

theorem missing_more {p : Panel} {msgs more : List Message} (h : msgs ≠ []) :
    missing p (msgs ++ more) = missing p msgs := by
  cases msgs with
  | nil => exact absurd rfl h
  | cons m t => rfl

theorem near_more {w : Who} {h h' : Home} {msgs more : List Message} {k : Nat} (hk : k ≤ 4)
    (hw : w ≠ .library ∧ w ≠ .socket ∧ w ≠ .line) (hb : h'.bridge = h.bridge)
    (ho : h'.obs = h.obs) : Near w h msgs k h' (msgs ++ more) k := by
  have ha : w ≠ aide h.bridge.panel msgs k := by
    unfold aide
    split
    · split
      · exact hw.1
      · exact hw.2.1
    · exact hw.1
    · exact hw.1
    · split
      · exact hw.1
      · exact hw.2.2
  by_cases hm : msgs = [] ∧ (k = 0 ∨ k = 4)
  · exact .nothing rfl (by rw [ho]) hm.2 hm.1
  · refine .stay rfl (by rw [ho]) ?_ ?_ ha
    · rw [hb]
      match k, hk, hm with
      | 0, _, hm => exact missing_more fun h => hm ⟨h, .inl rfl⟩
      | 1, _, _ => rfl
      | 2, _, _ => rfl
      | 3, _, _ => rfl
      | 4, _, hm => exact missing_more fun h => hm ⟨h, .inr rfl⟩
    · rw [hb]
      have key : msgs ≠ [] → ∀ a b : Who, (if missing h.bridge.panel (msgs ++ more) = 0 then a
          else b) = if missing h.bridge.panel msgs = 0 then a else b := by
        intro h a b; rw [missing_more h]
      match k, hk, hm with
      | 0, _, hm => exact key (fun h => hm ⟨h, .inl rfl⟩) _ _
      | 1, _, _ => rfl
      | 2, _, _ => rfl
      | 3, _, _ => rfl
      | 4, _, hm => exact key (fun h => hm ⟨h, .inr rfl⟩) _ _

theorem short_more {h : Home} {reqs : List Command} {msgs more : List Message}
    (hw : Wires h reqs msgs) (hs : Awaits h.bridge.panel msgs) :
    Awaits h.bridge.panel (msgs ++ more) := by
  intro m t hm
  cases msgs with
  | nil =>
    have := congrArg List.length hw.told
    have h6 := frame_length m
    rw [List.length_append, List.flatMap_nil, List.length_nil] at this
    omega
  | cons x msgs =>
    cases hm
    exact hs _ _ rfl

theorem stage_more {h h' : Home} {reqs reqs' : List Command} {msgs more : List Message} {k : Nat}
    (hs : AtStage h reqs msgs k) (hb : h'.bridge = h.bridge) (ho : h'.obs = h.obs)
    (hp : h'.posted = h.posted) (hr : reqs ≠ [] → reqs' ≠ [] ∨ ∃ r, .sendCode r ∈ more) :
    AtStage h' reqs' (msgs ++ more) k := by
  have hc : Coming reqs msgs → Coming reqs' (msgs ++ more) := by
    rintro (hc | ⟨r, hc⟩)
    · rcases hr hc with h | ⟨r, h⟩
      · exact .inl h
      · exact .inr ⟨r, List.mem_append_right _ h⟩
    · exact .inr ⟨r, List.mem_append_left _ hc⟩
  cases hs with
  | quiet h1 h2 h3 h4 => exact .quiet (hb ▸ h1) (hb ▸ h2) (hb ▸ h3) (by rw [hp, ho]; exact h4)
  | posted p c h1 h2 h3 h4 h5 h6 =>
    exact .posted p c (hb ▸ h1) (hb ▸ h2) (hb ▸ h3) (hb ▸ h4) h5 (by rw [hp, ho]; exact h6)
  | ready c h1 h2 h3 h4 h5 =>
    exact .ready c (hb ▸ h1) (hb ▸ h2) (hb ▸ h3) h4 (by rw [hp, ho]; exact h5)
  | flush q h1 h2 h3 h4 h5 =>
    exact .flush q (hb ▸ h1) (hb ▸ h2) (hb ▸ h3) (hc h4) (by rw [hp, ho]; exact h5)
  | await q w h1 h2 h3 h4 h5 =>
    exact .await q w (hb ▸ h1) (hb ▸ h2) (hb ▸ h3) (hc h4) (by rw [hp, ho]; exact h5)

theorem snoc_prefix {α : Type} (l : List α) (x : α) : l <+: l ++ [x] := List.prefix_append _ _

theorem then_say {h : Home} {reqs : List Command} {msgs : List Message} {k : Nat} {m : Message}
    (hi : HomeInv h reqs msgs k) (hm : WfMessage m) (hz : ∀ r, m ≠ .zoneStatusReport r) :
    Then .chance h reqs msgs k { h with line := h.line ++ frame m, said := h.said ++ [m] } := by
  obtain ⟨hw, hb, hs, ha⟩ := hi
  refine ⟨reqs, msgs ++ [m], k, ⟨⟨hw.good, hw.distinct, hw.sound, hw.data, hw.takes, ?_, hw.asked,
    hw.taken, ?_, ?_, hw.cmds, hw.tail⟩, ⟨?_, hb.heard⟩, stage_more hs rfl rfl rfl (fun h => .inl h), ?_⟩,
    near_more (stage_le hs) ⟨by decide, by decide, by decide⟩ rfl rfl,
    ⟨List.prefix_refl _, snoc_prefix _ _, List.prefix_refl _, List.prefix_refl _,
      fun h => absurd h (Nat.lt_irrefl _), fun _ => rfl, fun h => .inl h, fun h => by cases h⟩⟩
  · show inHand _ ++ (h.line ++ frame m) = _
    rw [List.flatMap_append, ← hw.told]; simp
  · intro x hx
    rcases List.mem_append.mp hx with hx | hx
    · exact hw.wf x hx
    · rw [List.mem_singleton.mp hx]; exact hm
  · intro x hx
    rcases List.mem_append.mp hx with hx | hx
    · exact hw.noZones x hx
    · rw [List.mem_singleton.mp hx]; exact hz
  · show _ = h.said ++ [m]
    rw [← hb.said]; simp
  · intro w hwk
    rcases ha w hwk with h1 | ⟨h1, h2, h3⟩
    · exact .inl h1
    · exact .inr ⟨h1, h2, short_more (h := h) hw h3⟩

theorem then_answer {h : Home} {reqs : List Command} {msgs : List Message} {k : Nat} {r : SendCode}
    (hi : HomeInv h reqs msgs k) (hm : WfMessage (.sendCode r)) :
    ∃ h', h.step (.answer r) = .ok h' ∧ Then .panel h reqs msgs k h' := by
  obtain ⟨hw, hb, hs, ha⟩ := hi
  rcases firstLine_commands hw.cmds hw.asked with ⟨h1, h2⟩ | ⟨c, t, rfl, h1, h2, h3⟩
  · refine ⟨h, ?_, reqs, msgs, k, ⟨hw, hb, hs, ha⟩, ?_, ?_⟩
    · unfold Home.step
      dsimp only
      rw [h1]
    · exact .stay rfl rfl rfl rfl (aide_panel _ _ _)
    · refine ⟨List.prefix_refl _, List.prefix_refl _, List.prefix_refl _, List.prefix_refl _,
        fun h => absurd h (Nat.lt_irrefl _), fun _ => rfl, fun h => .inl h, fun _ hx => ?_⟩
      exfalso
      have hlen := congrArg List.length hw.asked
      rw [List.length_append] at hlen
      rcases hx with ⟨hk, hne⟩ | hlt
      · obtain ⟨c, t, rfl⟩ := List.exists_cons_of_ne_nil hne
        have := h2 c t rfl
        rw [stage_wbuf hw.good hs hk, List.flatMap_cons, List.length_append, List.length_nil] at hlen
        omega
      · match reqs, hlt with
        | c :: c' :: t, _ =>
          have hc := h2 c _ rfl
          obtain ⟨pre, d, hd⟩ : ∃ pre d, c' :: t = pre ++ [d] :=
            ⟨_, _, (List.dropLast_concat_getLast (List.cons_ne_nil c' t)).symm⟩
          have ht := hw.tail (c :: pre) d (by rw [hd]; rfl)
          rw [hd, List.flatMap_cons, List.flatMap_append, List.flatMap_cons, List.length_append,
            List.length_append, List.length_append] at hlen
          omega
  · refine ⟨{ h with
        taken := h.taken + (commandBytes c).length
        heard := h.heard ++ [commandBytes c]
        line := h.line ++ frame (.sendCode r)
        said := h.said ++ [.sendCode r] }, by unfold Home.step; dsimp only; rw [h1], t, msgs ++ [.sendCode r], k,
      ⟨⟨hw.good, hw.distinct, hw.sound, hw.data, hw.takes, ?_, ?_, ?_, ?_, ?_, ?_, ?_⟩,
        ⟨?_, ?_⟩,
        stage_more hs rfl rfl rfl (fun _ => .inr ⟨r, by simp⟩), ?_⟩,
      near_more (stage_le hs) ⟨by decide, by decide, by decide⟩ rfl rfl,
      ⟨List.prefix_refl _, snoc_prefix _ _, snoc_prefix _ _, List.prefix_refl _,
        fun h => absurd h (Nat.lt_irrefl _), fun _ => rfl, fun h => .inl h, fun _ _ => ?_⟩⟩
    · show inHand _ ++ (h.line ++ frame _) = _
      rw [List.flatMap_append, ← hw.told]; simp
    · show List.drop (h.taken + _) _ ++ _ = _
      rw [← h2, List.drop_drop]
    · show h.taken + _ ≤ h.bridge.panel.conn.sock.sent.length
      rw [List.length_drop] at h3
      have := hw.taken
      omega
    · intro x hx
      rcases List.mem_append.mp hx with hx | hx
      · exact hw.wf x hx
      · rw [List.mem_singleton.mp hx]; exact hm
    · intro x hx
      rcases List.mem_append.mp hx with hx | hx
      · exact hw.noZones x hx
      · rw [List.mem_singleton.mp hx]; simp
    · exact fun x hx => hw.cmds x (List.mem_cons_of_mem _ hx)
    · intro pre d hd
      exact hw.tail (c :: pre) d (by rw [hd]; rfl)
    · show _ = h.said ++ [_]
      rw [← hb.said]; simp
    · show h.heard ++ [_] ++ _ = _
      rw [← hb.heard]; simp
    · intro w hwk
      rcases ha w hwk with h1 | ⟨h1, h2, h3⟩
      · exact .inl h1
      · exact .inr ⟨h1, h2, short_more (h := h) hw h3⟩
    · show _ < (h.heard ++ [_]).length
      simp

/-! ## Line, socket, broker -/

theorem act_ok {h : Home} {op o b} (hs : h.bridge.step op = .ok (o, b)) : h.act op =
    .ok { h with bridge := b, obs := h.obs ++ [o], asleep := dozes h.asleep op o } := by
  unfold Home.act
  rw [hs]

theorem toldTo_snoc (obs : List BObs) (o : BObs) :
    toldTo (obs ++ [o]) = toldTo obs ++ toldTo [o] := by
  unfold toldTo handled
  rw [List.filterMap_append, List.filterMap_append]

theorem given_snoc (obs : List BObs) (o : BObs) :
    given (obs ++ [o]) = given obs ++ given [o] := by
  unfold given
  rw [List.filterMap_append]

/-- Nothing was read, and no command was handed over. -/
theorem quiet_obs {obs : List BObs} {o : BObs} (h1 : toldTo [o] = []) (h2 : given [o] = []) :
    toldTo (obs ++ [o]) = toldTo obs ∧ given (obs ++ [o]) = given obs := by
  rw [toldTo_snoc, given_snoc, h1, h2, List.append_nil, List.append_nil]
  exact ⟨rfl, rfl⟩

/-- The books after a step that reads nothing and hands over nothing. -/
theorem books_same {h h' : Home} {reqs : List Command} {msgs : List Message}
    (hb : Books h reqs msgs) (h1 : toldTo h'.obs = toldTo h.obs) (h2 : given h'.obs = given h.obs)
    (h3 : h'.said = h.said) (h4 : h'.heard = h.heard) : Books h' reqs msgs :=
  ⟨by rw [h1, h3]; exact hb.said, by rw [h2, h4]; exact hb.heard⟩

theorem grows_same {w : Who} {h h' : Home} {reqs : List Command} {k k' : Nat}
    (h1 : toldTo h'.obs = toldTo h.obs) (h2 : given h'.obs = given h.obs)
    (h3 : h'.said = h.said) (h4 : h'.heard = h.heard) (h5 : h.posted <+: h'.posted)
    (hk : k' = 1 → k = 1) (hw : w ≠ .panel) : Grows w h reqs k h' k' :=
  ⟨by rw [h2]; exact List.prefix_refl _, by rw [h3]; exact List.prefix_refl _,
    by rw [h4]; exact List.prefix_refl _, h5, fun _ => h1, fun _ => h2, fun h => .inl (hk h),
    fun h => absurd h hw⟩

theorem then_wake {h : Home} {reqs : List Command} {msgs : List Message} {k : Nat}
    (hi : HomeInv h reqs msgs k) : Then .chance h reqs msgs k { h with asleep := none } := by
  obtain ⟨hw, hb, hs, ha⟩ := hi
  refine ⟨reqs, msgs, k, ⟨⟨hw.good, hw.distinct, hw.sound, hw.data, hw.takes, hw.told, hw.asked,
    hw.taken, hw.wf, hw.noZones, hw.cmds, hw.tail⟩, ⟨hb.said, hb.heard⟩, ?_,
    fun w h => by cases h⟩, .stay rfl rfl rfl rfl (aide_chance _ _ _).symm,
    grows_same rfl rfl rfl rfl (List.prefix_refl _) id (by decide)⟩
  cases hs with
  | quiet h1 h2 h3 h4 => exact .quiet h1 h2 h3 h4
  | posted p c h1 h2 h3 h4 h5 h6 => exact .posted p c h1 h2 h3 h4 h5 h6
  | ready c h1 h2 h3 h4 h5 => exact .ready c h1 h2 h3 h4 h5
  | flush q h1 h2 h3 h4 h5 => exact .flush q h1 h2 h3 h4 h5
  | await q w h1 h2 h3 h4 h5 => exact .await q w h1 h2 h3 h4 h5

/-- The stage after something that does not concern it. -/
theorem stage_same {h h' : Home} {reqs : List Command} {msgs : List Message} {k : Nat}
    (hs : AtStage h reqs msgs k) (h1 : h'.bridge.inbox = h.bridge.inbox)
    (h2 : h'.bridge.waiting = h.bridge.waiting)
    (h3 : h'.bridge.panel.cmdState = h.bridge.panel.cmdState)
    (h4 : h'.bridge.cfg = h.bridge.cfg) (h5 : h'.bridge.code = h.bridge.code)
    (h6 : given h'.obs = given h.obs) (h7 : h'.posted = h.posted) : AtStage h' reqs msgs k := by
  cases hs with
  | quiet g1 g2 g3 g4 =>
    exact .quiet (h1.trans g1) (h2.trans g2) (h3.trans g3) (by rw [h6, h7]; exact g4)
  | posted p c g1 g2 g3 g4 g5 g6 =>
    exact .posted p c (h1.trans g1) (h2.trans g2) (h3.trans g3) (by rw [h4, h5]; exact g4) g5
      (by rw [h6, h7]; exact g6)
  | ready c g1 g2 g3 g4 g5 =>
    exact .ready c (h1.trans g1) (h2.trans g2) (h3.trans g3) g4 (by rw [h6, h7]; exact g5)
  | flush q g1 g2 g3 g4 g5 =>
    exact .flush q (h1.trans g1) (h2.trans g2) (h3.trans g3) g4 (by rw [h6, h7]; exact g5)
  | await q w g1 g2 g3 g4 g5 =>
    exact .await q w (h1.trans g1) (h2.trans g2) (h3.trans g3) g4 (by rw [h6, h7]; exact g5)

theorem then_accept {h : Home} {reqs : List Command} {msgs : List Message} {k n : Nat}
    (hi : HomeInv h reqs msgs k) :
    ∃ h', h.step (.accept n) = .ok h' ∧ Then .socket h reqs msgs k h' := by
  obtain ⟨hw, hb, hs, ha⟩ := hi
  have hst : h.bridge.step (.writable (.accept (n + 1))) =
      .ok (.env h.bridge.panel.conn.sock.writeWaker.toList, { h.bridge with
        panel := { h.bridge.panel with
          conn := (h.bridge.panel.conn.writable (.accept (n + 1))).2 } }) := rfl
  obtain ⟨o1, o2⟩ := quiet_obs (obs := h.obs)
    (o := .env h.bridge.panel.conn.sock.writeWaker.toList) rfl rfl
  refine ⟨_, act_ok hst, reqs, msgs, k, ⟨⟨bcase_good (bstep_cases hst) hw.good, hw.distinct,
    hw.sound, hw.data, ?_, hw.told, hw.asked, hw.taken, hw.wf, hw.noZones, hw.cmds, hw.tail⟩,
    books_same hb o1 o2 rfl rfl, stage_same hs rfl rfl rfl rfl rfl o2 rfl, ?_⟩, ?_,
    grows_same o1 o2 rfl rfl (List.prefix_refl _) id (by decide)⟩
  · intro w hw'
    rcases List.mem_append.mp hw' with hw' | hw'
    · exact hw.takes w hw'
    · exact ⟨n, List.mem_singleton.mp hw'⟩
  · intro w hw'
    have hw' : (if h.asleep.any fun w => h.bridge.panel.conn.sock.writeWaker.toList.contains w
      then none else h.asleep) = some w := hw'
    split at hw'
    · cases hw'
    · rename_i hno
      rcases ha w hw' with ⟨_, _, _, h1⟩ | h1
      · rw [hw', h1] at hno
        simp at hno
      · exact .inr h1
  · have hne : (h.bridge.panel.conn.writable (.accept (n + 1))).2.sock.writes ≠ [] := by
      show h.bridge.panel.conn.sock.writes ++ [_] ≠ []
      simp
    have hwb : (h.bridge.panel.conn.writable (.accept (n + 1))).2.wbuf = h.bridge.panel.conn.wbuf :=
      rfl
    match k, stage_le hs with
    | 0, _ =>
      refine .stay rfl o1 rfl rfl ?_
      rw [aide_idle (.inl rfl)]
      split <;> decide
    | 1, _ =>
      by_cases hwr : h.bridge.panel.conn.sock.writes = []
      · refine .nearer rfl o1 ?_
        rw [toGo_one, toGo_one, if_neg hne, if_pos hwr]
        exact Nat.lt_succ_self _
      · refine .stay rfl o1 ?_ ?_ ?_
        · rw [toGo_one, toGo_one, if_neg hne, if_neg hwr, hwb]
        · rw [aide_one, aide_one, if_pos (Or.inr hne), if_pos (Or.inr hwr)]
        · rw [aide_one, if_pos (Or.inr hwr)]; decide
    | 2, _ => exact .stay rfl o1 rfl rfl (by rw [aide_two]; decide)
    | 3, _ => exact .stay rfl o1 rfl rfl (by rw [aide_three]; decide)
    | 4, _ =>
      refine .stay rfl o1 rfl rfl ?_
      rw [aide_idle (.inr rfl)]
      split <;> decide

theorem then_deliver {h : Home} {reqs : List Command} {msgs : List Message} {k n : Nat}
    (hi : HomeInv h reqs msgs k) :
    ∃ h', h.step (.deliver n) = .ok h' ∧ Then .line h reqs msgs k h' := by
  have hi' := hi
  obtain ⟨hw, hb, hs, ha⟩ := hi
  by_cases hl : h.line = []
  · refine ⟨h, if_pos hl, reqs, msgs, k, hi', .stay rfl rfl rfl rfl ?_,
      grows_same rfl rfl rfl rfl (List.prefix_refl _) id (by decide)⟩
    have ht := hw.told
    rw [hl, List.append_nil] at ht
    have hm : missing h.bridge.panel msgs = 0 := by
      cases msgs with
      | nil => rfl
      | cons m t =>
        rw [missing_cons, ht, List.flatMap_cons, List.length_append]
        omega
    unfold aide
    split
    · split <;> decide
    · decide
    · decide
    · rw [if_pos hm]; decide
  · have hst : h.bridge.step (.arrive (.data (h.line.take (n + 1)))) =
        .ok (.env h.bridge.panel.conn.sock.readWaker.toList, { h.bridge with
          panel := { h.bridge.panel with
            conn := (h.bridge.panel.conn.arrive (.data (h.line.take (n + 1)))).2 } }) := rfl
    have hpos : 0 < (h.line.take (n + 1)).length := by
      have := List.length_pos_iff.mpr hl
      rw [List.length_take]
      omega
    have hd : inHand { h.bridge.panel with
        conn := (h.bridge.panel.conn.arrive (.data (h.line.take (n + 1)))).2 } =
        inHand h.bridge.panel ++ h.line.take (n + 1) := by
      show h.bridge.panel.conn.rd.buffer ++ dataOf (h.bridge.panel.conn.sock.incoming ++ _) = _
      rw [data_snoc, ← List.append_assoc]
      rfl
    obtain ⟨o1, o2⟩ := quiet_obs (obs := h.obs)
      (o := .env h.bridge.panel.conn.sock.readWaker.toList) rfl rfl
    refine ⟨_, (if_neg hl).trans (act_ok (h := { h with line := h.line.drop (n + 1) }) hst), reqs,
      msgs, k, ⟨⟨bcase_good (bstep_cases hst) hw.good, hw.distinct,
      hw.sound, ?_, hw.takes, ?_, hw.asked, hw.taken, hw.wf, hw.noZones, hw.cmds, hw.tail⟩,
      books_same hb o1 o2 rfl rfl, stage_same hs rfl rfl rfl rfl rfl o2 rfl, ?_⟩, ?_,
      grows_same o1 o2 rfl rfl (List.prefix_refl _) id (by decide)⟩
    · intro w hw'
      rcases List.mem_append.mp hw' with hw' | hw'
      · exact hw.data w hw'
      · exact ⟨_, List.mem_singleton.mp hw', List.length_pos_iff.mp hpos⟩
    · show inHand { h.bridge.panel with conn := _ } ++ _ = _
      rw [hd, ← hw.told]
      simp
    · intro w hw'
      have hw' : (if h.asleep.any fun w => h.bridge.panel.conn.sock.readWaker.toList.contains w
        then none else h.asleep) = some w := hw'
      split at hw'
      · cases hw'
      · rename_i hno
        rcases ha w hw' with h1 | ⟨_, h1, _⟩
        · exact .inl h1
        · rw [hw', h1] at hno
          simp at hno
    · have hmis : ∀ m t, msgs = m :: t → missing { h.bridge.panel with
          conn := (h.bridge.panel.conn.arrive (.data (h.line.take (n + 1)))).2 } msgs =
          missing h.bridge.panel msgs - (h.line.take (n + 1)).length := by
        intro m t hm
        subst hm
        rw [missing_cons, missing_cons, hd, List.length_append, Nat.sub_add_eq]
      have key : k = 0 ∨ k = 4 → Near .line h msgs k { h with
          line := h.line.drop (n + 1), bridge := { h.bridge with
            panel := { h.bridge.panel with
              conn := (h.bridge.panel.conn.arrive (.data (h.line.take (n + 1)))).2 } },
          obs := h.obs ++ [.env h.bridge.panel.conn.sock.readWaker.toList],
          asleep := dozes h.asleep (.arrive (.data (h.line.take (n + 1))))
            (.env h.bridge.panel.conn.sock.readWaker.toList) } msgs k := by
        intro hk
        cases msgs with
        | nil => exact .nothing rfl o1 hk rfl
        | cons m t =>
          have hmm := hmis m t rfl
          by_cases h0 : missing h.bridge.panel (m :: t) = 0
          · rw [h0, Nat.zero_sub] at hmm
            refine .stay rfl o1 ?_ ?_ ?_
            · rw [toGo_idle hk, toGo_idle hk, h0]; exact hmm
            · rw [aide_idle hk, aide_idle hk, h0, hmm]
            · rw [aide_idle hk, h0]; decide
          · refine .nearer rfl o1 ?_
            rw [toGo_idle hk, toGo_idle hk, hmm]
            omega
      match k, stage_le hs with
      | 0, _ => exact key (.inl rfl)
      | 1, _ =>
        refine .stay rfl o1 rfl rfl ?_
        rw [aide_one]
        split <;> decide
      | 2, _ => exact .stay rfl o1 rfl rfl (by rw [aide_two]; decide)
      | 3, _ => exact .stay rfl o1 rfl rfl (by rw [aide_three]; decide)
      | 4, _ => exact key (.inr rfl)

theorem asks_command {b : Bridge} (hg : BGood b) (hd : DistinctNames b.cfg) {p : Publish}
    {c : Command} (ha : Asks b.cfg b.code p (some c)) :
    commandFor b.cfg.prefix b.code p b.cfg.elk.areas = .ok (some c) := by
  have hu := hg.usable.areas
  rcases commandFor_cases (pre := b.cfg.prefix) (code := b.code) (p := p) hu with
    ⟨h1, h2⟩ | ⟨a', ha', ht', ⟨hx, h1⟩ | ⟨_, hn, h1⟩ | ⟨lv, hl, h1⟩⟩
  · exact absurd (C50_asks_unique hd ha (asks_of hu h1)) (by simp)
  · cases ha with
    | arm a lv _ _ hl => have := level_text hl; rw [hx] at this; cases this
  · exact absurd (C50_asks_unique hd ha (asks_of hu h1)) (by simp)
  · rw [h1, C50_asks_unique hd ha (asks_of hu h1)]

theorem then_post {h : Home} {reqs : List Command} {msgs : List Message} {k : Nat}
    (hi : HomeInv h reqs msgs k) {p : Publish} {c : Command} (hq : Quiet h.bridge)
    (hc : Asks h.bridge.cfg h.bridge.code p (some c)) :
    ∃ h', h.step (.post p c) = .ok h' ∧ Then .chance h reqs msgs k h' := by
  obtain ⟨hw, hb, hs, ha⟩ := hi
  obtain ⟨q1, q2, q3⟩ := hq
  have hk : k = 4 ∧ h.posted = given h.obs := by
    cases hs with
    | quiet _ _ _ h4 => exact ⟨rfl, h4⟩
    | posted p c h1 => rw [q1] at h1; cases h1
    | ready c _ h1 => rw [q2] at h1; cases h1
    | flush q _ h1 => rw [q2] at h1; cases h1
    | await q w _ _ h1 => rw [q3] at h1; cases h1
  obtain ⟨rfl, hp⟩ := hk
  have hst : h.bridge.step (.deliver p) =
      .ok (.env [], { h.bridge with inbox := h.bridge.inbox ++ [p] }) := rfl
  obtain ⟨o1, o2⟩ := quiet_obs (obs := h.obs) (o := .env []) rfl rfl
  refine ⟨_, act_ok (h := { h with posted := h.posted ++ [c] }) hst, reqs, msgs, 3,
    ⟨⟨bcase_good (bstep_cases hst) hw.good, hw.distinct,
    hw.sound, hw.data, hw.takes, hw.told, hw.asked, hw.taken, hw.wf, hw.noZones, hw.cmds, hw.tail⟩,
    books_same hb o1 o2 rfl rfl, ?_, fun w h => by cases h⟩, .down (by decide),
    grows_same o1 o2 rfl rfl (snoc_prefix _ _) (by decide) (by decide)⟩
  refine .posted p c ?_ q2 q3 (asks_command hw.good hw.distinct hc) ?_ ?_
  · show h.bridge.inbox ++ [p] = [p]
    rw [q1]; rfl
  · cases hc with
    | arm a level _ _ _ => exact ⟨_, rfl⟩
  · show h.posted ++ [c] = given (h.obs ++ [.env []]) ++ [c]
    rw [o2, hp]

/-! ## The bridge is polled -/

theorem pollInbox_empty {b : Bridge} (hi : b.inbox = []) : b.pollInbox = .ok (none, b) := by
  unfold Bridge.pollInbox
  rw [hi]

theorem pollPanel_pending {b : Bridge} {cx w panel}
    (hn : b.panel.pollNext cx = .ok (.pending, w, panel)) :
    b.pollPanel cx = .ok (none, { b with panel }) := by
  unfold Bridge.pollPanel
  rw [hn]
  rfl

theorem pollPanel_event {b : Bridge} {cx w panel ev out}
    (hn : b.panel.pollNext cx = .ok (.ready (some (.ok ev)), w, panel))
    (hp : publishEvent panel b.cfg ev = .ok out) :
    b.pollPanel cx = .ok (some (.event ev out w), { b with panel, log := b.log ++ out }) := by
  unfold Bridge.pollPanel
  rw [hn]
  simp only [bind_ok]
  rw [hp]
  rfl

theorem tick_selects {b : Bridge} {cx pf} (hw : b.waiting = .select) :
    b.step (.tick cx pf) = b.select cx pf := by
  show b.tick cx pf = _
  unfold Bridge.tick
  rw [hw]

theorem tick_wait {b : Bridge} {cx pf w panel} (hw : b.waiting = .select) (hi : b.inbox = [])
    (hn : b.panel.pollNext cx = .ok (.pending, w, panel)) :
    b.step (.tick cx pf) = .ok (.pending, { b with panel }) := by
  rw [tick_selects hw]
  unfold Bridge.select
  cases pf with
  | true =>
    rw [if_pos rfl, pollPanel_pending hn]
    simp only [bind_ok]
    rw [pollInbox_empty (by exact hi)]
    rfl
  | false =>
    rw [if_neg (by decide), pollInbox_empty hi]
    simp only [bind_ok]
    rw [pollPanel_pending hn]
    rfl

theorem tick_event {b : Bridge} {cx pf w panel ev out} (hw : b.waiting = .select)
    (hi : b.inbox = [] ∨ pf = true)
    (hn : b.panel.pollNext cx = .ok (.ready (some (.ok ev)), w, panel))
    (hp : publishEvent panel b.cfg ev = .ok out) :
    b.step (.tick cx pf) = .ok (.event ev out w, { b with panel, log := b.log ++ out }) := by
  rw [tick_selects hw]
  unfold Bridge.select
  cases pf with
  | true =>
    rw [if_pos rfl, pollPanel_event hn hp]
    rfl
  | false =>
    rw [if_neg (by decide), pollInbox_empty (hi.resolve_right (by decide))]
    simp only [bind_ok]
    rw [pollPanel_event hn hp]
    rfl

theorem tick_take {b : Bridge} {cx p rest c} (hw : b.waiting = .select) (hi : b.inbox = p :: rest)
    (hc : commandFor b.cfg.prefix b.code p b.cfg.elk.areas = .ok (some c)) :
    b.step (.tick cx false) =
      .ok (.taken p (some c), { b with inbox := rest, waiting := .ready c }) := by
  show b.tick cx false = _
  unfold Bridge.tick Bridge.select Bridge.pollInbox
  rw [hw, hi]
  simp only [if_neg (show ¬ (false = true) by simp)]
  rw [hc]
  rfl

theorem tick_take_late {b : Bridge} {cx p rest c w panel} (hw : b.waiting = .select)
    (hi : b.inbox = p :: rest)
    (hc : commandFor b.cfg.prefix b.code p b.cfg.elk.areas = .ok (some c))
    (hn : b.panel.pollNext cx = .ok (.pending, w, panel)) :
    b.step (.tick cx true) =
      .ok (.taken p (some c), { b with panel, inbox := rest, waiting := .ready c }) := by
  show b.tick cx true = _
  unfold Bridge.tick
  rw [hw]
  dsimp only
  unfold Bridge.select Bridge.pollPanel Bridge.pollInbox
  rw [hn]
  simp only [bind_ok, hi, hc]
  rfl

/-- The wires after a poll of the panel. -/
theorem wires_poll {h h' : Home} {reqs : List Command} {msgs msgs' : List Message}
    (hw : Wires h reqs msgs) (hg : BGood h'.bridge) (h1 : h'.bridge.cfg = h.bridge.cfg)
    (h2 : Sound h'.bridge.panel.conn.rd) (h3 : OnlyData h'.bridge.panel.conn.sock.incoming)
    (h4 : h'.bridge.panel.conn.wbuf = h.bridge.panel.conn.wbuf)
    (h5 : h'.bridge.panel.conn.sock.sent = h.bridge.panel.conn.sock.sent)
    (h6 : h'.bridge.panel.conn.sock.writes = h.bridge.panel.conn.sock.writes)
    (h7 : h'.taken = h.taken) (ht : inHand h'.bridge.panel ++ h'.line = msgs'.flatMap frame)
    (hm : ∀ m ∈ msgs', m ∈ msgs) : Wires h' reqs msgs' :=
  ⟨hg, by rw [h1]; exact hw.distinct, h2, h3, by rw [h6]; exact hw.takes, ht,
    by rw [h4, h5, h7]; exact hw.asked, by rw [h5, h7]; exact hw.taken,
    fun m hx => hw.wf m (hm m hx), fun m hx => hw.noZones m (hm m hx), hw.cmds,
    by rw [h4]; exact hw.tail⟩

theorem short_missing {p : Panel} {m : Message} {t : List Message} (h : Awaits p (m :: t)) :
    missing p (m :: t) ≠ 0 := by
  have := h m t rfl
  rw [missing_cons]
  omega

/-- Nobody but the line can help while no message is complete. -/
theorem near_short {w : Who} {h h' : Home} {msgs : List Message} {k : Nat} (hk : k = 0 ∨ k = 4)
    (ho : toldTo h'.obs = toldTo h.obs) (hs : Awaits h.bridge.panel msgs)
    (hu : inHand h'.bridge.panel = inHand h.bridge.panel) (hl : w ≠ .line) :
    Near w h msgs k h' msgs k := by
  cases msgs with
  | nil => exact .nothing rfl ho hk rfl
  | cons m t =>
    have e : missing h'.bridge.panel (m :: t) = missing h.bridge.panel (m :: t) := by
      rw [missing_cons, missing_cons, hu]
    refine .stay rfl ho ?_ ?_ ?_
    · rw [toGo_idle hk, toGo_idle hk, e]
    · rw [aide_idle hk, aide_idle hk, e]
    · rw [aide_idle hk, if_neg (short_missing hs)]; exact hl

theorem tick_who (cx : Cx) (pf : Bool) : (HomeOp.tick cx pf).who ≠ .line ∧
    (HomeOp.tick cx pf).who ≠ .panel ∧ (pf = true → (HomeOp.tick cx pf).who ≠ .library) := by
  cases pf <;> refine ⟨?_, ?_, ?_⟩ <;> simp [HomeOp.who]

/-- The bridge in its main loop with nothing in the inbox, or with the panel first. -/
theorem then_select {h : Home} {reqs : List Command} {msgs : List Message} {k : Nat} {cx : Cx}
    {pf : Bool} (hi : HomeInv h reqs msgs k) (hsel : h.bridge.waiting = .select)
    (hin : h.bridge.inbox = [] ∨ pf = true) :
    ∃ h', h.act (.tick cx pf) = .ok h' ∧ Then (HomeOp.tick cx pf).who h reqs msgs k h' := by
  obtain ⟨hw, hb, hs, ha⟩ := hi
  obtain ⟨w1, w2, w3⟩ := tick_who cx pf
  obtain ⟨r, w, p', hn, h1, h2, h3, h4, h5, hc⟩ :=
    poll_frames (cx := cx) hw.good.good hw.sound hw.data hw.wf hw.told
  have hk : k = 0 ∨ k = 4 ∨ k = 3 ∧ pf = true := by
    cases hs with
    | quiet => exact .inr (.inl rfl)
    | posted p c h1 =>
      refine .inr (.inr ⟨rfl, ?_⟩)
      rcases hin with h | h
      · rw [h] at h1; cases h1
      · exact h
    | ready _ _ h => rw [hsel] at h; cases h
    | flush _ _ h => rw [hsel] at h; cases h
    | await => exact .inl rfl
  cases hc with
  | wait _ c1 c2 c3 c4 =>
    rcases Classical.em (h.bridge.inbox = []) with hemp | hemp
    · have hk' : k = 0 ∨ k = 4 := by
        rcases hk with h | h | ⟨rfl, _⟩
        · exact .inl h
        · exact .inr h
        · cases hs with
          | posted p c h1 => rw [hemp] at h1; cases h1
      have hst := tick_wait (pf := pf) hsel hemp hn
      obtain ⟨o1, o2⟩ := quiet_obs (obs := h.obs) (o := .pending) rfl rfl
      refine ⟨_, act_ok hst, reqs, msgs, k, ⟨wires_poll hw (bcase_good (bstep_cases hst) hw.good)
        rfl h1 h2 h3 h4 h5 rfl ?_ (fun _ h => h), books_same hb o1 o2 rfl rfl,
        stage_same hs rfl rfl c1 rfl rfl o2 rfl, ?_⟩, near_short hk' o1 c3 c2 w1,
        grows_same o1 o2 rfl rfl (List.prefix_refl _) id w2⟩
      · show inHand p' ++ h.line = _
        rw [c2]; exact hw.told
      · intro w hw'
        have hw' : some cx.waker = some w := hw'
        refine .inr ⟨hk', c4.trans hw', fun m t hm => ?_⟩
        show (inHand p').length < _
        rw [c2]
        exact c3 m t hm
    · cases hs with
      | quiet h1 => exact absurd h1 hemp
      | ready _ h1 => exact absurd h1 hemp
      | flush _ h1 => exact absurd h1 hemp
      | await _ _ h1 => exact absurd h1 hemp
      | posted p c g1 g2 g3 g4 g5 g6 =>
        obtain rfl := hin.resolve_left hemp
        have hst := tick_take_late hsel g1 g4 hn
        obtain ⟨o1, o2⟩ := quiet_obs (obs := h.obs) (o := .taken p (some c)) rfl rfl
        refine ⟨_, act_ok hst, reqs, msgs, 2, ⟨wires_poll hw
          (bcase_good (bstep_cases hst) hw.good) rfl h1 h2 h3 h4 h5 rfl ?_ (fun _ h => h),
          books_same hb o1 o2 rfl rfl, .ready c rfl rfl (c1.trans g3) g5 (by rw [o2]; exact g6),
          fun w h => by cases h⟩, .down (by decide),
          grows_same o1 o2 rfl rfl (List.prefix_refl _) (by decide) w2⟩
        show inHand p' ++ h.line = _
        rw [c2]; exact hw.told
  | fire ev _ c1 c2 c3 c4 =>
    rcases publishEvent_iff hw.good hn with ⟨r, hm, _⟩ | ⟨_, json, ch, _, _, hout⟩
    · rw [c1] at hm; cases hm
    · have hst := tick_event hsel hin hn hout
      obtain ⟨o1, o2⟩ := quiet_obs (obs := h.obs)
        (o := .event ev (⟨eventTopic h.bridge.cfg.prefix, false, .json json⟩ :: ch) w)
        (by unfold toldTo handled; simp [c1]) rfl
      refine ⟨_, act_ok hst, reqs, msgs, k, ⟨wires_poll hw (bcase_good (bstep_cases hst) hw.good)
        rfl h1 h2 h3 h4 h5 rfl ?_ (fun _ h => h), books_same hb o1 o2 rfl rfl,
        stage_same hs rfl rfl c2 rfl rfl o2 rfl, fun w h => by cases h⟩, ?_,
        grows_same o1 o2 rfl rfl (List.prefix_refl _) id w2⟩
      · show inHand p' ++ h.line = _
        rw [c3]; exact hw.told
      · rcases hk with rfl | rfl | ⟨rfl, rfl⟩
        · exact near_short (.inl rfl) o1 c4 c3 w1
        · exact near_short (.inr rfl) o1 c4 c3 w1
        · exact .stay rfl o1 rfl rfl (w3 rfl)
  | got ev m t _ c1 c2 c3 c4 =>
    subst c1
    rcases publishEvent_iff hw.good hn with ⟨r, hm, _⟩ | ⟨_, json, ch, _, _, hout⟩
    · rw [c2] at hm
      cases hm
      exact absurd rfl (hw.noZones _ (List.mem_cons_self ..) r)
    · have hst := tick_event hsel hin hn hout
      have o1 : toldTo (h.obs ++ [.event ev
          (⟨eventTopic h.bridge.cfg.prefix, false, .json json⟩ :: ch) w]) = toldTo h.obs ++ [m] := by
        rw [toldTo_snoc]
        unfold toldTo handled
        simp [c2]
      have o2 : given (h.obs ++ [.event ev
          (⟨eventTopic h.bridge.cfg.prefix, false, .json json⟩ :: ch) w]) = given h.obs := by
        rw [given_snoc]
        exact List.append_nil _
      have hgr : ∀ k', (k' = 1 → k = 1) → ¬ k' < k → Grows (HomeOp.tick cx pf).who h reqs k { h with
          bridge := { h.bridge with
            panel := p',
            log := h.bridge.log ++ (⟨eventTopic h.bridge.cfg.prefix, false, .json json⟩ :: ch) }
          obs := h.obs ++ [.event ev (⟨eventTopic h.bridge.cfg.prefix, false, .json json⟩ :: ch) w]
          asleep := dozes h.asleep (.tick cx pf)
            (.event ev (⟨eventTopic h.bridge.cfg.prefix, false, .json json⟩ :: ch) w) } k' := by
        intro k' hk1 hk2
        exact ⟨by rw [o2]; exact List.prefix_refl _, List.prefix_refl _, List.prefix_refl _,
          List.prefix_refl _, fun h => absurd h hk2, fun _ => o2, fun h => .inl (hk1 h),
          fun h => absurd h w2⟩
      have hwi := wires_poll (h' := { h with
          bridge := { h.bridge with
            panel := p',
            log := h.bridge.log ++ (⟨eventTopic h.bridge.cfg.prefix, false, .json json⟩ :: ch) }
          obs := h.obs ++ [.event ev (⟨eventTopic h.bridge.cfg.prefix, false, .json json⟩ :: ch) w]
          asleep := dozes h.asleep (.tick cx pf)
            (.event ev (⟨eventTopic h.bridge.cfg.prefix, false, .json json⟩ :: ch) w) }) hw
        (bcase_good (bstep_cases hst) hw.good) rfl h1 h2 h3 h4 h5 rfl c3
        (fun _ h => List.mem_cons_of_mem _ h)
      have hbk : Books { h with
          bridge := { h.bridge with
            panel := p',
            log := h.bridge.log ++ (⟨eventTopic h.bridge.cfg.prefix, false, .json json⟩ :: ch) }
          obs := h.obs ++ [.event ev (⟨eventTopic h.bridge.cfg.prefix, false, .json json⟩ :: ch) w]
          asleep := dozes h.asleep (.tick cx pf)
            (.event ev (⟨eventTopic h.bridge.cfg.prefix, false, .json json⟩ :: ch) w) } reqs t := by
        refine ⟨?_, ?_⟩
        · rw [o1, ← hb.said]; simp
        · rw [o2]; exact hb.heard
      refine ⟨_, act_ok hst, reqs, t, ?_⟩
      cases hs with
      | ready _ _ h => rw [hsel] at h; cases h
      | flush _ _ h => rw [hsel] at h; cases h
      | quiet g1 g2 g3 g4 =>
        have hidle : p'.cmdState = .idle := by
          rcases c4 with ⟨_, _, _, h, _⟩ | ⟨_, h⟩
          · rw [g3] at h; cases h
          · rw [h]; exact g3
        exact ⟨4, ⟨hwi, hbk, .quiet g1 g2 hidle (by rw [o2]; exact g4), fun w h => by cases h⟩,
          .read m o1 rfl (by decide) (fun h => absurd h (by decide)) (fun h => absurd h (by decide)),
          hgr 4 (by decide) (by decide)⟩
      | posted p c g1 g2 g3 g4 g5 g6 =>
        have hidle : p'.cmdState = .idle := by
          rcases c4 with ⟨_, _, _, h, _⟩ | ⟨_, h⟩
          · rw [g3] at h; cases h
          · rw [h]; exact g3
        refine ⟨3, ⟨hwi, hbk, .posted p c g1 g2 hidle g4 g5 (by rw [o2]; exact g6),
          fun w h => by cases h⟩, .read m o1 rfl (by decide) (fun _ => ?_)
          (fun h => absurd h (by decide)),
          hgr 3 (by decide) (by decide)⟩
        rcases hin with h | h
        · rw [g1] at h; cases h
        · exact w3 h
      | await q w' g1 g2 g3 g4 g5 =>
        rcases c4 with ⟨r, _, _, h, hresp, hidle⟩ | ⟨hno, hsame⟩
        · exact ⟨4, ⟨hwi, hbk, .quiet g1 g2 hidle (by rw [o2]; exact g5), fun w h => by cases h⟩,
            .reply m o1 rfl rfl, hgr 4 (by decide) (by decide)⟩
        · have hne : ∀ r, m ≠ .sendCode r := by
            rintro r rfl
            exact hno _ _ _ g3 (.code r q)
          refine ⟨0, ⟨hwi, hbk, .await q w' g1 g2 (hsame.trans g3) ?_ (by rw [o2]; exact g5),
            fun w h => by cases h⟩, .read m o1 rfl (by decide) (fun h => absurd h (by decide))
            (fun _ => hne),
            hgr 0 (by decide) (by decide)⟩
          rcases g4 with h | ⟨r, h⟩
          · exact .inl h
          · rcases List.mem_cons.mp h with h | h
            · exact absurd h.symm (hne r)
            · exact .inr ⟨r, h⟩

/-- The bridge takes up a message. -/
theorem then_take {h : Home} {reqs : List Command} {msgs : List Message} {cx : Cx}
    (hi : HomeInv h reqs msgs 3) :
    ∃ h', h.act (.tick cx false) = .ok h' ∧ Then .library h reqs msgs 3 h' := by
  obtain ⟨hw, hb, hs, ha⟩ := hi
  cases hs with
  | posted p c g1 g2 g3 g4 g5 g6 =>
    have hst := tick_take (cx := cx) g2 g1 g4
    obtain ⟨o1, o2⟩ := quiet_obs (obs := h.obs) (o := .taken p (some c)) rfl rfl
    exact ⟨_, act_ok hst, reqs, msgs, 2, ⟨wires_poll hw
      (bcase_good (bstep_cases hst) hw.good) rfl hw.sound hw.data rfl rfl rfl rfl hw.told
      (fun _ h => h), books_same hb o1 o2 rfl rfl, .ready c rfl rfl g3 g5 (by rw [o2]; exact g6),
      fun w h => by cases h⟩, .down (by decide),
      grows_same o1 o2 rfl rfl (List.prefix_refl _) (by decide) (by decide)⟩

/-- The bridge hands a command to the connection. -/
theorem then_hand {h : Home} {reqs : List Command} {msgs : List Message} {cx : Cx} {pf : Bool}
    (hi : HomeInv h reqs msgs 2) :
    ∃ h', h.act (.tick cx pf) = .ok h' ∧ Then (HomeOp.tick cx pf).who h reqs msgs 2 h' := by
  obtain ⟨hw, hb, hs, ha⟩ := hi
  obtain ⟨w1, w2, w3⟩ := tick_who cx pf
  have hemp := stage_wbuf hw.good hs (by decide)
  cases hs with
  | ready c g1 g2 g3 g4 g5 =>
    have hwf := hw.good.cmd c g2
    have hst : h.bridge.step (.tick cx pf) = .ok (.accepted c, { h.bridge with
        waiting := .flush
        panel := { h.bridge.panel with
          conn := { h.bridge.panel.conn with wbuf := commandBytes c }
          cmdState := .busy c.intoMsg false none } }) := by
      show h.bridge.tick cx pf = _
      unfold Bridge.tick
      rw [g2]
      dsimp only
      have : h.bridge.panel.pollReady cx = (.ready (.ok ()), h.bridge.panel) := by
        unfold Panel.pollReady
        rw [g3]
      rw [this]
      dsimp only
      rw [startSend_wf hwf g3, hemp]
      rfl
    have o1 : toldTo (h.obs ++ [.accepted c]) = toldTo h.obs := by
      rw [toldTo_snoc]; exact List.append_nil _
    have o2 : given (h.obs ++ [.accepted c]) = given h.obs ++ [c] := given_snoc _ _
    have hasked := hw.asked
    rw [hemp, List.append_nil] at hasked
    obtain ⟨q, rfl⟩ := g4
    refine ⟨_, act_ok hst, reqs ++ [.arm q], msgs, 1, ⟨⟨bcase_good (bstep_cases hst) hw.good,
      hw.distinct, hw.sound, hw.data, hw.takes, hw.told, ?_, hw.taken, hw.wf, hw.noZones, ?_, ?_⟩,
      ⟨?_, ?_⟩, .flush q g1 rfl rfl (.inl (by simp)) ?_, fun w h => by cases h⟩, .down (by decide),
      ⟨?_, List.prefix_refl _, List.prefix_refl _, List.prefix_refl _, fun _ => o1,
        fun h => absurd h (by decide), fun _ => .inr ?_, fun h => absurd h w2⟩⟩
    · show h.bridge.panel.conn.sock.sent.drop h.taken ++ commandBytes (.arm q) = _
      rw [hasked, List.flatMap_append]; simp
    · intro x hx
      rcases List.mem_append.mp hx with hx | hx
      · exact hw.cmds x hx
      · rw [List.mem_singleton.mp hx]; exact hwf
    · intro pre d hd
      obtain ⟨_, hd⟩ := List.append_inj' hd rfl
      cases hd
      exact Nat.le_refl _
    · rw [o1]; exact hb.said
    · rw [o2, List.map_append, List.map_append, ← hb.heard, List.append_assoc]
    · rw [o2]; exact g5
    · rw [o2]; exact snoc_prefix _ _
    · rw [o2]; simp

/-- The bridge flushes the connection. -/
theorem then_flush {h : Home} {reqs : List Command} {msgs : List Message} {cx : Cx} {pf : Bool}
    (hi : HomeInv h reqs msgs 1) :
    ∃ h', h.act (.tick cx pf) = .ok h' ∧ Then (HomeOp.tick cx pf).who h reqs msgs 1 h' := by
  obtain ⟨hw, hb, hs, ha⟩ := hi
  obtain ⟨w1, w2, w3⟩ := tick_who cx pf
  have hspec := connFlush_spec h.bridge.panel.conn cx
  obtain ⟨htk, hres⟩ := connFlush_takes cx hw.takes
  generalize hfl : h.bridge.panel.conn.pollFlush cx = x at *
  obtain ⟨r, c⟩ := x
  dsimp only at *
  obtain ⟨new, hnew⟩ := hspec.grows
  have hasked : c.sock.sent.drop h.taken ++ c.wbuf = reqs.flatMap commandBytes := by
    have hb := hspec.bytes
    have h1 : (c.sock.sent ++ c.wbuf).drop h.taken = (h.bridge.panel.conn.sock.sent ++
      h.bridge.panel.conn.wbuf).drop h.taken := by rw [hb]
    have hle := hw.taken
    rw [List.drop_append_of_le_length (by rw [hnew, List.length_append]; omega),
      List.drop_append_of_le_length hle] at h1
    rw [h1]
    exact hw.asked
  have htaken : h.taken ≤ c.sock.sent.length := by
    have hle := hw.taken
    rw [hnew, List.length_append]; omega
  have hin : ∀ (s : CmdState), inHand { h.bridge.panel with conn := c, cmdState := s } =
      inHand h.bridge.panel := by
    intro s
    show c.rd.buffer ++ dataOf c.sock.incoming = _
    rw [hspec.rd, hspec.incoming]
    rfl
  cases hs with
  | flush q g1 g2 g3 g4 g5 =>
    rcases hres with rfl | ⟨rfl, hwr, hle, hlt⟩
    · have hst : h.bridge.step (.tick cx pf) = .ok (.sent, { h.bridge with
          waiting := .select
          panel := { h.bridge.panel with
            conn := c, cmdState := .busy (.armRequest q) true none } }) := by
        show h.bridge.tick cx pf = _
        have : h.bridge.panel.pollFlush cx = (.ready (.ok ()), { h.bridge.panel with
            conn := c, cmdState := .busy (.armRequest q) true none }) := by
          unfold Panel.pollFlush
          rw [g3]
          dsimp only
          rw [hfl]
        unfold Bridge.tick
        rw [g2]
        dsimp only
        rw [this]
      have hwb : c.wbuf = [] := hspec.done rfl
      obtain ⟨o1, o2⟩ := quiet_obs (obs := h.obs) (o := .sent) rfl rfl
      refine ⟨_, act_ok hst, reqs, msgs, 0, ⟨⟨bcase_good (bstep_cases hst) hw.good,
        hw.distinct, ?_, ?_, htk, ?_, hasked, htaken, hw.wf, hw.noZones, hw.cmds, ?_⟩,
        books_same hb o1 o2 rfl rfl, .await q none g1 rfl rfl g4 (by rw [o2]; exact g5),
        fun w h => by cases h⟩, .down (by decide),
        grows_same o1 o2 rfl rfl (List.prefix_refl _) (by decide) w2⟩
      · show Sound c.rd
        rw [hspec.rd]; exact hw.sound
      · show OnlyData c.sock.incoming
        rw [hspec.incoming]; exact hw.data
      · show inHand { h.bridge.panel with conn := c, cmdState := _ } ++ h.line = _
        rw [hin]; exact hw.told
      · intro pre d hd
        show c.wbuf.length ≤ _
        rw [hwb]; exact Nat.zero_le _
    · have hst : h.bridge.step (.tick cx pf) = .ok (.pending, { h.bridge with
          panel := { h.bridge.panel with conn := c } }) := by
        have : h.bridge.panel.pollFlush cx = (.pending, { h.bridge.panel with conn := c }) := by
          unfold Panel.pollFlush
          rw [g3]
          dsimp only
          rw [hfl]
          simp only [g3]
        show h.bridge.tick cx pf = _
        unfold Bridge.tick
        split
        · rename_i hx; rw [g2] at hx; cases hx
        · rename_i hx; rw [g2] at hx; cases hx
        · rw [this]
      obtain ⟨o1, o2⟩ := quiet_obs (obs := h.obs) (o := .pending) rfl rfl
      refine ⟨_, act_ok hst, reqs, msgs, 1, ⟨⟨bcase_good (bstep_cases hst) hw.good,
        hw.distinct, ?_, ?_, htk, ?_, hasked, htaken, hw.wf, hw.noZones, hw.cmds, ?_⟩,
        books_same hb o1 o2 rfl rfl, .flush q g1 g2 g3 g4 (by rw [o2]; exact g5), ?_⟩, ?_,
        grows_same o1 o2 rfl rfl (List.prefix_refl _) id w2⟩
      · show Sound c.rd
        rw [hspec.rd]; exact hw.sound
      · show OnlyData c.sock.incoming
        rw [hspec.incoming]; exact hw.data
      · show inHand { h.bridge.panel with conn := c, cmdState := _ } ++ h.line = _
        rw [hin]; exact hw.told
      · intro pre d hd
        exact Nat.le_trans hle (hw.tail pre d hd)
      · intro w hw'
        have hw' : some cx.waker = some w := hw'
        exact .inl ⟨rfl, hspec.left rfl, hwr, (hspec.pend rfl).trans hw'⟩
      · have hl := hspec.left rfl
        by_cases hw0 : h.bridge.panel.conn.sock.writes = []
        · by_cases hlt : c.wbuf.length < h.bridge.panel.conn.wbuf.length
          · refine .nearer rfl o1 ?_
            rw [toGo_one, toGo_one, if_pos hw0]
            show 2 * c.wbuf.length + (if c.sock.writes = [] then 1 else 0) < _
            rw [if_pos hwr]
            omega
          · have e : c.wbuf.length = h.bridge.panel.conn.wbuf.length := by omega
            have hl' : h.bridge.panel.conn.wbuf ≠ [] := by
              intro h0
              rw [h0] at e
              exact hl (List.length_eq_zero_iff.mp e)
            refine .stay rfl o1 ?_ ?_ ?_
            · rw [toGo_one, toGo_one, if_pos hw0]
              show 2 * c.wbuf.length + (if c.sock.writes = [] then 1 else 0) = _
              rw [if_pos hwr, e]
            · rw [aide_one, aide_one, if_neg (fun h => h.elim hl fun h => h hwr),
                if_neg (fun h => h.elim hl' fun h => h hw0)]
            · rw [aide_one, if_neg (fun h => h.elim hl' fun h => h hw0)]
              cases pf <;> simp [HomeOp.who]
        · have := hlt hw0
          refine .nearer rfl o1 ?_
          rw [toGo_one, toGo_one, if_neg hw0]
          show 2 * c.wbuf.length + (if c.sock.writes = [] then 1 else 0) < _
          rw [if_pos hwr]
          omega

/-- The bridge sleeps. -/
theorem then_sleep {h : Home} {reqs : List Command} {msgs : List Message} {k : Nat} {cx : Cx}
    {pf : Bool} (hi : HomeInv h reqs msgs k) (hs : h.asleep ≠ none) :
    Then (HomeOp.tick cx pf).who h reqs msgs k h := by
  obtain ⟨w1, w2, w3⟩ := tick_who cx pf
  refine ⟨reqs, msgs, k, hi, ?_, grows_same rfl rfl rfl rfl (List.prefix_refl _) id w2⟩
  obtain ⟨w, hw⟩ := Option.ne_none_iff_exists'.mp hs
  rcases hi.asleep w hw with ⟨rfl, h1, h2, _⟩ | ⟨hk, _, h1⟩
  · refine .stay rfl rfl rfl rfl ?_
    rw [aide_one, if_neg (fun h => h.elim h1 fun h => h h2)]
    cases pf <;> simp [HomeOp.who]
  · exact near_short hk rfl h1 rfl w1

theorem then_rest {h : Home} {reqs : List Command} {msgs : List Message} {k : Nat}
    (hi : HomeInv h reqs msgs k) : Then HomeOp.rest.who h reqs msgs k h :=
  ⟨reqs, msgs, k, hi, .stay rfl rfl rfl rfl fun h => aide_chance _ _ _ h.symm,
    grows_same rfl rfl rfl rfl (List.prefix_refl _) id (by simp [HomeOp.who])⟩

/-- One thing happens. -/
theorem home_step {h : Home} {reqs : List Command} {msgs : List Message} {k : Nat} {op : HomeOp}
    (hi : HomeInv h reqs msgs k) (hp : op.Proper h) :
    ∃ h', h.step op = .ok h' ∧ Then op.who h reqs msgs k h' := by
  match op with
  | .wake => exact ⟨_, rfl, then_wake hi⟩
  | .accept n => exact then_accept hi
  | .deliver n => exact then_deliver hi
  | .answer r => exact then_answer hi hp
  | .say m => exact ⟨_, rfl, then_say hi hp.1 hp.2⟩
  | .post p c => exact then_post hi hp.1 hp.2
  | .rest => exact ⟨h, rfl, then_rest hi⟩
  | .tick cx pf =>
    by_cases hs : h.asleep = none
    · have e : h.step (.tick cx pf) = h.act (.tick cx pf) := if_pos hs
      rw [e]
      cases hst : hi.stage with
      | quiet g1 g2 => exact then_select hi g2 (.inl g1)
      | await _ _ g1 g2 => exact then_select hi g2 (.inl g1)
      | ready => exact then_hand hi
      | flush => exact then_flush hi
      | posted p c g1 g2 =>
        cases pf with
        | true => exact then_select hi g2 (.inr rfl)
        | false => exact then_take hi
    · exact ⟨h, if_neg hs, then_sleep hi hs⟩

/-! ## The start -/

theorem home_start {cfg : Cfg} {p0 : Panel} (hc : Connected p0) (hv : WfView p0) {b0 : Bridge}
    (hs : Bridge.start cfg p0 = .ok b0) (hd : DistinctNames cfg) (hu : Lively p0.conn)
    {line : Bytes} {early : List Message}
    (he : ∀ m ∈ early, WfMessage m ∧ ∀ r, m ≠ .zoneStatusReport r)
    (hl : p0.conn.rd.buffer ++ dataBytes p0.conn.sock.incoming ++ line = early.flatMap frame) :
    HomeInv (Home.start b0 line early) [] early 4 := by
  have hg := start_good_bridge hc hv hs
  obtain ⟨r0, hr0⟩ := hc.arming
  obtain ⟨z0, hz0⟩ := hc.zones
  obtain ⟨_, code, hcode, rfl⟩ := (start_iff hr0 hz0 (hv z0 hz0)).mp hs
  refine ⟨⟨hg, hd, ⟨hu.open_, hu.ok⟩, hu.reads, hu.writes, ?_, ?_, Nat.le_refl _,
    fun m h => (he m h).1, fun m h => (he m h).2, (fun _ h => by cases h), ?_⟩,
    ⟨rfl, rfl⟩, .quiet rfl rfl hc.idle rfl, fun w h => by cases h⟩
  · show p0.conn.rd.buffer ++ dataOf p0.conn.sock.incoming ++ line = _
    rw [dataOf_eq]; exact hl
  · show p0.conn.sock.sent.drop p0.conn.sock.sent.length ++ p0.conn.wbuf = _
    rw [List.drop_length, hc.flushed]; rfl
  · intro pre c h
    exact absurd (congrArg List.length h) (by simp)

/-! ## Whole schedules -/

/-- What is known at some time. -/
structure Now where
  home : Home
  reqs : List Command
  msgs : List Message
  stage : Nat

/-- This is known at time `n`. -/
def Holds (h0 : Home) (ops : Nat → HomeOp) (n : Nat) (s : Now) : Prop :=
  Home.after h0 ops n = .ok s.home ∧ HomeInv s.home s.reqs s.msgs s.stage

/-- A schedule that behaves. -/
structure Schedule (h0 : Home) (ops : Nat → HomeOp) : Prop where
  start : ∃ reqs msgs k, HomeInv h0 reqs msgs k
  proper : ∀ n h, Home.after h0 ops n = .ok h → (ops n).Proper h
  fair : KeepActing ops

variable {h0 : Home} {ops : Nat → HomeOp}

theorem holds_next (hS : Schedule h0 ops) {n : Nat} {s : Now} (h : Holds h0 ops n s) :
    ∃ s', Holds h0 ops (n + 1) s' ∧
      Near (ops n).who s.home s.msgs s.stage s'.home s'.msgs s'.stage ∧
      Grows (ops n).who s.home s.reqs s.stage s'.home s'.stage := by
  obtain ⟨h', h1, reqs', msgs', k', h2, h3, h4⟩ := home_step h.2 (hS.proper n _ h.1)
  refine ⟨⟨h', reqs', msgs', k'⟩, ⟨?_, h2⟩, h3, h4⟩
  show (Home.after h0 ops n >>= fun h => h.step (ops n)) = _
  rw [h.1]
  exact h1

theorem holds_at (hS : Schedule h0 ops) (n : Nat) : ∃ s, Holds h0 ops n s := by
  induction n with
  | zero =>
    obtain ⟨reqs, msgs, k, h⟩ := hS.start
    exact ⟨⟨h0, reqs, msgs, k⟩, rfl, h⟩
  | succ n ih =>
    obtain ⟨s, h⟩ := ih
    obtain ⟨s', h', _⟩ := holds_next hS h
    exact ⟨s', h'⟩

theorem holds_home {n : Nat} {s s' : Now} (h : Holds h0 ops n s) (h' : Holds h0 ops n s') :
    s'.home = s.home := by
  exact (Except.ok.inj (h.1.symm.trans h'.1)).symm

theorem near_told {w : Who} {h h' : Home} {reqs : List Command} {msgs msgs' : List Message}
    {k k' : Nat} (h1 : Near w h msgs k h' msgs' k') (h2 : Grows w h reqs k h' k') :
    toldTo h.obs <+: toldTo h'.obs := by
  cases h1 with
  | down h => rw [h2.told h]; exact List.prefix_refl _
  | read m h => rw [h]; exact snoc_prefix _ _
  | reply m h => rw [h]; exact snoc_prefix _ _
  | nearer _ h => rw [h]; exact List.prefix_refl _
  | nothing _ h => rw [h]; exact List.prefix_refl _
  | stay _ h => rw [h]; exact List.prefix_refl _

/-- The books only grow. -/
theorem holds_mono (hS : Schedule h0 ops) {n : Nat} {s : Now} (h : Holds h0 ops n s) :
    ∀ d s', Holds h0 ops (n + d) s' → given s.home.obs <+: given s'.home.obs ∧
      s.home.said <+: s'.home.said ∧ s.home.heard <+: s'.home.heard ∧
      s.home.posted <+: s'.home.posted ∧ toldTo s.home.obs <+: toldTo s'.home.obs := by
  intro d
  induction d with
  | zero =>
    intro s' h'
    rw [holds_home h h']
    exact ⟨List.prefix_refl _, List.prefix_refl _, List.prefix_refl _, List.prefix_refl _,
      List.prefix_refl _⟩
  | succ d ih =>
    intro s' h'
    obtain ⟨s1, h1⟩ := holds_at hS (n + d)
    obtain ⟨s2, h2, h3, h4⟩ := holds_next hS h1
    obtain ⟨g1, g2, g3, g4, g5⟩ := ih s1 h1
    rw [holds_home h2 h']
    exact ⟨g1.trans h4.given, g2.trans h4.said, g3.trans h4.heard, g4.trans h4.posted,
      g5.trans (near_told h3 h4)⟩

/-- The bridge gets to where it awaits a reply. -/
theorem stage_passes (hS : Schedule h0 ops) {n : Nat} {s : Now} (h : Holds h0 ops n s)
    (hk : 1 ≤ s.stage ∧ s.stage ≤ 3) :
    ∃ m, n ≤ m ∧ ∃ s', Holds h0 ops m s' ∧ s'.stage = 0 := by
  refine eventually (lt := Prod.Lex (· < ·) (· < ·)) (Prod.lex Nat.lt_wfRel Nat.lt_wfRel).wf
    (At := fun n s => Holds h0 ops n s ∧ 1 ≤ s.stage ∧ s.stage ≤ 3) (who := fun n => (ops n).who)
    hS.fair (rank := fun s => (s.stage, toGo s.home.bridge.panel s.msgs s.stage))
    (helper := fun s => aide s.home.bridge.panel s.msgs s.stage) (fun s => aide_chance _ _ _) ?_
    n s ⟨h, hk⟩
  intro n s ⟨h, hk1, hk2⟩
  obtain ⟨s', h1, h2, h3⟩ := holds_next hS h
  right
  cases h2 with
  | down hlt =>
    by_cases h0 : s'.stage = 0
    · exact .inl ⟨s', h1, h0⟩
    · exact .inr ⟨s', ⟨h1, by omega, by omega⟩, .inl (.left _ _ hlt)⟩
  | read m ht he hn hl _ =>
    have h3 : s.stage = 3 := by omega
    refine .inr ⟨s', ⟨h1, by omega, by omega⟩, .inr ⟨?_, ?_, ?_⟩⟩
    · rw [he, h3]; rfl
    · rw [he, h3]; rfl
    · rw [h3]; exact hl h3
  | reply m _ h0 => omega
  | nearer he _ hlt =>
    refine .inr ⟨s', ⟨h1, by omega, by omega⟩, .inl ?_⟩
    rw [he]
    exact .right _ hlt
  | nothing _ _ h0 => omega
  | stay he _ e1 e2 e3 =>
    refine .inr ⟨s', ⟨h1, by omega, by omega⟩, .inr ⟨?_, ?_, e3⟩⟩
    · rw [he, e1]
    · rw [he, e2]

theorem reqs_length {h : Home} {reqs : List Command} {msgs : List Message}
    (hb : Books h reqs msgs) : h.heard.length + reqs.length = (given h.obs).length := by
  have := congrArg List.length hb.heard
  rw [List.length_append, List.length_map, List.length_map] at this
  exact this

/-- What is handed to the connection is heard. -/
theorem given_heard (hS : Schedule h0 ops) {n : Nat} {s : Now} (h : Holds h0 ops n s) {j : Nat}
    (hj : j < (given s.home.obs).length) :
    ∃ m, n ≤ m ∧ ∃ s', Holds h0 ops m s' ∧ j < s'.home.heard.length := by
  have key : ∀ n s, Holds h0 ops n s → j < (given s.home.obs).length →
      (s.stage ≠ 1 ∨ j + 1 < (given s.home.obs).length) →
      ∃ m, n ≤ m ∧ ∃ s', Holds h0 ops m s' ∧ j < s'.home.heard.length := by
    intro n s h hj hc
    refine eventually (lt := (· < ·)) Nat.lt_wfRel.wf
      (At := fun n s => Holds h0 ops n s ∧ j < (given s.home.obs).length ∧
        (s.stage ≠ 1 ∨ j + 1 < (given s.home.obs).length)) (who := fun n => (ops n).who)
      hS.fair (rank := fun s : Now => j + 1 - s.home.heard.length)
      (helper := fun _ => .panel) (fun s => by decide) ?_ n s ⟨h, hj, hc⟩
    intro n s ⟨h, hj, hc⟩
    by_cases hg : j < s.home.heard.length
    · exact .inl ⟨s, h, hg⟩
    · obtain ⟨s', h1, h2, h3⟩ := holds_next hS h
      right
      right
      have hlen := h3.given.length_le
      have hle := h3.heard.length_le
      have hrl := reqs_length h.2.books
      refine ⟨s', ⟨h1, by omega, ?_⟩, ?_⟩
      · by_cases h1 : s'.stage = 1
        · rcases h3.flush h1 with h4 | h4
          · rcases hc with hc | hc
            · exact absurd h4 hc
            · exact .inr (by omega)
          · exact .inr (by omega)
        · exact .inl h1
      · by_cases hw : (ops n).who = .panel
        · left
          have := h3.panel hw (by
            rcases hc with hc | hc
            · left
              refine ⟨hc, ?_⟩
              intro h0
              rw [h0] at hrl
              simp at hrl
              omega
            · right; omega)
          show _ < _
          omega
        · by_cases he : s'.home.heard.length = s.home.heard.length
          · exact .inr ⟨by rw [he], rfl, hw⟩
          · left
            show _ < _
            omega
  by_cases hk : s.stage = 1
  · obtain ⟨m, hm, s', h', hk'⟩ := stage_passes hS h (by omega)
    obtain ⟨d, rfl⟩ := Nat.le.dest hm
    have hl := (holds_mono hS h d s' h').1.length_le
    obtain ⟨m', hm', g⟩ := key _ s' h' (by omega) (.inl (by omega))
    exact ⟨m', by omega, g⟩
  · exact key n s h hj (.inl hk)

/-- What the panel says is handled. -/
theorem said_told (hS : Schedule h0 ops) {n : Nat} {s : Now} (h : Holds h0 ops n s) {j : Nat}
    (hj : j < s.home.said.length) :
    ∃ m, n ≤ m ∧ ∃ s', Holds h0 ops m s' ∧ j < (toldTo s'.home.obs).length := by
  refine eventually (lt := Nearer) nearer_wf
    (At := fun n s => Holds h0 ops n s ∧ j < s.home.said.length) (who := fun n => (ops n).who)
    hS.fair (rank := fun s : Now => (j + 1 - (toldTo s.home.obs).length, s.stage,
      toGo s.home.bridge.panel s.msgs s.stage))
    (helper := fun s => aide s.home.bridge.panel s.msgs s.stage) (fun s => aide_chance _ _ _) ?_
    n s ⟨h, hj⟩
  intro n s ⟨h, hj⟩
  by_cases hg : j < (toldTo s.home.obs).length
  · exact .inl ⟨s, h, hg⟩
  · obtain ⟨s', h1, h2, h3⟩ := holds_next hS h
    right
    right
    have hsl := h3.said.length_le
    have hms : s.msgs ≠ [] := by
      intro h0
      have := congrArg List.length h.2.books.said
      rw [h0, List.append_nil] at this
      omega
    refine ⟨s', ⟨h1, by omega⟩, ?_⟩
    have hread : ∀ m, toldTo s'.home.obs = toldTo s.home.obs ++ [m] →
        j + 1 - (toldTo s'.home.obs).length < j + 1 - (toldTo s.home.obs).length := by
      intro m hm
      rw [hm, List.length_append, List.length_singleton]
      omega
    cases h2 with
    | down hlt =>
      left
      rw [h3.told hlt]
      exact nearer_second hlt
    | read m ht => exact .inl (nearer_first (hread m ht))
    | reply m ht => exact .inl (nearer_first (hread m ht))
    | nearer he ht hlt =>
      left
      rw [ht, he]
      exact nearer_third hlt
    | nothing _ _ _ h0 => exact absurd h0 hms
    | stay he ht e1 e2 e3 =>
      right
      refine ⟨?_, ?_, e3⟩
      · rw [ht, he, e1]
      · rw [he, e2]

/-- While a reply is awaited, none has come. -/
theorem await_on (hS : Schedule h0 ops) {n : Nat} {s : Now} (h : Holds h0 ops n s)
    (hk : s.stage = 0) (hno : ∀ m s', n ≤ m → Holds h0 ops m s' → s'.stage ≠ 4) :
    ∀ d, ∃ s', Holds h0 ops (n + d) s' ∧ s'.stage = 0 ∧
      ∃ l, toldTo s'.home.obs = toldTo s.home.obs ++ l ∧ (∀ r, .sendCode r ∉ l) ∧
        given s'.home.obs = given s.home.obs := by
  intro d
  induction d with
  | zero => exact ⟨s, h, hk, [], (List.append_nil _).symm, (fun _ h => by cases h), rfl⟩
  | succ d ih =>
    obtain ⟨s1, h1, hk1, l, hl1, hl2, hl3⟩ := ih
    obtain ⟨s2, h2, h3, h4⟩ := holds_next hS h1
    have hg := (h4.same hk1).trans hl3
    cases h3 with
    | down hlt => omega
    | read m ht he _ _ hm =>
      refine ⟨s2, h2, by omega, l ++ [m], by rw [ht, hl1, List.append_assoc], ?_, hg⟩
      intro r hr
      rcases List.mem_append.mp hr with hr | hr
      · exact hl2 r hr
      · exact hm hk1 r (List.mem_singleton.mp hr).symm
    | reply m _ _ h0 => exact absurd h0 (hno _ s2 (by omega) h2)
    | nearer he ht _ => exact ⟨s2, h2, by omega, l, by rw [ht, hl1], hl2, hg⟩
    | nothing he ht _ _ => exact ⟨s2, h2, by omega, l, by rw [ht, hl1], hl2, hg⟩
    | stay he ht _ _ _ => exact ⟨s2, h2, by omega, l, by rw [ht, hl1], hl2, hg⟩

theorem await_coming {h : Home} {reqs : List Command} {msgs : List Message} {k : Nat}
    (hi : HomeInv h reqs msgs k) (hk : k = 0) (hr : reqs = []) : ∃ r, .sendCode r ∈ msgs := by
  subst hk hr
  have hs := hi.stage
  cases hs with
  | await q w h1 h2 h3 h4 h5 =>
    rcases h4 with h4 | h4
    · exact absurd rfl h4
    · exact h4

/-- The bridge comes to rest. -/
theorem comes_to_rest (hS : Schedule h0 ops) {n : Nat} {s : Now} (h : Holds h0 ops n s) :
    ∃ m, n ≤ m ∧ ∃ s', Holds h0 ops m s' ∧ s'.stage = 4 := by
  have main : ∀ n s, Holds h0 ops n s → s.stage = 0 →
      ∃ m, n ≤ m ∧ ∃ s', Holds h0 ops m s' ∧ s'.stage = 4 := by
    intro n s h hk
    refine Classical.byContradiction fun hcon => ?_
    have hno : ∀ m s', n ≤ m → Holds h0 ops m s' → s'.stage ≠ 4 :=
      fun m s' hm h' he => hcon ⟨m, hm, s', h', he⟩
    have hon := await_on hS h hk hno
    -- every command is heard
    obtain ⟨d1, s1, h1, hk1, hreq⟩ :
        ∃ d s', Holds h0 ops (n + d) s' ∧ s'.stage = 0 ∧ s'.reqs = [] := by
      by_cases h0 : (given s.home.obs).length = 0
      · refine ⟨0, s, h, hk, ?_⟩
        have := reqs_length h.2.books
        exact List.length_eq_zero_iff.mp (by omega)
      · obtain ⟨m, hm, s', h', hl⟩ :=
          given_heard hS h (j := (given s.home.obs).length - 1) (by omega)
        obtain ⟨d, rfl⟩ := Nat.le.dest hm
        obtain ⟨s1, h1, hk1, _, _, _, hg⟩ := hon d
        refine ⟨d, s1, h1, hk1, ?_⟩
        have := reqs_length h1.2.books
        rw [hg] at this
        rw [holds_home h1 h'] at hl
        exact List.length_eq_zero_iff.mp (by omega)
    -- so a reply is under way
    obtain ⟨r, hr⟩ := await_coming h1.2 hk1 hreq
    -- and it is handled
    have hpos : 0 < s1.msgs.length := List.length_pos_of_mem hr
    have hsl := congrArg List.length h1.2.books.said
    rw [List.length_append] at hsl
    obtain ⟨m2, hm2, s2, h2, hl2⟩ := said_told hS h1 (j := s1.home.said.length - 1) (by omega)
    obtain ⟨d2, rfl⟩ := Nat.le.dest hm2
    obtain ⟨s3, h3, _, l, hl, hno', _⟩ := await_on hS h1 hk1
      (fun m s' hm h' => hno m s' (by omega) h') d2
    rw [← holds_home h2 h3] at hl2
    have hp := (holds_mono hS h1 d2 s3 h3).2.1
    rw [← h1.2.books.said, ← h3.2.books.said, hl, List.append_assoc,
      List.prefix_append_right_inj] at hp
    have hp' : s1.msgs <+: l := by
      refine List.prefix_of_prefix_length_le hp (List.prefix_append _ _) ?_
      rw [hl, List.length_append] at hl2
      omega
    exact hno' r (hp'.subset hr)
  by_cases h4 : s.stage = 4
  · exact ⟨n, Nat.le_refl _, s, h, h4⟩
  · by_cases hk : s.stage = 0
    · exact main n s h hk
    · obtain ⟨m, hm, s', h', hk'⟩ := stage_passes hS h
        ⟨by omega, by have := stage_le h.2.stage; omega⟩
      obtain ⟨m', hm', g⟩ := main m s' h' hk'
      exact ⟨m', by omega, g⟩

theorem quiet_of {h : Home} {reqs : List Command} {msgs : List Message} {k : Nat}
    (hi : AtStage h reqs msgs k) (hk : k = 4) : Quiet h.bridge ∧ h.posted = given h.obs := by
  subst hk
  cases hi with
  | quiet h1 h2 h3 h4 => exact ⟨⟨h1, h2, h3⟩, h4⟩

theorem given_posted {h : Home} {reqs : List Command} {msgs : List Message} {k : Nat}
    (hi : AtStage h reqs msgs k) : given h.obs <+: h.posted := by
  cases hi with
  | quiet _ _ _ h4 => rw [h4]; exact List.prefix_refl _
  | posted p c _ _ _ _ _ h6 => rw [h6]; exact snoc_prefix _ _
  | ready c _ _ _ _ h5 => rw [h5]; exact snoc_prefix _ _
  | flush q _ _ _ _ h5 => rw [h5]; exact List.prefix_refl _
  | await q w _ _ _ _ h5 => rw [h5]; exact List.prefix_refl _

/-- If all of `l` fits, it is there. -/
theorem said_all (hS : Schedule h0 ops) {n : Nat} {s : Now} (h : Holds h0 ops n s) :
    ∃ m, n ≤ m ∧ ∃ s', Holds h0 ops m s' ∧ s.home.said <+: toldTo s'.home.obs := by
  by_cases h0 : s.home.said.length = 0
  · refine ⟨n, Nat.le_refl _, s, h, ?_⟩
    rw [List.length_eq_zero_iff.mp h0]
    exact List.nil_prefix
  · obtain ⟨m, hm, s', h', hl⟩ := said_told hS h (j := s.home.said.length - 1) (by omega)
    obtain ⟨d, rfl⟩ := Nat.le.dest hm
    refine ⟨_, hm, s', h', ?_⟩
    have hp := (holds_mono hS h d s' h').2.1
    rw [← h'.2.books.said] at hp
    exact List.prefix_of_prefix_length_le hp (List.prefix_append _ _) (by omega)

theorem given_all (hS : Schedule h0 ops) {n : Nat} {s : Now} (h : Holds h0 ops n s) :
    ∃ m, n ≤ m ∧ ∃ s', Holds h0 ops m s' ∧
      (given s.home.obs).map commandBytes <+: s'.home.heard := by
  by_cases h0 : (given s.home.obs).length = 0
  · refine ⟨n, Nat.le_refl _, s, h, ?_⟩
    rw [List.length_eq_zero_iff.mp h0]
    exact List.nil_prefix
  · obtain ⟨m, hm, s', h', hl⟩ := given_heard hS h (j := (given s.home.obs).length - 1) (by omega)
    obtain ⟨d, rfl⟩ := Nat.le.dest hm
    refine ⟨_, hm, s', h', ?_⟩
    have hp := (holds_mono hS h d s' h').1.map commandBytes
    rw [← h'.2.books.heard] at hp
    refine List.prefix_of_prefix_length_le hp (List.prefix_append _ _) ?_
    rw [List.length_map]
    omega

/-- **C104.** A bridge that has started, on a connection that is up, together with a panel that
confirms each command it gets and otherwise says what it likes (but no zone status report, C51), and
a broker where commands are posted while none is under way (C52).  Everyone acts when they like, in
pieces of any size, but keeps acting; the task of the bridge runs only when woken.  Then nothing ever
panics; the panel hears only what was posted, each command once and in order, and the bridge handles
only what the panel said, each message once and in order; and at some later time all that was posted
so far is heard, all that the panel said so far is handled, and the bridge is ready for the next
command. -/
theorem C104_carried_out {cfg : Cfg} {p0 : Panel} (hc : Connected p0) (hv : WfView p0) {b0 : Bridge}
    (hs : Bridge.start cfg p0 = .ok b0) (hd : DistinctNames cfg) (hu : Lively p0.conn)
    {line : Bytes} {early : List Message}
    (he : ∀ m ∈ early, WfMessage m ∧ ∀ r, m ≠ .zoneStatusReport r)
    (hl : p0.conn.rd.buffer ++ dataBytes p0.conn.sock.incoming ++ line = early.flatMap frame)
    {ops : Nat → HomeOp} (hf : KeepActing ops)
    (hp : ∀ n h, Home.after (Home.start b0 line early) ops n = .ok h → (ops n).Proper h) (n : Nat) :
    ∃ h, Home.after (Home.start b0 line early) ops n = .ok h ∧
      h.heard <+: h.posted.map commandBytes ∧ toldTo h.obs <+: h.said ∧
      ∃ m h', n ≤ m ∧ Home.after (Home.start b0 line early) ops m = .ok h' ∧
        h.posted.map commandBytes <+: h'.heard ∧ h.said <+: toldTo h'.obs ∧ Quiet h'.bridge := by
  have hS : Schedule (Home.start b0 line early) ops :=
    ⟨⟨_, _, _, home_start hc hv hs hd hu he hl⟩, hp, hf⟩
  obtain ⟨s, h⟩ := holds_at hS n
  refine ⟨s.home, h.1, ?_, ?_, ?_⟩
  · refine List.IsPrefix.trans ?_ ((given_posted h.2.stage).map commandBytes)
    rw [← h.2.books.heard]
    exact List.prefix_append _ _
  · rw [← h.2.books.said]
    exact List.prefix_append _ _
  · obtain ⟨m1, hm1, s1, h1, hk1⟩ := comes_to_rest hS h
    obtain ⟨m2, hm2, s2, h2, hh⟩ := given_all hS h1
    obtain ⟨m3, hm3, s3, h3, ht⟩ := said_all hS h2
    obtain ⟨m4, hm4, s4, h4, hk4⟩ := comes_to_rest hS h3
    obtain ⟨d1, rfl⟩ := Nat.le.dest hm1
    obtain ⟨d2, rfl⟩ := Nat.le.dest hm2
    obtain ⟨d3, rfl⟩ := Nat.le.dest hm3
    obtain ⟨d4, rfl⟩ := Nat.le.dest hm4
    have g1 := holds_mono hS h d1 s1 h1
    have g2 := holds_mono hS h1 d2 s2 h2
    have g3 := holds_mono hS h2 d3 s3 h3
    have g4 := holds_mono hS h3 d4 s4 h4
    refine ⟨_, s4.home, by omega, h4.1, ?_, ?_, (quiet_of h4.2.stage hk4).1⟩
    · have h5 := g1.2.2.2.1.map commandBytes
      rw [(quiet_of h1.2.stage hk1).2] at h5
      exact h5.trans (hh.trans (g3.2.2.1.trans g4.2.2.1))
    · exact g1.2.1.trans (g2.2.1.trans (ht.trans g4.2.2.2.2))

/-- A confirmation. -/
def noted : SendCode := ⟨#v[0, 0, 0, 0, 0, 0], 2, ⟨3⟩⟩

/-- Whose turn it is. -/
def turn : Nat → HomeOp
  | 0 => .tick ⟨1, 0, 0⟩ false
  | 1 => .accept 3
  | 2 => .answer noted
  | _ => .deliver 2

/-- A schedule: first a command is posted, then all take turns. -/
def turns : Nat → HomeOp
  | 0 => .post ⟨bs "elkm1/42/area/home/ha_command", bs "ARM_AWAY"⟩
      (.arm ⟨⟨1⟩, .armedAway, ⟨#v[48, 48, 49, 50, 51, 52]⟩⟩)
  | n + 1 => turn (n % 4)

theorem turns_succ (n : Nat) : turns (n + 1) = turn (n % 4) := rfl

theorem turns_at (n : Nat) : turns (4 * n + 1) = .tick ⟨1, 0, 0⟩ false ∧
    turns (4 * n + 2) = .accept 3 ∧ turns (4 * n + 3) = .answer noted ∧
    turns (4 * n + 4) = .deliver 2 := by
  refine ⟨?_, ?_, ?_, ?_⟩
  · rw [turns_succ, show (4 * n) % 4 = 0 by omega]; rfl
  · rw [turns_succ, show (4 * n + 1) % 4 = 1 by omega]; rfl
  · rw [turns_succ, show (4 * n + 2) % 4 = 2 by omega]; rfl
  · rw [turns_succ, show (4 * n + 3) % 4 = 3 by omega]; rfl

theorem turns_fair : KeepActing turns := by
  intro w hw n
  obtain ⟨h1, h2, h3, h4⟩ := turns_at n
  cases w with
  | library => exact ⟨4 * n + 1, by omega, by rw [h1]; rfl⟩
  | socket => exact ⟨4 * n + 2, by omega, by rw [h2]; rfl⟩
  | panel => exact ⟨4 * n + 3, by omega, by rw [h3]; rfl⟩
  | line => exact ⟨4 * n + 4, by omega, by rw [h4]; rfl⟩
  | chance => exact absurd rfl hw

/-- Non-vacuity: the panel hears `ARM_AWAY`, and the bridge comes to rest. -/
theorem C104_sample : ∃ b0, Bridge.start sampleCfg (samplePanel []) = .ok b0 ∧
    ∃ m h, Home.after (Home.start b0 [] []) turns m = .ok h ∧
      [bs "0Da11001234003F\r\n"] <+: h.heard ∧ Quiet h.bridge := by
  have key : holds (Bridge.start sampleCfg (samplePanel [])) (fun b => decide
      (b.inbox = [] ∧ b.waiting = .select ∧ b.panel.cmdState = .idle ∧ b.cfg = sampleCfg ∧
        b.code = ⟨#v[48, 48, 49, 50, 51, 52]⟩)) = true := by decide +kernel
  obtain ⟨b0, h1, h2⟩ := of_holds key
  simp only [decide_eq_true_eq] at h2
  refine ⟨b0, h1, ?_⟩
  obtain ⟨h, h3, _, _, m, h', _, h4, h5, _, h6⟩ := C104_carried_out (samplePanel_connected [])
    (samplePanel_view []) h1 sampleCfg_distinct
    (show Lively (samplePanel []).conn from ⟨rfl, rfl, (fun _ h => by cases h), (fun _ h => by cases h)⟩)
    (line := []) (early := []) (fun _ h => by cases h) rfl turns_fair (by
      intro n h hn
      cases n with
      | zero =>
        cases hn
        refine ⟨⟨h2.1, h2.2.1, h2.2.2.1⟩, ?_⟩
        show Asks b0.cfg b0.code _ _
        rw [h2.2.2.2.1, h2.2.2.2.2]
        exact .arm (1, ⟨bs "home"⟩) .armedAway (by decide) (by decide +kernel) .away
      | succ n =>
        obtain ⟨g1, g2, g3, g4⟩ := turns_at (n / 4)
        have hcase : n + 1 = 4 * (n / 4) + 1 ∨ n + 1 = 4 * (n / 4) + 2 ∨ n + 1 = 4 * (n / 4) + 3 ∨
            n + 1 = 4 * (n / 4) + 4 := by omega
        rcases hcase with e | e | e | e
        · rw [e, g1]; exact trivial
        · rw [e, g2]; exact trivial
        · rw [e, g3]; exact ⟨by decide, by decide⟩
        · rw [e, g4]; exact trivial) 1
  refine ⟨m, h', h4, ?_, h6⟩
  have hp : h.posted = [.arm ⟨⟨1⟩, .armedAway, ⟨#v[48, 48, 49, 50, 51, 52]⟩⟩] := by
    have h3 : (Home.start b0 [] []).step (turns 0) = .ok h := h3
    cases h3
    rfl
  rw [hp] at h5
  exact (by decide +kernel : [bs "0Da11001234003F\r\n"] =
    List.map commandBytes [.arm ⟨⟨1⟩, .armedAway, ⟨#v[48, 48, 49, 50, 51, 52]⟩⟩]) ▸ h5

end Elk.Props
