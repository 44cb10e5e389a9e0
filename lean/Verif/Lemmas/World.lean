import Verif.Lemmas.Main
import Verif.Spec.World
/-!
# Lemmas about the bridge program among other clients of the broker
-/

namespace Elk
open Spec Props
open scoped List

/-! ## Topics -/

/-- The last character tells command topics from the others. -/
theorem commandTopic_last {t : Bytes} (h : CommandTopic t) : t.getLast? = some (b' 'd') := by
  obtain ⟨pre, name, rfl⟩ := h
  rw [List.getLast?_append]
  rfl

theorem not_command {t u : Bytes} {v : Bytes} (h : t = u ++ v) (hv : v.getLast? ≠ some (b' 'd'))
    (hn : v ≠ []) : ¬ CommandTopic t := by
  intro hc
  have := commandTopic_last hc
  rw [h, List.getLast?_append] at this
  cases hl : v.getLast? with
  | none => exact hn (List.getLast?_eq_none_iff.mp hl)
  | some x =>
    rw [hl] at this hv
    exact hv this

theorem areaState_not {pre n} : ¬ CommandTopic (areaStateTopic pre n) :=
  not_command (v := bs "/ha_state") rfl (by decide) (by decide)

theorem zoneState_not {pre n} : ¬ CommandTopic (zoneStateTopic pre n) :=
  not_command (v := bs "/ha_state") rfl (by decide) (by decide)

theorem avail_not {pre} : ¬ CommandTopic (availabilityTopic pre) :=
  not_command (v := bs "/availability") rfl (by decide) (by decide)

theorem event_not {pre} : ¬ CommandTopic (eventTopic pre) :=
  not_command (v := bs "/event") rfl (by decide) (by decide)

/-- No bridge publishes on a command topic. -/
theorem log_not {cfg : Cfg} {b : Bridge} (h : Reached cfg b) : ∀ m ∈ b.log, ¬ CommandTopic m.topic := by
  obtain ⟨p0, b0, ops, obs, hc, hw, hs, hr⟩ := h
  have hg := start_good_bridge hc hw hs
  have hh := bhist_of_run hr
  obtain ⟨r0, hr0⟩ := hc.arming
  obtain ⟨z0, hz0⟩ := hc.zones
  obtain ⟨_, code, _, rfl⟩ := (start_iff hr0 hz0 (hw z0 hz0)).mp hs
  obtain ⟨_, _, _, e2⟩ := bhist_static hh
  intro m hm
  rw [e2] at hm
  rcases List.mem_append.mp hm with hm | hm
  · rcases List.mem_append.mp hm with hm | hm
    · rcases List.mem_append.mp hm with hm | hm
      · rcases List.mem_append.mp hm with hm | hm
        · unfold discoveryLog at hm
          split at hm
          · unfold discoveryMsgs at hm
            rcases List.mem_append.mp hm with h | h <;> obtain ⟨_, _, rfl⟩ := List.mem_map.mp h
            · exact not_command (v := bs "/config") rfl (by decide) (by decide)
            · exact not_command (v := bs "/config") rfl (by decide) (by decide)
          · cases hm
        · obtain ⟨n, hn⟩ := areaMsgs_topic hm
          rw [hn]; exact areaState_not
      · obtain ⟨n, hn⟩ := zoneMsgs_topic hm
        rw [hn]; exact zoneState_not
    · rw [List.mem_singleton.mp hm]; exact avail_not
  · rcases published_topics hh hg m hm with ⟨_, h⟩ | ⟨_, ⟨a, _, h⟩ | ⟨a, _, h⟩⟩
    · rw [h]; exact event_not
    · rw [h]; exact areaState_not
    · rw [h]; exact zoneState_not

theorem reached_subs {cfg : Cfg} {b : Bridge} (h : Reached cfg b) :
    ∀ t ∈ b.subscribed, CommandTopic t := by
  obtain ⟨p0, b0, ops, obs, hc, hw, hs, hr⟩ := h
  obtain ⟨r0, hr0⟩ := hc.arming
  obtain ⟨z0, hz0⟩ := hc.zones
  obtain ⟨_, code, _, rfl⟩ := (start_iff hr0 hz0 (hw z0 hz0)).mp hs
  obtain ⟨_, _, e, _⟩ := bhist_static (bhist_of_run hr)
  intro t ht
  rw [e] at ht
  obtain ⟨a, _, rfl⟩ := List.mem_map.mp ht
  exact ⟨_, _, rfl⟩

theorem good_not {p : Prog} {out : List Published} (h : ProgGood out p) :
    ∀ m ∈ out, ¬ CommandTopic m.topic := by
  match p with
  | .dialing s => rw [show out = [] from h]; simp
  | .connecting s i => rw [h.1]; simp
  | .running s b => rw [h.1]; exact log_not h.2

/-! ## Histories -/

theorem world_snoc (render : Json → Bytes) (ops : List WOp) (op : WOp) (w : World) :
    World.run render (ops ++ [op]) w = (World.run render ops w).step render op := by
  unfold World.run
  rw [List.foldl_append]
  rfl

theorem posted_append (a b : List WOp) : posted (a ++ b) = posted a ++ posted b := by
  unfold posted
  exact List.filterMap_append

theorem takenUp_append (a b : List BObs) : takenUp (a ++ b) = takenUp a ++ takenUp b := by
  unfold takenUp
  exact List.filterMap_append

theorem asked_append (a b : List BObs) : asked (a ++ b) = asked a ++ asked b := by
  unfold asked
  exact List.filterMap_append

theorem given_append (a b : List BObs) : given (a ++ b) = given a ++ given b := by
  unfold given
  exact List.filterMap_append

/-- The messages waiting in the program's channel. -/
def inboxOf (s : Site) : List Publish :=
  match s.prog with
  | some (.running _ b) => b.inbox
  | _ => []

/-- The command the program has not yet handed to the panel. -/
def heldOf (s : Site) : List Command :=
  match s.prog with
  | some (.running _ b) => held b.waiting
  | _ => []

/-- What was delivered in an operation. -/
def broughtBy : POp → List Publish
  | .op (.deliver p) => [p]
  | _ => []

/-- A command message taken up is understood by the bridge. -/
def Understood (s : Site) (p : Publish) (c : Command) : Prop :=
  ∃ cf b code, Running s cf b ∧ ArmCode.tryFromNum cf.cfg.elk.code = .ok code ∧
    Asks cf.cfg code p (some c)

/-- What one step of the program does to the messages and commands. -/
theorem prog_flow {s : Site} {p p' : Prog} {out sent : List Published} {op : POp}
    (hs : s.prog = some p) (hg : ProgGood sent p) (h : p.step op = .ok (out, p')) {s' : Site}
    (hs' : s'.prog = some p') :
    (∃ rest, takenUp (p.observe op) ++ inboxOf s' = inboxOf s ++ rest ∧ rest <+ broughtBy op) ∧
    heldOf s ++ asked (p.observe op) = given (p.observe op) ++ heldOf s' ∧
    ∀ q c, .taken q (some c) ∈ p.observe op → Understood s q c := by
  have fresh : ∀ {s0 : Setup} {ph out p' sent'}, ProgGood sent' p' →
      Prog.connected s0 ph = .ok (out, p') → ∀ {s' : Site}, s'.prog = some p' →
        inboxOf s' = [] ∧ heldOf s' = [] := by
    intro s0 ph out p' _ hg h s' hs'
    match ph with
    | .asking i => cases h; unfold inboxOf heldOf; rw [hs']; exact ⟨rfl, rfl⟩
    | .finished (.error e) => cases h
    | .finished (.ok p) =>
      have h : (Bridge.start s0.cfg p >>= fun b => Except.ok (b.log, Prog.running s0 b)) =
        .ok (out, p') := h
      rw [P_bind_ok] at h
      obtain ⟨b, h1, h2⟩ := h
      cases h2
      unfold Bridge.start at h1
      simp only [P_bind_ok] at h1
      obtain ⟨_, _, _, _, _, _, _, _, _, _, _, _, h1⟩ := h1
      cases h1
      unfold inboxOf heldOf
      rw [hs']
      exact ⟨rfl, rfl⟩
  obtain ⟨hg', _⟩ := prog_good hg h
  match p, op with
  | .running c b, .op op =>
    have h : (b.step op >>= fun x => Except.ok (x.1.out, Prog.running c x.2)) = .ok (out, p') := h
    rw [P_bind_ok] at h
    obtain ⟨⟨o, b'⟩, h1, h2⟩ := h
    cases h2
    have ho : Prog.observe (.running c b) (.op op) = [o] := by
      unfold Prog.observe
      dsimp only
      rw [h1]
    rw [ho]
    obtain ⟨hbg, hcfg⟩ := reached_good hg.2
    have hcase := bstep_cases h1
    have eh : BHist b [op] [o] b' := .cons hcase .nil
    refine ⟨?_, ?_, ?_⟩
    · refine ⟨delivered [op], ?_, ?_⟩
      · have := taken_hist eh
        unfold inboxOf
        rw [hs, hs']
        exact this
      · cases op <;> exact List.Sublist.refl _
    · have := asked_hist eh
      unfold heldOf
      rw [hs, hs']
      exact this
    · intro q cmd hq
      refine ⟨c, b, b.code, hs, ?_, ?_⟩
      · rw [← hcfg]; exact hbg.code
      · rw [← hcfg]; exact taken_asks eh hbg q _ hq
  | .running c b, .dialed r =>
    cases h
    unfold inboxOf heldOf
    rw [hs, hs']
    exact ⟨⟨[], (List.append_nil _).symm, List.nil_sublist _⟩, List.append_nil _, fun q c h => by cases h⟩
  | .dialing c, op =>
    have e : inboxOf s' = [] ∧ heldOf s' = [] := by
      match op with
      | .dialed (.error _) => cases h
      | .dialed (.ok ()) =>
        have h : (Init.start {} >>= fun ph => Prog.connected c ph) = .ok (out, p') := h
        rw [P_bind_ok] at h
        obtain ⟨ph, _, h2⟩ := h
        exact fresh hg' h2 hs'
      | .op _ => cases h; unfold inboxOf heldOf; rw [hs']; exact ⟨rfl, rfl⟩
    have e1 : inboxOf s = [] ∧ heldOf s = [] := by
      unfold inboxOf heldOf; rw [hs]; exact ⟨rfl, rfl⟩
    have e2 : Prog.observe (.dialing c) op = [] := by cases op <;> rfl
    rw [e.1, e.2, e1.1, e1.2, e2]
    exact ⟨⟨[], rfl, List.nil_sublist _⟩, rfl, fun q c h => by cases h⟩
  | .connecting c i, op =>
    have e : inboxOf s' = [] ∧ heldOf s' = [] := by
      have go : ∀ {q : InitOp}, (i.step q >>= fun x => Prog.connected c x.2) = .ok (out, p') →
          inboxOf s' = [] ∧ heldOf s' = [] := by
        intro q h
        rw [P_bind_ok] at h
        obtain ⟨⟨_, ph⟩, _, h2⟩ := h
        exact fresh hg' h2 hs'
      match op with
      | .dialed _ => cases h; unfold inboxOf heldOf; rw [hs']; exact ⟨rfl, rfl⟩
      | .op (.arrive r) => exact go h
      | .op (.writable r) => exact go h
      | .op (.tick cx pf) => exact go h
      | .op (.deliver q) => cases h; unfold inboxOf heldOf; rw [hs']; exact ⟨rfl, rfl⟩
    have e1 : inboxOf s = [] ∧ heldOf s = [] := by
      unfold inboxOf heldOf; rw [hs]; exact ⟨rfl, rfl⟩
    have e2 : Prog.observe (.connecting c i) op = [] := by cases op <;> rfl
    rw [e.1, e.2, e1.1, e1.2, e2]
    exact ⟨⟨[], rfl, List.nil_sublist _⟩, rfl, fun q c h => by cases h⟩

/-- What holds among the other clients. -/
structure WGood (render : Json → Bytes) (w0 : World) (ops : List WOp) (w : World) : Prop where
  idle : w.site.prog = none → w.site.queue = [] ∧ w.subs = [] ∧ w.down = []
  busy : ∀ p, w.site.prog = some p → ∃ sent, ProgGood (sent ++ w.site.queue) p
  subs : ∀ t ∈ w.subs, CommandTopic t
  held : ∀ m ∈ w.site.broker, CommandTopic m.topic → m ∈ w0.site.broker ++ posted ops
  origin : ∀ p ∈ takenUp w.seen ++ inboxOf w.site ++ w.down,
    ∃ m ∈ w0.site.broker ++ posted ops, CommandTopic m.topic ∧ m.forwarded render = p
  asks : ∀ p c, .taken p (some c) ∈ w.seen → AskedIn render w0 ops p c
  pend : given w.seen ++ heldOf w.site <+ asked w.seen
  once : NoneKept w0 ops →
    takenUp w.seen ++ inboxOf w.site ++ w.down <+ (posted ops).map (Published.forwarded render)

theorem noneKept_snoc {w0 : World} {ops : List WOp} {op : WOp} (h : NoneKept w0 (ops ++ [op])) :
    NoneKept w0 ops := by
  intro m hm
  refine h m ?_
  rw [posted_append, ← List.append_assoc]
  exact List.mem_append_left _ hm

theorem mem_snoc {w0 : World} {ops : List WOp} {op : WOp} {m : Published}
    (h : m ∈ w0.site.broker ++ posted ops) : m ∈ w0.site.broker ++ posted (ops ++ [op]) := by
  rw [posted_append, ← List.append_assoc]
  exact List.mem_append_left _ h

theorem askedIn_snoc {render w0} {ops : List WOp} {op : WOp} {p c}
    (h : AskedIn render w0 ops p c) : AskedIn render w0 (ops ++ [op]) p c := by
  obtain ⟨before, cf, b, code, h1, h2⟩ := h
  exact ⟨before, cf, b, code, h1.trans (List.prefix_append _ _), h2⟩

/-- Nothing of the program's own is forwarded to it. -/
theorem echo_nil {render w0 ops} {w : World} (h : WGood render w0 ops w) (op : SOp) :
    w.echo render op = [] := by
  unfold World.echo
  split
  · split
    · rename_i m queue _ hq
      unfold World.forward
      refine if_neg fun hm => ?_
      cases hp : w.site.prog with
      | none => rw [(h.idle hp).2.1] at hm; cases hm
      | some p =>
        obtain ⟨sent, hg⟩ := h.busy p hp
        exact good_not hg m (by rw [hq]; simp) (h.subs _ hm)
    · rfl
  · rfl

theorem kept_nil {render w0 ops} {w : World} (h : WGood render w0 ops w) (hk : NoneKept w0 ops)
    {t : Bytes} (ht : CommandTopic t) : w.kept render t = [] := by
  unfold World.kept
  have : retained w.site.broker t = none := by
    refine retained_none fun m hm hret he => ?_
    rw [← he] at ht
    rw [hk m (h.held m hm ht) ht] at hret
    cases hret
  rw [this]

theorem kept_origin {render} {w : World} {t : Bytes} {p : Publish} (h : p ∈ w.kept render t) :
    ∃ m ∈ w.site.broker, m.topic = t ∧ m.forwarded render = p := by
  unfold World.kept at h
  split at h
  · cases h
  · rename_i payload hr
    obtain ⟨m, hm, _, ht, hp⟩ := retained_some hr
    refine ⟨m, hm, ht, ?_⟩
    rw [List.mem_singleton.mp h]
    unfold Published.forwarded
    rw [ht, hp]

/-- What keeps the invariant, for events other than posts and subscriptions. -/
theorem good_of {render w0} {ops : List WOp} {wop : WOp} {w w' : World} {obs : List BObs}
    (h : WGood render w0 ops w) (hw : w = World.run render ops w0) (hpost : posted [wop] = [])
    (idle : w'.site.prog = none → w'.site.queue = [] ∧ w'.subs = [] ∧ w'.down = [])
    (busy : ∀ p, w'.site.prog = some p → ∃ sent, ProgGood (sent ++ w'.site.queue) p)
    (subs : ∀ t ∈ w'.subs, t ∈ w.subs)
    (broker : ∀ m ∈ w'.site.broker, m ∈ w.site.broker ∨ ¬ CommandTopic m.topic)
    (seen : w'.seen = w.seen ++ obs)
    (flow : takenUp obs ++ inboxOf w'.site ++ w'.down <+ inboxOf w.site ++ w.down)
    (asks : ∀ q c, .taken q (some c) ∈ obs → Understood w.site q c)
    (pend : given obs ++ heldOf w'.site <+ heldOf w.site ++ asked obs) :
    WGood render w0 (ops ++ [wop]) w' := by
  have all : takenUp w'.seen ++ inboxOf w'.site ++ w'.down <+
      takenUp w.seen ++ inboxOf w.site ++ w.down := by
    rw [seen, takenUp_append]
    simp only [List.append_assoc] at flow ⊢
    exact (List.Sublist.refl _).append flow
  refine ⟨idle, busy, fun t ht => h.subs t (subs t ht), ?_, ?_, ?_, ?_, ?_⟩
  · intro m hm hc
    rcases broker m hm with hb | hb
    · exact mem_snoc (h.held m hb hc)
    · exact absurd hc hb
  · intro p hp
    obtain ⟨m, h1, h2⟩ := h.origin p (all.subset hp)
    exact ⟨m, mem_snoc h1, h2⟩
  · intro p c hp
    rw [seen] at hp
    rcases List.mem_append.mp hp with hp | hp
    · exact askedIn_snoc (h.asks p c hp)
    · obtain ⟨cf, b, code, h1, h2, h3⟩ := asks p c hp
      refine ⟨ops, cf, b, code, List.prefix_append _ _, ?_, h2, h3⟩
      rw [← hw]
      exact h1
  · rw [seen, given_append, asked_append, List.append_assoc]
    refine ((List.Sublist.refl _).append pend).trans ?_
    rw [← List.append_assoc]
    exact h.pend.append (List.Sublist.refl _)
  · intro hk
    rw [posted_append, hpost, List.append_nil]
    exact all.trans (h.once (noneKept_snoc hk))

/-- What was delivered in an event at the site. -/
def broughtTo : SOp → List Publish
  | .prog op => broughtBy op
  | _ => []

theorem will_not (c : Setup) : ¬ CommandTopic c.will.topic := avail_not

/-- An event at the site. -/
theorem atSite_good {render w0} {ops : List WOp} {wop : WOp} {w : World}
    (h : WGood render w0 ops w) (hw : w = World.run render ops w0)
    (hpost : posted [wop] = []) (op : SOp) {down : List Publish}
    (hd : w.down = broughtTo op ++ down) :
    WGood render w0 (ops ++ [wop]) (World.atSite render { w with down } op) := by
  have he : ∀ op, World.echo render { w with down } op = [] := fun op =>
    (show World.echo render { w with down } op = w.echo render op by cases op <;> rfl) ▸
      echo_nil h op
  have hsub : down <+ w.down := by rw [hd]; exact List.sublist_append_right _ _
  -- nothing happens to the program
  have same : ∀ {op : SOp} {site : Site}, Site.step w.site op = site →
      site.prog = w.site.prog → (site.prog = none → site.queue = []) →
      (∀ p, site.prog = some p → ∃ sent, ProgGood (sent ++ site.queue) p) →
      (∀ m ∈ site.broker, m ∈ w.site.broker ∨ ¬ CommandTopic m.topic) →
      World.observe w op = [] →
      WGood render w0 (ops ++ [wop]) (World.atSite render { w with down } op) := by
    intro op site hs hp hq hb hbr ho
    have ei : inboxOf site = inboxOf w.site := by unfold inboxOf; rw [hp]
    have eh : heldOf site = heldOf w.site := by unfold heldOf; rw [hp]
    have ho : World.observe { w with down } op = [] := ho
    unfold World.atSite
    dsimp only
    rw [hs, he, ho]
    cases hp' : w.site.prog with
    | none =>
      rw [hp, hp']
      refine good_of (obs := []) h hw hpost (fun _ => ⟨hq (by rw [hp, hp']), rfl, rfl⟩) hb
        (fun t ht => by cases ht) hbr rfl ?_ (fun _ _ h => by cases h) ?_
      · rw [ei]; simp [takenUp]
      · rw [eh]; simp [given, asked]
    | some p =>
      rw [hp, hp']
      refine good_of (obs := []) h hw hpost (fun h => by rw [hp, hp'] at h; cases h) hb
        (fun t ht => ht) hbr rfl ?_ (fun _ _ h => by cases h) ?_
      · rw [ei]; simpa [takenUp] using hsub
      · rw [eh]; simp [given, asked]
  have stay : ∀ {op : SOp}, Site.step w.site op = w.site → World.observe w op = [] →
      WGood render w0 (ops ++ [wop]) (World.atSite render { w with down } op) := fun hs ho =>
    same hs rfl (fun hp => (h.idle hp).1) h.busy (fun m hm => .inl hm) ho
  -- the program ends
  have dies : ∀ {op : SOp} {p : Prog}, Site.step w.site op = w.site.die p →
      World.observe w op = [] →
      WGood render w0 (ops ++ [wop]) (World.atSite render { w with down } op) := by
    intro op p hs ho
    have ho : World.observe { w with down } op = [] := ho
    unfold World.atSite
    dsimp only
    rw [hs, ho]
    unfold Site.die
    dsimp only
    refine good_of (obs := []) h hw hpost (fun _ => ⟨rfl, rfl, rfl⟩) (fun p hp => by cases hp)
      (fun t ht => by cases ht) ?_ rfl ?_ (fun _ _ h => by cases h) ?_
    · intro m hm
      rcases List.mem_append.mp hm with hm | hm
      · exact .inl hm
      · right
        split at hm
        · rw [List.mem_singleton.mp hm]; exact will_not _
        · cases hm
    · simp [takenUp, inboxOf]
    · simp [given, heldOf]
  match op with
  | .launch args file =>
    cases hp : w.site.prog with
    | some p => exact stay (by unfold Site.step; rw [hp]) rfl
    | none =>
      cases hm : Prog.main args file with
      | error e => exact stay (by unfold Site.step; dsimp only; rw [hp, hm]) rfl
      | ok p =>
        obtain ⟨path, t, j, c, _, _, _, _, _, rfl⟩ := (C78_main _ _ _).mp hm
        obtain ⟨_, e2, e3⟩ := h.idle hp
        have hs : Site.step w.site (.launch args file) =
            ⟨some (.dialing c), [], false, w.site.broker⟩ := by
          unfold Site.step; dsimp only; rw [hp, hm]
        unfold World.atSite
        dsimp only
        rw [hs, he]
        refine good_of (obs := []) h hw hpost (fun h => by cases h)
          (fun p hp => ⟨[], by cases hp; rfl⟩) (fun t ht => ht) (fun m hm => .inl hm) rfl ?_
          (fun _ _ h => by cases h) ?_
        · have : down = [] := List.sublist_nil.mp (e3 ▸ hsub)
          simp [takenUp, inboxOf, this]
        · simp [given, heldOf]
  | .prog op =>
    cases hp : w.site.prog with
    | none =>
      exact stay (by unfold Site.step; rw [hp]) (by unfold World.observe; dsimp only; rw [hp])
    | some p =>
      cases hst : p.step op with
      | error e =>
        refine dies (p := p) (by unfold Site.step; rw [hp]; dsimp only; rw [hst]) ?_
        unfold World.observe
        dsimp only
        rw [hp]
        match p, op with
        | .running c b, .op q =>
          cases hb : b.step q with
          | error e => unfold Prog.observe; dsimp only; rw [hb]
          | ok x =>
            have : (b.step q >>= fun x => Except.ok (x.1.out, Prog.running c x.2)) = .error e := hst
            rw [hb] at this
            cases this
        | .running c b, .dialed _ => rfl
        | .dialing _, _ => rfl
        | .connecting _ _, _ => rfl
      | ok x =>
        obtain ⟨out, p'⟩ := x
        obtain ⟨sent, hg⟩ := h.busy p hp
        have hs : Site.step w.site (.prog op) =
            { w.site with prog := some p', queue := w.site.queue ++ out } := by
          unfold Site.step; rw [hp]; dsimp only; rw [hst]
        have ho : World.observe { w with down } (.prog op) = p.observe op := by
          unfold World.observe
          dsimp only
          rw [hp]
        obtain ⟨⟨rest, f1, f2⟩, f3, f4⟩ := prog_flow hp hg hst
          (s' := { w.site with prog := some p', queue := w.site.queue ++ out }) rfl
        unfold World.atSite
        dsimp only
        rw [hs, he, ho]
        refine good_of (obs := p.observe op) h hw hpost (fun h => by cases h) ?_ (fun t ht => ht)
          (fun m hm => .inl hm) rfl ?_ f4 ?_
        · intro q hq
          cases hq
          refine ⟨sent, ?_⟩
          have := (prog_good hg hst).1
          rw [List.append_assoc] at this
          exact this
        · dsimp only
          rw [List.append_nil, f1, hd, List.append_assoc]
          exact (List.Sublist.refl _).append (f2.append (List.Sublist.refl _))
        · rw [f3]; exact List.Sublist.refl _
  | .link =>
    by_cases hp : w.site.prog.isSome = true
    · exact same (site := { w.site with link := true }) (by unfold Site.step; rw [if_pos hp]) rfl
        (fun h => by have h : w.site.prog = none := h; rw [h] at hp; cases hp) h.busy
        (fun m hm => .inl hm) rfl
    · exact stay (by unfold Site.step; rw [if_neg hp]) rfl
  | .transmit =>
    cases hl : w.site.link with
    | false => exact stay (by unfold Site.step; dsimp only; rw [hl]) rfl
    | true =>
      cases hq : w.site.queue with
      | nil => exact stay (by unfold Site.step; dsimp only; rw [hl, hq]) rfl
      | cons m queue =>
        refine same (site := { w.site with queue, broker := w.site.broker ++ [m] })
          (by unfold Site.step; dsimp only; rw [hl, hq]) rfl ?_ ?_ ?_ rfl
        · intro hp
          rw [(h.idle hp).1] at hq
          cases hq
        · intro p hp
          obtain ⟨sent, hg⟩ := h.busy p hp
          refine ⟨sent ++ [m], ?_⟩
          rw [hq] at hg
          simpa using hg
        · intro x hx
          rcases List.mem_append.mp hx with hx | hx
          · exact .inl hx
          · right
            rw [List.mem_singleton.mp hx]
            cases hp : w.site.prog with
            | none => rw [(h.idle hp).1] at hq; cases hq
            | some p =>
              obtain ⟨sent, hg⟩ := h.busy p hp
              exact good_not hg m (by rw [hq]; simp)
  | .unlink =>
    cases hp : w.site.prog with
    | none => exact stay (by unfold Site.step; rw [hp]) rfl
    | some p => exact dies (p := p) (by unfold Site.step; rw [hp]) rfl
  | .kill =>
    cases hp : w.site.prog with
    | none => exact stay (by unfold Site.step; rw [hp]) rfl
    | some p => exact dies (p := p) (by unfold Site.step; rw [hp]) rfl

theorem forward_sub (render : Json → Bytes) (w : World) (m : Published) :
    w.forward render m <+ [m.forwarded render] := by
  unfold World.forward
  split
  · exact List.Sublist.refl _
  · exact List.nil_sublist _

theorem world_good {render w0} (h0 : Dawn w0) (ops : List WOp) :
    WGood render w0 ops (World.run render ops w0) := by
  refine snoc_induction (motive := fun ops => WGood render w0 ops (World.run render ops w0))
    ?_ ?_ ops
  · refine ⟨fun _ => ⟨h0.queue, h0.subs, h0.down⟩, fun p hp => ?_, fun t ht => ?_, fun m hm _ => ?_,
      ?_, fun p c hp => ?_, ?_, fun _ => ?_⟩
    · have hp : w0.site.prog = some p := hp
      rw [h0.prog] at hp; cases hp
    · have ht : t ∈ w0.subs := ht
      rw [h0.subs] at ht; cases ht
    · exact List.mem_append_left _ hm
    · show ∀ p ∈ takenUp w0.seen ++ inboxOf w0.site ++ w0.down, _
      unfold inboxOf
      rw [h0.seen, h0.prog, h0.down]
      intro p hp
      cases hp
    · have hp : _ ∈ w0.seen := hp
      rw [h0.seen] at hp; cases hp
    · show given w0.seen ++ heldOf w0.site <+ asked w0.seen
      unfold heldOf
      rw [h0.seen, h0.prog]
      exact List.Sublist.refl _
    · show takenUp w0.seen ++ inboxOf w0.site ++ w0.down <+ _
      unfold inboxOf
      rw [h0.seen, h0.prog, h0.down]
      exact List.nil_sublist _
  · intro ops wop h
    rw [world_snoc]
    generalize hw : World.run render ops w0 = w at h ⊢
    have still : ∀ {wop}, posted [wop] = [] → WGood render w0 (ops ++ [wop]) w := fun hp =>
      good_of (obs := []) h hw.symm hp h.idle h.busy (fun t ht => ht) (fun m hm => .inl hm)
        (by simp) (by simp [takenUp]) (fun _ _ h => by cases h) (by simp [given, asked])
    match wop with
    | .site op =>
      by_cases hdel : ∃ p, op = .prog (.op (.deliver p))
      · obtain ⟨p, rfl⟩ := hdel
        exact still rfl
      · have e : World.step render w (.site op) = w.atSite render op := by
          unfold World.step
          split <;> rename_i heq <;> cases heq
          · exact absurd ⟨_, rfl⟩ hdel
          · rfl
        rw [e]
        refine atSite_good h hw.symm rfl op (down := w.down) ?_
        match op with
        | .prog (.op (.deliver p)) => exact absurd ⟨_, rfl⟩ hdel
        | .prog (.op (.arrive _)) | .prog (.op (.writable _)) | .prog (.op (.tick _ _)) => rfl
        | .prog (.dialed _) | .launch _ _ | .link | .transmit | .unlink | .kill => rfl
    | .subscribe =>
      unfold World.step
      dsimp only
      split
      · rename_i c b hp hl hs
        obtain ⟨sent, hg⟩ := h.busy _ hp
        have hsub := reached_subs hg.2
        refine ⟨fun hn => ?_, h.busy, hsub, fun m hm hc => mem_snoc (h.held m hm hc), ?_,
          fun p c hp => askedIn_snoc (h.asks p c hp), h.pend, ?_⟩
        · have hn : w.site.prog = none := hn
          rw [hp] at hn; cases hn
        · intro p hp
          dsimp only at hp
          rw [← List.append_assoc] at hp
          rcases List.mem_append.mp hp with hp | hp
          · obtain ⟨m, h1, h2⟩ := h.origin p hp
            exact ⟨m, mem_snoc h1, h2⟩
          · obtain ⟨t, ht, hp⟩ := List.mem_flatMap.mp hp
            obtain ⟨m, h1, h2, h3⟩ := kept_origin hp
            have hc : CommandTopic m.topic := by rw [h2]; exact hsub t ht
            exact ⟨m, mem_snoc (h.held m h1 hc), hc, h3⟩
        · intro hk
          have hk := noneKept_snoc hk
          have : b.subscribed.flatMap (w.kept render) = [] := by
            rw [List.flatMap_eq_nil_iff]
            exact fun t ht => kept_nil h hk (hsub t ht)
          dsimp only
          rw [this, List.append_nil, posted_append]
          exact (h.once hk).trans (by simp [posted])
      · exact still rfl
    | .post m =>
      refine ⟨fun hn => ?_, h.busy, h.subs, fun x hx hc => ?_, ?_,
          fun p c hp => askedIn_snoc (h.asks p c hp), h.pend, ?_⟩
      · obtain ⟨e1, e2, e3⟩ := h.idle hn
        refine ⟨e1, e2, ?_⟩
        show w.down ++ w.forward render m = []
        unfold World.forward
        rw [e2, e3]
        rfl
      · rcases List.mem_append.mp hx with hx | hx
        · exact mem_snoc (h.held x hx hc)
        · rw [List.mem_singleton.mp hx, posted_append]
          simp [posted]
      · intro p hp
        have hp : p ∈ takenUp w.seen ++ inboxOf w.site ++ (w.down ++ w.forward render m) := hp
        rw [← List.append_assoc] at hp
        rcases List.mem_append.mp hp with hp | hp
        · obtain ⟨m, h1, h2⟩ := h.origin p hp
          exact ⟨m, mem_snoc h1, h2⟩
        · unfold World.forward at hp
          split at hp
          · rename_i hm
            rw [List.mem_singleton.mp hp]
            exact ⟨m, by rw [posted_append]; simp [posted], h.subs _ hm, rfl⟩
          · cases hp
      · intro hk
        show takenUp w.seen ++ inboxOf w.site ++ (w.down ++ w.forward render m) <+ _
        rw [← List.append_assoc, posted_append, List.map_append]
        exact (h.once (noneKept_snoc hk)).append (forward_sub render w m)
    | .deliver =>
      unfold World.step
      dsimp only
      split
      · exact still rfl
      · rename_i p down hd
        exact atSite_good h hw.symm rfl (.prog (.op (.deliver p))) hd
    | .lose =>
      refine good_of (obs := []) h hw.symm rfl ?_ h.busy (fun t ht => ht) (fun m hm => .inl hm)
        (by simp [World.step]) ?_ (fun _ _ h => by cases h) (by simp [given, asked, World.step])
      · intro hn
        obtain ⟨e1, e2, e3⟩ := h.idle hn
        refine ⟨e1, e2, ?_⟩
        show w.down.tail = []
        rw [e3]
        rfl
      · show takenUp [] ++ inboxOf w.site ++ w.down.tail <+ _
        exact (List.Sublist.refl _).append (List.tail_sublist _)

/-! ## What was observed earlier does not matter -/

/-- The same with something observed before. -/
def World.since (pre : List BObs) (w : World) : World := { w with seen := pre ++ w.seen }

theorem atSite_since (render : Json → Bytes) (pre : List BObs) (w : World) (op : SOp) :
    (w.since pre).atSite render op = (w.atSite render op).since pre := by
  have e1 : (w.since pre).echo render op = w.echo render op := by cases op <;> rfl
  have e2 : (w.since pre).observe op = w.observe op := by cases op <;> rfl
  have e3 : (w.since pre).site = w.site := rfl
  unfold World.atSite
  dsimp only
  rw [e1, e2, e3]
  cases (w.site.step op).prog <;> simp [World.since]

theorem step_since (render : Json → Bytes) (pre : List BObs) (w : World) (op : WOp) :
    (w.since pre).step render op = (w.step render op).since pre := by
  match op with
  | .site op =>
    by_cases hdel : ∃ p, op = .prog (.op (.deliver p))
    · obtain ⟨p, rfl⟩ := hdel
      rfl
    · have e : ∀ w : World, World.step render w (.site op) = w.atSite render op := by
        intro w
        unfold World.step
        split <;> rename_i heq <;> cases heq
        · exact absurd ⟨_, rfl⟩ hdel
        · rfl
      rw [e, e, atSite_since]
  | .subscribe =>
    have e : (w.since pre).site = w.site ∧ (w.since pre).subs = w.subs := ⟨rfl, rfl⟩
    unfold World.step
    dsimp only
    rw [e.1, e.2]
    split <;> rfl
  | .post m => rfl
  | .deliver =>
    have e : (w.since pre).down = w.down := rfl
    unfold World.step
    dsimp only
    rw [e]
    split
    · rfl
    · exact atSite_since render pre { w with down := _ } _
  | .lose => rfl

theorem run_since (render : Json → Bytes) (pre : List BObs) (ops : List WOp) : ∀ w : World,
    World.run render ops (w.since pre) = (World.run render ops w).since pre := by
  induction ops with
  | nil => intro w; rfl
  | cons op ops ih =>
    intro w
    show World.run render ops ((w.since pre).step render op) = _
    rw [step_since, ih]
    rfl

theorem world_append (render : Json → Bytes) (a b : List WOp) (w : World) :
    World.run render (a ++ b) w = World.run render b (World.run render a w) := by
  unfold World.run
  rw [List.foldl_append]

end Elk
