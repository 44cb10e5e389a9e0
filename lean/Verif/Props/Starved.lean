import Verif.Props.Settle
/-!
# Why the panel has to pause (C109)

`poll_next` looks at the timer of a withheld report only when no packet is at hand.  So a panel that
never pauses keeps the report withheld for ever.
-/

namespace Elk.Props
open Elk.Spec

/-- The door is opened, again and again. -/
def opened : Message := .zoneChange ⟨⟨1⟩, ⟨9⟩⟩

/-- Before each run of the task another message arrives. -/
def busyDay (n : Nat) : HomeOp :=
  match n % 5 with
  | 0 => .say opened
  | 1 => .deliver 999
  | 2 => .tick ⟨1, n, n⟩ false
  | 3 => .accept 3
  | _ => .answer noted

theorem busyDay_at (n : Nat) : busyDay (5 * n) = .say opened ∧ busyDay (5 * n + 1) = .deliver 999 ∧
    busyDay (5 * n + 2) = .tick ⟨1, 5 * n + 2, 5 * n + 2⟩ false ∧
    busyDay (5 * n + 3) = .accept 3 ∧ busyDay (5 * n + 4) = .answer noted := by
  refine ⟨?_, ?_, ?_, ?_, ?_⟩ <;> unfold busyDay
  · rw [show (5 * n) % 5 = 0 by omega]; rfl
  · rw [show (5 * n + 1) % 5 = 1 by omega]; rfl
  · rw [show (5 * n + 2) % 5 = 2 by omega]; rfl
  · rw [show (5 * n + 3) % 5 = 3 by omega]; rfl
  · rw [show (5 * n + 4) % 5 = 4 by omega]; rfl

theorem busyDay_cases (n : Nat) : busyDay n = .say opened ∨ busyDay n = .deliver 999 ∨
    busyDay n = .tick ⟨1, n, n⟩ false ∨ busyDay n = .accept 3 ∨ busyDay n = .answer noted := by
  unfold busyDay
  split
  · exact .inl rfl
  · exact .inr (.inl rfl)
  · exact .inr (.inr (.inl rfl))
  · exact .inr (.inr (.inr (.inl rfl)))
  · exact .inr (.inr (.inr (.inr rfl)))

theorem busyDay_fair : KeepActing busyDay := by
  intro w hw n
  obtain ⟨h1, h2, h3, h4, h5⟩ := busyDay_at n
  cases w with
  | line => exact ⟨5 * n + 1, by omega, by rw [h2]; rfl⟩
  | library => exact ⟨5 * n + 2, by omega, by rw [h3]; rfl⟩
  | socket => exact ⟨5 * n + 3, by omega, by rw [h4]; rfl⟩
  | panel => exact ⟨5 * n + 4, by omega, by rw [h5]; rfl⟩
  | chance => exact absurd rfl hw

theorem busyDay_clock : ClockRuns busyDay := by
  intro t
  refine ⟨t, fun m hm cx pf h => ?_⟩
  rcases busyDay_cases m with h' | h' | h' | h' | h' <;> rw [h'] at h <;> cases h
  exact hm

theorem opened_wf : WfMessage opened ∧ ∀ r, opened ≠ .zoneStatusReport r :=
  ⟨⟨⟨by decide, by decide⟩, by unfold WfZoneStatus; decide⟩, fun _ h => by cases h⟩

theorem busyDay_proper {h : Home} (n : Nat) : (busyDay n).Proper h := by
  rcases busyDay_cases n with e | e | e | e | e <;> rw [e]
  · exact opened_wf
  · exact trivial
  · exact trivial
  · exact trivial
  · exact (show WfMessage (.sendCode noted) from ⟨by decide, by decide⟩)

/-- The report `r` is withheld, and `v` is shown. -/
def Hidden (v r : ArmingStatusReport) (p : Panel) : Prop :=
  p.state.armingStatus = some v ∧ ∃ pa, p.pendingArm = some pa ∧ pa.report = r

/-- Reading that the door is opened leaves a withheld report withheld. -/
theorem hidden_poll {v r : ArmingStatusReport} {p p' : Panel} {cx : Cx} {ev : Event} {w} (hg : Good p)
    (hh : Hidden v r p) (h : p.pollNext cx = .ok (.ready (some (.ok ev)), w, p'))
    (he : ev.msg = some (.ok opened)) : Hidden v r p' := by
  obtain ⟨x, new, h1, h2⟩ := pollNext_cases p cx hg.sane.rd hg.sane.arming
  rw [h] at h1
  cases h1
  cases h2 with
  | packet pkt c ev' w' p'' _ hi =>
    cases hi with
    | bad e _ => cases he
    | skip _ => cases he
    | msg m change p1 completes woken p2 _ _ ht hc =>
      have hm : m = opened := by injection he with he; injection he
      subst hm
      have h1 : p1.state.armingStatus = some v ∧ p1.pendingArm = p.pendingArm := by
        cases ht with
        | zcNone m _ => exact ⟨hh.1, rfl⟩
        | zcSet m z i hi _ _ => exact ⟨hh.1, rfl⟩
        | other m _ g => exact absurd rfl (g _)
      obtain ⟨pa, k1, k2⟩ := hh.2
      cases hc with
      | done => exact ⟨h1.1, pa, h1.2.trans k1, k2⟩
      | busy => exact ⟨h1.1, pa, h1.2.trans k1, k2⟩
      | idle => exact ⟨h1.1, pa, h1.2.trans k1, k2⟩
  | fire => cases he

/-- How many messages are under way at time `n`. -/
def underWay (n : Nat) : Nat :=
  match n % 5 with
  | 1 => 2
  | 2 => 2
  | _ => 1

/-- How things stand on a busy day, after the report has been read. -/
structure Busy (v r : ArmingStatusReport) (n : Nat) (h : Home) : Prop where
  hidden : Hidden v r h.bridge.panel
  awake : h.asleep = none
  posted : h.posted = []
  said : ∃ j, h.said = .armingStatusReport r :: List.replicate j opened
  told : h.said.length = (toldTo h.obs).length + underWay n
  some_ : 1 ≤ (toldTo h.obs).length
  line : h.line = if n % 5 = 1 then frame opened else []

theorem Busy.reqs {v r : ArmingStatusReport} {n : Nat} {h : Home} (hb : Busy v r n h)
    {reqs msgs k} (hi : HomeInv h reqs msgs k) : reqs = [] := by
  have h1 := reqs_length hi.books
  have h2 := (given_posted hi.stage).length_le
  rw [hb.posted, List.length_nil] at h2
  exact List.length_eq_zero_iff.mp (by omega)

theorem Busy.msgs {v r : ArmingStatusReport} {n : Nat} {h : Home} (hb : Busy v r n h)
    {reqs msgs k} (hi : HomeInv h reqs msgs k) : msgs = List.replicate (underWay n) opened := by
  obtain ⟨j, hj⟩ := hb.said
  have h1 := hi.books.said
  have h2 := hb.told
  rw [← h1, List.length_append] at h2
  have hsub : msgs <:+ List.replicate j opened := by
    have : msgs <:+ .armingStatusReport r :: List.replicate j opened := by
      rw [← hj, ← h1]; exact List.suffix_append _ _
    rcases List.suffix_cons_iff.mp this with h | h
    · exfalso
      have h3 := congrArg List.length h1
      have h4 := hb.some_
      rw [List.length_append, hj, h] at h3
      omega
    · exact h
  rw [List.eq_replicate_iff]
  exact ⟨by omega, fun b hb => List.eq_of_mem_replicate (hsub.subset hb)⟩

theorem Busy.stage {v r : ArmingStatusReport} {n : Nat} {h : Home} (hb : Busy v r n h)
    {reqs msgs k} (hi : HomeInv h reqs msgs k) : k = 4 := by
  have hr := hb.reqs hi
  have hm := hb.msgs hi
  have hcom : ¬ Coming reqs msgs := by
    rintro (h | ⟨q, h⟩)
    · exact h hr
    · rw [hm] at h
      cases List.eq_of_mem_replicate h
  have hp := hb.posted
  cases hi.stage with
  | quiet => rfl
  | posted p c _ _ _ _ _ g =>
    rw [hp] at g
    exact absurd (congrArg List.length g) (by simp)
  | ready c _ _ _ _ g =>
    rw [hp] at g
    exact absurd (congrArg List.length g) (by simp)
  | flush q _ _ _ g => exact absurd g hcom
  | await q w _ _ _ g => exact absurd g hcom

theorem busy_tick {v r : ArmingStatusReport} {n : Nat} {h h' : Home} {reqs msgs k}
    (hb : Busy v r n h) (hn : n % 5 = 2) (hi : HomeInv h reqs msgs k) {cx : Cx} {pf : Bool}
    (hs : h.step (.tick cx pf) = .ok h') : Busy v r (n + 1) h' := by
  have hk := hb.stage hi
  obtain ⟨q, _⟩ := quiet_of hi.stage hk
  have hm := hb.msgs hi
  have hu : underWay n = 2 := by unfold underWay; rw [hn]; rfl
  have hw := hi.wires
  have hl : h.line = [] := by rw [hb.line, if_neg (by omega)]
  obtain ⟨x, w, p', hp, _, _, _, _, _, hc⟩ :=
    poll_frames (cx := cx) hw.good.good hw.sound hw.data hw.wf hw.told
  have hlong : ¬ Awaits h.bridge.panel msgs := by
    intro ha
    have h1 := hw.told
    rw [hl, List.append_nil, hm, hu] at h1
    have h2 := ha opened [opened] (by rw [hm, hu]; rfl)
    rw [h1] at h2
    have : (frame opened).length ≤ (List.flatMap frame (List.replicate 2 opened)).length := by
      show _ ≤ (frame opened ++ (frame opened ++ [])).length
      rw [List.length_append]; omega
    omega
  cases hc with
  | wait _ _ _ g => exact absurd g hlong
  | fire _ _ _ _ _ g => exact absurd g hlong
  | got ev m t _ e1 e2 e3 e4 =>
    have hmo : m = opened := by
      rw [hm, hu] at e1
      injection e1 with e1
      exact e1.symm
    subst hmo
    have e : h.step (.tick cx pf) = h.act (.tick cx pf) := if_pos hb.awake
    rw [e] at hs
    unfold Home.act at hs
    split at hs
    · cases hs
    · rename_i o b hb'
      cases hs
      have hst := bstep_cases hb'
      cases hst with
      | event _ _ ev' out w' panel _ hp' =>
        rw [hp] at hp'
        cases hp'
        refine ⟨hidden_poll hw.good.good hb.hidden hp e2, rfl, hb.posted, hb.said, ?_, ?_, ?_⟩
        · show h.said.length = _
          rw [toldTo_snoc, hb.told]
          have ht : toldTo [BObs.event ev out w] = [opened] := by
            show List.filterMap _ [ev] = _
            simp only [List.filterMap_cons, e2, List.filterMap_nil]
          rw [ht, List.length_append, hu]
          have : underWay (n + 1) = 1 := by
            unfold underWay; rw [show (n + 1) % 5 = 3 by omega]; rfl
          rw [this]
          rfl
        · show 1 ≤ _
          rw [toldTo_snoc, List.length_append]
          have := hb.some_
          omega
        · show h.line = _
          rw [hl, if_neg (by omega)]
      | ignored _ _ p inbox _ _ _ _ hq => rw [q.1] at hq; cases hq
      | asked _ _ p inbox _ _ _ _ _ hq => rw [q.1] at hq; cases hq
      | idle _ _ w panel _ _ hp' => rw [hp] at hp'; cases hp'
      | notReady _ _ _ _ hq => rw [q.2.1] at hq; cases hq
      | accepted _ _ _ _ _ hq => rw [q.2.1] at hq; cases hq
      | notFlushed _ _ _ hq => rw [q.2.1] at hq; cases hq
      | sent _ _ _ hq => rw [q.2.1] at hq; cases hq

theorem act_env {h h' : Home} {op : BOp} (ho : (∃ x, op = .arrive x) ∨ ∃ x, op = .writable x)
    (ha : h.act op = .ok h') (hs : h.asleep = none) :
    h'.bridge.panel.state = h.bridge.panel.state ∧
    h'.bridge.panel.pendingArm = h.bridge.panel.pendingArm ∧ h'.asleep = none ∧
    h'.posted = h.posted ∧ h'.said = h.said ∧ toldTo h'.obs = toldTo h.obs ∧ h'.line = h.line := by
  unfold Home.act at ha
  split at ha
  · cases ha
  · rename_i o b hb
    cases ha
    rcases ho with ⟨x, rfl⟩ | ⟨x, rfl⟩
    · cases hb
      refine ⟨rfl, rfl, ?_, rfl, rfl, ?_, rfl⟩
      · show dozes h.asleep (.arrive x) (.env _) = none
        rw [hs]; rfl
      · exact (toldTo_snoc _ _).trans (List.append_nil _)
    · cases hb
      refine ⟨rfl, rfl, ?_, rfl, rfl, ?_, rfl⟩
      · show dozes h.asleep (.writable x) (.env _) = none
        rw [hs]; rfl
      · exact (toldTo_snoc _ _).trans (List.append_nil _)

theorem busyDay_step {v r : ArmingStatusReport} {n : Nat} {h h' : Home} {reqs msgs k}
    (hb : Busy v r n h) (hi : HomeInv h reqs msgs k) (hs : h.step (busyDay n) = .ok h') :
    Busy v r (n + 1) h' := by
  obtain ⟨k, e⟩ : ∃ k, n = 5 * k + n % 5 := ⟨n / 5, by omega⟩
  have hlt : n % 5 = 0 ∨ n % 5 = 1 ∨ n % 5 = 2 ∨ n % 5 = 3 ∨ n % 5 = 4 := by omega
  obtain ⟨d0, d1, d2, d3, d4⟩ := busyDay_at k
  have next : ∀ {a}, (n + 1) % 5 = a → underWay (n + 1) = (match a with | 1 => 2 | 2 => 2 | _ => 1) := by
    intro a ha; unfold underWay; rw [ha]
  have this_ : ∀ {a}, n % 5 = a → underWay n = (match a with | 1 => 2 | 2 => 2 | _ => 1) := by
    intro a ha; unfold underWay; rw [ha]
  rcases hlt with hn | hn | hn | hn | hn
  · rw [show n = 5 * k by omega, d0] at hs
    cases hs
    obtain ⟨j, hj⟩ := hb.said
    refine ⟨hb.hidden, hb.awake, hb.posted, ⟨j + 1, ?_⟩, ?_, hb.some_, ?_⟩
    · show h.said ++ [opened] = _
      rw [hj, List.replicate_succ']
      rfl
    · show (h.said ++ [opened]).length = _
      rw [List.length_append, hb.told, this_ hn, next (a := 1) (by omega)]
      rfl
    · show h.line ++ frame opened = _
      rw [hb.line, if_neg (by omega), if_pos (by omega)]
      rfl
  · rw [show n = 5 * k + 1 by omega, d1] at hs
    have hl : h.line = frame opened := by rw [hb.line, if_pos hn]
    unfold Home.step at hs
    dsimp only at hs
    split at hs
    · rename_i h0; rw [hl] at h0; exact absurd h0 (by decide)
    · obtain ⟨g1, g2, g3, g4, g5, g6, g7⟩ :=
        act_env (h := { h with line := h.line.drop (999 + 1) }) (.inl ⟨_, rfl⟩) hs hb.awake
      refine ⟨?_, g3, g4.trans hb.posted, ?_, ?_, ?_, ?_⟩
      · unfold Hidden; rw [g1, g2]; exact hb.hidden
      · rw [g5]; exact hb.said
      · rw [g5, g6, next (a := 2) (by omega)]
        exact hb.told.trans (by rw [this_ hn]; rfl)
      · rw [g6]; exact hb.some_
      · rw [g7, if_neg (by omega)]
        show h.line.drop 1000 = []
        rw [hl]; decide +kernel
  · rw [show n = 5 * k + 2 by omega, d2] at hs
    exact busy_tick hb hn hi hs
  · rw [show n = 5 * k + 3 by omega, d3] at hs
    obtain ⟨g1, g2, g3, g4, g5, g6, g7⟩ :=
      act_env (h := h) (op := .writable (.accept 4)) (.inr ⟨_, rfl⟩) hs hb.awake
    refine ⟨?_, g3, g4.trans hb.posted, ?_, ?_, ?_, ?_⟩
    · unfold Hidden; rw [g1, g2]; exact hb.hidden
    · rw [g5]; exact hb.said
    · rw [g5, g6, next (a := 4) (by omega)]
      exact hb.told.trans (by rw [this_ hn]; rfl)
    · rw [g6]; exact hb.some_
    · rw [g7, hb.line, if_neg (by omega), if_neg (by omega)]
  · rw [show n = 5 * k + 4 by omega, d4] at hs
    have he := hi.wires.asked
    rw [hb.reqs hi] at he
    have he := (List.append_eq_nil_iff.mp he).1
    unfold Home.step at hs
    rw [he] at hs
    cases hs
    refine ⟨hb.hidden, hb.awake, hb.posted, hb.said, ?_, hb.some_, ?_⟩
    · rw [hb.told, this_ hn, next (a := 0) (by omega)]; rfl
    · rw [hb.line, if_neg (by omega), if_neg (by omega)]

/-- What is checked of the sample once the report has been read. -/
def busyCheck (h : Home) : Bool :=
  decide (h.bridge.panel.state.armingStatus = some (sameReport .disarmed .readyToArm) ∧
    h.bridge.panel.pendingArm.map (·.report) = some armedReport ∧ h.asleep = none ∧
    h.said = [.armingStatusReport armedReport, opened] ∧ toldTo h.obs = [.armingStatusReport armedReport] ∧
    h.line = []) && h.posted.isEmpty

/-- **C109: the pause is needed.**  A day on which everyone keeps acting, the clock runs and timers
fire, but before each run of the task another message of the panel arrives.  The panel has said that
it is armed, and says no more of it; but from some time on, for ever, the broker shows it disarmed. -/
theorem C109_starved : ∃ b0, Bridge.start sampleCfg (samplePanel []) = .ok b0 ∧
    KeepActing busyDay ∧ ClockRuns busyDay ∧
    (∀ n h, (busyDay n).Proper h) ∧
    TimersFire (Home.start b0 (frame (.armingStatusReport armedReport))
      [.armingStatusReport armedReport]) busyDay ∧
    ∀ n, 5 ≤ n → ∃ h, Home.after (Home.start b0 (frame (.armingStatusReport armedReport))
        [.armingStatusReport armedReport]) busyDay n = .ok h ∧
      h.said.filterMap armingSaid = [armedReport] ∧
      retained h.bridge.log (bs "elkm1/42/area/home/ha_state") = some (.text (bs "disarmed")) := by
  have key : holds (Bridge.start sampleCfg (samplePanel [])) (fun b =>
      holds (Home.after (Home.start b (frame (.armingStatusReport armedReport))
        [.armingStatusReport armedReport]) busyDay 5) busyCheck) = true := by decide +kernel
  obtain ⟨b0, h1, h2⟩ := of_holds key
  obtain ⟨h5, h3, h4⟩ := of_holds h2
  have hwf : ∀ m ∈ [Message.armingStatusReport armedReport], WfMessage m ∧
      ∀ r, m ≠ .zoneStatusReport r := by
    intro m hm
    rw [List.mem_singleton] at hm
    subst hm
    exact ⟨trivial, fun _ h => by cases h⟩
  have hlive : Lively (samplePanel []).conn :=
    ⟨rfl, rfl, (fun _ h => by cases h), (fun _ h => by cases h)⟩
  have hS : Schedule (Home.start b0 (frame (.armingStatusReport armedReport))
      [.armingStatusReport armedReport]) busyDay :=
    ⟨⟨_, _, _, home_start (samplePanel_connected []) (samplePanel_view []) h1 sampleCfg_distinct
      hlive hwf rfl⟩, fun n _ _ => busyDay_proper n, busyDay_fair⟩
  have hbusy : ∀ d, ∃ h, Home.after (Home.start b0 (frame (.armingStatusReport armedReport))
      [.armingStatusReport armedReport]) busyDay (5 + d) = .ok h ∧
      Busy (sameReport .disarmed .readyToArm) armedReport (5 + d) h := by
    intro d
    induction d with
    | zero =>
      unfold busyCheck at h4
      simp only [Bool.and_eq_true, decide_eq_true_eq, List.isEmpty_iff] at h4
      obtain ⟨⟨g1, g2, g3, g4, g5, g6⟩, g7⟩ := h4
      obtain ⟨pa, k1, k2⟩ := Option.map_eq_some_iff.mp g2
      refine ⟨h5, h3, ⟨⟨g1, pa, k1, k2⟩, g3, g7, ⟨1, g4⟩, ?_, ?_, g6⟩⟩
      · rw [g4, g5]; rfl
      · rw [g5]; exact Nat.le_refl _
    | succ d ih =>
      obtain ⟨h, g1, g2⟩ := ih
      obtain ⟨s, hs⟩ := holds_at hS (5 + d)
      obtain ⟨s', hs'⟩ := holds_at hS (5 + d + 1)
      have e : s.home = h := Except.ok.inj (hs.1.symm.trans g1)
      subst e
      exact ⟨s'.home, hs'.1, busyDay_step g2 hs.2 (after_succ hs.1 hs'.1)⟩
  refine ⟨b0, h1, busyDay_fair, busyDay_clock, fun n _ => busyDay_proper n, ?_, ?_⟩
  · intro n h pa w _ _ _ _
    obtain ⟨h', g1, g2⟩ := hbusy n
    refine ⟨5 + n, h', by omega, g1, ?_⟩
    rw [g2.awake]
    exact fun h => by cases h
  · intro n hn
    obtain ⟨d, rfl⟩ := Nat.le.dest hn
    obtain ⟨h, g1, g2⟩ := hbusy d
    refine ⟨h, g1, ?_, ?_⟩
    · obtain ⟨j, hj⟩ := g2.said
      rw [hj]
      show armedReport :: List.filterMap armingSaid (List.replicate j opened) = _
      rw [List.filterMap_eq_nil_iff.mpr fun m hm => by rw [List.eq_of_mem_replicate hm]; rfl]
    · obtain ⟨bops, hb⟩ : Ran b0 h := after_ind (I := Ran b0) ⟨[], rfl⟩ step_ran g1
      obtain ⟨r, z, hr, _, _, ha, _⟩ := C49_tracks (samplePanel_connected []) (samplePanel_view [])
        sampleCfg_map sampleCfg_distinct h1 hb
      have er : r = sameReport .disarmed .readyToArm := by
        have := g2.hidden.1
        rw [arming_iff] at hr
        rw [hr] at this
        exact Option.some.inj this
      subst er
      obtain ⟨t, g3, g4⟩ := ha (1, ⟨bs "home"⟩) (by decide) 0 (by decide) (by decide +kernel)
      have ht : t = "disarmed" := by
        cases g3 with
        | triggered h => exact absurd h (show ¬ IsAlarm .noAlarmActive from id)
        | pending h => exact absurd h (by decide +kernel)
        | arming _ _ h => exact absurd h (by decide +kernel)
        | mode => rfl
      rw [← ht]
      exact (by decide +kernel : sampleCfg.prefix ++ bs "/area/" ++ bs "home" ++ bs "/ha_state" =
        bs "elkm1/42/area/home/ha_state") ▸ g4

end Elk.Props
