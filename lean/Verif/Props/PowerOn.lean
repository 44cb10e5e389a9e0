import Verif.Props.Site
import Verif.Props.Settle
/-!
# From power-on to a broker that shows the state of the panel (C110)

`connect` (C101) and the main loop of the bridge (C109) one after the other, with the same panel: what
the panel has said while `connect` ran and nobody has read yet is the first thing the bridge reads.
-/

namespace Elk.Props
open Elk.Spec

/-- While `connect` runs, what the panel says of its own accord is what happens to be said. -/
theorem own_said {S : Server} {ops : Nat → SiteOp} (hz : ∀ n r, ops n ≠ .say (.zoneStatusReport r)) :
    ∀ {n s}, Site.after S ops n = .ok s → s.own.filter tellsZones = [] := by
  intro n
  have lib : ∀ {s s' : Spec.Site} {op}, s.library op = .ok s' → s'.own = s.own := by
    intro s s' op h
    unfold Spec.Site.library at h
    split at h
    · cases h; rfl
    · split at h
      · cases h
      · cases h; rfl
  induction n with
  | zero =>
    intro s h
    have h : (Init.start {} >>= fun phase => .ok (Spec.Site.mk phase 0 [] [] none [] [])) = .ok s := h
    rw [start_ok] at h
    cases h
    rfl
  | succ n ih =>
    intro s' h
    have h : (Site.after S ops n >>= fun s => s.step S (ops n)) = .ok s' := h
    obtain ⟨s, h1, h2⟩ := P_bind_ok.mp h
    have h3 := ih h1
    match he : ops n with
    | .tick cx =>
      rw [he] at h2
      unfold Spec.Site.step at h2
      dsimp only at h2
      split at h2
      · rw [lib h2]; exact h3
      · cases h2; exact h3
    | .accept k =>
      rw [he] at h2
      rw [lib (s := s) (op := .writable (.accept (k + 1))) h2]
      exact h3
    | .deliver k =>
      rw [he] at h2
      unfold Spec.Site.step at h2
      dsimp only at h2
      split at h2
      · cases h2; exact h3
      · rw [lib h2]; exact h3
    | .answer A Z =>
      rw [he] at h2
      cases h2
      have : (s.answer S A Z).own = s.own := by
        unfold Spec.Site.answer
        split
        · rfl
        · split <;> rfl
      rw [this]
      exact h3
    | .say m =>
      rw [he] at h2
      cases h2
      show (s.own ++ [m]).filter tellsZones = []
      rw [List.filter_append, h3]
      cases m with
      | zoneStatusReport r => exact absurd he (hz n r)
      | _ => rfl

theorem heard_arming (outs : List Obs) :
    (heard outs).filterMap armingSaid = (gotten outs).filterMap reportOf := by
  unfold heard
  rw [List.filterMap_filterMap]
  congr 1
  funext ev
  unfold reportOf
  cases hm : ev.msg with
  | none => rfl
  | some x =>
    cases x with
    | error e => rfl
    | ok m => cases m <;> rfl

theorem heard_zones (outs : List Obs) (i : Nat) :
    (heard outs).filterMap (zoneSaid i) = (gotten outs).filterMap (zoneReport i) := by
  unfold heard
  rw [List.filterMap_filterMap]
  congr 1
  funext ev
  unfold zoneReport
  cases hm : ev.msg with
  | none => rfl
  | some x =>
    cases x with
    | error e => rfl
    | ok m => cases m <;> rfl

theorem last_append {α : Type} {a b : List α} {x : α} (h : a.getLast? = some x) :
    (a ++ b).getLast? = some (lastOr b x) := by
  unfold lastOr
  rw [List.getLast?_append, h]
  cases b.getLast? <;> rfl

/-- What `connect` leaves to the bridge: `early` has been said and not been read. -/
structure Handed (cfg : Cfg) (s : Spec.Site) (p : Panel) (early : List Message) (b0 : Bridge) : Prop where
  connected : Connected p
  view : WfView p
  start : Bridge.start cfg p = .ok b0
  lively : Lively p.conn
  unread : ∀ m ∈ early, WfMessage m ∧ ∀ r, m ≠ .zoneStatusReport r
  line : p.conn.rd.buffer ++ dataBytes p.conn.sock.incoming ++ s.line = early.flatMap frame
  arming : ∃ m, ((heard s.seen).filterMap armingSaid).getLast? = some m ∧ Latest p m
  zones : ∃ z, p.zoneStatuses = .ok z ∧
    ∀ i : Fin 208, ((heard s.seen).filterMap (zoneSaid i)).getLast? = some z.zones[i]

theorem hands_over (S : Server) (hS : ∀ ty n t, S.name ty n = some t → WfText t)
    {cfg : Cfg} (hu : UsableCfg cfg) {start : Nat → SiteOp} (ho : ∀ n, (start n).Proper)
    (hf : Fair start) (hz : ∀ n r, start n ≠ .say (.zoneStatusReport r)) :
    ∃ n s p early b0, Site.after S start n = .ok s ∧ s.phase = .finished (.ok p) ∧
      s.taken = p.conn.sock.sent.length ∧ s.said = heard s.seen ++ early ∧ Handed cfg s p early b0 := by
  obtain ⟨s0, i, h1, h2, h3⟩ := site_start S
  obtain ⟨n, s, p, early, h4, h5, h6⟩ := site_finishes hS ho hf _ 0 s0 i [] [] (h1 start) h2 h3 rfl
  obtain ⟨iops, h7⟩ := h5.run
  rw [h6.phase] at h7
  have hfr : Fresh ({} : Connection) := ⟨rfl, rfl, rfl, rfl⟩
  have hcon : Connected p := C36_connect_establishes _ hfr iops _ p h7
  have hw : WfView p := connect_wfView hfr h7
  obtain ⟨⟨m0, hm0, hl0⟩, _, z0, hz0, hzl⟩ := C38_views _ hfr iops _ p h7
  obtain ⟨b0, hb0⟩ := (C65_starts hcon hw).mpr hu
  have hzn := h6.zones (own_said hz h4)
  refine ⟨n, s, p, early, b0, h4, h6.phase, h6.taken, h6.said.symm, hcon, hw, hb0,
    ⟨h6.sound.eof, h6.sound.ok, h6.data, h6.takes⟩, fun m hm => ⟨h6.wf m hm, fun r hr => ?_⟩, ?_,
    ⟨m0, (heard_arming s.seen).symm ▸ hm0, hl0⟩,
    ⟨z0, hz0, fun i => (heard_zones s.seen i).symm ▸ hzl i.val i.isLt⟩⟩
  · have : m ∈ early.filter tellsZones := List.mem_filter.mpr ⟨hm, by rw [hr]; rfl⟩
    rw [hzn] at this
    cases this
  · rw [← dataOf_eq]; exact h6.told

theorem handed_shows {cfg : Cfg} {s : Spec.Site} {p : Panel} {early : List Message} {b0 : Bridge}
    (h : Handed cfg s p early b0) (hm : MapCfg cfg) (hd : DistinctNames cfg) {ops : Nat → HomeOp}
    (hk : KeepActing ops)
    (hp : ∀ n h, Home.after (Home.start b0 s.line early) ops n = .ok h → (ops n).Proper h)
    (hq : FallsSilent ops) (hck : ClockRuns ops) (ht : TimersFire (Home.start b0 s.line early) ops) :
    ∃ n, ∀ m, n ≤ m → ∃ h r z, Home.after (Home.start b0 s.line early) ops m = .ok h ∧
      Quiet h.bridge ∧ h.heard = h.posted.map commandBytes ∧
      ((heard s.seen ++ h.said).filterMap armingSaid).getLast? = some r ∧
      (∀ i : Fin 208, ((heard s.seen ++ h.said).filterMap (zoneSaid i)).getLast? = some (z i)) ∧
      Shows cfg h.bridge.log r z := by
  obtain ⟨m0, hm0, hl0⟩ := h.arming
  obtain ⟨z0, hz0, hzl⟩ := h.zones
  obtain ⟨k, hk⟩ := C109_catches_up h.connected h.view hm hd h.start hl0 hz0 h.lively h.unread h.line
    hk hp hq hck ht
  refine ⟨k, fun m hkm => ?_⟩
  obtain ⟨h, g1, g2, g3, g4⟩ := hk m hkm
  refine ⟨h, _, _, g1, g2, g3, ?_, fun i => ?_, g4⟩
  · rw [List.filterMap_append]
    exact last_append hm0
  · rw [List.filterMap_append]
    exact last_append (hzl i)

/-- **C110** A panel is switched on, and the bridge connects to it.  As long as everyone keeps acting
`connect` finishes, nothing it has asked for remains to be answered, and the bridge starts with every
usable configuration.  If from then on everyone keeps acting, and the panel pauses at last, then the
broker comes to show, and goes on showing, what the panel has said last, counted from the time it was
switched on; and the panel has heard every command. -/
theorem C110_from_power_on (S : Server) (hS : ∀ ty n t, S.name ty n = some t → WfText t)
    {cfg : Cfg} (hu : UsableCfg cfg) (hm : MapCfg cfg) (hd : DistinctNames cfg)
    {start : Nat → SiteOp} (ho : ∀ n, (start n).Proper) (hf : Fair start)
    (hz : ∀ n r, start n ≠ .say (.zoneStatusReport r)) :
    ∃ n s p early b0, Site.after S start n = .ok s ∧ s.phase = .finished (.ok p) ∧
      s.taken = p.conn.sock.sent.length ∧
      s.said = heard s.seen ++ early ∧ Bridge.start cfg p = .ok b0 ∧
      ∀ ops : Nat → HomeOp, KeepActing ops →
        (∀ n h, Home.after (Home.start b0 s.line early) ops n = .ok h → (ops n).Proper h) →
        FallsSilent ops → ClockRuns ops → TimersFire (Home.start b0 s.line early) ops →
        ∃ n, ∀ m, n ≤ m → ∃ h r z, Home.after (Home.start b0 s.line early) ops m = .ok h ∧
          Quiet h.bridge ∧ h.heard = h.posted.map commandBytes ∧
          ((heard s.seen ++ h.said).filterMap armingSaid).getLast? = some r ∧
          (∀ i : Fin 208, ((heard s.seen ++ h.said).filterMap (zoneSaid i)).getLast? = some (z i)) ∧
          Shows cfg h.bridge.log r z := by
  obtain ⟨n, s, p, early, b0, h1, h2, h3, h4, h5⟩ := hands_over S hS hu ho hf hz
  exact ⟨n, s, p, early, b0, h1, h2, h3, h4, h5.start, fun ops hk hp hq hck ht =>
    handed_shows h5 hm hd hk hp hq hck ht⟩

/-! ## A schedule -/

/-- Everyone in turn, with a report that the panel is armed in between. -/
def morning (n : Nat) : SiteOp :=
  match n % 5 with
  | 0 => .tick ⟨n, n, n⟩
  | 1 => .accept 2
  | 2 => .say (.armingStatusReport armedReport)
  | 3 => .answer armedReport violatedReport
  | _ => .deliver 6

theorem morning_fair : Fair morning := by
  have key : ∀ n k, k < 5 → ∃ m, n ≤ m ∧ m % 5 = k := by
    intro n k hk
    exact ⟨5 * n + k, by omega, by omega⟩
  intro w hw n
  have h0 := key n 0 (by decide)
  have h1 := key n 1 (by decide)
  have h3 := key n 3 (by decide)
  have h4 := key n 4 (by decide)
  cases w with
  | chance => exact absurd rfl hw
  | library => obtain ⟨m, h1, h2⟩ := h0; exact ⟨m, h1, by unfold morning; rw [h2]; rfl⟩
  | socket => obtain ⟨m, h1, h2⟩ := h1; exact ⟨m, h1, by unfold morning; rw [h2]; rfl⟩
  | panel => obtain ⟨m, h1, h2⟩ := h3; exact ⟨m, h1, by unfold morning; rw [h2]; rfl⟩
  | line => obtain ⟨m, h1, h2⟩ := h4; exact ⟨m, h1, by unfold morning; rw [h2]; rfl⟩

theorem morning_proper (n : Nat) : (morning n).Proper := by
  unfold morning
  split
  · exact True.intro
  · exact True.intro
  · exact ⟨trivial, by intro r h; cases h⟩
  · exact sample_sendable.zones
  · exact True.intro

theorem morning_zones (n : Nat) (r : ZoneStatusReport) : morning n ≠ .say (.zoneStatusReport r) := by
  unfold morning
  split <;> intro h <;> cases h

/-- In the morning the panel only ever says that it is armed. -/
theorem morning_said : ∀ {n s}, Site.after sampleServer morning n = .ok s →
    ∀ r ∈ s.said.filterMap armingSaid, r = armedReport := by
  intro n
  have lib : ∀ {s s' : Spec.Site} {op}, s.library op = .ok s' → s'.said = s.said := by
    intro s s' op h
    unfold Spec.Site.library at h
    split at h
    · cases h; rfl
    · split at h
      · cases h
      · cases h; rfl
  induction n with
  | zero =>
    intro s h
    have h : (Init.start {} >>= fun phase => .ok (Spec.Site.mk phase 0 [] [] none [] [])) = .ok s := h
    rw [start_ok] at h
    cases h
    intro r hr
    cases hr
  | succ n ih =>
    intro s' h
    have h : (Site.after sampleServer morning n >>= fun s => s.step sampleServer (morning n)) =
      .ok s' := h
    obtain ⟨s, h1, h2⟩ := P_bind_ok.mp h
    have h3 := ih h1
    unfold morning at h2
    split at h2
    · unfold Spec.Site.step at h2
      dsimp only at h2
      split at h2
      · rw [lib h2]; exact h3
      · cases h2; exact h3
    · rw [lib (s := s) (op := .writable (.accept (2 + 1))) h2]
      exact h3
    · cases h2
      intro r hr
      have hr : r ∈ (s.said ++ [Message.armingStatusReport armedReport]).filterMap armingSaid := hr
      rw [List.filterMap_append, List.mem_append] at hr
      rcases hr with hr | hr
      · exact h3 r hr
      · exact List.mem_singleton.mp hr
    · cases h2
      unfold Spec.Site.answer
      split
      · exact h3
      · split
        · exact h3
        · rename_i q _
          intro r hr
          have hr : r ∈ (s.said ++ [sampleServer.answer armedReport violatedReport q]).filterMap
            armingSaid := hr
          rw [List.filterMap_append, List.mem_append] at hr
          rcases hr with hr | hr
          · exact h3 r hr
          · unfold Server.answer at hr
            split at hr
            · exact List.mem_singleton.mp hr
            · cases hr
            · split at hr <;> cases hr
            · cases hr
    · unfold Spec.Site.step at h2
      dsimp only at h2
      split at h2
      · cases h2; exact h3
      · rw [lib h2]; exact h3

theorem sampleCfg_usable : UsableCfg sampleCfg :=
  (C65_starts (samplePanel_connected []) (samplePanel_view [])).mp
    (by
      obtain ⟨b, hb, _⟩ := of_holds (x := Bridge.start sampleCfg (samplePanel []))
        (f := fun _ => true) (by decide +kernel)
      exact ⟨b, hb⟩)

/-- Non-vacuity: a panel that is armed when the bridge connects to it in the morning is shown to be
armed in the evening. -/
theorem C110_sample : ∃ n s p early b0, Site.after sampleServer morning n = .ok s ∧
    s.phase = .finished (.ok p) ∧ Bridge.start sampleCfg p = .ok b0 ∧
    ∃ n, ∀ m, n ≤ m → ∃ h, Home.after (Home.start b0 s.line early) evening m = .ok h ∧
      retained h.bridge.log (bs "elkm1/42/area/home/ha_state") = some (.text (bs "armed_away")) := by
  obtain ⟨n, s, p, early, b0, h1, h2, _, h4, h5⟩ := hands_over sampleServer sample_sendable.names
    sampleCfg_usable morning_proper morning_fair morning_zones
  refine ⟨n, s, p, early, b0, h1, h2, h5.start, ?_⟩
  have hS : Schedule (Home.start b0 s.line early) evening :=
    ⟨⟨_, _, _, home_start h5.connected h5.view h5.start sampleCfg_distinct h5.lively h5.unread
      h5.line⟩, fun n _ _ => evening_proper n, evening_fair⟩
  obtain ⟨n, hn⟩ := handed_shows h5 sampleCfg_map sampleCfg_distinct evening_fair
    (fun n _ _ => evening_proper n) evening_silent evening_clock (evening_timers hS)
  refine ⟨n, fun m hm => ?_⟩
  obtain ⟨h, r, z, g1, _, _, g2, _, g3⟩ := hn m hm
  refine ⟨h, g1, ?_⟩
  have e : r = armedReport := by
    refine morning_said h1 r ?_
    rw [h4, List.filterMap_append]
    have := List.mem_of_getLast? g2
    rw [List.filterMap_append, evening_said g1] at this
    exact this
  rw [e] at g3
  obtain ⟨t, g4, g5⟩ := g3.areas (1, ⟨bs "home"⟩) (by decide) 0 (by decide) (by decide +kernel)
  have ht : t = "armed_away" := by
    cases g4 with
    | triggered h => exact absurd h (show ¬ IsAlarm .noAlarmActive from id)
    | pending h => exact absurd h (by decide +kernel)
    | arming _ _ h => exact absurd h (by decide +kernel)
    | mode => rfl
  rw [← ht]
  exact (by decide +kernel : sampleCfg.prefix ++ bs "/area/" ++ bs "home" ++ bs "/ha_state" =
    bs "elkm1/42/area/home/ha_state") ▸ g5

end Elk.Props
