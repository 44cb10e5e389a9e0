import Verif.Props.ZoneNews
/-!
# C64: exactly which reports are shown at once
-/

namespace Elk.Props

open Elk.Spec

/-- **C64** A report is shown as soon as its event is returned exactly if it is not suspicious given what
was shown, or the report before it was not yet shown either; otherwise all stays as it was shown, alarms
included.  The report before is the last one in the packets `ps` taken so far (`l.arming`). -/
theorem C64_exact {p p' : Panel} (s : Session p) {cx : Cx} {ev : Event} {w : List Waker}
    (hs : p.step (.pollNext cx) = .ok (.next (.ready (some (.ok ev))) w, p'))
    {v m : ArmingStatusReport} (hv : p.armingStatus = .ok v) (hm : reportOf ev = some m)
    {ps : List Packet} {l : Ledger} (ht : Taken p.conn.sock.received ps p.conn.rd.buffer)
    (hl : Tallies .new ps l) :
    (p'.armingStatus = .ok m ↔ ¬ Suspicious v m ∨ l.arming ≠ some v) ∧
      (p'.armingStatus = .ok m ∨ p'.armingStatus = .ok v) := by
  have hc := C36_connect_establishes _ s.fresh _ _ _ s.connected
  have g := (hist_of_run (connected_good hc) s.ran).good
  obtain ⟨ps', l', t', h', _, am⟩ := C152_tally _ s.fresh _ _ _ s.connected _ _ _ s.wf s.ran
  have hvs := arming_iff.mp hv
  have hla : l.arming ≠ some v ↔ p.pendingArm ≠ none := by
    have e : l.arming = l'.arming := by
      have hn : ps = ps' := taken_same ht t'
      subst hn
      rw [C152_one ht hl h']
    rw [e, ← am.arming]
    match hp : p.pendingArm with
    | none =>
      dsimp only
      rw [hvs]
      exact ⟨fun h => absurd rfl h, fun h => absurd rfl h⟩
    | some pa =>
      obtain ⟨v', a, b⟩ := g.held pa hp
      rw [hvs] at a
      cases a
      dsimp only
      refine ⟨fun _ h => (by cases h), fun _ h => ?_⟩
      exact suspicious_ne b (Option.some.inj h).symm
  rw [hla]
  have hsc := step_cases g.sane hs
  have yes : ∀ {x : Panel}, x.state.armingStatus = some m → (p.pendingArm ≠ none ∨ ¬ Suspicious v m) →
      (x.armingStatus = .ok m ↔ ¬ Suspicious v m ∨ p.pendingArm ≠ none) ∧
      (x.armingStatus = .ok m ∨ x.armingStatus = .ok v) := fun h k =>
    ⟨⟨fun _ => k.symm, fun _ => arming_iff.mpr h⟩, .inl (arming_iff.mpr h)⟩
  cases hsc with
  | next _ new _ _ _ hn' =>
    cases hn' with
    | packet pkt c ev w _ _ hi =>
      cases hi with
      | bad e _ => cases hm
      | skip _ => cases hm
      | msg msg ch q comp w _ _ _ htr hc =>
        obtain ⟨_, g2, _, _⟩ := complete_keeps hc
        cases htr with
        | asFirst r ha => rw [show p.state.armingStatus = none from ha] at hvs; cases hvs
        | asHeld r prior ha hp hsus =>
          cases hm
          have ha : p.state.armingStatus = some prior := ha
          rw [hvs] at ha
          cases ha
          have hp : p.pendingArm = none := hp
          have e : p'.armingStatus = .ok v := arming_iff.mpr (by rw [g2]; exact hvs)
          refine ⟨?_, .inr e⟩
          rw [e]
          constructor
          · intro h; exact absurd (Except.ok.inj h) (suspicious_ne hsus)
          · rintro (h | h)
            · exact absurd hsus h
            · exact absurd hp h
        | asNew r prior ha hn _ =>
          cases hm
          have ha : p.state.armingStatus = some prior := ha
          rw [hvs] at ha
          cases ha
          exact yes (by rw [g2]) hn
        | asSame r ha hn =>
          cases hm
          have ha : p.state.armingStatus = some m := ha
          rw [hvs] at ha
          cases ha
          exact yes (by rw [g2]; exact hvs) hn
        | zcNone _ _ => cases hm
        | zcSet _ _ _ _ _ _ => cases hm
        | zs _ => cases hm
        | other msg h1 _ _ => cases msg <;> first | (cases hm; done) | exact absurd rfl (h1 _)
    | fire c pa prior _ _ _ _ => cases hm

/-- Not vacuous: a report of an alarm that is not shown at once. -/
example : ∃ p p' v m cx ev w, ∃ _ : Session p,
    p.step (.pollNext cx) = .ok (.next (.ready (some (.ok ev))) w, p') ∧ p.armingStatus = .ok v ∧
    reportOf ev = some m ∧ Suspicious v m ∧ p'.armingStatus = .ok v ∧
    m.alarmState[1] = .burglarAlarm := by
  obtain ⟨p, s, _, _, a⟩ := session_of (ops := sampleConnect)
    (later := [.arrive (.data zoneBytes₁)])
    (f := fun r => decide (r.2.state.armingStatus = some (sameReport .disarmed .readyToArm)) &&
      holds (r.2.step (.pollNext ⟨1, 0, 0⟩)) fun x =>
        match x.1 with
        | .next (.ready (some (.ok ev))) _ => decide (reportOf ev = some armedAndAlarm ∧
            x.2.state.armingStatus = some (sameReport .disarmed .readyToArm))
        | _ => false) rfl (by decide +kernel)
  rw [Bool.and_eq_true, decide_eq_true_eq] at a
  obtain ⟨⟨o, p'⟩, h, b⟩ := of_holds a.2
  dsimp only at b
  split at b
  · rw [decide_eq_true_eq] at b
    exact ⟨p, p', _, _, _, _, _, s, h, arming_iff.mpr a.1, b.1, (suspicious_iff _ _).mp (by decide +kernel),
      arming_iff.mpr b.2, by decide +kernel⟩
  · cases b

end Elk.Props
