import Verif.Spec.Calm
import Verif.Props.Measure
/-!
# C157: without suspicious reports, time does not matter at all

Unlike in general (`C155_areas`).
-/

namespace Elk.Props

open Elk.Spec

/-- The packet is one that decoding yields. -/
abbrev Decoded (pkt : Packet) : Prop := ValidPacket pkt ∨ ∃ i, pkt = .invalid i

theorem calm_one {r r₁ r₂ : Option ArmingStatusReport} {ps : List Packet}
    (hv : ∀ p ∈ ps, Decoded p) (h₁ : Calm r ps r₁) (h₂ : Calm r ps r₂) : r₁ = r₂ := by
  induction h₁ with
  | nil => cases h₂; rfl
  | report a b _ ih =>
    have hv' := hv _ List.mem_cons_self
    have ih := ih fun p hp => hv p (List.mem_cons_of_mem _ hp)
    cases h₂ with
    | report a' b' t => cases means_one hv' a a'; exact ih t
    | other a' n t => cases means_one hv' a a'; exact absurd rfl (n _)
  | other a n _ ih =>
    have hv' := hv _ List.mem_cons_self
    have ih := ih fun p hp => hv p (List.mem_cons_of_mem _ hp)
    cases h₂ with
    | report a' b' t => cases means_one hv' a a'; exact absurd rfl (n _)
    | other a' n t => exact ih t

theorem calm_split {r r' : Option ArmingStatusReport} {ps qs : List Packet}
    (h : Calm r (ps ++ qs) r') : ∃ x, Calm r ps x ∧ Calm x qs r' := by
  induction ps generalizing r with
  | nil => exact ⟨r, .nil, h⟩
  | cons p ps ih =>
    cases h with
    | report a b t =>
      obtain ⟨x, h1, h2⟩ := ih t
      exact ⟨x, .report a b h1, h2⟩
    | other a n t =>
      obtain ⟨x, h1, h2⟩ := ih t
      exact ⟨x, .other a n h1, h2⟩

/-- A calm report. -/
theorem calm_report {r r' : Option ArmingStatusReport} {pkt : Packet} {m : ArmingStatusReport}
    (hv : Decoded pkt) (h : Calm r [pkt] r') (hm : Means pkt (some (.ok (.armingStatusReport m)))) :
    r' = some m ∧ ∀ s, r = some s → ¬ Suspicious s m := by
  cases h with
  | report a b t =>
    cases means_one hv a hm
    cases t
    exact ⟨rfl, b⟩
  | other a n t => cases means_one hv a hm; exact absurd rfl (n _)

/-- No report. -/
theorem calm_other {r r' : Option ArmingStatusReport} {pkt : Packet}
    {x : Option (Except Bytes Message)} (hv : Decoded pkt) (h : Calm r [pkt] r') (hm : Means pkt x)
    (hn : ∀ m, x ≠ some (.ok (.armingStatusReport m))) : r' = r := by
  cases h with
  | report a b t => cases means_one hv a hm; exact absurd rfl (hn _)
  | other a n t => cases t; rfl

theorem picks_one {s s₁ s₂ : Vista} {pkt : Packet} {e₁ e₂ : Event} (hv : Decoded pkt)
    (h₁ : Picks s pkt e₁ s₁) (h₂ : Picks s pkt e₂ s₂) : e₁ = e₂ ∧ s₁ = s₂ := by
  cases h₁ with
  | report a b =>
    cases h₂ with
    | report a' b' => cases means_one hv a a'; exact ⟨rfl, rfl⟩
    | again a' => cases means_one hv a a'; exact absurd rfl b
    | zone a' _ _ => cases means_one hv a a'
    | zoneSame a' _ _ => cases means_one hv a a'
    | zones a' => cases means_one hv a a'
    | other a' n _ _ => cases means_one hv a a'; exact absurd rfl (n _)
  | again a =>
    cases h₂ with
    | report a' b' => cases means_one hv a a'; exact absurd rfl b'
    | again a' => exact ⟨rfl, rfl⟩
    | zone a' _ _ => cases means_one hv a a'
    | zoneSame a' _ _ => cases means_one hv a a'
    | zones a' => cases means_one hv a a'
    | other a' n _ _ => cases means_one hv a a'; exact absurd rfl (n _)
  | @zone m i hi a b c =>
    cases h₂ with
    | report a' b' => cases means_one hv a a'
    | again a' => cases means_one hv a a'
    | @zone m' i' hi' a' b' c' =>
      cases means_one hv a a'
      have : i = i' := by omega
      subst this
      exact ⟨rfl, rfl⟩
    | @zoneSame m' i' hi' a' b' c' =>
      cases means_one hv a a'
      have : i = i' := by omega
      subst this
      exact absurd c' c
    | zones a' => cases means_one hv a a'
    | other a' _ n _ => cases means_one hv a a'; exact absurd rfl (n _)
  | @zoneSame m i hi a b c =>
    cases h₂ with
    | report a' b' => cases means_one hv a a'
    | again a' => cases means_one hv a a'
    | @zone m' i' hi' a' b' c' =>
      cases means_one hv a a'
      have : i = i' := by omega
      subst this
      exact absurd c c'
    | @zoneSame m' i' hi' a' b' c' => cases means_one hv a a'; exact ⟨rfl, rfl⟩
    | zones a' => cases means_one hv a a'
    | other a' _ n _ => cases means_one hv a a'; exact absurd rfl (n _)
  | zones a =>
    cases h₂ with
    | report a' b' => cases means_one hv a a'
    | again a' => cases means_one hv a a'
    | zone a' _ _ => cases means_one hv a a'
    | zoneSame a' _ _ => cases means_one hv a a'
    | zones a' => cases means_one hv a a'; exact ⟨rfl, rfl⟩
    | other a' _ _ n => cases means_one hv a a'; exact absurd rfl (n _)
  | other a n n' n'' =>
    cases h₂ with
    | report a' b' => cases means_one hv a a'; exact absurd rfl (n _)
    | again a' => cases means_one hv a a'; exact absurd rfl (n _)
    | zone a' _ _ => cases means_one hv a a'; exact absurd rfl (n' _)
    | zoneSame a' _ _ => cases means_one hv a a'; exact absurd rfl (n' _)
    | zones a' => cases means_one hv a a'; exact absurd rfl (n'' _)
    | other a' _ _ _ => cases means_one hv a a'; exact ⟨rfl, rfl⟩

theorem picksAll_one {s s₁ s₂ : Vista} {ps : List Packet} {l₁ l₂ : List (Event × Vista)}
    (hv : ∀ p ∈ ps, Decoded p) (h₁ : PicksAll s ps l₁ s₁) (h₂ : PicksAll s ps l₂ s₂) : l₁ = l₂ := by
  induction h₁ generalizing l₂ with
  | nil => cases h₂; rfl
  | cons a _ ih =>
    cases h₂ with
    | cons a' t =>
      obtain ⟨rfl, rfl⟩ := picks_one (hv _ List.mem_cons_self) a a'
      rw [ih (fun p hp => hv p (List.mem_cons_of_mem _ hp)) t]

theorem picksAll_append {s s' s'' : Vista} {ps qs : List Packet} {l k : List (Event × Vista)}
    (h : PicksAll s ps l s') (h' : PicksAll s' qs k s'') : PicksAll s (ps ++ qs) (l ++ k) s'' := by
  induction h with
  | nil => exact h'
  | cons a _ ih => exact .cons a (ih h')

theorem picksAll_split {s s'' : Vista} {ps qs : List Packet} {l : List (Event × Vista)}
    (h : PicksAll s (ps ++ qs) l s'') :
    ∃ l₁ l₂ s', l = l₁ ++ l₂ ∧ PicksAll s ps l₁ s' ∧ PicksAll s' qs l₂ s'' := by
  induction ps generalizing s l with
  | nil => exact ⟨[], l, s, rfl, .nil, h⟩
  | cons p ps ih =>
    cases h with
    | cons a t =>
      obtain ⟨l₁, l₂, s', e, h1, h2⟩ := ih t
      exact ⟨_ :: l₁, l₂, s', by rw [e]; rfl, .cons a h1, h2⟩

/-! ## A panel -/

theorem tells_picks {now : Nat} {v v' : View} {pkt : Packet} {ev : Event} {r : Option ArmingStatusReport}
    (h : Tells now v pkt ev v') (hv : Decoded pkt) (hh : v.held = none)
    (hc : Calm (some v.shown) [pkt] r) :
    Picks v.vista pkt (told ev) v'.vista ∧ v'.held = none ∧ r = some v'.shown := by
  cases h with
  | @message m change done v₁ v₂ hm hl hd =>
    have hz : v'.vista = v₁.vista ∧ v'.held = v₁.held ∧ v'.shown = v₁.shown := by
      cases hd with
      | done _ _ => exact ⟨rfl, rfl, rfl⟩
      | unrelated _ _ => exact ⟨rfl, rfl, rfl⟩
      | idle _ => exact ⟨rfl, rfl, rfl⟩
    rw [hz.1, hz.2.1, hz.2.2]
    cases hl with
    | withhold _ b => exact absurd b ((calm_report hv hc hm).2 _ rfl)
    | «show» _ b => exact ⟨.report hm b, rfl, (calm_report hv hc hm).1⟩
    | again _ => exact ⟨.again hm, rfl, (calm_report hv hc hm).1⟩
    | zone a b => exact ⟨.zone hm a b, hh, calm_other hv hc hm fun _ h => (by cases h)⟩
    | zoneSame a b => exact ⟨.zoneSame hm a b, hh, calm_other hv hc hm fun _ h => (by cases h)⟩
    | zones => exact ⟨.zones hm, hh, calm_other hv hc hm fun _ h => (by cases h)⟩
    | nothing h1 h2 h3 =>
      exact ⟨.other hm (fun r h => h1 r (by cases h; rfl)) (fun r h => h2 r (by cases h; rfl))
        (fun r h => h3 r (by cases h; rfl)), hh,
        calm_other hv hc hm fun r h => h1 r (by cases h; rfl)⟩
  | fault a =>
    exact ⟨.other a (fun _ h => (by cases h)) (fun _ h => (by cases h)) (fun _ h => (by cases h)), hh,
      calm_other hv hc a fun _ h => (by cases h)⟩
  | nothing a =>
    exact ⟨.other a (fun _ h => (by cases h)) (fun _ h => (by cases h)) (fun _ h => (by cases h)), hh,
      calm_other hv hc a fun _ h => (by cases h)⟩

theorem tells_pkt {now : Nat} {v v' : View} {pkt : Packet} {ev : Event} (h : Tells now v pkt ev v') :
    ev.pkt = some pkt := by
  cases h with
  | message _ _ _ => rfl
  | fault _ => rfl
  | nothing _ => rfl

theorem reading_picks {cx : Cx} {v v' : View} {io : Bytes} {ev : Event} {r : Option ArmingStatusReport}
    (h : Reading cx v io (.ready (some (.ok ev))) v') (hh : v.held = none)
    (hv : ∀ p ∈ [ev].filterMap (·.pkt), Decoded p)
    (hc : Calm (some v.shown) ([ev].filterMap (·.pkt)) r) :
    PicksAll v.vista ([ev].filterMap (·.pkt)) [(told ev, v'.vista)] v'.vista ∧ v'.held = none ∧
      r = some v'.shown := by
  cases h with
  | @event pkt rest _ _ hf ht =>
    have e : [ev].filterMap (·.pkt) = [pkt] := by
      rw [List.filterMap_cons, tells_pkt ht]; rfl
    rw [e] at hv hc ⊢
    obtain ⟨h1, h2, h3⟩ := tells_picks ht (hv _ (List.mem_singleton.mpr rfl)) hh hc
    exact ⟨.cons h1 .nil, h2, h3⟩
  | late _ a _ => rw [hh] at a; cases a

theorem flushing_vista {v v' : View} {io : Bytes} {r} (h : Flushing v io r v') :
    v'.vista = v.vista := by
  cases h with
  | nothing _ _ => rfl
  | flushed _ _ => rfl
  | stuck _ _ _ => rfl

theorem acts_picks {v v' : View} {op : Op} {io : Bytes} {o : Out} {r : Option ArmingStatusReport}
    (h : Acts v op io o v') (hh : v.held = none) (hv : ∀ p ∈ packets [o], Decoded p)
    (hc : Calm (some v.shown) (packets [o]) r) :
    ∃ l, PicksAll v.vista (packets [o]) l v'.vista ∧ l.map (·.1) = (events [o]).map told ∧
      v'.held = none ∧ r = some v'.shown := by
  have still : ∀ {w : View}, w.vista = v.vista → w.held = v.held → events [o] = [] →
      ∃ l, PicksAll v.vista (packets [o]) l w.vista ∧ l.map (·.1) = (events [o]).map told ∧
        w.held = none ∧ r = some w.shown := by
    intro w e h1 h2
    have h3 : packets [o] = [] := by unfold packets; rw [h2]; rfl
    rw [h3] at hc ⊢
    rw [h2, e, h1]
    cases hc
    exact ⟨[], .nil, rfl, hh, by rw [show w.shown = v.shown from congrArg Vista.shown e]⟩
  cases h with
  | arrive => exact still rfl rfl rfl
  | writable => exact still rfl rfl rfl
  | @next _ _ _ w _ hr =>
    cases hr with
    | failed _ => exact still rfl rfl rfl
    | ended _ => exact still rfl rfl rfl
    | quiet _ _ => exact still rfl rfl rfl
    | event hf ht =>
      obtain ⟨h1, h2, h3⟩ := reading_picks (.event hf ht) hh hv hc
      exact ⟨_, h1, rfl, h2, h3⟩
    | late a b c =>
      rw [hh] at b
      cases b
  | send _ => exact still rfl rfl rfl
  | ready hr =>
    cases hr with
    | idle _ _ => exact still rfl rfl rfl
    | flushed _ hf => exact still (flushing_vista hf) (flushing_held hf) rfl
    | stuck _ _ hf => exact still (flushing_vista hf) (flushing_held hf) rfl
  | flush hf => exact still (flushing_vista hf) (flushing_held hf) rfl
  | close hf _ =>
    exact still (by have := flushing_vista hf; exact this) (by have := flushing_held hf; exact this) rfl
  | closeStuck _ hf => exact still (flushing_vista hf) (flushing_held hf) rfl

theorem lives_picks {v v' : View} {ds : List Deed} {r : Option ArmingStatusReport} (h : Lives v ds v')
    (hh : v.held = none) (hv : ∀ p ∈ packets (ds.map Deed.out), Decoded p)
    (hc : Calm (some v.shown) (packets (ds.map Deed.out)) r) :
    ∃ l, PicksAll v.vista (packets (ds.map Deed.out)) l v'.vista ∧
      l.map (·.1) = (events (ds.map Deed.out)).map told ∧ v'.held = none := by
  induction h with
  | nil => exact ⟨[], .nil, rfl, hh⟩
  | @cons v v₁ v₂ d ds ha _ ih =>
    rw [List.map_cons, ← List.singleton_append, packets_append] at hv hc ⊢
    obtain ⟨x, c1, c2⟩ := calm_split hc
    obtain ⟨l, h1, h2, h3, h4⟩ := acts_picks ha hh (fun p hp => hv p (List.mem_append_left _ hp)) c1
    rw [h4] at c2
    obtain ⟨l', k1, k2, k3⟩ := ih h3 (fun p hp => hv p (List.mem_append_right _ hp)) c2
    refine ⟨l ++ l', picksAll_append h1 k1, ?_, k3⟩
    rw [List.map_append, h2, k2, ← List.map_append]
    unfold events
    rw [List.filterMap_append]

/-! ## Connecting -/

theorem observes_calm {now : Nat} {g g' : Greet} {pkt : Packet} {ev : Event}
    {r : Option ArmingStatusReport} (h : Observes now g pkt ev g') (hv : Decoded pkt)
    (hh : g.held = none) (hc : Calm g.shown [pkt] r) : g'.held = none ∧ g'.shown = r := by
  cases h with
  | message hm hn =>
    cases hn with
    | first a => exact ⟨hh, (calm_report hv hc hm).1.symm⟩
    | withhold a _ b => exact absurd b ((calm_report hv hc hm).2 _ a)
    | «show» a _ b => exact ⟨rfl, (calm_report hv hc hm).1.symm⟩
    | again a _ => exact ⟨rfl, a.trans (calm_report hv hc hm).1.symm⟩
    | early a => exact ⟨hh, (calm_other hv hc hm fun _ h => (by cases h)).symm⟩
    | zone a b c => exact ⟨hh, (calm_other hv hc hm fun _ h => (by cases h)).symm⟩
    | zoneSame a b c => exact ⟨hh, (calm_other hv hc hm fun _ h => (by cases h)).symm⟩
    | zones => exact ⟨hh, (calm_other hv hc hm fun _ h => (by cases h)).symm⟩
    | nothing h1 h2 h3 =>
      exact ⟨hh, (calm_other hv hc hm fun r h => h1 r (by cases h; rfl)).symm⟩
  | fault a => exact ⟨hh, (calm_other hv hc a fun _ h => (by cases h)).symm⟩
  | nothing a => exact ⟨hh, (calm_other hv hc a fun _ h => (by cases h)).symm⟩

theorem observes_pkt {now : Nat} {g g' : Greet} {pkt : Packet} {ev : Event}
    (h : Observes now g pkt ev g') : ev.pkt = some pkt := by
  cases h with
  | message _ _ => rfl
  | fault _ => rfl
  | nothing _ => rfl

/-- What an outcome shows, if it is no failure. -/
inductive Shown : Outcome → Option ArmingStatusReport → Prop
  | asking {w g} : g.held = none → Shown (.asking w g) g.shown
  | done {g} : g.held = none → Shown (.done g) g.shown
  | failed {e r} : Shown (.failed e) r

theorem connects_calm {w : Where} {g : Greet} {op : InitOp} {rd wr : Bytes} {o : Obs} {x : Outcome}
    {r : Option ArmingStatusReport} (h : Connects w g op rd wr o x) (hh : g.held = none)
    (hv : ∀ p ∈ gottenPackets [o], Decoded p) (hc : Calm g.shown (gottenPackets [o]) r) :
    Shown x r := by
  have one : ∀ {now rest pkt ev g'}, Observes now { g with unread := rest } pkt ev g' →
      o = .got ev → g'.held = none ∧ g'.shown = r := by
    intro now rest pkt ev g' ho e
    subst e
    have e : gottenPackets [.got ev] = [pkt] := by simp [gottenPackets, gotten, observes_pkt ho]
    rw [e] at hv hc
    exact observes_calm ho (hv _ (List.mem_singleton.mpr rfl)) hh hc
  cases h with
  | arrive => cases hc; exact .asking hh
  | writable => cases hc; exact .asking hh
  | ask => cases hc; exact .asking (g := { g with unsent := _ }) hh
  | writing _ => cases hc; exact .asking (g := { g with unsent := _ }) hh
  | written _ => cases hc; exact .asking (g := { g with unsent := _ }) hh
  | unwritten _ => exact .failed
  | quiet _ => cases hc; exact .asking (g := { g with unread := _ }) hh
  | ended _ => exact .failed
  | lost _ => exact .failed
  | other _ ob _ =>
    obtain ⟨h1, h2⟩ := one ob rfl
    exact h2 ▸ .asking h1
  | reply _ ob _ _ hf _ =>
    obtain ⟨h1, h2⟩ := one ob rfl
    obtain ⟨_, f2, f3, _⟩ := fills_ledger hf none
    exact (f2.trans h2) ▸ .asking (f3.trans h1)
  | last _ ob _ _ hf _ =>
    obtain ⟨h1, h2⟩ := one ob rfl
    obtain ⟨_, f2, f3, _⟩ := fills_ledger hf none
    exact (f2.trans h2) ▸ .done (f3.trans h1)

theorem greets_calm {x y : Outcome} {acts : List Act} {r r' : Option ArmingStatusReport}
    (h : Greets x acts y) (hs : Shown x r)
    (hv : ∀ p ∈ gottenPackets (acts.map Act.out), Decoded p)
    (hc : Calm r (gottenPackets (acts.map Act.out)) r') : Shown y r' := by
  induction h generalizing r with
  | nil => cases hc; exact hs
  | @cons w g d x acts y ha _ ih =>
    cases hs with
    | asking hh =>
      rw [List.map_cons, gottenPackets_cons] at hv hc
      obtain ⟨z, c1, c2⟩ := calm_split hc
      exact ih (connects_calm ha hh (fun p hp => hv p (List.mem_append_left _ hp)) c1)
        (fun p hp => hv p (List.mem_append_right _ hp)) c2

theorem connected_calm {c : Connection} (hc : Fresh c) {ops : List InitOp} {outs : List Obs} {p0 : Panel}
    (h : Init.connect c ops = .ok (outs, .finished (.ok p0))) {r : Option ArmingStatusReport}
    (hv : ∀ p ∈ gottenPackets outs, Decoded p) (hcalm : Calm none (gottenPackets outs) r) :
    p0.pendingArm = none ∧ p0.state.armingStatus = r := by
  obtain ⟨acts, y, rest, h1, h2, _, _, h4, h5⟩ := C123_follows c hc ops outs _ h
  rw [h4] at hv hcalm
  have hs := greets_calm h1 (.asking (g := .new) rfl) hv hcalm
  cases h2 with
  | done hk =>
    cases hs with
    | done hh =>
      have := hk.held
      rw [hh] at this
      exact ⟨Option.map_eq_none_iff.mp this, hk.shown⟩

/-! ## Sessions -/

theorem calm_taken {b left : Bytes} {ps : List Packet} (h : CalmBytes b) (ht : Taken b ps left) :
    ∃ r, Calm none ps r := by
  obtain ⟨qs, l, r, h1, h2, h3⟩ := h
  obtain ⟨more, hm⟩ := taken_prefix (t := []) ht (by rw [List.append_nil]; exact h1) h2
  rw [hm] at h3
  obtain ⟨x, h4, _⟩ := calm_split h3
  exact ⟨x, h4⟩

/-- What a session of a calm stream told. -/
theorem session_picks {p : Panel} (s : Session p)
    (hc : ∃ r, Calm none (gottenPackets s.outs ++ packets s.outs') r) :
    ∃ r z, Calm none (gottenPackets s.outs) (some r) ∧ s.p0.state.zoneStatuses = some z ∧
      ∃ l s', PicksAll ⟨r, z⟩ (packets s.outs') l s' ∧ l.map (·.1) = (events s.outs').map told ∧
        p.pendingArm = none := by
  have ht := taken_session s
  have hv := taken_valid ht
  obtain ⟨r', hr⟩ := hc
  obtain ⟨r, c1, c2⟩ := calm_split hr
  obtain ⟨q1, q2⟩ := connected_calm s.fresh s.connected
    (fun p hp => hv p (List.mem_append_left _ hp)) c1
  have hcon := C36_connect_establishes _ s.fresh _ _ _ s.connected
  obtain ⟨v0, v, ds, k0, k, hlv, _, o2, _, _⟩ := C122_follows hcon s.wf s.ran
  have e : r = some v0.shown := q2.symm.trans (arming_iff.mp k0.shown)
  subst e
  have hh : v0.held = none := by rw [← k0.held, q1]; rfl
  rw [← o2] at c2
  obtain ⟨l, h1, h2, h3⟩ := lives_picks hlv hh
    (fun p hp => hv p (List.mem_append_right _ (o2 ▸ hp))) c2
  rw [o2] at h1 h2
  have hk := k.held
  rw [h3] at hk
  exact ⟨_, _, c1, zones_iff.mp k0.zones, l, _, h1, h2, Option.map_eq_none_iff.mp hk⟩

/-- **C157** If no report is suspicious, given the one before it, then of two sessions, of which one has
read what the other has and perhaps more, and has polled for it all, the one has returned the events
that the other has, in order, and perhaps more: the same but for the commands they complete. -/
theorem C157_prefix {p q : Panel} (sp : Session p) (sq : Session q) {t : Bytes}
    (he : q.conn.sock.received = p.conn.sock.received ++ t) (wq : Spec.Waits q.conn.rd.buffer)
    (hc : CalmBytes q.conn.sock.received) :
    (events sp.outs').map told <+: (events sq.outs').map told := by
  have tp := taken_session sp
  have tq := taken_session sq
  have hcq := calm_taken hc tq
  rw [he] at tq
  have hcp : ∃ r, Calm none (gottenPackets sp.outs ++ packets sp.outs') r := by
    obtain ⟨more, hm⟩ := taken_prefix tp tq wq
    rw [hm] at hcq
    obtain ⟨_, h⟩ := hcq
    obtain ⟨x, h1, _⟩ := calm_split h
    exact ⟨x, h1⟩
  obtain ⟨r, z, a1, a2, l, s, a3, a4, _⟩ := session_picks sp hcp
  obtain ⟨r', z', b1, b2, l', s', b3, b4, _⟩ := session_picks sq hcq
  obtain ⟨hg, ⟨more, hm⟩, hz⟩ := same_start sp.fresh sq.fresh sp.connected sq.connected tp tq wq
  have hv := taken_valid tp
  rw [← hg] at b1
  cases calm_one (fun p hp => hv p (List.mem_append_left _ hp)) a1 b1
  rw [a2, b2] at hz
  cases hz
  rw [hm] at b3
  obtain ⟨l₁, l₂, _, e, c1, _⟩ := picksAll_split b3
  have := picksAll_one (fun p hp => hv p (List.mem_append_right _ hp)) a3 c1
  rw [← a4, ← b4, e, this, List.map_append]
  exact List.prefix_append _ _

/-- **C157** If no report is suspicious, then two sessions that have read the same bytes and polled for
them all have returned the same events, but for the commands they complete: however the bytes were cut
into pieces and whenever they came. -/
theorem C157_events {p q : Panel} (sp : Session p) (sq : Session q)
    (he : p.conn.sock.received = q.conn.sock.received) (wp : Spec.Waits p.conn.rd.buffer)
    (wq : Spec.Waits q.conn.rd.buffer) (hc : CalmBytes p.conn.sock.received) :
    (events sp.outs').map told = (events sq.outs').map told := by
  have h := C157_prefix sp sq (t := []) (by rw [he, List.append_nil]) wq (he ▸ hc)
  have h' := C157_prefix sq sp (t := []) (by rw [he, List.append_nil]) wp hc
  exact h.eq_of_length (Nat.le_antisymm h.length_le h'.length_le)

/-- **C157** And nothing is ever withheld: each event is for a packet. -/
theorem C157_prompt {p : Panel} (s : Session p) (hc : CalmBytes p.conn.sock.received) :
    p.pendingArm = none ∧ ∀ ev ∈ events s.outs', ev.pkt.isSome = true := by
  obtain ⟨r, z, _, _, l, _, h1, h2, h3⟩ := session_picks s (calm_taken hc (taken_session s))
  refine ⟨h3, fun ev he => ?_⟩
  have : told ev ∈ l.map (·.1) := h2 ▸ List.mem_map_of_mem he
  obtain ⟨a, ha, e⟩ := List.mem_map.mp this
  show (told ev).pkt.isSome = true
  rw [← e]
  clear h2 e this
  generalize Vista.mk r z = s₀ at h1
  generalize packets s.outs' = ps at h1
  induction h1 with
  | nil => cases ha
  | cons hh _ ih =>
    rcases List.mem_cons.mp ha with rfl | ha
    · cases hh <;> rfl
    · exact ih ha

/-! ## Bridges -/

/-- What is published for the changes, in order. -/
inductive Posts (cfg : Cfg) : List (Event × Vista) → List Published → Prop
  | nil : Posts cfg [] []
  | cons {a l out out'} : Updates cfg a.2.view a.1.change out → Posts cfg l out' →
      Posts cfg (a :: l) (out ++ out')

theorem posts_one {cfg : Cfg} (hm : MapCfg cfg) {l : List (Event × Vista)}
    {out out' : List Published} (h : Posts cfg l out) (h' : Posts cfg l out') : out = out' := by
  induction h generalizing out' with
  | nil => cases h'; rfl
  | cons a _ ih =>
    cases h' with
    | cons a' t => rw [updates_one hm a a', ih t]

theorem posts_append {cfg : Cfg} {l k : List (Event × Vista)} {out out' : List Published}
    (h : Posts cfg l out) (h' : Posts cfg k out') : Posts cfg (l ++ k) (out ++ out') := by
  induction h with
  | nil => exact h'
  | cons a _ ih => rw [List.append_assoc]; exact .cons a ih

theorem posts_split {cfg : Cfg} {l k : List (Event × Vista)} {out : List Published}
    (h : Posts cfg (l ++ k) out) : ∃ o₁ o₂, out = o₁ ++ o₂ ∧ Posts cfg l o₁ ∧ Posts cfg k o₂ := by
  induction l generalizing out with
  | nil => exact ⟨[], out, rfl, .nil, h⟩
  | cons a l ih =>
    cases h with
    | cons u t =>
      obtain ⟨o₁, o₂, e, h1, h2⟩ := ih t
      exact ⟨_ ++ o₁, o₂, by rw [e, List.append_assoc], .cons u h1, h2⟩

theorem areaLines_kept {cfg : Cfg} {r : ArmingStatusReport} {as : List (UInt8 × AreaCfg)}
    {out : List Published} (h : Each (AreaLine cfg.prefix r) as out) : out.filter (·.retain) = out := by
  induction h with
  | nil => rfl
  | cons a _ ih =>
    cases a with
    | state _ _ => rw [List.filter_cons_of_pos rfl, ih]

theorem updates_kept {cfg : Cfg} {v : View} {c : Option Change} {out : List Published}
    (h : Updates cfg v c out) : out.filter (·.retain) = out := by
  cases h with
  | nothing => rfl
  | areas a => exact areaLines_kept a
  | zone _ a =>
    cases a with
    | state _ => rfl
  | other _ => rfl

theorem updates_view {cfg : Cfg} {v : View} {c : Option Change} {out : List Published}
    (h : Updates cfg v c out) : Updates cfg v.vista.view c out := by
  cases h with
  | nothing => exact .nothing
  | areas a => exact .areas a
  | zone a b => exact .zone a b
  | other a => exact .other a

theorem looked_vista {cx : Cx} {v v' : View} {pf : Bool} {io : Bytes} (h : Looked cx v pf io v') :
    v'.vista = v.vista ∧ v'.held = v.held := by
  cases h with
  | no => exact ⟨rfl, rfl⟩
  | yes h =>
    cases h with
    | quiet _ _ => exact ⟨rfl, rfl⟩

theorem serves_picks {cfg : Cfg} {code : ArmCode} {d d' : Desk} {op : BOp} {rd wr : Bytes} {o : BObs}
    {r : Option ArmingStatusReport} (h : Serves cfg code d op rd wr o d') (hh : d.view.held = none)
    (hv : ∀ p ∈ (handled [o]).filterMap (·.pkt), Decoded p)
    (hc : Calm (some d.view.shown) ((handled [o]).filterMap (·.pkt)) r) :
    ∃ l, PicksAll d.view.vista ((handled [o]).filterMap (·.pkt)) l d'.view.vista ∧
      Posts cfg l ((published [o]).filter (·.retain)) ∧ d'.view.held = none ∧
      r = some d'.view.shown := by
  have still : ∀ {w : View}, w.vista = d.view.vista → w.held = d.view.held → handled [o] = [] →
      published [o] = [] → ∃ l, PicksAll d.view.vista ((handled [o]).filterMap (·.pkt)) l w.vista ∧
        Posts cfg l ((published [o]).filter (·.retain)) ∧ w.held = none ∧ r = some w.shown := by
    intro w e h1 h2 h3
    rw [h2] at hc ⊢
    rw [h3, e, h1]
    cases hc
    exact ⟨[], .nil, .nil, hh, by rw [show w.shown = d.view.shown from congrArg Vista.shown e]⟩
  cases h with
  | arrive => exact still rfl rfl rfl rfl
  | writable => exact still rfl rfl rfl rfl
  | deliver => exact still rfl rfl rfl rfl
  | @event cx pf io ev w out v' _ _ hr _ ha =>
    obtain ⟨h1, h2, h3⟩ := reading_picks hr hh hv hc
    refine ⟨_, h1, ?_, h2, h3⟩
    show Posts cfg _ ((out ++ []).filter (·.retain))
    rw [List.append_nil]
    cases ha with
    | @mk j out _ hu =>
      rw [List.filter_cons_of_neg (fun h => by cases h), updates_kept hu, ← List.append_nil out]
      exact .cons (updates_view hu) .nil
  | ignores _ _ hl _ _ => exact still (looked_vista hl).1 (looked_vista hl).2 rfl rfl
  | takes _ _ hl _ => exact still (looked_vista hl).1 (looked_vista hl).2 rfl rfl
  | idle _ _ hr =>
    have hl := looked_vista (.yes hr)
    exact still hl.1 hl.2 rfl rfl
  | waits _ hr =>
    cases hr with
    | flushed _ hf => exact still (flushing_vista hf) (flushing_held hf) rfl rfl
    | stuck _ _ hf => exact still (flushing_vista hf) (flushing_held hf) rfl rfl
  | hands _ _ => exact still rfl rfl rfl rfl
  | sending _ hf => exact still (flushing_vista hf) (flushing_held hf) rfl rfl
  | sent _ hf => exact still (flushing_vista hf) (flushing_held hf) rfl rfl

theorem working_picks {cfg : Cfg} {code : ArmCode} {d d' : Desk} {l : List Turn}
    {r : Option ArmingStatusReport} (h : Working cfg code d l d') (hh : d.view.held = none)
    (hv : ∀ p ∈ (handled (l.map Turn.out)).filterMap (·.pkt), Decoded p)
    (hc : Calm (some d.view.shown) ((handled (l.map Turn.out)).filterMap (·.pkt)) r) :
    ∃ k, PicksAll d.view.vista ((handled (l.map Turn.out)).filterMap (·.pkt)) k d'.view.vista ∧
      Posts cfg k ((published (l.map Turn.out)).filter (·.retain)) := by
  induction h with
  | nil => exact ⟨[], .nil, .nil⟩
  | @cons _ _ _ t l hs _ ih =>
    have e1 : published ((t :: l).map Turn.out) = published [t.out] ++ published (l.map Turn.out) := by
      rw [List.map_cons, ← List.singleton_append]; exact List.flatMap_append
    have e2 : handled ((t :: l).map Turn.out) = handled [t.out] ++ handled (l.map Turn.out) := by
      rw [List.map_cons, ← List.singleton_append]; exact List.filterMap_append
    rw [e2, List.filterMap_append] at hv hc ⊢
    rw [e1, List.filter_append]
    obtain ⟨x, c1, c2⟩ := calm_split hc
    obtain ⟨k, h1, h2, h3, h4⟩ := serves_picks hs hh (fun p hp => hv p (List.mem_append_left _ hp)) c1
    rw [h4] at c2
    obtain ⟨k', k1, k2⟩ := ih h3 (fun p hp => hv p (List.mem_append_right _ hp)) c2
    exact ⟨k ++ k', picksAll_append h1 k1, posts_append h2 k2⟩

theorem opens_same {cfg : Cfg} {v v' : View} {out out' : List Published} (h : Opens cfg v out)
    (h' : Opens cfg v' out') (e : v.vista = v'.vista) : out = out' := by
  have e1 : v.shown = v'.shown := congrArg Vista.shown e
  have e2 : v.zones = v'.zones := congrArg Vista.zones e
  cases h with
  | @mk docs as zs d1 d2 ha hz =>
    cases h' with
    | @mk docs' as' zs' d1' d2' ha' hz' =>
      have hd : docs = docs' := by
        match hx : cfg.mqtt.haDiscoveryPrefix with
        | none => rw [d2 hx, d2' hx]
        | some x => rw [d1 x hx, d1' x hx]
      rw [e1] at ha
      rw [e2] at hz
      rw [hd, each_one areaLine_one ha ha', each_one zoneLine_one hz hz']

theorem service_taken {cfg : Cfg} {b : Bridge} (s : Service cfg b) :
    Taken b.panel.conn.sock.received
      (gottenPackets s.outs ++ (handled s.obs).filterMap (·.pkt)) b.panel.conn.rd.buffer := by
  have ht := taken_connected _ s.fresh _ _ _ s.connected
  have hcon := C36_connect_establishes _ s.fresh _ _ _ s.connected
  obtain ⟨code, v0, l, d, _, k0, hwk, hsit, _, o2, hrec, _, ho, hlog⟩ :=
    C124_follows hcon (connect_wfView s.fresh s.connected) s.started s.ran
  obtain ⟨ds, hlv, hbr, hev, _⟩ := working_lives hwk
  have hl := lives_taken hlv (b := s.p0.conn.sock.received) (k0.unread ▸ ht)
  unfold packets at hl
  rwa [hev, hbr, ← o2, ← hsit.view.unread, ← hrec] at hl

/-- What a bridge whose panel sent a calm stream took and published. -/
theorem service_picks {cfg : Cfg} {b : Bridge} (s : Service cfg b)
    (hc : ∃ r, Calm none (gottenPackets s.outs ++ (handled s.obs).filterMap (·.pkt)) r) :
    ∃ v0 l s' out, Calm none (gottenPackets s.outs) (some v0.shown) ∧
      s.p0.state.zoneStatuses = some v0.zones ∧
      PicksAll v0.vista ((handled s.obs).filterMap (·.pkt)) l s' ∧ Posts cfg l out ∧
      Opens cfg v0 s.b0.log ∧
      b.log.filter (·.retain) = s.b0.log.filter (·.retain) ++ out := by
  have ht := service_taken s
  have hv := taken_valid ht
  obtain ⟨r', hr⟩ := hc
  obtain ⟨r, c1, c2⟩ := calm_split hr
  obtain ⟨q1, q2⟩ := connected_calm s.fresh s.connected
    (fun p hp => hv p (List.mem_append_left _ hp)) c1
  have hcon := C36_connect_establishes _ s.fresh _ _ _ s.connected
  obtain ⟨code, v0, l, d, _, k0, hwk, hsit, _, o2, hrec, _, ho, hlog⟩ :=
    C124_follows hcon (connect_wfView s.fresh s.connected) s.started s.ran
  have e : r = some v0.shown := q2.symm.trans (arming_iff.mp k0.shown)
  subst e
  have hh : v0.held = none := by rw [← k0.held, q1]; rfl
  rw [o2] at c2
  obtain ⟨k, h1, h2⟩ := working_picks hwk hh
    (fun p hp => hv p (List.mem_append_right _ (o2 ▸ hp))) c2
  rw [← o2] at h1 h2
  exact ⟨v0, k, _, _, c1, zones_iff.mp k0.zones, h1, h2, ho, by rw [hlog, List.filter_append]⟩

/-- **C157** If no report is suspicious, then of two bridges with the same configuration, of which one has
read what the other has and perhaps more, and has handled it all, the one has published with the retain
flag what the other has, in order, and perhaps more. -/
theorem C157_lag {cfg : Cfg} (hm : MapCfg cfg) {b b' : Bridge} (s : Service cfg b)
    (s' : Service cfg b') {t : Bytes}
    (he : b'.panel.conn.sock.received = b.panel.conn.sock.received ++ t)
    (hw : Spec.Waits b'.panel.conn.rd.buffer) (hc : CalmBytes b'.panel.conn.sock.received) :
    b.log.filter (·.retain) <+: b'.log.filter (·.retain) := by
  have tp := service_taken s
  have tq := service_taken s'
  have hcq := calm_taken hc tq
  rw [he] at tq
  have hcp : ∃ r, Calm none (gottenPackets s.outs ++ (handled s.obs).filterMap (·.pkt)) r := by
    obtain ⟨more, hm⟩ := taken_prefix tp tq hw
    rw [hm] at hcq
    obtain ⟨_, h⟩ := hcq
    obtain ⟨x, h1, _⟩ := calm_split h
    exact ⟨x, h1⟩
  obtain ⟨v, l, z, out, a1, a2, a3, a4, a5, a6⟩ := service_picks s hcp
  obtain ⟨v', l', z', out', b1, b2, b3, b4, b5, b6⟩ := service_picks s' hcq
  obtain ⟨hg, ⟨more, hmo⟩, hz⟩ := same_start s.fresh s'.fresh s.connected s'.connected tp tq hw
  have hv := taken_valid tp
  rw [← hg] at b1
  have e1 := Option.some.inj (calm_one (fun p hp => hv p (List.mem_append_left _ hp)) a1 b1)
  rw [a2, b2] at hz
  have e2 := Option.some.inj hz
  have es : v.vista = v'.vista := by
    unfold View.vista
    rw [e1, e2]
  rw [hmo, ← es] at b3
  obtain ⟨l₁, l₂, _, e, c1, _⟩ := picksAll_split b3
  have := picksAll_one (fun p hp => hv p (List.mem_append_right _ hp)) a3 c1
  rw [e, ← this] at b4
  obtain ⟨o₁, o₂, eo, p1, _⟩ := posts_split b4
  rw [a6, b6, eo, posts_one hm a4 p1, opens_same a5 b5 es, ← List.append_assoc]
  exact List.prefix_append _ _

/-- **C157** If no report is suspicious, then two bridges with the same configuration whose panels sent
the same bytes, and that are idle, have published the same with the retain flag, from the first message
to the last: all states of areas and zones. -/
theorem C157_published {cfg : Cfg} (hm : MapCfg cfg) {b b' : Bridge} (s : Service cfg b)
    (s' : Service cfg b') (hi : Idle s) (hi' : Idle s')
    (he : b.panel.conn.sock.received = b'.panel.conn.sock.received)
    (hc : CalmBytes b.panel.conn.sock.received) :
    b.log.filter (·.retain) = b'.log.filter (·.retain) := by
  have h := C157_lag hm s s' (t := []) (by rw [he, List.append_nil]) (idle_views hi').1 (he ▸ hc)
  have h' := C157_lag hm s' s (t := []) (by rw [he, List.append_nil]) (idle_views hi).1 hc
  exact h.eq_of_length (Nat.le_antisymm h.length_le h'.length_le)

/-! ## Samples -/

/-- Whether some bytes are calm, given the report before them: with the decoder and the parser. -/
def calmRun : Nat → Option ArmingStatusReport → Bytes → Bool
  | 0, _, _ => false
  | n + 1, r, b =>
    match Packet.decode b with
    | .ok (some pkt, rest) =>
      match Message.parse pkt with
      | .ok (some (.armingStatusReport m)) =>
        (match r with
          | some s => !s.isTransitionSuspicious m
          | none => true) && calmRun n (some m) rest
      | .error (.panic _) => false
      | _ => calmRun n r rest
    | .ok (none, _) => true
    | .error _ => false

theorem calmRun_calm {n : Nat} {r : Option ArmingStatusReport} {b : Bytes} (h : calmRun n r b = true) :
    ∃ ps left r', Taken b ps left ∧ Spec.Waits left ∧ Calm r ps r' := by
  induction n generalizing r b with
  | zero => cases h
  | succ n ih =>
    unfold calmRun at h
    match hd : Packet.decode b with
    | .error e => rw [hd] at h; cases h
    | .ok (none, rest) =>
      obtain ⟨rfl, hw⟩ := waits_of_decode hd
      exact ⟨[], _, r, .nil, hw, .nil⟩
    | .ok (some pkt, rest) =>
      rw [hd] at h
      have hf := C117_decode.mp hd
      have hv : Decoded pkt := taken_valid (.cons hf .nil) pkt (List.mem_singleton.mpr rfl)
      obtain ⟨m1, m2, m3⟩ := means_of_parse hv
      dsimp only at h
      split at h
      · next m hm =>
        rw [Bool.and_eq_true] at h
        obtain ⟨ps, left, r', h1, h2, h3⟩ := ih h.2
        refine ⟨_, left, r', .cons hf h1, h2, .report (m1 _ hm) (fun s e hs => ?_) h3⟩
        subst e
        have := h.1
        dsimp only at this; rw [(suspicious_iff _ _).mpr hs] at this
        cases this
      · cases h
      · next n1 n2 =>
        obtain ⟨ps, left, r', h1, h2, h3⟩ := ih h
        refine ⟨_, left, r', .cons hf h1, h2, ?_⟩
        match hp : Message.parse pkt with
        | .ok none => exact .other (m3 hp) (fun _ h => (by cases h)) h3
        | .ok (some m) => exact .other (m1 _ hp) (fun r h => n1 r (by cases h; exact hp)) h3
        | .error (.err e) => exact .other (m2 _ hp) (fun _ h => (by cases h)) h3
        | .error (.panic q) => exact absurd hp (n2 q)

/-- Arming as it goes, and the change of a zone. -/
def calmNews : Bytes := msgBytes (.armingStatusReport (sameReport .armedAway .armedWithExitTimer)) ++
  msgBytes (.armingStatusReport (sameReport .armedAway .armedFully)) ++
  msgBytes (.zoneChange ⟨⟨1⟩, ⟨2⟩⟩)

theorem calmNews_calm : CalmBytes (sampleDialogue ++ calmNews) :=
  calmRun_calm (n := 40) (by decide +kernel)

/-- Not vacuous: arming and the change of a zone are told. -/
example : ∃ p, ∃ s : Session p, CalmBytes p.conn.sock.received ∧ Spec.Waits p.conn.rd.buffer ∧
    ((events s.outs').filterMap (·.change)).length = 3 := by
  obtain ⟨p, s, _, _, a⟩ := session_of (ops := sampleConnect)
    (later := [.arrive (.data calmNews), .pollNext ⟨1, 0, 0⟩, .pollNext ⟨1, 0, 0⟩,
      .pollNext ⟨1, 0, 0⟩, .pollNext ⟨1, 0, 0⟩])
    (f := fun r => decide (inVain r.1 = true ∧
      r.2.conn.sock.received = sampleDialogue ++ calmNews ∧
      ((events r.1).filterMap (·.change)).length = 3)) rfl (by decide +kernel)
  rw [decide_eq_true_eq] at a
  exact ⟨p, s, a.2.1 ▸ calmNews_calm, waits_of_vain a.1, a.2.2⟩

/-- The streams of `C155_areas` are not calm. -/
example : calmRun 40 none (sampleDialogue ++ zoneBytes₁ ++ zoneBytes₂) = false := by decide +kernel

end Elk.Props
