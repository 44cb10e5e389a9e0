import Verif.Props.Calm
import Verif.Props.Minutes
/-!
# C158: what `watch` logs depends on the bytes only

Of the zones, always; if no report is suspicious, everything.
-/

namespace Elk.Props

open Elk.Spec

/-- The lines on zones. -/
def zoneLines (l : List WatchLine) : List WatchLine :=
  l.filter fun
    | .zone _ _ _ => true
    | .area _ _ _ => false

/-- The line for the change of a zone. -/
def newsLine (names : Fin 208 → Bytes) (n : ZoneNews) : WatchLine :=
  .zone (if h : n.zone.val.toNat - 1 < 208 then names ⟨n.zone.val.toNat - 1, h⟩ else [])
    (zoneOf n.prior) (zoneOf n.now)

/-- A history of `watch`: `connect` and then its loop, so far or to its end. -/
structure Sentry (w : Watch) where
  c : Connection
  fresh : Fresh c
  ops : List InitOp
  outs : List Obs
  p0 : Panel
  connected : Init.connect c ops = .ok (outs, .finished (.ok p0))
  later : List InitOp
  obs : List WObs
  ran : Watch.run later (.watching p0) = .ok (obs, w)

/-! ## Zones -/

theorem zoneLines_append (l k : List WatchLine) : zoneLines (l ++ k) = zoneLines l ++ zoneLines k :=
  List.filter_append ..

theorem zoneLines_areas (names : Fin 8 → Bytes) (a a' : ArmingStatusReport) :
    zoneLines (areaDiff names a a') = [] := by
  unfold zoneLines
  rw [List.filter_eq_nil_iff]
  intro x hx
  obtain ⟨i, _, hi⟩ := List.mem_filterMap.mp hx
  split at hi
  · cases hi
  · cases hi
    intro h
    cases h

theorem zoneLines_zones (names : Fin 208 → Bytes) (z z' : ZoneStatusReport) :
    zoneLines (zoneDiff names z z') = zoneDiff names z z' := by
  unfold zoneLines
  rw [List.filter_eq_self]
  intro x hx
  obtain ⟨i, _, hi⟩ := List.mem_filterMap.mp hx
  split at hi
  · cases hi
  · cases hi
    rfl

theorem zoneDiff_set (names : Fin 208 → Bytes) (z : ZoneStatusReport) (zone : Zone) (s : ZoneStatus)
    {i : Nat} (hi : i < 208) (hz : zone.val.toNat = i + 1) (hne : z.zones[i] ≠ s) :
    zoneDiff names z ⟨z.zones.set i s⟩ = [newsLine names ⟨zone, z.zones[i], s⟩] := by
  unfold zoneDiff
  rw [filterMap_only (List.nodup_finRange 208) (List.mem_finRange ⟨i, hi⟩)]
  · have e : (z.zones.set i s)[(⟨i, hi⟩ : Fin 208)] = s := by
      show (z.zones.set i s)[i] = s
      rw [Vector.getElem_set_self]
    dsimp only
    rw [e, if_neg (show z.zones[(⟨i, hi⟩ : Fin 208)] ≠ s from hne)]
    unfold newsLine
    dsimp only
    have e1 : zone.val.toNat - 1 = i := by omega
    simp only [e1]
    rw [dif_pos hi]
    rfl
  · intro b hb
    rw [if_pos]
    show z.zones[b.val] = (z.zones.set i s)[b.val]
    rw [Vector.getElem_set_ne hi b.isLt (fun h => hb (Fin.ext h.symm))]

theorem tells_diff {now : Nat} {v v' : View} {pkt : Packet} {ev : Event} (h : Tells now v pkt ev v')
    (zones : Fin 208 → Bytes) (hn : ∀ r, ev.msg ≠ some (.ok (.zoneStatusReport r))) :
    ∃ n, Senses v.zones pkt n v'.zones ∧
      zoneDiff zones v.zones v'.zones = n.map (newsLine zones) := by
  cases h with
  | @message m change done v₁ v₂ hm hl hc =>
    have hz : v'.zones = v₁.zones := by
      cases hc with
      | done _ _ => rfl
      | unrelated _ _ => rfl
      | idle _ => rfl
    rw [hz]
    cases hl with
    | withhold _ _ =>
      exact ⟨_, .other hm (fun _ h => (by cases h)) (fun _ h => (by cases h)), zoneDiff_self _ _⟩
    | «show» _ _ =>
      exact ⟨_, .other hm (fun _ h => (by cases h)) (fun _ h => (by cases h)), zoneDiff_self _ _⟩
    | again _ =>
      exact ⟨_, .other hm (fun _ h => (by cases h)) (fun _ h => (by cases h)), zoneDiff_self _ _⟩
    | zone a b => exact ⟨_, .change hm a b, zoneDiff_set _ _ _ _ _ a b⟩
    | zoneSame a b => exact ⟨_, .same hm a b, zoneDiff_self _ _⟩
    | zones => exact absurd rfl (hn _)
    | nothing _ h2 h3 =>
      exact ⟨_, .other hm (fun r h => h2 r (by cases h; rfl)) (fun r h => h3 r (by cases h; rfl)),
        zoneDiff_self _ _⟩
  | fault a =>
    exact ⟨_, .other a (fun _ h => (by cases h)) (fun _ h => (by cases h)), zoneDiff_self _ _⟩
  | nothing a =>
    exact ⟨_, .other a (fun _ h => (by cases h)) (fun _ h => (by cases h)), zoneDiff_self _ _⟩

theorem tells_report {now : Nat} {v v' : View} {pkt : Packet} {ev : Event} (h : Tells now v pkt ev v')
    {r : ZoneStatusReport} (hr : ev.msg = some (.ok (.zoneStatusReport r))) :
    Senses v.zones pkt [] v'.zones := by
  cases h with
  | @message m change done v₁ v₂ hm hl hc =>
    have hz : v'.zones = v₁.zones := by
      cases hc with
      | done _ _ => rfl
      | unrelated _ _ => rfl
      | idle _ => rfl
    rw [hz]
    cases hr
    cases hl with
    | zones => exact .report hm
    | nothing _ _ h3 => exact absurd rfl (h3 _)
  | fault a => cases hr
  | nothing a => cases hr

theorem sees_senses {areas : Fin 8 → Bytes} {zones : Fin 208 → Bytes} {v v' : View} {op : InitOp}
    {rd : Bytes} {o : WObs} (h : Sees areas zones v op rd o v') :
    ∃ n, SensesAll v.zones ((watched [o]).filterMap (·.pkt)) n v'.zones ∧
      zoneLines (logged [o]) = n.map (newsLine zones) := by
  have one : ∀ {ev : Event} {lines pkt}, ev.pkt = some pkt →
      (watched [WObs.event ev lines]).filterMap (·.pkt) = [pkt] := by
    intro ev lines pkt e
    show [ev].filterMap (·.pkt) = _
    rw [List.filterMap_cons, e]
    rfl
  cases h with
  | arrive => exact ⟨[], .nil, rfl⟩
  | writable => exact ⟨[], .nil, rfl⟩
  | idle hr =>
    cases hr with
    | quiet _ _ => exact ⟨[], .nil, rfl⟩
  | @event cx io ev v' hr hn =>
    have e : zoneLines (logged [.event ev
        (areaDiff areas v.shown v'.shown ++ zoneDiff zones v.zones v'.zones)]) =
        zoneDiff zones v.zones v'.zones := by
      show zoneLines (_ ++ []) = _
      rw [List.append_nil, zoneLines_append, zoneLines_areas, zoneLines_zones, List.nil_append]
    rw [e]
    cases hr with
    | event hf ht =>
      obtain ⟨n, h1, h2⟩ := tells_diff ht zones hn
      refine ⟨n, ?_, h2⟩
      rw [one (tells_pkt ht), ← List.append_nil n]
      exact .cons h1 .nil
    | late _ _ _ => exact ⟨[], .nil, zoneDiff_self _ _⟩
  | report hr hm =>
    cases hr with
    | event hf ht =>
      refine ⟨[], ?_, rfl⟩
      rw [one (tells_pkt ht)]
      exact .cons (tells_report ht hm) .nil
    | late _ _ _ => cases hm
  | ended hr =>
    cases hr with
    | ended _ => exact ⟨[], .nil, rfl⟩

theorem diary_senses {areas : Fin 8 → Bytes} {zones : Fin 208 → Bytes} {v v' : View}
    {l : List (Look × List Record)} (h : Diary areas zones v l v') :
    ∃ n, SensesAll v.zones ((watched (l.map fun x => x.1.out)).filterMap (·.pkt)) n v'.zones ∧
      zoneLines (logged (l.map fun x => x.1.out)) = n.map (newsLine zones) := by
  induction h with
  | nil => exact ⟨[], .nil, rfl⟩
  | cons hs _ _ _ ih =>
    obtain ⟨n, h1, h2⟩ := sees_senses hs
    obtain ⟨n', k1, k2⟩ := ih
    refine ⟨n ++ n', ?_, ?_⟩
    · rw [List.map_cons, watched_cons, List.filterMap_append]
      exact sensesAll_append h1 k1
    · rw [List.map_cons, logged_cons, zoneLines_append, h2, k2, List.map_append]

/-! ## As a session -/

theorem sees_acts {areas : Fin 8 → Bytes} {zones : Fin 208 → Bytes} {v v' : View} {op : InitOp}
    {rd : Bytes} {o : WObs} (h : Sees areas zones v op rd o v') :
    ∃ out, Acts v (panelOp op) rd out v' ∧ events [out] = watched [o] ∧
      bytesRead [⟨panelOp op, rd, out⟩] = rd := by
  cases h with
  | arrive => exact ⟨.env [], .arrive, rfl, rfl⟩
  | writable => exact ⟨.env [], .writable, rfl, rfl⟩
  | idle hr => exact ⟨.next .pending [], .next hr, rfl, by simp [bytesRead, panelOp]⟩
  | event hr _ => exact ⟨.next _ [], .next hr, rfl, by simp [bytesRead, panelOp]⟩
  | report hr _ => exact ⟨.next _ [], .next hr, rfl, by simp [bytesRead, panelOp]⟩
  | ended hr => exact ⟨.next _ [], .next hr, rfl, by simp [bytesRead, panelOp]⟩

theorem diary_lives {areas : Fin 8 → Bytes} {zones : Fin 208 → Bytes} {v v' : View}
    {l : List (Look × List Record)} (h : Diary areas zones v l v') :
    ∃ ds, Lives v ds v' ∧ bytesRead ds = l.flatMap (fun x => x.1.rd) ∧
      events (ds.map Deed.out) = watched (l.map fun x => x.1.out) := by
  induction h with
  | nil => exact ⟨[], .nil, rfl, rfl⟩
  | @cons _ _ _ t j l hs _ _ _ ih =>
    obtain ⟨out, h1, h2, h3⟩ := sees_acts hs
    obtain ⟨ds, k1, k2, k3⟩ := ih
    refine ⟨⟨panelOp t.op, t.rd, out⟩ :: ds, .cons h1 k1, ?_, ?_⟩
    · have e : ∀ d, bytesRead (d :: ds) = bytesRead [d] ++ bytesRead ds := by
        intro d; simp [bytesRead]
      rw [e, h3, k2, List.flatMap_cons]
    · rw [List.map_cons, List.map_cons, watched_cons, ← h2, ← k3]
      show events ([out] ++ ds.map Deed.out) = _
      unfold events
      rw [List.filterMap_append]

/-- What `watch` took of what it read. -/
theorem sentry_taken {w : Watch} (s : Sentry w) :
    Taken w.panel.conn.sock.received
      (gottenPackets s.outs ++ (watched s.obs).filterMap (·.pkt)) w.panel.conn.rd.buffer := by
  obtain ⟨a1, a2, a3, _⟩ := C71_after_connect s.fresh s.connected
  obtain ⟨v0, l, v, _, k0, hd, k, _, _, ho, hr, _⟩ := C131_follows a1 a2 a3 s.ran
  obtain ⟨ds, h1, h2, h3⟩ := diary_lives hd
  have ht := taken_connected _ s.fresh _ _ _ s.connected
  have := lives_taken h1 (k0.unread ▸ ht)
  unfold packets at this
  rwa [h2, h3, ← ho, ← hr, ← k.unread] at this

/-- Connections that took the same packets show the same names. -/
theorem same_names {c c' : Connection} (hc : Fresh c) (hc' : Fresh c') {ops ops' : List InitOp}
    {outs outs' : List Obs} {p0 p0' : Panel}
    (h : Init.connect c ops = .ok (outs, .finished (.ok p0)))
    (h' : Init.connect c' ops' = .ok (outs', .finished (.ok p0')))
    (e : gottenPackets outs = gottenPackets outs') :
    areaShown p0 = areaShown p0' ∧ zoneShown p0 = zoneShown p0' := by
  obtain ⟨ps, l, t, a1, _, a2⟩ := C152_tally c hc ops outs p0 h [] [] p0 (by intro c h; cases h) rfl
  obtain ⟨ps', l', t', b1, _, b2⟩ :=
    C152_tally c' hc' ops' outs' p0' h' [] [] p0' (by intro c h; cases h) rfl
  have e1 := taken_same t (taken_connected _ hc _ _ _ h)
  have e2 := taken_same t' (taken_connected _ hc' _ _ _ h')
  rw [e2, ← e, ← e1] at b1
  have := C152_one t a1 b1
  subst this
  constructor
  · funext i
    unfold areaShown
    have : p0.state.areaNames[i.val] = p0'.state.areaNames[i.val] :=
      (a2.areas i.val i.isLt).trans (b2.areas i.val i.isLt).symm
    exact congrArg (fun t : TextDescription => shown t.text.toList) this
  · funext i
    unfold zoneShown
    have : p0.state.zoneNames[i.val] = p0'.state.zoneNames[i.val] :=
      (a2.zoneNames i.val i.isLt).trans (b2.zoneNames i.val i.isLt).symm
    exact congrArg (fun t : TextDescription => shown t.text.toList) this

/-- **C158** The lines on zones are those of the changes that the packets report, given what the zones
were at the start, in order. -/
theorem C158_exact {w : Watch} (s : Sentry w) :
    ∃ z n z', s.p0.state.zoneStatuses = some z ∧
      SensesAll z ((watched s.obs).filterMap (·.pkt)) n z' ∧
      zoneLines (logged s.obs) = n.map (newsLine (zoneShown s.p0)) := by
  obtain ⟨a1, a2, a3, _⟩ := C71_after_connect s.fresh s.connected
  obtain ⟨v0, l, v, _, k0, hd, k, _, _, ho, hr, _⟩ := C131_follows a1 a2 a3 s.ran
  obtain ⟨n, h1, h2⟩ := diary_senses hd
  rw [← ho] at h1 h2
  exact ⟨_, n, _, zones_iff.mp k0.zones, h1, h2⟩

/-- **C158** Of two runs of `watch`, of which one has read what the other has and perhaps more, and has
polled for it all, the one has logged the lines on zones that the other has, in order, and perhaps
more. -/
theorem C158_prefix {w w' : Watch} (s : Sentry w) (s' : Sentry w') {t : Bytes}
    (he : w'.panel.conn.sock.received = w.panel.conn.sock.received ++ t)
    (hw : Spec.Waits w'.panel.conn.rd.buffer) :
    zoneLines (logged s.obs) <+: zoneLines (logged s'.obs) := by
  have tp := sentry_taken s
  have tq := sentry_taken s'
  rw [he] at tq
  obtain ⟨hg, ⟨more, hm⟩, hz⟩ := same_start s.fresh s'.fresh s.connected s'.connected tp tq hw
  obtain ⟨z, n, z₁, a1, a2, a3⟩ := C158_exact s
  obtain ⟨z', n', z₁', b1, b2, b3⟩ := C158_exact s'
  rw [a1, b1] at hz
  cases hz
  rw [hm] at b2
  obtain ⟨n₁, n₂, z₂, e, c1, _⟩ := sensesAll_split b2
  obtain ⟨rfl, _⟩ := sensesAll_one (fun p hp => taken_valid tp p (List.mem_append_right _ hp)) a2 c1
  rw [a3, b3, e, List.map_append, (same_names s.fresh s'.fresh s.connected s'.connected hg).2]
  exact List.prefix_append _ _

/-- **C158** Two runs of `watch` that have read the same bytes and polled for them all have logged the
same lines on zones. -/
theorem C158_zones {w w' : Watch} (s : Sentry w) (s' : Sentry w')
    (he : w.panel.conn.sock.received = w'.panel.conn.sock.received)
    (hw : Spec.Waits w.panel.conn.rd.buffer) (hw' : Spec.Waits w'.panel.conn.rd.buffer) :
    zoneLines (logged s.obs) = zoneLines (logged s'.obs) := by
  have h := C158_prefix s s' (t := []) (by rw [he, List.append_nil]) hw'
  have h' := C158_prefix s' s (t := []) (by rw [he, List.append_nil]) hw
  exact h.eq_of_length (Nat.le_antisymm h.length_le h'.length_le)

/-! ## Calm streams -/

/-- The lines for an event, given what was shown before and after. -/
def diffLines (areas : Fin 8 → Bytes) (zones : Fin 208 → Bytes) (s : Vista) (ev : Event) (s' : Vista) :
    List WatchLine :=
  match ev.msg with
  | some (.ok (.zoneStatusReport _)) => []
  | _ => areaDiff areas s.shown s'.shown ++ zoneDiff zones s.zones s'.zones

/-- The lines and the whole log for some events. -/
inductive Narrates (areas : Fin 8 → Bytes) (zones : Fin 208 → Bytes) :
    Vista → List (Event × Vista) → List WatchLine → List Record → Prop
  | nil {s} : Narrates areas zones s [] [] []
  | cons {s s' ev pkt d l k r} : ev.pkt = some pkt → ev.debug = .ok d →
      Narrates areas zones s' l k r →
      Narrates areas zones s ((ev, s') :: l) (diffLines areas zones s ev s' ++ k)
        (jot .received [("pkt", pkt.debug)] :: jot .polled [("pkt", d)] ::
          (diffLines areas zones s ev s').map lineShown ++ r)

theorem narrates_one {areas : Fin 8 → Bytes} {zones : Fin 208 → Bytes} {s : Vista}
    {l : List (Event × Vista)} {k k' : List WatchLine} {r r' : List Record}
    (h : Narrates areas zones s l k r) (h' : Narrates areas zones s l k' r') : k = k' ∧ r = r' := by
  induction h generalizing k' r' with
  | nil => cases h'; exact ⟨rfl, rfl⟩
  | cons a b _ ih =>
    cases h' with
    | cons a' b' t =>
      obtain ⟨rfl, rfl⟩ := ih t
      rw [a] at a'
      rw [b] at b'
      cases a'
      cases b'
      exact ⟨rfl, rfl⟩

theorem narrates_split {areas : Fin 8 → Bytes} {zones : Fin 208 → Bytes} {s : Vista}
    {l m : List (Event × Vista)} {k : List WatchLine} {r : List Record}
    (h : Narrates areas zones s (l ++ m) k r) :
    ∃ k₁ k₂ r₁ r₂, k = k₁ ++ k₂ ∧ r = r₁ ++ r₂ ∧ Narrates areas zones s l k₁ r₁ := by
  induction l generalizing s k r with
  | nil => exact ⟨[], k, [], r, rfl, rfl, .nil⟩
  | cons a l ih =>
    cases h with
    | cons a b t =>
      obtain ⟨k₁, k₂, r₁, r₂, rfl, rfl, h⟩ := ih t
      exact ⟨_, k₂, _, r₂, (List.append_assoc ..).symm, (List.append_assoc (_ :: _ :: _) _ _).symm,
        .cons a b h⟩

theorem narrates_append {areas : Fin 8 → Bytes} {zones : Fin 208 → Bytes} {s s' : Vista}
    {ps : List Packet} {l m : List (Event × Vista)} {k k' : List WatchLine} {r r' : List Record}
    (hp : PicksAll s ps l s') (h : Narrates areas zones s l k r)
    (h' : Narrates areas zones s' m k' r') : Narrates areas zones s (l ++ m) (k ++ k') (r ++ r') := by
  induction hp generalizing k r with
  | nil => cases h; exact h'
  | cons _ _ ih =>
    cases h with
    | cons a b t =>
      rw [List.append_assoc, List.append_assoc (_ :: _ :: _)]
      exact .cons a b (ih t h')

theorem tells_unasked {now : Nat} {v v' : View} {pkt : Packet} {ev : Event} (h : Tells now v pkt ev v')
    (ha : v.asked = none) : ev.completes = none ∧ v'.asked = none := by
  cases h with
  | @message m change done v₁ v₂ hm hl hc =>
    have e : v₁.asked = v.asked := by
      cases hl with
      | _ => rfl
    cases hc with
    | done a _ => rw [e, ha] at a; cases a
    | unrelated a _ => rw [e, ha] at a; cases a
    | idle a => exact ⟨rfl, a⟩
  | fault _ => exact ⟨rfl, ha⟩
  | nothing _ => exact ⟨rfl, ha⟩

theorem told_same {ev : Event} (h : ev.completes = none) : told ev = ev := by
  obtain ⟨a, b, c, d⟩ := ev
  cases h
  rfl

theorem tells_means {now : Nat} {v v' : View} {pkt : Packet} {ev : Event} (h : Tells now v pkt ev v') :
    Means pkt ev.msg := by
  cases h with
  | message a _ _ => exact a
  | fault a => exact a
  | nothing a => exact a

/-- What is logged about the packet of an event of a calm stream. -/
theorem jots_calm {v v' : View} {cx : Cx} {pkt : Packet} {ev : Event} {w : List Waker}
    {l : List Record} {now : Nat} {r : Option ArmingStatusReport} {u : Bytes}
    (hj : Jots v (.pollNext cx) (.next (.ready (some (.ok ev))) w) l)
    (ht : Tells now { v with unread := u } pkt ev v') (hv : Decoded pkt)
    (hc : Calm (some v.shown) [pkt] r) : l = [jot .received [("pkt", pkt.debug)]] := by
  have hp := tells_pkt ht
  have hm := tells_means ht
  cases hj with
  | @message _ pkt' m _ _ _ l hr =>
    cases hp
    have hs : ∀ m', m = .armingStatusReport m' → ¬ Suspicious v.shown m' := by
      rintro m' rfl
      exact (calm_report hv hc hm).2 _ rfl
    cases hr with
    | withheld _ b => exact absurd b (hs _ rfl)
    | twice _ b => exact absurd b (hs _ rfl)
    | plain _ => rfl
    | other _ => rfl
  | packet _ => cases hp; rfl
  | late _ => cases hp
  | quiet h => exact absurd rfl (h _)
  | other h _ => exact absurd rfl (h _)

theorem sees_narrates {areas : Fin 8 → Bytes} {zones : Fin 208 → Bytes} {v v' : View} {op : InitOp}
    {rd : Bytes} {o : WObs} {j : List Record} {r : Option ArmingStatusReport}
    (h : Sees areas zones v op rd o v') (hp : Prints v op o j) (hh : v.held = none)
    (ha : v.asked = none) (hv : ∀ p ∈ (watched [o]).filterMap (·.pkt), Decoded p)
    (hc : Calm (some v.shown) ((watched [o]).filterMap (·.pkt)) r) :
    ∃ l, PicksAll v.vista ((watched [o]).filterMap (·.pkt)) l v'.vista ∧
      Narrates areas zones v.vista l (logged [o]) j ∧ l.map (·.1) = watched [o] ∧
      v'.held = none ∧ v'.asked = none ∧ r = some v'.shown := by
  have still : ∀ {w : View}, w.vista = v.vista → w.held = v.held → w.asked = v.asked →
      (∀ ev l, o ≠ .event ev l) → ∃ l, PicksAll v.vista ((watched [o]).filterMap (·.pkt)) l w.vista ∧
      Narrates areas zones v.vista l (logged [o]) j ∧ l.map (·.1) = watched [o] ∧
      w.held = none ∧ w.asked = none ∧ r = some w.shown := by
    intro w e h1 h2 h3
    have e1 : watched [o] = [] := by
      cases o with
      | event ev l => exact absurd rfl (h3 _ _)
      | _ => rfl
    have e2 : logged [o] = [] := by
      cases o with
      | event ev l => exact absurd rfl (h3 _ _)
      | _ => rfl
    have e3 : j = [] := C131_one hp (.quiet h3)
    rw [e1] at hc ⊢
    rw [e2, e3, e, h1, h2]
    cases hc
    exact ⟨[], .nil, .nil, rfl, hh, ha, by rw [show w.shown = v.shown from congrArg Vista.shown e]⟩
  have one : ∀ {cx io ev v' lines}, Reading cx v io (.ready (some (.ok ev))) v' →
      op = .tick cx → o = .event ev lines → diffLines areas zones v.vista ev v'.vista = lines →
      ∃ l, PicksAll v.vista ((watched [o]).filterMap (·.pkt)) l v'.vista ∧
      Narrates areas zones v.vista l (logged [o]) j ∧ l.map (·.1) = watched [o] ∧
      v'.held = none ∧ v'.asked = none ∧ r = some v'.shown := by
    rintro cx io ev v' lines hr rfl rfl hl
    obtain ⟨h1, h2, h3⟩ := reading_picks hr hh hv hc
    cases hr with
    | late _ b _ => rw [hh] at b; cases b
    | @event pkt rest _ _ hf ht =>
      obtain ⟨u1, u2⟩ := tells_unasked ht ha
      rw [told_same u1] at h1
      have ep : (watched [WObs.event ev lines]).filterMap (·.pkt) = [pkt] := by
        show [ev].filterMap (·.pkt) = _
        rw [List.filterMap_cons, tells_pkt ht]
        rfl
      rw [ep] at hv hc
      refine ⟨_, h1, ?_, rfl, h2, u2, h3⟩
      cases hp with
      | event hj hd =>
        have e := jots_calm hj ht (hv _ (List.mem_singleton.mpr rfl)) hc
        subst e
        show Narrates areas zones v.vista [(ev, v'.vista)] (lines ++ []) _
        have := Narrates.cons (areas := areas) (zones := zones) (s := v.vista) (s' := v'.vista)
          (tells_pkt ht) hd .nil
        simpa [hl] using this
      | quiet h => exact absurd rfl (h _ _)
  cases h with
  | arrive => exact still rfl rfl rfl fun _ _ h => (by cases h)
  | writable => exact still rfl rfl rfl fun _ _ h => (by cases h)
  | idle hr =>
    cases hr with
    | quiet _ _ => exact still rfl rfl rfl fun _ _ h => (by cases h)
  | @event cx io ev v' hr hn =>
    refine one hr rfl rfl ?_
    unfold diffLines
    split
    · next m e => exact absurd e (hn _)
    · rfl
  | report hr hm =>
    refine one hr rfl rfl ?_
    unfold diffLines
    rw [hm]
  | ended hr =>
    cases hr with
    | ended _ => exact still rfl rfl rfl fun _ _ h => (by cases h)

theorem diary_narrates {areas : Fin 8 → Bytes} {zones : Fin 208 → Bytes} {v v' : View}
    {l : List (Look × List Record)} {r : Option ArmingStatusReport} (h : Diary areas zones v l v')
    (hh : v.held = none) (ha : v.asked = none)
    (hv : ∀ p ∈ (watched (l.map fun x => x.1.out)).filterMap (·.pkt), Decoded p)
    (hc : Calm (some v.shown) ((watched (l.map fun x => x.1.out)).filterMap (·.pkt)) r) :
    ∃ k, PicksAll v.vista ((watched (l.map fun x => x.1.out)).filterMap (·.pkt)) k v'.vista ∧
      Narrates areas zones v.vista k (logged (l.map fun x => x.1.out)) (l.flatMap Prod.snd) ∧
      k.map (·.1) = watched (l.map fun x => x.1.out) := by
  induction h with
  | nil => exact ⟨[], .nil, .nil, rfl⟩
  | @cons _ _ _ t j l hs hp _ _ ih =>
    rw [List.map_cons, watched_cons, List.filterMap_append] at hv hc
    rw [List.map_cons, watched_cons, logged_cons, List.filterMap_append, List.flatMap_cons]
    obtain ⟨x, c1, c2⟩ := calm_split hc
    obtain ⟨k, h1, h2, h3, h4, h5, h6⟩ :=
      sees_narrates hs hp hh ha (fun p hp => hv p (List.mem_append_left _ hp)) c1
    rw [h6] at c2
    obtain ⟨k', k1, k2, k3⟩ := ih h4 h5 (fun p hp => hv p (List.mem_append_right _ hp)) c2
    exact ⟨k ++ k', picksAll_append h1 k1, narrates_append h1 h2 k2, by rw [List.map_append, h3, k3]⟩

/-- What `watch` did with a calm stream. -/
theorem sentry_narrates {w : Watch} (s : Sentry w)
    (hc : ∃ r, Calm none (gottenPackets s.outs ++ (watched s.obs).filterMap (·.pkt)) r) :
    ∃ r z l s' log, Calm none (gottenPackets s.outs) (some r) ∧ s.p0.state.zoneStatuses = some z ∧
      PicksAll ⟨r, z⟩ ((watched s.obs).filterMap (·.pkt)) l s' ∧
      Narrates (areaShown s.p0) (zoneShown s.p0) ⟨r, z⟩ l (logged s.obs) log ∧
      l.map (·.1) = watched s.obs ∧
      ∀ on, Watch.runL on s.later (.watching s.p0) = .ok (enabled on log, w) := by
  have hv := taken_valid (sentry_taken s)
  obtain ⟨r', hr⟩ := hc
  obtain ⟨r, c1, c2⟩ := calm_split hr
  obtain ⟨q1, q2⟩ := connected_calm s.fresh s.connected
    (fun p hp => hv p (List.mem_append_left _ hp)) c1
  obtain ⟨a1, a2, a3, _⟩ := C71_after_connect s.fresh s.connected
  obtain ⟨v0, l, v, _, k0, hd, k, _, _, ho, _, _, hlog⟩ := C131_follows a1 a2 a3 s.ran
  have e : r = some v0.shown := q2.symm.trans (arming_iff.mp k0.shown)
  subst e
  have hh : v0.held = none := by rw [← k0.held, q1]; rfl
  have ha : v0.asked = none := by rw [← k0.asked, a1.idle]
  rw [ho] at c2
  obtain ⟨m, h1, h2, h3⟩ := diary_narrates hd hh ha
    (fun p hp => hv p (List.mem_append_right _ (ho ▸ hp))) c2
  rw [← ho] at h1 h2 h3
  exact ⟨_, _, m, _, _, c1, zones_iff.mp k0.zones, h1, h2, h3, hlog⟩

/-- **C158** If no report is suspicious, then of two runs of `watch`, of which one has read what the other
has and perhaps more, and has polled for it all, the one has received the events and logged the lines
that the other has, in order, and perhaps more; and so with the whole log since connecting, whatever is
enabled. -/
theorem C158_calm_prefix {w w' : Watch} (s : Sentry w) (s' : Sentry w') {t : Bytes}
    (he : w'.panel.conn.sock.received = w.panel.conn.sock.received ++ t)
    (hw : Spec.Waits w'.panel.conn.rd.buffer) (hc : CalmBytes w'.panel.conn.sock.received) :
    watched s.obs <+: watched s'.obs ∧ logged s.obs <+: logged s'.obs ∧
      ∃ log log', log <+: log' ∧
        (∀ on, Watch.runL on s.later (.watching s.p0) = .ok (enabled on log, w)) ∧
        ∀ on, Watch.runL on s'.later (.watching s'.p0) = .ok (enabled on log', w') := by
  have tp := sentry_taken s
  have tq := sentry_taken s'
  have hcq := calm_taken hc tq
  rw [he] at tq
  have hcp : ∃ r, Calm none (gottenPackets s.outs ++ (watched s.obs).filterMap (·.pkt)) r := by
    obtain ⟨more, hm⟩ := taken_prefix tp tq hw
    rw [hm] at hcq
    obtain ⟨_, h⟩ := hcq
    obtain ⟨x, h1, _⟩ := calm_split h
    exact ⟨x, h1⟩
  obtain ⟨r, z, l, _, log, a1, a2, a3, a4, a5, a6⟩ := sentry_narrates s hcp
  obtain ⟨r', z', l', _, log', b1, b2, b3, b4, b5, b6⟩ := sentry_narrates s' hcq
  obtain ⟨hg, ⟨more, hm⟩, hz⟩ := same_start s.fresh s'.fresh s.connected s'.connected tp tq hw
  obtain ⟨n1, n2⟩ := same_names s.fresh s'.fresh s.connected s'.connected hg
  have hv := taken_valid tp
  rw [← hg] at b1
  cases calm_one (fun p hp => hv p (List.mem_append_left _ hp)) a1 b1
  rw [a2, b2] at hz
  cases hz
  rw [hm] at b3
  obtain ⟨l₁, l₂, _, e, c1, _⟩ := picksAll_split b3
  have e' := picksAll_one (fun p hp => hv p (List.mem_append_right _ hp)) a3 c1
  subst e'
  subst e
  rw [← n1, ← n2] at b4
  obtain ⟨k₁, k₂, r₁, r₂, e1, e2, d⟩ := narrates_split b4
  obtain ⟨d1, d2⟩ := narrates_one a4 d
  refine ⟨?_, ?_, log, log', ?_, a6, b6⟩
  · rw [← a5, ← b5, List.map_append]; exact List.prefix_append _ _
  · rw [e1, d1]; exact List.prefix_append _ _
  · rw [e2, d2]; exact List.prefix_append _ _

/-- **C158** If no report is suspicious, then two runs of `watch` that have read the same bytes and polled
for them all have received the same events and logged the same lines. -/
theorem C158_calm {w w' : Watch} (s : Sentry w) (s' : Sentry w')
    (he : w.panel.conn.sock.received = w'.panel.conn.sock.received)
    (hw : Spec.Waits w.panel.conn.rd.buffer) (hw' : Spec.Waits w'.panel.conn.rd.buffer)
    (hc : CalmBytes w.panel.conn.sock.received) :
    watched s.obs = watched s'.obs ∧ logged s.obs = logged s'.obs := by
  obtain ⟨h1, h2, _⟩ := C158_calm_prefix s s' (t := []) (by rw [he, List.append_nil]) hw' (he ▸ hc)
  obtain ⟨k1, k2, _⟩ := C158_calm_prefix s' s (t := []) (by rw [he, List.append_nil]) hw hc
  exact ⟨h1.eq_of_length (Nat.le_antisymm h1.length_le k1.length_le),
    h2.eq_of_length (Nat.le_antisymm h2.length_le k2.length_le)⟩

theorem enabled_all (l : List Record) : enabled (fun _ => true) l = l := by
  unfold enabled
  rw [List.filter_eq_self]
  intro a _
  rfl

/-- **C158** And the same log since connecting, whatever of it is enabled. -/
theorem C158_log {w w' : Watch} (s : Sentry w) (s' : Sentry w')
    (he : w.panel.conn.sock.received = w'.panel.conn.sock.received)
    (hw : Spec.Waits w.panel.conn.rd.buffer) (hw' : Spec.Waits w'.panel.conn.rd.buffer)
    (hc : CalmBytes w.panel.conn.sock.received) :
    ∃ log, (∀ on, Watch.runL on s.later (.watching s.p0) = .ok (enabled on log, w)) ∧
      ∀ on, Watch.runL on s'.later (.watching s'.p0) = .ok (enabled on log, w') := by
  obtain ⟨_, _, l, l', h, h1, h2⟩ :=
    C158_calm_prefix s s' (t := []) (by rw [he, List.append_nil]) hw' (he ▸ hc)
  obtain ⟨_, _, m, m', k, k1, k2⟩ :=
    C158_calm_prefix s' s (t := []) (by rw [he, List.append_nil]) hw hc
  have e1 : m' = l := by
    have := (k2 fun _ => true).symm.trans (h1 fun _ => true)
    rw [enabled_all, enabled_all] at this
    exact congrArg Prod.fst (Except.ok.inj this)
  have e2 : m = l' := by
    have := (k1 fun _ => true).symm.trans (h2 fun _ => true)
    rw [enabled_all, enabled_all] at this
    exact congrArg Prod.fst (Except.ok.inj this)
  subst e1 e2
  have := h.eq_of_length (Nat.le_antisymm h.length_le k.length_le)
  exact ⟨_, h1, this ▸ h2⟩

/-! ## Samples -/

/-- A whole run of `watch`. -/
def sentinel (ops later : List InitOp) : P (List WObs × Watch) := do
  let r ← Init.connect {} ops
  match r.2 with
  | .finished (.ok p0) => Watch.run later (.watching p0)
  | _ => .error .expect

theorem sentry_of {ops later : List InitOp} {f : List WObs × Watch → Bool}
    (h : holds (sentinel ops later) f = true) : ∃ w, ∃ s : Sentry w, f (s.obs, w) = true := by
  obtain ⟨⟨obs, w⟩, h1, h2⟩ := of_holds h
  unfold sentinel at h1
  match hc : Init.connect {} ops with
  | .error e => rw [hc] at h1; cases h1
  | .ok (outs, ph) =>
    rw [hc] at h1
    change (match ph with
      | .finished (.ok p0) => Watch.run later (.watching p0)
      | _ => .error .expect) = _ at h1
    split at h1
    · exact ⟨w, ⟨{}, ⟨rfl, rfl, rfl, rfl⟩, ops, outs, _, hc, later, obs, h1⟩, h2⟩
    · cases h1

theorem waits_nil {b : Bytes} (h : b = []) : Spec.Waits b := by
  subst h
  exact (waits_of_decode (src := []) (rest := []) (rfl)).2

/-- Not vacuous: arming and the change of a zone are logged. -/
example : ∃ w, ∃ s : Sentry w, CalmBytes w.panel.conn.sock.received ∧
    Spec.Waits w.panel.conn.rd.buffer ∧ (logged s.obs).length = 17 := by
  obtain ⟨w, s, a⟩ := sentry_of (ops := sampleConnect)
    (later := [.arrive (.data calmNews), .tick ⟨1, 0, 0⟩, .tick ⟨1, 0, 0⟩, .tick ⟨1, 0, 0⟩,
      .tick ⟨1, 0, 0⟩])
    (f := fun r => decide (r.2.panel.conn.rd.buffer = [] ∧
      r.2.panel.conn.sock.received = sampleDialogue ++ calmNews ∧ (logged r.1).length = 17))
    (by decide +kernel)
  rw [decide_eq_true_eq] at a
  exact ⟨w, s, a.2.1 ▸ calmNews_calm, waits_nil a.1, a.2.2⟩

/-- **C158** In general only of the zones: two runs of `watch` have read the same bytes, polled for them
all, and logged the change of a zone, but not the same of the areas. -/
theorem C158_areas : ∃ w w', ∃ s : Sentry w, ∃ s' : Sentry w',
    w.panel.conn.sock.received = w'.panel.conn.sock.received ∧ Spec.Waits w.panel.conn.rd.buffer ∧
    Spec.Waits w'.panel.conn.rd.buffer ∧ zoneLines (logged s.obs) ≠ [] ∧
    logged s.obs ≠ logged s'.obs := by
  obtain ⟨w, s, a⟩ := sentry_of (ops := sampleConnect)
    (later := [.arrive (.data (zoneBytes₁ ++ zoneBytes₂)), .tick ⟨1, 0, 0⟩, .tick ⟨1, 0, 0⟩,
      .tick ⟨1, 0, 0⟩, .tick ⟨1, 10000, 10000⟩])
    (f := fun r => decide (r.2.panel.conn.rd.buffer = [] ∧
      r.2.panel.conn.sock.received = sampleDialogue ++ zoneBytes₁ ++ zoneBytes₂ ∧
      (logged r.1).length = 1 ∧ (zoneLines (logged r.1)).length = 1)) (by decide +kernel)
  obtain ⟨w', s', b⟩ := sentry_of (ops := sampleConnect)
    (later := [.arrive (.data zoneBytes₁), .tick ⟨1, 0, 0⟩, .tick ⟨1, 5000, 5000⟩,
      .arrive (.data zoneBytes₂), .tick ⟨1, 5000, 5000⟩, .tick ⟨1, 5000, 5000⟩,
      .tick ⟨1, 10000, 10000⟩])
    (f := fun r => decide (r.2.panel.conn.rd.buffer = [] ∧
      r.2.panel.conn.sock.received = sampleDialogue ++ zoneBytes₁ ++ zoneBytes₂ ∧
      (logged r.1).length = 5)) (by decide +kernel)
  rw [decide_eq_true_eq] at a b
  refine ⟨w, w', s, s', a.2.1.trans b.2.1.symm, waits_nil a.1, waits_nil b.1, fun e => ?_, fun e => ?_⟩
  · have := a.2.2.2
    rw [e] at this
    cases this
  · have := a.2.2.1
    rw [e, b.2.2] at this
    cases this

end Elk.Props
