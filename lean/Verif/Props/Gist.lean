import Verif.Spec.Gist
import Verif.Props.Sentry
/-!
# C159: it is the reports that count

What is shown and told depends on the bytes only through the reports and names that they contain.
-/

namespace Elk.Props

open Elk.Spec

/-! ## Packets and their gist -/

theorem gist_split {ps qs : List Packet} {ms : List Message} (h : Gist (ps ++ qs) ms) :
    ∃ a b, ms = a ++ b ∧ Gist ps a ∧ Gist qs b := by
  induction ps generalizing ms with
  | nil => exact ⟨[], ms, rfl, .nil, h⟩
  | cons p ps ih =>
    cases h with
    | tells a b t =>
      obtain ⟨x, y, rfl, h1, h2⟩ := ih t
      exact ⟨_ :: x, y, rfl, .tells a b h1, h2⟩
    | skip a b t =>
      obtain ⟨x, y, rfl, h1, h2⟩ := ih t
      exact ⟨x, y, rfl, .skip a b h1, h2⟩

theorem gist_one {ps : List Packet} (hv : ∀ p ∈ ps, ValidPacket p ∨ ∃ i, p = .invalid i)
    {ms ms' : List Message} (h : Gist ps ms) (h' : Gist ps ms') : ms = ms' := by
  induction h generalizing ms' with
  | nil => cases h'; rfl
  | tells a b _ ih =>
    cases h' with
    | tells a' _ t =>
      cases means_one (hv _ List.mem_cons_self) a a'
      rw [ih (fun p hp => hv p (List.mem_cons_of_mem _ hp)) t]
    | skip a' n _ => exact absurd b (n _ (means_one (hv _ List.mem_cons_self) a' a))
  | skip a n _ ih =>
    cases h' with
    | tells a' b _ => exact absurd b (n _ (means_one (hv _ List.mem_cons_self) a a'))
    | skip _ _ t => exact ih (fun p hp => hv p (List.mem_cons_of_mem _ hp)) t

/-- **C159** Any bytes have one gist. -/
theorem C159_one {b : Bytes} {ms ms' : List Message} (h : GistBytes b ms) (h' : GistBytes b ms') :
    ms = ms' := by
  obtain ⟨ps, left, t, w, g⟩ := h
  obtain ⟨ps', left', t', w', g'⟩ := h'
  obtain ⟨_, _, _, u⟩ := C117_stream b
  obtain ⟨rfl, rfl⟩ := u _ _ (tokens_of_taken t w)
  obtain ⟨rfl, rfl⟩ := u _ _ (tokens_of_taken t' w')
  exact gist_one (taken_valid t) g g'

theorem gist_exists {ps : List Packet} (hv : ∀ p ∈ ps, ValidPacket p ∨ ∃ i, p = .invalid i) :
    ∃ ms, Gist ps ms := by
  induction ps with
  | nil => exact ⟨[], .nil⟩
  | cons pkt ps ih =>
    obtain ⟨ms, g⟩ := ih fun p hp => hv p (List.mem_cons_of_mem _ hp)
    obtain ⟨m1, m2, m3⟩ := means_of_parse (hv pkt List.mem_cons_self)
    match hp : Message.parse pkt with
    | .ok none => exact ⟨ms, .skip (m3 hp) (fun _ h => (by cases h)) g⟩
    | .ok (some m) =>
      by_cases ht : Counting m
      · exact ⟨m :: ms, .tells (m1 m hp) ht g⟩
      · exact ⟨ms, .skip (m1 m hp) (fun _ h => (by cases h; exact ht)) g⟩
    | .error (.err e) => exact ⟨ms, .skip (m2 e hp) (fun _ h => (by cases h)) g⟩
    | .error (.panic q) => exact absurd hp (C18_parse_never_panics pkt q)

/-- **C159** Any bytes have a gist. -/
theorem C159_exists (b : Bytes) : ∃ ms, GistBytes b ms := by
  obtain ⟨ps, left, t, u⟩ := C117_stream b
  have tk : Taken b ps left ∧ Spec.Waits left := by
    clear u
    induction t with
    | done w => exact ⟨.nil, w⟩
    | next f _ ih => exact ⟨.cons f ih.1, ih.2⟩
  obtain ⟨ms, g⟩ := gist_exists (taken_valid tk.1)
  exact ⟨ms, ps, left, tk.1, tk.2, g⟩

theorem gist_of {b left : Bytes} {ps : List Packet} {ms : List Message} (h : GistBytes b ms)
    (t : Taken b ps left) (w : Spec.Waits left) : Gist ps ms := by
  obtain ⟨ps', left', t', w', g'⟩ := h
  obtain ⟨_, _, _, u⟩ := C117_stream b
  obtain ⟨rfl, rfl⟩ := u _ _ (tokens_of_taken t w)
  obtain ⟨rfl, rfl⟩ := u _ _ (tokens_of_taken t' w')
  exact g'

/-! ## The ledger -/

/-- The questions asked in connecting. -/
def Asking (l : Ledger) : Prop :=
  l.open' = none ∨ l.open' = some .armingStatusRequest ∨ l.open' = some .zoneStatusRequest ∨
    ∃ r, l.open' = some (.stringDescriptionRequest r)

theorem enter_open (l : Ledger) (m : Message) : (l.enter m).open' = l.open' := by
  cases m <;> rfl

theorem close_open (l : Ledger) (q m : Message) : (l.close q m).open' = followUp q m := by
  unfold Ledger.close
  split <;> rfl

theorem followUp_asking {l : Ledger} {q m : Message} (h : l.open' = followUp q m) : Asking l := by
  unfold Asking
  rw [h]
  unfold followUp
  split
  · exact .inr (.inr (.inl rfl))
  · exact .inr (.inr (.inr ⟨_, rfl⟩))
  · split
    · unfold afterType
      split
      all_goals first | exact .inl rfl | exact .inr (.inr (.inr ⟨_, rfl⟩))
    · exact .inr (.inr (.inr ⟨_, rfl⟩))
  · exact .inl rfl

/-- A reply to one of these questions matters. -/
theorem asking_counts {l : Ledger} (h : Asking l) {q m : Message} (hq : l.open' = some q)
    (hr : Responds m q) : Counting m := by
  unfold Asking at h
  rw [hq] at h
  rcases h with h | h | h | ⟨r, h⟩
  · cases h
  · cases h; cases hr; trivial
  · cases h; cases hr; trivial
  · cases h; cases hr <;> trivial

open Classical in
/-- One message that matters. -/
noncomputable def noteOf (l : Ledger) (m : Message) : Ledger :=
  match l.open' with
  | some q => if Responds m q then (l.enter m).close q m else l.enter m
  | none => l.enter m

theorem books_noted {l l' : Ledger} {pkt : Packet} {m : Message}
    (hv : ValidPacket pkt ∨ ∃ i, pkt = .invalid i) (h : Books l pkt l')
    (hm : Means pkt (some (.ok m))) : l' = noteOf l m := by
  cases h with
  | reply a b c =>
    cases means_one hv a hm
    unfold noteOf
    rw [b]
    exact (if_pos c).symm
  | message a n =>
    cases means_one hv a hm
    unfold noteOf
    split
    · exact (if_neg (n _ ‹_›)).symm
    · rfl
  | other a n => exact absurd (means_one hv a hm) (n _)

theorem enter_chatter {l : Ledger} {m : Message} (h : ¬ Counting m) : l.enter m = l := by
  unfold Counting at h
  unfold Ledger.enter
  split <;> first | rfl | exact absurd trivial h

theorem books_chatter {l l' : Ledger} {pkt : Packet} {x : Option (Except Bytes Message)}
    (hv : ValidPacket pkt ∨ ∃ i, pkt = .invalid i) (hl : Asking l) (h : Books l pkt l')
    (hx : Means pkt x) (n : ∀ m, x = some (.ok m) → ¬ Counting m) : l' = l := by
  cases h with
  | reply a b c => exact absurd (asking_counts hl b c) (n _ (means_one hv hx a))
  | message a _ => exact enter_chatter (n _ (means_one hv hx a))
  | other _ _ => rfl

theorem books_asking {l l' : Ledger} {pkt : Packet} (hl : Asking l) (h : Books l pkt l') :
    Asking l' := by
  cases h with
  | reply _ _ _ => exact followUp_asking (close_open _ _ _)
  | message _ _ =>
    unfold Asking
    rw [enter_open]
    exact hl
  | other _ _ => exact hl

/-- What packets add up to is what their gist adds up to. -/
theorem tallies_gist {l l' : Ledger} {ps : List Packet} {ms : List Message}
    (hv : ∀ p ∈ ps, ValidPacket p ∨ ∃ i, p = .invalid i) (hl : Asking l) (h : Tallies l ps l')
    (g : Gist ps ms) : l' = ms.foldl noteOf l ∧ Asking l' := by
  induction h generalizing ms with
  | nil => cases g; exact ⟨rfl, hl⟩
  | cons b _ ih =>
    have hv' := hv _ List.mem_cons_self
    have ih' := fun {ms} => ih (fun p hp => hv p (List.mem_cons_of_mem _ hp)) (books_asking hl b)
      (ms := ms)
    cases g with
    | tells a _ t =>
      cases books_noted hv' b a
      exact ih' t
    | skip a n t =>
      cases books_chatter hv' hl b a n
      exact ih' t

theorem new_asking : Asking .new := .inr (.inl rfl)

theorem tallied_same {ps ps' : List Packet} {ms : List Message} {l l' : Ledger}
    (hv : ∀ p ∈ ps, ValidPacket p ∨ ∃ i, p = .invalid i)
    (hv' : ∀ p ∈ ps', ValidPacket p ∨ ∃ i, p = .invalid i) (h : Tallies .new ps l)
    (h' : Tallies .new ps' l') (g : Gist ps ms) (g' : Gist ps' ms) : l = l' :=
  (tallies_gist hv new_asking h g).1.trans (tallies_gist hv' new_asking h' g').1.symm

/-- **C159** Two panels whose bytes have the same gist, with no packet left in them and no report
withheld, show the same: whatever else they were sent. -/
theorem C159_agree {p q : Panel} (sp : Session p) (sq : Session q) {ms : List Message}
    (gp : GistBytes p.conn.sock.received ms) (gq : GistBytes q.conn.sock.received ms)
    (wp : Spec.Waits p.conn.rd.buffer) (wq : Spec.Waits q.conn.rd.buffer)
    (np : p.pendingArm = none) (nq : q.pendingArm = none) : SameViews p q := by
  obtain ⟨ps, l, t, h, _, s⟩ := C152_tally _ sp.fresh _ _ _ sp.connected _ _ _ sp.wf sp.ran
  obtain ⟨ps', l', t', h', _, s'⟩ := C152_tally _ sq.fresh _ _ _ sq.connected _ _ _ sq.wf sq.ran
  cases tallied_same (taken_valid t) (taken_valid t') h h' (gist_of gp t wp) (gist_of gq t' wq)
  exact same_of_shows s s' np nq

/-- **C159** So do two sessions that have been polled long enough. -/
theorem C159_settled {p q : Panel} (sp : Session p) (sq : Session q) (hp : SettledSession sp)
    (hq : SettledSession sq) {ms : List Message} (gp : GistBytes p.conn.sock.received ms)
    (gq : GistBytes q.conn.sock.received ms) : SameViews p q :=
  C159_agree sp sq gp gq (settled_views hp).1 (settled_views hq).1 (settled_views hp).2
    (settled_views hq).2

/-- **C159** And the broker retains the same of two idle bridges. -/
theorem C159_retained {cfg : Cfg} (hm : MapCfg cfg) (hd : DistinctNames cfg) {b b' : Bridge}
    (s : Service cfg b) (s' : Service cfg b') (hi : Idle s) (hi' : Idle s') {ms : List Message}
    (g : GistBytes b.panel.conn.sock.received ms) (g' : GistBytes b'.panel.conn.sock.received ms)
    (t : Bytes) : retained b.log t = retained b'.log t := by
  obtain ⟨w, n⟩ := idle_views hi
  obtain ⟨w', n'⟩ := idle_views hi'
  obtain ⟨ps, l, ht, hl, a, z⟩ := C153_tally s
  obtain ⟨ps', l', ht', hl', a', z'⟩ := C153_tally s'
  cases tallied_same (taken_valid ht) (taken_valid ht') hl hl' (gist_of g ht w) (gist_of g' ht' w')
  rw [n] at a
  rw [n'] at a'
  refine retained_of_views hm hd s s' ?_ ?_ t
  · unfold Panel.armingStatus
    exact congrArg _ (a.trans a'.symm)
  · unfold Panel.zoneStatuses
    rw [z.trans z'.symm]

/-! ## The beginning -/

theorem noted_closed {l : Ledger} (ms : List Message) (h : l.open' = none) :
    (ms.foldl noteOf l).open' = none := by
  induction ms generalizing l with
  | nil => exact h
  | cons m ms ih =>
    refine ih ?_
    unfold noteOf
    rw [h]
    exact (enter_open l m).trans h

/-- The gist up to the point where all questions are answered. -/
theorem noted_least {ms a b a' b' : List Message} {x x' : Message} (ha : ms = (a ++ [x]) ++ b)
    (ha' : ms = (a' ++ [x']) ++ b') (n1 : (a.foldl noteOf .new).open' ≠ none)
    (n2 : ((a ++ [x]).foldl noteOf .new).open' = none) (n1' : (a'.foldl noteOf .new).open' ≠ none)
    (n2' : ((a' ++ [x']).foldl noteOf .new).open' = none) : a ++ [x] = a' ++ [x'] ∧ b = b' := by
  have short : ∀ {a b a' b' : List Message} {x x' : Message}, ms = (a ++ [x]) ++ b →
      ms = (a' ++ [x']) ++ b' → ((a ++ [x]).foldl noteOf .new).open' = none →
      (a'.foldl noteOf .new).open' ≠ none → a'.length ≤ a.length := by
    intro a b a' b' x x' e e' n2 n1'
    by_cases hlt : a'.length ≤ a.length
    · exact hlt
    exfalso
    have hp : (a ++ [x]) <+: a' := by
      refine List.prefix_of_prefix_length_le (l₃ := ms) ⟨b, e.symm⟩
        ⟨[x'] ++ b', by rw [e', List.append_assoc]⟩ ?_
      simp only [List.length_append, List.length_cons, List.length_nil]
      omega
    obtain ⟨more, rfl⟩ := hp
    rw [List.foldl_append] at n1'
    exact n1' (noted_closed more n2)
  have le1 := short ha ha' n2 n1'
  have le2 := short ha' ha n2' n1
  rw [ha] at ha'
  exact List.append_inj ha'
    (by simp only [List.length_append, List.length_cons, List.length_nil]; omega)

theorem gist_connected {c : Connection} (hc : Fresh c) {ops : List InitOp} {outs : List Obs}
    {p0 : Panel} (h : Init.connect c ops = .ok (outs, .finished (.ok p0))) {ms : List Message}
    (hv : ∀ p ∈ gottenPackets outs, ValidPacket p ∨ ∃ i, p = .invalid i)
    (g : Gist (gottenPackets outs) ms) :
    ∃ a x, ms = a ++ [x] ∧ (a.foldl noteOf .new).open' ≠ none ∧
      ((a ++ [x]).foldl noteOf .new).open' = none ∧ Amounting p0 (ms.foldl noteOf .new) := by
  obtain ⟨a, x, l₁, l, e, h1, n1, h2, n2, _⟩ := connected_least c hc ops outs p0 h
  obtain ⟨ps, l', t, k1, _, k2⟩ := C152_tally c hc ops outs p0 h [] [] p0 (by intro c h; cases h) rfl
  rw [taken_same t (taken_connected _ hc _ _ _ h)] at k1
  have eg := (tallies_gist hv new_asking k1 g).1
  rw [e] at g hv
  have el := (tallies_gist hv new_asking h2 g).1
  obtain ⟨ma, mx, rfl, g1, g2⟩ := gist_split g
  have e1 := (tallies_gist (fun p hp => hv p (List.mem_append_left _ hp)) new_asking h1 g1).1
  subst e1 el
  rw [eg] at k2
  cases g2 with
  | tells _ _ t => cases t; exact ⟨ma, _, rfl, n1, n2, k2⟩
  | skip _ _ t => cases t; rw [List.append_nil] at n2; exact absurd n2 n1

/-- Two connections whose bytes have the same gist: so have the packets they took in connecting, and
those since; and they show the same to begin with. -/
theorem gist_start {c c' : Connection} (hc : Fresh c) (hc' : Fresh c') {ops ops' : List InitOp}
    {outs outs' : List Obs} {p0 p0' : Panel}
    (h : Init.connect c ops = .ok (outs, .finished (.ok p0)))
    (h' : Init.connect c' ops' = .ok (outs', .finished (.ok p0'))) {b b' left left' : Bytes}
    {ps ps' : List Packet} (ht : Taken b (gottenPackets outs ++ ps) left)
    (ht' : Taken b' (gottenPackets outs' ++ ps') left') (hw : Spec.Waits left)
    (hw' : Spec.Waits left') {ms : List Message} (g : GistBytes b ms) (g' : GistBytes b' ms) :
    ∃ m₀ m₁, ms = m₀ ++ m₁ ∧ Gist (gottenPackets outs) m₀ ∧ Gist (gottenPackets outs') m₀ ∧
      Gist ps m₁ ∧ Gist ps' m₁ ∧ ∃ l, Amounting p0 l ∧ Amounting p0' l := by
  obtain ⟨m₀, m₁, e, g1, g2⟩ := gist_split (gist_of g ht hw)
  obtain ⟨m₀', m₁', e', g1', g2'⟩ := gist_split (gist_of g' ht' hw')
  obtain ⟨a, x, rfl, n1, n2, k⟩ := gist_connected hc h
    (fun p hp => taken_valid ht p (List.mem_append_left _ hp)) g1
  obtain ⟨a', x', rfl, n1', n2', k'⟩ := gist_connected hc' h'
    (fun p hp => taken_valid ht' p (List.mem_append_left _ hp)) g1'
  obtain ⟨q1, q2⟩ := noted_least e e' n1 n2 n1' n2'
  rw [← q1] at g1' k'
  rw [← q2] at g2'
  exact ⟨_, _, e, g1, g1', g2, g2', _, k, k'⟩

/-! ## Zones -/

/-- What a message says of the zones. -/
def heard (z : ZoneStatusReport) : Message → List ZoneNews × ZoneStatusReport
  | .zoneChange m =>
    if h : m.zone.val.toNat - 1 < 208 then
      if z.zones[m.zone.val.toNat - 1] = m.status then ([], z)
      else ([⟨m.zone, z.zones[m.zone.val.toNat - 1], m.status⟩],
        ⟨z.zones.set (m.zone.val.toNat - 1) m.status⟩)
    else ([], z)
  | .zoneStatusReport m => ([], m)
  | _ => ([], z)

def heardAll (z : ZoneStatusReport) : List Message → List ZoneNews × ZoneStatusReport
  | [] => ([], z)
  | m :: ms => ((heard z m).1 ++ (heardAll (heard z m).2 ms).1, (heardAll (heard z m).2 ms).2)

theorem senses_heard {z z' : ZoneStatusReport} {pkt : Packet} {n : List ZoneNews} {m : Message}
    (hv : ValidPacket pkt ∨ ∃ i, pkt = .invalid i) (h : Senses z pkt n z')
    (hm : Means pkt (some (.ok m))) : heard z m = (n, z') := by
  cases h with
  | @change c i hi a b d =>
    cases means_one hv hm a
    have e : c.zone.val.toNat - 1 = i := by omega
    subst e
    unfold heard
    dsimp only
    rw [dif_pos hi, if_neg d]
  | @same c i hi a b d =>
    cases means_one hv hm a
    have e : c.zone.val.toNat - 1 = i := by omega
    subst e
    unfold heard
    dsimp only
    rw [dif_pos hi, if_pos d]
  | report a => cases means_one hv hm a; rfl
  | other a n1 n2 =>
    cases means_one hv hm a
    unfold heard
    split
    · exact absurd rfl (n1 _)
    · exact absurd rfl (n2 _)
    · rfl

theorem senses_chatter {z z' : ZoneStatusReport} {pkt : Packet} {n : List ZoneNews}
    {x : Option (Except Bytes Message)} (hv : ValidPacket pkt ∨ ∃ i, pkt = .invalid i)
    (h : Senses z pkt n z') (hx : Means pkt x) (hn : ∀ m, x = some (.ok m) → ¬ Counting m) :
    n = [] ∧ z' = z := by
  cases h with
  | change a _ _ => exact absurd trivial (hn _ (means_one hv hx a))
  | same a _ _ => exact ⟨rfl, rfl⟩
  | report a => exact absurd trivial (hn _ (means_one hv hx a))
  | other _ _ _ => exact ⟨rfl, rfl⟩

theorem sensesAll_gist {z z' : ZoneStatusReport} {ps : List Packet} {n : List ZoneNews}
    {ms : List Message} (hv : ∀ p ∈ ps, ValidPacket p ∨ ∃ i, p = .invalid i)
    (h : SensesAll z ps n z') (g : Gist ps ms) : heardAll z ms = (n, z') := by
  induction h generalizing ms with
  | nil => cases g; rfl
  | cons a _ ih =>
    have hv' := hv _ List.mem_cons_self
    have ih' := fun {ms} => ih (fun p hp => hv p (List.mem_cons_of_mem _ hp)) (ms := ms)
    cases g with
    | tells b _ t =>
      have e := senses_heard hv' a b
      unfold heardAll
      rw [e, ih' t]
    | skip b c t =>
      obtain ⟨rfl, rfl⟩ := senses_chatter hv' a b c
      exact ih' t

theorem senses_gist {z z' z₁ z₁' : ZoneStatusReport} {ps ps' : List Packet} {n n' : List ZoneNews}
    {ms : List Message} (hv : ∀ p ∈ ps, ValidPacket p ∨ ∃ i, p = .invalid i)
    (hv' : ∀ p ∈ ps', ValidPacket p ∨ ∃ i, p = .invalid i) (h : SensesAll z ps n z₁)
    (h' : SensesAll z' ps' n' z₁') (e : z = z') (g : Gist ps ms) (g' : Gist ps' ms) : n = n' := by
  subst e
  have := (sensesAll_gist hv h g).symm.trans (sensesAll_gist hv' h' g')
  cases this
  rfl

theorem session_senses {p : Panel} (s : Session p) : ∃ z n z', s.p0.state.zoneStatuses = some z ∧
    SensesAll z (packets s.outs') n z' ∧
    zonesTold (events s.outs') = n.map fun n => (n.zone, n.prior) := by
  have hcon := C36_connect_establishes _ s.fresh _ _ _ s.connected
  obtain ⟨v0, v, ds, k0, k, hlv, _, o2, _, _⟩ := C122_follows hcon s.wf s.ran
  obtain ⟨n, h1, h2⟩ := lives_senses hlv
  rw [o2] at h1 h2
  exact ⟨_, n, _, zones_iff.mp k0.zones, h1, h2⟩

/-- **C159** Two sessions whose bytes have the same gist, and that have polled for them all, have told
the same changes of zones. -/
theorem C159_zones {p q : Panel} (sp : Session p) (sq : Session q) {ms : List Message}
    (gp : GistBytes p.conn.sock.received ms) (gq : GistBytes q.conn.sock.received ms)
    (wp : Spec.Waits p.conn.rd.buffer) (wq : Spec.Waits q.conn.rd.buffer) :
    zonesTold (events sp.outs') = zonesTold (events sq.outs') := by
  have tp := taken_session sp
  have tq := taken_session sq
  obtain ⟨m₀, m₁, _, _, _, g, g', l, k, k'⟩ :=
    gist_start sp.fresh sq.fresh sp.connected sq.connected tp tq wp wq gp gq
  obtain ⟨z, n, z₁, a1, a2, a3⟩ := session_senses sp
  obtain ⟨z', n', z₁', b1, b2, b3⟩ := session_senses sq
  have e : z = z' := Option.some.inj (a1.symm.trans ((k.zones.trans k'.zones.symm).trans b1))
  rw [a3, b3, senses_gist (fun p hp => taken_valid tp p (List.mem_append_right _ hp))
    (fun p hp => taken_valid tq p (List.mem_append_right _ hp)) a2 b2 e g g']

/-- **C159** Two idle bridges with the same configuration, to whose panels the same gist was sent, have
published the same on the topics of the zones, from the first message to the last. -/
theorem C159_published {cfg : Cfg} (hm : MapCfg cfg) {b b' : Bridge} (s : Service cfg b)
    (s' : Service cfg b') (hi : Idle s) (hi' : Idle s') {ms : List Message}
    (g : GistBytes b.panel.conn.sock.received ms) (g' : GistBytes b'.panel.conn.sock.received ms) :
    zoneLog cfg b.log = zoneLog cfg b'.log := by
  obtain ⟨v, n, z₁, a1, tp, a2, a3, a4⟩ := service_senses hm s
  obtain ⟨v', n', z₁', b1, tq, b2, b3, b4⟩ := service_senses hm s'
  obtain ⟨m₀, m₁, _, _, _, h, h', l, k, k'⟩ := gist_start s.fresh s'.fresh s.connected s'.connected
    tp tq (idle_views hi).1 (idle_views hi').1 g g'
  have e : v.zones = v'.zones :=
    Option.some.inj (a1.symm.trans ((k.zones.trans k'.zones.symm).trans b1))
  rw [a4, b4, senses_gist (fun p hp => taken_valid tp p (List.mem_append_right _ hp))
    (fun p hp => taken_valid tq p (List.mem_append_right _ hp)) a2 b2 e h h', opens_zones a3 b3 e]

theorem shown_same {p q : Panel} {l : Ledger} (k : Amounting p l) (k' : Amounting q l) :
    areaShown p = areaShown q ∧ zoneShown p = zoneShown q := by
  constructor
  · funext i
    unfold areaShown
    have : p.state.areaNames[i.val] = q.state.areaNames[i.val] :=
      (k.areas i.val i.isLt).trans (k'.areas i.val i.isLt).symm
    exact congrArg (fun t : TextDescription => shown t.text.toList) this
  · funext i
    unfold zoneShown
    have : p.state.zoneNames[i.val] = q.state.zoneNames[i.val] :=
      (k.zoneNames i.val i.isLt).trans (k'.zoneNames i.val i.isLt).symm
    exact congrArg (fun t : TextDescription => shown t.text.toList) this

/-- **C159** And two runs of `watch` have logged the same lines on zones. -/
theorem C159_lines {w w' : Watch} (s : Sentry w) (s' : Sentry w') {ms : List Message}
    (g : GistBytes w.panel.conn.sock.received ms) (g' : GistBytes w'.panel.conn.sock.received ms)
    (hw : Spec.Waits w.panel.conn.rd.buffer) (hw' : Spec.Waits w'.panel.conn.rd.buffer) :
    zoneLines (logged s.obs) = zoneLines (logged s'.obs) := by
  have tp := sentry_taken s
  have tq := sentry_taken s'
  obtain ⟨m₀, m₁, _, _, _, h, h', l, k, k'⟩ :=
    gist_start s.fresh s'.fresh s.connected s'.connected tp tq hw hw' g g'
  obtain ⟨z, n, z₁, a1, a2, a3⟩ := C158_exact s
  obtain ⟨z', n', z₁', b1, b2, b3⟩ := C158_exact s'
  have e : z = z' := Option.some.inj (a1.symm.trans ((k.zones.trans k'.zones.symm).trans b1))
  rw [a3, b3, (shown_same k k').2, senses_gist (fun p hp => taken_valid tp p (List.mem_append_right _ hp))
    (fun p hp => taken_valid tq p (List.mem_append_right _ hp)) a2 b2 e h h']

/-! ## Calm streams -/

/-- No report is suspicious, given the one before. -/
inductive CalmGist : Option ArmingStatusReport → List Message → Option ArmingStatusReport → Prop
  | nil {r} : CalmGist r [] r
  | report {r r' m ms} : (∀ s, r = some s → ¬ Suspicious s m) → CalmGist (some m) ms r' →
      CalmGist r (.armingStatusReport m :: ms) r'
  | other {r r' x ms} : (∀ m, x ≠ .armingStatusReport m) → CalmGist r ms r' → CalmGist r (x :: ms) r'

theorem calm_to {r r' : Option ArmingStatusReport} {ps : List Packet} {ms : List Message}
    (hv : ∀ p ∈ ps, ValidPacket p ∨ ∃ i, p = .invalid i) (h : Calm r ps r') (g : Gist ps ms) :
    CalmGist r ms r' := by
  induction h generalizing ms with
  | nil => cases g; exact .nil
  | report a n _ ih =>
    have hv' := hv _ List.mem_cons_self
    have ih' := fun {ms} => ih (fun p hp => hv p (List.mem_cons_of_mem _ hp)) (ms := ms)
    cases g with
    | tells b _ t => cases means_one hv' a b; exact .report n (ih' t)
    | skip b k _ => exact absurd trivial (k _ (means_one hv' b a))
  | other a n _ ih =>
    have hv' := hv _ List.mem_cons_self
    have ih' := fun {ms} => ih (fun p hp => hv p (List.mem_cons_of_mem _ hp)) (ms := ms)
    cases g with
    | tells b _ t =>
      cases means_one hv' a b
      exact .other (fun m e => n m (by rw [e])) (ih' t)
    | skip _ _ t => exact ih' t

theorem calm_from {r r' : Option ArmingStatusReport} {ps : List Packet} {ms : List Message}
    (h : CalmGist r ms r') (g : Gist ps ms) : Calm r ps r' := by
  induction g generalizing r with
  | nil => cases h; exact .nil
  | tells a _ _ ih =>
    cases h with
    | report n t => exact .report a n (ih t)
    | other n t => exact .other a (fun m e => n m (by cases e; rfl)) (ih t)
  | skip a n _ ih => exact .other a (fun m e => n _ e trivial) (ih h)

/-- **C159** Whether a stream is calm is a matter of its gist. -/
theorem C159_calm {b b' : Bytes} {ms : List Message} (g : GistBytes b ms) (g' : GistBytes b' ms)
    (h : CalmBytes b) : CalmBytes b' := by
  obtain ⟨ps, left, r, t, w, c⟩ := h
  obtain ⟨ps', left', t', w', g'⟩ := g'
  exact ⟨ps', left', r, t', w', calm_from (calm_to (taken_valid t) c (gist_of g t w)) g'⟩

/-- The message, the change it makes and what is shown then, of what matters among some events. -/
inductive Sifts : Vista → List (Event × Vista) → List (Message × Option Change × Vista) → Prop
  | nil {s} : Sifts s [] []
  | keep {s s' ev m l k} : ev.msg = some (.ok m) → Sifts s' l k →
      Sifts s ((ev, s') :: l) ((m, ev.change, s') :: k)
  | drop {s ev l k} : ev.change = none → Sifts s l k → Sifts s ((ev, s) :: l) k

/-- The change that a message makes, and what is shown then. -/
def marked (s : Vista) : Message → Option Change × Vista
  | .armingStatusReport m =>
    if m = s.shown then (none, s) else (some (.armingStatus s.shown), ⟨m, s.zones⟩)
  | .zoneChange m =>
    if h : m.zone.val.toNat - 1 < 208 then
      if s.zones.zones[m.zone.val.toNat - 1] = m.status then (none, s)
      else (some (.zoneChange m.zone s.zones.zones[m.zone.val.toNat - 1]),
        ⟨s.shown, ⟨s.zones.zones.set (m.zone.val.toNat - 1) m.status⟩⟩)
    else (none, s)
  | .zoneStatusReport m => (none, ⟨s.shown, m⟩)
  | _ => (none, s)

def markedAll (s : Vista) : List Message → List (Message × Option Change × Vista)
  | [] => []
  | m :: ms => (m, (marked s m).1, (marked s m).2) :: markedAll (marked s m).2 ms

theorem picks_msg {s s' : Vista} {pkt : Packet} {ev : Event} {m : Message}
    (hv : ValidPacket pkt ∨ ∃ i, pkt = .invalid i) (h : Picks s pkt ev s')
    (hm : Means pkt (some (.ok m))) : ev.msg = some (.ok m) ∧ marked s m = (ev.change, s') := by
  cases h with
  | report a b =>
    cases means_one hv hm a
    exact ⟨rfl, by unfold marked; dsimp only; rw [if_neg b]⟩
  | again a =>
    cases means_one hv hm a
    exact ⟨rfl, by unfold marked; dsimp only; rw [if_pos rfl]⟩
  | @zone c i hi a b d =>
    cases means_one hv hm a
    have e : c.zone.val.toNat - 1 = i := by omega
    subst e
    exact ⟨rfl, by unfold marked; dsimp only; rw [dif_pos hi, if_neg d]⟩
  | @zoneSame c i hi a b d =>
    cases means_one hv hm a
    have e : c.zone.val.toNat - 1 = i := by omega
    subst e
    exact ⟨rfl, by unfold marked; dsimp only; rw [dif_pos hi, if_pos d]⟩
  | zones a => cases means_one hv hm a; exact ⟨rfl, rfl⟩
  | other a n1 n2 n3 =>
    cases means_one hv hm a
    refine ⟨rfl, ?_⟩
    unfold marked
    split
    · exact absurd rfl (n1 _)
    · exact absurd rfl (n2 _)
    · exact absurd rfl (n3 _)
    · rfl

theorem picks_chatter {s s' : Vista} {pkt : Packet} {ev : Event}
    {x : Option (Except Bytes Message)} (hv : ValidPacket pkt ∨ ∃ i, pkt = .invalid i)
    (h : Picks s pkt ev s') (hx : Means pkt x) (hn : ∀ m, x = some (.ok m) → ¬ Counting m) :
    ev.change = none ∧ s' = s := by
  cases h with
  | report a _ => exact absurd trivial (hn _ (means_one hv hx a))
  | again _ => exact ⟨rfl, rfl⟩
  | zone a _ _ => exact absurd trivial (hn _ (means_one hv hx a))
  | zoneSame _ _ _ => exact ⟨rfl, rfl⟩
  | zones a => exact absurd trivial (hn _ (means_one hv hx a))
  | other _ _ _ _ => exact ⟨rfl, rfl⟩

theorem picksAll_gist {s s' : Vista} {ps : List Packet} {l : List (Event × Vista)} {ms : List Message}
    (hv : ∀ p ∈ ps, ValidPacket p ∨ ∃ i, p = .invalid i) (h : PicksAll s ps l s') (g : Gist ps ms) :
    Sifts s l (markedAll s ms) := by
  induction h generalizing ms with
  | nil => cases g; exact .nil
  | cons a _ ih =>
    have hv' := hv _ List.mem_cons_self
    have ih' := fun {ms} => ih (fun p hp => hv p (List.mem_cons_of_mem _ hp)) (ms := ms)
    cases g with
    | tells b _ t =>
      obtain ⟨e1, e2⟩ := picks_msg hv' a b
      unfold markedAll
      rw [e2]
      exact .keep e1 (ih' t)
    | skip b c t =>
      obtain ⟨e1, rfl⟩ := picks_chatter hv' a b c
      exact .drop e1 (ih' t)

theorem sifts_changes {s : Vista} {l : List (Event × Vista)} {k} (h : Sifts s l k) :
    (l.map (·.1)).filterMap (·.change) = k.filterMap (·.2.1) := by
  induction h with
  | nil => rfl
  | keep _ _ ih => rw [List.map_cons, List.filterMap_cons, List.filterMap_cons, ih]
  | drop e _ ih => rw [List.map_cons, List.filterMap_cons, e, ih]

theorem told_changes (l : List Event) : (l.map told).filterMap (·.change) = l.filterMap (·.change) := by
  rw [List.filterMap_map]
  rfl

/-- What was shown to begin with in a calm stream. -/
theorem calm_begin {ps ps' : List Packet} {m₀ : List Message} {r r' : Option ArmingStatusReport}
    (hv : ∀ p ∈ ps, ValidPacket p ∨ ∃ i, p = .invalid i) (h : Calm none ps r)
    (h' : Calm none ps' r') (hv' : ∀ p ∈ ps', ValidPacket p ∨ ∃ i, p = .invalid i) (g : Gist ps m₀)
    (g' : Gist ps' m₀) : r = r' :=
  calm_one hv h (calm_from (calm_to hv' h' g') g)

/-- **C159** If moreover no report is suspicious, then two sessions have told the same changes, of areas
and zones, in the same order. -/
theorem C159_changes {p q : Panel} (sp : Session p) (sq : Session q) {ms : List Message}
    (gp : GistBytes p.conn.sock.received ms) (gq : GistBytes q.conn.sock.received ms)
    (wp : Spec.Waits p.conn.rd.buffer) (wq : Spec.Waits q.conn.rd.buffer)
    (hc : CalmBytes p.conn.sock.received) :
    (events sp.outs').filterMap (·.change) = (events sq.outs').filterMap (·.change) := by
  have tp := taken_session sp
  have tq := taken_session sq
  have vp := taken_valid tp
  have vq := taken_valid tq
  obtain ⟨r, z, a1, a2, l, s, a3, a4, _⟩ := session_picks sp (calm_taken hc tp)
  obtain ⟨r', z', b1, b2, l', s', b3, b4, _⟩ := session_picks sq (calm_taken (C159_calm gp gq hc) tq)
  obtain ⟨m₀, m₁, _, g0, g0', g, g', _, k, k'⟩ :=
    gist_start sp.fresh sq.fresh sp.connected sq.connected tp tq wp wq gp gq
  cases calm_begin (fun p hp => vp p (List.mem_append_left _ hp)) a1 b1
    (fun p hp => vq p (List.mem_append_left _ hp)) g0 g0'
  have e : z = z' := Option.some.inj (a2.symm.trans ((k.zones.trans k'.zones.symm).trans b2))
  subst e
  rw [← told_changes (events sp.outs'), ← a4, ← told_changes (events sq.outs'), ← b4,
    sifts_changes (picksAll_gist (fun p hp => vp p (List.mem_append_right _ hp)) a3 g),
    sifts_changes (picksAll_gist (fun p hp => vq p (List.mem_append_right _ hp)) b3 g')]

theorem sifts_posts {cfg : Cfg} {s : Vista} {l : List (Event × Vista)} {k} {out : List Published}
    (h : Sifts s l k) (hp : Posts cfg l out) :
    Posts cfg (k.map fun x => (⟨none, none, none, x.2.1⟩, x.2.2)) out := by
  induction h generalizing out with
  | nil => cases hp; exact .nil
  | keep _ _ ih =>
    cases hp with
    | cons a t => exact .cons a (ih t)
  | drop e _ ih =>
    cases hp with
    | cons a t =>
      dsimp only at a
      rw [e] at a
      cases a
      exact ih t

/-- **C159** And two idle bridges with the same configuration have published the same with the retain
flag, from the first message to the last. -/
theorem C159_states {cfg : Cfg} (hm : MapCfg cfg) {b b' : Bridge} (s : Service cfg b)
    (s' : Service cfg b') (hi : Idle s) (hi' : Idle s') {ms : List Message}
    (g : GistBytes b.panel.conn.sock.received ms) (g' : GistBytes b'.panel.conn.sock.received ms)
    (hc : CalmBytes b.panel.conn.sock.received) :
    b.log.filter (·.retain) = b'.log.filter (·.retain) := by
  have tp := service_taken s
  have tq := service_taken s'
  have vp := taken_valid tp
  have vq := taken_valid tq
  obtain ⟨v, l, z, out, a1, a2, a3, a4, a5, a6⟩ := service_picks s (calm_taken hc tp)
  obtain ⟨v', l', z', out', b1, b2, b3, b4, b5, b6⟩ :=
    service_picks s' (calm_taken (C159_calm g g' hc) tq)
  obtain ⟨m₀, m₁, _, g0, g0', h, h', _, k, k'⟩ := gist_start s.fresh s'.fresh s.connected
    s'.connected tp tq (idle_views hi).1 (idle_views hi').1 g g'
  have e1 := Option.some.inj (calm_begin (fun p hp => vp p (List.mem_append_left _ hp)) a1 b1
    (fun p hp => vq p (List.mem_append_left _ hp)) g0 g0')
  have e2 : v.zones = v'.zones :=
    Option.some.inj (a2.symm.trans ((k.zones.trans k'.zones.symm).trans b2))
  have es : v.vista = v'.vista := by
    unfold View.vista
    rw [e1, e2]
  have p1 := sifts_posts (picksAll_gist (fun p hp => vp p (List.mem_append_right _ hp)) a3 h) a4
  have p2 := sifts_posts (picksAll_gist (fun p hp => vq p (List.mem_append_right _ hp)) b3 h') b4
  rw [← es] at p2
  rw [a6, b6, posts_one hm p1 p2, opens_same a5 b5 es]

/-- The lines for what matters. -/
def markedLines (areas : Fin 8 → Bytes) (zones : Fin 208 → Bytes) (s : Vista) :
    List (Message × Option Change × Vista) → List WatchLine
  | [] => []
  | (m, _, s') :: k => diffLines areas zones s ⟨none, some (.ok m), none, none⟩ s' ++
      markedLines areas zones s' k

theorem diffLines_same (areas : Fin 8 → Bytes) (zones : Fin 208 → Bytes) (s : Vista) (ev : Event) :
    diffLines areas zones s ev s = [] := by
  unfold diffLines areaDiff zoneDiff
  split
  · rfl
  · simp

theorem sifts_lines {areas : Fin 8 → Bytes} {zones : Fin 208 → Bytes} {s : Vista}
    {l : List (Event × Vista)} {k} {n : List WatchLine} {r : List Record} (h : Sifts s l k)
    (hn : Narrates areas zones s l n r) : n = markedLines areas zones s k := by
  induction h generalizing n r with
  | nil => cases hn; rfl
  | keep e _ ih =>
    cases hn with
    | cons _ _ t =>
      unfold markedLines
      rw [ih t]
      unfold diffLines
      rw [e]
  | drop e _ ih =>
    cases hn with
    | cons _ _ t => rw [diffLines_same, List.nil_append, ih t]

/-- **C159** And two runs of `watch` have logged the same lines on areas and zones. -/
theorem C159_logged {w w' : Watch} (s : Sentry w) (s' : Sentry w') {ms : List Message}
    (g : GistBytes w.panel.conn.sock.received ms) (g' : GistBytes w'.panel.conn.sock.received ms)
    (hw : Spec.Waits w.panel.conn.rd.buffer) (hw' : Spec.Waits w'.panel.conn.rd.buffer)
    (hc : CalmBytes w.panel.conn.sock.received) : logged s.obs = logged s'.obs := by
  have tp := sentry_taken s
  have tq := sentry_taken s'
  have vp := taken_valid tp
  have vq := taken_valid tq
  obtain ⟨r, z, l, _, log, a1, a2, a3, a4, a5, a6⟩ := sentry_narrates s (calm_taken hc tp)
  obtain ⟨r', z', l', _, log', b1, b2, b3, b4, b5, b6⟩ :=
    sentry_narrates s' (calm_taken (C159_calm g g' hc) tq)
  obtain ⟨m₀, m₁, _, g0, g0', h, h', _, k, k'⟩ :=
    gist_start s.fresh s'.fresh s.connected s'.connected tp tq hw hw' g g'
  cases calm_begin (fun p hp => vp p (List.mem_append_left _ hp)) a1 b1
    (fun p hp => vq p (List.mem_append_left _ hp)) g0 g0'
  have e : z = z' := Option.some.inj (a2.symm.trans ((k.zones.trans k'.zones.symm).trans b2))
  subst e
  obtain ⟨n1, n2⟩ := shown_same k k'
  rw [sifts_lines (picksAll_gist (fun p hp => vp p (List.mem_append_right _ hp)) a3 h) a4,
    sifts_lines (picksAll_gist (fun p hp => vq p (List.mem_append_right _ hp)) b3 h') b4, n1, n2]

/-! ## Samples -/

/-- The gist of some bytes, with the decoder and the parser. -/
def gistRun : Nat → Bytes → Option (List Message)
  | 0, _ => none
  | n + 1, b =>
    match Packet.decode b with
    | .ok (some pkt, rest) =>
      match Message.parse pkt with
      | .ok (some (.armingStatusReport m)) => (gistRun n rest).map (.armingStatusReport m :: ·)
      | .ok (some (.zoneStatusReport m)) => (gistRun n rest).map (.zoneStatusReport m :: ·)
      | .ok (some (.zoneChange m)) => (gistRun n rest).map (.zoneChange m :: ·)
      | .ok (some (.stringDescriptionResponse m)) =>
        (gistRun n rest).map (.stringDescriptionResponse m :: ·)
      | .error (.panic _) => none
      | _ => gistRun n rest
    | .ok (none, _) => some []
    | .error _ => none

theorem gistRun_gist {n : Nat} {b : Bytes} {ms : List Message} (h : gistRun n b = some ms) :
    GistBytes b ms := by
  induction n generalizing b ms with
  | zero => cases h
  | succ n ih =>
    unfold gistRun at h
    match hd : Packet.decode b with
    | .error e => rw [hd] at h; cases h
    | .ok (none, rest) =>
      rw [hd] at h
      cases h
      obtain ⟨rfl, hw⟩ := waits_of_decode hd
      exact ⟨[], _, .nil, hw, .nil⟩
    | .ok (some pkt, rest) =>
      rw [hd] at h
      have hf := C117_decode.mp hd
      have hv : Decoded pkt := taken_valid (.cons hf .nil) pkt (List.mem_singleton.mpr rfl)
      obtain ⟨m1, m2, m3⟩ := means_of_parse hv
      dsimp only at h
      have tell : ∀ {m : Message}, Message.parse pkt = .ok (some m) → Counting m →
          (gistRun n rest).map (m :: ·) = some ms → GistBytes b ms := by
        intro m hm ht h
        obtain ⟨ms', e, rfl⟩ := Option.map_eq_some_iff.mp h
        obtain ⟨ps, left, h1, h2, h3⟩ := ih e
        exact ⟨_, left, .cons hf h1, h2, .tells (m1 _ hm) ht h3⟩
      split at h
      · next hm => exact tell hm trivial h
      · next hm => exact tell hm trivial h
      · next hm => exact tell hm trivial h
      · next hm => exact tell hm trivial h
      · cases h
      · next n1 n2 n3 n4 n5 =>
        obtain ⟨ps, left, h1, h2, h3⟩ := ih h
        refine ⟨_, left, .cons hf h1, h2, ?_⟩
        match hp : Message.parse pkt with
        | .ok none => exact .skip (m3 hp) (fun _ h => (by cases h)) h3
        | .ok (some m) =>
          refine .skip (m1 _ hp) (fun m' h ht => ?_) h3
          cases h
          unfold Counting at ht
          split at ht
          · exact n1 _ hp
          · exact n2 _ hp
          · exact n3 _ hp
          · exact n4 _ hp
          · exact ht
        | .error (.err e) => exact .skip (m2 _ hp) (fun _ h => (by cases h)) h3
        | .error (.panic q) => exact absurd hp (n5 q)

/-- As `calmNews`, with bytes that are no packet and changes of tasks in between. -/
def noisyNews : Bytes := [0x3f, 0x0d, 0x0a] ++
  msgBytes (.armingStatusReport (sameReport .armedAway .armedWithExitTimer)) ++
  msgBytes (.taskChange ⟨1⟩) ++
  msgBytes (.armingStatusReport (sameReport .armedAway .armedFully)) ++
  [0x30, 0x0d, 0x0a] ++ msgBytes (.zoneChange ⟨⟨1⟩, ⟨2⟩⟩) ++ msgBytes (.taskChange ⟨2⟩)

theorem noisy_gist : ∃ ms, GistBytes (sampleDialogue ++ calmNews) ms ∧
    GistBytes (sampleDialogue ++ noisyNews) ms ∧ ms.length = 8 := by
  have h : decide ((gistRun 60 (sampleDialogue ++ calmNews)).isSome = true ∧
      gistRun 60 (sampleDialogue ++ noisyNews) = gistRun 60 (sampleDialogue ++ calmNews) ∧
      (gistRun 60 (sampleDialogue ++ calmNews)).map (·.length) = some 8) = true := by decide +kernel
  rw [decide_eq_true_eq] at h
  obtain ⟨ms, e⟩ := Option.isSome_iff_exists.mp h.1
  refine ⟨ms, gistRun_gist e, gistRun_gist (h.2.1.trans e), ?_⟩
  have := h.2.2
  rw [e] at this
  exact Option.some.inj this

/-- Not vacuous: two runs of `watch` have read different bytes with the same gist, and have logged that
an area was armed and a zone changed. -/
example : ∃ w w', ∃ s : Sentry w, ∃ s' : Sentry w', ∃ ms,
    w.panel.conn.sock.received ≠ w'.panel.conn.sock.received ∧
    GistBytes w.panel.conn.sock.received ms ∧ GistBytes w'.panel.conn.sock.received ms ∧
    Spec.Waits w.panel.conn.rd.buffer ∧ Spec.Waits w'.panel.conn.rd.buffer ∧
    CalmBytes w.panel.conn.sock.received ∧ (logged s.obs).length = 17 ∧ s.obs.length < s'.obs.length := by
  obtain ⟨w, s, a⟩ := sentry_of (ops := sampleConnect)
    (later := .arrive (.data calmNews) :: List.replicate 4 (.tick ⟨1, 0, 0⟩))
    (f := fun r => decide (r.2.panel.conn.rd.buffer = [] ∧
      r.2.panel.conn.sock.received = sampleDialogue ++ calmNews ∧ (logged r.1).length = 17 ∧
      r.1.length = 5)) (by decide +kernel)
  obtain ⟨w', s', b⟩ := sentry_of (ops := sampleConnect)
    (later := .arrive (.data noisyNews) :: List.replicate 8 (.tick ⟨1, 0, 0⟩))
    (f := fun r => decide (r.2.panel.conn.rd.buffer = [] ∧
      r.2.panel.conn.sock.received = sampleDialogue ++ noisyNews ∧ r.1.length = 9))
    (by decide +kernel)
  rw [decide_eq_true_eq] at a b
  obtain ⟨ms, g1, g2, _⟩ := noisy_gist
  refine ⟨w, w', s, s', ms, ?_, a.2.1 ▸ g1, b.2.1 ▸ g2, waits_nil a.1, waits_nil b.1,
    a.2.1 ▸ calmNews_calm, a.2.2.1, by have := a.2.2.2; have := b.2.2; dsimp only at *; omega⟩
  rw [a.2.1, b.2.1]
  intro e
  have := List.append_cancel_left e
  revert this
  decide +kernel

end Elk.Props
