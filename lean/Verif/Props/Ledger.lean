import Verif.Spec.Ledger
import Verif.Props.Greeting
import Verif.Props.Grammar
import Verif.Lemmas.MqttPub
/-!
# C152: what a panel shows depends on the bytes it sent only

Not on how the bytes were cut into pieces, when they came, what was asked meanwhile, or what the clock
showed.
-/

namespace Elk.Props

open Elk.Spec

theorem taken_more {b left : Bytes} {ps : List Packet} (h : Taken b ps left) (t : Bytes) :
    Taken (b ++ t) ps (left ++ t) := by
  induction h with
  | nil => exact .nil
  | cons a _ ih => exact .cons (C117_decode.mp (decode_mono (C117_decode.mpr a) t)) ih

theorem taken_one {b left rest : Bytes} {ps : List Packet} {pkt : Packet} (h : Taken b ps left)
    (hf : Front left (some pkt) rest) : Taken b (ps ++ [pkt]) rest := by
  induction h with
  | nil => exact .cons hf .nil
  | cons a _ ih => exact .cons a (ih hf)

theorem tokens_of_taken {b left : Bytes} {ps : List Packet} (h : Taken b ps left)
    (hw : Spec.Waits left) : Tokens b ps left := by
  induction h with
  | nil => exact .done hw
  | cons a _ ih => exact .next a (ih hw)

theorem taken_valid {b left : Bytes} {ps : List Packet} (h : Taken b ps left) :
    ∀ p ∈ ps, ValidPacket p ∨ ∃ i, p = .invalid i := by
  induction h with
  | nil => exact fun _ h => absurd h List.not_mem_nil
  | cons a _ ih =>
    intro p hp
    rcases List.mem_cons.mp hp with rfl | hp
    · exact (decode_some_cond (C117_decode.mpr a)).imp id fun ⟨i, a, _⟩ => ⟨i, a⟩
    · exact ih p hp

theorem tallies_one {l l' l'' : Ledger} {ps : List Packet} {pkt : Packet} (h : Tallies l ps l')
    (hb : Books l' pkt l'') : Tallies l (ps ++ [pkt]) l'' := by
  induction h with
  | nil => exact .cons hb .nil
  | cons a _ ih => exact .cons a (ih hb)

/-- **C152** The packets add up to one thing only. -/
theorem books_one {l l₁ l₂ : Ledger} {pkt : Packet} (hv : ValidPacket pkt ∨ ∃ i, pkt = .invalid i)
    (h₁ : Books l pkt l₁) (h₂ : Books l pkt l₂) : l₁ = l₂ := by
  cases h₁ with
  | reply a b c =>
    cases h₂ with
    | reply a' b' c' =>
      cases means_one hv a a'
      rw [b] at b'
      cases b'
      rfl
    | message a' n => cases means_one hv a a'; exact absurd c (n _ b)
    | other a' n => cases means_one hv a a'; exact absurd rfl (n _)
  | message a n =>
    cases h₂ with
    | reply a' b' c' => cases means_one hv a a'; exact absurd c' (n _ b')
    | message a' n => cases means_one hv a a'; rfl
    | other a' n => cases means_one hv a a'; exact absurd rfl (n _)
  | other a n =>
    cases h₂ with
    | reply a' b' c' => cases means_one hv a a'; exact absurd rfl (n _)
    | message a' _ => cases means_one hv a a'; exact absurd rfl (n _)
    | other a' _ => rfl

/-- **C152** The packets add up to one thing only. -/
theorem C152_one {b left : Bytes} {ps : List Packet} (ht : Taken b ps left) {l l₁ l₂ : Ledger}
    (h₁ : Tallies l ps l₁) (h₂ : Tallies l ps l₂) : l₁ = l₂ := by
  have hv := taken_valid ht
  clear ht
  induction h₁ with
  | nil => cases h₂; rfl
  | cons a _ ih =>
    cases h₂ with
    | cons a' t =>
      cases books_one (hv _ List.mem_cons_self) a a'
      exact ih t fun p hp => hv p (List.mem_cons_of_mem _ hp)

/-! ## Connecting -/

/-- The latest report: the withheld one, if there is one. -/
def latest (shown : Option ArmingStatusReport) (held : Option (Nat × ArmingStatusReport)) :
    Option ArmingStatusReport :=
  match held with
  | some h => some h.2
  | none => shown

def greetLedger (q : Option Message) (g : Greet) : Ledger :=
  ⟨q, latest g.shown g.held, g.zones, g.name⟩

/-- A report is withheld only after another was shown. -/
def Heard (g : Greet) : Prop := g.held ≠ none → g.shown ≠ none

theorem notes_ledger {now : Nat} {g g' : Greet} {m : Message} {c : Option Change}
    (h : Notes now g m c g') (hg : Heard g) (q : Option Message) :
    greetLedger q g' = (greetLedger q g).enter m ∧ Heard g' ∧ g'.unread = g.unread := by
  cases h with
  | first a =>
    have : g.held = none := by
      by_cases h : g.held = none
      · exact h
      · exact absurd a (hg h)
    refine ⟨?_, fun h => absurd this h, rfl⟩
    simp [greetLedger, Ledger.enter, latest, this]
  | withhold a b c =>
    refine ⟨?_, fun _ => by simp [a], rfl⟩
    simp [greetLedger, Ledger.enter, latest]
  | «show» a b c =>
    refine ⟨?_, fun h => absurd rfl h, rfl⟩
    simp [greetLedger, Ledger.enter, latest]
  | again a b =>
    refine ⟨?_, fun h => absurd rfl h, rfl⟩
    simp [greetLedger, Ledger.enter, latest, a]
  | early a =>
    refine ⟨?_, hg, rfl⟩
    simp [greetLedger, Ledger.enter, a]
  | @zone m z i hi a b c =>
    refine ⟨?_, hg, rfl⟩
    simp [greetLedger, Ledger.enter, a, b, hi]
  | @zoneSame m z i hi a b c =>
    refine ⟨?_, hg, rfl⟩
    simp [greetLedger, Ledger.enter, a, b, hi, ← c]
  | zones => exact ⟨rfl, hg, rfl⟩
  | nothing a b c =>
    refine ⟨?_, hg, rfl⟩
    unfold Ledger.enter
    split
    · exact absurd rfl (a _)
    · exact absurd rfl (c _)
    · exact absurd rfl (b _)
    · rfl

theorem fills_ledger {g g' : Greet} {q m : Message} (h : Fills g q m g') (q₀ : Option Message) :
    greetLedger (followUp q m) g' = (greetLedger q₀ g).close q m ∧ g'.shown = g.shown ∧
      g'.held = g.held ∧ g'.unread = g.unread := by
  cases h with
  | status a =>
    refine ⟨?_, rfl, rfl, rfl⟩
    unfold Ledger.close
    split
    · exact absurd rfl (a _)
    · rfl
  | none a b =>
    obtain ⟨s, rfl⟩ := a
    refine ⟨?_, rfl, rfl, rfl⟩
    show greetLedger _ g = Ledger.mk _ _ _ _
    unfold greetLedger
    congr 1
    funext ty n
    rw [if_neg]
    omega
  | @named r a b c =>
    obtain ⟨s, rfl⟩ := a
    refine ⟨?_, rfl, rfl, rfl⟩
    show greetLedger _ _ = Ledger.mk _ _ _ _
    unfold greetLedger
    congr 1
    funext ty n
    dsimp only
    by_cases h : ty = r.ty ∧ n = r.num.toNat
    · rw [if_pos h, if_pos ⟨h.1, h.2, h.2 ▸ b⟩]
    · rw [if_neg h, if_neg fun h' => h ⟨h'.1, h'.2.1⟩]

def whereAsks : Where → Message
  | .toAsk q => q
  | .sending q => q
  | .waiting q => q

/-- What the outcome adds up to. -/
inductive Amounts : Outcome → Ledger → Bytes → Prop
  | asking {w g} : Heard g → Amounts (.asking w g) (greetLedger (some (whereAsks w)) g) g.unread
  | done {g} : Heard g → Amounts (.done g) (greetLedger none g) g.unread

theorem observes_books {now : Nat} {g g' : Greet} {pkt : Packet} {ev : Event} {q : Message}
    (h : Observes now g pkt ev g') (hg : Heard g) :
    Heard g' ∧ g'.unread = g.unread ∧
      ((∀ m, ev.msg = some (.ok m) → ¬ Responds m q) →
        Books (greetLedger (some q) g) pkt (greetLedger (some q) g')) ∧
      ∀ m g₂, ev.msg = some (.ok m) → Responds m q → Fills g' q m g₂ →
        Books (greetLedger (some q) g) pkt (greetLedger (followUp q m) g₂) ∧ Heard g₂ ∧
          g₂.unread = g.unread := by
  cases h with
  | message a n =>
    obtain ⟨h1, h2, h3⟩ := notes_ledger n hg (some q)
    refine ⟨h2, h3, fun hn => ?_, fun m g₂ e hr hf => ?_⟩
    · rw [h1]
      refine .message a fun q' e => ?_
      cases e
      exact hn _ rfl
    · cases e
      obtain ⟨f1, f2, f3, f4⟩ := fills_ledger hf (some q)
      refine ⟨?_, fun h => by rw [f2]; exact h2 (by rwa [f3] at h), f4.trans h3⟩
      rw [f1, h1]
      exact .reply a rfl hr
  | fault a =>
    exact ⟨hg, rfl, fun _ => .other a fun _ h => (by cases h), fun _ _ h => (by cases h)⟩
  | nothing a =>
    exact ⟨hg, rfl, fun _ => .other a fun _ h => (by cases h), fun _ _ h => (by cases h)⟩

theorem connects_books {w : Where} {g : Greet} {op : InitOp} {rd wr : Bytes} {o : Obs} {x : Outcome}
    (h : Connects w g op rd wr o x) (hg : Heard g) :
    (∃ e, x = .failed e) ∨
      Amounts x (greetLedger (some (whereAsks w)) g) (g.unread ++ rd) ∨
      ∃ pkt rest l, Front (g.unread ++ rd) (some pkt) rest ∧
        Books (greetLedger (some (whereAsks w)) g) pkt l ∧ Amounts x l rest := by
  cases h with
  | arrive => rw [List.append_nil]; exact .inr (.inl (.asking hg))
  | writable => rw [List.append_nil]; exact .inr (.inl (.asking hg))
  | ask => rw [List.append_nil]; exact .inr (.inl (.asking (w := .sending _) hg))
  | writing a => rw [List.append_nil]; exact .inr (.inl (.asking (w := .sending _) hg))
  | written a => rw [List.append_nil]; exact .inr (.inl (.asking (w := .waiting _) hg))
  | unwritten a => exact .inl ⟨_, rfl⟩
  | quiet a => exact .inr (.inl (.asking (w := .waiting _) (g := { g with unread := _ }) hg))
  | ended a => exact .inl ⟨_, rfl⟩
  | lost a => exact .inl ⟨_, rfl⟩
  | @other q g cx io pkt rest ev g' hf ob hn =>
    obtain ⟨h1, h2, h3, _⟩ := observes_books (q := q) ob hg
    refine .inr (.inr ⟨pkt, rest, _, hf, h3 hn, ?_⟩)
    have := Amounts.asking (w := .waiting q) h1
    rwa [h2] at this
  | @reply q q' g cx io pkt rest ev g₁ g₂ m hf ob he hr hfi hn =>
    obtain ⟨h1, h2, _, h3⟩ := observes_books (q := q) ob hg
    obtain ⟨h4, h5, h6⟩ := h3 m g₂ he hr hfi
    refine .inr (.inr ⟨pkt, rest, _, hf, h4, ?_⟩)
    have := Amounts.asking (w := .toAsk q') h5
    rw [hn]
    rwa [h6] at this
  | @last q g cx io pkt rest ev g₁ g₂ m hf ob he hr hfi hn =>
    obtain ⟨h1, h2, _, h3⟩ := observes_books (q := q) ob hg
    obtain ⟨h4, h5, h6⟩ := h3 m g₂ he hr hfi
    refine .inr (.inr ⟨pkt, rest, _, hf, h4, ?_⟩)
    have := Amounts.done h5
    rw [hn]
    rwa [h6] at this

theorem greets_books {x y : Outcome} {acts : List Act} (h : Greets x acts y) {b left : Bytes}
    {ps : List Packet} {l : Ledger} (ha : Amounts x l left) (ht : Taken b ps left)
    (hl : Tallies .new ps l) :
    (∃ e, y = .failed e) ∨ ∃ ps' l' left', Amounts y l' left' ∧
      Taken (b ++ acts.flatMap Act.rd) ps' left' ∧ Tallies .new ps' l' := by
  induction h generalizing b left ps l with
  | nil => exact .inr ⟨ps, l, left, ha, by simpa using ht, hl⟩
  | @cons w g d x acts y hc hr ih =>
    cases ha with
    | asking hg =>
      have ht' := taken_more ht d.rd
      rcases connects_books hc hg with ⟨e, rfl⟩ | a | ⟨pkt, rest, l', hf, hb, a⟩
      · cases hr
        exact .inl ⟨e, rfl⟩
      · have := ih a ht' hl
        rwa [List.append_assoc] at this
      · have := ih a (taken_one ht' hf) (tallies_one hl hb)
        rwa [List.append_assoc] at this

/-! ## Connected -/

def viewLedger (name : TextDescriptionType → Nat → TextDescription) (v : View) : Ledger :=
  ⟨none, latest (some v.shown) v.held, some v.zones, name⟩

theorem learns_ledger {now : Nat} {v v' : View} {m : Message} {c : Option Change}
    (h : Learns now v m c v') (name) :
    viewLedger name v' = (viewLedger name v).enter m ∧ v'.unread = v.unread := by
  cases h with
  | withhold a b => exact ⟨rfl, rfl⟩
  | «show» a b => exact ⟨rfl, rfl⟩
  | again a => exact ⟨rfl, rfl⟩
  | @zone m i hi a b =>
    refine ⟨?_, rfl⟩
    simp [viewLedger, Ledger.enter, a, hi]
  | @zoneSame m i hi a b =>
    refine ⟨?_, rfl⟩
    simp [viewLedger, Ledger.enter, a, hi, ← b]
  | zones => exact ⟨rfl, rfl⟩
  | nothing a b c =>
    refine ⟨?_, rfl⟩
    unfold Ledger.enter
    split
    · exact absurd rfl (a _)
    · exact absurd rfl (c _)
    · exact absurd rfl (b _)
    · rfl

theorem tells_books {now : Nat} {v v' : View} {pkt : Packet} {ev : Event}
    (h : Spec.Tells now v pkt ev v') (name) :
    Books (viewLedger name v) pkt (viewLedger name v') ∧ v'.unread = v.unread := by
  cases h with
  | @message m change d v₁ _ a b c =>
    obtain ⟨h1, h2⟩ := learns_ledger b name
    suffices h : viewLedger name v' = viewLedger name v₁ ∧ v'.unread = v₁.unread by
      rw [h.1, h1, h.2, h2]
      exact ⟨.message a fun q e => (by cases e), rfl⟩
    cases c with
    | done _ _ => exact ⟨rfl, rfl⟩
    | unrelated _ _ => exact ⟨rfl, rfl⟩
    | idle _ => exact ⟨rfl, rfl⟩
  | fault a => exact ⟨.other a fun _ h => (by cases h), rfl⟩
  | nothing a => exact ⟨.other a fun _ h => (by cases h), rfl⟩

theorem flushing_ledger {v v' : View} {io : Bytes} {r} (h : Flushing v io r v') (name) :
    viewLedger name v' = viewLedger name v ∧ v'.unread = v.unread := by
  cases h with
  | nothing _ _ => exact ⟨rfl, rfl⟩
  | flushed _ _ => exact ⟨rfl, rfl⟩
  | stuck _ _ _ => exact ⟨rfl, rfl⟩

theorem acts_books {v v' : View} {d : Deed} (h : Acts v d.op d.io d.out v') (name) :
    (viewLedger name v' = viewLedger name v ∧ v'.unread = v.unread ++ bytesRead [d]) ∨
      ∃ pkt, Front (v.unread ++ bytesRead [d]) (some pkt) v'.unread ∧
        Books (viewLedger name v) pkt (viewLedger name v') := by
  obtain ⟨op, io, out⟩ := d
  dsimp only at h
  have still : ∀ {w : View}, (viewLedger name w = viewLedger name v ∧ w.unread = v.unread) →
      bytesRead [⟨op, io, out⟩] = [] → (viewLedger name w = viewLedger name v ∧
        w.unread = v.unread ++ bytesRead [⟨op, io, out⟩]) := fun h e => by
    rw [e, List.append_nil]; exact h
  cases h with
  | arrive => exact .inl (still ⟨rfl, rfl⟩ rfl)
  | writable => exact .inl (still ⟨rfl, rfl⟩ rfl)
  | @next cx _ r w _ hr =>
    have e : bytesRead [⟨.pollNext cx, io, .next r w⟩] = io := by simp [bytesRead]
    rw [e]
    cases hr with
    | event hf ht =>
      obtain ⟨h1, h2⟩ := tells_books ht name
      exact .inr ⟨_, by rw [h2]; exact hf, h1⟩
    | failed _ => exact .inl ⟨rfl, rfl⟩
    | ended _ => exact .inl ⟨rfl, rfl⟩
    | quiet _ _ => exact .inl ⟨rfl, rfl⟩
    | late _ hh _ =>
      refine .inl ⟨?_, rfl⟩
      simp [viewLedger, latest, hh]
  | send _ => exact .inl (still ⟨rfl, rfl⟩ rfl)
  | ready hr =>
    refine .inl (still ?_ rfl)
    cases hr with
    | idle _ _ => exact ⟨rfl, rfl⟩
    | flushed _ hf => exact flushing_ledger hf name
    | stuck _ _ hf => exact flushing_ledger hf name
  | flush hf => exact .inl (still (flushing_ledger hf name) rfl)
  | close hf _ => exact .inl (still (flushing_ledger hf name) rfl)
  | closeStuck _ hf => exact .inl (still (flushing_ledger hf name) rfl)

theorem lives_books {v v' : View} {ds : List Deed} (h : Lives v ds v') (name) {b : Bytes}
    {ps : List Packet} (ht : Taken b ps v.unread) (hl : Tallies .new ps (viewLedger name v)) :
    ∃ ps', Taken (b ++ bytesRead ds) ps' v'.unread ∧ Tallies .new ps' (viewLedger name v') := by
  induction h generalizing b ps with
  | nil => exact ⟨ps, by simpa [bytesRead] using ht, hl⟩
  | @cons v v₁ v₂ d ds ha _ ih =>
    have e : bytesRead (d :: ds) = bytesRead [d] ++ bytesRead ds := by simp [bytesRead]
    rw [e, ← List.append_assoc]
    have ht' := taken_more ht (bytesRead [d])
    rcases acts_books ha name with ⟨h1, h2⟩ | ⟨pkt, hf, hb⟩
    · exact ih (h2 ▸ ht') (h1 ▸ hl)
    · exact ih (taken_one ht' hf) (tallies_one hl hb)

/-! ## The property -/

/-- **C152** The question that `connect` is at, and all that it knows, are what the packets add up to
that are at the front of the bytes read so far. -/
theorem C152_connecting (c : Connection) (hc : Fresh c) (ops : List InitOp) (outs : List Obs)
    (i : Init) (h : Init.connect c ops = .ok (outs, .asking i)) :
    ∃ ps l, Taken i.panel.conn.sock.received ps i.panel.conn.rd.buffer ∧ Tallies .new ps l ∧
      l.open' = some i.send ∧ Amounting i.panel l := by
  obtain ⟨acts, y, rest, h1, h2, _, _, _, h5⟩ := C123_follows c hc ops outs _ h
  have hb := greets_books (b := []) h1 (.asking fun h => absurd rfl h) .nil .nil
  rw [List.nil_append, ← (h5 _ rfl).1] at hb
  have fin : ∀ {w g}, Knows i.panel g → whereAsks w = i.send → y = .asking w g →
      ∃ ps l, Taken i.panel.conn.sock.received ps i.panel.conn.rd.buffer ∧ Tallies .new ps l ∧
      l.open' = some i.send ∧ Amounting i.panel l := by
    rintro w g hk hw rfl
    rcases hb with ⟨e, he⟩ | ⟨ps, l, left, ha, ht, hl⟩
    · cases he
    · cases ha with
      | asking hg =>
        refine ⟨ps, _, by rw [hk.unread]; exact ht, hl, by rw [← hw]; rfl, ?_⟩
        refine ⟨?_, hk.zones, hk.areas, hk.tasks, hk.zoneNames⟩
        show _ = latest g.shown g.held
        rw [← hk.shown, ← hk.held]
        cases i.panel.pendingArm <;> rfl
  cases h2 with
  | toAsk _ hk => exact fin (w := .toAsk _) hk rfl rfl
  | sending _ hk => exact fin (w := .sending _) hk rfl rfl
  | waiting _ hk => exact fin (w := .waiting _) hk rfl rfl

theorem tally_done (c : Connection) (hc : Fresh c) (ops : List InitOp) (outs : List Obs)
    (p0 : Panel) (h : Init.connect c ops = .ok (outs, .finished (.ok p0))) :
    ∃ ps g, Taken p0.conn.sock.received ps g.unread ∧ Tallies .new ps (greetLedger none g) ∧
      Knows p0 g := by
  obtain ⟨acts, y, rest, h1, h2, _, _, _, h5⟩ := C123_follows c hc ops outs _ h
  have hb := greets_books (b := []) h1 (.asking fun h => absurd rfl h) .nil .nil
  rw [List.nil_append, ← (h5 _ rfl).1] at hb
  cases h2 with
  | done hk =>
    rcases hb with ⟨e, he⟩ | ⟨ps, l, left, ha, ht, hl⟩
    · cases he
    · cases ha with
      | done hg => exact ⟨ps, _, ht, hl, hk⟩

/-- **C152** What a connected panel shows, ever after, is what the packets add up to that are at the
front of the bytes read so far, except that a withheld report is not shown yet. -/
theorem C152_tally (c : Connection) (hc : Fresh c) (ops : List InitOp) (outs : List Obs) (p0 : Panel)
    (h : Init.connect c ops = .ok (outs, .finished (.ok p0))) (ops' : List Op) (outs' : List Out)
    (p : Panel) (hw : ∀ c ∈ commands ops', WfCommand c)
    (hr : Panel.run ops' p0 = .ok (outs', p)) :
    ∃ ps l, Taken p.conn.sock.received ps p.conn.rd.buffer ∧ Tallies .new ps l ∧ l.open' = none ∧
      Amounting p l := by
  obtain ⟨ps, g, ht, hl, hk⟩ := tally_done c hc ops outs p0 h
  have hcon := C36_connect_establishes c hc ops outs p0 h
  obtain ⟨v0, v, ds, k0, k, hlv, _, _, hrec, _⟩ := C122_follows hcon hw hr
  have e : viewLedger g.name v0 = greetLedger none g := by
    unfold viewLedger greetLedger
    rw [← k0.held, ← hk.held, ← hk.shown, ← hk.zones, arming_iff.mp k0.shown,
      zones_iff.mp k0.zones]
  obtain ⟨ps', ht', hl'⟩ := lives_books hlv g.name
    (by rw [← k0.unread, hk.unread]; exact ht) (e ▸ hl)
  obtain ⟨n1, n2, n3⟩ := C60_names_fixed hcon hr
  have nz : p.state.zoneNames = p0.state.zoneNames := by
    refine Vector.ext fun i hi => ?_
    have := n1 ⟨UInt8.ofNat (i + 1)⟩
    have e : (UInt8.ofNat (i + 1)).toNat = i + 1 := by
      rw [UInt8.toNat_ofNat']; omega
    unfold Panel.zoneName at this
    rw [toIndex_ok (by rw [e]; omega)] at this
    change arrGet _ ((UInt8.ofNat (i + 1)).toNat - 1) = arrGet _ ((UInt8.ofNat (i + 1)).toNat - 1)
      at this
    unfold arrGet at this
    simp only [e, Nat.add_sub_cancel, hi, dite_true, Except.ok.injEq] at this
    exact this
  refine ⟨ps', _, by rw [hrec, k.unread]; exact ht', hl', rfl, ?_⟩
  refine ⟨?_, zones_iff.mp k.zones, ?_, ?_, ?_⟩
  · show _ = latest (some v.shown) v.held
    rw [← k.held, ← arming_iff.mp k.shown]
    cases p.pendingArm <;> rfl
  · have : p.state.areaNames = p0.state.areaNames := n2
    rw [this]; exact hk.areas
  · rw [n3]; exact hk.tasks
  · rw [nz]; exact hk.zoneNames

/-- The reports, the zones and the names that two panels show are the same. -/
structure SameViews (p q : Panel) : Prop where
  arming : p.armingStatus = q.armingStatus
  zones : p.zoneStatuses = q.zoneStatuses
  areas : p.areaNames = q.areaNames
  tasks : p.state.taskNames = q.state.taskNames
  zoneNames : ∀ zone, p.zoneName zone = q.zoneName zone

theorem same_of_shows {p q : Panel} {l : Ledger} (hp : Amounting p l) (hq : Amounting q l)
    (np : p.pendingArm = none) (nq : q.pendingArm = none) : SameViews p q := by
  have e := hp.arming.trans hq.arming.symm
  rw [np, nq] at e
  have z : p.state.zoneNames = q.state.zoneNames :=
    Vector.ext fun i hi => (hp.zoneNames i hi).trans (hq.zoneNames i hi).symm
  refine ⟨?_, ?_, Vector.ext fun i hi => (hp.areas i hi).trans (hq.areas i hi).symm,
    Vector.ext fun i hi => (hp.tasks i hi).trans (hq.tasks i hi).symm, fun zone => ?_⟩
  · unfold Panel.armingStatus
    exact congrArg _ e
  · unfold Panel.zoneStatuses
    rw [hp.zones.trans hq.zones.symm]
  · unfold Panel.zoneName
    rw [z]

theorem tally_same {b left₁ left₂ : Bytes} {ps₁ ps₂ : List Packet} {l₁ l₂ : Ledger}
    (t₁ : Taken b ps₁ left₁) (t₂ : Taken b ps₂ left₂) (w₁ : Spec.Waits left₁)
    (w₂ : Spec.Waits left₂) (h₁ : Tallies .new ps₁ l₁) (h₂ : Tallies .new ps₂ l₂) :
    ps₁ = ps₂ ∧ left₁ = left₂ ∧ l₁ = l₂ := by
  obtain ⟨ps, left, _, u⟩ := C117_stream b
  obtain ⟨rfl, rfl⟩ := u _ _ (tokens_of_taken t₁ w₁)
  obtain ⟨rfl, rfl⟩ := u _ _ (tokens_of_taken t₂ w₂)
  exact ⟨rfl, rfl, C152_one t₁ h₁ h₂⟩

/-- A run of `connect` that succeeded, and what was done with the panel afterwards. -/
structure Session (p : Panel) where
  c : Connection
  fresh : Fresh c
  ops : List InitOp
  outs : List Obs
  p0 : Panel
  connected : Init.connect c ops = .ok (outs, .finished (.ok p0))
  later : List Op
  outs' : List Out
  wf : ∀ c ∈ commands later, WfCommand c
  ran : Panel.run later p0 = .ok (outs', p)

/-- **C152** Two panels that have read the same bytes, with no packet left in them and no report
withheld, show the same. -/
theorem C152_agree {p q : Panel} (sp : Session p) (sq : Session q)
    (he : p.conn.sock.received = q.conn.sock.received) (wp : Spec.Waits p.conn.rd.buffer)
    (wq : Spec.Waits q.conn.rd.buffer) (np : p.pendingArm = none) (nq : q.pendingArm = none) :
    SameViews p q := by
  obtain ⟨ps, l, t, h, _, s⟩ :=
    C152_tally _ sp.fresh _ _ _ sp.connected _ _ _ sp.wf sp.ran
  obtain ⟨ps', l', t', h', _, s'⟩ :=
    C152_tally _ sq.fresh _ _ _ sq.connected _ _ _ sq.wf sq.ran
  rw [he] at t
  obtain ⟨_, _, rfl⟩ := tally_same t t' wp wq h h'
  exact same_of_shows s s' np nq

/-- **C152** Two futures that have read the same bytes, with no packet left in them, are at the same
question. -/
theorem C152_question (c c' : Connection) (hc : Fresh c) (hc' : Fresh c') (ops ops' : List InitOp)
    (outs outs' : List Obs) (i i' : Init) (h : Init.connect c ops = .ok (outs, .asking i))
    (h' : Init.connect c' ops' = .ok (outs', .asking i'))
    (he : i.panel.conn.sock.received = i'.panel.conn.sock.received)
    (w : Spec.Waits i.panel.conn.rd.buffer) (w' : Spec.Waits i'.panel.conn.rd.buffer) :
    i.send = i'.send := by
  obtain ⟨ps, l, t, hl, o, _⟩ := C152_connecting c hc ops outs i h
  obtain ⟨ps', l', t', hl', o', _⟩ := C152_connecting c' hc' ops' outs' i' h'
  rw [he] at t
  obtain ⟨_, _, rfl⟩ := tally_same t t' w w' hl hl'
  exact Option.some.inj (o.symm.trans o')

/-- **C152** And whether the panel is connected depends on the bytes only. -/
theorem C152_over {p : Panel} (sp : Session p) (c : Connection) (hc : Fresh c) (ops : List InitOp)
    (outs : List Obs) (i : Init) (h : Init.connect c ops = .ok (outs, .asking i))
    (he : p.conn.sock.received = i.panel.conn.sock.received) (wp : Spec.Waits p.conn.rd.buffer)
    (w : Spec.Waits i.panel.conn.rd.buffer) : False := by
  obtain ⟨ps, l, t, hl, o, _⟩ :=
    C152_tally _ sp.fresh _ _ _ sp.connected _ _ _ sp.wf sp.ran
  obtain ⟨ps', l', t', hl', o', _⟩ := C152_connecting c hc ops outs i h
  rw [he] at t
  obtain ⟨_, _, rfl⟩ := tally_same t t' wp w hl hl'
  rw [o] at o'
  cases o'

/-! ## Settling -/

/-- The times at which something was polled. -/
def polledAt (ops : List InitOp) (later : List Op) : List Nat :=
  (ops.filterMap fun
    | .tick cx => some cx.now
    | _ => none) ++ later.filterMap fun
    | .pollNext cx => some cx.now
    | _ => none

theorem notes_held {now : Nat} {g g' : Greet} {m : Message} {c : Option Change}
    (h : Notes now g m c g') : ∀ d r, g'.held = some (d, r) → g.held = some (d, r) ∨ d = now + 5000 := by
  intro d r hh
  cases h with
  | withhold _ _ _ => cases hh; exact .inr rfl
  | «show» _ _ _ => cases hh
  | again _ _ => cases hh
  | first _ => exact .inl hh
  | early _ => exact .inl hh
  | zone _ _ _ => exact .inl hh
  | zoneSame _ _ _ => exact .inl hh
  | zones => exact .inl hh
  | nothing _ _ _ => exact .inl hh

theorem observes_held {now : Nat} {g g' : Greet} {pkt : Packet} {ev : Event}
    (h : Observes now g pkt ev g') :
    ∀ d r, g'.held = some (d, r) → g.held = some (d, r) ∨ d = now + 5000 := by
  cases h with
  | message _ n => exact notes_held n
  | fault _ => exact fun _ _ h => .inl h
  | nothing _ => exact fun _ _ h => .inl h

def heldOf : Outcome → Option (Nat × ArmingStatusReport)
  | .asking _ g => g.held
  | .done g => g.held
  | .failed _ => none

theorem connects_held {w : Where} {g : Greet} {op : InitOp} {rd wr : Bytes} {o : Obs} {x : Outcome}
    (h : Connects w g op rd wr o x) : ∀ d r, heldOf x = some (d, r) →
      g.held = some (d, r) ∨ ∃ cx, op = .tick cx ∧ d = cx.now + 5000 := by
  intro d r hh
  cases h with
  | arrive => exact .inl hh
  | writable => exact .inl hh
  | ask => exact .inl hh
  | writing _ => exact .inl hh
  | written _ => exact .inl hh
  | unwritten _ => cases hh
  | quiet _ => exact .inl hh
  | ended _ => cases hh
  | lost _ => cases hh
  | other _ ob _ => exact (observes_held ob d r hh).imp id fun h => ⟨_, rfl, h⟩
  | reply _ ob _ _ hf _ =>
    refine (observes_held ob d r ?_).imp id fun h => ⟨_, rfl, h⟩
    rw [← (fills_ledger hf none).2.2.1]; exact hh
  | last _ ob _ _ hf _ =>
    refine (observes_held ob d r ?_).imp id fun h => ⟨_, rfl, h⟩
    rw [← (fills_ledger hf none).2.2.1]; exact hh

theorem greets_held {x y : Outcome} {acts : List Act} (h : Greets x acts y) :
    ∀ d r, heldOf y = some (d, r) →
      heldOf x = some (d, r) ∨ ∃ cx, .tick cx ∈ acts.map Act.op ∧ d = cx.now + 5000 := by
  induction h with
  | nil => exact fun _ _ h => .inl h
  | cons hc _ ih =>
    intro d r hh
    rcases ih d r hh with h | ⟨cx, h, e⟩
    · rcases connects_held hc d r h with h | ⟨cx, h, e⟩
      · exact .inl h
      · exact .inr ⟨cx, by rw [List.map_cons, h]; exact List.mem_cons_self, e⟩
    · exact .inr ⟨cx, List.mem_cons_of_mem _ h, e⟩

theorem flushing_held {v v' : View} {io : Bytes} {r} (h : Flushing v io r v') :
    v'.held = v.held := by
  cases h with
  | nothing _ _ => rfl
  | flushed _ _ => rfl
  | stuck _ _ _ => rfl

theorem acts_held {v v' : View} {op : Op} {io : Bytes} {o : Out} (h : Acts v op io o v') :
    ∀ d r, v'.held = some (d, r) →
      v.held = some (d, r) ∨ ∃ cx, op = .pollNext cx ∧ d = cx.now + 5000 := by
  intro d r hh
  cases h with
  | arrive => exact .inl hh
  | writable => exact .inl hh
  | next hr =>
    cases hr with
    | event _ ht =>
      cases ht with
      | @message _ _ _ v₁ _ _ hl hc =>
        have hc' : v'.held = v₁.held := by
          cases hc with
          | done _ _ => rfl
          | unrelated _ _ => rfl
          | idle _ => rfl
        rw [hc'] at hh
        cases hl with
        | withhold _ _ => cases hh; exact .inr ⟨_, rfl, rfl⟩
        | «show» _ _ => cases hh
        | again _ => cases hh
        | zone _ _ => exact .inl hh
        | zoneSame _ _ => exact .inl hh
        | zones => exact .inl hh
        | nothing _ _ _ => exact .inl hh
      | fault _ => exact .inl hh
      | nothing _ => exact .inl hh
    | failed _ => exact .inl hh
    | ended _ => exact .inl hh
    | quiet _ _ => exact .inl hh
    | late _ _ _ => cases hh
  | send _ => exact .inl hh
  | ready hr =>
    cases hr with
    | idle _ _ => exact .inl hh
    | flushed _ hf => rw [flushing_held hf] at hh; exact .inl hh
    | stuck _ _ hf => rw [flushing_held hf] at hh; exact .inl hh
  | flush hf => rw [flushing_held hf] at hh; exact .inl hh
  | close hf _ =>
    have := flushing_held hf
    refine .inl ?_
    rw [← this]; exact hh
  | closeStuck _ hf => rw [flushing_held hf] at hh; exact .inl hh

theorem lives_held {v v' : View} {ds : List Deed} (h : Lives v ds v') :
    ∀ d r, v'.held = some (d, r) →
      v.held = some (d, r) ∨ ∃ cx, .pollNext cx ∈ ds.map Deed.op ∧ d = cx.now + 5000 := by
  induction h with
  | nil => exact fun _ _ h => .inl h
  | cons ha _ ih =>
    intro d r hh
    rcases ih d r hh with h | ⟨cx, h, e⟩
    · rcases acts_held ha d r h with h | ⟨cx, h, e⟩
      · exact .inl h
      · exact .inr ⟨cx, by rw [List.map_cons, h]; exact List.mem_cons_self, e⟩
    · exact .inr ⟨cx, List.mem_cons_of_mem _ h, e⟩

theorem lives_split {v v' : View} {a b : List Deed} (h : Lives v (a ++ b) v') :
    ∃ w, Lives v a w ∧ Lives w b v' := by
  induction a generalizing v with
  | nil => exact ⟨v, .nil, h⟩
  | cons d a ih =>
    cases h with
    | cons h1 h2 =>
      obtain ⟨w, x, y⟩ := ih h2
      exact ⟨w, .cons h1 x, y⟩

/-- A session in which the last thing done was to poll for an event, in vain, five seconds or more
after all polls. -/
structure SettledSession {p : Panel} (s : Session p) : Prop where
  last : ∃ before outs cx w, s.later = before ++ [.pollNext cx] ∧
    s.outs' = outs ++ [.next .pending w] ∧ outs.length = before.length ∧
    ∀ t ∈ polledAt s.ops before, t + 5000 ≤ cx.timer

theorem settled_views {p : Panel} {s : Session p} (h : SettledSession s) :
    Spec.Waits p.conn.rd.buffer ∧ p.pendingArm = none := by
  obtain ⟨before, outs, cx, w, e1, e2, e3, e4⟩ := h.last
  have hcon := C36_connect_establishes _ s.fresh _ _ _ s.connected
  obtain ⟨v0, v, ds, k0, k, hlv, o1, o2, _, _⟩ := C122_follows hcon s.wf s.ran
  obtain ⟨acts, g, a, z, hgr, _, hk, _, _, _, k0'⟩ := C123_then _ s.fresh _ _ _ s.connected
  obtain ⟨acts', y, rest, g1, g2, g3, _, _, _⟩ := C123_follows _ s.fresh _ _ _ s.connected
  rw [e1] at o1
  rw [e2] at o2
  obtain ⟨ds₁, ds₂, rfl, m1, m2⟩ := List.map_eq_append_iff.mp o1
  obtain ⟨d, rfl, m3⟩ := List.map_eq_singleton_iff.mp m2
  rw [List.map_append] at o2
  obtain ⟨_, o3⟩ := List.append_inj o2 (by rw [e3, ← m1]; simp)
  obtain ⟨v₁, l1, l2⟩ := lives_split hlv
  obtain ⟨op, io, out⟩ := d
  cases m3
  simp only [List.map_cons, List.map_nil, List.cons.injEq, and_true] at o3
  cases o3
  cases l2 with
  | cons ha hn =>
    cases hn
    cases ha with
    | next hr =>
      cases hr with
      | quiet hwt hdue =>
        refine ⟨by rw [k.unread]; exact hwt, ?_⟩
        have hn : v₁.held = none := by
          match hh : v₁.held with
          | none => rfl
          | some (t, r) =>
            have lt := hdue t r hh
            have bad : ∀ t', t' ∈ polledAt s.ops before → t = t' + 5000 → False := fun t' h e => by
              have := e4 t' h; omega
            rcases lives_held l1 t r hh with h0 | ⟨cx', hm, e⟩
            · exfalso
              cases g2 with
              | @done _ g' hk' =>
                have hz : heldOf (.done g') = some (t, r) := by
                  show g'.held = _
                  rw [← hk'.held, k0.held, h0]
                rcases greets_held g1 t r hz with h | ⟨cx', hm, e⟩
                · cases h
                · refine bad cx'.now ?_ e
                  unfold polledAt
                  refine List.mem_append_left _ (List.mem_filterMap.mpr ⟨.tick cx', ?_, rfl⟩)
                  rw [g3]
                  exact List.mem_append_left _ hm
            · exfalso
              refine bad cx'.now ?_ e
              unfold polledAt
              refine List.mem_append_right _ (List.mem_filterMap.mpr ⟨.pollNext cx', ?_, rfl⟩)
              rw [← m1]
              exact hm
        have := k.held
        rw [hn] at this
        exact Option.map_eq_none_iff.mp this

/-- **C152** What a panel shows, once all has been polled and five seconds have passed, depends on the
bytes it sent only: not on how they were cut into pieces, on when they came or were polled for, on what
was sent meanwhile, or on what could be written when. -/
theorem C152_settled {p q : Panel} (sp : Session p) (sq : Session q) (hp : SettledSession sp)
    (hq : SettledSession sq) (he : p.conn.sock.received = q.conn.sock.received) : SameViews p q :=
  C152_agree sp sq he (settled_views hp).1 (settled_views hq).1 (settled_views hp).2
    (settled_views hq).2

/-! ## Samples -/

/-- A whole session. -/
def session (ops : List InitOp) (later : List Op) : P (List Out × Panel) := do
  let r ← Init.connect {} ops
  match r.2 with
  | .finished (.ok p0) => Panel.run later p0
  | _ => .error .expect

theorem session_of {ops : List InitOp} {later : List Op} {f : List Out × Panel → Bool}
    (hw : commands later = []) (h : holds (session ops later) f = true) :
    ∃ p, ∃ s : Session p, s.ops = ops ∧ s.later = later ∧ f (s.outs', p) = true := by
  obtain ⟨⟨outs', p⟩, h1, h2⟩ := of_holds h
  unfold session at h1
  match hc : Init.connect {} ops with
  | .error e => rw [hc] at h1; cases h1
  | .ok (outs, ph) =>
    rw [hc] at h1
    change (match ph with
      | .finished (.ok p0) => Panel.run later p0
      | _ => .error .expect) = _ at h1
    split at h1
    · exact ⟨p, ⟨{}, ⟨rfl, rfl, rfl, rfl⟩, ops, outs, _, hc, later, outs', by rw [hw]; simp, h1⟩,
        rfl, rfl, h2⟩
    · cases h1

/-- The report arrives after connecting. -/
def sampleLater : List Op := [.arrive (.data (msgBytes (.armingStatusReport armedAndAlarm))),
  .pollNext ⟨1, 0, 0⟩, .pollNext ⟨1, 5000, 5000⟩, .pollNext ⟨1, 10000, 10000⟩]

/-- The same bytes, in two other pieces, with the report among them. -/
def sampleCut : List InitOp := [.arrive (.data (sampleDialogue.take 50)),
    .arrive (.data (sampleDialogue.drop 50 ++ msgBytes (.armingStatusReport armedAndAlarm)))] ++
  List.replicate 5 (.writable (.accept 1000)) ++ List.replicate 16 (.tick ⟨1, 0, 0⟩)

/-- The bytes of either session. -/
def sampleAll : Bytes := sampleDialogue ++ msgBytes (.armingStatusReport armedAndAlarm)

/-- The last poll was in vain. -/
def inVain : List Out → Bool
  | [] => false
  | [.next .pending _] => true
  | _ :: l => inVain l

theorem inVain_iff {l : List Out} (h : inVain l = true) : ∃ o w, l = o ++ [.next .pending w] := by
  induction l with
  | nil => cases h
  | cons a l ih =>
    unfold inVain at h
    split at h
    · cases h
    · next e =>
      cases e
      exact ⟨[], _, rfl⟩
    · next e =>
      cases e
      obtain ⟨o, w, rfl⟩ := ih h
      exact ⟨a :: o, w, rfl⟩

theorem settled_of {p : Panel} {s : Session p} {before : List Op} {cx : Cx}
    (hl : s.later = before ++ [.pollNext cx]) (hv : inVain s.outs' = true)
    (hlen : s.outs'.length = before.length + 1)
    (ht : ∀ t ∈ polledAt s.ops before, t + 5000 ≤ cx.timer) : SettledSession s := by
  obtain ⟨o, w, e⟩ := inVain_iff hv
  refine ⟨before, o, cx, w, hl, e, ?_, ht⟩
  rw [e] at hlen
  simpa using hlen

/-- Not vacuous: two sessions settle that read the same bytes in other pieces, at other times. -/
example : ∃ p q, ∃ sp : Session p, ∃ sq : Session q, SettledSession sp ∧ SettledSession sq ∧
    p.conn.sock.received = q.conn.sock.received ∧ sp.ops ≠ sq.ops ∧ sp.later ≠ sq.later := by
  obtain ⟨p, sp, a1, a2, a3⟩ := session_of (ops := sampleConnect) (later := sampleLater)
    (f := fun r => decide (r.2.conn.sock.received = sampleAll ∧ r.1.length = 4 ∧
      inVain r.1 = true)) rfl (by decide +kernel)
  obtain ⟨q, sq, b1, b2, b3⟩ := session_of (ops := sampleCut)
    (later := [.pollNext ⟨1, 100, 100⟩, .pollNext ⟨1, 6000, 6000⟩, .pollNext ⟨1, 11000, 11000⟩])
    (f := fun r => decide (r.2.conn.sock.received = sampleAll ∧ r.1.length = 3 ∧
      inVain r.1 = true)) rfl (by decide +kernel)
  rw [decide_eq_true_eq] at a3 b3
  refine ⟨p, q, sp, sq, settled_of (before := sampleLater.take 3) a2 a3.2.2 a3.2.1 ?_,
    settled_of (before := [.pollNext ⟨1, 100, 100⟩, .pollNext ⟨1, 6000, 6000⟩]) b2 b3.2.2 b3.2.1 ?_,
    a3.1.trans b3.1.symm, ?_, ?_⟩
  · rw [a1]; decide +kernel
  · rw [b1]; decide +kernel
  · rw [a1, b1]; decide +kernel
  · rw [a2, b2]; decide +kernel

/-- **C152** Before five seconds have passed it depends on the times too: two panels have read the
same bytes, both have been polled in vain, and one shows a report that the other withholds. -/
theorem C152_sooner : ∃ p q, ∃ sp : Session p, ∃ sq : Session q, inVain sp.outs' = true ∧
    inVain sq.outs' = true ∧ p.conn.sock.received = q.conn.sock.received ∧
    p.armingStatus ≠ q.armingStatus := by
  obtain ⟨p, sp, _, _, a3⟩ := session_of (ops := sampleConnect) (later := sampleLater)
    (f := fun r => decide (r.2.conn.sock.received = sampleAll ∧ inVain r.1 = true ∧
      r.2.state.armingStatus = some armedAndAlarm)) rfl (by decide +kernel)
  obtain ⟨q, sq, _, _, b3⟩ := session_of (ops := sampleCut)
    (later := [.pollNext ⟨1, 0, 0⟩, .pollNext ⟨1, 4999, 4999⟩])
    (f := fun r => decide (r.2.conn.sock.received = sampleAll ∧ inVain r.1 = true ∧
      r.2.state.armingStatus = some (sameReport .disarmed .readyToArm))) rfl (by decide +kernel)
  rw [decide_eq_true_eq] at a3 b3
  refine ⟨p, q, sp, sq, a3.2.1, b3.2.1, a3.1.trans b3.1.symm, ?_⟩
  rw [arming_iff.mpr a3.2.2, arming_iff.mpr b3.2.2]
  intro h
  exact absurd (Except.ok.inj h) (by decide +kernel)

end Elk.Props
