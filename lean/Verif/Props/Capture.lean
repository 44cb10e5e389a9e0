import Verif.Props.Twins
import Verif.Props.EndToEnd
import Verif.Props.Cli
/-!
# C154: `read` of what a panel sent prints what was made of it

The bytes that a session read, saved to a file and given to `read` of `elkm1-cli`, are printed as the
packets of the events that the session saw, and nothing besides but what the session has not come to.
-/

namespace Elk.Props

open Elk.Spec

/-- The bytes read and not yet taken. -/
def unreadOf : Outcome → Option Bytes
  | .asking _ g => some g.unread
  | .done g => some g.unread
  | .failed _ => none

theorem notes_unread {now : Nat} {g g' : Greet} {m : Message} {c : Option Change}
    (h : Notes now g m c g') : g'.unread = g.unread := by
  cases h <;> rfl

theorem observes_unread {now : Nat} {g g' : Greet} {pkt : Packet} {ev : Event}
    (h : Observes now g pkt ev g') : g'.unread = g.unread ∧ ev.pkt = some pkt := by
  cases h with
  | message _ n => exact ⟨notes_unread n, rfl⟩
  | fault _ => exact ⟨rfl, rfl⟩
  | nothing _ => exact ⟨rfl, rfl⟩

theorem fills_unread {g g' : Greet} {q m : Message} (h : Fills g q m g') : g'.unread = g.unread := by
  cases h <;> rfl

theorem got_one {ev : Event} {pkt : Packet} (h : ev.pkt = some pkt) :
    gottenPackets [.got ev] = [pkt] := by
  simp [gottenPackets, gotten, h]

theorem connects_taken {w : Where} {g : Greet} {op : InitOp} {rd wr : Bytes} {o : Obs} {x : Outcome}
    (h : Connects w g op rd wr o x) {u : Bytes} (hu : unreadOf x = some u) :
    (u = g.unread ++ rd ∧ gottenPackets [o] = []) ∨
      ∃ pkt, Front (g.unread ++ rd) (some pkt) u ∧ gottenPackets [o] = [pkt] := by
  cases h with
  | arrive => cases hu; exact .inl ⟨(List.append_nil _).symm, rfl⟩
  | writable => cases hu; exact .inl ⟨(List.append_nil _).symm, rfl⟩
  | ask => cases hu; exact .inl ⟨(List.append_nil _).symm, rfl⟩
  | writing _ => cases hu; exact .inl ⟨(List.append_nil _).symm, rfl⟩
  | written _ => cases hu; exact .inl ⟨(List.append_nil _).symm, rfl⟩
  | unwritten _ => cases hu
  | quiet _ => cases hu; exact .inl ⟨rfl, rfl⟩
  | ended _ => cases hu
  | lost _ => cases hu
  | other hf ob _ =>
    cases hu
    obtain ⟨e1, e2⟩ := observes_unread ob
    exact .inr ⟨_, e1 ▸ hf, got_one e2⟩
  | reply hf ob _ _ hfl _ =>
    cases hu
    obtain ⟨e1, e2⟩ := observes_unread ob
    exact .inr ⟨_, (fills_unread hfl).trans e1 ▸ hf, got_one e2⟩
  | last hf ob _ _ hfl _ =>
    cases hu
    obtain ⟨e1, e2⟩ := observes_unread ob
    exact .inr ⟨_, (fills_unread hfl).trans e1 ▸ hf, got_one e2⟩

theorem greets_taken {x y : Outcome} {acts : List Act} (h : Greets x acts y) {b u v : Bytes}
    {ps : List Packet} (hu : unreadOf x = some u) (hv : unreadOf y = some v) (ht : Taken b ps u) :
    Taken (b ++ acts.flatMap Act.rd) (ps ++ gottenPackets (acts.map Act.out)) v := by
  induction h generalizing b u ps with
  | nil =>
    rw [hu] at hv
    cases hv
    simpa [gottenPackets, gotten] using ht
  | @cons w g d x acts y hc hr ih =>
    cases hu
    have hx : ∃ u', unreadOf x = some u' := by
      cases x with
      | asking w g => exact ⟨_, rfl⟩
      | done g => exact ⟨_, rfl⟩
      | failed e =>
        cases hr
        cases hv
    obtain ⟨u', hu'⟩ := hx
    rw [List.map_cons, gottenPackets_cons, List.flatMap_cons, ← List.append_assoc,
      ← List.append_assoc]
    have ht' := taken_more ht d.rd
    rcases connects_taken hc hu' with ⟨h1, h2⟩ | ⟨pkt, hf, h2⟩
    · rw [h2, List.append_nil]
      exact ih hu' hv (h1 ▸ ht')
    · rw [h2]
      exact ih hu' hv (taken_one ht' hf)

theorem taken_steps {b left : Bytes} {ps : List Packet} (h : Taken b ps left) : Steps b ps left := by
  induction h with
  | nil => exact .nil
  | cons a _ ih => exact .cons (C117_decode.mpr a) ih

/-- `read` prints the packets that were taken, and then what it prints for the rest. -/
theorem read_taken {b left : Bytes} {ps : List Packet} (h : Taken b ps left) :
    ∃ rest, Cli.read (.ok left) = .ok rest ∧
      Cli.read (.ok b) = .ok (ps.map Printed.packet ++ rest) := by
  obtain ⟨qs, l, _, d, r, _⟩ := C54_read left
  obtain ⟨qs', l', _, d', r', _⟩ := C54_read b
  obtain ⟨rfl, rfl⟩ := drains_unique (steps_into (taken_steps h) d) d'
  exact ⟨_, r, by rw [r', List.map_append, List.append_assoc]⟩

/-- The packets that `connect` took. -/
theorem taken_connecting (c : Connection) (hc : Fresh c) (ops : List InitOp) (outs : List Obs)
    (i : Init) (h : Init.connect c ops = .ok (outs, .asking i)) :
    Taken i.panel.conn.sock.received (gottenPackets outs) i.panel.conn.rd.buffer := by
  obtain ⟨acts, y, rest, h1, h2, _, _, h4, h5⟩ := C123_follows c hc ops outs _ h
  rw [h4, (h5 _ rfl).1]
  cases h2 with
  | toAsk _ hk => exact hk.unread ▸ greets_taken (b := []) (ps := []) h1 rfl rfl .nil
  | sending _ hk => exact hk.unread ▸ greets_taken (b := []) (ps := []) h1 rfl rfl .nil
  | waiting _ hk => exact hk.unread ▸ greets_taken (b := []) (ps := []) h1 rfl rfl .nil

theorem taken_connected (c : Connection) (hc : Fresh c) (ops : List InitOp) (outs : List Obs)
    (p : Panel) (h : Init.connect c ops = .ok (outs, .finished (.ok p))) :
    Taken p.conn.sock.received (gottenPackets outs) p.conn.rd.buffer := by
  obtain ⟨acts, y, rest, h1, h2, _, _, h4, h5⟩ := C123_follows c hc ops outs _ h
  rw [h4, (h5 _ rfl).1]
  cases h2 with
  | done hk => exact hk.unread ▸ greets_taken (b := []) (ps := []) h1 rfl rfl .nil

/-- **C154** What `connect` has read so far, `read` prints as the packets that `connect` has seen, and
then what it prints for the bytes that `connect` has not yet looked at. -/
theorem C154_connecting (c : Connection) (hc : Fresh c) (ops : List InitOp) (outs : List Obs)
    (i : Init) (h : Init.connect c ops = .ok (outs, .asking i)) :
    ∃ rest, Cli.read (.ok i.panel.conn.rd.buffer) = .ok rest ∧
      Cli.read (.ok i.panel.conn.sock.received) =
        .ok ((gottenPackets outs).map Printed.packet ++ rest) :=
  read_taken (taken_connecting c hc ops outs i h)

theorem taken_session {p : Panel} (s : Session p) :
    Taken p.conn.sock.received (gottenPackets s.outs ++ packets s.outs') p.conn.rd.buffer := by
  have ht := taken_connected _ s.fresh _ _ _ s.connected
  have hcon := C36_connect_establishes _ s.fresh _ _ _ s.connected
  obtain ⟨v0, v, ds, k0, k, hlv, _, o2, hrec, _⟩ := C122_follows hcon s.wf s.ran
  have := lives_taken hlv (k0.unread ▸ ht)
  rwa [o2, ← hrec, ← k.unread] at this

/-- **C154** What a session has read, `read` prints as the packets that `connect` saw, then those of
the events that the panel returned, then what it prints for the bytes not yet looked at. -/
theorem C154_session {p : Panel} (s : Session p) :
    ∃ rest, Cli.read (.ok p.conn.rd.buffer) = .ok rest ∧
      Cli.read (.ok p.conn.sock.received) =
        .ok ((gottenPackets s.outs ++ packets s.outs').map Printed.packet ++ rest) :=
  read_taken (taken_session s)

/-- The last poll was in vain: nothing is left but the start of a packet. -/
theorem waits_of_vain {p : Panel} {s : Session p} (h : inVain s.outs' = true) :
    Spec.Waits p.conn.rd.buffer := by
  obtain ⟨o, w, e⟩ := inVain_iff h
  have hcon := C36_connect_establishes _ s.fresh _ _ _ s.connected
  obtain ⟨v0, v, ds, k0, k, hlv, o1, o2, _, _⟩ := C122_follows hcon s.wf s.ran
  rw [e] at o2
  obtain ⟨ds₁, ds₂, rfl, _, m2⟩ := List.map_eq_append_iff.mp o2
  obtain ⟨d, rfl, m3⟩ := List.map_eq_singleton_iff.mp m2
  obtain ⟨v₁, _, l2⟩ := lives_split hlv
  obtain ⟨op, io, out⟩ := d
  cases m3
  cases l2 with
  | cons ha hn =>
    cases hn
    cases ha with
    | next hr =>
      cases hr with
      | quiet hwt _ => rw [k.unread]; exact hwt

/-- **C154** After a poll in vain `read` prints what the session saw and no packet besides. -/
theorem C154_all {p : Panel} (s : Session p) (h : inVain s.outs' = true) :
    Cli.read (.ok p.conn.sock.received) =
      .ok ((gottenPackets s.outs ++ packets s.outs').map Printed.packet ++
        if p.conn.rd.buffer = [] then [] else [.incomplete p.conn.rd.buffer]) := by
  obtain ⟨rest, h1, h2⟩ := C154_session s
  obtain ⟨qs, l, _, d, r, _⟩ := C54_read p.conn.rd.buffer
  have hd : Drains p.conn.rd.buffer [] p.conn.rd.buffer :=
    C117_tokens.mpr (.done (waits_of_vain h))
  obtain ⟨rfl, rfl⟩ := drains_unique hd d
  rw [r] at h1
  cases h1
  exact h2

/-- **C154** What a bridge has read, `read` prints as the packets that `connect` saw, then those of the
events that the bridge handled, then what it prints for the bytes not yet looked at. -/
theorem C154_bridge {cfg : Cfg} {b : Bridge} (s : Service cfg b) :
    ∃ rest, Cli.read (.ok b.panel.conn.rd.buffer) = .ok rest ∧
      Cli.read (.ok b.panel.conn.sock.received) =
        .ok ((gottenPackets s.outs ++ (handled s.obs).filterMap (·.pkt)).map Printed.packet ++ rest) := by
  have ht := taken_connected _ s.fresh _ _ _ s.connected
  have hcon := C36_connect_establishes _ s.fresh _ _ _ s.connected
  obtain ⟨code, v0, l, d, _, k0, hwk, hsit, _, o2, hrec, _⟩ :=
    C124_follows hcon (connect_wfView s.fresh s.connected) s.started s.ran
  obtain ⟨ds, hlv, hbr, hev, _⟩ := working_lives hwk
  have hl := lives_taken hlv (b := s.p0.conn.sock.received) (k0.unread ▸ ht)
  refine read_taken ?_
  unfold packets at hl
  rw [hev, hbr, ← o2, ← hsit.view.unread] at hl
  rw [hrec]
  exact hl

/-! ## Samples -/

theorem taken_shorter {b left : Bytes} {ps : List Packet} (h : Taken b ps left) :
    left.length + ps.length ≤ b.length := by
  induction h with
  | nil => exact Nat.le_refl _
  | cons a _ ih =>
    obtain ⟨w, _, e, hw⟩ := (C05_progress _).1 _ _ (C117_decode.mpr a)
    rw [e, List.length_append, List.length_cons]
    omega

/-- Not vacuous: after a whole session, with the start of a packet in the end, `read` prints all
packets and then that start. -/
example : ∃ p, ∃ s : Session p, inVain s.outs' = true ∧ (packets s.outs').length = 1 ∧
    p.conn.rd.buffer = [0x30] ∧ ∃ l, 1 < l.length ∧
      Cli.read (.ok p.conn.sock.received) = .ok (l ++ [.incomplete [0x30]]) := by
  obtain ⟨p, s, _, _, a⟩ := session_of (ops := sampleConnect)
    (later := sampleLater ++ [.arrive (.data [0x30]), .pollNext ⟨1, 10000, 10000⟩])
    (f := fun r => decide (inVain r.1 = true ∧ (packets r.1).length = 1 ∧
      r.2.conn.rd.buffer = [0x30] ∧ r.2.conn.sock.received = sampleAll ++ [0x30])) rfl (by decide +kernel)
  rw [decide_eq_true_eq] at a
  have h := C154_all s a.1
  rw [a.2.2.1] at h
  refine ⟨p, s, a.1, a.2.1, a.2.2.1, _, ?_, h⟩
  have : gottenPackets s.outs ≠ [] := by
    obtain ⟨ps, pkt, _, _, ht, _⟩ := taken_least _ s.fresh _ _ _ s.connected
    have ht' := taken_connected _ s.fresh _ _ _ s.connected
    intro e
    rw [e] at ht'
    generalize s.p0.conn.rd.buffer = u at ht ht'
    cases ht'
    have := taken_shorter ht
    rw [List.length_append, List.length_singleton] at this
    omega
  rw [List.length_map, List.length_append, a.2.1]
  have := List.length_pos_iff.mpr this
  omega

end Elk.Props
