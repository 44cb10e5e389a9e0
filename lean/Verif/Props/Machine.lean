import Verif.Props.State
import Verif.Props.Grammar
import Verif.Props.Written
import Verif.Props.Objection
import Verif.Spec.Machine
/-!
# C122: a panel is the reference machine
-/

namespace Elk.Props
open Elk Spec

theorem means_of_parse {pkt : Packet} (hv : ValidPacket pkt ∨ ∃ i, pkt = .invalid i) :
    (∀ m, Message.parse pkt = .ok (some m) → Means pkt (some (.ok m))) ∧
    (∀ e, Message.parse pkt = .error (.err e) → Means pkt (some (.error e))) ∧
    (Message.parse pkt = .ok none → Means pkt none) := by
  match pkt, hv with
  | .rp r, _ => exact ⟨(fun m h => nomatch h), (fun e h => nomatch h), fun _ => .rp⟩
  | .invalid i, _ => exact ⟨(fun m h => nomatch h), (fun e h => nomatch h), fun _ => .invalid⟩
  | .ascii ⟨body⟩, .inr ⟨i, h⟩ => cases h
  | .ascii ⟨body⟩, .inl hv =>
    have hv : ValidAsciiBody body := hv
    refine ⟨fun m h => .says ((C118_parse hv m).mp h), fun e h => .fault ?_, fun h => ?_⟩
    · exact (C137_text (p := ⟨body⟩) hv).mp h
    · refine .other (fun hf => ?_) (fun ⟨m, hm⟩ => ?_)
      · obtain ⟨e, he⟩ := (C118_error hv).mpr hf
        rw [h] at he; cases he
      · rw [(C118_parse hv m).mpr hm] at h; cases h

theorem looks_of_good {p : Panel} (h : Good p) : ∃ v, Looks p v := by
  obtain ⟨a, ha⟩ := Option.ne_none_iff_exists'.mp h.has
  obtain ⟨z, hz⟩ := Option.ne_none_iff_exists'.mp h.zones
  exact ⟨⟨_, a, z, _, _, _⟩, rfl, arming_iff.mpr ha, zones_iff.mpr hz, rfl, rfl, rfl⟩

theorem looks_one {p : Panel} {v v' : View} (h : Looks p v) (h' : Looks p v') : v = v' := by
  obtain ⟨a1, a2, a3, a4, a5, a6⟩ := h
  obtain ⟨b1, b2, b3, b4, b5, b6⟩ := h'
  cases v; cases v'
  simp only at *
  rw [a2] at b2; cases b2
  rw [a3] at b3; cases b3
  subst a1 a4 a5 a6 b1 b4 b5 b6
  rfl

theorem learns_of_track {p p' : Panel} {now : Nat} {m : Message} {ch : Option Change} {v : View}
    (hl : Looks p v) (h : TrackCase p now m (ch, p')) :
    ∃ v', Learns now v m ch v' ∧ Looks p' v' := by
  obtain ⟨h1, h2, h3, h4, h5, h6⟩ := hl
  have hs := arming_iff.mp h2
  have hz := zones_iff.mp h3
  have none_iff : v.held = none ↔ p.pendingArm = none := by
    rw [← h4]; simp
  cases h with
  | asFirst m h => rw [h] at hs; cases hs
  | asHeld m prior ha hn hsus =>
    rw [ha] at hs; cases hs
    exact ⟨_, .withhold (none_iff.mpr hn) hsus, h1, h2, h3, rfl, h5, h6⟩
  | asNew m prior ha hn hne =>
    rw [ha] at hs; cases hs
    exact ⟨_, .show (hn.imp (fun x => mt none_iff.mp x) id) (Ne.symm hne), h1, rfl, h3, rfl, h5, h6⟩
  | asSame m ha hn =>
    rw [ha] at hs; cases hs
    exact ⟨_, .again (hn.imp (fun x => mt none_iff.mp x) id), h1, h2, h3, rfl, h5, h6⟩
  | zcNone m h => rw [h] at hz; cases hz
  | zcSet m z i hi ha hn =>
    rw [ha] at hz; cases hz
    by_cases he : v.zones.zones[i] = m.status
    · rw [if_neg (by simpa using he)]
      refine ⟨_, .zoneSame (hi := hi) hn he, h1, h2, ?_, h4, h5, h6⟩
      show Except.ok _ = _
      rw [← he, Vector.set_getElem_self]
    · rw [if_pos he]
      exact ⟨_, .zone (hi := hi) hn he, h1, h2, rfl, h4, h5, h6⟩
  | zs m => exact ⟨_, .zones, h1, h2, rfl, h4, h5, h6⟩
  | other m a b c => exact ⟨_, .nothing a b c, h1, h2, h3, h4, h5, h6⟩

theorem completes_of_complete {p p' : Panel} {m : Message} {r : Option Message} {w : List Waker}
    {v : View} (hl : Looks p v) (h : CompleteCase p m (r, w, p')) :
    ∃ v', Completes v m r v' ∧ Looks p' v' := by
  obtain ⟨h1, h2, h3, h4, h5, h6⟩ := hl
  cases h with
  | done q f w hc hr =>
    rw [hc] at h5
    exact ⟨_, .done h5.symm hr, h1, h2, h3, h4, rfl, h6⟩
  | busy q f w hc hr =>
    exact ⟨_, .unrelated (by rw [← h5, hc]) hr, h1, h2, h3, h4, h5, h6⟩
  | idle hc => exact ⟨_, .idle (by rw [← h5, hc]), h1, h2, h3, h4, h5, h6⟩

theorem tells_of_interp {p p' : Panel} {now : Nat} {pkt : Packet} {ev : Event} {w : List Waker}
    {v : View} (hv : ValidPacket pkt ∨ ∃ i, pkt = .invalid i) (hl : Looks p v)
    (h : InterpCase p now pkt (ev, w, p')) : ∃ v', Tells now v pkt ev v' ∧ Looks p' v' := by
  obtain ⟨h1, h2, h3⟩ := means_of_parse hv
  cases h with
  | bad e he => exact ⟨_, .fault (h2 e he), hl⟩
  | skip he => exact ⟨_, .nothing (h3 he), hl⟩
  | msg m ch p1 co wo p2 he _ ht hc =>
    obtain ⟨v1, a, b⟩ := learns_of_track hl ht
    obtain ⟨v2, c, d⟩ := completes_of_complete b hc
    exact ⟨v2, .message (h1 m he) a c, d⟩

theorem interp_conn {p p' : Panel} {now : Nat} {pkt : Packet} {ev : Event} {w : List Waker}
    (h : InterpCase p now pkt (ev, w, p')) : p'.conn = p.conn := by
  cases h with
  | bad e he => rfl
  | skip he => rfl
  | msg m ch p1 co wo p2 he _ ht hc =>
    have a : p1.conn = p.conn := by cases ht <;> rfl
    have b : p'.conn = p1.conn := by cases hc <;> rfl
    exact b.trans a

/-- Unless it returns a packet, a read loop leaves nothing that could be returned. -/
theorem loop_dry (q : List ReadItem) : ∀ {got : Bytes} {f : ReadFrame} {o : ReadOut}, RdOk f →
    f.loop q got = .ok o → (∀ p, o.res ≠ .ready (some (.ok p))) → Dry o.rd.buffer := by
  have eof : ∀ {f : ReadFrame} {q got o}, Dry f.buffer → f.atEof q got = .ok o →
      (∀ p, o.res ≠ .ready (some (.ok p))) → Dry o.rd.buffer := by
    intro f q got o hd h hn
    obtain ⟨o', ho, hs⟩ := atEof_spec f q q got rfl hd
    rw [ho] at h; cases h
    rw [hs.other hn]
    simpa using hd
  induction q with
  | nil =>
    intro got f o hok h hn
    unfold ReadFrame.loop at h
    obtain ⟨x, hx, hc⟩ := attempt_cases f
    rw [hx] at h
    cases hc with
    | errored he => cases h; exact hok (.inr he)
    | packet p rest he hr hd => cases h; exact absurd rfl (hn p)
    | atEnd he hr hf hb => cases h; show Dry f.buffer; rw [hb]; exact dry_nil
    | leftover he hr hf hd hb => cases h; exact hd
    | more he hr hf hd => cases h; exact hd
    | idle he hr => cases h; exact hok (.inl hr)
  | cons i q ih =>
    intro got f o hok h hn
    unfold ReadFrame.loop at h
    obtain ⟨x, hx, hc⟩ := attempt_cases f
    rw [hx] at h
    have go : ∀ {g : ReadFrame}, Dry g.buffer → g.hasErrored = false →
        (match i :: q with
        | [] => .ok ⟨.pending, g, [], got⟩
        | .blocked :: q => .ok ⟨.pending, g, q, got⟩
        | .error c :: q =>
          .ok ⟨.ready (some (.error (.socket c))), { g with hasErrored := true }, q, got⟩
        | .eof :: q => g.atEof (.eof :: q) got
        | .data b :: q =>
          if b.length = 0 then g.atEof q got
          else ReadFrame.loop q (got ++ b)
            { g with buffer := g.buffer ++ b, eof := false, isReadable := true } : P ReadOut)
          = .ok o → Dry o.rd.buffer := by
      intro g hd he h
      match i, h with
      | .blocked, h => cases h; exact hd
      | .error c, h => cases h; exact hd
      | .eof, h => exact eof hd h hn
      | .data b, h =>
        dsimp only at h
        split at h
        · exact eof hd h hn
        · exact ih (by intro h; simp [he] at h) h hn
    cases hc with
    | errored he => cases h; exact hok (.inr he)
    | packet p rest he hr hd => cases h; exact absurd rfl (hn p)
    | atEnd he hr hf hb => cases h; show Dry f.buffer; rw [hb]; exact dry_nil
    | leftover he hr hf hd hb => cases h; exact hd
    | more he hr hf hd => exact go (g := { f with isReadable := false }) hd he h
    | idle he hr => exact go (g := f) (hok (.inl hr)) he h

theorem conn_dry {c c' : Connection} {cx : Cx} {r : Poll Item} (hok : RdOk c.rd)
    (h : c.pollNext cx = .ok (r, c')) (hn : ∀ p, r ≠ .ready (some (.ok p))) : Dry c'.rd.buffer := by
  obtain ⟨o, new, ho, _⟩ := loop_spec c.sock.incoming [] c.rd hok
  have hd := loop_dry _ hok ho
  unfold Connection.pollNext at h
  rw [ho] at h
  cases h
  exact hd hn

theorem panel_dry {p p' : Panel} {cx : Cx} {r : Poll PanelItem} {w : List Waker}
    (hok : RdOk p.conn.rd) (h : p.pollNext cx = .ok (r, w, p'))
    (hn : ∀ ev, r ≠ .ready (some (.ok ev))) : Dry p'.conn.rd.buffer := by
  obtain ⟨o, new, ho, _⟩ := loop_spec p.conn.sock.incoming [] p.conn.rd hok
  have hd := loop_dry _ hok ho
  unfold Panel.pollNext Connection.pollNext at h
  rw [ho] at h
  simp only [bind_ok] at h
  generalize hres : o.res = res at h hd
  match res, hd with
  | .ready none, hd => cases h; exact hd (by simp)
  | .ready (some (.error e)), hd => cases h; exact hd (by simp)
  | .ready (some (.ok pkt)), hd =>
    dsimp only at h
    match hi : Panel.interpret _ cx.now pkt, h with
    | .error e, h => cases h
    | .ok (ev, w', q), h => cases h; exact absurd rfl (hn ev)
  | .pending, hd =>
    have hd := hd (by simp)
    dsimp only at h
    unfold Panel.pollTimer at h
    dsimp only at h
    split at h
    · cases h; exact hd
    · split at h
      · cases hst : p.state.armingStatus with
        | none => rw [hst] at h; cases h
        | some a => rw [hst] at h; cases h; exact hd
      · cases h; exact hd

theorem reading_of_next {p p' : Panel} {cx : Cx} {new : Bytes} {r : Poll PanelItem}
    {w : List Waker} {v : View} (hl : Looks p v) (h : NextCase p cx new (r, w, p'))
    (hdry : (∀ ev, r ≠ .ready (some (.ok ev))) → Dry p'.conn.rd.buffer) :
    ∃ v', Reading cx v new r v' ∧ Looks p' v' ∧
      p'.conn.sock.received = p.conn.sock.received ++ new ∧
      p'.conn.sock.sent = p.conn.sock.sent := by
  obtain ⟨h1, h2, h3, h4, h5, h6⟩ := hl
  have other : ∀ {c : Connection} {r : Poll Item}, NextSpec p.conn cx r c new →
      (∀ p, r ≠ .ready (some (.ok p))) → c.rd.buffer = v.unread ++ new := by
    intro c r hs hn
    rw [hs.other hn, h1]
  have waits : ∀ {c : Connection}, NextSpec p.conn cx .pending c new →
      Waits (v.unread ++ new) := by
    intro c hs
    rw [← other hs (by simp)]
    exact (waits_of_decode (hs.pend rfl).1).2
  cases h with
  | error e c hs =>
    have hw : Waits (v.unread ++ new) := by
      rw [← other hs (by simp)]; exact (waits_of_decode (hdry (by simp))).2
    exact ⟨_, .failed hw, ⟨other hs (by simp), h2, h3, h4, h5, hs.wbuf.trans h6⟩, hs.received, hs.sent⟩
  | ended c hs =>
    have hw : Waits (v.unread ++ new) := by
      rw [← other hs (by simp)]; exact (waits_of_decode (hdry (by simp))).2
    exact ⟨_, .ended hw, ⟨other hs (by simp), h2, h3, h4, h5, hs.wbuf.trans h6⟩, hs.received, hs.sent⟩
  | packet pkt c ev w p' hs hi =>
    have hd := hs.packet pkt rfl
    rw [h1] at hd
    have hf := (C117_decode).mp hd
    have hv : ValidPacket pkt ∨ ∃ i, pkt = .invalid i :=
      (decode_some_cond hd).imp id fun ⟨i, a, _⟩ => ⟨i, a⟩
    obtain ⟨v', a, b⟩ := tells_of_interp (p := { p with conn := c }) (v := { v with unread := c.rd.buffer }) hv
      ⟨rfl, h2, h3, h4, h5, hs.wbuf.trans h6⟩ hi
    have hc := interp_conn hi
    exact ⟨v', .event hf a, b, by rw [hc]; exact hs.received, by rw [hc]; exact hs.sent⟩
  | idle c hs hn =>
    refine ⟨_, .quiet (waits hs) ?_, ⟨other hs (by simp), h2, h3, h4, h5, hs.wbuf.trans h6⟩,
      hs.received, hs.sent⟩
    intro due m he
    rw [← h4, hn] at he; cases he
  | wait c pa hs hn ht =>
    refine ⟨_, .quiet (waits hs) ?_, ⟨other hs (by simp), h2, h3, ?_, h5, hs.wbuf.trans h6⟩,
      hs.received, hs.sent⟩
    · intro due m he
      rw [← h4, hn] at he; cases he; exact ht
    · rw [← h4, hn]; rfl
  | fire c pa prior hs hn ht ha =>
    rw [arming_iff.mp h2] at ha; cases ha
    exact ⟨_, .late (waits hs) (by rw [← h4, hn]; rfl) ht,
      ⟨other hs (by simp), rfl, h3, rfl, h5, hs.wbuf.trans h6⟩, hs.received, hs.sent⟩

theorem writes_of_flush {c c' : Connection} {cx : Cx} {r : Poll (Except IoErr Unit)}
    (h : FlushSpec c cx r c') : ∃ io, Writes c.wbuf io r c'.wbuf ∧
      c'.sock.sent = c.sock.sent ++ io := by
  obtain ⟨io, hio⟩ := h.grows
  refine ⟨io, ⟨?_, h.done, h.left⟩, hio⟩
  have := h.bytes
  rw [hio, List.append_assoc] at this
  exact (List.append_cancel_left this).symm

theorem flushing_of_flush {p p' : Panel} {cx : Cx} {r : Poll (Except IoErr Unit)} {v : View}
    (hl : Looks p v) (h : FlushCase p cx (r, p')) :
    ∃ io v', Flushing v io r v' ∧ Looks p' v' ∧
      p'.conn.sock.received = p.conn.sock.received ∧
      p'.conn.sock.sent = p.conn.sock.sent ++ io := by
  obtain ⟨h1, h2, h3, h4, h5, h6⟩ := hl
  cases h with
  | nothing hn =>
    refine ⟨[], _, .nothing (fun q hq => ?_) rfl, ⟨h1, h2, h3, h4, h5, h6⟩, rfl, by simp⟩
    rw [← h5] at hq
    split at hq
    · cases hq
    · rename_i q' f w hc
      cases f with
      | true => cases hq
      | false => exact hn _ _ hc
  | flushed q w c hc hs =>
    obtain ⟨io, a, b⟩ := writes_of_flush hs
    rw [h6] at a
    exact ⟨io, _, .flushed (by rw [← h5, hc]; rfl) a,
      ⟨hs.rd ▸ h1, h2, h3, h4, rfl, rfl⟩, hs.received, b⟩
  | blocked q w c hc hs =>
    obtain ⟨io, a, b⟩ := writes_of_flush hs
    rw [h6] at a
    exact ⟨io, _, .stuck (by rw [← h5, hc]; rfl) (by simp) a,
      ⟨hs.rd ▸ h1, h2, h3, h4, h5, rfl⟩, hs.received, b⟩
  | failed q w c e hc hs =>
    obtain ⟨io, a, b⟩ := writes_of_flush hs
    rw [h6] at a
    exact ⟨io, _, .stuck (by rw [← h5, hc]; rfl) (by simp) a,
      ⟨hs.rd ▸ h1, h2, h3, h4, h5, rfl⟩, hs.received, b⟩

theorem readying_of_ready {p p' : Panel} {cx : Cx} {r : Poll (Except IoErr Unit)} {v : View}
    (hl : Looks p v) (h : ReadyCase p cx (r, p')) :
    ∃ io v', Readying v io r v' ∧ Looks p' v' ∧
      p'.conn.sock.received = p.conn.sock.received ∧
      p'.conn.sock.sent = p.conn.sock.sent ++ io := by
  obtain ⟨h1, h2, h3, h4, h5, h6⟩ := hl
  have some_of : ∀ {q f w}, p.cmdState = .busy q f w → v.asked = some (q, !f) := by
    intro q f w h; rw [← h5, h]
  cases h with
  | idle hc => exact ⟨[], _, .idle (by rw [← h5, hc]) rfl, ⟨h1, h2, h3, h4, h5, h6⟩, rfl, by simp⟩
  | wait q w hc =>
    have ha := some_of hc
    refine ⟨[], _, .flushed (by rw [ha]; simp) (.nothing ?_ rfl), ⟨h1, h2, h3, h4, ?_, h6⟩, rfl,
      by simp⟩
    · intro q hq; rw [ha] at hq; cases hq
    · rw [ha]
  | flushed q w c hc hs =>
    have ha := some_of hc
    obtain ⟨io, a, b⟩ := writes_of_flush hs
    rw [h6] at a
    exact ⟨io, _, .flushed (by rw [ha]; simp) (.flushed ha a),
      ⟨hs.rd ▸ h1, h2, h3, h4, rfl, rfl⟩, hs.received, b⟩
  | blocked q w c hc hs =>
    have ha := some_of hc
    obtain ⟨io, a, b⟩ := writes_of_flush hs
    rw [h6] at a
    exact ⟨io, _, .stuck (by rw [ha]; simp) (by simp) (.stuck ha (by simp) a),
      ⟨hs.rd ▸ h1, h2, h3, h4, h5, rfl⟩, hs.received, b⟩
  | failed q w c e hc hs =>
    have ha := some_of hc
    obtain ⟨io, a, b⟩ := writes_of_flush hs
    rw [h6] at a
    exact ⟨io, _, .stuck (by rw [ha]; simp) (by simp) (.stuck ha (by simp) a),
      ⟨hs.rd ▸ h1, h2, h3, h4, h5, rfl⟩, hs.received, b⟩

theorem acts_of_step {p p' : Panel} {op : Op} {o : Out} {v : View} (hg : Good p) (hl : Looks p v)
    (hw : ∀ c, op = .startSend c → WfCommand c) (hst : p.step op = .ok (o, p')) :
    ∃ io v', Acts v op io o v' ∧ Looks p' v' ∧
      p'.conn.sock.received = p.conn.sock.received ++ bytesRead [⟨op, io, o⟩] ∧
      p'.conn.sock.sent = p.conn.sock.sent ++ bytesWritten [⟨op, io, o⟩] := by
  have h := step_cases hg.sane hst
  cases h with
  | arrive r =>
    obtain ⟨h1, h2, h3, h4, h5, h6⟩ := hl
    exact ⟨[], _, .arrive, ⟨h1, h2, h3, h4, h5, h6⟩, by simp [bytesRead], by simp [bytesWritten]⟩
  | writable r =>
    obtain ⟨h1, h2, h3, h4, h5, h6⟩ := hl
    exact ⟨[], _, .writable, ⟨h1, h2, h3, h4, h5, h6⟩, by simp [bytesRead], by simp [bytesWritten]⟩
  | next cx new r w p' hn =>
    have hnx : p.pollNext cx = .ok (r, w, p') := by
      unfold Panel.step at hst
      dsimp only at hst
      match hx : p.pollNext cx, hst with
      | .error e, hst => cases hst
      | .ok (a, b, c), hst => cases hst; rfl
    obtain ⟨v', a, b, c, d⟩ := reading_of_next hl hn (panel_dry hg.rd hnx)
    exact ⟨new, v', .next a, b, by simpa [bytesRead] using c, by simpa [bytesWritten] using d⟩
  | ready cx r p' hn =>
    obtain ⟨io, v', a, b, c, d⟩ := readying_of_ready hl hn
    exact ⟨io, v', .ready a, b, by simpa [bytesRead] using c, by simpa [bytesWritten] using d⟩
  | send cmd pkt e hc hp he =>
    have heq := command_bytes (hw cmd rfl) hp he
    obtain ⟨h1, h2, h3, h4, h5, h6⟩ := hl
    refine ⟨[], _, .send (by rw [← h5, hc]), ⟨h1, h2, h3, h4, rfl, ?_⟩, by simp [bytesRead],
      by simp [bytesWritten]⟩
    show _ ++ e = _
    rw [h6, heq]
  | flush cx r p' hn =>
    obtain ⟨io, v', a, b, c, d⟩ := flushing_of_flush hl hn
    exact ⟨io, v', .flush a, b, by simpa [bytesRead] using c, by simpa [bytesWritten] using d⟩
  | close cx r p' hn =>
    cases hn with
    | stuck r p1 hne hf =>
      obtain ⟨io, v', a, b, c, d⟩ := flushing_of_flush hl hf
      exact ⟨io, v', .closeStuck hne a, b, by simpa [bytesRead] using c,
        by simpa [bytesWritten] using d⟩
    | flushed p1 r c hf hs =>
      obtain ⟨io, v', a, b, hr, d⟩ := flushing_of_flush hl hf
      obtain ⟨io', a', d'⟩ := writes_of_flush hs
      obtain ⟨h1, h2, h3, h4, h5, h6⟩ := b
      rw [h6] at a'
      refine ⟨io ++ io', _, .close a a', ⟨hs.rd ▸ h1, h2, h3, h4, h5, rfl⟩, ?_, ?_⟩
      · simpa [bytesRead] using hs.received.trans hr
      · simp only [bytesWritten, List.flatMap_cons, List.flatMap_nil, List.append_nil]
        show c.sock.sent = _
        rw [d', d, List.append_assoc]

/-- **C122** Every history of a connected panel is a history of the reference machine: there are the
bytes read and written by each operation, which make up what was read from and written to the
connection, and with them the machine goes from what the panel looked like to what it looks like,
returning what the panel returned. -/
theorem C122_follows {p0 p : Panel} (hc : Connected p0) {ops : List Op} {outs : List Out}
    (hw : ∀ c ∈ commands ops, WfCommand c) (hr : Panel.run ops p0 = .ok (outs, p)) :
    ∃ v0 v l, Looks p0 v0 ∧ Looks p v ∧ Lives v0 l v ∧ l.map Deed.op = ops ∧
      l.map Deed.out = outs ∧
      p.conn.sock.received = p0.conn.sock.received ++ bytesRead l ∧
      p.conn.sock.sent = p0.conn.sock.sent ++ bytesWritten l := by
  have hg := connected_good hc
  clear hc
  obtain ⟨v0, h0⟩ := looks_of_good hg
  suffices h : ∃ v l, Looks p v ∧ Lives v0 l v ∧ l.map Deed.op = ops ∧ l.map Deed.out = outs ∧
      p.conn.sock.received = p0.conn.sock.received ++ bytesRead l ∧
      p.conn.sock.sent = p0.conn.sock.sent ++ bytesWritten l by
    obtain ⟨v, l, h⟩ := h; exact ⟨v0, v, l, h0, h⟩
  induction ops generalizing p0 v0 outs with
  | nil =>
    cases hr
    exact ⟨v0, [], h0, .nil, rfl, rfl, by simp [bytesRead], by simp [bytesWritten]⟩
  | cons op ops ih =>
    obtain ⟨o, p1, os, hs, hr1, rfl⟩ := run_cons.mp hr
    obtain ⟨io, v1, a, b, c, d⟩ := acts_of_step hg h0
      (fun c hcmd => hw c (by subst hcmd; simp [commands])) hs
    obtain ⟨v, l, e, f, g, h, i, j⟩ := ih (fun c hcm => hw c (by
      unfold commands at hcm ⊢
      rw [List.filterMap_cons]
      split
      · exact hcm
      · exact List.mem_cons_of_mem _ hcm)) hr1 (step_good hg (step_cases hg.sane hs)) v1 b
    refine ⟨v, ⟨op, io, o⟩ :: l, e, .cons a f, by simp [g], by simp [h], ?_, ?_⟩
    · rw [i, c, List.append_assoc]; simp [bytesRead]
    · rw [j, d, List.append_assoc]; simp [bytesWritten]

/-! ## The machine leaves no choice -/

theorem says_not_faulty {body : Bytes} (hv : ValidAsciiBody body) {m : Message}
    (hm : Says body m) : ¬ Faulty body := by
  rintro (h | ⟨_, h⟩)
  · have := (C118_parse hv m).mpr hm
    obtain ⟨e, he⟩ := (C118_error hv).mpr (.inl h)
    rw [he] at this; cases this
  · exact h ⟨m, hm⟩

theorem means_one {pkt : Packet} (hv : ValidPacket pkt ∨ ∃ i, pkt = .invalid i)
    {x y : Option (Except Bytes Message)} (hx : Means pkt x) (hy : Means pkt y) :
    x = y := by
  have valid : ∀ {body : Bytes}, pkt = .ascii ⟨body⟩ → ValidAsciiBody body := by
    rintro body rfl
    rcases hv with h | ⟨i, h⟩
    · exact h
    · cases h
  cases hx with
  | says h =>
    cases hy with
    | says h' => rw [C118_unique (valid rfl) h h']
    | fault h' => exact absurd ((C137_faulty (valid rfl)).mp ⟨_, h'⟩) (says_not_faulty (valid rfl) h)
    | other h1 h2 => exact absurd ⟨_, h⟩ h2
  | fault h =>
    cases hy with
    | says h' => exact absurd ((C137_faulty (valid rfl)).mp ⟨_, h⟩) (says_not_faulty (valid rfl) h')
    | fault h' => rw [C137_one h h']
    | other h1 h2 => exact absurd ((C137_faulty (valid rfl)).mp ⟨_, h⟩) h1
  | other h1 h2 =>
    cases hy with
    | says h' => exact absurd ⟨_, h'⟩ h2
    | fault h' => exact absurd ((C137_faulty (valid rfl)).mp ⟨_, h'⟩) h1
    | other h1 h2 => exact rfl
  | rp => cases hy; exact rfl
  | invalid => cases hy; exact rfl

theorem learns_one {now : Nat} {v v₁ v₂ : View} {m : Message} {c₁ c₂ : Option Change}
    (h₁ : Learns now v m c₁ v₁) (h₂ : Learns now v m c₂ v₂) : c₁ = c₂ ∧ v₁ = v₂ := by
  cases h₁ with
  | withhold hn hs =>
    cases h₂ with
    | withhold => exact ⟨rfl, rfl⟩
    | «show» h => exact absurd hs (h.resolve_left (by simp [hn]))
    | again h => exact absurd hs (h.resolve_left (by simp [hn]))
    | nothing h => exact absurd rfl (h _)
  | «show» h hne =>
    cases h₂ with
    | withhold hn hs => exact absurd hs (h.resolve_left (by simp [hn]))
    | «show» => exact ⟨rfl, rfl⟩
    | again => exact absurd rfl hne
    | nothing h => exact absurd rfl (h _)
  | again h =>
    cases h₂ with
    | withhold hn hs => exact absurd hs (h.resolve_left (by simp [hn]))
    | «show» _ hne => exact absurd rfl hne
    | again => exact ⟨rfl, rfl⟩
    | nothing h => exact absurd rfl (h _)
  | @zone m i hi hz hne =>
    cases h₂ with
    | @zone _ j hj hz' hne' =>
      have : i = j := by omega
      subst this; exact ⟨rfl, rfl⟩
    | @zoneSame _ j hj hz' he =>
      have : i = j := by omega
      subst this; exact absurd he hne
    | nothing _ h => exact absurd rfl (h _)
  | @zoneSame m i hi hz he =>
    cases h₂ with
    | @zone _ j hj hz' hne' =>
      have : i = j := by omega
      subst this; exact absurd he hne'
    | zoneSame => exact ⟨rfl, rfl⟩
    | nothing _ h => exact absurd rfl (h _)
  | zones =>
    cases h₂ with
    | zones => exact ⟨rfl, rfl⟩
    | nothing _ _ h => exact absurd rfl (h _)
  | nothing a b c =>
    cases h₂ with
    | withhold => exact absurd rfl (a _)
    | «show» => exact absurd rfl (a _)
    | again => exact absurd rfl (a _)
    | zone => exact absurd rfl (b _)
    | zoneSame => exact absurd rfl (b _)
    | zones => exact absurd rfl (c _)
    | nothing => exact ⟨rfl, rfl⟩

theorem completes_one {v v₁ v₂ : View} {m : Message} {c₁ c₂ : Option Message}
    (h₁ : Completes v m c₁ v₁) (h₂ : Completes v m c₂ v₂) : c₁ = c₂ ∧ v₁ = v₂ := by
  cases h₁ with
  | done a r =>
    cases h₂ with
    | done a' r' => rw [a] at a'; cases a'; exact ⟨rfl, rfl⟩
    | unrelated a' r' => rw [a] at a'; cases a'; exact absurd r r'
    | idle a' => rw [a] at a'; cases a'
  | unrelated a r =>
    cases h₂ with
    | done a' r' => rw [a] at a'; cases a'; exact absurd r' r
    | unrelated a' r' => exact ⟨rfl, rfl⟩
    | idle a' => exact ⟨rfl, rfl⟩
  | idle a =>
    cases h₂ with
    | done a' r' => rw [a] at a'; cases a'
    | unrelated a' r' => exact ⟨rfl, rfl⟩
    | idle a' => exact ⟨rfl, rfl⟩

theorem tells_one {now : Nat} {v v₁ v₂ : View} {pkt : Packet} {e₁ e₂ : Event}
    (hv : ValidPacket pkt ∨ ∃ i, pkt = .invalid i)
    (h₁ : Tells now v pkt e₁ v₁) (h₂ : Tells now v pkt e₂ v₂) : e₁ = e₂ ∧ v₁ = v₂ := by
  cases h₁ with
  | message a b c =>
    cases h₂ with
    | message a' b' c' =>
      cases means_one hv a a'
      obtain ⟨rfl, rfl⟩ := learns_one b b'
      obtain ⟨rfl, rfl⟩ := completes_one c c'
      exact ⟨rfl, rfl⟩
    | fault a' => cases means_one hv a a'
    | nothing a' => cases means_one hv a a'
  | fault a =>
    cases h₂ with
    | message a' b' c' => cases means_one hv a a'
    | fault a' => cases means_one hv a a'; exact ⟨rfl, rfl⟩
    | nothing a' => cases means_one hv a a'
  | nothing a =>
    cases h₂ with
    | message a' b' c' => cases means_one hv a a'
    | fault a' => cases means_one hv a a'
    | nothing a' => exact ⟨rfl, rfl⟩

theorem front_one {src rest rest' : Bytes} {r r' : Option Packet} (h : Front src r rest)
    (h' : Front src r' rest') : r = r' ∧ rest = rest' := by
  have := (C117_decode.mpr h).symm.trans (C117_decode.mpr h')
  injection this with this
  injection this with a b
  exact ⟨a, b⟩

theorem learns_unread {now : Nat} {v v' : View} {m : Message} {c : Option Change}
    (h : Learns now v m c v') : v'.unread = v.unread := by
  cases h <;> rfl

theorem tells_unread {now : Nat} {v v' : View} {pkt : Packet} {e : Event}
    (h : Tells now v pkt e v') : v'.unread = v.unread ∧ e.pkt = some pkt := by
  cases h with
  | message a b c =>
    refine ⟨Eq.trans ?_ (learns_unread b), rfl⟩
    cases c <;> rfl
  | fault a => exact ⟨rfl, rfl⟩
  | nothing a => exact ⟨rfl, rfl⟩

/-- **C122** A packet at the front settles what `poll_next` returns and what is seen afterwards. -/
theorem C122_packet {cx : Cx} {v v₁ v₂ : View} {io rest : Bytes} {pkt : Packet}
    {r₁ r₂ : Poll PanelItem} (hf : Front (v.unread ++ io) (some pkt) rest)
    (h₁ : Reading cx v io r₁ v₁) (h₂ : Reading cx v io r₂ v₂) :
    v₁ = v₂ ∧ r₁ = r₂ ∧ v₁.unread = rest ∧ ∃ e, r₁ = .ready (some (.ok e)) ∧ e.pkt = some pkt := by
  have no : ¬ Waits (v.unread ++ io) := fun hw => nomatch (front_one hf (.waits hw)).1
  have one : ∀ {r v'}, Reading cx v io r v' → ∃ e, r = .ready (some (.ok e)) ∧
      Tells cx.now { v with unread := rest } pkt e v' := by
    intro r v' h
    cases h with
    | event hf' ht =>
      obtain ⟨h, rfl⟩ := front_one hf hf'
      cases h
      exact ⟨_, rfl, ht⟩
    | failed hw => exact absurd hw no
    | ended hw => exact absurd hw no
    | quiet hw => exact absurd hw no
    | late hw => exact absurd hw no
  obtain ⟨e₁, rfl, t₁⟩ := one h₁
  obtain ⟨e₂, rfl, t₂⟩ := one h₂
  have hv : ValidPacket pkt ∨ ∃ i, pkt = .invalid i :=
    (decode_some_cond (C117_decode.mpr hf)).imp id fun ⟨i, a, _⟩ => ⟨i, a⟩
  obtain ⟨rfl, rfl⟩ := tells_one hv t₁ t₂
  obtain ⟨hu, hp⟩ := tells_unread t₁
  exact ⟨rfl, rfl, hu, e₁, rfl, hp⟩

/-- **C122** Without a packet at the front, unless the connection failed or ended, the clock settles
it. -/
theorem C122_waits {cx : Cx} {v v₁ v₂ : View} {io : Bytes} {r₁ r₂ : Poll PanelItem}
    (hw : Waits (v.unread ++ io)) (h₁ : Reading cx v io r₁ v₁) (h₂ : Reading cx v io r₂ v₂)
    (g₁ : r₁ ≠ .ready none ∧ ∀ e, r₁ ≠ .ready (some (.error e)))
    (g₂ : r₂ ≠ .ready none ∧ ∀ e, r₂ ≠ .ready (some (.error e))) :
    v₁ = v₂ ∧ r₁ = r₂ := by
  cases h₁ with
  | event hf => cases (front_one hf (.waits hw)).1
  | failed => exact absurd rfl (g₁.2 _)
  | ended => exact absurd rfl g₁.1
  | quiet _ hq =>
    cases h₂ with
    | event hf => cases (front_one hf (.waits hw)).1
    | failed => exact absurd rfl (g₂.2 _)
    | ended => exact absurd rfl g₂.1
    | quiet => exact ⟨rfl, rfl⟩
    | late _ hh hd => have := hq _ _ hh; omega
  | late _ hh hd =>
    cases h₂ with
    | event hf => cases (front_one hf (.waits hw)).1
    | failed => exact absurd rfl (g₂.2 _)
    | ended => exact absurd rfl g₂.1
    | quiet _ hq => have := hq _ _ hh; omega
    | late _ hh' => rw [hh] at hh'; cases hh'; exact ⟨rfl, rfl⟩

/-- Not vacuous: a history with a report withheld, shown five seconds later, and a command. -/
example : ∃ v0 v l, Looks (samplePanel [.data (msgBytes (.armingStatusReport armedReport))]) v0 ∧
    Lives v0 l v ∧ l.length = 4 ∧ v.shown = armedReport ∧ v0.shown ≠ v.shown ∧
    bytesWritten l = [] ∧ v.unsent = commandBytes (.activateTask ⟨1⟩) := by
  obtain ⟨r, hr, h⟩ := of_holds (x := Panel.run [.pollNext ⟨1, 100, 100⟩, .pollNext ⟨1, 5100, 5100⟩,
      .startSend (.activateTask ⟨1⟩), .pollNext ⟨1, 5200, 5200⟩]
      (samplePanel [.data (msgBytes (.armingStatusReport armedReport))]))
    (f := fun r => decide (r.2.state.armingStatus = some armedReport ∧ r.2.conn.sock.sent = [] ∧
      r.2.conn.wbuf = commandBytes (.activateTask ⟨1⟩))) (by decide +kernel)
  have hs := of_decide_eq_true h
  obtain ⟨v0, v, l, h0, hv, hl, ho, _, _, hw⟩ := C122_follows (samplePanel_connected _)
    (by intro c hc; simp [commands] at hc; subst hc; exact ⟨by decide, by decide⟩) hr
  refine ⟨v0, v, l, h0, hl, by simpa using congrArg List.length ho, ?_, ?_, ?_, ?_⟩
  · have := hv.shown
    rw [arming_iff.mpr hs.1] at this
    injection this with this
    exact this.symm
  · have a := hv.shown
    rw [arming_iff.mpr hs.1] at a
    have b := h0.shown
    rw [arming_iff.mpr (rfl : _ = some (sameReport .disarmed .readyToArm))] at b
    injection a with a
    injection b with b
    rw [← a, ← b]; decide +kernel
  · rw [hs.2.1] at hw
    exact hw.symm
  · exact hv.unsent.symm.trans hs.2.2

end Elk.Props
