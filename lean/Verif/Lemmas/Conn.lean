import Verif.Model.Conn
import Verif.Props.Pkt
/-!
# Lemmas about the framed connection
-/

namespace Elk
open Spec Props

theorem decode_total (src : Bytes) :
    Packet.decode src = .ok (none, src) ∨ ∃ p rest, Packet.decode src = .ok (some p, rest) := by
  obtain ⟨⟨o, rest⟩, h⟩ := C16_decode_never_panics src
  match o with
  | none => have := decode_none_eq h; subst this; exact .inl h
  | some p => exact .inr ⟨p, rest, h⟩

/-- Nothing can be decoded from the buffer. -/
def Dry (b : Bytes) : Prop := Packet.decode b = .ok (none, b)

/-- The outcome of one pass of the read loop up to the read. -/
inductive AttemptCase (f : ReadFrame) : Option Item × ReadFrame → Prop
  | errored : f.hasErrored = true →
      AttemptCase f (some none, { f with isReadable := false, hasErrored := false })
  | packet (p : Packet) (rest : Bytes) : f.hasErrored = false → f.isReadable = true →
      Packet.decode f.buffer = .ok (some p, rest) →
      AttemptCase f (some (some (.ok p)), { f with buffer := rest })
  | atEnd : f.hasErrored = false → f.isReadable = true → f.eof = true → f.buffer = [] →
      AttemptCase f (some none, { f with isReadable := false })
  | leftover : f.hasErrored = false → f.isReadable = true → f.eof = true → Dry f.buffer →
      f.buffer ≠ [] →
      AttemptCase f (some (some (.error .bytesRemaining)), { f with hasErrored := true })
  | more : f.hasErrored = false → f.isReadable = true → f.eof = false → Dry f.buffer →
      AttemptCase f (none, { f with isReadable := false })
  | idle : f.hasErrored = false → f.isReadable = false → AttemptCase f (none, f)

theorem pausing_cases (f : ReadFrame) :
    (∃ p rest, Packet.decode f.buffer = .ok (some p, rest) ∧
      f.pausing = .ok (some (.ok p), { f with buffer := rest })) ∨
    (f.buffer = [] ∧ f.pausing = .ok (none, { f with isReadable := false })) ∨
    (Dry f.buffer ∧ f.buffer ≠ [] ∧
      f.pausing = .ok (some (.error .bytesRemaining), { f with hasErrored := true })) := by
  unfold ReadFrame.pausing Codec.decode
  rcases decode_total f.buffer with h | ⟨p, rest, h⟩
  · rw [h]
    simp only [bind_ok]
    by_cases hb : f.buffer = []
    · exact .inr (.inl ⟨hb, by rw [if_pos hb]⟩)
    · exact .inr (.inr ⟨h, hb, by rw [if_neg hb]⟩)
  · rw [h]
    exact .inl ⟨p, rest, rfl, rfl⟩

theorem attempt_cases (f : ReadFrame) : ∃ x, f.attempt = .ok x ∧ AttemptCase f x := by
  unfold ReadFrame.attempt
  by_cases he : f.hasErrored = true
  · rw [if_pos he]; exact ⟨_, rfl, .errored he⟩
  rw [if_neg he]
  rw [Bool.not_eq_true] at he
  by_cases hr : f.isReadable = true
  · rw [if_pos hr]
    by_cases hf : f.eof = true
    · rw [if_pos hf]
      rcases pausing_cases f with ⟨p, rest, h, hp⟩ | ⟨h, hp⟩ | ⟨h, hb, hp⟩
      · rw [hp]; exact ⟨_, rfl, .packet p rest he hr h⟩
      · rw [hp]; exact ⟨_, rfl, .atEnd he hr hf h⟩
      · rw [hp]; exact ⟨_, rfl, .leftover he hr hf h hb⟩
    · rw [if_neg hf]
      rw [Bool.not_eq_true] at hf
      unfold Codec.decode
      rcases decode_total f.buffer with h | ⟨p, rest, h⟩
      · rw [h]; exact ⟨_, rfl, .more he hr hf h⟩
      · rw [h]; exact ⟨_, rfl, .packet p rest he hr h⟩
  · rw [if_neg hr]
    rw [Bool.not_eq_true] at hr
    exact ⟨_, rfl, .idle he hr⟩

/-- The invariant of the read side: unless the buffer is due to be looked at again, nothing can be
decoded from it. -/
def RdOk (f : ReadFrame) : Prop := f.isReadable = false ∨ f.hasErrored = true → Dry f.buffer

/-- The bytes of the data answers in a queue. -/
def dataOf : List ReadItem → Bytes
  | [] => []
  | .data b :: q => b ++ dataOf q
  | _ :: q => dataOf q

theorem dataOf_append (a b : List ReadItem) : dataOf (a ++ b) = dataOf a ++ dataOf b := by
  induction a with
  | nil => rfl
  | cons x a ih => cases x <;> simp [dataOf, ih]

/-- What a read loop does, in terms of the bytes it obtained. -/
structure LoopSpec (f : ReadFrame) (q : List ReadItem) (got : Bytes) (o : ReadOut) (new : Bytes) :
    Prop where
  got_eq : o.got = got ++ new
  data_eq : dataOf q = new ++ dataOf o.incoming
  packet : ∀ p, o.res = .ready (some (.ok p)) →
    Packet.decode (f.buffer ++ new) = .ok (some p, o.rd.buffer)
  other : (∀ p, o.res ≠ .ready (some (.ok p))) → o.rd.buffer = f.buffer ++ new
  inv : RdOk f → RdOk o.rd
  pend : o.res = .pending → RdOk f → Dry o.rd.buffer
  drained : o.res = .pending → .blocked ∉ q → o.incoming = []

theorem dry_nil : Dry [] := rfl

theorem atEof_spec (f : ReadFrame) (q q' : List ReadItem) (got : Bytes) (hq : dataOf q = dataOf q')
    (hd : Dry f.buffer) :
    ∃ o, f.atEof q' got = .ok o ∧ LoopSpec f q got o [] := by
  unfold ReadFrame.atEof
  cases he : f.eof with
  | true =>
    exact ⟨_, rfl, by simp, by simp [hq], by intro p h; simp at h, by simp, id,
      by intro h; simp at h, by intro h; simp at h⟩
  | false =>
    rw [if_neg (by decide)]
    rcases pausing_cases { f with eof := true, isReadable := true } with ⟨p, rest, h, hp⟩ |
      ⟨h, hp⟩ | ⟨h, hb, hp⟩
    · rw [hp]
      have : Packet.decode f.buffer = .ok (some p, rest) := h
      rw [hd] at this
      simp at this
    · rw [hp]
      exact ⟨_, rfl, by simp, by simp [hq], by intro p h; simp at h, by simp,
        by intro _ _; exact hd, by intro h; simp at h, by intro h; simp at h⟩
    · rw [hp]
      exact ⟨_, rfl, by simp, by simp [hq], by intro p h; simp at h, by simp,
        by intro _ _; exact hd, by intro h; simp at h, by intro h; simp at h⟩

theorem loop_spec (q : List ReadItem) : ∀ (got : Bytes) (f : ReadFrame), RdOk f →
    ∃ o new, f.loop q got = .ok o ∧ LoopSpec f q got o new := by
  induction q with
  | nil =>
    intro got f hok
    unfold ReadFrame.loop
    obtain ⟨x, hx, hc⟩ := attempt_cases f
    rw [hx]
    cases hc with
    | errored he =>
      exact ⟨_, [], rfl, by simp, by simp [dataOf], by intro p h; simp at h, by simp,
        by intro h _; exact h (.inr he), by intro h; simp at h, by intro h; simp at h⟩
    | packet p rest he hr hd =>
      refine ⟨_, [], rfl, by simp, by simp [dataOf], ?_, ?_, ?_, by intro h; simp at h, by intro h; simp at h⟩
      · intro p' h
        simp only [Poll.ready.injEq, Option.some.injEq, Except.ok.injEq] at h
        subst h
        simpa using hd
      · intro h; exact absurd rfl (h p)
      · intro _ h; simp [hr, he] at h
    | atEnd he hr hf hb =>
      exact ⟨_, [], rfl, by simp, by simp [dataOf], by intro p h; simp at h, by simp,
        by intro _ _; rw [hb]; exact dry_nil, by intro h; simp at h, by intro h; simp at h⟩
    | leftover he hr hf hd hb =>
      exact ⟨_, [], rfl, by simp, by simp [dataOf], by intro p h; simp at h, by simp,
        by intro _ _; exact hd, by intro h; simp at h, by intro h; simp at h⟩
    | more he hr hf hd =>
      exact ⟨_, [], rfl, by simp, by simp [dataOf], by intro p h; simp at h, by simp,
        by intro _ _; exact hd, by intro _ _; exact hd, by intro _ _; rfl⟩
    | idle he hr =>
      exact ⟨_, [], rfl, by simp, by simp [dataOf], by intro p h; simp at h, by simp,
        id, by intro _ h; exact h (.inl hr), by intro _ _; rfl⟩
  | cons i q ih =>
    intro got f hok
    unfold ReadFrame.loop
    obtain ⟨x, hx, hc⟩ := attempt_cases f
    rw [hx]
    cases hc with
    | errored he =>
      exact ⟨_, [], rfl, by simp, by simp, by intro p h; simp at h, by simp,
        by intro h _; exact h (.inr he), by intro h; simp at h, by intro h; simp at h⟩
    | packet p rest he hr hd =>
      refine ⟨_, [], rfl, by simp, by simp, ?_, ?_, ?_, by intro h; simp at h, by intro h; simp at h⟩
      · intro p' h
        simp only [Poll.ready.injEq, Option.some.injEq, Except.ok.injEq] at h
        subst h
        simpa using hd
      · intro h; exact absurd rfl (h p)
      · intro _ h; simp [hr, he] at h
    | atEnd he hr hf hb =>
      exact ⟨_, [], rfl, by simp, by simp, by intro p h; simp at h, by simp,
        by intro _ _; rw [hb]; exact dry_nil, by intro h; simp at h, by intro h; simp at h⟩
    | leftover he hr hf hd hb =>
      exact ⟨_, [], rfl, by simp, by simp, by intro p h; simp at h, by simp,
        by intro _ _; exact hd, by intro h; simp at h, by intro h; simp at h⟩
    | more he hr hf hd => exact loop_read i q ih got f { f with isReadable := false } rfl he hd
    | idle he hr => exact loop_read i q ih got f f rfl he (hok (.inl hr))
where
  loop_read (i : ReadItem) (q : List ReadItem)
      (ih : ∀ (got : Bytes) (f : ReadFrame), RdOk f →
        ∃ o new, f.loop q got = .ok o ∧ LoopSpec f q got o new)
      (got : Bytes) (f g : ReadFrame) (hg : g.buffer = f.buffer)
      (he : g.hasErrored = false) (hd : Dry f.buffer) :
      ∃ o new, (match i :: q with
        | [] => .ok ⟨.pending, g, [], got⟩
        | .blocked :: q => .ok ⟨.pending, g, q, got⟩
        | .error c :: q =>
          .ok ⟨.ready (some (.error (.socket c))), { g with hasErrored := true }, q, got⟩
        | .eof :: q => g.atEof (.eof :: q) got
        | .data b :: q =>
          if b.length = 0 then g.atEof q got
          else ReadFrame.loop q (got ++ b)
            { g with buffer := g.buffer ++ b, eof := false, isReadable := true } : P ReadOut)
          = .ok o ∧ LoopSpec f (i :: q) got o new := by
    have conv : ∀ {i got o new}, LoopSpec g i got o new → LoopSpec f i got o new := by
      intro i got o new h
      refine ⟨h.got_eq, h.data_eq, fun p hp => hg ▸ h.packet p hp, fun hp => hg ▸ h.other hp, ?_, ?_, h.drained⟩
      · intro _; exact h.inv (fun _ => hg ▸ hd)
      · intro hp _; exact h.pend hp (fun _ => hg ▸ hd)
    match i with
    | .blocked =>
      exact ⟨_, [], rfl, by simp, by simp [dataOf], by intro p h; simp at h, by simp [hg],
        by intro _ _; exact hg ▸ hd, by intro _ _; exact hg ▸ hd,
        by intro _ h; exact absurd (List.mem_cons_self ..) h⟩
    | .error c =>
      exact ⟨_, [], rfl, by simp, by simp [dataOf], by intro p h; simp at h, by simp [hg],
        by intro _ _; exact hg ▸ hd, by intro h; simp at h, by intro h; simp at h⟩
    | .eof =>
      obtain ⟨o, ho, hs⟩ := atEof_spec g (.eof :: q) (.eof :: q) got rfl (hg ▸ hd)
      exact ⟨o, [], ho, conv hs⟩
    | .data b =>
      dsimp only
      by_cases hb : b.length = 0
      · rw [if_pos hb]
        have hb' := List.length_eq_zero_iff.mp hb
        obtain ⟨o, ho, hs⟩ := atEof_spec g (.data b :: q) q got (by simp [dataOf, hb']) (hg ▸ hd)
        exact ⟨o, [], ho, conv hs⟩
      · rw [if_neg hb]
        obtain ⟨o, new, ho, hs⟩ := ih (got ++ b)
          { g with buffer := g.buffer ++ b, eof := false, isReadable := true }
          (by intro h; simp [he] at h)
        refine ⟨o, b ++ new, ho, by simp [hs.got_eq], by simp [dataOf, hs.data_eq], ?_, ?_, ?_, ?_,
          fun hp hb => hs.drained hp (fun hm => hb (List.mem_cons_of_mem _ hm))⟩
        · intro p hp
          have := hs.packet p hp
          simpa [hg] using this
        · intro hp
          have := hs.other hp
          simpa [hg] using this
        · intro _; exact hs.inv (by intro h; simp [he] at h)
        · intro hp _; exact hs.pend hp (by intro h; simp [he] at h)

/-- What `Connection::poll_next` does. -/
structure NextSpec (c : Connection) (cx : Cx) (r : Poll Item) (c' : Connection) (new : Bytes) :
    Prop where
  received : c'.sock.received = c.sock.received ++ new
  data : dataOf c.sock.incoming = new ++ dataOf c'.sock.incoming
  packet : ∀ p, r = .ready (some (.ok p)) →
    Packet.decode (c.rd.buffer ++ new) = .ok (some p, c'.rd.buffer)
  other : (∀ p, r ≠ .ready (some (.ok p))) → c'.rd.buffer = c.rd.buffer ++ new
  inv : RdOk c'.rd
  pend : r = .pending → Dry c'.rd.buffer ∧ c'.sock.readWaker = some cx.waker
  drained : r = .pending → .blocked ∉ c.sock.incoming → c'.sock.incoming = []
  wbuf : c'.wbuf = c.wbuf
  sent : c'.sock.sent = c.sock.sent
  writes : c'.sock.writes = c.sock.writes
  shutdown : c'.sock.shutdown = c.sock.shutdown
  writeWaker : c'.sock.writeWaker = c.sock.writeWaker

theorem connNext_spec (c : Connection) (cx : Cx) (h : RdOk c.rd) :
    ∃ r c' new, c.pollNext cx = .ok (r, c') ∧ NextSpec c cx r c' new := by
  obtain ⟨o, new, ho, hs⟩ := loop_spec c.sock.incoming [] c.rd h
  unfold Connection.pollNext
  rw [ho]
  refine ⟨_, _, new, rfl, ?_, hs.data_eq, hs.packet, hs.other, hs.inv h, ?_, hs.drained,
    rfl, rfl, rfl, rfl, rfl⟩
  · simp [hs.got_eq]
  · intro hp
    refine ⟨hs.pend hp h, ?_⟩
    dsimp only
    rw [hp]

theorem flushLoop_spec (q : List WriteItem) : ∀ buf sent,
    (flushLoop q buf sent).sent ++ (flushLoop q buf sent).wbuf = sent ++ buf ∧
    (∃ new, (flushLoop q buf sent).sent = sent ++ new) ∧
    ((flushLoop q buf sent).res = .ready (.ok ()) → (flushLoop q buf sent).wbuf = []) := by
  induction q with
  | nil =>
    intro buf sent
    unfold flushLoop
    split
    · rename_i h
      exact ⟨rfl, ⟨[], by simp⟩, fun _ => List.length_eq_zero_iff.mp h⟩
    · exact ⟨rfl, ⟨[], by simp⟩, fun h => by simp at h⟩
  | cons i q ih =>
    intro buf sent
    unfold flushLoop
    split
    · rename_i h
      exact ⟨rfl, ⟨[], by simp⟩, fun _ => List.length_eq_zero_iff.mp h⟩
    · match i with
      | .blocked => exact ⟨rfl, ⟨[], by simp⟩, fun h => by simp at h⟩
      | .error c => exact ⟨rfl, ⟨[], by simp⟩, fun h => by simp at h⟩
      | .accept n =>
        dsimp only
        split
        · exact ⟨rfl, ⟨[], by simp⟩, fun h => by simp at h⟩
        · obtain ⟨h1, ⟨new, h2⟩, h3⟩ := ih (buf.drop (min n buf.length))
            (sent ++ buf.take (min n buf.length))
          refine ⟨?_, ⟨buf.take (min n buf.length) ++ new, by rw [h2, List.append_assoc]⟩, h3⟩
          rw [h1, List.append_assoc, List.take_append_drop]

theorem flushLoop_pending (q : List WriteItem) : ∀ buf sent,
    (flushLoop q buf sent).res = .pending → (flushLoop q buf sent).wbuf ≠ [] := by
  induction q with
  | nil =>
    intro buf sent
    unfold flushLoop
    split
    · intro h; simp at h
    · rename_i h; intro _ hb; exact h (by rw [show buf = [] from hb]; rfl)
  | cons i q ih =>
    intro buf sent
    unfold flushLoop
    split
    · intro h; simp at h
    · rename_i h
      match i with
      | .blocked => intro _ hb; exact h (by rw [show buf = [] from hb]; rfl)
      | .error c => intro h; simp at h
      | .accept n =>
        dsimp only
        split
        · intro h; simp at h
        · exact ih _ _

/-- What `Connection::poll_flush` does. -/
structure FlushSpec (c : Connection) (cx : Cx) (r : Poll (Except IoErr Unit)) (c' : Connection) :
    Prop where
  bytes : c'.sock.sent ++ c'.wbuf = c.sock.sent ++ c.wbuf
  grows : ∃ new, c'.sock.sent = c.sock.sent ++ new
  done : r = .ready (.ok ()) → c'.wbuf = []
  pend : r = .pending → c'.sock.writeWaker = some cx.waker
  unpend : r ≠ .pending → c'.sock.writeWaker = c.sock.writeWaker
  left : r = .pending → c'.wbuf ≠ []
  rd : c'.rd = c.rd
  incoming : c'.sock.incoming = c.sock.incoming
  received : c'.sock.received = c.sock.received
  readWaker : c'.sock.readWaker = c.sock.readWaker
  shutdown : c'.sock.shutdown = c.sock.shutdown

theorem connFlush_spec (c : Connection) (cx : Cx) :
    FlushSpec c cx (c.pollFlush cx).1 (c.pollFlush cx).2 := by
  obtain ⟨h1, h2, h3⟩ := flushLoop_spec c.sock.writes c.wbuf c.sock.sent
  refine ⟨h1, h2, h3, ?_, ?_, flushLoop_pending _ _ _, rfl, rfl, rfl, rfl, rfl⟩
  · intro h
    have h' : (flushLoop c.sock.writes c.wbuf c.sock.sent).res = .pending := h
    show (match (flushLoop c.sock.writes c.wbuf c.sock.sent).res with
      | .pending => some cx.waker
      | .ready _ => c.sock.writeWaker) = _
    rw [h']
  · intro h
    have h' : (flushLoop c.sock.writes c.wbuf c.sock.sent).res ≠ .pending := h
    show (match (flushLoop c.sock.writes c.wbuf c.sock.sent).res with
      | .pending => some cx.waker
      | .ready _ => c.sock.writeWaker) = _
    split
    · rename_i hp; exact absurd hp h'
    · rfl

end Elk
