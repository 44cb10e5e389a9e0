import Verif.Props.Conn
/-!
# The read buffer of a connection (C114)
-/

namespace Elk.Props
open Elk.Spec

/-- The buffer holds no more than 1025 bytes and what one read can add, or is stuck. -/
def Bounded (k : Nat) (b : Bytes) : Prop := b.length ≤ 1025 + k ∨ Stuck b

/-- What cannot be decoded is short, or stuck for ever (C08). -/
theorem dry_short {b : Bytes} (h : Dry b) : b.length ≤ 1025 ∨ Stuck b := by
  by_cases hl : 1026 ≤ b.length
  · exact .inr ((C08_no_stall_partial b hl).mp ⟨b, h⟩)
  · exact .inl (by omega)

theorem stuck_append {b : Bytes} (h : Stuck b) (c : Bytes) : Stuck (b ++ c) := by
  obtain ⟨d, x, hd, rfl⟩ := h
  exact ⟨d, x ++ c, hd, by simp⟩

theorem dry_grows {b c : Bytes} {k : Nat} (h : Dry b) (hc : c.length ≤ k) : Bounded k (b ++ c) := by
  rcases dry_short h with h | h
  · exact .inl (by rw [List.length_append]; omega)
  · exact .inr (stuck_append h c)

theorem decoded_bounded {k : Nat} {b rest : Bytes} {p : Packet} (hb : Bounded k b)
    (h : Packet.decode b = .ok (some p, rest)) : Bounded k rest := by
  have hl : rest.length ≤ b.length := by
    obtain ⟨w, _, e, _⟩ := (C05_progress b).1 p rest h
    rw [e, List.length_append]; omega
  rcases hb with hb | hb
  · exact .inl (by omega)
  · by_cases hlen : 1026 ≤ b.length
    · obtain ⟨left, e⟩ := (C08_no_stall_partial b hlen).mpr hb
      rw [h] at e
      cases e
    · exact .inl (by omega)

/-- What is added by a read has at most `k` bytes. -/
def Pieces (k : Nat) (q : List ReadItem) : Prop := ∀ b, .data b ∈ q → b.length ≤ k

theorem attempt_bounded {k : Nat} {f g : ReadFrame} {x : Option Item} (h : AttemptCase f (x, g))
    (hk : RdOk f) (hb : Bounded k f.buffer) :
    Bounded k g.buffer ∧ (x = none → Dry g.buffer ∧ g.hasErrored = false) := by
  cases h with
  | errored h => exact ⟨hb, fun h => by cases h⟩
  | packet p rest _ _ h => exact ⟨decoded_bounded hb h, fun h => by cases h⟩
  | atEnd _ _ _ _ => exact ⟨hb, fun h => by cases h⟩
  | leftover _ _ _ _ _ => exact ⟨hb, fun h => by cases h⟩
  | more he _ _ hd => exact ⟨hb, fun _ => ⟨hd, he⟩⟩
  | idle he hr => exact ⟨hb, fun _ => ⟨hk (.inl hr), he⟩⟩

theorem atEof_bounded {k : Nat} {f : ReadFrame} {q : List ReadItem} {got : Bytes} {o : ReadOut}
    (hd : Bounded k f.buffer) (h : f.atEof q got = .ok o) :
    Bounded k o.rd.buffer ∧ o.incoming = q := by
  unfold ReadFrame.atEof at h
  split at h
  · cases h; exact ⟨hd, rfl⟩
  · rcases pausing_cases { f with eof := true, isReadable := true } with ⟨p, rest, h1, hp⟩ |
      ⟨_, hp⟩ | ⟨_, _, hp⟩
    · rw [hp] at h; cases h; exact ⟨decoded_bounded hd h1, rfl⟩
    · rw [hp] at h; cases h; exact ⟨hd, rfl⟩
    · rw [hp] at h; cases h; exact ⟨hd, rfl⟩

theorem loop_bounded {k : Nat} (q : List ReadItem) : ∀ {got : Bytes} {f : ReadFrame} {o : ReadOut},
    RdOk f → Bounded k f.buffer → Pieces k q → f.loop q got = .ok o →
    Bounded k o.rd.buffer ∧ Pieces k o.incoming := by
  induction q with
  | nil =>
    intro got f o hk hb hq h
    unfold ReadFrame.loop at h
    obtain ⟨⟨x, g⟩, hx, hc⟩ := attempt_cases f
    obtain ⟨h1, _⟩ := attempt_bounded hc hk hb
    rw [hx] at h
    cases x with
    | some x => cases h; exact ⟨h1, hq⟩
    | none => cases h; exact ⟨h1, hq⟩
  | cons i q ih =>
    intro got f o hk hb hq h
    unfold ReadFrame.loop at h
    obtain ⟨⟨x, g⟩, hx, hc⟩ := attempt_cases f
    obtain ⟨h1, h2⟩ := attempt_bounded hc hk hb
    have hq' : Pieces k q := fun b hm => hq b (List.mem_cons_of_mem _ hm)
    rw [hx] at h
    cases x with
    | some x => cases h; exact ⟨h1, hq⟩
    | none =>
      obtain ⟨h2, h3⟩ := h2 rfl
      cases i with
      | blocked => cases h; exact ⟨h1, hq'⟩
      | error c => cases h; exact ⟨h1, hq'⟩
      | eof =>
        obtain ⟨e1, e2⟩ := atEof_bounded h1 h
        exact ⟨e1, by rw [e2]; exact hq⟩
      | data b =>
        dsimp only at h
        split at h
        · obtain ⟨e1, e2⟩ := atEof_bounded h1 h
          exact ⟨e1, by rw [e2]; exact hq'⟩
        · refine ih (f := { g with buffer := g.buffer ++ b, eof := false, isReadable := true }) ?_
            (dry_grows h2 (hq b (List.mem_cons_self ..))) hq' h
          intro hh
          dsimp only at hh
          rw [h3] at hh
          rcases hh with hh | hh <;> cases hh

theorem step_bounded {k : Nat} {c c1 : Connection} {op : ConnOp} {o : ConnOut} (hk : RdOk c.rd)
    (hb : Bounded k c.rd.buffer) (hq : Pieces k c.sock.incoming)
    (ha : ∀ b, op = .arrive (.data b) → b.length ≤ k) (h : connStep c op = .ok (o, c1)) :
    RdOk c1.rd ∧ Bounded k c1.rd.buffer ∧ Pieces k c1.sock.incoming := by
  have flush : ∀ cx, RdOk (c.pollFlush cx).2.rd ∧ Bounded k (c.pollFlush cx).2.rd.buffer ∧
      Pieces k (c.pollFlush cx).2.sock.incoming := fun cx => ⟨hk, hb, hq⟩
  match op with
  | .arrive r =>
    cases h
    refine ⟨hk, hb, ?_⟩
    intro b hm
    rcases List.mem_append.mp hm with hm | hm
    · exact hq b hm
    · exact ha b (by rw [List.mem_singleton.mp hm])
  | .writable w => cases h; exact ⟨hk, hb, hq⟩
  | .pollNext cx =>
    obtain ⟨r, c', new, h1, hn⟩ := connNext_spec c cx hk
    have h' : (c.pollNext cx >>= fun x => Except.ok (ConnOut.next x.1, x.2)) = .ok (o, c1) := h
    rw [h1] at h'
    cases h'
    refine ⟨hn.inv, ?_⟩
    unfold Connection.pollNext at h1
    cases hl : c.rd.loop c.sock.incoming [] with
    | error e => rw [hl] at h1; cases h1
    | ok x =>
      rw [hl] at h1
      cases h1
      exact loop_bounded _ hk hb hq hl
  | .pollReady cx =>
    cases h
    rcases ready_cases c cx with ⟨_, h⟩ | ⟨_, h⟩
    · rw [h]; exact flush cx
    · rw [h]; exact ⟨hk, hb, hq⟩
  | .startSend p =>
    have h' : (c.startSend p >>= fun x => Except.ok (ConnOut.accepted, x)) = .ok (o, c1) := h
    unfold Connection.startSend at h'
    cases he : Codec.encode p c.wbuf with
    | error e => rw [he] at h'; cases h'
    | ok w => rw [he] at h'; cases h'; exact ⟨hk, hb, hq⟩
  | .pollFlush cx => cases h; exact flush cx
  | .pollClose cx => cases h; exact flush cx

/-- **C114** (partial) However a fresh connection is used, if no read of the socket returns more than
`k` bytes, then the read buffer never holds more than `1025 + k` bytes; unless it is stuck (C08).
Missing: the stuck buffers, which grow without bound (`C114_grows`). -/
theorem C114_bounded_partial {k : Nat} {c0 c : Connection} (h0 : c0 = { sock := c0.sock })
    (hi : c0.sock.incoming = []) {ops : List ConnOp} {outs : List ConnOut}
    (hk : ∀ b, .arrive (.data b) ∈ ops → b.length ≤ k) (h : connRun ops c0 = .ok (outs, c)) :
    c.rd.buffer.length ≤ 1025 + k ∨ Stuck c.rd.buffer := by
  have key : ∀ (ops : List ConnOp) {c0 c : Connection} {outs : List ConnOut}, RdOk c0.rd →
      Bounded k c0.rd.buffer → Pieces k c0.sock.incoming →
      (∀ b, .arrive (.data b) ∈ ops → b.length ≤ k) → connRun ops c0 = .ok (outs, c) →
      Bounded k c.rd.buffer := by
    intro ops
    induction ops with
    | nil => intro c0 c outs _ hb _ _ h; cases h; exact hb
    | cons op ops ih =>
      intro c0 c outs h1 h2 h3 h4 h
      obtain ⟨o, c1, os, e1, e2, _⟩ := connRun_cons.mp h
      obtain ⟨g1, g2, g3⟩ := step_bounded h1 h2 h3 (fun b hb => h4 b (by rw [hb]; simp)) e1
      exact ih g1 g2 g3 (fun b hb => h4 b (List.mem_cons_of_mem _ hb)) e2
  have hrd : c0.rd = {} := by rw [h0]
  refine key ops (fresh_ok hrd) ?_ ?_ hk h
  · rw [hrd]; exact .inl (by simp)
  · rw [hi]; intro b hb; cases hb

/-- The network delivers some bytes, and the connection is polled. -/
def feed (cx : Cx) (m : Bytes) : List ConnOp := [.arrive (.data m), .pollNext cx]

theorem connRun_append (a : List ConnOp) : ∀ {b : List ConnOp} {c c1 c2 : Connection}
    {o1 o2 : List ConnOut}, connRun a c = .ok (o1, c1) → connRun b c1 = .ok (o2, c2) →
    connRun (a ++ b) c = .ok (o1 ++ o2, c2) := by
  induction a with
  | nil => intro b c c1 c2 o1 o2 h h'; cases h; exact h'
  | cons op a ih =>
    intro b c c1 c2 o1 o2 h h'
    obtain ⟨o, c', os, e1, e2, e3⟩ := connRun_cons.mp h
    subst e3
    exact connRun_cons.mpr ⟨o, c', _, e1, ih e2 h', rfl⟩

/-- A buffer from which nothing can be decoded grows by what is read. -/
theorem feed_dry {c : Connection} {b m : Bytes} (cx : Cx) (hr : c.rd = { buffer := b })
    (hi : c.sock.incoming = []) (hm : m ≠ []) (hd : Dry (b ++ m)) :
    ∃ w c', connRun (feed cx m) c = .ok ([.env w, .next .pending], c') ∧
      c'.rd = { buffer := b ++ m } ∧ c'.sock.incoming = [] := by
  have hl : m.length ≠ 0 := fun h => hm (List.eq_nil_of_length_eq_zero h)
  have h1 : ReadFrame.loop [.data m] [] { buffer := b } =
      .ok ⟨.pending, { buffer := b ++ m }, [], [] ++ m⟩ := by
    unfold ReadFrame.loop
    show (if m.length = 0 then _ else _) = _
    rw [if_neg hl]
    unfold ReadFrame.loop
    unfold ReadFrame.attempt Codec.decode
    rw [if_neg Bool.false_ne_true, if_pos rfl, if_neg Bool.false_ne_true]
    dsimp only
    unfold Dry at hd
    rw [hd]
    rfl
  obtain ⟨sock, rd, wbuf⟩ := c
  dsimp only at hr hi
  subst hr
  have h2 : ∃ c', Connection.pollNext
      (Connection.arrive ⟨sock, { buffer := b }, wbuf⟩ (.data m)).2 cx = .ok (.pending, c') ∧
      c'.rd = { buffer := b ++ m } ∧ c'.sock.incoming = [] := by
    unfold Connection.pollNext Connection.arrive
    dsimp only
    rw [hi, List.nil_append, h1]
    exact ⟨_, rfl, rfl, rfl⟩
  obtain ⟨c', h2, h3, h4⟩ := h2
  refine ⟨_, c', connRun_cons.mpr ⟨_, _, _, rfl, connRun_cons.mpr ⟨_, _, _, ?_, rfl, rfl⟩, rfl⟩,
    h3, h4⟩
  show (Connection.pollNext _ cx >>= _) = _
  rw [h2]
  rfl

/-- **C114 is false of the code**: after some 1023 bytes, whatever comes next and in whatever pieces,
all of it is kept in the read buffer, and nothing is returned. -/
theorem C114_grows : ∃ src : Bytes, src.length = 1023 ∧ ∀ {c0 : Connection},
    c0 = { sock := c0.sock } → c0.sock.incoming = [] → ∀ (cx : Cx) (ms : List Bytes),
    (∀ m ∈ ms, m ≠ []) → ∃ outs c, connRun ((src :: ms).flatMap (feed cx)) c0 = .ok (outs, c) ∧
      yielded outs = [] ∧ c.rd.buffer = src ++ ms.flatten := by
  obtain ⟨src, hl, hs⟩ := C08_stalls_forever
  refine ⟨src, hl, ?_⟩
  intro c0 h0 hi cx ms hm
  have key : ∀ (ms : List Bytes) {c : Connection} {more : Bytes}, (∀ m ∈ ms, m ≠ []) →
      c.rd = { buffer := src ++ more } → c.sock.incoming = [] →
      ∃ outs c', connRun (ms.flatMap (feed cx)) c = .ok (outs, c') ∧ yielded outs = [] ∧
        c'.rd.buffer = src ++ more ++ ms.flatten := by
    intro ms
    induction ms with
    | nil =>
      intro c more _ hr hi
      exact ⟨[], c, rfl, rfl, by rw [hr]; simp⟩
    | cons m ms ih =>
      intro c more hm hr hi
      obtain ⟨w, c1, e1, e2, e3⟩ := feed_dry cx hr hi (hm m (List.mem_cons_self ..))
        (by rw [List.append_assoc]; exact hs _)
      rw [List.append_assoc] at e2
      obtain ⟨outs, c2, g1, g2, g3⟩ := ih (fun x hx => hm x (List.mem_cons_of_mem _ hx)) e2 e3
      refine ⟨_, c2, connRun_append _ e1 g1, ?_, ?_⟩
      · simpa [yielded] using g2
      · rw [g3]; simp
  obtain ⟨w, c1, e1, e2, e3⟩ := feed_dry (c := c0) (b := []) cx (by rw [h0]) hi
    (m := src) (by intro h; rw [h] at hl; cases hl) (by have := hs []; rwa [List.append_nil] at this)
  obtain ⟨outs, c2, g1, g2, g3⟩ := key ms hm (c := c1) (more := []) (by rw [e2]; simp) e3
  refine ⟨_, c2, connRun_append _ e1 g1, ?_, ?_⟩
  · simpa [yielded] using g2
  · rw [g3]; simp

/-- **C114 is false of the code**: there is no bound on the read buffer, even if no read returns more
than 1023 bytes. -/
theorem C114_false : ¬ ∃ n, ∀ {ops : List ConnOp} {outs : List ConnOut} {c : Connection},
    (∀ b, .arrive (.data b) ∈ ops → b.length ≤ 1023) → connRun ops {} = .ok (outs, c) →
    c.rd.buffer.length ≤ n := by
  rintro ⟨n, h⟩
  obtain ⟨src, hl, hs⟩ := C114_grows
  obtain ⟨outs, c, h1, _, h2⟩ := hs (c0 := {}) rfl rfl ⟨1, 0, 0⟩ (List.replicate n [0]) (by
    intro m hm
    rw [(List.mem_replicate.mp hm).2]
    simp)
  have := h (fun b hb => by
    obtain ⟨m, hm, hb⟩ := List.mem_flatMap.mp hb
    have hb : b = m := by
      unfold feed at hb
      simpa using hb
    subst hb
    rcases List.mem_cons.mp hm with hm | hm
    · rw [hm, hl]; exact Nat.le_refl _
    · rw [(List.mem_replicate.mp hm).2]; simp) h1
  rw [h2, List.length_append, hl] at this
  have hf : (List.replicate n ([0] : Bytes)).flatten.length = n := by simp
  omega

/-- Non-vacuity: a connection that holds the beginning of a packet. -/
example : ∃ r, connRun (feed ⟨1, 0, 0⟩ (bs "16XK")) {} = .ok r ∧
    decide (r.2.rd.buffer = bs "16XK") = true := of_holds (by decide +kernel)

end Elk.Props
