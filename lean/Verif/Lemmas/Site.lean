import Verif.Props.InitLoop
import Verif.Spec.Site
/-!
# Lemmas about `connect` together with a panel
-/

namespace Elk
open Spec Props

/-! ## Reading from a line that stays up -/

/-- The answers of a socket that hands over data. -/
def OnlyData (q : List ReadItem) : Prop := ∀ r ∈ q, ∃ b, r = .data b ∧ b ≠ []

/-- The read side of a connection that stays up. -/
structure Sound (f : ReadFrame) : Prop where
  eof : f.eof = false
  ok : f.hasErrored = false

theorem loop_data (q : List ReadItem) : ∀ (got : Bytes) (f : ReadFrame) (o : ReadOut),
    Sound f → OnlyData q → f.loop q got = .ok o →
    Sound o.rd ∧ OnlyData o.incoming ∧ (o.res = .pending ∨ ∃ p, o.res = .ready (some (.ok p))) := by
  induction q with
  | nil =>
    intro got f o hf _ h
    obtain ⟨x, hx, hc⟩ := attempt_cases f
    unfold ReadFrame.loop at h
    rw [hx] at h
    cases hc with
    | errored he => rw [hf.ok] at he; cases he
    | packet p rest _ _ _ => cases h; exact ⟨⟨hf.eof, hf.ok⟩, (fun _ h => by cases h), .inr ⟨p, rfl⟩⟩
    | atEnd _ _ he _ => rw [hf.eof] at he; cases he
    | leftover _ _ he _ _ => rw [hf.eof] at he; cases he
    | more _ _ _ _ => cases h; exact ⟨⟨hf.eof, hf.ok⟩, (fun _ h => by cases h), .inl rfl⟩
    | idle _ _ => cases h; exact ⟨hf, (fun _ h => by cases h), .inl rfl⟩
  | cons r q ih =>
    intro got f o hf hq h
    obtain ⟨b, rfl, hb⟩ := hq r (List.mem_cons_self ..)
    have hq' : OnlyData q := fun r hr => hq r (List.mem_cons_of_mem _ hr)
    have hb' : b.length ≠ 0 := fun h => hb (List.length_eq_zero_iff.mp h)
    obtain ⟨x, hx, hc⟩ := attempt_cases f
    unfold ReadFrame.loop at h
    rw [hx] at h
    cases hc with
    | errored he => rw [hf.ok] at he; cases he
    | packet p rest _ _ _ => cases h; exact ⟨⟨hf.eof, hf.ok⟩, hq, .inr ⟨p, rfl⟩⟩
    | atEnd _ _ he _ => rw [hf.eof] at he; cases he
    | leftover _ _ he _ _ => rw [hf.eof] at he; cases he
    | more _ _ _ _ =>
      dsimp only at h
      rw [if_neg hb'] at h
      refine ih _ _ o ?_ hq' h
      exact ⟨rfl, hf.ok⟩
    | idle _ _ =>
      dsimp only at h
      rw [if_neg hb'] at h
      refine ih _ _ o ?_ hq' h
      exact ⟨rfl, hf.ok⟩

theorem next_data {c c' : Connection} {cx : Cx} {r : Poll Item} (hf : Sound c.rd)
    (hq : OnlyData c.sock.incoming) (h : c.pollNext cx = .ok (r, c')) :
    Sound c'.rd ∧ OnlyData c'.sock.incoming ∧ (r = .pending ∨ ∃ p, r = .ready (some (.ok p))) := by
  unfold Connection.pollNext at h
  cases ho : c.rd.loop c.sock.incoming [] with
  | error e => rw [ho] at h; cases h
  | ok o =>
    rw [ho] at h
    cases h
    exact loop_data _ _ _ _ hf hq ho

theorem frame_length (m : Message) : 6 ≤ (frame m).length := by
  unfold frame
  rw [asciiFrame_length]
  omega

theorem decode_frame {m : Message} (h : WfMessage m) (t : Bytes) :
    Packet.decode (frame m ++ t) = .ok (some (.ascii ⟨sentText m⟩), t) :=
  decode_wire (p := .ascii ⟨sentText m⟩) (sentText_valid h) t

theorem sent_inj {m m' : Message} (h : WfMessage m) (h' : WfMessage m')
    (e : sentText m = sentText m') : m = m' := by
  have h1 := parse_sent h
  rw [e, parse_sent h'] at h1
  cases h1
  rfl

/-- A stream of frames, read in part. -/
theorem read_frames {c c' : Connection} {cx : Cx} {pkt : Packet} {new line : Bytes}
    {msgs : List Message} (hs : NextSpec c cx (.ready (some (.ok pkt))) c' new)
    (hm : ∀ m ∈ msgs, WfMessage m)
    (hb : c.rd.buffer ++ dataOf c.sock.incoming ++ line = msgs.flatMap frame) :
    ∃ m t, msgs = m :: t ∧ pkt = .ascii ⟨sentText m⟩ ∧
      c'.rd.buffer ++ dataOf c'.sock.incoming ++ line = t.flatMap frame := by
  have h1 := decode_mono (hs.packet pkt rfl) (dataOf c'.sock.incoming ++ line)
  rw [hs.data] at hb
  have hb' : c.rd.buffer ++ new ++ (dataOf c'.sock.incoming ++ line) = msgs.flatMap frame := by
    rw [← hb]; simp
  rw [hb'] at h1
  cases msgs with
  | nil => cases h1
  | cons m t =>
    rw [List.flatMap_cons, decode_frame (hm m (List.mem_cons_self ..))] at h1
    simp only [Except.ok.injEq, Prod.mk.injEq, Option.some.injEq] at h1
    exact ⟨m, t, rfl, h1.1.symm, by rw [h1.2]; simp⟩

/-- Nothing is returned only if no whole frame has arrived. -/
theorem wait_frames {c c' : Connection} {cx : Cx} {new line : Bytes} {m : Message}
    {t : List Message} (hs : NextSpec c cx .pending c' new) (hq : OnlyData c.sock.incoming)
    (hm : WfMessage m)
    (hb : c.rd.buffer ++ dataOf c.sock.incoming ++ line = (m :: t).flatMap frame) :
    c'.rd.buffer ++ dataOf c'.sock.incoming = c.rd.buffer ++ dataOf c.sock.incoming ∧
    (c.rd.buffer ++ dataOf c.sock.incoming).length < (frame m).length := by
  have hno : .blocked ∉ c.sock.incoming := by
    intro h
    obtain ⟨b, h, _⟩ := hq _ h
    cases h
  have he := hs.drained rfl hno
  have hbuf := hs.other (fun p h => by cases h)
  have hd := hs.data
  rw [he, show dataOf [] = [] from rfl, List.append_nil] at hd
  have e : c'.rd.buffer = c.rd.buffer ++ dataOf c.sock.incoming := by rw [hbuf, hd]
  refine ⟨by rw [he, e]; exact List.append_nil _, Nat.lt_of_not_le fun hle => ?_⟩
  have hdry := (hs.pend rfl).1
  rw [e] at hdry
  rw [List.flatMap_cons] at hb
  obtain ⟨u, hu, _⟩ : ∃ u, c.rd.buffer ++ dataOf c.sock.incoming = frame m ++ u ∧
      u ++ line = t.flatMap frame := by
    obtain ⟨u, hu⟩ | ⟨u, hu⟩ := List.append_eq_append_iff.mp hb
    · obtain ⟨h1, h2⟩ := hu
      have : u = [] := by
        have := congrArg List.length h1
        rw [List.length_append] at this
        exact List.length_eq_zero_iff.mp (by omega)
      subst this
      exact ⟨[], by rw [h1]; simp, by rw [h2]; rfl⟩
    · exact ⟨u, hu.1, hu.2.symm⟩
  rw [hu] at hdry
  unfold Dry at hdry
  rw [decode_frame hm] at hdry
  cases hdry

/-! ## Writing to a socket that takes bytes -/

/-- The answers of a socket that takes bytes. -/
def OnlyTakes (q : List WriteItem) : Prop := ∀ w ∈ q, ∃ n, w = .accept (n + 1)

theorem flush_takes (q : List WriteItem) : ∀ (buf sent : Bytes), OnlyTakes q →
    OnlyTakes (flushLoop q buf sent).writes ∧
    ((flushLoop q buf sent).res = .ready (.ok ()) ∨
      ((flushLoop q buf sent).res = .pending ∧ (flushLoop q buf sent).writes = [] ∧
        (flushLoop q buf sent).wbuf.length ≤ buf.length ∧
        (q ≠ [] → (flushLoop q buf sent).wbuf.length < buf.length))) := by
  induction q with
  | nil =>
    intro buf sent hq
    unfold flushLoop
    split
    · exact ⟨hq, .inl rfl⟩
    · exact ⟨hq, .inr ⟨rfl, rfl, Nat.le_refl _, fun h => absurd rfl h⟩⟩
  | cons w q ih =>
    intro buf sent hq
    obtain ⟨n, rfl⟩ := hq w (List.mem_cons_self ..)
    have hq' : OnlyTakes q := fun w hw => hq w (List.mem_cons_of_mem _ hw)
    unfold flushLoop
    split
    · exact ⟨hq, .inl rfl⟩
    · rename_i hb
      dsimp only
      rw [if_neg (by omega)]
      obtain ⟨h1, h2⟩ := ih (buf.drop (min (n + 1) buf.length))
        (sent ++ buf.take (min (n + 1) buf.length)) hq'
      refine ⟨h1, h2.imp id fun ⟨g1, g2, g3, _⟩ => ⟨g1, g2, ?_, fun _ => ?_⟩⟩
      · rw [List.length_drop] at g3; omega
      · rw [List.length_drop] at g3; omega

theorem connFlush_takes {c : Connection} (cx : Cx) (h : OnlyTakes c.sock.writes) :
    OnlyTakes (c.pollFlush cx).2.sock.writes ∧
    ((c.pollFlush cx).1 = .ready (.ok ()) ∨
      ((c.pollFlush cx).1 = .pending ∧ (c.pollFlush cx).2.sock.writes = [] ∧
        (c.pollFlush cx).2.wbuf.length ≤ c.wbuf.length ∧
        (c.sock.writes ≠ [] → (c.pollFlush cx).2.wbuf.length < c.wbuf.length))) :=
  flush_takes _ _ _ h

/-! ## Requests -/

theorem question_wf {q : Message} (h : IsQuestion q) : WfMessage q := by
  cases q <;> first | exact True.intro | cases h

theorem question_mem {q : Message} (h : IsQuestion q) : q ∈ allQuestions := by
  match q, h with
  | .armingStatusRequest, _ => simp [allQuestions]
  | .zoneStatusRequest, _ => simp [allQuestions]
  | .stringDescriptionRequest q, ⟨h1, h2⟩ =>
    have : describe q.ty q.num.toNat ∈ (List.range' 1 (entries q.ty)).map (describe q.ty) :=
      List.mem_map_of_mem (List.mem_range'_1.mpr ⟨h1, by omega⟩)
    rw [describe_num] at this
    unfold allQuestions
    obtain ⟨ty, n⟩ := q
    cases ty <;> first
      | (have h2 : n.toNat ≤ 0 := h2; have h1 : 1 ≤ n.toNat := h1; omega)
      | (simp only [List.mem_append]; simp [entries] at this; simp [this])

theorem mem_question {q : Message} (h : q ∈ allQuestions) : IsQuestion q := by
  have key : ∀ ty k, k = entries ty → q ∈ (List.range' 1 k).map (describe ty) → IsQuestion q := by
    intro ty k hk h
    obtain ⟨n, hn, rfl⟩ := List.mem_map.mp h
    have := List.mem_range'_1.mp hn
    have hs := entries_small ty
    have e : (UInt8.ofNat n).toNat = n := by simp; omega
    show 1 ≤ (UInt8.ofNat n).toNat ∧ (UInt8.ofNat n).toNat ≤ entries ty
    omega
  unfold allQuestions at h
  rcases List.mem_append.mp h with h | h
  · rcases List.mem_append.mp h with h | h
    · rcases List.mem_append.mp h with h | h
      · simp at h
        rcases h with rfl | rfl <;> exact True.intro
      · exact key .area 8 rfl h
    · exact key .task 32 rfl h
  · exact key .zone 208 rfl h

/-- The panel takes the requests in order, each once it is complete. -/
theorem nextRequest_some {got rest : Bytes} {reqs : List Message} {q : Message}
    (hr : ∀ q ∈ reqs, IsQuestion q) (hb : got ++ rest = reqs.flatMap frame)
    (h : nextRequest got = some q) :
    ∃ t, reqs = q :: t ∧ got.drop (frame q).length ++ rest = t.flatMap frame ∧
      (frame q).length ≤ got.length := by
  have hq := mem_question (List.mem_of_find?_eq_some h)
  have hp := List.find?_some h
  rw [List.isPrefixOf_iff_prefix] at hp
  obtain ⟨u, rfl⟩ := hp
  rw [List.append_assoc] at hb
  cases reqs with
  | nil =>
    have := congrArg List.length hb
    have h6 := frame_length q
    rw [List.length_append, List.flatMap_nil, List.length_nil] at this
    omega
  | cons q' t =>
    have h1 := decode_frame (question_wf hq) (u ++ rest)
    rw [hb, List.flatMap_cons, decode_frame (question_wf (hr q' (List.mem_cons_self ..)))] at h1
    simp only [Except.ok.injEq, Prod.mk.injEq, Option.some.injEq, Packet.ascii.injEq,
      AsciiPacket.mk.injEq] at h1
    have e := sent_inj (question_wf (hr q' (List.mem_cons_self ..))) (question_wf hq) h1.1
    subst e
    exact ⟨t, rfl, by rw [List.drop_left]; exact h1.2.symm, by rw [List.length_append]; omega⟩

theorem nextRequest_found {got : Bytes} {q : Message} {t : List Message}
    (hq : IsQuestion q) (hb : got = (q :: t).flatMap frame) : ∃ q', nextRequest got = some q' := by
  have : (nextRequest got).isSome = true := by
    unfold nextRequest
    rw [List.find?_isSome]
    refine ⟨q, question_mem hq, ?_⟩
    rw [List.isPrefixOf_iff_prefix, hb, List.flatMap_cons]
    exact List.prefix_append _ _
  exact Option.isSome_iff_exists.mp this

end Elk
