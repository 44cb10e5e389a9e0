import Verif.Props.Sink
/-!
# Properties of reading the stream (C45, C46, C62)
-/

namespace Elk.Props
open Elk.Spec

/-! ## C45: events mirror the byte stream -/

theorem steps_append {a t : Bytes} {ps mid qs left} (h : Steps a ps mid)
    (h' : Steps (mid ++ t) qs left) : Steps (a ++ t) (ps ++ qs) left := by
  induction h with
  | nil => exact h'
  | cons h _ ih => exact .cons (decode_mono h t) (ih h')

theorem steps_drains {a : Bytes} {ps mid} (h : Steps a ps mid) (hd : Dry mid) : Drains a ps mid := by
  induction h with
  | nil => exact .stop hd
  | cons h _ ih => exact .step h (ih hd)

/-- The packet of an operation's event. -/
def packetOf (o : Out) : Option Packet := (eventOf o).bind (·.pkt)

theorem packets_cons (o : Out) (os : List Out) :
    packets (o :: os) = (packetOf o).toList ++ packets os := by
  unfold packets
  rw [events_cons, List.filterMap_append]
  congr 1
  unfold packetOf
  cases eventOf o with
  | none => rfl
  | some e =>
    show List.filterMap _ [e] = (e.pkt).toList
    rw [List.filterMap_cons]
    cases e.pkt <;> rfl

theorem arrived_cons (op : Op) (ops : List Op) :
    arrived (op :: ops) = arrived [op] ++ arrived ops := by
  unfold arrived
  rw [← List.filterMap_append]
  rfl

theorem dataBytes_append (a b : List ReadItem) : dataBytes (a ++ b) = dataBytes a ++ dataBytes b :=
  List.flatMap_append ..

/-- What a step does to the read side. -/
structure ReadStep (p p1 : Panel) (op : Op) (o : Out) (new : Bytes) : Prop where
  received : p1.conn.sock.received = p.conn.sock.received ++ new
  data : dataBytes (p.conn.sock.incoming ++ arrived [op]) = new ++ dataBytes p1.conn.sock.incoming
  steps : Steps (p.conn.rd.buffer ++ new) (packetOf o).toList p1.conn.rd.buffer

theorem read_flush {p p1 : Panel} {cx r} (h : FlushCase p cx (r, p1)) :
    p1.conn.sock.received = p.conn.sock.received ∧
    p1.conn.sock.incoming = p.conn.sock.incoming ∧ p1.conn.rd = p.conn.rd := by
  cases h with
  | nothing _ => exact ⟨rfl, rfl, rfl⟩
  | flushed _ _ _ _ hs => exact ⟨hs.received, hs.incoming, hs.rd⟩
  | blocked _ _ _ _ hs => exact ⟨hs.received, hs.incoming, hs.rd⟩
  | failed _ _ _ _ _ hs => exact ⟨hs.received, hs.incoming, hs.rd⟩

theorem read_quiet {p p1 : Panel} {op o} (h1 : p1.conn.sock.received = p.conn.sock.received)
    (h2 : p1.conn.sock.incoming = p.conn.sock.incoming) (h3 : p1.conn.rd = p.conn.rd)
    (h4 : arrived [op] = []) (h5 : packetOf o = none) : ReadStep p p1 op o [] := by
  refine ⟨by rw [h1, List.append_nil], by rw [h4, h2, List.append_nil]; rfl, ?_⟩
  rw [h3, h5, List.append_nil]
  exact .nil

theorem read_step {p p1 : Panel} {op o} (hs : StepCase p op (o, p1)) :
    ∃ new, ReadStep p p1 op o new := by
  cases hs with
  | arrive r =>
    refine ⟨[], by simp, by simp [arrived], ?_⟩
    simp only [List.append_nil]
    exact .nil
  | writable r => exact ⟨[], read_quiet rfl rfl rfl rfl rfl⟩
  | next cx new r w _ hn =>
    refine ⟨new, ?_⟩
    have other : ∀ {r : Poll Item} {c : Connection} {p2 : Panel} {o : Out},
        NextSpec p.conn cx r c new → (∀ q, r ≠ .ready (some (.ok q))) → p2.conn = c →
        packetOf o = none → ReadStep p p2 (.pollNext cx) o new := by
      intro r c p2 o hs hr hc ho
      refine ⟨by rw [hc]; exact hs.received, ?_, ?_⟩
      · rw [hc]
        have := hs.data
        rw [dataOf_eq, dataOf_eq] at this
        simpa [arrived] using this
      · rw [ho, hc, hs.other hr]
        exact .nil
    cases hn with
    | error e c hs => exact other hs (by intro q h; cases h) rfl rfl
    | ended c hs => exact other hs (by intro q h; cases h) rfl rfl
    | packet pkt c ev w _ hs hi =>
      have hc := (interp_keeps hi).1
      have hp : ev.pkt = some pkt := by cases hi <;> rfl
      refine ⟨by rw [hc]; exact hs.received, ?_, ?_⟩
      · rw [hc]
        have := hs.data
        rw [dataOf_eq, dataOf_eq] at this
        simpa [arrived] using this
      · rw [hc]
        have : packetOf (.next (.ready (some (.ok ev))) w) = some pkt := hp
        rw [this]
        exact .cons (hs.packet pkt rfl) .nil
    | idle c hs _ => exact other hs (by intro q h; cases h) rfl rfl
    | wait c pa hs _ _ => exact other hs (by intro q h; cases h) rfl rfl
    | fire c pa prior hs _ _ _ => exact other hs (by intro q h; cases h) rfl rfl
  | ready cx r _ hr =>
    refine ⟨[], ?_⟩
    cases hr with
    | idle _ => exact read_quiet rfl rfl rfl rfl rfl
    | wait _ _ _ => exact read_quiet rfl rfl rfl rfl rfl
    | flushed _ _ _ _ hs => exact read_quiet hs.received hs.incoming hs.rd rfl rfl
    | blocked _ _ _ _ hs => exact read_quiet hs.received hs.incoming hs.rd rfl rfl
    | failed _ _ _ _ _ hs => exact read_quiet hs.received hs.incoming hs.rd rfl rfl
  | send _ _ _ _ _ _ => exact ⟨[], read_quiet rfl rfl rfl rfl rfl⟩
  | flush cx r _ hf =>
    obtain ⟨h1, h2, h3⟩ := read_flush hf
    exact ⟨[], read_quiet h1 h2 h3 rfl rfl⟩
  | close cx r _ hc =>
    refine ⟨[], ?_⟩
    cases hc with
    | flushed q r c hf hs =>
      obtain ⟨h1, h2, h3⟩ := read_flush hf
      exact read_quiet (hs.received.trans h1) (hs.incoming.trans h2) (hs.rd.trans h3) rfl rfl
    | stuck r _ _ hf =>
      obtain ⟨h1, h2, h3⟩ := read_flush hf
      exact read_quiet h1 h2 h3 rfl rfl

theorem read_hist {p p' : Panel} {ops outs} (h : Hist p ops outs p') :
    ∃ bytes, p'.conn.sock.received = p.conn.sock.received ++ bytes ∧
      dataBytes (p.conn.sock.incoming ++ arrived ops) =
        bytes ++ dataBytes p'.conn.sock.incoming ∧
      Steps (p.conn.rd.buffer ++ bytes) (packets outs) p'.conn.rd.buffer := by
  induction h with
  | nil _ => exact ⟨[], by simp, by simp [arrived], by rw [List.append_nil]; exact .nil⟩
  | @cons p op o p1 ops os p2 _ hs _ ih =>
    obtain ⟨new, hr⟩ := read_step hs
    obtain ⟨bytes, h1, h2, h3⟩ := ih
    refine ⟨new ++ bytes, ?_, ?_, ?_⟩
    · rw [h1, hr.received, List.append_assoc]
    · rw [arrived_cons, ← List.append_assoc, dataBytes_append, hr.data, List.append_assoc,
        ← dataBytes_append, h2, List.append_assoc]
    · rw [packets_cons, ← List.append_assoc]
      exact steps_append hr.steps h3

/-- **C45** The packets of the events are, in order and each once, the packets obtained by decoding
the bytes read from the socket (after what was already in the buffer), with what is not decoded yet
still in the buffer; and the bytes read are, in order, those that arrived.  Whenever the stream is
polled and there is nothing to return, all complete packets read have been returned. -/
theorem C45_mirror {p0 p : Panel} (hc : Connected p0) {ops : List Op} {outs : List Out}
    (hr : Panel.run ops p0 = .ok (outs, p)) :
    ∃ bytes, p.conn.sock.received = p0.conn.sock.received ++ bytes ∧
      bytes <+: dataBytes (p0.conn.sock.incoming ++ arrived ops) ∧
      Steps (p0.conn.rd.buffer ++ bytes) (packets outs) p.conn.rd.buffer ∧
      ∀ cx w p', p.step (.pollNext cx) = .ok (.next .pending w, p') →
        ∃ more, bytes ++ more <+: dataBytes (p0.conn.sock.incoming ++ arrived ops) ∧
          Drains (p0.conn.rd.buffer ++ (bytes ++ more)) (packets outs) p'.conn.rd.buffer ∧
          (.blocked ∉ p.conn.sock.incoming →
            bytes ++ more = dataBytes (p0.conn.sock.incoming ++ arrived ops)) := by
  have hh := hist_of_run (connected_good hc) hr
  obtain ⟨bytes, h1, h2, h3⟩ := read_hist hh
  refine ⟨bytes, h1, ⟨_, h2.symm⟩, h3, ?_⟩
  intro cx w p' hs
  have hsc := step_cases hh.good.sane hs
  cases hsc with
  | next _ new _ _ _ hn =>
    have fin : ∀ {c : Connection}, NextSpec p.conn cx .pending c new →
        ∃ more, bytes ++ more <+: dataBytes (p0.conn.sock.incoming ++ arrived ops) ∧
          Drains (p0.conn.rd.buffer ++ (bytes ++ more)) (packets outs) c.rd.buffer ∧
          (.blocked ∉ p.conn.sock.incoming →
            bytes ++ more = dataBytes (p0.conn.sock.incoming ++ arrived ops)) := by
      intro c hs
      have hd := hs.data
      rw [dataOf_eq, dataOf_eq] at hd
      refine ⟨new, ⟨dataBytes c.sock.incoming, ?_⟩, ?_, ?_⟩
      · rw [h2, hd, List.append_assoc]
      · refine steps_drains ?_ (hs.pend rfl).1
        have hb := hs.other (by intro q h; cases h)
        rw [hb, ← List.append_assoc]
        have := steps_append (t := new) (qs := []) h3 .nil
        rwa [List.append_nil] at this
      · intro hb
        have := hs.drained rfl hb
        rw [h2, hd, this]
        simp [dataBytes]
    cases hn with
    | idle c hn _ => exact fin hn
    | wait c pa hn _ _ => exact fin hn

/-- Non-vacuity: a packet that arrives in two pieces, and the start of another. -/
example : ∃ r, Panel.run [.pollNext ⟨1, 0, 0⟩, .arrive (.data (sampleReply.drop 4 ++ [48, 54])),
        .pollNext ⟨1, 0, 0⟩, .pollNext ⟨1, 0, 0⟩]
      (samplePanel [.data (sampleReply.take 4)]) = .ok r ∧
    decide ((packets r.1).length = 1 ∧ r.2.conn.rd.buffer = [48, 54]) = true :=
  of_holds (by decide +kernel)

/-! ## C46: end of stream -/

/-- Before the end: the answers queued are some data, then the end. -/
def Before (f : ReadFrame) (q : List ReadItem) (ps : List Packet) (left : Bytes) : Prop :=
  RdOk f ∧ f.hasErrored = false ∧ f.eof = false ∧ ∃ (bs : List Bytes) (q' : List ReadItem),
    q = bs.map ReadItem.data ++ .eof :: q' ∧
    (∀ b ∈ bs, b ≠ []) ∧ Drains (f.buffer ++ bs.flatten) ps left

/-- After the error about left-over bytes. -/
def Failed (f : ReadFrame) (q : List ReadItem) : Prop :=
  f.hasErrored = true ∧ f.eof = true ∧ ∃ q', q = .eof :: q'

/-- After the end. -/
def Ended (f : ReadFrame) (q : List ReadItem) : Prop :=
  f.hasErrored = false ∧ f.eof = true ∧ f.isReadable = false ∧ ∃ q', q = .eof :: q'

theorem drains_det {a : Bytes} {ps left} (h : Drains a ps left) {p : Packet} {rest}
    (hd : Packet.decode a = .ok (some p, rest)) : ∃ ps', ps = p :: ps' ∧ Drains rest ps' left := by
  cases h with
  | stop h => rw [h] at hd; cases hd
  | step h hr =>
    rw [h] at hd
    cases hd
    exact ⟨_, rfl, hr⟩

theorem drains_dry {a : Bytes} {ps left} (h : Drains a ps left) (hd : Dry a) :
    ps = [] ∧ left = a := by
  cases h with
  | stop h =>
    rw [hd] at h
    cases h
    exact ⟨rfl, rfl⟩
  | step h hr => rw [hd] at h; cases h

/-- The cases of a read before the end. -/
def BeforeOut (ps : List Packet) (left : Bytes) (o : ReadOut) : Prop :=
  (∃ p ps', ps = p :: ps' ∧ o.res = .ready (some (.ok p)) ∧ Before o.rd o.incoming ps' left) ∨
  (ps = [] ∧ left ≠ [] ∧ o.res = .ready (some (.error .bytesRemaining)) ∧
    Failed o.rd o.incoming) ∨
  (ps = [] ∧ left = [] ∧ o.res = .ready none ∧ Ended o.rd o.incoming)

theorem atEof_before {f : ReadFrame} (q : List ReadItem) (got : Bytes) (he : f.hasErrored = false)
    (hf : f.eof = false) (hd : Dry f.buffer) :
    ∃ o, f.atEof (.eof :: q) got = .ok o ∧ BeforeOut [] f.buffer o := by
  unfold ReadFrame.atEof
  rw [if_neg (by simp [hf])]
  rcases pausing_cases { f with eof := true, isReadable := true } with ⟨p, rest, h, hp⟩ |
    ⟨h, hp⟩ | ⟨h, hb, hp⟩
  · have : Packet.decode f.buffer = .ok (some p, rest) := h
    rw [hd] at this
    cases this
  · rw [hp]
    exact ⟨_, rfl, .inr (.inr ⟨rfl, h, rfl, he, rfl, rfl, q, rfl⟩)⟩
  · rw [hp]
    exact ⟨_, rfl, .inr (.inl ⟨rfl, hb, rfl, rfl, rfl, q, rfl⟩)⟩

theorem loop_before (bs : List Bytes) (q : List ReadItem) : ∀ (got : Bytes) (f : ReadFrame)
    (ps : List Packet) (left : Bytes), RdOk f → f.hasErrored = false → f.eof = false →
    (∀ b ∈ bs, b ≠ []) → Drains (f.buffer ++ bs.flatten) ps left →
    ∃ o, f.loop (bs.map ReadItem.data ++ .eof :: q) got = .ok o ∧ BeforeOut ps left o := by
  induction bs with
  | nil =>
    intro got f ps left hok he hf hne hd
    rw [List.flatten_nil, List.append_nil] at hd
    obtain ⟨x, hx, hc⟩ := attempt_cases f
    unfold ReadFrame.loop
    rw [hx]
    cases hc with
    | errored h => rw [he] at h; cases h
    | packet p rest _ hr hp =>
      obtain ⟨ps', rfl, hd'⟩ := drains_det hd hp
      refine ⟨_, rfl, .inl ⟨p, ps', rfl, rfl, ?_, he, hf, [], q, rfl, by simp, by simpa using hd'⟩⟩
      intro h; simp [hr, he] at h
    | atEnd _ _ h _ => rw [hf] at h; cases h
    | leftover _ _ h _ _ => rw [hf] at h; cases h
    | more _ _ _ hdry =>
      obtain ⟨rfl, rfl⟩ := drains_dry hd hdry
      exact atEof_before (f := { f with isReadable := false }) q got he hf hdry
    | idle _ hr =>
      have hdry := hok (.inl hr)
      obtain ⟨rfl, rfl⟩ := drains_dry hd hdry
      exact atEof_before q got he hf hdry
  | cons b bs ih =>
    intro got f ps left hok he hf hne hd
    have go : ∀ g : ReadFrame, g.buffer = f.buffer → g.hasErrored = false →
        ∃ o, ReadFrame.loop (bs.map ReadItem.data ++ .eof :: q) (got ++ b)
          { g with buffer := g.buffer ++ b, eof := false, isReadable := true } = .ok o ∧
          BeforeOut ps left o := by
      intro g hg hge
      refine ih (got ++ b) _ ps left ?_ hge rfl (fun b hb => hne b (List.mem_cons_of_mem _ hb)) ?_
      · intro h; simp [hge] at h
      · simpa [hg] using hd
    have hb : ¬ b.length = 0 := by
      intro h
      exact hne b (List.mem_cons_self ..) (List.length_eq_zero_iff.mp h)
    obtain ⟨x, hx, hc⟩ := attempt_cases f
    rw [List.map_cons, List.cons_append]
    unfold ReadFrame.loop
    rw [hx]
    cases hc with
    | errored h => rw [he] at h; cases h
    | packet p rest _ hr hp =>
      obtain ⟨ps', rfl, hd'⟩ := drains_det hd (decode_mono hp (b :: bs).flatten)
      refine ⟨_, rfl, .inl ⟨p, ps', rfl, rfl, ?_, he, hf, b :: bs, q, by simp, hne, hd'⟩⟩
      intro h; simp [hr, he] at h
    | atEnd _ _ h _ => rw [hf] at h; cases h
    | leftover _ _ h _ _ => rw [hf] at h; cases h
    | more _ _ _ hdry =>
      dsimp only
      rw [if_neg hb]
      exact go { f with isReadable := false } rfl he
    | idle _ hr =>
      dsimp only
      rw [if_neg hb]
      exact go f rfl he

theorem loop_failed {f : ReadFrame} {q : List ReadItem} (h : Failed f q) (got : Bytes) :
    ∃ o, f.loop q got = .ok o ∧ o.res = .ready none ∧ Ended o.rd o.incoming := by
  obtain ⟨h1, h2, q', rfl⟩ := h
  unfold ReadFrame.loop ReadFrame.attempt
  rw [if_pos h1]
  exact ⟨_, rfl, rfl, rfl, h2, rfl, q', rfl⟩

theorem loop_ended {f : ReadFrame} {q : List ReadItem} (h : Ended f q) (got : Bytes) :
    ∃ o, f.loop q got = .ok o ∧ o.res = .ready none ∧ Ended o.rd o.incoming := by
  obtain ⟨h1, h2, h3, q', rfl⟩ := h
  unfold ReadFrame.loop ReadFrame.attempt
  rw [if_neg (by simp [h1]), if_neg (by simp [h3])]
  dsimp only
  unfold ReadFrame.atEof
  rw [if_pos h2]
  exact ⟨_, rfl, rfl, h1, h2, h3, q', rfl⟩

/-- A poll of the panel whose connection has an item returns it. -/
theorem step_item {p p' : Panel} {cx : Cx} {o : Out} {ro : ReadOut} {it : Item}
    (h : p.step (.pollNext cx) = .ok (o, p'))
    (hl : p.conn.rd.loop p.conn.sock.incoming [] = .ok ro) (hr : ro.res = .ready it)
    (hg : Good p) : itemOf o = some it ∧ p'.conn.rd = ro.rd ∧
      p'.conn.sock.incoming = ro.incoming := by
  unfold Panel.step Panel.pollNext at h
  dsimp only at h
  obtain ⟨res, c, new, hcp, hcs⟩ := connNext_spec p.conn cx hg.rd
  have hcq := hcp
  unfold Connection.pollNext at hcq
  rw [hl] at hcq
  simp only [bind_ok, Except.ok.injEq, Prod.mk.injEq] at hcq
  obtain ⟨e1, e2⟩ := hcq
  rw [hr] at e1
  have k1 : c.rd = ro.rd := by rw [← e2]
  have k2 : c.sock.incoming = ro.incoming := by rw [← e2]
  clear e2
  subst e1
  rw [hcp] at h
  simp only [bind_ok] at h
  match it, hcs with
  | none, _ => cases h; exact ⟨rfl, k1, k2⟩
  | some (.error e), _ => cases h; exact ⟨rfl, k1, k2⟩
  | some (.ok pkt), hcs =>
    obtain ⟨⟨ev, w, p2⟩, hi, hic⟩ := interpret_cases { p with conn := c } cx.now pkt
      (parsed_wf (hcs.packet pkt rfl))
    dsimp only at h
    rw [hi] at h
    cases h
    have hc := (interp_keeps hic).1
    have hp : ev.pkt = some pkt := by cases hic <;> rfl
    rw [hc]
    refine ⟨?_, k1, k2⟩
    show ev.pkt.map _ = _
    rw [hp]
    rfl

/-- What polling a stream with packets `ps` and then an end with `left` undecoded returns, in the
first `n` polls. -/
def endItems (ps : List Packet) (left : Bytes) (n : Nat) : List Item :=
  (ps.map (fun p => (some (.ok p) : Item)) ++
    ((if left = [] then [] else [(some (.error .bytesRemaining) : Item)]) ++ List.replicate n none)).take n

theorem endItems_packet (p : Packet) (ps : List Packet) (left : Bytes) (n : Nat) :
    endItems (p :: ps) left (n + 1) = some (.ok p) :: endItems ps left n := by
  unfold endItems
  rw [List.map_cons, List.cons_append, List.take_succ_cons]
  congr 1
  rw [List.replicate_succ', ← List.append_assoc, ← List.append_assoc, ← List.append_assoc,
    List.take_append_of_le_length]
  simp only [List.length_append, List.length_replicate]
  omega

theorem ended_polls (cxs : List Cx) : ∀ {p p' : Panel} {outs : List Out}, Good p →
    Ended p.conn.rd p.conn.sock.incoming → Panel.run (cxs.map .pollNext) p = .ok (outs, p') →
    outs.map itemOf = List.replicate cxs.length (some none) := by
  induction cxs with
  | nil => intro p p' outs _ _ h; cases h; rfl
  | cons cx cxs ih =>
    intro p p' outs hg he h
    obtain ⟨o, p1, os, h1, h2, rfl⟩ := run_cons.mp h
    obtain ⟨ro, hl, hr, he'⟩ := loop_ended he []
    obtain ⟨a, b, c⟩ := step_item h1 hl hr hg
    have := ih (step_good hg (step_cases hg.sane h1)) (by rw [b, c]; exact he') h2
    rw [List.map_cons, a, this, List.length_cons, List.replicate_succ]

theorem before_polls (cxs : List Cx) : ∀ {p p' : Panel} {outs : List Out} {ps left}, Good p →
    Before p.conn.rd p.conn.sock.incoming ps left →
    Panel.run (cxs.map .pollNext) p = .ok (outs, p') →
    outs.map itemOf = (endItems ps left cxs.length).map some := by
  induction cxs with
  | nil => intro p p' outs ps left _ _ h; cases h; simp [endItems]
  | cons cx cxs ih =>
    intro p p' outs ps left hg hb h
    obtain ⟨o, p1, os, h1, h2, rfl⟩ := run_cons.mp h
    have hg1 := step_good hg (step_cases hg.sane h1)
    obtain ⟨hok, he, hf, bs, q, hq, hne, hd⟩ := hb
    obtain ⟨ro, hl, ho⟩ := loop_before bs q [] p.conn.rd ps left hok he hf hne hd
    rw [← hq] at hl
    rcases ho with ⟨pkt, ps', rfl, hr, hb'⟩ | ⟨rfl, hleft, hr, hf'⟩ | ⟨rfl, rfl, hr, he'⟩
    · obtain ⟨a, b, c⟩ := step_item h1 hl hr hg
      have := ih hg1 (by rw [b, c]; exact hb') h2
      rw [List.map_cons, a, this, List.length_cons, endItems_packet, List.map_cons]
    · obtain ⟨a, b, c⟩ := step_item h1 hl hr hg
      have e : endItems [] left (cx :: cxs).length =
          some (.error .bytesRemaining) :: List.replicate cxs.length none := by
        unfold endItems
        rw [if_neg hleft]
        simp only [List.map_nil, List.nil_append, List.length_cons, List.singleton_append,
          List.take_succ_cons, List.take_replicate]
        rw [show min cxs.length (cxs.length + 1) = cxs.length by omega]
      rw [List.map_cons, a, e, List.map_cons]
      congr 1
      cases cxs with
      | nil => cases h2; rfl
      | cons cx2 cxs =>
        obtain ⟨o2, p2, os2, h3, h4, rfl⟩ := run_cons.mp h2
        obtain ⟨ro2, hl2, hr2, he2⟩ := loop_failed (f := p1.conn.rd)
          (q := p1.conn.sock.incoming) (by rw [b, c]; exact hf') []
        obtain ⟨a2, b2, c2⟩ := step_item h3 hl2 hr2 hg1
        have := ended_polls cxs (step_good hg1 (step_cases hg1.sane h3))
          (by rw [b2, c2]; exact he2) h4
        rw [List.map_cons, a2, this, List.length_cons, List.replicate_succ, List.map_cons,
          List.map_replicate]
    · obtain ⟨a, b, c⟩ := step_item h1 hl hr hg
      have := ended_polls cxs hg1 (by rw [b, c]; exact he') h2
      rw [List.map_cons, a, this]
      unfold endItems
      rw [if_pos rfl]
      simp only [List.map_nil, List.nil_append, List.take_replicate, List.map_replicate,
        List.length_cons, Nat.min_self]
      rfl

/-- A connection on which neither an error nor the end of the stream has been reported. -/
structure Live (p : Panel) : Prop where
  eof : p.conn.rd.eof = false
  ok : p.conn.rd.hasErrored = false

/-- **C46** On a live connection with any data and then the end of the stream queued, polling returns
every complete packet, then an error iff bytes are left over, then the end for ever; whatever the
times of the polls, by whichever tasks. -/
theorem C46_end_of_stream {p0 p p' : Panel} (hc : Connected p0) {ops : List Op} {outs₁ : List Out}
    (h1 : Panel.run ops p0 = .ok (outs₁, p)) (hl : Live p) {bs : List Bytes} {q : List ReadItem}
    (hq : p.conn.sock.incoming = bs.map ReadItem.data ++ .eof :: q) (hne : ∀ b ∈ bs, b ≠ [])
    {ps : List Packet} {left : Bytes} (hd : Drains (p.conn.rd.buffer ++ bs.flatten) ps left)
    (cxs : List Cx) {outs : List Out}
    (hr : Panel.run (cxs.map .pollNext) p = .ok (outs, p')) :
    outs.map itemOf = (endItems ps left cxs.length).map some :=
  have g := (hist_of_run (connected_good hc) h1).good
  before_polls cxs g ⟨g.rd, hl.ok, hl.eof, bs, q, hq, hne, hd⟩ hr

/-- **C46** Polling those polls never panics (so the statement above is about all of them). -/
theorem C46_polls_return {p0 p : Panel} (hc : Connected p0) {ops : List Op} {outs₁ : List Out}
    (h1 : Panel.run ops p0 = .ok (outs₁, p)) (cxs : List Cx) :
    ∃ x, Panel.run (cxs.map .pollNext) p = .ok x := by
  have g := (hist_of_run (connected_good hc) h1).good
  clear h1
  induction cxs generalizing p with
  | nil => exact ⟨_, rfl⟩
  | cons cx cxs ih =>
    obtain ⟨⟨o, p1⟩, hs⟩ := step_total g.sane (.pollNext cx) (by intro c h; cases h)
    obtain ⟨⟨os, p2⟩, hr⟩ := ih (step_good g (step_cases g.sane hs))
    exact ⟨(o :: os, p2), run_cons.mpr ⟨o, p1, os, hs, hr, rfl⟩⟩

/-- Non-vacuity: a packet, three stray bytes and the end. -/
example : ∃ r, Panel.run [.pollNext ⟨1, 0, 0⟩, .pollNext ⟨1, 0, 0⟩, .pollNext ⟨1, 0, 0⟩,
        .pollNext ⟨1, 0, 0⟩]
      (samplePanel [.data sampleReply, .data [48, 49, 50], .eof]) = .ok r ∧
    (match r.1.map itemOf with
      | [some (some (.ok _)), some (some (.error .bytesRemaining)), some none, some none] => true
      | _ => false) = true :=
  of_holds (by decide +kernel)

/-! ## C62: a live connection stays live -/

theorem attempt_live {f g : ReadFrame} {x} (h : AttemptCase f (x, g)) (he : f.eof = false)
    (hk : f.hasErrored = false) : g.eof = false ∧ g.hasErrored = false ∧
      (∀ it, x = some it → ∃ p, it = some (.ok p)) := by
  cases h with
  | errored h => rw [hk] at h; cases h
  | packet p rest _ _ _ => exact ⟨he, hk, by intro it h; cases h; exact ⟨p, rfl⟩⟩
  | atEnd _ _ h _ => rw [he] at h; cases h
  | leftover _ _ h _ _ => rw [he] at h; cases h
  | more _ _ _ _ => exact ⟨he, hk, by intro it h; cases h⟩
  | idle _ _ => exact ⟨he, hk, by intro it h; cases h⟩

theorem loop_live (q : List ReadItem) : ∀ (got : Bytes) (f : ReadFrame) (o : ReadOut), RdOk f →
    f.eof = false → f.hasErrored = false → f.loop q got = .ok o →
    ((∃ p, o.res = .ready (some (.ok p))) ∨ o.res = .pending) →
    o.rd.eof = false ∧ o.rd.hasErrored = false := by
  induction q with
  | nil =>
    intro got f o hok he hk h hr
    obtain ⟨⟨x, g⟩, hx, hc⟩ := attempt_cases f
    obtain ⟨h1, h2, _⟩ := attempt_live hc he hk
    unfold ReadFrame.loop at h
    rw [hx] at h
    cases x with
    | some it => cases h; exact ⟨h1, h2⟩
    | none => cases h; exact ⟨h1, h2⟩
  | cons i q ih =>
    intro got f o hok he hk h hr
    obtain ⟨⟨x, g⟩, hx, hc⟩ := attempt_cases f
    obtain ⟨h1, h2, _⟩ := attempt_live hc he hk
    have hdry : x = none → Dry g.buffer := by
      intro hxn
      subst hxn
      cases hc with
      | more _ _ _ hd => exact hd
      | idle _ hr => exact hok (.inl hr)
    unfold ReadFrame.loop at h
    rw [hx] at h
    cases x with
    | some it => cases h; exact ⟨h1, h2⟩
    | none =>
      have atEof : ∀ q', g.atEof q' got = .ok o → False := by
        intro q' h
        unfold ReadFrame.atEof at h
        rw [if_neg (by simp [h1])] at h
        rcases pausing_cases { g with eof := true, isReadable := true } with ⟨p, rest, hd, hp⟩ |
          ⟨_, hp⟩ | ⟨_, _, hp⟩
        · have hd' : Packet.decode g.buffer = .ok (some p, rest) := hd
          rw [hdry rfl] at hd'
          cases hd'
        · rw [hp] at h
          cases h
          rcases hr with ⟨p, hr⟩ | hr <;> cases hr
        · rw [hp] at h
          cases h
          rcases hr with ⟨p, hr⟩ | hr <;> cases hr
      match i, h with
      | .blocked, h => cases h; exact ⟨h1, h2⟩
      | .error c, h =>
        cases h
        rcases hr with ⟨p, hr⟩ | hr <;> cases hr
      | .eof, h => exact (atEof _ h).elim
      | .data b, h =>
        dsimp only at h
        by_cases hb : b.length = 0
        · rw [if_pos hb] at h; exact (atEof _ h).elim
        · rw [if_neg hb] at h
          refine ih _ _ o ?_ ?_ ?_ h hr
          · intro hx
            simp [h2] at hx
          · rfl
          · exact h2

/-- Whether an operation reported an error or the end of the stream. -/
def saysEnd (o : Out) : Prop := itemOf o = some none ∨ ∃ e, itemOf o = some (some (.error e))

theorem step_live {p p' : Panel} {op o} (hg : Good p) (h : p.step op = .ok (o, p')) (hl : Live p)
    (hn : ¬ saysEnd o) : Live p' := by
  have hsc := step_cases hg.sane h
  have quiet : p'.conn.rd = p.conn.rd → Live p' := fun h => ⟨h ▸ hl.eof, h ▸ hl.ok⟩
  cases hsc with
  | arrive r => exact quiet rfl
  | writable r => exact quiet rfl
  | next cx new r w _ hnc =>
    obtain ⟨res, c, new', hcp, hcs⟩ := connNext_spec p.conn cx hg.rd
    have hcq := hcp
    unfold Connection.pollNext at hcq
    cases hlp : p.conn.rd.loop p.conn.sock.incoming [] with
    | error e => rw [hlp] at hcq; cases hcq
    | ok ro =>
      rw [hlp] at hcq
      simp only [bind_ok, Except.ok.injEq, Prod.mk.injEq] at hcq
      obtain ⟨e1, e2⟩ := hcq
      have k : c.rd = ro.rd := by rw [← e2]
      clear e2
      have hend : (∃ p, ro.res = .ready (some (.ok p))) ∨ ro.res = .pending := by
        match hres : ro.res with
        | .pending => exact .inr rfl
        | .ready (some (.ok q)) => exact .inl ⟨q, rfl⟩
        | .ready none => exact absurd (.inl (step_item h hlp hres hg).1) hn
        | .ready (some (.error e)) => exact absurd (.inr ⟨e, (step_item h hlp hres hg).1⟩) hn
      obtain ⟨l1, l2⟩ := loop_live _ _ _ _ hg.rd hl.eof hl.ok hlp hend
      have hc : p'.conn = c := by
        unfold Panel.step Panel.pollNext at h
        dsimp only at h
        rw [hcp] at h
        simp only [bind_ok] at h
        subst e1
        match hres : ro.res with
        | .ready none =>
          rw [hres] at h hend
          rcases hend with ⟨_, h⟩ | h <;> cases h
        | .ready (some (.error e)) =>
          rw [hres] at h hend
          rcases hend with ⟨_, h⟩ | h <;> cases h
        | .ready (some (.ok q)) =>
          rw [hres] at h hcs
          obtain ⟨⟨ev, w, p2⟩, hi, hic⟩ := interpret_cases { p with conn := c } cx.now q
            (parsed_wf (hcs.packet q rfl))
          dsimp only at h
          rw [hi] at h
          cases h
          exact (interp_keeps hic).1
        | .pending =>
          rw [hres] at h
          dsimp only at h
          unfold Panel.pollTimer at h
          dsimp only at h
          cases hpa : p.pendingArm with
          | none => rw [hpa] at h; cases h; rfl
          | some pa =>
            rw [hpa] at h
            dsimp only at h
            split at h
            · cases hst : p.state.armingStatus with
              | none => rw [hst] at h; cases h
              | some v => rw [hst] at h; cases h; rfl
            · cases h; rfl
      exact ⟨by rw [hc, k]; exact l1, by rw [hc, k]; exact l2⟩
  | ready cx r _ hr =>
    cases hr with
    | idle _ => exact hl
    | wait _ _ _ => exact quiet rfl
    | flushed _ _ _ _ hs => exact quiet hs.rd
    | blocked _ _ _ _ hs => exact quiet hs.rd
    | failed _ _ _ _ _ hs => exact quiet hs.rd
  | send _ _ _ _ _ _ => exact quiet rfl
  | flush cx r _ hf => exact quiet (read_flush hf).2.2
  | close cx r _ hc =>
    cases hc with
    | flushed q r c hf hs => exact quiet (hs.rd.trans (read_flush hf).2.2)
    | stuck r _ _ hf => exact quiet (read_flush hf).2.2

/-- **C62** A connection stays live until an error or the end of the stream is reported. -/
theorem C62_live {p0 p : Panel} (hc : Connected p0) (hl : Live p0) {ops : List Op}
    {outs : List Out} (hr : Panel.run ops p0 = .ok (outs, p)) (hn : ∀ o ∈ outs, ¬ saysEnd o) :
    Live p := by
  have hg := connected_good hc
  clear hc
  induction ops generalizing p0 outs with
  | nil => cases hr; exact hl
  | cons op ops ih =>
    obtain ⟨o, p1, os, h1, h2, rfl⟩ := run_cons.mp hr
    exact ih (step_live hg h1 hl (hn o (List.mem_cons_self ..))) h2
      (fun o ho => hn o (List.mem_cons_of_mem _ ho)) (step_good hg (step_cases hg.sane h1))

theorem attempt_error {f g : ReadFrame} {e} (h : AttemptCase f (some (some (.error e)), g)) :
    g.hasErrored = true := by
  cases h with
  | leftover _ _ _ _ _ => rfl

theorem loop_error (q : List ReadItem) : ∀ (got : Bytes) (f : ReadFrame) (o : ReadOut) {e : IoErr},
    f.loop q got = .ok o → o.res = .ready (some (.error e)) → o.rd.hasErrored = true := by
  induction q with
  | nil =>
    intro got f o e h hr
    obtain ⟨⟨x, g⟩, hx, hc⟩ := attempt_cases f
    unfold ReadFrame.loop at h
    rw [hx] at h
    cases x with
    | some it => cases h; cases hr; exact attempt_error hc
    | none => cases h; cases hr
  | cons i q ih =>
    intro got f o e h hr
    obtain ⟨⟨x, g⟩, hx, hc⟩ := attempt_cases f
    unfold ReadFrame.loop at h
    rw [hx] at h
    cases x with
    | some it => cases h; cases hr; exact attempt_error hc
    | none =>
      have atEof : ∀ q', g.atEof q' got = .ok o → o.rd.hasErrored = true := by
        intro q' h
        unfold ReadFrame.atEof at h
        split at h
        · cases h; cases hr
        · rcases pausing_cases { g with eof := true, isReadable := true } with ⟨p, rest, hd, hp⟩ |
            ⟨_, hp⟩ | ⟨_, _, hp⟩ <;> rw [hp] at h <;> cases h <;> cases hr
          rfl
      match i, h with
      | .blocked, h => cases h; cases hr
      | .error c, h => cases h; rfl
      | .eof, h => exact atEof _ h
      | .data b, h =>
        dsimp only at h
        by_cases hb : b.length = 0
        · rw [if_pos hb] at h; exact atEof _ h
        · rw [if_neg hb] at h
          exact ih _ _ o h hr

theorem rd_hist {p p' : Panel} {ops outs} (h : Hist p ops outs p')
    (hn : ∀ cx, .pollNext cx ∉ ops) : p'.conn.rd = p.conn.rd := by
  induction h with
  | nil _ => rfl
  | @cons p op o p1 ops os p2 _ hs _ ih =>
    rw [ih (fun cx h => hn cx (List.mem_cons_of_mem _ h))]
    cases hs with
    | arrive r => rfl
    | writable r => rfl
    | next cx _ _ _ _ _ => exact absurd (List.mem_cons_self ..) (hn cx)
    | ready cx r _ hr =>
      cases hr with
      | idle _ => rfl
      | wait _ _ _ => rfl
      | flushed _ _ _ _ hs => exact hs.rd
      | blocked _ _ _ _ hs => exact hs.rd
      | failed _ _ _ _ _ hs => exact hs.rd
    | send _ _ _ _ _ _ => rfl
    | flush cx r _ hf => exact (read_flush hf).2.2
    | close cx r _ hc =>
      cases hc with
      | flushed q r c hf hs => exact hs.rd.trans (read_flush hf).2.2
      | stuck r _ _ hf => exact (read_flush hf).2.2

/-- **C63** Right after an error was reported (by the socket, or about left-over bytes), the next
poll of the stream returns the end, without touching the socket. -/
theorem C63_end_after_error {p0 p p1 p2 p3 : Panel} (hc : Connected p0) {ops ops₂ : List Op}
    {outs outs₂ : List Out} {cx cx' : Cx} {e : IoErr} {w : List Waker}
    (hr : Panel.run ops p0 = .ok (outs, p))
    (h1 : p.step (.pollNext cx) = .ok (.next (.ready (some (.error e))) w, p1))
    (h2 : Panel.run ops₂ p1 = .ok (outs₂, p2)) (hn : ∀ cx, .pollNext cx ∉ ops₂)
    (o : Out) (h3 : p2.step (.pollNext cx') = .ok (o, p3)) :
    o = .next (.ready none) [] ∧ p3.conn.sock = p2.conn.sock := by
  obtain ⟨g, hE⟩ : Good p1 ∧ p1.conn.rd.hasErrored = true := by
    have hg := (hist_of_run (connected_good hc) hr).good
    refine ⟨step_good hg (step_cases hg.sane h1), ?_⟩
    unfold Panel.step Panel.pollNext at h1
    dsimp only at h1
    obtain ⟨res, c, new, hcp, hcs⟩ := connNext_spec p.conn cx hg.rd
    have hcq := hcp
    unfold Connection.pollNext at hcq
    cases hlp : p.conn.rd.loop p.conn.sock.incoming [] with
    | error e => rw [hlp] at hcq; cases hcq
    | ok ro =>
      rw [hlp] at hcq
      simp only [bind_ok, Except.ok.injEq, Prod.mk.injEq] at hcq
      obtain ⟨e1, e2⟩ := hcq
      have k : c.rd = ro.rd := by rw [← e2]
      clear e2
      rw [hcp] at h1
      simp only [bind_ok] at h1
      match res, e1, hcs, h1 with
      | .ready none, _, _, h1 => cases h1
      | .ready (some (.error e')), e1, _, h1 =>
        cases h1
        show c.rd.hasErrored = true
        rw [k]
        exact loop_error _ _ _ _ hlp e1
      | .ready (some (.ok q)), _, hcs, h1 =>
        obtain ⟨⟨ev, w, p2⟩, hi, hic⟩ := interpret_cases { p with conn := c } cx.now q
          (parsed_wf (hcs.packet q rfl))
        dsimp only at h1
        rw [hi] at h1
        cases h1
      | .pending, _, _, h1 =>
        dsimp only at h1
        unfold Panel.pollTimer at h1
        dsimp only at h1
        cases hpa : p.pendingArm with
        | none => rw [hpa] at h1; cases h1
        | some pa =>
          rw [hpa] at h1
          dsimp only at h1
          split at h1
          · cases hst : p.state.armingStatus with
            | none => rw [hst] at h1; cases h1
            | some v => rw [hst] at h1; cases h1
          · cases h1
  have hE2 : p2.conn.rd.hasErrored = true := by
    rw [rd_hist (hist_of_run g h2) hn]; exact hE
  have hl : p2.conn.rd.loop p2.conn.sock.incoming [] = .ok ⟨.ready none,
      { p2.conn.rd with isReadable := false, hasErrored := false }, p2.conn.sock.incoming, []⟩ := by
    unfold ReadFrame.loop ReadFrame.attempt
    rw [if_pos hE2]
  unfold Panel.step Panel.pollNext Connection.pollNext at h3
  dsimp only at h3
  rw [hl] at h3
  simp only [bind_ok, Except.ok.injEq, Prod.mk.injEq] at h3
  obtain ⟨rfl, rfl⟩ := h3
  exact ⟨rfl, by simp⟩

/-- Non-vacuity: a read error, then the end, then reading goes on. -/
example : ∃ r, Panel.run [.pollNext ⟨1, 0, 0⟩, .pollNext ⟨1, 0, 0⟩, .pollNext ⟨1, 0, 0⟩]
      (samplePanel [.error 104, .data sampleReply]) = .ok r ∧
    (match r.1.map itemOf with
      | [some (some (.error (.socket 104))), some none, some (some (.ok _))] => true
      | _ => false) = true :=
  of_holds (by decide +kernel)

end Elk.Props
