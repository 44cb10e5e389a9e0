import Verif.Props.Machine
import Verif.Spec.Exact
import Verif.Lemmas.Init
/-!
# C134: a panel does all that the reference machine allows, and nothing else
-/

namespace Elk.Props
open Elk Spec

/-- Invariant of the read state: after the end, nothing is decoded before more is read. -/
def EofOk (f : ReadFrame) : Prop := f.eof = true → f.hasErrored = false → f.isReadable = false

def earOf (f : ReadFrame) : Ear := ⟨f.hasErrored, f.eof⟩

theorem waits_of_dry {b : Bytes} (h : Dry b) : Waits b := (waits_of_decode h).2

theorem dry_of_waits {b : Bytes} (h : Waits b) : Dry b := C117_decode.mpr (.waits h)

theorem hears_more {α : Type} {e e' : Ear} {buf b io : Bytes} {r : Poll (Option (Except IoErr α))}
    (he : e.broken = false) (hw : Waits buf) (hb : b ≠ [])
    (h : Hears ⟨false, false⟩ (buf ++ b) io r e') : Hears e buf (b ++ io) r e' := by
  have ha : e.after (b ++ io) = (⟨false, false⟩ : Ear).after io := by
    cases b with
    | nil => exact absurd rfl hb
    | cons x b => simp [Ear.after]
  cases h with
  | spent h => cases h
  | goes _ _ h1 h2 => rw [← ha]; exact .goes he (.inr hw) h1 h2
  | failed => rw [← ha]; exact .failed he (.inr hw)
  | cut _ _ h1 h2 =>
    exact .cut he (.inr hw) (by simp [hb]) (by rw [ha]; exact h2)
  | ended _ _ h1 =>
    refine .ended he (.inr hw) (.inr ?_)
    rcases h1 with h1 | h1
    · simp [hb] at h1
    · rw [ha]; exact h1

theorem after_nil {f : ReadFrame} (h : f.hasErrored = false) : (earOf f).after [] = earOf f := by
  simp [earOf, Ear.after, h]

theorem atEof_hears {f : ReadFrame} {q : List ReadItem} {got : Bytes} {o : ReadOut}
    (hd : Dry f.buffer) (he : f.hasErrored = false) (hr : f.isReadable = false)
    (h : f.atEof q got = .ok o) :
    o.got = got ∧ Hears (earOf f) f.buffer [] o.res (earOf o.rd) ∧ EofOk o.rd := by
  unfold ReadFrame.atEof at h
  split at h
  · rename_i hf
    cases h
    refine ⟨rfl, ?_, fun _ _ => hr⟩
    have := Hears.ended (α := Packet) (e := earOf f) (unread := f.buffer) (io := []) he (.inl rfl)
      (.inr (by rw [after_nil he]; exact hf))
    simpa [earOf, he, hf] using this
  · rename_i hf
    have hf : f.eof = false := by simpa using hf
    unfold ReadFrame.pausing Codec.decode at h
    dsimp only at h
    have hd' : Packet.decode f.buffer = .ok (none, f.buffer) := hd
    rw [hd'] at h
    simp only [bind_ok] at h
    by_cases hb : f.buffer = []
    · rw [if_pos hb] at h
      cases h
      refine ⟨rfl, ?_, fun _ _ => rfl⟩
      have := Hears.ended (α := Packet) (e := earOf f) (unread := f.buffer) (io := []) he (.inl rfl)
        (.inl (by simpa using hb))
      simpa [earOf, he] using this
    · rw [if_neg hb] at h
      cases h
      refine ⟨rfl, ?_, fun _ h => by cases h⟩
      have := Hears.cut (α := Packet) (e := earOf f) (unread := f.buffer) (io := []) he (.inl rfl)
        (by simpa using hb) (by rw [after_nil he]; exact hf)
      simpa [earOf] using this

/-- With nothing to return, a pass of the read loop reads. -/
theorem loop_dry_eq {f : ReadFrame} (hd : Dry f.buffer) (he : f.hasErrored = false)
    (hf : EofOk f) (q : List ReadItem) (got : Bytes) :
    f.loop q got = (match q with
      | [] => .ok ⟨.pending, { f with isReadable := false }, [], got⟩
      | .blocked :: q => .ok ⟨.pending, { f with isReadable := false }, q, got⟩
      | .error c :: q =>
        .ok ⟨.ready (some (.error (.socket c))),
          { f with isReadable := false, hasErrored := true }, q, got⟩
      | .eof :: q => ReadFrame.atEof { f with isReadable := false } (.eof :: q) got
      | .data b :: q =>
        if b.length = 0 then ReadFrame.atEof { f with isReadable := false } q got
        else ReadFrame.loop q (got ++ b)
          { f with isReadable := true, buffer := f.buffer ++ b, eof := false } : P ReadOut) := by
  have ha : f.attempt = .ok (none, { f with isReadable := false }) := by
    unfold ReadFrame.attempt Codec.decode
    cases hr : f.isReadable with
    | false =>
      obtain ⟨a, b, c, d⟩ := f
      cases hr
      cases he
      rfl
    | true =>
      have : f.eof = false := by
        cases hx : f.eof with
        | false => rfl
        | true => rw [hf hx he] at hr; cases hr
      have hd : Packet.decode f.buffer = .ok (none, f.buffer) := hd
      simp [he, this, hd]
      rfl
  conv => lhs; unfold ReadFrame.loop
  rw [ha]
  match q with
  | [] => rfl
  | .blocked :: q => rfl
  | .error c :: q => rfl
  | .eof :: q => rfl
  | .data b :: q => rfl

theorem loop_hears (q : List ReadItem) : ∀ {got : Bytes} {f : ReadFrame} {o : ReadOut}, RdOk f →
    EofOk f → f.loop q got = .ok o → ∃ io, o.got = got ++ io ∧
      Hears (earOf f) f.buffer io o.res (earOf o.rd) ∧ EofOk o.rd := by
  have spent : ∀ {q got f o}, f.hasErrored = true → f.loop q got = .ok o →
      ∃ io, o.got = got ++ io ∧ Hears (earOf f) f.buffer io o.res (earOf o.rd) ∧ EofOk o.rd := by
    intro q got f o he h
    unfold ReadFrame.loop ReadFrame.attempt at h
    rw [if_pos he] at h
    cases h
    exact ⟨[], by simp, .spent he rfl, fun _ _ => rfl⟩
  have packet : ∀ {q got f o p rest}, f.hasErrored = false → f.isReadable = true → EofOk f →
      Packet.decode f.buffer = .ok (some p, rest) → f.loop q got = .ok o →
      ∃ io, o.got = got ++ io ∧ Hears (earOf f) f.buffer io o.res (earOf o.rd) ∧ EofOk o.rd := by
    intro q got f o p rest he hr hf hd h
    have hx : f.eof = false := by
      cases hx : f.eof with
      | false => rfl
      | true => rw [hf hx he] at hr; cases hr
    unfold ReadFrame.loop ReadFrame.attempt Codec.decode at h
    simp only [he, hr, hx, hd, bind_ok] at h
    cases h
    refine ⟨[], by simp, ?_, fun h => ?_⟩
    · have := Hears.goes (α := Packet) (e := earOf f) (unread := f.buffer) (io := [])
        (r := .ready (some (.ok p))) he (.inl rfl) (by simp) (by simp)
      rw [after_nil he] at this
      simpa [earOf, he, hx] using this
    · cases h
  have pend : ∀ {f : ReadFrame}, f.hasErrored = false →
      Hears (α := Packet) (earOf f) f.buffer [] .pending (earOf f) := by
    intro f he
    have := Hears.goes (α := Packet) (e := earOf f) (unread := f.buffer) (io := [])
      (r := .pending) he (.inl rfl) (by simp) (by simp)
    rw [after_nil he] at this
    exact this
  have cases' : ∀ {f}, RdOk f → f.hasErrored = true ∨
      (f.hasErrored = false ∧ f.isReadable = true ∧ ∃ p rest,
        Packet.decode f.buffer = .ok (some p, rest)) ∨
      (f.hasErrored = false ∧ Dry f.buffer) := by
    intro f hok
    cases he : f.hasErrored with
    | true => exact .inl rfl
    | false =>
      rcases decode_total f.buffer with h | ⟨p, rest, h⟩
      · exact .inr (.inr ⟨rfl, h⟩)
      · cases hr : f.isReadable with
        | true => exact .inr (.inl ⟨rfl, rfl, p, rest, h⟩)
        | false => exact .inr (.inr ⟨rfl, hok (.inl hr)⟩)
  induction q with
  | nil =>
    intro got f o hok hf h
    rcases cases' hok with he | ⟨he, hr, p, rest, hd⟩ | ⟨he, hd⟩
    · exact spent he h
    · exact packet he hr hf hd h
    · rw [loop_dry_eq hd he hf] at h
      cases h
      exact ⟨[], by simp, pend he, fun _ _ => rfl⟩
  | cons i q ih =>
    intro got f o hok hf h
    rcases cases' hok with he | ⟨he, hr, p, rest, hd⟩ | ⟨he, hd⟩
    · exact spent he h
    · exact packet he hr hf hd h
    · rw [loop_dry_eq hd he hf] at h
      have eof : ∀ {q}, ReadFrame.atEof { f with isReadable := false } q got = .ok o →
          ∃ io, o.got = got ++ io ∧ Hears (earOf f) f.buffer io o.res (earOf o.rd) ∧
            EofOk o.rd := by
        intro q h
        obtain ⟨a, b, c⟩ := atEof_hears (f := { f with isReadable := false }) hd he rfl h
        exact ⟨[], by simp [a], b, c⟩
      match i, h with
      | .blocked, h =>
        cases h
        exact ⟨[], by simp, pend he, fun _ _ => rfl⟩
      | .error c, h =>
        cases h
        refine ⟨[], by simp, ?_, fun _ h => by cases h⟩
        have := Hears.failed (α := Packet) (c := c) (e := earOf f) (unread := f.buffer) (io := [])
          he (.inl rfl)
        rw [after_nil he] at this
        exact this
      | .eof, h => exact eof h
      | .data b, h =>
        dsimp only at h
        split at h
        · exact eof h
        · rename_i hb
          have hb : b ≠ [] := fun h => hb (by simp [h])
          obtain ⟨io, a, c, d⟩ := ih (by intro h; simp [he] at h) (by intro h; cases h) h
          refine ⟨b ++ io, by rw [a, List.append_assoc], ?_, d⟩
          refine hears_more he (waits_of_dry hd) hb ?_
          have e : earOf { f with isReadable := true, buffer := f.buffer ++ b, eof := false }
              = ⟨false, false⟩ := by simp [earOf, he]
          rw [e] at c
          exact c

/-- What is heard does not depend on what an event is. -/
theorem hears_relabel {α β : Type} {e e' : Ear} {u io : Bytes} {r : Poll (Option (Except IoErr α))}
    {r' : Poll (Option (Except IoErr β))} (h : Hears e u io r e')
    (hr : (r = .ready none ∧ r' = .ready none) ∨
      (∃ x, r = .ready (some (.error x)) ∧ r' = .ready (some (.error x))) ∨
      ((r ≠ .ready none ∧ ∀ x, r ≠ .ready (some (.error x))) ∧
        (r' ≠ .ready none ∧ ∀ x, r' ≠ .ready (some (.error x))))) : Hears e u io r' e' := by
  rcases hr with ⟨rfl, rfl⟩ | ⟨x, rfl, rfl⟩ | ⟨⟨h1, h2⟩, h3, h4⟩
  · cases h with
    | spent a b => exact .spent a b
    | goes a b c d => exact absurd rfl d
    | ended a b c => exact .ended a b c
  · cases h with
    | goes a b c d => exact absurd rfl (c _)
    | failed a b => exact .failed a b
    | cut a b c d => exact .cut a b c d
  · cases h with
    | spent a b => exact absurd rfl h1
    | goes a b c d => exact .goes a b h4 h3
    | failed a b => exact absurd rfl (h2 _)
    | cut a b c d => exact absurd rfl (h2 _)
    | ended a b c => exact absurd rfl h1

theorem conn_hears {c c' : Connection} {cx : Cx} {r : Poll Item} (hok : RdOk c.rd)
    (hf : EofOk c.rd) (h : c.pollNext cx = .ok (r, c')) :
    ∃ io, c'.sock.received = c.sock.received ++ io ∧
      Hears (earOf c.rd) c.rd.buffer io r (earOf c'.rd) ∧ EofOk c'.rd := by
  obtain ⟨o, new, ho, _⟩ := loop_spec c.sock.incoming [] c.rd hok
  obtain ⟨io, a, b, d⟩ := loop_hears _ hok hf ho
  unfold Connection.pollNext at h
  rw [ho] at h
  cases h
  exact ⟨io, by simp [a], b, d⟩

theorem panel_hears {p p' : Panel} {cx : Cx} {r : Poll PanelItem} {w : List Waker} (hg : Good p)
    (hf : EofOk p.conn.rd) (h : p.pollNext cx = .ok (r, w, p')) :
    ∃ io, p'.conn.sock.received = p.conn.sock.received ++ io ∧
      Hears (earOf p.conn.rd) p.conn.rd.buffer io r (earOf p'.conn.rd) ∧ EofOk p'.conn.rd := by
  obtain ⟨⟨res, c⟩, hcn⟩ : ∃ x, p.conn.pollNext cx = .ok x := by
    obtain ⟨r, c', new, h, _⟩ := connNext_spec p.conn cx hg.rd
    exact ⟨_, h⟩
  obtain ⟨io, a, b, d⟩ := conn_hears hg.rd hf hcn
  obtain ⟨_, _, new, hcn', hs⟩ := connNext_spec p.conn cx hg.rd
  rw [hcn] at hcn'
  cases hcn'
  unfold Panel.pollNext at h
  rw [hcn] at h
  simp only [bind_ok] at h
  match res, b, hs, h with
  | .ready none, b, _, h =>
    cases h
    exact ⟨io, a, hears_relabel b (.inl ⟨rfl, rfl⟩), d⟩
  | .ready (some (.error e)), b, _, h =>
    cases h
    exact ⟨io, a, hears_relabel b (.inr (.inl ⟨_, rfl, rfl⟩)), d⟩
  | .ready (some (.ok pkt)), b, hs, h =>
    obtain ⟨⟨ev, w', q⟩, hi, hc⟩ := interpret_cases { p with conn := c } cx.now pkt
      (parsed_wf (hs.packet pkt rfl))
    dsimp only at h
    rw [hi] at h
    cases h
    have hq := interp_conn hc
    rw [hq]
    exact ⟨io, a, hears_relabel b (.inr (.inr ⟨by simp, by simp⟩)), d⟩
  | .pending, b, _, h =>
    dsimp only at h
    unfold Panel.pollTimer at h
    dsimp only at h
    split at h
    · cases h
      exact ⟨io, a, hears_relabel b (.inr (.inr ⟨by simp, by simp⟩)), d⟩
    · split at h
      · cases hst : p.state.armingStatus with
        | none => rw [hst] at h; cases h
        | some x =>
          rw [hst] at h; cases h
          exact ⟨io, a, hears_relabel b (.inr (.inr ⟨by simp, by simp⟩)), d⟩
      · cases h
        exact ⟨io, a, hears_relabel b (.inr (.inr ⟨by simp, by simp⟩)), d⟩

theorem flushLoop_halts (q : List WriteItem) : ∀ buf sent,
    Halts (flushLoop q buf sent).res (flushLoop q buf sent).wbuf := by
  induction q with
  | nil =>
    intro buf sent
    unfold flushLoop
    split
    · intro x h; cases h
    · intro x h; cases h
  | cons i q ih =>
    intro buf sent
    unfold flushLoop
    split
    · intro x h; cases h
    · rename_i hb
      have hb : buf ≠ [] := fun h => hb (by simp [h])
      match i with
      | .blocked => intro x h; cases h
      | .error c => intro x h; cases h; exact ⟨hb, .inr ⟨c, rfl⟩⟩
      | .accept n =>
        dsimp only
        split
        · intro x h; cases h; exact ⟨hb, .inl rfl⟩
        · exact ih _ _

theorem conn_halts (c : Connection) (cx : Cx) : Halts (c.pollFlush cx).1 (c.pollFlush cx).2.wbuf :=
  flushLoop_halts _ _ _

theorem flush_halts (p : Panel) (cx : Cx) :
    Halts (p.pollFlush cx).1 (p.pollFlush cx).2.conn.wbuf := by
  unfold Panel.pollFlush
  have := conn_halts p.conn cx
  generalize p.conn.pollFlush cx = x at this
  split
  · match x, this with
    | (.ready (.ok ()), c), _ => intro x h; cases h
    | (.pending, c), h => exact h
    | (.ready (.error e), c), h => exact h
  · intro x h; cases h

theorem ready_halts (p : Panel) (cx : Cx) :
    Halts (p.pollReady cx).1 (p.pollReady cx).2.conn.wbuf := by
  unfold Panel.pollReady
  have := conn_halts p.conn cx
  generalize p.conn.pollFlush cx = x at this
  split
  · intro x h; cases h
  · intro x h; cases h
  · match x, this with
    | (.ready (.ok ()), c), _ => intro x h; cases h
    | (.pending, c), h => exact h
    | (.ready (.error e), c), h => exact h

theorem close_halts (p : Panel) (cx : Cx) :
    Halts (p.pollClose cx).1 (p.pollClose cx).2.conn.wbuf := by
  unfold Panel.pollClose
  have := flush_halts p cx
  generalize p.pollFlush cx = x at this
  match x, this with
  | (.ready (.ok ()), p1), _ => exact conn_halts p1.conn cx
  | (.pending, c), h => exact h
  | (.ready (.error e), c), h => exact h

/-- The bytes that a step moved. -/
def moved (p p' : Panel) : Bytes :=
  p'.conn.sock.received.drop p.conn.sock.received.length ++
    p'.conn.sock.sent.drop p.conn.sock.sent.length

theorem moved_eq {p p' : Panel} {a b : Bytes}
    (ha : p'.conn.sock.received = p.conn.sock.received ++ a)
    (hb : p'.conn.sock.sent = p.conn.sock.sent ++ b) : moved p p' = a ++ b := by
  unfold moved
  rw [ha, hb, List.drop_left, List.drop_left]

theorem does_of_step {p p' : Panel} {op : Op} {o : Out} {v : View} (hg : Good p)
    (hf : EofOk p.conn.rd) (hl : Looks p v) (hw : ∀ c, op = .startSend c → WfCommand c)
    (hst : p.step op = .ok (o, p')) :
    EofOk p'.conn.rd ∧ ((isCall op = true ∧ ∃ v', Looks p' v' ∧
      Does v (earOf p.conn.rd) ⟨op, moved p p', o⟩ v' (earOf p'.conn.rd)) ∨
    (isCall op = false ∧ Looks p' v ∧ earOf p'.conn.rd = earOf p.conn.rd)) := by
  obtain ⟨io, v', ha, hl', hr, hs⟩ := acts_of_step hg hl hw hst
  have hm := moved_eq hr hs
  cases op with
  | arrive r => cases hst; cases ha; exact ⟨hf, .inr ⟨rfl, hl', rfl⟩⟩
  | writable r => cases hst; cases ha; exact ⟨hf, .inr ⟨rfl, hl', rfl⟩⟩
  | pollNext cx =>
    simp only [bytesRead, bytesWritten, List.flatMap_cons, List.flatMap_nil, List.append_nil] at hm
    unfold Panel.step at hst
    dsimp only at hst
    match hx : p.pollNext cx, hst with
    | .error e, hst => cases hst
    | .ok (r, w, p1), hst =>
      cases hst
      obtain ⟨io', a, b, c⟩ := panel_hears hg hf hx
      simp only [bytesRead, List.flatMap_cons, List.flatMap_nil, List.append_nil] at hr
      have : io' = io := List.append_cancel_left (a.symm.trans hr)
      subst this
      rw [hm]
      rw [hl.unread] at b
      exact ⟨c, .inl ⟨rfl, v', hl', .next ha b⟩⟩
  | pollReady cx =>
    simp only [bytesRead, bytesWritten, List.flatMap_cons, List.flatMap_nil, List.append_nil,
      List.nil_append] at hm
    have hh := ready_halts p cx
    have hrd : (p.pollReady cx).2.conn.rd = p.conn.rd := by
      have := pollReady_cases p cx
      generalize p.pollReady cx = x at this
      obtain ⟨r, q⟩ := x
      cases this with
      | idle => rfl
      | wait => rfl
      | flushed _ _ _ _ h => exact h.rd
      | blocked _ _ _ _ h => exact h.rd
      | failed _ _ _ _ _ h => exact h.rd
    obtain ⟨rfl, rfl⟩ : o = .sink (p.pollReady cx).1 ∧ p' = (p.pollReady cx).2 := by
      have h : (.ok (.sink (p.pollReady cx).1, (p.pollReady cx).2) : P (Out × Panel)) = .ok (o, p') := hst
      injection h with h
      injection h with a b
      exact ⟨a.symm, b.symm⟩
    rw [hm, hrd]
    exact ⟨hf, .inl ⟨rfl, v', hl', .sink ha (hl'.unsent ▸ hh)⟩⟩
  | startSend c =>
    simp only [bytesRead, bytesWritten, List.flatMap_cons, List.flatMap_nil, List.append_nil,
      List.nil_append] at hm
    have hrd : p'.conn.rd = p.conn.rd ∧ o = .accepted := by
      cases step_cases hg.sane hst
      exact ⟨rfl, rfl⟩
    obtain ⟨hrd, rfl⟩ := hrd
    rw [hm, hrd]
    exact ⟨hf, .inl ⟨rfl, v', hl', .send ha⟩⟩
  | pollFlush cx =>
    simp only [bytesRead, bytesWritten, List.flatMap_cons, List.flatMap_nil, List.append_nil,
      List.nil_append] at hm
    have hh := flush_halts p cx
    have hrd : (p.pollFlush cx).2.conn.rd = p.conn.rd := by
      have := pollFlush_cases p cx
      generalize p.pollFlush cx = x at this
      cases this with
      | nothing => rfl
      | flushed _ _ _ _ h => exact h.rd
      | blocked _ _ _ _ h => exact h.rd
      | failed _ _ _ _ _ h => exact h.rd
    obtain ⟨rfl, rfl⟩ : o = .sink (p.pollFlush cx).1 ∧ p' = (p.pollFlush cx).2 := by
      have h : (.ok (.sink (p.pollFlush cx).1, (p.pollFlush cx).2) : P (Out × Panel)) = .ok (o, p') := hst
      injection h with h
      injection h with a b
      exact ⟨a.symm, b.symm⟩
    rw [hm, hrd]
    exact ⟨hf, .inl ⟨rfl, v', hl', .sink ha (hl'.unsent ▸ hh)⟩⟩
  | pollClose cx =>
    simp only [bytesRead, bytesWritten, List.flatMap_cons, List.flatMap_nil, List.append_nil,
      List.nil_append] at hm
    have hh := close_halts p cx
    have flush : ∀ {x}, FlushCase p cx x → x.2.conn.rd = p.conn.rd := by
      intro x h
      cases h with
      | nothing => rfl
      | flushed _ _ _ _ h => exact h.rd
      | blocked _ _ _ _ h => exact h.rd
      | failed _ _ _ _ _ h => exact h.rd
    have hrd : (p.pollClose cx).2.conn.rd = p.conn.rd := by
      have := pollClose_cases p cx
      generalize p.pollClose cx = x at this
      cases this with
      | flushed _ _ _ h h' => exact h'.rd.trans (flush h)
      | stuck _ _ _ h => exact flush h
    obtain ⟨rfl, rfl⟩ : o = .sink (p.pollClose cx).1 ∧ p' = (p.pollClose cx).2 := by
      have h : (.ok (.sink (p.pollClose cx).1, (p.pollClose cx).2) : P (Out × Panel)) = .ok (o, p') := hst
      injection h with h
      injection h with a b
      exact ⟨a.symm, b.symm⟩
    rw [hm, hrd]
    exact ⟨hf, .inl ⟨rfl, v', hl', .sink ha (hl'.unsent ▸ hh)⟩⟩

theorem deeds_cons {op : Op} {ops : List Op} {p p2 : Panel} {ds : List Deed} :
    traced (op :: ops) p = .ok (ds, p2) ↔ ∃ o p1 ds', p.step op = .ok (o, p1) ∧
      traced ops p1 = .ok (ds', p2) ∧ ds = ⟨op, moved p p1, o⟩ :: ds' := by
  have e : traced (op :: ops) p = (p.step op >>= fun x => traced ops x.2 >>= fun y =>
      .ok (⟨op, moved p x.2, x.1⟩ :: y.1, y.2)) := rfl
  rw [e]
  constructor
  · intro h
    cases h1 : p.step op with
    | error e => rw [h1] at h; cases h
    | ok x =>
      obtain ⟨o, p1⟩ := x
      rw [h1] at h
      simp only [bind_ok] at h
      cases h2 : traced ops p1 with
      | error e => rw [h2] at h; cases h
      | ok y =>
        obtain ⟨ds', p3⟩ := y
        rw [h2] at h
        cases h
        exact ⟨o, p1, ds', rfl, h2, rfl⟩
  · rintro ⟨o, p1, ds', h1, h2, rfl⟩
    rw [h1]
    simp only [bind_ok, h2]

theorem behaves_of_traced {ops : List Op} : ∀ {p p' : Panel} {ds : List Deed} {v : View}, Good p →
    EofOk p.conn.rd → Looks p v → (∀ c ∈ commands ops, WfCommand c) →
    traced ops p = .ok (ds, p') →
    ∃ v', Looks p' v' ∧ Behaves v (earOf p.conn.rd) (calls ds) v' (earOf p'.conn.rd) := by
  induction ops with
  | nil => intro p p' ds v hg hf hl hw h; cases h; exact ⟨v, hl, .nil⟩
  | cons op ops ih =>
    intro p p' ds v hg hf hl hw h
    obtain ⟨o, p1, ds', h1, h2, rfl⟩ := deeds_cons.mp h
    have hw' : ∀ c ∈ commands ops, WfCommand c := fun c hcm => hw c (by
      unfold commands at hcm ⊢
      rw [List.filterMap_cons]
      split
      · exact hcm
      · exact List.mem_cons_of_mem _ hcm)
    have hg1 := step_good hg (step_cases hg.sane h1)
    obtain ⟨hf1, ⟨hc, v1, hl1, hd⟩ | ⟨hc, hl1, he⟩⟩ := does_of_step hg hf hl
      (fun c hcmd => hw c (by subst hcmd; simp [commands])) h1
    · obtain ⟨v', a, b⟩ := ih hg1 hf1 hl1 hw' h2
      refine ⟨v', a, ?_⟩
      have : calls (⟨op, moved p p1, o⟩ :: ds') = ⟨op, moved p p1, o⟩ :: calls ds' := by
        simp [calls, hc]
      rw [this]
      exact .cons hd b
    · obtain ⟨v', a, b⟩ := ih hg1 hf1 hl1 hw' h2
      refine ⟨v', a, ?_⟩
      have : calls (⟨op, moved p p1, o⟩ :: ds') = calls ds' := by
        simp [calls, hc]
      rw [this, ← he]
      exact b

/-! ## All that the machine allows -/

/-- The answers that deliver these bytes. -/
def chunk (io : Bytes) : List ReadItem := if io = [] then [] else [.data io]

theorem loop_chunk {f : ReadFrame} {io : Bytes} (hf : EofOk f) (he : f.hasErrored = false)
    (hr : Ripe f.buffer io) : ∃ g : ReadFrame, g.hasErrored = false ∧ EofOk g ∧
      g.buffer = f.buffer ++ io ∧ earOf g = (earOf f).after io ∧
      ∀ tail, f.loop (chunk io ++ tail) [] = g.loop tail io := by
  by_cases hio : io = []
  · subst hio
    exact ⟨f, he, hf, by simp, (after_nil he).symm, fun _ => rfl⟩
  · have hd : Dry f.buffer := dry_of_waits (hr.resolve_left hio)
    refine ⟨{ f with isReadable := true, buffer := f.buffer ++ io, eof := false }, he,
      (by intro h; cases h), rfl, ?_, ?_⟩
    · cases io with
      | nil => exact absurd rfl hio
      | cons x io => simp [earOf, Ear.after, he]
    · intro tail
      rw [chunk, if_neg hio, List.singleton_append, loop_dry_eq hd he hf]
      dsimp only
      rw [if_neg (by simpa using hio)]
      rfl

/-- With no answers left, a read loop takes nothing. -/
theorem loop_nil {f : ReadFrame} {got : Bytes} {o : ReadOut} (h : f.loop [] got = .ok o) :
    o.incoming = [] ∧ o.got = got := by
  unfold ReadFrame.loop at h
  obtain ⟨x, hx, hc⟩ := attempt_cases f
  rw [hx] at h
  cases hc <;> cases h <;> exact ⟨rfl, rfl⟩

theorem atEof_takes {f : ReadFrame} {q : List ReadItem} {got : Bytes} {o : ReadOut}
    (h : f.atEof q got = .ok o) : o.incoming = q ∧ o.got = got := by
  unfold ReadFrame.atEof at h
  split at h
  · cases h; exact ⟨rfl, rfl⟩
  · cases hx : ReadFrame.pausing { f with eof := true, isReadable := true } with
    | error e => rw [hx] at h; cases h
    | ok x => rw [hx] at h; cases h; exact ⟨rfl, rfl⟩

theorem loop_ok {f : ReadFrame} (hok : RdOk f) (q : List ReadItem) (got : Bytes) :
    ∃ o, f.loop q got = .ok o := by
  obtain ⟨o, _, h, _⟩ := loop_spec q got f hok
  exact ⟨o, h⟩

/-- Answers of the socket with which `poll_next` reads `io` and comes to this. -/
theorem loop_realises {f : ReadFrame} {io : Bytes} {α : Type} {r : Poll (Option (Except IoErr α))}
    {e' : Ear} (hok : RdOk f) (hf : EofOk f) (h : Hears (earOf f) f.buffer io r e')
    (hw : (∃ p rest, Front (f.buffer ++ io) (some p) rest) ∨ Waits (f.buffer ++ io))
    (hn : (r = .ready none ∨ ∃ x, r = .ready (some (.error x))) → Waits (f.buffer ++ io)) :
    ∃ q o, f.loop q [] = .ok o ∧ o.incoming = [] ∧ o.got = io ∧
      (r = .ready none → o.res = .ready none) ∧
      (∀ x, r = .ready (some (.error x)) → o.res = .ready (some (.error x))) ∧
      ((r ≠ .ready none ∧ ∀ x, r ≠ .ready (some (.error x))) →
        (∃ pkt, o.res = .ready (some (.ok pkt))) ∨ o.res = .pending) := by
  cases h with
  | spent hb hio =>
    subst hio
    have he : f.hasErrored = true := hb
    have hx : f.loop [] [] = .ok ⟨.ready none, { f with isReadable := false, hasErrored := false },
        [], []⟩ := by
      unfold ReadFrame.loop ReadFrame.attempt
      rw [if_pos he]
    exact ⟨[], _, hx, rfl, rfl, fun _ => rfl, (fun x h => nomatch h), fun h => absurd rfl h.1⟩
  | goes hb hr h1 h2 =>
    have he : f.hasErrored = false := hb
    obtain ⟨g, hg1, hg2, hg3, hg4, hg5⟩ := loop_chunk hf he hr
    obtain ⟨o, ho⟩ := loop_ok hok (chunk io ++ []) []
    have ho' := ho
    rw [hg5] at ho'
    obtain ⟨a, b⟩ := loop_nil ho'
    refine ⟨_, o, ho, a, b, fun h => absurd h h2, fun x h => absurd h (h1 x), fun _ => ?_⟩
    rcases hw with ⟨p, rest, hp⟩ | hw
    · have hd : Packet.decode g.buffer = .ok (some p, rest) := by
        rw [hg3]; exact C117_decode.mpr hp
      unfold ReadFrame.loop at ho'
      obtain ⟨x, hx, hc⟩ := attempt_cases g
      rw [hx] at ho'
      have nd : ¬ Dry g.buffer := fun h => by
        unfold Dry at h
        rw [hd] at h; cases h
      cases hc with
      | errored h => rw [hg1] at h; cases h
      | packet p rest => cases ho'; exact .inl ⟨p, rfl⟩
      | atEnd _ _ _ h => rw [h] at nd; exact absurd dry_nil nd
      | leftover _ _ _ h => exact absurd h nd
      | more _ _ _ h => exact absurd h nd
      | idle => cases ho'; exact .inr rfl
    · rw [loop_dry_eq (by rw [hg3]; exact dry_of_waits hw) hg1 hg2] at ho'
      cases ho'
      exact .inr rfl
  | @failed c hb hr =>
    have he : f.hasErrored = false := hb
    obtain ⟨g, hg1, hg2, hg3, hg4, hg5⟩ := loop_chunk hf he hr
    have hd : Dry g.buffer := by rw [hg3]; exact dry_of_waits (hn (.inr ⟨_, rfl⟩))
    have := hg5 [.error c]
    rw [loop_dry_eq hd hg1 hg2] at this
    exact ⟨_, _, this, rfl, rfl, (fun h => nomatch h), (fun x h => by cases h; rfl),
      fun h => absurd rfl (h.2 _)⟩
  | cut hb hr hne ho =>
    have he : f.hasErrored = false := hb
    obtain ⟨g, hg1, hg2, hg3, hg4, hg5⟩ := loop_chunk hf he hr
    have hd : Dry g.buffer := by rw [hg3]; exact dry_of_waits (hn (.inr ⟨_, rfl⟩))
    have := hg5 [.data []]
    rw [loop_dry_eq hd hg1 hg2] at this
    obtain ⟨o, hox⟩ := loop_ok hok (chunk io ++ [.data []]) []
    rw [hox] at this
    obtain ⟨a, b⟩ := atEof_takes this.symm
    refine ⟨_, o, hox, a, b, (fun h => nomatch h), fun x h => ?_, fun h => absurd rfl (h.2 _)⟩
    cases h
    have hoe : g.eof = false := by
      have : (earOf g).over = false := by rw [hg4]; exact ho
      exact this
    have hd' : Packet.decode g.buffer = .ok (none, g.buffer) := hd
    have hnb : g.buffer ≠ [] := by rw [hg3]; exact hne
    have this := this.symm
    simp only [List.length_nil, if_true, ReadFrame.atEof, hoe, ReadFrame.pausing, Codec.decode, hd',
      bind_ok, if_neg hnb] at this
    cases this
    rfl
  | ended hb hr hor =>
    have he : f.hasErrored = false := hb
    obtain ⟨g, hg1, hg2, hg3, hg4, hg5⟩ := loop_chunk hf he hr
    have hd : Dry g.buffer := by rw [hg3]; exact dry_of_waits (hn (.inl rfl))
    have := hg5 [.data []]
    rw [loop_dry_eq hd hg1 hg2] at this
    obtain ⟨o, hox⟩ := loop_ok hok (chunk io ++ [.data []]) []
    rw [hox] at this
    obtain ⟨a, b⟩ := atEof_takes this.symm
    refine ⟨_, o, hox, a, b, fun _ => ?_, (fun x h => nomatch h), fun h => absurd rfl h.1⟩
    have hd' : Packet.decode g.buffer = .ok (none, g.buffer) := hd
    have this := this.symm
    cases hoe : g.eof with
    | true =>
      simp only [List.length_nil, if_true, ReadFrame.atEof, hoe] at this
      cases this
      rfl
    | false =>
      have hnb : g.buffer = [] := by
        rcases hor with h | h
        · rw [hg3]; exact h
        · have : (earOf g).over = true := by rw [hg4]; exact h
          rw [show (earOf g).over = g.eof from rfl, hoe] at this
          cases this
      simp only [List.length_nil, if_true, ReadFrame.atEof, hoe, ReadFrame.pausing, Codec.decode,
        hd', bind_ok, if_pos hnb] at this
      cases this
      rfl

theorem hears_one {α : Type} {e e₁ e₂ : Ear} {u io : Bytes} {r : Poll (Option (Except IoErr α))}
    (h₁ : Hears e u io r e₁) (h₂ : Hears e u io r e₂) : e₁ = e₂ := by
  have no : ∀ {b : Bool}, b = true → b = false → False := by intro b h h'; rw [h] at h'; cases h'
  cases h₁ with
  | spent a b =>
    cases h₂ with
    | spent => rfl
    | goes _ _ _ h => exact absurd rfl h
    | ended h => exact (no a h).elim
  | goes a b c d =>
    cases h₂ with
    | spent => exact absurd rfl d
    | goes => rfl
    | failed => exact absurd rfl (c _)
    | cut => exact absurd rfl (c _)
    | ended => exact absurd rfl d
  | failed a b =>
    cases h₂ with
    | goes _ _ c d => exact absurd rfl (c _)
    | failed => rfl
  | cut =>
    cases h₂ with
    | goes _ _ c d => exact absurd rfl (c _)
    | cut => rfl
  | ended a =>
    cases h₂ with
    | spent h => exact (no h a).elim
    | goes _ _ _ h => exact absurd rfl h
    | ended => rfl

/-- Answers of the socket with which a flush writes `io` and comes to this. -/
theorem flushLoop_realises {buf io u : Bytes} {r : Poll (Except IoErr Unit)} (sent : Bytes)
    (h : Writes buf io r u) (hh : Halts r u) :
    ∃ w, ∀ tail, flushLoop (w ++ tail) buf sent = ⟨r, u, tail, sent ++ io⟩ := by
  obtain ⟨hb, h1, h2⟩ := h
  have start : ∀ tail, flushLoop ((if io = [] then [] else [.accept io.length]) ++ tail) buf sent =
      flushLoop tail u (sent ++ io) := by
    intro tail
    by_cases hio : io = []
    · subst hio
      simp [hb]
    · rw [if_neg hio]
      have hl : 0 < io.length := List.length_pos_iff.mpr hio
      conv => lhs; unfold flushLoop
      have hne : ¬ buf.length = 0 := by rw [hb]; simp [hio]
      rw [if_neg hne]
      dsimp only [List.cons_append, List.nil_append]
      have hm : min io.length buf.length = io.length := by
        rw [hb, List.length_append]; omega
      rw [hm, if_neg (by omega), hb, List.drop_left, List.take_left]
  have more : ∀ w : List WriteItem, (∀ tail, flushLoop (w ++ tail) u (sent ++ io) =
      ⟨r, u, tail, sent ++ io⟩) →
      ∃ w, ∀ tail, flushLoop (w ++ tail) buf sent = ⟨r, u, tail, sent ++ io⟩ := by
    intro w hw
    refine ⟨(if io = [] then [] else [.accept io.length]) ++ w, fun tail => ?_⟩
    rw [List.append_assoc, start, hw]
  have nz : u ≠ [] → ¬ u.length = 0 := fun h h' => h (List.length_eq_zero_iff.mp h')
  match r, h1, h2, hh with
  | .ready (.ok ()), h1, _, _ =>
    refine more [] fun tail => ?_
    rw [h1 rfl]
    unfold flushLoop
    rw [if_pos List.length_nil]
    rfl
  | .pending, _, h2, _ =>
    refine more [.blocked] fun tail => ?_
    unfold flushLoop
    rw [if_neg (nz (h2 rfl))]
    rfl
  | .ready (.error x), _, _, hh =>
    obtain ⟨hu, hx | ⟨c, hx⟩⟩ := hh x rfl
    · subst hx
      refine more [.accept 0] fun tail => ?_
      unfold flushLoop
      rw [if_neg (nz hu)]
      simp
    · subst hx
      refine more [.error c] fun tail => ?_
      unfold flushLoop
      rw [if_neg (nz hu)]
      rfl

theorem deeds_append {a b : List Op} : ∀ {p p1 p2 : Panel} {da db : List Deed},
    traced a p = .ok (da, p1) → traced b p1 = .ok (db, p2) →
    traced (a ++ b) p = .ok (da ++ db, p2) := by
  induction a with
  | nil => intro p p1 p2 da db h1 h2; cases h1; exact h2
  | cons op a ih =>
    intro p p1 p2 da db h1 h2
    obtain ⟨o, q, ds, h3, h4, rfl⟩ := deeds_cons.mp h1
    exact deeds_cons.mpr ⟨o, q, ds ++ db, h3, ih h4 h2, rfl⟩

theorem calls_append (a b : List Deed) : calls (a ++ b) = calls a ++ calls b := by
  simp [calls]

/-- A panel with answers of its socket. -/
def fed (p : Panel) (q : List ReadItem) (w : List WriteItem) (rr rw : Option Waker) : Panel :=
  { p with conn := { p.conn with sock := { p.conn.sock with
    incoming := q, writes := w, readWaker := rr, writeWaker := rw } } }

theorem feed_reads (q : List ReadItem) : ∀ p : Panel, ∃ ds rr,
    traced (q.map .arrive) p = .ok (ds, fed p (p.conn.sock.incoming ++ q) p.conn.sock.writes rr
      p.conn.sock.writeWaker) ∧ calls ds = [] := by
  induction q with
  | nil =>
    intro p
    refine ⟨[], p.conn.sock.readWaker, ?_, rfl⟩
    rw [List.append_nil]
    rfl
  | cons r q ih =>
    intro p
    obtain ⟨ds, rr, h, hc⟩ := ih (fed p (p.conn.sock.incoming ++ [r]) p.conn.sock.writes none
      p.conn.sock.writeWaker)
    refine ⟨_, rr, deeds_cons.mpr ⟨_, _, ds, rfl, ?_, rfl⟩, by simpa [calls, isCall] using hc⟩
    refine h.trans ?_
    simp [fed]

theorem feed_writes (w : List WriteItem) : ∀ p : Panel, ∃ ds rw,
    traced (w.map .writable) p = .ok (ds, fed p p.conn.sock.incoming (p.conn.sock.writes ++ w)
      p.conn.sock.readWaker rw) ∧ calls ds = [] := by
  induction w with
  | nil =>
    intro p
    refine ⟨[], p.conn.sock.writeWaker, ?_, rfl⟩
    rw [List.append_nil]
    rfl
  | cons r w ih =>
    intro p
    obtain ⟨ds, rw, h, hc⟩ := ih (fed p p.conn.sock.incoming (p.conn.sock.writes ++ [r])
      p.conn.sock.readWaker none)
    refine ⟨_, rw, deeds_cons.mpr ⟨_, _, ds, rfl, ?_, rfl⟩, by simpa [calls, isCall] using hc⟩
    refine h.trans ?_
    simp [fed]

theorem fed_good {p : Panel} (h : Good p) (q w rr rw) : Good (fed p q w rr rw) :=
  .mk' h.rd h.has h.zones h.flushed h.held

theorem fed_looks {p : Panel} {v : View} (h : Looks p v) (q w rr rw) : Looks (fed p q w rr rw) v :=
  ⟨h.unread, h.shown, h.zones, h.held, h.asked, h.unsent⟩

theorem connFlush_realises {c : Connection} {io u : Bytes} {r : Poll (Except IoErr Unit)}
    (h : Writes c.wbuf io r u) (hh : Halts r u) : ∃ w, ∀ q rr rw cx, ∃ rw',
      Connection.pollFlush { c with sock := { c.sock with
        incoming := q, writes := w, readWaker := rr, writeWaker := rw } } cx =
        (r, { c with wbuf := u, sock := { c.sock with
          incoming := q, writes := [], sent := c.sock.sent ++ io, readWaker := rr,
          writeWaker := rw' } }) := by
  obtain ⟨w, hw⟩ := flushLoop_realises c.sock.sent h hh
  refine ⟨w, fun q rr rw cx => ?_⟩
  have := hw []
  rw [List.append_nil] at this
  refine ⟨match (generalizing := false) r with
    | .pending => some cx.waker
    | .ready _ => rw, ?_⟩
  unfold Connection.pollFlush
  dsimp only
  rw [this]
  cases r <;> rfl

/-- What a sink operation came to. -/
structure Sunk (p p' : Panel) (io : Bytes) (v' : View) : Prop where
  looks : Looks p' v'
  incoming : p'.conn.sock.incoming = p.conn.sock.incoming
  writes : p'.conn.sock.writes = []
  received : p'.conn.sock.received = p.conn.sock.received
  sent : p'.conn.sock.sent = p.conn.sock.sent ++ io
  rd : p'.conn.rd = p.conn.rd

theorem asked_idle {p : Panel} {v : View} (hl : Looks p v) (h : v.asked = none) :
    p.cmdState = .idle := by
  have := hl.asked
  rw [h] at this
  split at this
  · assumption
  · cases this

theorem asked_busy {p : Panel} {v : View} {q : Message} {b : Bool} (hl : Looks p v)
    (h : v.asked = some (q, b)) : ∃ w, p.cmdState = .busy q (!b) w := by
  have := hl.asked
  rw [h] at this
  split at this
  · cases this
  · rename_i q' f w hc
    simp only [Option.some.injEq, Prod.mk.injEq] at this
    obtain ⟨rfl, rfl⟩ := this
    exact ⟨w, by simpa using hc⟩

theorem flush_realises {p : Panel} {v v' : View} {io : Bytes} {r : Poll (Except IoErr Unit)}
    (hl : Looks p v) (hq : p.conn.sock.incoming = []) (h : Flushing v io r v')
    (hh : Halts r v'.unsent) (cx : Cx) :
    ∃ w, ∀ rr rw, ∃ p', (fed p [] w rr rw).pollFlush cx = (r, p') ∧ Sunk p p' io v' := by
  cases h with
  | nothing hn hio =>
    subst hio
    refine ⟨[], fun rr rw => ⟨fed p [] [] rr rw, ?_, fed_looks hl _ _ _ _, hq.symm, rfl, rfl,
      by simp [fed], rfl⟩⟩
    unfold Panel.pollFlush
    split
    · rename_i q w hc
      have hc : p.cmdState = .busy q false w := hc
      have := hl.asked
      rw [hc] at this
      exact absurd this.symm (hn q)
    · rfl
  | @flushed q u ha hw =>
    obtain ⟨wk, hc⟩ := asked_busy hl ha
    rw [← hl.unsent] at hw
    obtain ⟨w, hx⟩ := connFlush_realises hw (by intro x h; cases h)
    refine ⟨w, fun rr rw => ?_⟩
    obtain ⟨rw', hx⟩ := hx [] rr rw cx
    refine ⟨{ fed p [] [] rr rw' with
        conn := { (fed p [] [] rr rw').conn with wbuf := u, sock :=
          { (fed p [] [] rr rw').conn.sock with sent := p.conn.sock.sent ++ io } }
        cmdState := .busy q true wk }, ?_,
      ⟨hl.unread, hl.shown, hl.zones, hl.held, rfl, rfl⟩, hq.symm, rfl, rfl, rfl, rfl⟩
    · unfold Panel.pollFlush
      have hc' : (fed p [] w rr rw).cmdState = .busy q false wk := hc
      rw [hc']
      dsimp only [fed]
      rw [hx]
  | @stuck q _ u ha hr hw =>
    obtain ⟨wk, hc⟩ := asked_busy hl ha
    rw [← hl.unsent] at hw
    obtain ⟨w, hx⟩ := connFlush_realises hw hh
    refine ⟨w, fun rr rw => ?_⟩
    obtain ⟨rw', hx⟩ := hx [] rr rw cx
    refine ⟨{ fed p [] [] rr rw' with
        conn := { (fed p [] [] rr rw').conn with wbuf := u, sock :=
          { (fed p [] [] rr rw').conn.sock with sent := p.conn.sock.sent ++ io } },
        cmdState := .busy q false wk }, ?_,
      ⟨hl.unread, hl.shown, hl.zones, hl.held, ha.symm, rfl⟩, hq.symm, rfl, rfl, rfl, rfl⟩
    · unfold Panel.pollFlush
      have hc' : (fed p [] w rr rw).cmdState = .busy q false wk := hc
      rw [hc']
      dsimp only [fed]
      rw [hx]
      match r, hr with
      | .ready (.ok ()), hr => exact absurd rfl hr
      | .ready (.error x), _ => rfl
      | .pending, _ => rfl

theorem ready_realises {p : Panel} {v v' : View} {io : Bytes} {r : Poll (Except IoErr Unit)}
    (hl : Looks p v) (hq : p.conn.sock.incoming = []) (h : Readying v io r v')
    (hh : Halts r v'.unsent) (cx : Cx) :
    ∃ w, ∀ rr rw, ∃ p', (fed p [] w rr rw).pollReady cx = (r, p') ∧ Sunk p p' io v' := by
  cases h with
  | idle ha hio =>
    subst hio
    refine ⟨[], fun rr rw => ⟨fed p [] [] rr rw, ?_, fed_looks hl _ _ _ _, hq.symm, rfl, rfl,
      by simp [fed], rfl⟩⟩
    unfold Panel.pollReady
    have hc' : (fed p [] [] rr rw).cmdState = .idle := (asked_idle hl ha : p.cmdState = .idle)
    rw [hc']
  | flushed hne hf =>
    cases hf with
    | nothing hn hio =>
      subst hio
      match ha : v.asked, hne with
      | none, hne => exact absurd rfl hne
      | some (q, true), _ => exact absurd ha (hn q)
      | some (q, false), _ =>
        obtain ⟨wk, hc⟩ := asked_busy hl ha
        refine ⟨[], fun rr rw => ⟨{ fed p [] [] rr rw with
            cmdState := .busy q true (some cx.waker) }, ?_,
          ⟨hl.unread, hl.shown, hl.zones, hl.held, by rw [ha]; rfl, hl.unsent⟩, hq.symm, rfl, rfl,
          by simp [fed], rfl⟩⟩
        unfold Panel.pollReady
        have hc' : (fed p [] [] rr rw).cmdState = .busy q true wk := hc
        rw [hc']
    | @flushed q u ha hw =>
      obtain ⟨wk, hc⟩ := asked_busy hl ha
      rw [← hl.unsent] at hw
      obtain ⟨w, hx⟩ := connFlush_realises hw (by intro x h; cases h)
      refine ⟨w, fun rr rw => ?_⟩
      obtain ⟨rw', hx⟩ := hx [] rr rw cx
      refine ⟨{ fed p [] [] rr rw' with
        conn := { (fed p [] [] rr rw').conn with wbuf := u, sock :=
          { (fed p [] [] rr rw').conn.sock with sent := p.conn.sock.sent ++ io } }
        cmdState := .busy q true (some cx.waker) }, ?_,
        ⟨hl.unread, hl.shown, hl.zones, hl.held, rfl, rfl⟩, hq.symm, rfl, rfl, rfl, rfl⟩
      unfold Panel.pollReady
      have hc' : (fed p [] w rr rw).cmdState = .busy q false wk := hc
      rw [hc']
      dsimp only [fed]
      rw [hx]
    | stuck _ h => exact absurd rfl h
  | stuck hne hr hf =>
    cases hf with
    | nothing => exact absurd rfl hr
    | flushed => exact absurd rfl hr
    | @stuck q _ u ha _ hw =>
      obtain ⟨wk, hc⟩ := asked_busy hl ha
      rw [← hl.unsent] at hw
      obtain ⟨w, hx⟩ := connFlush_realises hw hh
      refine ⟨w, fun rr rw => ?_⟩
      obtain ⟨rw', hx⟩ := hx [] rr rw cx
      refine ⟨{ fed p [] [] rr rw' with
          conn := { (fed p [] [] rr rw').conn with wbuf := u, sock :=
            { (fed p [] [] rr rw').conn.sock with sent := p.conn.sock.sent ++ io } },
          cmdState := .busy q false wk }, ?_,
        ⟨hl.unread, hl.shown, hl.zones, hl.held, ha.symm, rfl⟩, hq.symm, rfl, rfl, rfl, rfl⟩
      unfold Panel.pollReady
      have hc' : (fed p [] w rr rw).cmdState = .busy q false wk := hc
      rw [hc']
      dsimp only [fed]
      rw [hx]
      match r, hr with
      | .ready (.ok ()), hr => exact absurd rfl hr
      | .ready (.error x), _ => rfl
      | .pending, _ => rfl

theorem close_realises {p : Panel} {v v' : View} {io : Bytes} {r : Poll (Except IoErr Unit)}
    (hl : Looks p v) (hq : p.conn.sock.incoming = []) {cx : Cx}
    (h : Acts v (.pollClose cx) io (.sink r) v') (hh : Halts r v'.unsent) :
    ∃ w, ∀ rr rw, ∃ p', (fed p [] w rr rw).pollClose cx = (r, p') ∧ Sunk p p' io v' := by
  cases h with
  | @close _ io io' _ v1 u hf hw =>
    cases hf with
    | nothing hn hio =>
      subst hio
      rw [← hl.unsent] at hw
      obtain ⟨w, hx⟩ := connFlush_realises hw hh
      refine ⟨w, fun rr rw => ?_⟩
      obtain ⟨rw', hx⟩ := hx [] rr rw cx
      refine ⟨{ fed p [] [] rr rw' with
          conn := { (fed p [] [] rr rw').conn with wbuf := u, sock :=
            { (fed p [] [] rr rw').conn.sock with sent := p.conn.sock.sent ++ io' } } }, ?_,
        ⟨hl.unread, hl.shown, hl.zones, hl.held, hl.asked, rfl⟩, hq.symm, rfl, rfl, rfl, rfl⟩
      have hfl : (fed p [] w rr rw).pollFlush cx = (.ready (.ok ()), fed p [] w rr rw) := by
        unfold Panel.pollFlush
        split
        · rename_i q w hc
          have hc : p.cmdState = .busy q false w := hc
          have := hl.asked
          rw [hc] at this
          exact absurd this.symm (hn q)
        · rfl
      unfold Panel.pollClose Connection.pollClose
      rw [hfl]
      dsimp only [fed]
      rw [hx]
    | @flushed q u1 ha hw1 =>
      have hu1 : u1 = [] := hw1.2.1 rfl
      subst hu1
      obtain ⟨a, b, c⟩ := hw
      obtain ⟨rfl, rfl⟩ : io' = [] ∧ u = [] := by
        have a : [] = io' ++ u := a
        have := List.append_eq_nil_iff.mp a.symm
        exact this
      have hr : r = .ready (.ok ()) := by
        match r, c, hh with
        | .ready (.ok ()), _, _ => rfl
        | .pending, c, _ => exact absurd rfl (c rfl)
        | .ready (.error x), _, hh => exact absurd rfl (hh x rfl).1
      subst hr
      obtain ⟨w, hx⟩ := flush_realises hl hq (.flushed ha hw1) (by intro x h; cases h) cx
      refine ⟨w, fun rr rw => ?_⟩
      obtain ⟨p', hx, hs⟩ := hx rr rw
      refine ⟨p', ?_, ⟨hs.looks, hs.incoming, hs.writes, hs.received, by simpa using hs.sent, hs.rd⟩⟩
      unfold Panel.pollClose Connection.pollClose
      rw [hx]
      dsimp only
      have hwb : p'.conn.wbuf = [] := hs.looks.unsent
      have : p'.conn.pollFlush cx = (.ready (.ok ()), p'.conn) := by
        unfold Connection.pollFlush flushLoop
        rw [hwb, if_pos List.length_nil]
        dsimp only
        rw [← hwb]
      rw [this]
    | stuck _ h => exact absurd rfl h
  | closeStuck hr hf =>
    obtain ⟨w, hx⟩ := flush_realises hl hq hf hh cx
    refine ⟨w, fun rr rw => ?_⟩
    obtain ⟨p', hx, hs⟩ := hx rr rw
    refine ⟨p', ?_, hs⟩
    unfold Panel.pollClose
    rw [hx]
    match r, hr with
    | .ready (.ok ()), hr => exact absurd rfl hr
    | .ready (.error x), _ => rfl
    | .pending, _ => rfl

theorem conn_of_loop {c : Connection} {cx : Cx} {o : ReadOut}
    (h : c.rd.loop c.sock.incoming [] = .ok o) : ∃ c', c.pollNext cx = .ok (o.res, c') ∧
      c'.sock.incoming = o.incoming ∧ c'.sock.received = c.sock.received ++ o.got ∧
      c'.sock.writes = c.sock.writes := by
  unfold Connection.pollNext
  rw [h]
  exact ⟨_, rfl, rfl, rfl, rfl⟩

theorem panel_of_conn {p p' : Panel} {cx : Cx} {res : Poll Item} {c : Connection}
    {r : Poll PanelItem} {w : List Waker} (hok : RdOk p.conn.rd)
    (hc : p.conn.pollNext cx = .ok (res, c)) (h : p.pollNext cx = .ok (r, w, p')) :
    p'.conn = c ∧ (res = .ready none → r = .ready none) ∧
      (∀ x, res = .ready (some (.error x)) → r = .ready (some (.error x))) ∧
      ((∃ pkt, res = .ready (some (.ok pkt))) ∨ res = .pending →
        r ≠ .ready none ∧ ∀ x, r ≠ .ready (some (.error x))) := by
  obtain ⟨_, _, new, hc', hs⟩ := connNext_spec p.conn cx hok
  rw [hc] at hc'
  cases hc'
  unfold Panel.pollNext at h
  rw [hc] at h
  simp only [bind_ok] at h
  match res, hs, h with
  | .ready none, _, h =>
    cases h
    exact ⟨rfl, fun _ => rfl, (fun _ h => nomatch h), fun h => by simp at h⟩
  | .ready (some (.error e)), _, h =>
    cases h
    exact ⟨rfl, (fun h => nomatch h), (fun _ h => by cases h; rfl), fun h => by simp at h⟩
  | .ready (some (.ok pkt)), hs, h =>
    obtain ⟨⟨ev, w', q⟩, hi, hcs⟩ := interpret_cases { p with conn := c } cx.now pkt
      (parsed_wf (hs.packet pkt rfl))
    dsimp only at h
    rw [hi] at h
    cases h
    exact ⟨interp_conn hcs, (fun h => nomatch h), (fun _ h => nomatch h), fun _ => by simp⟩
  | .pending, _, h =>
    dsimp only at h
    unfold Panel.pollTimer at h
    dsimp only at h
    split at h
    · cases h
      exact ⟨rfl, (fun h => nomatch h), (fun _ h => nomatch h), fun _ => by simp⟩
    · split at h
      · cases hst : p.state.armingStatus with
        | none => rw [hst] at h; cases h
        | some x =>
          rw [hst] at h; cases h
          exact ⟨rfl, (fun h => nomatch h), (fun _ h => nomatch h), fun _ => by simp⟩
      · cases h
        exact ⟨rfl, (fun h => nomatch h), (fun _ h => nomatch h), fun _ => by simp⟩

theorem quiet_other (op : Op) (io : Bytes) (r : Poll PanelItem) (w w' : List Waker) :
    quiet ⟨op, io, .next r w⟩ = quiet ⟨op, io, .next r w'⟩ := rfl

/-- Answers of the socket with which `poll_next` does what the machine allows. -/
theorem next_realises {p : Panel} {v v' : View} {e' : Ear} {io : Bytes} {cx : Cx}
    {r : Poll PanelItem} {w : List Waker} (hg : Good p) (hf : EofOk p.conn.rd) (hl : Looks p v)
    (h : Reading cx v io r v') (hh : Hears (earOf p.conn.rd) v.unread io r e') :
    ∃ q, ∀ rr wr rw, ∃ r' w' p', (fed p q wr rr rw).step (.pollNext cx) = .ok (.next r' w', p') ∧
      Looks p' v' ∧ earOf p'.conn.rd = e' ∧ p'.conn.sock.incoming = [] ∧
      p'.conn.sock.writes = wr ∧ moved (fed p q wr rr rw) p' = io ∧
      quiet ⟨.pollNext cx, io, .next r' w'⟩ = quiet ⟨.pollNext cx, io, .next r w⟩ := by
  have hb := hl.unread
  have hwt : (r = .ready none ∨ ∃ x, r = .ready (some (.error x))) → Waits (v.unread ++ io) := by
    rintro (rfl | ⟨x, rfl⟩) <;> cases h <;> assumption
  have hfw : (∃ pk rest, Front (v.unread ++ io) (some pk) rest) ∨ Waits (v.unread ++ io) := by
    cases h with
    | event h => exact .inl ⟨_, _, h⟩
    | failed h => exact .inr h
    | ended h => exact .inr h
    | quiet h => exact .inr h
    | late h => exact .inr h
  obtain ⟨q, o, ho, hoi, hog, h1, h2, h3⟩ := loop_realises (f := p.conn.rd) (io := io) (r := r)
    hg.rd hf (by rw [hb]; exact hh) (by rw [hb]; exact hfw) (by rw [hb]; exact hwt)
  refine ⟨q, fun rr wr rw => ?_⟩
  have hg1 : Good (fed p q wr rr rw) := fed_good hg _ _ _ _
  obtain ⟨c, hc, hci, hcr, hcw⟩ := conn_of_loop (c := (fed p q wr rr rw).conn) (cx := cx) ho
  obtain ⟨⟨r', w', p'⟩, new, hn, _⟩ := pollNext_cases (fed p q wr rr rw) cx hg1.rd hg1.sane.arming
  obtain ⟨hpc, k1, k2, k3⟩ := panel_of_conn hg1.rd hc hn
  have hst : (fed p q wr rr rw).step (.pollNext cx) = .ok (.next r' w', p') := by
    unfold Panel.step
    dsimp only
    rw [hn]
    rfl
  obtain ⟨io', v2, ha, hl2, hr2, hs2⟩ := acts_of_step hg1 (fed_looks hl _ _ _ _)
    (by intro c h; cases h) hst
  have hio : io' = io := by
    simp only [bytesRead, List.flatMap_cons, List.flatMap_nil, List.append_nil] at hr2
    rw [hpc, hcr, hog] at hr2
    exact (List.append_cancel_left hr2).symm
  subst hio
  have hm := moved_eq hr2 hs2
  simp only [bytesRead, bytesWritten, List.flatMap_cons, List.flatMap_nil, List.append_nil] at hm
  cases ha with
  | next hR =>
    obtain ⟨io2, g1, g2, g3⟩ := panel_hears hg1 hf hn
    have hio2 : io2 = io' := by
      rw [hpc, hcr, hog] at g1
      exact (List.append_cancel_left g1).symm
    subst hio2
    have g2 : Hears (earOf p.conn.rd) v.unread io2 r' (earOf p'.conn.rd) := by
      rw [← hb]; exact g2
    -- what was returned is as it should be
    have key : v2 = v' ∧ quiet ⟨.pollNext cx, io2, .next r' w'⟩ =
        quiet ⟨.pollNext cx, io2, .next r w⟩ ∧ ((r = .ready none ∧ r' = .ready none) ∨
      (∃ x, r = .ready (some (.error x)) ∧ r' = .ready (some (.error x))) ∨
      ((r ≠ .ready none ∧ ∀ x, r ≠ .ready (some (.error x))) ∧
        (r' ≠ .ready none ∧ ∀ x, r' ≠ .ready (some (.error x))))) := by
      have wait : Waits (v.unread ++ io2) → (r ≠ .ready none ∧ ∀ x, r ≠ .ready (some (.error x))) →
          v2 = v' ∧ quiet ⟨.pollNext cx, io2, .next r' w'⟩ =
            quiet ⟨.pollNext cx, io2, .next r w⟩ ∧ ((r = .ready none ∧ r' = .ready none) ∨
          (∃ x, r = .ready (some (.error x)) ∧ r' = .ready (some (.error x))) ∨
          ((r ≠ .ready none ∧ ∀ x, r ≠ .ready (some (.error x))) ∧
            (r' ≠ .ready none ∧ ∀ x, r' ≠ .ready (some (.error x))))) := by
        intro hw hne
        have hne' := k3 (h3 hne)
        obtain ⟨hv, hr⟩ := C122_waits hw hR h hne' hne
        subst hr
        exact ⟨hv, quiet_other _ _ _ _ _, .inr (.inr ⟨hne, hne⟩)⟩
      cases h with
      | @event pkt rest ev _ hfr ht =>
        obtain ⟨hv, rfl, _⟩ := C122_packet hfr hR (.event hfr ht)
        exact ⟨hv, quiet_other _ _ _ _ _, .inr (.inr ⟨by simp, by simp⟩)⟩
      | @failed x hw =>
        have hr := k2 x (h2 x rfl)
        subst hr
        cases hR with
        | failed => exact ⟨rfl, rfl, .inr (.inl ⟨x, rfl, rfl⟩)⟩
      | ended hw =>
        have hr := k1 (h1 rfl)
        subst hr
        cases hR with
        | ended => exact ⟨rfl, rfl, .inl ⟨rfl, rfl⟩⟩
      | quiet hw hq => exact wait hw (by simp)
      | late hw hh hd => exact wait hw (by simp)
    obtain ⟨rfl, hq, hrel⟩ := key
    refine ⟨r', w', p', hst, hl2, hears_one g2 (hears_relabel hh hrel), ?_, ?_, hm, hq⟩
    · rw [hpc, hci, hoi]
    · rw [hpc, hcw]; rfl

/-- A panel whose socket has no answers queued. -/
structure Becalmed (p : Panel) : Prop where
  good : Good p
  rd : EofOk p.conn.rd
  incoming : p.conn.sock.incoming = []
  writes : p.conn.sock.writes = []

theorem sink_realises {p : Panel} {v v' : View} {op : Op} {io : Bytes}
    {r : Poll (Except IoErr Unit)} (hc : Becalmed p) (hl : Looks p v)
    (h : Acts v op io (.sink r) v') (hh : Halts r v'.unsent) :
    ∃ w, ∀ rr rw, ∃ p', (fed p [] w rr rw).step op = .ok (.sink r, p') ∧ Sunk p p' io v' ∧
      isCall op = true := by
  cases h with
  | @ready cx _ _ _ h =>
    obtain ⟨w, hw⟩ := ready_realises hl hc.incoming h hh cx
    refine ⟨w, fun rr rw => ?_⟩
    obtain ⟨p', a, b⟩ := hw rr rw
    refine ⟨p', ?_, b, rfl⟩
    unfold Panel.step
    dsimp only
    rw [a]
  | @flush cx _ _ _ h =>
    obtain ⟨w, hw⟩ := flush_realises hl hc.incoming h hh cx
    refine ⟨w, fun rr rw => ?_⟩
    obtain ⟨p', a, b⟩ := hw rr rw
    refine ⟨p', ?_, b, rfl⟩
    unfold Panel.step
    dsimp only
    rw [a]
  | @close cx io io' _ _ _ h1 h2 =>
    obtain ⟨w, hw⟩ := close_realises hl hc.incoming (.close (cx := cx) h1 h2) hh
    refine ⟨w, fun rr rw => ?_⟩
    obtain ⟨p', a, b⟩ := hw rr rw
    refine ⟨p', ?_, b, rfl⟩
    unfold Panel.step
    dsimp only
    rw [a]
  | @closeStuck cx _ _ _ h1 h2 =>
    obtain ⟨w, hw⟩ := close_realises hl hc.incoming (.closeStuck (cx := cx) h1 h2) hh
    refine ⟨w, fun rr rw => ?_⟩
    obtain ⟨p', a, b⟩ := hw rr rw
    refine ⟨p', ?_, b, rfl⟩
    unfold Panel.step
    dsimp only
    rw [a]

/-- One call that the machine allows. -/
theorem deed_realises {p : Panel} {v v' : View} {d : Deed} {e' : Ear} (hc : Becalmed p)
    (hl : Looks p v) (h : Does v (earOf p.conn.rd) d v' e')
    (hw : ∀ c, d.op = .startSend c → WfCommand c) :
    ∃ ops ds p', traced ops p = .ok (ds, p') ∧ (calls ds).map quiet = [quiet d] ∧ Becalmed p' ∧
      Looks p' v' ∧ earOf p'.conn.rd = e' ∧ (∀ c ∈ commands ops, WfCommand c) := by
  cases h with
  | @next cx io r w _ _ ha hh =>
    cases ha with
    | next hR =>
      obtain ⟨q, hq⟩ := next_realises (w := w) hc.good hc.rd hl hR hh
      obtain ⟨ds, rr, h1, h2⟩ := feed_reads q p
      rw [hc.incoming, List.nil_append] at h1
      obtain ⟨r', w', p', a, b, c, d, e, f, g⟩ := hq rr p.conn.sock.writes p.conn.sock.writeWaker
      have hg1 := fed_good hc.good q p.conn.sock.writes rr p.conn.sock.writeWaker
      have hd := does_of_step hg1 hc.rd (fed_looks hl _ _ _ _) (by intro c h; cases h) a
      refine ⟨_, _, p', deeds_append h1 (deeds_cons.mpr ⟨_, _, [], a, (rfl : traced [] _ = _), rfl⟩), ?_,
        ⟨step_good hg1 (step_cases hg1.sane a), hd.1, d, e.trans hc.writes⟩, b, c, ?_⟩
      · rw [calls_append, h2, f]
        simpa [calls, isCall] using g
      · intro c hcm
        simp [commands, List.filterMap_append, List.filterMap_map] at hcm
  | @send c io _ ha =>
    cases ha with
    | send hn =>
      have hi := asked_idle hl hn
      have hs := startSend_wf (hw c rfl) hi
      have hst : p.step (.startSend c) = .ok (.accepted, { p with
          conn := { p.conn with wbuf := p.conn.wbuf ++ commandBytes c },
          cmdState := .busy c.intoMsg false none }) := by
        unfold Panel.step
        dsimp only
        rw [hs]
        rfl
      refine ⟨_, _, _, deeds_cons.mpr ⟨_, _, [], hst, (rfl : traced [] _ = _), rfl⟩, ?_,
        ⟨step_good hc.good (step_cases hc.good.sane hst), hc.rd, hc.incoming, hc.writes⟩,
        ⟨hl.unread, hl.shown, hl.zones, hl.held, rfl, ?_⟩, rfl, ?_⟩
      · simp [calls, isCall, moved]
      · show _ ++ _ = _ ++ _
        rw [hl.unsent]
      · intro c' hcm
        simp [commands] at hcm
        exact hcm ▸ hw c rfl
  | @sink op io r _ ha hh =>
    obtain ⟨w, hwx⟩ := sink_realises hc hl ha hh
    obtain ⟨ds, rw, h1, h2⟩ := feed_writes w p
    rw [hc.incoming, hc.writes, List.nil_append] at h1
    obtain ⟨p', a, b, hcall⟩ := hwx p.conn.sock.readWaker rw
    have hg1 := fed_good hc.good [] w p.conn.sock.readWaker rw
    have hns : ∀ c, op ≠ .startSend c := by
      rintro c rfl
      cases ha
    have hmv : moved (fed p [] w p.conn.sock.readWaker rw) p' = io := by
      have := moved_eq (p := fed p [] w p.conn.sock.readWaker rw) (p' := p') (a := []) (b := io)
        (by rw [b.received]; simp [fed]) b.sent
      simpa using this
    refine ⟨_, _, p', deeds_append h1 (deeds_cons.mpr ⟨_, _, [], a, (rfl : traced [] _ = _), rfl⟩), ?_,
      ⟨step_good hg1 (step_cases hg1.sane a), b.rd ▸ hc.rd, b.incoming.trans hc.incoming, b.writes⟩,
      b.looks, by rw [b.rd], ?_⟩
    · rw [calls_append, h2, hmv]
      simp [calls, hcall]
    · intro c hcm
      simp only [commands, List.filterMap_append, List.filterMap_map, List.mem_append] at hcm
      rcases hcm with hcm | hcm
      · simp at hcm
      · cases op <;> simp_all

theorem traced_of_behaves {l : List Deed} : ∀ {p : Panel} {v v' : View} {e' : Ear}, Becalmed p →
    Looks p v → Behaves v (earOf p.conn.rd) l v' e' →
    (∀ d ∈ l, ∀ c, d.op = .startSend c → WfCommand c) →
    ∃ ops ds p', traced ops p = .ok (ds, p') ∧ (calls ds).map quiet = l.map quiet ∧ Looks p' v' ∧
      (∀ c ∈ commands ops, WfCommand c) := by
  induction l with
  | nil =>
    intro p v v' e' hc hl h hw
    cases h
    exact ⟨[], [], p, rfl, rfl, hl, by simp [commands]⟩
  | cons d l ih =>
    intro p v v' e' hc hl h hw
    cases h with
    | cons h1 h2 =>
      obtain ⟨ops, ds, p1, a, b, c, d1, e, f⟩ := deed_realises hc hl h1 (hw d (by simp))
      rw [← e] at h2
      obtain ⟨ops', ds', p', a', b', c', f'⟩ := ih c d1 h2 (fun d hd => hw d (by simp [hd]))
      refine ⟨_, _, p', deeds_append a a', ?_, c', ?_⟩
      · rw [calls_append, List.map_append, b, b']; rfl
      · intro c hcm
        unfold commands at hcm
        rw [List.filterMap_append, List.mem_append] at hcm
        exact hcm.elim (f c) (f' c)

theorem deeds_ops {ops : List Op} : ∀ {p p' : Panel} {ds : List Deed},
    traced ops p = .ok (ds, p') → ds.map Deed.op = ops := by
  induction ops with
  | nil => intro p p' ds h; cases h; rfl
  | cons op ops ih =>
    intro p p' ds h
    obtain ⟨o, p1, ds', h1, h2, rfl⟩ := deeds_cons.mp h
    rw [List.map_cons, ih h2]

theorem deeds_commands {ops : List Op} {p p' : Panel} {ds : List Deed}
    (h : traced ops p = .ok (ds, p')) (hw : ∀ c ∈ commands ops, WfCommand c) :
    ∀ d ∈ calls ds, ∀ c, d.op = .startSend c → WfCommand c := by
  intro d hd c hc
  have hd : d ∈ ds := (List.mem_filter.mp hd).1
  have : d.op ∈ ops := by rw [← deeds_ops h]; exact List.mem_map_of_mem hd
  refine hw c ?_
  unfold commands
  exact List.mem_filterMap.mpr ⟨d.op, this, by rw [hc]⟩

/-- **C134** Exactly the histories of the reference machine, with the rules of Spec/Exact.lean, are
histories of a panel: of one that has just connected, and whose connection gives what answers it
likes.  A history is the calls made with their times, the bytes that each read or wrote, and what
each returned; what the panel looks like at the end is part of it. -/
theorem C134_exact {p0 : Panel} (hc : Connected p0) (hb : p0.conn.rd.hasErrored = false)
    (ho : p0.conn.rd.eof = false) (hi : p0.conn.sock.incoming = [])
    (hw : p0.conn.sock.writes = []) {v0 : View} (h0 : Looks p0 v0) {v : View} {h : List Deed} :
    (∃ ops ds p, traced ops p0 = .ok (ds, p) ∧ (∀ c ∈ commands ops, WfCommand c) ∧ Looks p v ∧
      (calls ds).map quiet = h) ↔
    (∃ l e, Behaves v0 ⟨false, false⟩ l v e ∧ (∀ d ∈ l, ∀ c, d.op = .startSend c → WfCommand c) ∧
      l.map quiet = h) := by
  have he : earOf p0.conn.rd = ⟨false, false⟩ := by simp [earOf, hb, ho]
  have hf : EofOk p0.conn.rd := by intro h; rw [ho] at h; cases h
  have hg := connected_good hc
  constructor
  · rintro ⟨ops, ds, p, h1, h2, h3, h4⟩
    obtain ⟨v', a, b⟩ := behaves_of_traced hg hf h0 h2 h1
    have : v' = v := looks_one a h3
    subst this
    rw [he] at b
    exact ⟨_, _, b, deeds_commands h1 h2, h4⟩
  · rintro ⟨l, e, h1, h2, h3⟩
    rw [← he] at h1
    obtain ⟨ops, ds, p, a, b, c, d⟩ := traced_of_behaves ⟨hg, hf, hi, hw⟩ h0 h1 h2
    exact ⟨ops, ds, p, a, d, c, b.trans h3⟩

/-! ## What connecting leaves -/

/-- The connection of a phase. -/
def Has (ph : Phase) (c : Connection) : Prop :=
  match ph with
  | .asking i => i.panel.conn = c
  | .finished (.ok p) => p.conn = c
  | .finished (.error _) => True

theorem ask_has {p : Panel} {st : Stage} {ph : Phase} (h : Init.ask p st = .ok ph) :
    Has ph p.conn := by
  unfold Init.ask at h
  cases h1 : st.request with
  | error e => rw [h1] at h; cases h
  | ok m =>
    rw [h1] at h
    simp only [bind_ok] at h
    cases h2 : m.toPkt with
    | error e => rw [h2] at h; cases h
    | ok pkt => rw [h2] at h; cases h; rfl

theorem callSds_has {p : Panel} : ∀ {todo : List (TextDescriptionType × Nat)} {ph : Phase},
    Init.callSds p todo = .ok ph → Has ph p.conn
  | [], ph, h => by cases h; rfl
  | (ty, max) :: todo, ph, h => by
    unfold Init.callSds at h
    split at h
    · exact ask_has h
    · exact callSds_has h

theorem loopSds_has {p : Panel} {ty max unfilled todo} {ph : Phase}
    (h : Init.loopSds p ty max unfilled todo = .ok ph) : Has ph p.conn := by
  unfold Init.loopSds at h
  split at h
  · exact ask_has h
  · exact callSds_has h

theorem replied_has {p : Panel} {st msg} {ph : Phase} (h : Init.replied p st msg = .ok ph) :
    Has ph p.conn := by
  unfold Init.replied at h
  match st, h with
  | .arming, h => exact ask_has h
  | .zones, h => exact callSds_has h
  | .names ty max unfilled todo, h =>
    dsimp only at h
    unfold Init.described at h
    split at h
    · split at h
      · cases h
      · cases h1 : expectSome (p.state.names ty) with
        | error e => rw [h1] at h; cases h
        | ok x =>
          rw [h1] at h
          simp only [bind_ok] at h
          split at h
          · exact callSds_has h
          · split at h
            · cases h
            · generalize hx : p.state.setName ty _ _ = x at h
              match x, h with
              | .error e, h => cases h
              | .ok s, h =>
                simp only [bind_ok] at h
                exact loopSds_has (p := { p with state := s }) h
    · cases h

/-- A connection that has neither failed nor ended. -/
def Unbroken (c : Connection) : Prop :=
  RdOk c.rd ∧ c.rd.hasErrored = false ∧ c.rd.eof = false

theorem sound_next {c c' : Connection} {cx : Cx} {r : Poll Item} (hs : Unbroken c)
    (h : c.pollNext cx = .ok (r, c')) (h1 : r ≠ .ready none)
    (h2 : ∀ x, r ≠ .ready (some (.error x))) : Unbroken c' := by
  obtain ⟨a, b, d⟩ := hs
  obtain ⟨io, _, hh, _⟩ := conn_hears a (by intro h; rw [d] at h; cases h) h
  obtain ⟨_, _, new, hn, hsp⟩ := connNext_spec c cx a
  rw [h] at hn
  cases hn
  have e : earOf c'.rd = ⟨false, false⟩ := by
    have he : earOf c.rd = ⟨false, false⟩ := by simp [earOf, b, d]
    rw [he] at hh
    generalize earOf c'.rd = e' at hh
    cases hh with
    | spent hb => cases hb
    | goes => rfl
    | failed => exact absurd rfl (h2 _)
    | cut => exact absurd rfl (h2 _)
    | ended => exact absurd rfl h1
  exact ⟨hsp.inv, congrArg Ear.broken e, congrArg Ear.over e⟩

/-- What is kept while connecting. -/
def SoundPhase (ph : Phase) : Prop :=
  match ph with
  | .asking i => Unbroken i.panel.conn
  | .finished (.ok p) => Unbroken p.conn
  | .finished (.error _) => True

theorem soundPhase_of {ph : Phase} {c : Connection} (h : Has ph c) (hs : Unbroken c) :
    SoundPhase ph := by
  unfold Has at h
  unfold SoundPhase
  split
  · subst h; exact hs
  · subst h; exact hs
  · trivial

theorem step_sound {i : Init} {op : InitOp} {o : Obs} {ph : Phase} (hs : Unbroken i.panel.conn)
    (h : i.step op = .ok (o, ph)) : SoundPhase ph := by
  have flush : ∀ {c c' : Connection} {cx r}, Unbroken c → c.pollFlush cx = (r, c') → Unbroken c' := by
    intro c c' cx r hs h
    have := (connFlush_spec c cx).rd
    rw [h] at this
    unfold Unbroken
    rw [this]
    exact hs
  match op, h with
  | .arrive r, h => cases h; exact hs
  | .writable r, h => cases h; exact hs
  | .tick cx, h =>
    unfold Init.step Init.tick at h
    dsimp only at h
    split at h
    · rename_i pkt _
      have hr : ∀ {r c'}, i.panel.conn.pollReady cx = (r, c') → Unbroken c' := by
        intro r c' h
        unfold Connection.pollReady at h
        split at h
        · exact flush hs h
        · cases h; exact hs
      match hx : i.panel.conn.pollReady cx, h with
      | (.pending, c), h => cases h; exact hr hx
      | (.ready (.error e), c), h => cases h; trivial
      | (.ready (.ok ()), c), h =>
        dsimp only at h
        cases hsd : c.startSend pkt with
        | error e => rw [hsd] at h; cases h
        | ok c1 =>
          rw [hsd] at h
          cases h
          have hc := hr hx
          unfold Connection.startSend at hsd
          cases he : Codec.encode pkt c.wbuf with
          | error e => rw [he] at hsd; cases hsd
          | ok w => rw [he] at hsd; cases hsd; exact hc
    · match hx : i.panel.conn.pollFlush cx, h with
      | (.pending, c), h => cases h; exact flush hs hx
      | (.ready (.error e), c), h => cases h; trivial
      | (.ready (.ok ()), c), h => cases h; exact flush hs hx
    · cases hx : i.panel.conn.pollNext cx with
      | error e => rw [hx] at h; cases h
      | ok x =>
        obtain ⟨r, c⟩ := x
        rw [hx] at h
        simp only [bind_ok] at h
        match r, hx, h with
        | .pending, hx, h => cases h; exact sound_next hs hx (by simp) (by simp)
        | .ready none, hx, h => cases h; trivial
        | .ready (some (.error e)), hx, h => cases h; trivial
        | .ready (some (.ok pkt)), hx, h =>
          have hc := sound_next hs hx (by simp) (by simp)
          dsimp only at h
          unfold Init.received at h
          · obtain ⟨_, _, new, hn, hsp⟩ := connNext_spec i.panel.conn cx hs.1
            rw [hx] at hn
            injection hn with hn
            injection hn with hn1 hn2
            subst hn1 hn2
            obtain ⟨⟨ev, w, p1⟩, hi, hic⟩ := interpret_cases { i.panel with conn := c } cx.now pkt
              (parsed_wf (hsp.packet pkt rfl))
            rw [hi] at h
            simp only [bind_ok] at h
            have hp : p1.conn = c := interp_conn hic
            split at h
            · split at h
              · rename_i m _ _
                cases hr : Init.replied p1 i.stage ev.msg with
                | error e => rw [hr] at h; cases h
                | ok ph' =>
                  rw [hr] at h
                  cases h
                  exact soundPhase_of (replied_has hr) (hp ▸ hc)
              · cases h; exact soundPhase_of (c := c) hp hc
            · cases h; exact soundPhase_of (c := c) hp hc

theorem run_sound {ops : List InitOp} : ∀ {ph ph' : Phase} {os : List Obs}, SoundPhase ph →
    Phase.run ops ph = .ok (os, ph') → SoundPhase ph' := by
  induction ops with
  | nil => intro ph ph' os hs h; cases h; exact hs
  | cons op ops ih =>
    intro ph ph' os hs h
    match ph, hs, h with
    | .finished r, hs, h => cases h; exact hs
    | .asking i, hs, h =>
      unfold Phase.run at h
      cases h1 : i.step op with
      | error e => rw [h1] at h; cases h
      | ok x =>
        obtain ⟨o, ph1⟩ := x
        rw [h1] at h
        simp only [bind_ok] at h
        cases h2 : Phase.run ops ph1 with
        | error e => rw [h2] at h; cases h
        | ok y =>
          rw [h2] at h
          cases h
          exact ih (step_sound hs h1) h2

/-- **C134** What `connect` returns has neither failed nor ended, as `C134_exact` asks. -/
theorem C134_connect {conn : Connection} (hc : Fresh conn) {ops : List InitOp} {os : List Obs}
    {p : Panel} (h : Init.connect conn ops = .ok (os, .finished (.ok p))) :
    p.conn.rd.hasErrored = false ∧ p.conn.rd.eof = false := by
  unfold Init.connect at h
  cases h1 : Init.start conn with
  | error e => rw [h1] at h; cases h
  | ok ph =>
    rw [h1] at h
    simp only [bind_ok] at h
    have hs : Unbroken conn := by
      unfold Unbroken
      rw [hc.rd]
      exact ⟨fun _ => dry_nil, rfl, rfl⟩
    have := run_sound (soundPhase_of (ask_has h1) hs) h
    exact this.2

/-- **C134** After an error, the next `poll_next` returns the end without reading, whatever is sent
or flushed in between. -/
theorem C134_error_then_end {v v₁ v₂ v₃ : View} {e e₁ e₂ e₃ : Ear} {cx cx' : Cx} {io io' : Bytes}
    {x : IoErr} {w w' : List Waker} {l : List Deed} {r : Poll PanelItem}
    (h : Does v e ⟨.pollNext cx, io, .next (.ready (some (.error x))) w⟩ v₁ e₁)
    (hl : Behaves v₁ e₁ l v₂ e₂) (hn : ∀ d ∈ l, ∀ cx, d.op ≠ .pollNext cx)
    (h' : Does v₂ e₂ ⟨.pollNext cx', io', .next r w'⟩ v₃ e₃) :
    r = .ready none ∧ io' = [] := by
  have b1 : e₁.broken = true := by
    cases h with
    | next _ hh =>
      cases hh with
      | goes _ _ h => exact absurd rfl (h _)
      | failed => rfl
      | cut => rfl
  clear h
  have b2 : e₂.broken = true := by
    induction hl with
    | nil => exact b1
    | cons hd _ ih =>
      refine ih (fun d hd => hn d (by simp [hd])) h' ?_
      cases hd with
      | next => exact absurd rfl (hn _ List.mem_cons_self _)
      | send => exact b1
      | sink => exact b1
  have no : ∀ {α : Prop}, e₂.broken = false → α := by
    intro α h; rw [b2] at h; cases h
  cases h' with
  | next _ hh =>
    cases hh with
    | spent _ h => exact ⟨rfl, h⟩
    | goes h => exact no h
    | failed h => exact no h
    | cut h => exact no h
    | ended h => exact no h

/-- **C134** A packet that is at hand is returned without reading. -/
theorem C134_frugal {v v' : View} {e e' : Ear} {cx : Cx} {io rest : Bytes} {w : List Waker}
    {r : Poll PanelItem} {pkt : Packet} (hf : Front v.unread (some pkt) rest)
    (hb : e.broken = false) (h : Does v e ⟨.pollNext cx, io, .next r w⟩ v' e') :
    io = [] ∧ v'.unread = rest ∧ ∃ ev, r = .ready (some (.ok ev)) ∧ ev.pkt = some pkt := by
  have no : ¬ Waits v.unread := fun hw => nomatch (front_one hf (.waits hw)).1
  cases h with
  | next ha hh =>
    have hio : io = [] := by
      cases hh with
      | spent _ h => exact h
      | goes _ h => exact h.resolve_right no
      | failed _ h => exact h.resolve_right no
      | cut _ h => exact h.resolve_right no
      | ended _ h => exact h.resolve_right no
    subst hio
    cases ha with
    | next hR =>
      obtain ⟨_, _, hu, e1, h1, hp⟩ :=
        C122_packet (by rw [List.append_nil]; exact hf) hR hR
      exact ⟨rfl, hu, e1, h1, hp⟩

/-- Not vacuous: a panel whose connection fails, and then ends, and then goes on with a zone
change. -/
example : ∃ (v0 v : View) (l : List Deed) (ops : List Op) (ds : List Deed) (p : Panel),
    Looks (samplePanel []) v0 ∧ traced ops (samplePanel []) = .ok (ds, p) ∧ Looks p v ∧
    (calls ds).map quiet = l.map quiet ∧ l.length = 3 ∧ v0.unread = [] ∧ v.unread = [b' '0'] := by
  have hg := connected_good (samplePanel_connected [])
  obtain ⟨v0, h0⟩ := looks_of_good hg
  have hu : v0.unread = [] := h0.unread.symm
  have hw : Waits v0.unread := by rw [hu]; exact .few (by decide)
  have hw1 : Waits (v0.unread ++ [b' '0']) := by rw [hu]; exact .few (by decide)
  have hw0 : Waits (v0.unread ++ []) := by rw [List.append_nil]; exact hw
  have hh : v0.held = none := by rw [← h0.held]; rfl
  have step : ∀ {v : View}, v.unread = [] → v.held = none → Behaves v ⟨false, false⟩
      [⟨.pollNext ⟨1, 0, 0⟩, [], .next (.ready (some (.error (.socket 5)))) []⟩,
       ⟨.pollNext ⟨1, 0, 0⟩, [], .next (.ready none) []⟩,
       ⟨.pollNext ⟨1, 0, 0⟩, [b' '0'], .next .pending []⟩] { v with unread := [b' '0'] }
      ⟨false, false⟩ := by
    rintro ⟨_, sh, z, _, as, us⟩ hu hh
    subst hu hh
    have w0 : Waits ([] ++ []) := .few (by decide)
    have w1 : Waits ([] ++ [b' '0']) := .few (by decide)
    exact .cons (.next (.next (.failed w0)) (.failed rfl (.inl rfl)))
      (.cons (.next (.next (.ended w0)) (.spent rfl rfl))
        (.cons (.next (.next (.quiet w1 (fun _ _ h => nomatch h)))
          (.goes rfl (.inr w0) (by simp) (by simp))) .nil))
  obtain ⟨ops, ds, p, a, _, b, c⟩ := (C134_exact (samplePanel_connected []) rfl rfl rfl rfl h0
    (v := { v0 with unread := [b' '0'] }) (h := _)).mpr
    ⟨_, _, step hu hh,
      (by intro d hd c hc; simp at hd; rcases hd with rfl | rfl | rfl <;> cases hc), rfl⟩
  exact ⟨v0, _, _, ops, ds, p, h0, a, b, c, rfl, hu, rfl⟩

end Elk.Props
