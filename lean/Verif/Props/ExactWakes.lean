import Verif.Spec.ExactWakes
import Verif.Props.Exact
import Verif.Props.Sink
/-!
# C142: which tasks are woken, exactly
-/

namespace Elk.Props
open Elk Elk.Spec

/-- The tasks that a panel would wake. -/
def sleepersOf (p : Panel) : Sleepers where
  reader := p.conn.sock.readWaker
  writer := p.conn.sock.writeWaker
  sender := match p.cmdState with
    | .busy _ _ w => w
    | .idle => none

/-! ## What a step of the panel does to them -/

/-- Who waits to read after `poll_next` of the connection returned this. -/
def readerAfter (old : Option Waker) (cx : Cx) : Poll Item → Option Waker
  | .pending => some cx.waker
  | .ready _ => old

theorem connNext_reader {c c' : Connection} {cx : Cx} {r : Poll Item}
    (h : c.pollNext cx = .ok (r, c')) :
    c'.sock.readWaker = readerAfter c.sock.readWaker cx r ∧
    c'.sock.writeWaker = c.sock.writeWaker := by
  unfold Connection.pollNext at h
  cases ho : c.rd.loop c.sock.incoming [] with
  | error e => rw [ho] at h; cases h
  | ok o =>
    rw [ho] at h
    simp only [bind_ok] at h
    injection h with h
    injection h with h1 h2
    subst h1 h2
    refine ⟨?_, rfl⟩
    dsimp only
    cases o.res <;> rfl

theorem interp_sleepers {p p' : Panel} {now : Nat} {pkt : Packet} {ev : Event} {w : List Waker}
    (h : InterpCase p now pkt (ev, w, p')) :
    p'.conn = p.conn ∧ ev.pkt = some pkt ∧
    w = (if ev.completes.isSome then (sleepersOf p).sender.toList else []) ∧
    (sleepersOf p').sender = (if ev.completes.isSome then none else (sleepersOf p).sender) := by
  cases h with
  | bad => exact ⟨rfl, rfl, rfl, rfl⟩
  | skip => exact ⟨rfl, rfl, rfl, rfl⟩
  | msg m ch p1 co wo p2 hm hwf ht hc =>
    have h1 : p1.conn = p.conn ∧ p1.cmdState = p.cmdState := by
      cases ht <;> exact ⟨rfl, rfl⟩
    cases hc with
    | idle h => exact ⟨h1.1, rfl, rfl, by simp [sleepersOf, h1.2]⟩
    | done request f wk h hr =>
      refine ⟨h1.1, rfl, ?_, rfl⟩
      rw [h1.2] at h
      simp [sleepersOf, h]
    | busy request f wk h hr => exact ⟨h1.1, rfl, rfl, by simp [sleepersOf, h1.2]⟩

/-- `poll_next` of a panel. -/
theorem next_sleepers {p p' : Panel} {cx : Cx} {r : Poll PanelItem} {w : List Waker} (hg : Good p)
    (h : p.pollNext cx = .ok (r, w, p')) :
    w = (if finishes r then (sleepersOf p).sender.toList else []) ∧
    p'.conn.sock.readWaker = (if foundNothing r then some cx.waker else p.conn.sock.readWaker) ∧
    p'.conn.sock.writeWaker = p.conn.sock.writeWaker ∧
    (sleepersOf p').sender = (if finishes r then none else (sleepersOf p).sender) := by
  obtain ⟨rc, c, new, hc, hs⟩ := connNext_spec p.conn cx hg.rd
  obtain ⟨h1, h2⟩ := connNext_reader hc
  unfold Panel.pollNext at h
  rw [hc] at h
  simp only [bind_ok] at h
  match rc, hs with
  | .ready (some (.error e)), hs => cases h; exact ⟨rfl, h1, h2, rfl⟩
  | .ready none, hs => cases h; exact ⟨rfl, h1, h2, rfl⟩
  | .ready (some (.ok pkt)), hs =>
    obtain ⟨⟨ev, w', p1⟩, hi, hic⟩ := interpret_cases { p with conn := c } cx.now pkt
      (parsed_wf (hs.packet pkt rfl))
    dsimp only at h
    rw [hi] at h
    cases h
    obtain ⟨a, b, d, e⟩ := interp_sleepers hic
    refine ⟨d, ?_, by rw [a]; exact h2, e⟩
    rw [a]
    simp only [foundNothing, b, Option.isNone_some]
    exact h1
  | .pending, hs =>
    dsimp only at h
    unfold Panel.pollTimer at h
    split at h
    · cases h; exact ⟨rfl, h1, h2, rfl⟩
    · split at h
      · cases hst : p.state.armingStatus with
        | none => exact absurd hst hg.has
        | some prior =>
          rw [hst] at h
          cases h
          exact ⟨rfl, h1, h2, rfl⟩
      · cases h; exact ⟨rfl, h1, h2, rfl⟩

theorem flushCase_sleepers {p p' : Panel} {cx : Cx} {r : Poll (Except IoErr Unit)}
    (h : FlushCase p cx (r, p')) :
    sleepersOf p' = (match r with
      | .pending => { sleepersOf p with writer := some cx.waker }
      | _ => sleepersOf p) := by
  cases h with
  | nothing => rfl
  | flushed request waker c hb hf =>
    simp [sleepersOf, hb, hf.readWaker, hf.unpend (by simp)]
  | blocked request waker c hb hf =>
    simp [sleepersOf, hf.readWaker, hf.pend rfl]
  | failed request waker c e hb hf =>
    simp [sleepersOf, hf.readWaker, hf.unpend (by simp)]

/-- One step. -/
theorem step_sleepers {p p' : Panel} {op : Op} {o : Out} (hg : Good p)
    (h : p.step op = .ok (o, p')) :
    wokenOf o = (sleepersOf p).woken op o ∧
    sleepersOf p' = (sleepersOf p).next p'.conn.wbuf op o := by
  cases step_cases hg.sane h with
  | arrive r => exact ⟨rfl, rfl⟩
  | writable r => exact ⟨rfl, rfl⟩
  | next cx new r w p' hn =>
    have hnx : p.pollNext cx = .ok (r, w, p') := by
      unfold Panel.step at h
      dsimp only at h
      match hx : p.pollNext cx, h with
      | .error e, h => cases h
      | .ok (a, b, c), h => cases h; rfl
    obtain ⟨a, b, c, d⟩ := next_sleepers hg hnx
    refine ⟨a, ?_⟩
    have hx : sleepersOf p' =
        ⟨p'.conn.sock.readWaker, p'.conn.sock.writeWaker, (sleepersOf p').sender⟩ := rfl
    rw [hx, b, c, d]
    rfl
  | ready cx r p' hn =>
    cases hn with
    | idle => exact ⟨rfl, rfl⟩
    | wait request waker hb =>
      refine ⟨rfl, ?_⟩
      show _ = if p.conn.wbuf = [] then _ else _
      rw [if_pos (hg.flushed _ _ hb)]
      rfl
    | flushed request waker c hb hf =>
      refine ⟨rfl, ?_⟩
      show _ = if c.wbuf = [] then _ else _
      rw [if_pos (hf.done rfl)]
      simp [sleepersOf, hf.readWaker, hf.unpend (by simp)]
    | blocked request waker c hb hf =>
      refine ⟨rfl, ?_⟩
      show _ = if c.wbuf = [] then _ else _
      rw [if_neg (hf.left rfl)]
      simp [sleepersOf, hf.readWaker, hf.pend rfl]
    | failed request waker c e hb hf =>
      refine ⟨rfl, ?_⟩
      simp [sleepersOf, Sleepers.next, hf.readWaker, hf.unpend (by simp)]
  | send cmd pkt e hb =>
    refine ⟨rfl, ?_⟩
    simp [sleepersOf, Sleepers.next, hb]
  | flush cx r p' hn =>
    refine ⟨rfl, ?_⟩
    rw [flushCase_sleepers hn]
    cases r <;> rfl
  | close cx r p' hn =>
    refine ⟨rfl, ?_⟩
    cases hn with
    | stuck r p1 hne hf =>
      rw [flushCase_sleepers hf]
      cases r <;> rfl
    | flushed p1 r c hf hs =>
      have := flushCase_sleepers hf
      dsimp only at this
      rw [← this]
      cases r with
      | pending => simp [sleepersOf, Sleepers.next, hs.readWaker, hs.pend rfl]
      | ready x => simp [sleepersOf, Sleepers.next, hs.readWaker, hs.unpend (by simp)]

/-! ## Histories -/

theorem stirs_of_traced {ops : List Op} : ∀ {p p' : Panel} {ds : List Deed} {v : View}, Good p →
    EofOk p.conn.rd → Looks p v → (∀ c ∈ commands ops, WfCommand c) →
    traced ops p = .ok (ds, p') →
    ∃ v', Looks p' v' ∧
      Stirs v (earOf p.conn.rd) (sleepersOf p) ds v' (earOf p'.conn.rd) (sleepersOf p') := by
  induction ops with
  | nil => intro p p' ds v hg hf hl hw h; cases h; exact ⟨v, hl, .nil⟩
  | cons op ops ih =>
    intro p p' ds v hg hf hl hw h
    obtain ⟨o, p1, ds', h1, h2, rfl⟩ := deeds_cons.mp h
    have hw' : ∀ c ∈ commands ops, WfCommand c := fun c hcm => hw c (by
      unfold commands at hcm ⊢
      rw [List.filterMap_cons]
      split
      · exact hcm
      · exact List.mem_cons_of_mem _ hcm)
    have hwo : ∀ c, op = .startSend c → WfCommand c := by
      rintro c rfl
      exact hw c (by simp [commands])
    obtain ⟨a, b⟩ := step_sleepers hg h1
    obtain ⟨hf1, hd⟩ := does_of_step hg hf hl hwo h1
    have hg1 := step_good hg (step_cases hg.sane h1)
    rcases hd with ⟨hc, v1, hl1, hd⟩ | ⟨hc, hl1, he⟩
    · obtain ⟨v', hl', hs⟩ := ih hg1 hf1 hl1 hw' h2
      rw [b, hl1.unsent] at hs
      exact ⟨v', hl', .cons (fun _ => hd) (fun h => absurd (hc.symm.trans h) (by simp)) a hs⟩
    · obtain ⟨v', hl', hs⟩ := ih hg1 hf1 hl1 hw' h2
      rw [b, hl1.unsent] at hs
      refine ⟨v', hl', .cons (fun h => absurd (hc.symm.trans h) (by simp))
        (fun _ => ⟨?_, ?_, rfl, he⟩) a hs⟩
      · cases op with
        | arrive r => cases h1; simp [moved, Connection.arrive]
        | writable r => cases h1; simp [moved, Connection.writable]
        | _ => cases hc
      · cases op with
        | arrive r => cases h1; exact ⟨_, rfl⟩
        | writable r => cases h1; exact ⟨_, rfl⟩
        | _ => cases hc

theorem sleepers_connected {p : Panel} (hc : Connected p) :
    sleepersOf p = ⟨p.conn.sock.readWaker, p.conn.sock.writeWaker, none⟩ := by
  simp [sleepersOf, hc.idle]

/-- **C142** In every history of a panel, each operation wakes exactly the tasks that the reference
machine says. -/
theorem C142_follows {p0 : Panel} (hc : Connected p0) (hb : p0.conn.rd.hasErrored = false)
    (ho : p0.conn.rd.eof = false) {v0 : View} (h0 : Looks p0 v0) {ops : List Op} {ds : List Deed}
    {p : Panel} (hw : ∀ c ∈ commands ops, WfCommand c) (h : traced ops p0 = .ok (ds, p)) :
    ∃ v e s, Looks p v ∧ Stirs v0 ⟨false, false⟩
      ⟨p0.conn.sock.readWaker, p0.conn.sock.writeWaker, none⟩ ds v e s := by
  have he : earOf p0.conn.rd = ⟨false, false⟩ := by simp [earOf, hb, ho]
  have hf : EofOk p0.conn.rd := by intro h; rw [ho] at h; cases h
  obtain ⟨v, hl, hs⟩ := stirs_of_traced (connected_good hc) hf h0 hw h
  rw [he, sleepers_connected hc] at hs
  exact ⟨v, _, _, hl, hs⟩

/-! ## And nothing else -/

theorem quiet_eq {d d' : Deed} (hq : quiet d = quiet d') : d.op = d'.op ∧ d.io = d'.io ∧
    (d.out = d'.out ∨ ∃ r w w', d.out = .next r w ∧ d'.out = .next r w') := by
  obtain ⟨op, io, o⟩ := d
  obtain ⟨op', io', o'⟩ := d'
  cases o <;> cases o' <;> simp_all [quiet]

theorem quiet_sender {s s' : Sleepers} {u : Bytes} {d d' : Deed} (h : s.sender = s'.sender)
    (hq : quiet d = quiet d') (hc : isCall d.op = true) :
    s.woken d.op d.out = s'.woken d'.op d'.out ∧
    (s.next u d.op d.out).sender = (s'.next u d'.op d'.out).sender := by
  obtain ⟨op, io, o⟩ := d
  obtain ⟨op', io', o'⟩ := d'
  obtain ⟨a, b, c⟩ := quiet_eq hq
  dsimp only at a b c hc ⊢
  subst a b
  have key : ∀ o o' : Out, (o = o' ∨ ∃ r w w', o = .next r w ∧ o' = .next r w') →
      s.woken op o = s'.woken op o' ∧ (s.next u op o).sender = (s'.next u op o').sender := by
    intro o o' hx
    rcases hx with rfl | ⟨r, w, w', rfl, rfl⟩
    · rcases o with _ | _ | r | _
      · cases op <;> first | (cases hc; done) | exact ⟨rfl, h⟩
      · cases op <;> first | (cases hc; done) | simp [Sleepers.woken, Sleepers.next, h]
      · by_cases hu : u = [] <;> cases r <;> cases op <;>
          first | (cases hc; done) | simp [Sleepers.woken, Sleepers.next, h, hu]
      · cases op <;> first | (cases hc; done) | exact ⟨rfl, h⟩
    · cases op <;> first | (cases hc; done) | skip
      all_goals simp [Sleepers.woken, Sleepers.next, h]
  exact key o o' c

theorem quiet_woken {d d' : Deed} (hq : quiet d = quiet d') (hw : wokenOf d.out = wokenOf d'.out) :
    d = d' := by
  obtain ⟨op, io, o⟩ := d
  obtain ⟨op', io', o'⟩ := d'
  obtain ⟨a, b, c⟩ := quiet_eq hq
  dsimp only at a b c hw
  subst a b
  rcases c with rfl | ⟨r, w, w', rfl, rfl⟩
  · rfl
  · cases hw; rfl

theorem still_sender {s : Sleepers} {u : Bytes} {op : Op} {o : Out} (h : isCall op = false) :
    (s.next u op o).sender = s.sender := by
  cases op <;> first | rfl | cases h

theorem stirs_still {l : List Deed} : ∀ {v v' : View} {e e' : Ear} {s s' : Sleepers},
    Stirs v e s l v' e' s' → calls l = [] → v' = v ∧ s'.sender = s.sender := by
  induction l with
  | nil => intro v v' e e' s s' h hc; cases h; exact ⟨rfl, rfl⟩
  | cons d l ih =>
    intro v v' e e' s s' h hc
    cases hd : isCall d.op with
    | true => simp [calls, hd] at hc
    | false =>
      cases h with
      | cons h1 h2 h3 h4 =>
        obtain ⟨_, _, rfl, rfl⟩ := h2 hd
        obtain ⟨a, b⟩ := ih h4 (by simpa [calls, hd] using hc)
        exact ⟨a, b.trans (still_sender hd)⟩

/-- A history with one call. -/
theorem stirs_single {d : Deed} {t : Sleepers} (hd : isCall d.op = true)
    (hw : wokenOf d.out = t.woken d.op d.out) {l : List Deed} :
    ∀ {v v' : View} {e e' : Ear} {s s' : Sleepers}, Stirs v e s l v' e' s' →
    (calls l).map quiet = [quiet d] → s.sender = t.sender →
    calls l = [d] ∧ s'.sender = (t.next v'.unsent d.op d.out).sender := by
  induction l with
  | nil => intro v v' e e' s s' h hc; simp [calls] at hc
  | cons x l ih =>
    intro v v' e e' s s' h hc hs
    cases h with
    | cons h1 h2 h3 h4 =>
      cases hx : isCall x.op with
      | true =>
        have hx' : calls (x :: l) = x :: calls l := by simp [calls, hx]
        rw [hx', List.map_cons, List.cons.injEq, List.map_eq_nil_iff] at hc
        obtain ⟨hq, hn⟩ := hc
        obtain ⟨rfl, hs'⟩ := stirs_still h4 hn
        have := quiet_sender (u := v'.unsent) hs hq hx
        rw [h3.symm, ← hw] at this
        have hxd := quiet_woken hq this.1
        exact ⟨by rw [hx', hn, hxd], hs'.trans this.2⟩
      | false =>
        obtain ⟨_, _, rfl, rfl⟩ := h2 hx
        have hx' : calls (x :: l) = calls l := by simp [calls, hx]
        rw [hx'] at hc ⊢
        exact ih h4 hc ((still_sender hx).trans hs)

theorem traced_of_stirs {l : List Deed} : ∀ {p : Panel} {v v' : View} {e' : Ear} {s s' : Sleepers},
    Becalmed p → Looks p v → s.sender = (sleepersOf p).sender →
    Stirs v (earOf p.conn.rd) s l v' e' s' →
    (∀ d ∈ calls l, ∀ c, d.op = .startSend c → WfCommand c) →
    ∃ ops ds p', traced ops p = .ok (ds, p') ∧ calls ds = calls l ∧ Looks p' v' ∧
      (∀ c ∈ commands ops, WfCommand c) := by
  induction l with
  | nil =>
    intro p v v' e' s s' hc hl hs h hw
    cases h
    exact ⟨[], [], p, rfl, rfl, hl, by simp [commands]⟩
  | cons d l ih =>
    intro p v v' e' s s' hc hl hs h hw
    cases h with
    | cons h1 h2 h3 h4 =>
      cases hd : isCall d.op with
      | false =>
        obtain ⟨_, _, rfl, rfl⟩ := h2 hd
        have hx : calls (d :: l) = calls l := by simp [calls, hd]
        rw [hx] at hw ⊢
        exact ih hc hl ((still_sender hd).trans hs) h4 hw
      | true =>
        have hx : calls (d :: l) = d :: calls l := by simp [calls, hd]
        rw [hx] at hw ⊢
        obtain ⟨ops, ds, p1, a, b, c, d1, e, f⟩ := deed_realises hc hl (h1 hd) (hw d (by simp))
        obtain ⟨v1, hl1, hst⟩ := stirs_of_traced hc.good hc.rd hl f a
        cases looks_one hl1 d1
        obtain ⟨g1, g2⟩ := stirs_single hd h3 hst b hs.symm
        rw [← e] at h4
        obtain ⟨ops', ds', p', a', b', c', f'⟩ := ih c d1 g2.symm h4
          (fun d hd => hw d (by simp [hd]))
        refine ⟨_, _, p', deeds_append a a', ?_, c', ?_⟩
        · rw [calls_append, g1, b']; rfl
        · intro c hcm
          unfold commands at hcm
          rw [List.filterMap_append, List.mem_append] at hcm
          exact hcm.elim (f c) (f' c)

/-- **C142** Exactly the histories of the reference machine, with the tasks that each call woke, are
histories of a panel that has just connected. -/
theorem C142_exact {p0 : Panel} (hc : Connected p0) (hb : p0.conn.rd.hasErrored = false)
    (ho : p0.conn.rd.eof = false) (hi : p0.conn.sock.incoming = [])
    (hw : p0.conn.sock.writes = []) {v0 : View} (h0 : Looks p0 v0) {v : View} {h : List Deed} :
    (∃ ops ds p, traced ops p0 = .ok (ds, p) ∧ (∀ c ∈ commands ops, WfCommand c) ∧ Looks p v ∧
      calls ds = h) ↔
    (∃ l e s, Stirs v0 ⟨false, false⟩ ⟨p0.conn.sock.readWaker, p0.conn.sock.writeWaker, none⟩ l
      v e s ∧ (∀ d ∈ h, ∀ c, d.op = .startSend c → WfCommand c) ∧ calls l = h) := by
  have he : earOf p0.conn.rd = ⟨false, false⟩ := by simp [earOf, hb, ho]
  have hf : EofOk p0.conn.rd := by intro h; rw [ho] at h; cases h
  constructor
  · rintro ⟨ops, ds, p, h1, h2, h3, rfl⟩
    obtain ⟨v', a, b⟩ := stirs_of_traced (connected_good hc) hf h0 h2 h1
    cases looks_one a h3
    rw [he, sleepers_connected hc] at b
    exact ⟨_, _, _, b, deeds_commands h1 h2, rfl⟩
  · rintro ⟨l, e, s, h1, h2, rfl⟩
    rw [← he, ← sleepers_connected hc] at h1
    obtain ⟨ops, ds, p, a, b, c, d⟩ :=
      traced_of_stirs ⟨connected_good hc, hf, hi, hw⟩ h0 rfl h1 h2
    exact ⟨ops, ds, p, a, d, c, b⟩

/-- **C142** No operation wakes more than one task. -/
theorem C142_one {v v' : View} {e e' : Ear} {s s' : Sleepers} {l : List Deed}
    (h : Stirs v e s l v' e' s') : ∀ d ∈ l, (wokenOf d.out).length ≤ 1 := by
  have small : ∀ o : Option Waker, o.toList.length ≤ 1 := by intro o; cases o <;> simp
  induction h with
  | nil => intro d hd; cases hd
  | @cons v e s d v' e' l v'' e'' s'' h1 h2 h3 _ ih =>
    intro x hx
    rcases List.mem_cons.mp hx with rfl | hx
    · rw [h3]
      unfold Sleepers.woken
      split
      · exact small _
      · exact small _
      · split
        · exact small _
        · simp
      · simp
    · exact ih x hx

/-- Who waits for the outstanding command was told so by `poll_ready`, and no command was completed
since. -/
theorem sender_told {l : List Deed} : ∀ {v v' : View} {e e' : Ear} {s s' : Sleepers} {k : Waker},
    Stirs v e s l v' e' s' → s'.sender = some k →
    (∃ l₁ cx io l₂, l = l₁ ++ ⟨.pollReady cx, io, .sink .pending⟩ :: l₂ ∧ cx.waker = k ∧
      ∀ d ∈ l₂, ∀ r w, d.out = .next r w → finishes r = false) ∨
    (s.sender = some k ∧ ∀ d ∈ l, ∀ r w, d.out = .next r w → finishes r = false) := by
  induction l with
  | nil =>
    intro v v' e e' s s' k h hk
    cases h
    exact .inr ⟨hk, by intro d hd; cases hd⟩
  | cons x l ih =>
    intro v v' e e' s s' k h hk
    cases h with
    | cons h1 h2 h3 h4 =>
      rcases ih h4 hk with ⟨l₁, cx, io, l₂, rfl, hc, hn⟩ | ⟨hs, hn⟩
      · exact .inl ⟨x :: l₁, cx, io, l₂, rfl, hc, hn⟩
      · have cons : (∀ r w, x.out = .next r w → finishes r = false) →
            ∀ d ∈ x :: l, ∀ r w, d.out = .next r w → finishes r = false := by
          intro hx d hd
          rcases List.mem_cons.mp hd with rfl | hd
          · exact hx
          · exact hn d hd
        obtain ⟨op, io, o⟩ := x
        cases hd : isCall op with
        | false =>
          obtain ⟨_, ⟨w, hw⟩, _, _⟩ := h2 hd
          refine .inr ⟨(still_sender hd).symm.trans hs, cons (by intro r w' h; rw [hw] at h; cases h)⟩
        | true =>
          cases h1 hd with
          | @next cx io r w _ _ ha hh =>
            cases hf : finishes r with
            | true => simp [Sleepers.next, hf] at hs
            | false =>
              simp only [Sleepers.next, hf] at hs
              exact .inr ⟨hs, cons (by intro r' w' h; cases h; exact hf)⟩
          | send => exact .inr ⟨hs, cons (by intro r w h; cases h)⟩
          | @sink op io r _ ha _ =>
            have no : ∀ r' w, (Out.sink r) = .next r' w → finishes r' = false := by
              intro r w h; cases h
            cases r with
            | ready x => cases op <;> exact .inr ⟨hs, cons no⟩
            | pending =>
              cases op with
              | pollReady cx =>
                simp only [Sleepers.next] at hs
                split at hs
                · cases hs; exact .inl ⟨[], cx, io, l, rfl, rfl, hn⟩
                · exact .inr ⟨hs, cons no⟩
              | _ => exact .inr ⟨hs, cons no⟩

/-- **C142** Any task that `poll_next` wakes was told `Pending` by `poll_ready`, and no command was
completed since. -/
theorem C142_told {v v' : View} {e e' : Ear} {s s' : Sleepers} {l : List Deed} {cx : Cx}
    {io : Bytes} {r : Poll PanelItem} {w : List Waker} {k : Waker} (hs : s.sender = none)
    (h : Stirs v e s (l ++ [⟨.pollNext cx, io, .next r w⟩]) v' e' s') (hk : k ∈ w) :
    finishes r = true ∧ ∃ l₁ cx io l₂, l = l₁ ++ ⟨.pollReady cx, io, .sink .pending⟩ :: l₂ ∧
      cx.waker = k ∧ ∀ d ∈ l₂, ∀ r w, d.out = .next r w → finishes r = false := by
  have cut : ∀ {l : List Deed} {v e s}, Stirs v e s (l ++ [⟨.pollNext cx, io, .next r w⟩]) v' e' s' →
      ∃ v₁ e₁ s₁, Stirs v e s l v₁ e₁ s₁ ∧
        w = s₁.woken (.pollNext cx) (.next r w) := by
    intro l
    induction l with
    | nil =>
      intro v e s h
      cases h with
      | cons h1 h2 h3 h4 => exact ⟨v, e, s, .nil, h3⟩
    | cons x l ih =>
      intro v e s h
      cases h with
      | cons h1 h2 h3 h4 =>
        obtain ⟨v₁, e₁, s₁, a, b⟩ := ih h4
        exact ⟨v₁, e₁, s₁, .cons h1 h2 h3 a, b⟩
  obtain ⟨v₁, e₁, s₁, a, b⟩ := cut h
  rw [b] at hk
  simp only [Sleepers.woken] at hk
  split at hk
  · rename_i hf
    refine ⟨hf, ?_⟩
    have hk : s₁.sender = some k := by
      cases hx : s₁.sender with
      | none => simp [hx] at hk
      | some y => simp [hx] at hk; rw [hk]
    rcases sender_told a hk with h | ⟨h, _⟩
    · exact h
    · rw [hs] at h; cases h
  · cases hk

/-- Two tasks that wait for a command to be completed, and one that reads. -/
def threeTasks : List Op :=
  [.pollNext ⟨3, 0, 0⟩, .startSend sampleCmd, .pollReady ⟨1, 0, 0⟩, .writable (.accept 100),
   .pollReady ⟨1, 0, 0⟩, .pollReady ⟨2, 0, 0⟩, .arrive (.data sampleReply), .pollNext ⟨3, 0, 0⟩]

theorem threeTasks_wake : holds (traced threeTasks (samplePanel []))
    (fun x => x.1.map (fun d => wokenOf d.out) == [[], [], [], [1], [], [], [3], [2]]) = true := by
  decide +kernel

/-- Not vacuous: of two tasks that wait for the outstanding command the last is woken, after the
writer and the reader. -/
example : ∃ ds p v e s, traced threeTasks (samplePanel []) = .ok (ds, p) ∧ Looks p v ∧
    ds.map (fun d => wokenOf d.out) = [[], [], [], [1], [], [], [3], [2]] ∧
    (∃ v0, Looks (samplePanel []) v0 ∧ Stirs v0 ⟨false, false⟩ ⟨none, none, none⟩ ds v e s) := by
  obtain ⟨⟨ds, p⟩, h, hd⟩ := of_holds threeTasks_wake
  have hc := samplePanel_connected []
  obtain ⟨v0, h0⟩ := looks_of_good (connected_good hc)
  obtain ⟨v, e, s, a, b⟩ := C142_follows hc rfl rfl h0
    (by intro c hm; simp [threeTasks, commands] at hm; rw [hm]; exact sampleCmd_wf) h
  exact ⟨ds, p, v, e, s, h, a, by simpa using hd, v0, h0, b⟩

end Elk.Props
