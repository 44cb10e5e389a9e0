import Verif.Props.Minutes
import Verif.Props.Program
import Verif.Spec.Watching
/-!
# `elkm1-cli watch` as a reference machine, and all that it logs (C133)
-/

namespace Elk.Props
open Elk.Spec

/-- Invariant of `watch`. -/
def WatcherGood : Watcher → Prop
  | .dialing => True
  | .connecting i => InitGood i ∧ WfZones i.panel.state ∧ Elk.NamesOk i.panel.state
  | .watching (.watching p) => Unasked p
  | .watching (.done _) => True

theorem spots_step {w : Watcher} {x : Vantage} (hg : WatcherGood w) (hs : Posted w x)
    (op : WatcherOp) :
    (∃ rd wr j x' w', (∀ on, w.stepL on op = .ok (enabled on j, w')) ∧ Spots x op rd wr j x' ∧
      Posted w' x' ∧ WatcherGood w' ∧ (lineSeen w').1 = (lineSeen w).1 ++ rd ∧ (lineSeen w').2 = (lineSeen w).2 ++ wr) ∨
    (∃ rd wr, (∀ on, ∃ q, w.stepL on op = .error q) ∧ Blinds x op rd wr) := by
  cases hs with
  | dialing =>
    match op with
    | .dialed (.error e) => exact .inr ⟨[], [], fun _ => ⟨_, rfl⟩, .unreachable⟩
    | .dialed (.ok ()) =>
      obtain ⟨d, hd⟩ := C105_message _ (stageQ_wf .arming)
      refine .inl ⟨[], [], _, _, .connecting (asking ⟨{}, PanelState.default, none, .idle⟩ .arming),
        fun on => ?_, .reached hd, .greeting (start_stands fresh_empty),
        ⟨start_good fresh_empty, (fun z hz => nomatch hz), default_namesOk⟩, rfl, rfl⟩
      show (Init.startL on {} >>= fun y => Watcher.connectedL on y.2 >>= fun z => _) = _
      unfold Init.startL
      rw [start_ok]
      simp only [bind_ok]
      rw [startedL_eq on (by rintro i ⟨⟩; exact stageQ_wf .arming)]
      simp only [bind_ok, Watcher.connectedL]
      have : startLog (.asking (asking ⟨{}, PanelState.default, none, .idle⟩ .arming)) =
          [jot .asking [("msg", d)]] := by
        show (match (stageQ .arming).debug with
          | .ok d => [jot .asking [("msg", d)]]
          | .error _ => []) = _
        rw [hd]
      rw [this, List.append_nil]
    | .op q => exact .inl ⟨[], [], [], _, _, fun _ => rfl, .early, .dialing, trivial, rfl, rfl⟩
  | @greeting i w g hs =>
    match op with
    | .dialed r =>
      exact .inl ⟨[], [], [], _, _, fun _ => rfl, .dialed (by simp), .greeting hs, hg,
        (List.append_nil _).symm, (List.append_nil _).symm⟩
    | .op q =>
      obtain ⟨hgi, hz, hn⟩ := hg
      have e : ∀ on, Watcher.stepL on (.connecting i) (.op q) = i.step q >>= fun y =>
          Watcher.connectedL on y.2 >>= fun z => .ok (enabled on (tickLog i y.1 y.2) ++ z.1, z.2) := by
        intro on
        show (i.stepL on q >>= fun y => _) = _
        rw [initStepL_eq on hgi hz q]
        cases i.step q <;> rfl
      rcases init_cases hgi q with ⟨⟨o, ph⟩, h1, h2⟩ | ⟨cx, rfl, h1, h2⟩
      · obtain ⟨rd, wr, x, a, b, c⟩ := asks_of_step hgi hs h1
        have hu := utters_of_step hgi hz hs h2 b
        have k1 := init_good hgi h2
        have k2 := init_wf h2 hz
        have k3 := init_namesOk h2 hn
        simp only [h1, bind_ok] at e
        match ph, b, c, hu, k1, k2, k3, e with
        | .asking i', b, c, hu, k1, k2, k3, e =>
          obtain ⟨w', g', rfl⟩ := stands_asking b
          obtain ⟨t, ht, c1, c2⟩ := c _ rfl
          cases ht
          refine .inl ⟨rd, wr, _, _, .connecting i', fun on => (e on).trans ?_, .greets a hu,
            .greeting b, ⟨k1, k2, k3⟩, c1, c2⟩
          simp only [Watcher.connectedL, bind_ok, List.append_nil]
        | .finished (.error er), b, c, hu, k1, k2, k3, e =>
          cases b
          exact .inr ⟨rd, wr, fun on => ⟨_, (e on).trans rfl⟩, .lost a⟩
        | .finished (.ok p), b, c, hu, k1, k2, k3, e =>
          have k1 : Connected p := k1
          cases b with
          | @done _ g' k =>
            obtain ⟨ra, ha⟩ := k1.arming
            obtain ⟨z, hz⟩ := k1.zones
            have hl : Looks p ⟨g'.unread, ra, z, g'.held, none, []⟩ := by
              refine ⟨k.unread, ha, hz, k.held, ?_, k1.flushed⟩
              rw [k1.idle]
            have ea : areaShown p = g'.areas := funext fun i => by
              show shown p.state.areaNames[i.val].text.toList = _
              rw [k.areas i.val i.isLt]
              rfl
            have ez : zoneShown p = g'.zoneNames := funext fun i => by
              show shown p.state.zoneNames[i.val].text.toList = _
              rw [k.zoneNames i.val i.isLt]
              rfl
            obtain ⟨t, ht, c1, c2⟩ := c _ rfl
            cases ht
            refine .inl ⟨rd, wr, _, _, .watching (.watching p), fun on => (e on).trans ?_,
              .tracks a hu (k.shown.symm.trans (arming_iff.mp ha))
                (k.zones.symm.trans (zones_iff.mp hz)), ?_,
              ⟨⟨connected_good k1, wfView_iff.mpr k2, wfNames_of k3⟩, k1.idle⟩, c1, c2⟩
            · simp only [Watcher.connectedL, emit_ok, bind_ok]
              rw [← enabled_append]
            · rw [← ea, ← ez]
              exact .seeing hl
      · obtain ⟨io, hb⟩ := breaks_of_panic hs h2
        exact .inr ⟨io, [], fun on => ⟨.index, by rw [e on, h1]; rfl⟩, .room hb⟩
  | @seeing p v hl =>
    match op with
    | .dialed r =>
      exact .inl ⟨[], [], [], _, _, fun _ => rfl, .dialed (by simp), .seeing hl, hg,
        (List.append_nil _).symm, (List.append_nil _).symm⟩
    | .op q =>
      have hg : Unasked p := hg
      have e : ∀ on, Watcher.stepL on (.watching (.watching p)) (.op q) =
          Cli.watchStep p q >>= fun y => .ok (enabled on (watchLog p y.1), .watching y.2) := by
        intro on
        show (Cli.watchStepL on p q >>= fun y => _) = _
        rw [watchStepL_eq on hg q]
        cases Cli.watchStep p q <;> rfl
      rcases sees_of_step hg hl q rfl rfl with
        ⟨o, w1, io, v1, h1, h2, h3, h4, h5, h6, h7⟩ | ⟨cx, io, er, v', rfl, h1, h2⟩
      · simp only [h1, bind_ok] at e
        rcases h7 with ⟨p1, rfl, hne, ea, ez⟩ | ⟨p1, rfl, rfl⟩
        · refine .inl ⟨io, [], _, .seeing (areaShown p) (zoneShown p) v1, _, e,
            .sees h2 hne h4, ?_, unasked_step hg h1, h5, ?_⟩
          · rw [← ea, ← ez]; exact .seeing h3
          · rw [List.append_nil]; exact h6
        · refine .inl ⟨io, [], [], _, _, fun on => (e on).trans ?_, .returns h2, .over, trivial, h5, ?_⟩
          · rfl
          · rw [List.append_nil]; exact h6
      · exact .inr ⟨io, [], fun on => ⟨.expect, by rw [e on, h1]; rfl⟩, .broken h2⟩
  | @over p =>
    match op with
    | .dialed r =>
      exact .inl ⟨[], [], [], _, _, fun _ => rfl, .dialed (by simp), .over, trivial,
        (List.append_nil _).symm, (List.append_nil _).symm⟩
    | .op q =>
      exact .inl ⟨[], [], [], _, _, fun _ => rfl, .past, .over, trivial,
        (List.append_nil _).symm, (List.append_nil _).symm⟩

theorem watcher_cons (on : Callsite → Bool) (op : WatcherOp) (ops : List WatcherOp) (w : Watcher) :
    Watcher.runL on (op :: ops) w = w.stepL on op >>= fun y =>
      Watcher.runL on ops y.2 >>= fun z => .ok (y.1 ++ z.1, z.2) := rfl

theorem vigil_of_run {ops : List WatcherOp} : ∀ {w : Watcher} {x : Vantage}, WatcherGood w → Posted w x →
    (∃ l x' w', Vigil x l x' ∧ Posted w' x' ∧ ops = l.map Glance.op ∧
      (∀ on, Watcher.runL on ops w = .ok (enabled on (l.flatMap Glance.log), w')) ∧
      (lineSeen w').1 = (lineSeen w).1 ++ l.flatMap Glance.rd ∧ (lineSeen w').2 = (lineSeen w).2 ++ l.flatMap Glance.wr) ∨
    (∃ l x' op ops₂ rd wr, Vigil x l x' ∧ ops = l.map Glance.op ++ op :: ops₂ ∧
      (∀ on, ∃ q, Watcher.runL on ops w = .error q) ∧ Blinds x' op rd wr) := by
  induction ops with
  | nil =>
    intro w x hg hs
    exact .inl ⟨[], x, w, .nil, hs, rfl, fun _ => rfl, by simp, by simp⟩
  | cons op ops ih =>
    intro w x hg hs
    rcases spots_step hg hs op with ⟨rd, wr, j, x1, w1, h1, h2, h3, h4, h5, h6⟩ | ⟨rd, wr, h1, h2⟩
    · rcases ih h4 h3 with ⟨l, x', w', a, b, c, d, e, f⟩ | ⟨l, x', op', ops₂, rd', wr', a, b, c, d⟩
      · refine .inl ⟨⟨op, rd, wr, j⟩ :: l, x', w', .cons h2 a, b, by rw [c]; rfl, fun on => ?_, ?_, ?_⟩
        · rw [watcher_cons, h1 on, bind_ok, d on, bind_ok, ← enabled_append]
          rfl
        · rw [e, h5, List.append_assoc]; rfl
        · rw [f, h6, List.append_assoc]; rfl
      · refine .inr ⟨⟨op, rd, wr, j⟩ :: l, x', op', ops₂, rd', wr', .cons h2 a, by rw [b]; rfl,
          fun on => ?_, d⟩
        obtain ⟨q, hq⟩ := c on
        exact ⟨q, by rw [watcher_cons, h1 on, bind_ok, hq]; rfl⟩
    · refine .inr ⟨[], x, op, ops, rd, wr, .nil, rfl, fun on => ?_, h2⟩
      obtain ⟨q, hq⟩ := h1 on
      exact ⟨q, by rw [watcher_cons, hq]; rfl⟩

/-- **C133** `elkm1-cli watch` is the machine, from reaching for the panel on: whatever happens, there
are the bytes read and written by each operation, which make up what went over the line, and with
them the machine comes to where `watch` is; and what is logged, whatever is enabled, is what is
enabled of what the machine logs. -/
theorem C133_follows {on : Callsite → Bool} {ops : List WatcherOp} {log : List Record} {w : Watcher}
    (h : Watcher.runL on ops .dialing = .ok (log, w)) :
    ∃ l x, Vigil .dialing l x ∧ Posted w x ∧ ops = l.map Glance.op ∧
      (∀ on', Watcher.runL on' ops .dialing = .ok (enabled on' (l.flatMap Glance.log), w)) ∧
      (lineSeen w).1 = l.flatMap Glance.rd ∧ (lineSeen w).2 = l.flatMap Glance.wr := by
  rcases vigil_of_run (ops := ops) (w := .dialing) trivial .dialing with
    ⟨l, x, w', a, b, c, d, e, f⟩ | ⟨_, _, _, _, _, _, _, _, c, _⟩
  · have := d on
    rw [h] at this
    cases this
    exact ⟨l, x, a, b, c, d, e, f⟩
  · obtain ⟨q, hq⟩ := c on
    rw [h] at hq
    cases hq

/-- **C133** It panics only where the panel is not reached, where connecting fails or the panel names
something that there is no room for, or where reading fails; and whether it does does not depend on
what is enabled. -/
theorem C133_panics {on : Callsite → Bool} {ops : List WatcherOp} {q : Panic}
    (h : Watcher.runL on ops .dialing = .error q) :
    (∀ on', ∃ q', Watcher.runL on' ops .dialing = .error q') ∧
    ∃ l x op ops₂ rd wr, Vigil .dialing l x ∧ ops = l.map Glance.op ++ op :: ops₂ ∧
      Blinds x op rd wr := by
  rcases vigil_of_run (ops := ops) (w := .dialing) trivial .dialing with
    ⟨l, x, w', a, b, c, d, e, f⟩ | ⟨l, x, op, ops₂, rd, wr, a, b, c, d⟩
  · have := d on
    rw [h] at this
    cases this
  · exact ⟨c, l, x, op, ops₂, rd, wr, a, b, d⟩

/-- Connecting logs nothing at level `info`. -/
theorem utters_info {g : Greet} {w : Where} {o : Obs} {x : Outcome} {l : List Record}
    (h : Utters g w o x l) : ∀ r ∈ l, r.site.level ≠ .info := by
  have key : ∀ {m l}, Comments g m l → ∀ r ∈ l, r.site.level ≠ .info := by
    intro m l h
    cases h <;> simp [jot, Callsite.level]
  have cat : ∀ {a b : List Record}, (∀ r ∈ a, r.site.level ≠ .info) →
      (∀ r ∈ b, r.site.level ≠ .info) → ∀ r ∈ a ++ b, r.site.level ≠ .info := by
    intro a b ha hb r hr
    rcases List.mem_append.mp hr with h | h
    · exact ha r h
    · exact hb r h
  have top : ∀ {p : Packet} {l : List Record}, (∀ r ∈ l, r.site.level ≠ .info) →
      ∀ r ∈ jot .received [("pkt", p.debug)] :: l, r.site.level ≠ .info := by
    intro p l h r hr
    rcases List.mem_cons.mp hr with rfl | hr
    · simp [jot, Callsite.level]
    · exact h r hr
  cases h with
  | ask => simp [jot, Callsite.level]
  | packet => simp [jot, Callsite.level]
  | unrelated _ _ hc => exact cat (top (key hc)) (by simp [jot, Callsite.level])
  | reply _ _ hc => exact cat (top (key hc)) (by simp [jot, Callsite.level])
  | last _ _ hc => exact cat (top (key hc)) (by simp [jot, Callsite.level])
  | quiet => simp

/-- **C133** What `watch` logs at level `info`, the default but for warnings. -/
theorem C133_info {x y : Vantage} {op : WatcherOp} {rd wr : Bytes} {l : List Record}
    (h : Spots x op rd wr l y) :
    Informs rd x y (enabled (fun s => s.level = .info) l) := by
  have quiet : ∀ {l : List Record}, (∀ r ∈ l, r.site.level ≠ .info) →
      enabled (fun s => s.level = .info) l = [] := fun h => enabled_nothing fun r hr => by
    simpa using h r hr
  have same : ∀ {areas zones v v'}, v'.shown = v.shown → v'.zones = v.zones →
      Informs rd (.seeing areas zones v) (.seeing areas zones v') [] := by
    intro areas zones v v' h1 h2
    have := Informs.lines (rd := rd) (areas := areas) (zones := zones) (v := v) (v' := v')
    rw [h1, h2, areaDiff_self, zoneDiff_self] at this
    exact this
  cases h with
  | reached => exact .outside (by intro _ _ _ h; cases h)
  | early => exact .outside (by intro _ _ _ h; cases h)
  | past => exact .outside (by intro _ _ _ h; cases h)
  | returns => exact .outside (by intro _ _ _ h; cases h)
  | dialed h =>
    cases x with
    | seeing areas zones v => exact same rfl rfl
    | _ => exact .outside (by intro _ _ _ h; cases h)
  | greets _ hu =>
    rw [quiet (utters_info hu)]
    exact .outside (by intro _ _ _ h; cases h)
  | tracks _ hu =>
    rw [enabled_append, quiet (utters_info hu)]
    exact .comes
  | @sees areas zones v op _ o v' l hs hn hp =>
    cases hp with
    | quiet h1 =>
      cases hs with
      | arrive => exact same rfl rfl
      | writable => exact same rfl rfl
      | idle hr => cases hr; exact same rfl rfl
      | event => exact absurd rfl (h1 _ _)
      | report => exact absurd rfl (h1 _ _)
      | ended => exact absurd rfl hn
    | @event cx ev lines w l d hj hd =>
      have e : enabled (fun s => s.level = .info)
          (l ++ [jot .polled [("pkt", d)]] ++ lines.map lineShown) = lines.map lineShown := by
        rw [enabled_append, enabled_append, quiet (jots_levels hj), quiet (l := [jot .polled _])
          (by simp [jot, Callsite.level])]
        refine List.filter_eq_self.mpr fun r hr => ?_
        obtain ⟨x, _, rfl⟩ := List.mem_map.mp hr
        cases x <;> rfl
      rw [e]
      cases hs with
      | event => exact .lines
      | report hr hm =>
        cases hr with
        | late => cases hm
        | event hf ht =>
          cases ht with
          | fault => cases hm
          | nothing => cases hm
          | message h1 h2 h3 =>
            cases hm
            cases h1 with
            | says hb =>
              cases h2 with
              | nothing _ _ h => exact absurd rfl (h _)
              | zones =>
                cases h3 with
                | done => exact .report hf hb rfl rfl
                | unrelated => exact .report hf hb rfl rfl
                | idle => exact .report hf hb rfl rfl

/-- **C133** With the same bytes read and written, the machine goes to the same place, unless the end
of the connection is what is read. -/
theorem C133_settled {x y y' : Vantage} {op : WatcherOp} {rd wr : Bytes} {l l' : List Record}
    (h : Spots x op rd wr l y) (h' : Spots x op rd wr l' y') (hn : x = .over ∨ y ≠ .over)
    (hn' : x = .over ∨ y' ≠ .over) : y = y' := by
  have ok1 : ∀ {ev : Event}, (.ready (some (.ok ev)) : Poll PanelItem) ≠ .ready none ∧
      ∀ e, (.ready (some (.ok ev)) : Poll PanelItem) ≠ .ready (some (.error e)) :=
    ⟨(fun h => nomatch h), (fun _ h => nomatch h)⟩
  have ok2 : (.pending : Poll PanelItem) ≠ .ready none ∧
      ∀ e, (.pending : Poll PanelItem) ≠ .ready (some (.error e)) :=
    ⟨(fun h => nomatch h), (fun _ h => nomatch h)⟩
  have view : ∀ {areas zones v cx o v'}, Sees areas zones v (.tick cx) rd o v' → o ≠ .returned →
      ∃ r, Reading cx v rd r v' ∧ r ≠ .ready none ∧ ∀ e, r ≠ .ready (some (.error e)) := by
    intro areas zones v cx o v' h hn
    cases h with
    | idle h => exact ⟨_, h, ok2⟩
    | event h _ => exact ⟨_, h, ok1⟩
    | report h _ => exact ⟨_, h, ok1⟩
    | ended => exact absurd rfl hn
  cases h with
  | reached =>
    cases h' with
    | reached => rfl
    | dialed n => exact absurd rfl n
  | early => cases h'; rfl
  | past => cases h'; rfl
  | dialed n =>
    cases h' with
    | reached => exact absurd rfl n
    | dialed => rfl
  | greets a =>
    cases h' with
    | greets b => cases connects_settled a b (by simp) (by simp); rfl
    | tracks b => cases connects_settled a b (by simp) (by simp)
  | tracks a _ a1 a2 =>
    cases h' with
    | greets b => cases connects_settled a b (by simp) (by simp)
    | tracks b _ b1 b2 =>
      cases connects_settled a b (by simp) (by simp)
      rw [a1] at b1; cases b1
      rw [a2] at b2; cases b2
      rfl
  | returns => rcases hn with h | h
               · cases h
               · exact absurd rfl h
  | @sees _ _ _ q _ _ _ _ a an =>
    cases h' with
    | returns => rcases hn' with h | h
                 · cases h
                 · exact absurd rfl h
    | sees b bn =>
      match q, a, b with
      | .arrive r, a, b => cases a; cases b; rfl
      | .writable r, a, b => cases a; cases b; rfl
      | .tick cx, a, b =>
        obtain ⟨r, c, d⟩ := view a an
        obtain ⟨r', c', d'⟩ := view b bn
        rw [(reading_one c c' d d').1]

/-- What happens to `watch` in a sample run: it reaches the panel, which answers; a zone changes; and
the panel ends the connection. -/
def sampleWatchOps : List WatcherOp :=
  [.dialed (.ok ()), .op (.arrive (.data sampleDialogue))] ++
  List.replicate 5 (.op (.writable (.accept 1000))) ++
  List.replicate 15 (.op (.tick ⟨1, 0, 0⟩)) ++
  [.op (.arrive (.data (msgBytes (.zoneChange ⟨⟨1⟩, ⟨2⟩⟩)))), .op (.tick ⟨1, 0, 0⟩),
    .op (.arrive .eof), .op (.tick ⟨1, 0, 0⟩)]

/-- Non-vacuity: the machine comes to the end, with two records at level `info`. -/
example : ∃ l, Vigil .dialing l .over ∧
    (enabled (fun s => s.level = .info) (l.flatMap Glance.log)).map Record.site =
      [.tracking, .zoneLine] := by
  obtain ⟨⟨log, w⟩, h, hd⟩ := of_holds
    (x := Watcher.runL (fun s => s.level = .info) sampleWatchOps .dialing)
    (f := fun r => decide (r.1.map Record.site = [.tracking, .zoneLine]) &&
      (match r.2 with | .watching (.done _) => true | _ => false)) (by decide +kernel)
  obtain ⟨l, x, a, b, _, d, _⟩ := C133_follows h
  rw [Bool.and_eq_true] at hd
  cases b with
  | dialing => simp at hd
  | greeting => simp at hd
  | seeing => simp at hd
  | over =>
    refine ⟨l, a, ?_⟩
    have e := d (fun s => s.level = .info)
    rw [h] at e
    cases e
    exact of_decide_eq_true hd.1

/-- Non-vacuity: `watch` panics when the panel cannot be reached, and when reading fails. -/
example : [[.dialed (.error (.socket 1))],
    sampleWatchOps.dropLast.dropLast ++ [.op (.arrive (.error 1)), .op (.tick ⟨1, 0, 0⟩)]].all
      (fun ops => match Watcher.runL (fun _ => true) ops .dialing with
        | .error .expect => true
        | _ => false) = true := by decide +kernel

end Elk.Props
