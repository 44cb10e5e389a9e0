import Verif.Props.ProgLog
import Verif.Spec.LastWords
import Verif.Lemmas.Said
/-!
# What the log says when a program dies (C144)
-/

namespace Elk.Props
open Elk.Spec

/-! ## Connecting -/

/-- What a poll of `connect` logs that panics. -/
theorem dashes_room {i : Init} {cx : Cx} {w : Where} {g : Greet} (hg : InitGood i)
    (hz : WfZones i.panel.state) (hs : Stands (.asking i) (.asking w g)) (ht : TickPanics i cx)
    (he : i.step (.tick cx) = .error .index) :
    ∃ io j, Dashes w g (.tick cx) io [] .room j ∧
      ∀ on, i.stepS on (.tick cx) = ⟨enabled on j, .error .index⟩ := by
  obtain ⟨c, new, pkt, r, ha, hnx, hn, hp, hr, hl⟩ := ht
  obtain ⟨rfl, hk⟩ := stands_waiting hs ha
  have hd := hn.packet pkt rfl
  have hwf := parsed_wf hd
  rw [hk.unread] at hd
  have hv : ValidPacket pkt ∨ ∃ i, pkt = .invalid i :=
    (decode_some_cond hd).imp id fun ⟨i, a, _⟩ => ⟨i, a⟩
  obtain ⟨⟨ev, w', p'⟩, hi, hc⟩ := interpret_cases { i.panel with conn := c } cx.now pkt hwf
  have hidle := Props.interp_idle hc hg.idle
  have hev : WfEvent ev := by
    obtain ⟨h1, h2⟩ := interp_event hc hz
    exact ⟨h1, fun m hm => (by rw [hidle] at hm; cases hm), h2⟩
  have hpk : ev.pkt = some pkt := interp_pkt hi
  have hm : ev.msg = some (.ok (.stringDescriptionResponse r)) := by
    cases hc with
    | bad e h => rw [hp] at h; cases h
    | skip h => rw [hp] at h; cases h
    | msg m ch p1 c w p2 h _ _ _ => rw [hp] at h; cases h; rfl
  have hch : ev.change = none := by
    cases hc with
    | bad e h => rfl
    | skip h => rfl
    | msg m ch p1 c w p2 h _ ht _ => rw [hp] at h; cases h; cases ht; rfl
  have hee : ev = ⟨some pkt, some (.ok (.stringDescriptionResponse r)), none, none⟩ := by
    obtain ⟨a, b, c, d⟩ := ev
    cases hpk; cases hm; cases hch; cases hidle
    rfl
  obtain ⟨d, hdb, _⟩ := event_shown hev
  have hrep : Init.replied p' i.stage ev.msg = .error .index := by
    have he : i.tick cx = .error .index := he
    unfold Init.tick at he
    rw [ha] at he
    dsimp only at he
    rw [hnx] at he
    simp only [bind_ok] at he
    unfold Init.received at he
    rw [hi] at he
    simp only [bind_ok, hm] at he
    rw [if_pos ((C23_responds _ _).mpr hr)] at he
    rw [hm]
    cases hx : Init.replied p' i.stage (some (.ok (.stringDescriptionResponse r))) with
    | error e => rw [hx] at he; cases he; rfl
    | ok y => rw [hx] at he; cases he
  match pkt, hv, hp with
  | .ascii ⟨body⟩, .inl hv, hp =>
    refine ⟨new, _, .room rfl (C117_decode.mp hd) ((C118_parse hv _).mp hp) hr hl (hee ▸ hdb),
      fun on => ?_⟩
    have e1 : i.panel.conn.pollNextS on cx =
        ⟨enabled on [jot .received [("pkt", (Packet.ascii ⟨body⟩).debug)]],
          .ok (.ready (some (.ok (.ascii ⟨body⟩))), c)⟩ :=
      kept_ok.mp (by rw [connNext_kept, connNextL_eq, hnx]; rfl)
    have e2 : ({ i.panel with conn := c } : Panel).interpretS on cx.now (.ascii ⟨body⟩) =
        ⟨[], .ok (ev, w', p')⟩ :=
      kept_ok.mp (by
        rw [interpret_kept, interpretL_eq, hi, bind_ok, hm]
        rfl)
    show i.tickS on cx = _
    unfold Init.tickS
    rw [ha]
    dsimp only
    rw [e1, bind_said]
    dsimp only
    unfold Init.receivedS
    rw [e2, bind_said]
    simp only [hm]
    rw [if_pos ((C23_responds _ _).mpr hr), oneField_ok hdb, say_ok, bind_said]
    rw [hm] at hrep
    rw [hrep, of_died]
    show (⟨_, _⟩ : Said (Obs × Phase)) = _
    congr 1
    rw [List.nil_append, List.append_nil, ← enabled_append]
    rfl

/-- What a poll of `connect` logs that does not panic. -/
theorem initStepS_ok {i : Init} (hg : InitGood i) (hz : WfZones i.panel.state) {op : InitOp} {o : Obs}
    {ph : Phase} (h : i.step op = .ok (o, ph)) (on : Callsite → Bool) :
    i.stepS on op = ⟨enabled on (tickLog i o ph), .ok (o, ph)⟩ :=
  kept_ok.mp (by rw [initStep_kept, initStepL_eq on hg hz, h]; rfl)

theorem connects_failed {w : Where} {g : Greet} {op : InitOp} {rd wr : Bytes} {o : Obs} {e : IoErr}
    {x : Outcome} {l : List Record} (h : Connects w g op rd wr o (.failed e)) (hu : Utters g w o x l) :
    l = [] := by
  cases h <;> cases hu <;> rfl

theorem words_connecting {s : Setup} {i : Init} {w : Where} {g : Greet} {op : BOp} {q : InitOp}
    {e : Panic} (hc : ∃ ops outs, Init.connect {} ops = .ok (outs, .asking i))
    (hz : WfZones i.panel.state) (hs : Stands (.asking i) (.asking w g)) (hp : Polls op q)
    (he : (i.step q >>= fun x => Prog.connected s x.2) = .error e) :
    ∃ rd wr c j, LastWords s.cfg (.greeting w g) (.op op) rd wr c j ∧
      ∀ on, (i.stepS on q >>= fun y => Prog.connectedS on s y.2) = ⟨enabled on j, .error e⟩ := by
  obtain ⟨ops, outs, hc⟩ := hc
  have hgi : InitGood i := by
    rw [connect_run] at hc
    exact (ihist_of_run (ph := .asking _) (start_good fresh_empty) hc).good
  rcases init_cases hgi q with ⟨⟨o, ph⟩, h1, h2⟩ | ⟨cx, rfl, h1, h2⟩
  · rw [h1, bind_ok] at he
    dsimp only at he
    obtain ⟨rd, wr, x, a, b, c⟩ := asks_of_step hgi hs h1
    have hu := utters_of_step hgi hz hs h2 b
    have e1 := initStepS_ok hgi hz h1
    match ph, b, hu, he, e1 with
    | .asking i', b, hu, he, e1 => cases he
    | .finished (.error er), b, hu, he, e1 =>
      cases b
      cases he
      have hl := connects_failed a hu
      refine ⟨rd, wr, .line, [], .dashes hp (.lost a), fun on => ?_⟩
      rw [e1 on, hl, bind_said]
      rfl
    | .finished (.ok p), b, hu, he, e1 =>
      cases b with
      | @done _ g' k =>
        obtain ⟨hcn, hwv⟩ := C65_connect fresh_empty (connect_snoc hc h1)
        have he' : Bridge.start s.cfg p = .error e := by
          have he : (Bridge.start s.cfg p >>= fun b => Except.ok (b.log, Prog.running s b)) =
            .error e := he
          cases hb : Bridge.start s.cfg p with
          | error e' => rw [hb] at he; cases he; rfl
          | ok b => rw [hb] at he; cases he
        have hn : ¬ UsableCfg s.cfg := fun h => by
          obtain ⟨b, hb⟩ := (C65_starts hcn hwv).mpr h
          rw [he'] at hb; cases hb
        refine ⟨rd, wr, .config, _, .unusable hp a hu hn, fun on => ?_⟩
        rw [e1 on, bind_said]
        have e2 : Prog.connectedS on s (.finished (.ok p)) =
            ⟨enabled on [⟨.initialized, []⟩], .error e⟩ := by
          show (Bridge.startS on s.cfg p >>= fun b => _) = _
          unfold Bridge.startS
          rw [say_ok, bind_said, he']
          show (⟨_ ++ [], .error e⟩ : Said Bridge) >>= _ = _
          rw [bind_died, List.append_nil]
        dsimp only
        rw [e2, ← enabled_append]
  · rw [h1] at he
    cases he
    obtain ⟨io, j, a, b⟩ := dashes_room hgi hz hs h2 h1
    exact ⟨io, [], .room, j, .dashes hp a, fun on => by rw [b on, bind_died]⟩

/-! ## Serving -/

theorem panelNextS_ok {p : Panel} {cx : Cx} {r w p'} (h : p.pollNext cx = .ok (r, w, p'))
    (on : Callsite → Bool) : p.pollNextS on cx = ⟨enabled on (nextLog p r), .ok (r, w, p')⟩ :=
  kept_ok.mp (by rw [panelNext_kept, panelNextL_eq, h]; rfl)

/-- What `handle_publish` logs when it panics. -/
theorem garbage_said {pre : Bytes} {code : ArmCode} {p : Publish} {q : Panic} :
    ∀ {l : List (UInt8 × AreaCfg)}, (∀ a ∈ l, 1 ≤ a.1.toNat ∧ a.1.toNat ≤ 8) →
    commandFor pre code p l = .error q →
    ∃ a ∈ l, p.topic = pre ++ bs "/area/" ++ a.2.name ++ bs "/ha_command" ∧
      utf8Valid p.payload = false ∧
      ∀ on, commandForS on pre code p l = ⟨enabled on [wanted a.2.name p], .error q⟩ := by
  intro l
  induction l with
  | nil => intro _ h; cases h
  | cons a l ih =>
    intro hr h
    have hall := hr
    obtain ⟨id, cfg⟩ := a
    by_cases ht : p.topic = areaCommandTopic pre cfg.name
    · rcases commandFor_cases (pre := pre) (code := code) (p := p) hall with
        ⟨_, h2⟩ | ⟨a, _, _, ⟨hu, h1⟩ | ⟨_, _, h1⟩ | ⟨_, _, h1⟩⟩
      · exact absurd ht (h2 _ (List.mem_cons_self ..))
      · rw [h] at h1
        cases h1
        refine ⟨_, List.mem_cons_self .., ht, hu, fun on => ?_⟩
        unfold commandForS
        rw [if_neg (fun h => h ht), say_ok, bind_said, if_pos hu]
        show (⟨_ ++ [], _⟩ : Said (Option Command)) = _
        rw [List.append_nil]
        rfl
      · rw [h] at h1; cases h1
      · rw [h] at h1; cases h1
    · have e : commandFor pre code p ((id, cfg) :: l) = commandFor pre code p l := by
        conv => lhs; unfold commandFor
        rw [if_pos ht]
      rw [e] at h
      obtain ⟨a, ha, h1, h2, h3⟩ := ih (fun a ha => hr a (List.mem_cons_of_mem _ ha)) h
      refine ⟨a, List.mem_cons_of_mem _ ha, h1, h2, fun on => ?_⟩
      conv => lhs; unfold commandForS
      rw [if_pos ht]
      exact h3 on

/-- The panel's branch of `select!`. -/
theorem panel_words {b : Bridge} {d : Desk} (hg : Showable b) (hs : Sits b d)
    (hw : b.waiting = .select) {cx : Cx} {pf : Bool} (hi : pf = false → b.inbox = []) :
    (∃ w panel io v', b.pollPanel cx = .ok (none, { b with panel }) ∧
      b.panel.pollNext cx = .ok (.pending, w, panel) ∧ Reading cx d.view io .pending v' ∧
      ∀ on, b.pollPanelS on cx = ⟨[], .ok (none, { b with panel })⟩) ∨
    (∃ o b', b.pollPanel cx = .ok (some o, b')) ∨
    (∃ q io c j, b.pollPanel cx = .error q ∧
      LastWords b.cfg (.serving b.code d) (.op (.tick cx pf)) io [] c j ∧
      ∀ on, b.pollPanelS on cx = ⟨enabled on j, .error q⟩) := by
  obtain ⟨⟨r, w, panel⟩, _, hn, _⟩ :=
    pollNext_cases b.panel cx hg.good.good.sane.rd hg.good.good.sane.arming
  obtain ⟨io, v', h1, h2, h3, h4⟩ := next_reading hg.good.good hs.view hn
  have hsel : d.doing = .select := hs.doing.symm.trans hw
  have hin : pf = false → d.inbox = [] := fun h => hs.inbox.symm.trans (hi h)
  have eS := panelNextS_ok hn
  match r, hn, h1, eS with
  | .pending, hn, h1, eS =>
    refine .inl ⟨w, panel, io, v', ?_, hn, h1, fun on => ?_⟩
    · unfold Bridge.pollPanel
      rw [hn]; rfl
    · unfold Bridge.pollPanelS
      rw [eS on]; rfl
  | .ready none, hn, h1, eS =>
    refine .inr (.inr ⟨.expect, io, .line, [], ?_, .over hsel hin h1 (fun _ h => nomatch h),
      fun on => ?_⟩)
    · unfold Bridge.pollPanel
      rw [hn]; rfl
    · unfold Bridge.pollPanelS
      rw [eS on]; rfl
  | .ready (some (.error e)), hn, h1, eS =>
    refine .inr (.inr ⟨.expect, io, .line, [], ?_, .over hsel hin h1 (fun _ h => nomatch h),
      fun on => ?_⟩)
    · unfold Bridge.pollPanel
      rw [hn]; rfl
    · unfold Bridge.pollPanelS
      rw [eS on]; rfl
  | .ready (some (.ok ev)), hn, h1, eS =>
    have e : b.pollPanel cx = publishEvent panel b.cfg ev >>= fun out =>
        .ok (some (.event ev out w), { b with panel, log := b.log ++ out }) := by
      unfold Bridge.pollPanel
      rw [hn]; rfl
    rcases publishEvent_iff hg.good hn with ⟨r, hm, ho⟩ | ⟨_, j, ch, _, _, ho⟩
    · obtain ⟨t, ht, _⟩ := event_shown (next_event hg.good.good hg.good.wf hg.busy hn)
      obtain ⟨pkt, hpk⟩ : ∃ pkt, ev.pkt = some pkt := by
        cases h1 with
        | late => cases hm
        | event _ ht => cases ht <;> exact ⟨_, rfl⟩
      refine .inr (.inr ⟨.todo, io, .report, _, by rw [e, ho]; rfl,
        .report hsel hin h1 hm hpk ht, fun on => ?_⟩)
      have hl : nextLog b.panel (.ready (some (.ok ev))) = [jot .received [("pkt", pkt.debug)]] := by
        unfold nextLog
        dsimp only
        rw [hpk, hm]
        rfl
      unfold Bridge.pollPanelS
      rw [eS on, bind_said, hl]
      dsimp only
      rw [oneField_ok ht, say_ok, bind_said, ho, of_died]
      show (⟨_, _⟩ : Said (Option BObs × Bridge)) = _
      congr 1
      rw [List.append_nil, ← enabled_append]
      rfl
    · exact .inr (.inl ⟨_, _, by rw [e, ho]; rfl⟩)

/-- The inbox' branch of `select!`. -/
theorem inbox_words {b : Bridge} {d : Desk} (hg : Showable b) (hs : Sits b d)
    (hw : b.waiting = .select) {cx : Cx} {pf : Bool} {io v'} {panel : Panel}
    (hlk : Looked cx d.view pf io v') {q : Panic}
    (he : ({ b with panel } : Bridge).pollInbox = .error q) :
    ∃ j, LastWords b.cfg (.serving b.code d) (.op (.tick cx pf)) io [] .garbage j ∧
      ∀ on, ({ b with panel } : Bridge).pollInboxS on = ⟨enabled on j, .error q⟩ := by
  have hsel : d.doing = .select := hs.doing.symm.trans hw
  unfold Bridge.pollInbox at he
  dsimp only at he
  cases hi : b.inbox with
  | nil => rw [hi] at he; cases he
  | cons p rest =>
    rw [hi] at he
    dsimp only at he
    cases hcf : commandFor b.cfg.prefix b.code p b.cfg.elk.areas with
    | ok c => rw [hcf] at he; cases c <;> cases he
    | error q' =>
      rw [hcf] at he
      cases he
      obtain ⟨a, ha, ht, hu, hS⟩ := garbage_said hg.good.usable.areas hcf
      refine ⟨_, .garbage hsel (hs.inbox.symm.trans hi) hlk ha ht (fun hx => ?_), fun on => ?_⟩
      · rw [(utf8Valid_iff _).mpr hx] at hu
        cases hu
      · unfold Bridge.pollInboxS
        simp only [hi]
        rw [say_ok, bind_said, hS on, bind_died, ← enabled_append]
        rfl

theorem words_serving {b : Bridge} {d : Desk} (hg : Showable b) (hs : Sits b d) {op : BOp} {q : Panic}
    (he : b.step op = .error q) :
    ∃ rd wr c j, LastWords b.cfg (.serving b.code d) (.op op) rd wr c j ∧
      ∀ on, b.stepS on op = ⟨enabled on j, .error q⟩ := by
  match op with
  | .arrive r => cases he
  | .writable r => cases he
  | .deliver p => cases he
  | .tick cx pf =>
    have he : b.tick cx pf = .error q := he
    show ∃ rd wr c j, _ ∧ ∀ on, b.tickS on cx pf = _
    unfold Bridge.tickS
    unfold Bridge.tick at he
    match hw : b.waiting with
    | .select =>
      rw [hw] at he
      dsimp only at he ⊢
      unfold Bridge.select at he
      unfold Bridge.selectS
      cases pf with
      | true =>
        rw [if_pos rfl] at he
        simp only [if_true]
        rcases panel_words hg hs hw (cx := cx) (pf := true) (fun h => nomatch h) with
          ⟨w, panel, io, v', h1, _, h3, hS⟩ | ⟨o, b', h1⟩ | ⟨q', io, c, j, h1, h2, hS⟩
        · rw [h1, bind_ok] at he
          dsimp only at he
          cases hx : ({ b with panel } : Bridge).pollInbox with
          | ok y => rw [hx] at he; cases he
          | error q' =>
            rw [hx] at he
            cases he
            obtain ⟨j, a, c⟩ := inbox_words hg hs hw (.yes h3) hx
            refine ⟨io, [], _, j, a, fun on => ?_⟩
            rw [hS on, bind_said]
            dsimp only
            rw [c on, bind_died]
            rfl
        · rw [h1, bind_ok] at he; cases he
        · rw [h1] at he
          cases he
          exact ⟨io, [], c, j, h2, fun on => by rw [hS on, bind_died]⟩
      | false =>
        rw [if_neg (by simp)] at he
        simp only [Bool.false_eq_true, if_false]
        cases hx : b.pollInbox with
        | error q' =>
          rw [hx] at he
          cases he
          obtain ⟨j, a, c⟩ := inbox_words (panel := b.panel) hg hs hw (.no (cx := cx)) hx
          have c : ∀ on, b.pollInboxS on = _ := c
          exact ⟨[], [], _, j, a, fun on => by rw [c on, bind_died]⟩
        | ok y =>
          rcases pollInbox_ok hx with ⟨hi, h1, h2⟩ | ⟨_, _, _, _, h1, _⟩ | ⟨_, _, _, _, _, h1, _⟩
          · obtain ⟨o, b'⟩ := y
            dsimp only at h1 h2
            subst h1 h2
            rw [hx, bind_ok] at he
            dsimp only at he
            rcases panel_words hg hs hw (cx := cx) (pf := false) (fun _ => hi) with
              ⟨w, panel, io, v', h1, _, h3, hS⟩ | ⟨o, b', h1⟩ | ⟨q', io, c, j, h1, h2, hS⟩
            · rw [h1] at he; cases he
            · rw [h1] at he; cases he
            · rw [h1] at he
              cases he
              refine ⟨io, [], c, j, h2, fun on => ?_⟩
              have e : b'.pollInboxS on = ⟨[], .ok (none, b')⟩ := by
                unfold Bridge.pollInboxS
                rw [hi]; rfl
              rw [e, bind_said]
              dsimp only
              rw [hS on, bind_died]
              rfl
          · rw [hx, bind_ok] at he
            obtain ⟨o, b'⟩ := y
            dsimp only at h1
            subst h1
            cases he
          · rw [hx, bind_ok] at he
            obtain ⟨o, b'⟩ := y
            dsimp only at h1
            subst h1
            cases he
    | .ready c =>
      rw [hw] at he
      dsimp only at he ⊢
      have hd : d.doing = .ready c := hs.doing.symm.trans hw
      have hc := pollReady_cases b.panel cx
      match hr : b.panel.pollReady cx with
      | (.pending, p) => rw [hr] at he; cases he
      | (.ready (.error e), p) =>
        rw [hr] at he hc
        cases he
        obtain ⟨io, v', a1, _⟩ := readying_of_ready hs.view hc
        exact ⟨[], io, .line, [], .unready hd a1, fun on => rfl⟩
      | (.ready (.ok ()), p) =>
        rw [hr] at he hc
        cases hc with
        | idle hi =>
          dsimp only at he
          rw [startSend_wf (hg.good.cmd c hw) hi] at he
          cases he
    | .flush =>
      rw [hw] at he
      dsimp only at he ⊢
      have hd : d.doing = .flush := hs.doing.symm.trans hw
      have hc := pollFlush_cases b.panel cx
      match hr : b.panel.pollFlush cx with
      | (.pending, p) => rw [hr] at he; cases he
      | (.ready (.error e), p) =>
        rw [hr] at he hc
        cases he
        obtain ⟨io, v', a1, _⟩ := flushing_of_flush hs.view hc
        refine ⟨[], io, .line, [], .unsent hd a1, fun on => ?_⟩
        have : b.tick cx pf = .error .expect := by
          unfold Bridge.tick
          rw [hw]
          dsimp only
          rw [hr]
        rw [this]
        rfl
      | (.ready (.ok ()), p) => rw [hr] at he; cases he

/-! ## The bridge program -/

theorem step_words {p : Prog} {out : List Published} {x : Point} (hg : ProgGood out p)
    (hl : Loggable p) (hb : Being p x) {op : POp} {e : Panic} (he : p.step op = .error e) :
    ∃ rd wr c j, LastWords p.setup.cfg x op rd wr c j ∧
      ∀ on, p.stepS on op = ⟨enabled on j, .error e⟩ := by
  cases hb with
  | @dialing s =>
    match op with
    | .dialed (.error er) =>
      cases he
      exact ⟨[], [], .line, [], .unreachable, fun _ => rfl⟩
    | .dialed (.ok ()) =>
      have he : (Init.start {} >>= fun ph => Prog.connected s ph) = .error e := he
      rw [start_ok] at he
      cases he
    | .op q => cases he
  | @greeting s i w g hs =>
    match op with
    | .dialed r => cases he
    | .op (.arrive r) => exact words_connecting hg.2 hl.2 hs .arrive he
    | .op (.writable r) => exact words_connecting hg.2 hl.2 hs .writable he
    | .op (.tick cx pf) => exact words_connecting hg.2 hl.2 hs .tick he
    | .op (.deliver q) => cases he
  | @serving s b d hs =>
    match op with
    | .dialed r => cases he
    | .op q =>
      have he : (b.step q >>= fun x => Except.ok (x.1.out, Prog.running s x.2)) = .error e := he
      cases h1 : b.step q with
      | ok y => rw [h1] at he; cases he
      | error e' =>
        rw [h1] at he
        cases he
        obtain ⟨_, hre⟩ := hg
        obtain ⟨_, hcfg⟩ := reached_good hre
        obtain ⟨rd, wr, c, j, h2, h3⟩ := words_serving hl hs h1
        rw [hcfg] at h2
        refine ⟨rd, wr, c, j, h2, fun on => ?_⟩
        show (b.stepS on q >>= fun x => _) = _
        rw [h3 on, bind_died]

theorem progRunS_cons (on : Callsite → Bool) (op : POp) (ops : List POp) (p : Prog) :
    Prog.runS on (op :: ops) p = p.stepS on op >>= fun y =>
      Prog.runS on ops y.2 >>= fun z => .of (.ok (y.1 :: z.1, z.2)) := rfl

theorem words_of_run {ops : List POp} : ∀ {p : Prog} {x : Point} {out : List Published} {e : Panic},
    ProgGood out p → Loggable p → Being p x → progRun ops p = .error e →
    ∃ l x' op ops₂ rd wr c j, Annals p.setup.cfg x l x' ∧ ops = l.map Entry.op ++ op :: ops₂ ∧
      LastWords p.setup.cfg x' op rd wr c j ∧
      ∀ on, Prog.runS on ops p = ⟨enabled on (l.flatMap Entry.log ++ j), .error e⟩ := by
  induction ops with
  | nil => intro p x out e _ _ _ h; cases h
  | cons op ops ih =>
    intro p x out e hg hl hb h
    have ht := step_tells hg hl hb op
    match h1 : p.step op, ht with
    | .error e', _ =>
      rw [progRun, h1] at h
      cases h
      obtain ⟨rd, wr, c, j, h2, h3⟩ := step_words hg hl hb h1
      exact ⟨[], x, op, ops, rd, wr, c, j, .nil, rfl, h2, fun on => by
        rw [progRunS_cons, h3 on, bind_died]; rfl⟩
    | .ok (o, p1), ht =>
      obtain ⟨rd, wr, j, x1, a0, a1, a2, al, _, _⟩ := ht
      have a0 : ∀ on, p.stepL on op = .ok (enabled on j, o, p1) := a0
      obtain ⟨g1, g2⟩ := prog_good hg h1
      have h' : progRun ops p1 = .error e := by
        rw [progRun, h1, bind_ok] at h
        dsimp only at h
        cases hx : progRun ops p1 with
        | error e' => rw [hx] at h; cases h; rfl
        | ok y => rw [hx] at h; cases h
      obtain ⟨l, x', op', ops₂, rd', wr', c, j', c1, c2, c3, c4⟩ := ih g1 al a2 h'
      rw [g2] at c1 c3
      refine ⟨⟨op, rd, wr, o, j⟩ :: l, x', op', ops₂, rd', wr', c, j', .cons a1 c1, by rw [c2]; rfl, c3,
        fun on => ?_⟩
      have : p.stepS on op = ⟨enabled on j, .ok (o, p1)⟩ :=
        kept_ok.mp (by rw [progStep_kept, a0 on])
      rw [progRunS_cons, this, bind_said]
      dsimp only
      rw [c4 on, bind_died, ← enabled_append, List.flatMap_cons, List.append_assoc]

/-- **C144** If the bridge program panics, it has logged all that the machine logs before and, in the
operation in which it panics, what is said in `LastWords`, as far as it is enabled. -/
theorem C144_words {args : List Bytes} {file : Bytes → Option Bytes} {p0 : Prog}
    (h0 : Prog.main args file = .ok p0) {ops : List POp} {e : Panic}
    (hr : progRun ops p0 = .error e) :
    ∃ l x op ops₂ rd wr c j, Annals p0.setup.cfg .dialing l x ∧
      ops = l.map Entry.op ++ op :: ops₂ ∧ LastWords p0.setup.cfg x op rd wr c j ∧
      ∀ on, (Prog.runS on ops p0).log = enabled on (l.flatMap Entry.log ++ j) ∧
        (Prog.runS on ops p0).result = .error e := by
  obtain ⟨_, _, _, s, _, _, _, _, _, rfl⟩ := (C78_main args file p0).mp h0
  obtain ⟨l, x, op, ops₂, rd, wr, c, j, a, b, d, f⟩ := words_of_run (ops := ops) (p := .dialing s)
    (out := []) (show ProgGood [] (.dialing s) from rfl) trivial .dialing hr
  exact ⟨l, x, op, ops₂, rd, wr, c, j, a, b, d, fun on => by rw [f on]; exact ⟨rfl, rfl⟩⟩

/-- **C144** Where nothing panics the log is that of `C135`, whatever the program and the calls; and it
panics where that does. -/
theorem C144_same (on : Callsite → Bool) (ops : List POp) (p : Prog) :
    ((Prog.runS on ops p).result >>= fun y => .ok ((Prog.runS on ops p).log, y)) =
      Prog.runL on ops p >>= fun y => .ok (y.1.flatten, y.2) :=
  progRun_kept on ops p

theorem dashes_fail {w : Where} {g : Greet} {op : InitOp} {rd wr : Bytes} {c : Cause}
    {j : List Record} (h : Dashes w g op rd wr c j) :
    (∃ o e, Connects w g op rd wr o (.failed e)) ∨ (Breaks w g op rd ∧ wr = []) := by
  cases h with
  | lost h => exact .inl ⟨_, _, h⟩
  | room e a b c d _ => subst e; exact .inr ⟨.room a b c d, rfl⟩

/-- **C144** These are the ends of `C132`. -/
theorem C144_perishes {cfg : Cfg} {x : Point} {op : POp} {rd wr : Bytes} {c : Cause} {j : List Record}
    (h : LastWords cfg x op rd wr c j) : Perishes cfg x op rd wr := by
  cases h with
  | unreachable => exact .unreachable
  | dashes hp h =>
    rcases dashes_fail h with ⟨o, e, h'⟩ | ⟨h', rfl⟩
    · exact .lost hp h'
    · exact .room hp h'
  | unusable a b _ d => exact .unusable a b d
  | over a b c d => exact .stops (.over a b c d)
  | report a b c d _ _ => exact .stops (.report a b c d)
  | garbage a b c d e f => exact .stops (.garbage a b c ⟨_, d, e⟩ f)
  | unready a b => exact .stops (.unready a b)
  | unsent a b => exact .stops (.unsent a b)

/-! ## Reading the log -/

/-- **C144** What is logged at level `info` in the operation in which the program panics. -/
theorem C144_info {cfg : Cfg} {x : Point} {op : POp} {rd wr : Bytes} {c : Cause} {j : List Record}
    (h : LastWords cfg x op rd wr c j) : Epitaph cfg c (enabled (fun s => s.level = .info) j) := by
  cases h with
  | unreachable => exact .line
  | dashes _ h =>
    cases h with
    | lost => exact .line
    | room => exact .room
  | unusable _ _ hu hn =>
    rw [enabled_append, enabled_nothing fun r hr => by simpa using utters_info hu r hr]
    exact .config hn
  | over => exact .line
  | report _ _ _ hm _ hd => exact .report hm hd
  | garbage _ _ _ ha ht hu => exact .garbage ha ht hu
  | unready => exact .line
  | unsent => exact .line

/-- An event that is shown as one with a report on all zones is one. -/
theorem report_told {e e' : Event} {d : Dbg} (h : e.debug = .ok d) (h' : e'.debug = .ok d)
    {r : ZoneStatusReport} (hm : e.msg = some (.ok (.zoneStatusReport r))) :
    ∃ r', e'.msg = some (.ok (.zoneStatusReport r')) := by
  unfold Event.debug at h h'
  obtain ⟨a1, k1, h⟩ := P_bind_ok.mp h
  obtain ⟨a2, k2, h⟩ := P_bind_ok.mp h
  obtain ⟨a3, k3, h⟩ := P_bind_ok.mp h
  obtain ⟨a4, k4, h⟩ := P_bind_ok.mp h
  obtain ⟨b1, l1, h'⟩ := P_bind_ok.mp h'
  obtain ⟨b2, l2, h'⟩ := P_bind_ok.mp h'
  obtain ⟨b3, l3, h'⟩ := P_bind_ok.mp h'
  obtain ⟨b4, l4, h'⟩ := P_bind_ok.mp h'
  cases h
  injection h' with h'
  have h := struct_inj h'
  simp only [List.map_cons, List.map_nil, List.cons.injEq, and_true] at h
  obtain ⟨_, rfl, _, _⟩ := h
  rw [hm] at k2
  unfold Dbg.opt at k2
  obtain ⟨y, hy, k2⟩ := P_bind_ok.mp k2
  cases k2
  obtain ⟨z, hz, hy⟩ := P_bind_ok.mp hy
  cases hy
  obtain ⟨u, rfl⟩ := debug_name hz
  cases hm' : e'.msg with
  | none => rw [hm'] at l2; cases l2
  | some x =>
    rw [hm'] at l2
    unfold Dbg.opt at l2
    obtain ⟨y', hy', l2⟩ := P_bind_ok.mp l2
    injection l2 with l2
    obtain ⟨_, rfl⟩ := wrap_inj l2
    cases x with
    | error e =>
      injection hy' with hy'
      exact absurd (wrap_inj hy').1 (by decide)
    | ok m =>
      obtain ⟨z', hz', hy'⟩ := P_bind_ok.mp hy'
      injection hy' with hy'
      obtain ⟨_, rfl⟩ := wrap_inj hy'
      obtain ⟨u', hu'⟩ := debug_name hz'
      have hi := rustName_inj (wrap_inj hu').1
      cases m <;> first | exact ⟨_, rfl⟩ | (simp [Message.rustIndex] at hi; done)

/-- What a record at level `info` is of an operation that does not panic. -/
theorem recounts_info {cfg : Cfg} {x y : Point} {op : POp} {rd wr : Bytes} {out : List Published}
    {l : List Record} (h : Recounts cfg x op rd wr out l y) {r : Record} (hr : r ∈ l)
    (hi : r.site.level = .info) :
    (r = ⟨.initialized, []⟩ ∧ UsableCfg cfg) ∨
    (∃ (ev : Event) (t : Dbg), r = jot .panelEvent [("panel_event", t)] ∧ ev.debug = .ok t ∧
      ∀ z, ev.msg ≠ some (.ok (.zoneStatusReport z))) ∨
    (∃ p, r = mailed p ∧ (ForCommands cfg p.topic → Rfc.Utf8 p.payload)) ∨
    ∃ n p, r = wanted n p := by
  cases h with
  | reached => simp at hr; subst hr; cases hi
  | early => cases hr
  | dialed => cases hr
  | undelivered => cases hr
  | greets _ _ hu => exact absurd hi (utters_info hu r hr)
  | opens _ _ hu huse =>
    rcases List.mem_append.mp hr with h | h
    · exact absurd hi (utters_info hu r h)
    · exact .inl ⟨by simpa using h, huse⟩
  | serves hs hv hn =>
    cases hn with
    | event hj hd =>
      rcases List.mem_append.mp hr with h | h
      · exact absurd hi (jots_levels hj r h)
      · cases hs with
        | event _ _ _ hz _ => exact .inr (.inl ⟨_, _, by simpa using h, hd, hz⟩)
    | unknown hf =>
      simp only [List.mem_cons, List.not_mem_nil, or_false] at hr
      rcases hr with rfl | rfl
      · exact .inr (.inr (.inl ⟨_, rfl, fun h => absurd h hf⟩))
      · cases hi
    | ignored ha ht hl =>
      simp only [List.mem_cons, List.not_mem_nil, or_false] at hr
      rcases hr with rfl | rfl | rfl
      · cases hs with
        | ignores _ _ _ _ hu => exact .inr (.inr (.inl ⟨_, rfl, hu⟩))
      · exact .inr (.inr (.inr ⟨_, _, rfl⟩))
      · cases hi
    | asked ha ht hl =>
      simp only [List.mem_cons, List.not_mem_nil, or_false] at hr
      rcases hr with rfl | rfl
      · exact .inr (.inr (.inl ⟨_, rfl, fun _ => (utf8Valid_iff _).mp (level_text hl)⟩))
      · exact .inr (.inr (.inr ⟨_, _, rfl⟩))
    | hands hj =>
      cases hj with
      | send _ =>
        simp only [List.mem_cons, List.not_mem_nil, or_false] at hr
        rcases hr with rfl | rfl <;> cases hi
      | other _ h => exact absurd rfl (h _)
    | quiet => cases hr

theorem recounts_telling {cfg : Cfg} {l₁ l₂ : List Record} {c : Cause}
    (h : ∀ r ∈ l₁, r.site.level = .info → r ∈ l₂ ∨
      (r = ⟨.initialized, []⟩ ∧ UsableCfg cfg) ∨
      (∃ (ev : Event) (t : Dbg), r = jot .panelEvent [("panel_event", t)] ∧ ev.debug = .ok t ∧
        ∀ z, ev.msg ≠ some (.ok (.zoneStatusReport z))) ∨
      (∃ p, r = mailed p ∧ (ForCommands cfg p.topic → Rfc.Utf8 p.payload)) ∨
      ∃ n p, r = wanted n p)
    (ht : Telling cfg (enabled (fun s => s.level = .info) l₁) c) : Telling cfg l₂ c := by
  have mem : ∀ {r}, r ∈ enabled (fun s => s.level = .info) l₁ → r ∈ l₁ ∧ r.site.level = .info := by
    intro r hr
    have := List.mem_filter.mp hr
    exact ⟨this.1, by simpa using this.2⟩
  cases ht with
  | config hr hu =>
    obtain ⟨h1, h2⟩ := mem hr
    rcases h _ h1 h2 with h | ⟨_, h⟩ | ⟨_, _, h, _⟩ | ⟨_, h, _⟩ | ⟨_, _, h⟩
    · exact .config h hu
    · exact absurd h hu
    · cases h
    · cases h
    · cases h
  | report hm hd hr =>
    obtain ⟨h1, h2⟩ := mem hr
    rcases h _ h1 h2 with h | ⟨h, _⟩ | ⟨ev, t, h, hd', hn⟩ | ⟨_, h, _⟩ | ⟨_, _, h⟩
    · exact .report hm hd h
    · cases h
    · cases h
      obtain ⟨z, hz⟩ := report_told hd hd' hm
      exact absurd hz (hn z)
    · cases h
    · cases h
  | @garbage p hr hf hu =>
    obtain ⟨h1, h2⟩ := mem hr
    rcases h _ h1 h2 with h | ⟨h, _⟩ | ⟨_, _, h, _⟩ | ⟨p', h, hn⟩ | ⟨_, _, h⟩
    · exact .garbage h hf hu
    · cases h
    · cases h
    · have e : p.topic = p'.topic ∧ p.payload = p'.payload := by
        simp only [mailed, Record.mk.injEq, List.cons.injEq, Prod.mk.injEq, FieldValue.publish.injEq,
          FieldValue.bytes.injEq, true_and, and_true] at h
        exact ⟨h.1.1, h.2⟩
      rw [e.1] at hf
      rw [e.2] at hu
      exact absurd (hn hf) hu
    · cases h

theorem annals_record {cfg : Cfg} {x y : Point} {l : List Entry} (h : Annals cfg x l y) {r : Record}
    (hr : r ∈ l.flatMap Entry.log) : ∃ x' y' op rd wr out j, Recounts cfg x' op rd wr out j y' ∧ r ∈ j := by
  induction h with
  | nil => cases hr
  | cons h1 _ ih =>
    rw [List.flatMap_cons] at hr
    rcases List.mem_append.mp hr with h | h
    · exact ⟨_, _, _, _, _, _, _, h1, h⟩
    · exact ih h

/-- **C144** As long as the program has not panicked, its log gives away no cause. -/
theorem C144_alive {cfg : Cfg} {x y : Point} {l : List Entry} (h : Annals cfg x l y) (c : Cause) :
    ¬ Telling cfg (enabled (fun s => s.level = .info) (l.flatMap Entry.log)) c := by
  intro ht
  have := recounts_telling (l₂ := []) (fun r hr hi => by
    obtain ⟨_, _, _, _, _, _, _, h1, h2⟩ := annals_record h hr
    exact .inr (recounts_info h1 h2 hi)) ht
  cases this with
  | config h => cases h
  | report _ _ h => cases h
  | garbage h => cases h

/-- **C144** From the log at level `info` of a program that panicked it can be told whether that was for
the configuration, for a report on all zones or for a message that is not text, and which. -/
theorem C144_postmortem {cfg : Cfg} {x y : Point} {l : List Entry} {op : POp} {rd wr : Bytes}
    {c c' : Cause} {j : List Record} (h : Annals cfg x l y) (hw : LastWords cfg y op rd wr c j) :
    Telling cfg (enabled (fun s => s.level = .info) (l.flatMap Entry.log ++ j)) c' ↔
      c' = c ∧ c ≠ .line ∧ c ≠ .room := by
  have hi := C144_info hw
  constructor
  · intro ht
    have ht := recounts_telling (l₂ := enabled (fun s => s.level = .info) j) (fun r hr hi => by
      rcases List.mem_append.mp hr with hr | hr
      · obtain ⟨_, _, _, _, _, _, _, h1, h2⟩ := annals_record h hr
        exact .inr (recounts_info h1 h2 hi)
      · exact .inl (List.mem_filter.mpr ⟨hr, by simpa using hi⟩)) ht
    generalize enabled (fun s => s.level = .info) j = j' at hi ht
    cases hi with
    | line => cases ht <;> simp_all
    | room => cases ht <;> simp_all
    | config => cases ht <;> simp_all [mailed, jot]
    | report => cases ht <;> simp_all [mailed, jot]
    | garbage => cases ht <;> simp_all [mailed, wanted, jot]
  · rintro ⟨rfl, h1, h2⟩
    rw [enabled_append]
    generalize enabled (fun s => s.level = .info) j = j' at hi
    cases hi with
    | line => exact absurd rfl h1
    | room => exact absurd rfl h2
    | config h => exact .config (List.mem_append_right _ (List.mem_cons_self ..)) h
    | report hm hd => exact .report hm hd (List.mem_append_right _ (List.mem_cons_self ..))
    | garbage ha ht hu =>
      exact .garbage (List.mem_append_right _ (List.mem_cons_self ..)) ⟨_, ha, ht⟩ hu

/-! ## `watch` -/

theorem sight_step {w : Watcher} {x : Vantage} (hg : WatcherGood w) (hs : Posted w x) {op : WatcherOp}
    {on₀ : Callsite → Bool} {e : Panic} (he : w.stepL on₀ op = .error e) :
    ∃ rd wr c j, LastSight x op rd wr c j ∧ ∀ on, w.stepS on op = ⟨enabled on j, .error e⟩ := by
  cases hs with
  | dialing =>
    match op with
    | .dialed (.error er) =>
      cases he
      exact ⟨[], [], .line, [], .unreachable, fun _ => rfl⟩
    | .dialed (.ok ()) =>
      exfalso
      have he : (Init.startL on₀ {} >>= fun y => Watcher.connectedL on₀ y.2 >>= fun z =>
        (.ok (y.1 ++ z.1, z.2) : P _)) = .error e := he
      unfold Init.startL at he
      rw [start_ok] at he
      simp only [bind_ok] at he
      rw [startedL_eq on₀ (by rintro i ⟨⟩; exact stageQ_wf .arming)] at he
      cases he
    | .op q => cases he
  | @greeting i w g hs =>
    match op with
    | .dialed r => cases he
    | .op q =>
      obtain ⟨hgi, hz, hn⟩ := hg
      have he : (i.stepL on₀ q >>= fun y => Watcher.connectedL on₀ y.2.2 >>= fun z =>
        (.ok (y.1 ++ z.1, z.2) : P _)) = .error e := he
      show ∃ rd wr c j, _ ∧ ∀ on, (i.stepS on q >>= fun y => Watcher.connectedS on y.2) = _
      rw [initStepL_eq on₀ hgi hz] at he
      rcases init_cases hgi q with ⟨⟨o, ph⟩, h1, h2⟩ | ⟨cx, rfl, h1, h2⟩
      · rw [h1] at he
        simp only [bind_ok] at he
        obtain ⟨rd, wr, x, a, b, c⟩ := asks_of_step hgi hs h1
        have hu := utters_of_step hgi hz hs h2 b
        have e1 := initStepS_ok hgi hz h1
        match ph, b, hu, he, e1 with
        | .asking i', b, hu, he, e1 => cases he
        | .finished (.error er), b, hu, he, e1 =>
          cases b
          cases he
          have hl := connects_failed a hu
          refine ⟨rd, wr, .line, [], .dashes (.lost a), fun on => ?_⟩
          rw [e1 on, hl, bind_said]
          rfl
        | .finished (.ok p), b, hu, he, e1 =>
          simp only [Watcher.connectedL, emit_ok, bind_ok] at he
          cases he
      · rw [h1] at he
        cases he
        obtain ⟨io, j, a, b⟩ := dashes_room hgi hz hs h2 h1
        exact ⟨io, [], .room, j, .dashes a, fun on => by rw [b on, bind_died]⟩
  | @seeing p v hl =>
    match op with
    | .dialed r => cases he
    | .op q =>
      have hg : Unasked p := hg
      have he : (Cli.watchStepL on₀ p q >>= fun y => (.ok (y.1, Watcher.watching y.2) : P _)) =
        .error e := he
      rw [watchStepL_eq on₀ hg q] at he
      have hx : Cli.watchStep p q = .error e := by
        cases hx : Cli.watchStep p q with
        | ok y => rw [hx] at he; cases he
        | error e' => rw [hx] at he; cases he; rfl
      match q with
      | .arrive r => cases hx
      | .writable r => cases hx
      | .tick cx =>
        have hgood := hg.watched.good
        obtain ⟨⟨r, w, p'⟩, _, hn, _⟩ := pollNext_cases p cx hgood.sane.rd hgood.sane.arming
        obtain ⟨io, v', h1, _⟩ := next_reading hgood hl hn
        have eS := panelNextS_ok hn
        have hx : Cli.watchTick p cx = .error e := hx
        unfold Cli.watchTick at hx
        rw [hn] at hx
        simp only [bind_ok] at hx
        match r, hn, h1, hx, eS with
        | .pending, hn, h1, hx, eS => cases hx
        | .ready none, hn, h1, hx, eS => cases hx
        | .ready (some (.error er)), hn, h1, hx, eS =>
          cases hx
          refine ⟨io, [], .line, [], .broken h1, fun on => ?_⟩
          show (Cli.watchTickS on p cx >>= fun w => _) = _
          unfold Cli.watchTickS
          rw [eS on]
          rfl
        | .ready (some (.ok ev)), hn, h1, hx, eS =>
          obtain ⟨_, _, _, _, _, _, _, _, _, h5, _⟩ := event_lines hg.watched (next_step.mpr hn)
          dsimp only at hx
          rw [h5] at hx
          cases hx
  | @over p =>
    match op with
    | .dialed r => cases he
    | .op q => cases he

theorem sight_of_run {ops : List WatcherOp} : ∀ {w : Watcher} {x : Vantage} {on₀ : Callsite → Bool}
    {e : Panic}, WatcherGood w → Posted w x → Watcher.runL on₀ ops w = .error e →
    ∃ l x' op ops₂ rd wr c j, Vigil x l x' ∧ ops = l.map Glance.op ++ op :: ops₂ ∧
      LastSight x' op rd wr c j ∧
      ∀ on, Watcher.runS on ops w = ⟨enabled on (l.flatMap Glance.log ++ j), .error e⟩ := by
  induction ops with
  | nil => intro w x on₀ e _ _ h; cases h
  | cons op ops ih =>
    intro w x on₀ e hg hs h
    rcases spots_step hg hs op with ⟨rd, wr, j, x1, w1, h1, h2, h3, h4, _, _⟩ | ⟨rd, wr, h1, _⟩
    · rw [watcher_cons, h1 on₀, bind_ok] at h
      dsimp only at h
      have h' : Watcher.runL on₀ ops w1 = .error e := by
        cases hx : Watcher.runL on₀ ops w1 with
        | ok y => rw [hx] at h; cases h
        | error e' => rw [hx] at h; cases h; rfl
      obtain ⟨l, x', op', ops₂, rd', wr', c, j', a, b, d, f⟩ := ih h4 h3 h'
      refine ⟨⟨op, rd, wr, j⟩ :: l, x', op', ops₂, rd', wr', c, j', .cons h2 a, by rw [b]; rfl, d,
        fun on => ?_⟩
      have : w.stepS on op = ⟨enabled on j, .ok w1⟩ :=
        kept_ok.mp (by rw [watcherStep_kept, h1 on])
      show (w.stepS on op >>= fun w => Watcher.runS on ops w) = _
      rw [this, bind_said, f on, ← enabled_append, List.flatMap_cons, List.append_assoc]
    · obtain ⟨q, hq⟩ := h1 on₀
      rw [watcher_cons, hq] at h
      cases h
      obtain ⟨rd, wr, c, j, a, b⟩ := sight_step hg hs hq
      refine ⟨[], x, op, ops, rd, wr, c, j, .nil, rfl, a, fun on => ?_⟩
      show (w.stepS on op >>= fun w => Watcher.runS on ops w) = _
      rw [b on, bind_died]
      rfl

/-- **C144** If `elkm1-cli watch` panics, it has logged all that its machine logs before and, in the
operation in which it panics, what is said in `LastSight`, as far as it is enabled. -/
theorem C144_watch {on₀ : Callsite → Bool} {ops : List WatcherOp} {e : Panic}
    (h : Watcher.runL on₀ ops .dialing = .error e) :
    ∃ l x op ops₂ rd wr c j, Vigil .dialing l x ∧ ops = l.map Glance.op ++ op :: ops₂ ∧
      LastSight x op rd wr c j ∧
      ∀ on, (Watcher.runS on ops .dialing).log = enabled on (l.flatMap Glance.log ++ j) ∧
        (Watcher.runS on ops .dialing).result = .error e := by
  obtain ⟨l, x, op, ops₂, rd, wr, c, j, a, b, d, f⟩ :=
    sight_of_run (ops := ops) (w := .dialing) trivial .dialing h
  exact ⟨l, x, op, ops₂, rd, wr, c, j, a, b, d, fun on => by rw [f on]; exact ⟨rfl, rfl⟩⟩

/-- **C144** Where nothing panics the log of `watch` is that of `C133`; and it panics where that does. -/
theorem C144_watch_same (on : Callsite → Bool) (ops : List WatcherOp) (w : Watcher) :
    ((Watcher.runS on ops w).result >>= fun y => .ok ((Watcher.runS on ops w).log, y)) =
      Watcher.runL on ops w :=
  watcherRun_kept on ops w

/-- **C144** These are the ends of `C133`, and the cause is the line or a name without room. -/
theorem C144_blinds {x : Vantage} {op : WatcherOp} {rd wr : Bytes} {c : Cause} {j : List Record}
    (h : LastSight x op rd wr c j) : Blinds x op rd wr ∧ (c = .line ∨ c = .room) := by
  cases h with
  | unreachable => exact ⟨.unreachable, .inl rfl⟩
  | dashes h =>
    refine ⟨?_, by cases h <;> simp⟩
    rcases dashes_fail h with ⟨o, e, h'⟩ | ⟨h', rfl⟩
    · exact .lost h'
    · exact .room h'
  | broken h => exact ⟨.broken h, .inl rfl⟩

/-! ## Runs -/

/-- **C144** For a run of the bridge program that panics: what its log at level `info` gives away. -/
theorem C144_autopsy {args : List Bytes} {file : Bytes → Option Bytes} {p0 : Prog}
    (h0 : Prog.main args file = .ok p0) {ops : List POp} {e : Panic}
    (hr : progRun ops p0 = .error e) :
    ∃ l x op ops₂ rd wr c j, Annals p0.setup.cfg .dialing l x ∧
      ops = l.map Entry.op ++ op :: ops₂ ∧ LastWords p0.setup.cfg x op rd wr c j ∧
      ∀ c', Telling p0.setup.cfg (Prog.runS (fun s => s.level = .info) ops p0).log c' ↔
        c' = c ∧ c ≠ .line ∧ c ≠ .room := by
  obtain ⟨l, x, op, ops₂, rd, wr, c, j, a, b, d, f⟩ := C144_words h0 hr
  refine ⟨l, x, op, ops₂, rd, wr, c, j, a, b, d, fun c' => ?_⟩
  rw [(f _).1]
  exact C144_postmortem a d

/-- Whether a run ends in a panic with these records at level `info`. -/
def diesSaying {α : Type} (s : Said α) (l : List Callsite) : Bool :=
  decide (s.log.map Record.site = l) && (match s.result with | .ok _ => false | .error _ => true)

/-- Non-vacuity: what the bridge program says last when the panel reports on all zones, when a message is
not text, and when the connection ends. -/
example : [([.op (.arrive (.data (msgBytes (.zoneStatusReport ⟨Vector.replicate 208 ⟨0⟩⟩))))],
        [Callsite.initialized, .panelEvent, .panelEvent]),
      ([.op (.deliver ⟨bs "elkm1/42/area/home/ha_command", [255]⟩)],
        [.initialized, .panelEvent, .publish, .matched]),
      ([.op (.arrive .eof)], [.initialized, .panelEvent])].all (fun x =>
    match Prog.main [bs "cfg.json"] (fun _ => some sampleFile) with
    | .ok p0 => diesSaying (Prog.runS (fun s => s.level = .info)
        (sampleProgOps ++ List.replicate 4 (.op (.tick ⟨1, 0, 0⟩ true)) ++ x.1 ++
          List.replicate 2 (.op (.tick ⟨1, 0, 0⟩ true))) p0) x.2
    | .error _ => false) = true := by decide +kernel

/-- Non-vacuity: what `watch` says last when reading fails. -/
example : diesSaying (Watcher.runS (fun s => s.level = .info) (sampleWatchOps.dropLast.dropLast ++
    [.op (.arrive (.error 1)), .op (.tick ⟨1, 0, 0⟩)]) .dialing) [.tracking, .zoneLine] = true := by
  decide +kernel

end Elk.Props
