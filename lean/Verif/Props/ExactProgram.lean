import Verif.Props.ExactGreeting
import Verif.Props.ExactDesk
import Verif.Props.Program
import Verif.Spec.ExactProgram
/-!
# The bridge program does exactly what the reference machine allows (C140)
-/

namespace Elk.Props
open Elk.Spec

/-! ## Histories -/

/-- What is recorded of an operation. -/
def dealOf (p : Prog) (op : POp) (out : List Published) (p₁ : Prog) : Deal :=
  ⟨op, (lineOf p₁).1.drop (lineOf p).1.length, (lineOf p₁).2.drop (lineOf p).2.length, out⟩

theorem deals_cons {op : POp} {ops : List POp} {p p2 : Prog} {ds : List Deal} :
    tracedProg (op :: ops) p = .ok (ds, p2) ↔ ∃ out p1 ds', p.step op = .ok (out, p1) ∧
      tracedProg ops p1 = .ok (ds', p2) ∧ ds = dealOf p op out p1 :: ds' := by
  have e : tracedProg (op :: ops) p = (p.step op >>= fun x => tracedProg ops x.2 >>= fun y =>
      .ok (dealOf p op x.1 x.2 :: y.1, y.2)) := rfl
  rw [e, P_bind_ok]
  constructor
  · rintro ⟨⟨o, q⟩, h1, h2⟩
    rw [P_bind_ok] at h2
    obtain ⟨⟨ts, q'⟩, h3, h4⟩ := h2
    cases h4
    exact ⟨o, q, ts, h1, h3, rfl⟩
  · rintro ⟨o, q, ts, h1, h3, rfl⟩
    exact ⟨(o, q), h1, by rw [h3]; rfl⟩

theorem deals_append {x y : List POp} : ∀ {p p1 p2 : Prog} {dx dy : List Deal},
    tracedProg x p = .ok (dx, p1) → tracedProg y p1 = .ok (dy, p2) →
    tracedProg (x ++ y) p = .ok (dx ++ dy, p2) := by
  induction x with
  | nil => intro p p1 p2 dx dy h1 h2; cases h1; exact h2
  | cons op x ih =>
    intro p p1 p2 dx dy h1 h2
    obtain ⟨o, q, ts, h3, h4, rfl⟩ := deals_cons.mp h1
    exact deals_cons.mpr ⟨o, q, ts ++ dy, h3, ih h4 h2, rfl⟩

theorem deals_one {op : POp} {p p1 : Prog} {out : List Published} (h : p.step op = .ok (out, p1)) :
    tracedProg [op] p = .ok ([dealOf p op out p1], p1) :=
  deals_cons.mpr ⟨out, p1, [], h, rfl, rfl⟩

theorem moves_append (a b : List Deal) : moves (a ++ b) = moves a ++ moves b := by
  simp [moves]

theorem moves_cons (d : Deal) (l : List Deal) :
    moves (d :: l) = if isMove d.op then d :: moves l else moves l := by
  simp [moves, List.filter_cons]

/-! ## The end of starting -/

theorem publish_error {t : Bytes} {r : Bool} {pl : Payload} {q : Panic}
    (h : publish t r pl = .error q) : q = .expect := by
  unfold publish at h
  split at h
  · cases h
  · cases h; rfl

theorem publishEach_error {α : Type} {f : α → P (List Published)} {q : Panic} : ∀ {l : List α},
    publishEach f l = .error q → ∃ a, f a = .error q := by
  intro l
  induction l with
  | nil => intro h; cases h
  | cons a l ih =>
    intro h
    unfold publishEach at h
    rcases P_bind_error.mp h with h | ⟨x, _, h⟩
    · exact ⟨a, h⟩
    · rcases P_bind_error.mp h with h | ⟨y, _, h⟩
      · exact ih h
      · cases h

theorem limited_error {max : Nat} {v : UInt8} {q : Panic}
    (h : unwrapR (Limited.tryFrom (max := max) v) = .error q) : q = .expect := by
  unfold Limited.tryFrom at h
  split at h
  · cases h
  · cases h; rfl

theorem areaState_error {p : Panel} {pre : Bytes} {a : UInt8 × AreaCfg} {r : ArmingStatusReport}
    {q : Panic} (hr : p.armingStatus = .ok r) (h : publishAreaState p pre a = .error q) :
    q = .expect := by
  unfold publishAreaState at h
  rcases P_bind_error.mp h with h | ⟨l, hl, h⟩
  · exact limited_error h
  rw [hr] at h
  simp only [bind_ok] at h
  obtain ⟨⟨h1, h2⟩, rfl⟩ := tryFrom_ok.mp (unwrapR_ok.mp hl)
  rw [haAreaState_ok (i := ⟨a.1.toNat - 1, by omega⟩) (by simp; omega)] at h
  exact publish_error h

theorem zoneState_error {p : Panel} {pre : Bytes} {a : UInt8 × ZoneCfg} {z : ZoneStatusReport}
    {q : Panic} (hz : p.zoneStatuses = .ok z) (hw : ∀ x ∈ z.zones.toList, WfZoneStatus x)
    (h : (unwrapR (Limited.tryFrom a.1) >>= fun zone => publishZoneState p pre zone a.2) =
      .error q) : q = .expect := by
  rcases P_bind_error.mp h with h | ⟨zone, hl, h⟩
  · exact limited_error h
  obtain ⟨⟨h1, h2⟩, rfl⟩ := tryFrom_ok.mp (unwrapR_ok.mp hl)
  have hi : (Limited.mk a.1 : Zone).val.toNat = (⟨a.1.toNat - 1, by omega⟩ : Fin 208).val + 1 := by
    simp; omega
  generalize (⟨a.1.toNat - 1, by omega⟩ : Fin 208) = i at hi
  have e : (Limited.mk a.1 : Zone).val.toNat - 1 = i.val := by omega
  have hs : WfZoneStatus z.zones[i] := hw _ (by simp)
  obtain ⟨l, hl, _⟩ := logical_ok hs
  unfold publishZoneState at h
  rw [hz, toIndex_ok (by omega), e] at h
  simp only [bind_ok, arrGet_ok i.isLt] at h
  simp only [Fin.getElem_fin] at hl
  rw [hl] at h
  exact publish_error h

/-- The panics of starting. -/
theorem start_error {cfg : Cfg} {p : Panel} (hc : Connected p) (hw : WfView p) {q : Panic}
    (h : Bridge.start cfg p = .error q) : q = .expect := by
  obtain ⟨r, hr⟩ := hc.arming
  obtain ⟨z, hz⟩ := hc.zones
  unfold Bridge.start at h
  rcases P_bind_error.mp h with h | ⟨_, _, h⟩
  · match hn : ArmCode.tryFromNum cfg.elk.code, h with
    | .error (.err _), h => cases h; rfl
    | .error (.panic x), h => exact absurd hn ((C25_number cfg.elk.code).1 x)
  rcases P_bind_error.mp h with h | ⟨_, _, h⟩
  · unfold publishDiscovery at h
    split at h
    · unfold publishHaDiscovery at h
      rcases P_bind_error.mp h with h | ⟨_, _, h⟩
      · obtain ⟨a, h⟩ := publishEach_error h
        exact publish_error h
      rcases P_bind_error.mp h with h | ⟨_, _, h⟩
      · obtain ⟨a, h⟩ := publishEach_error h
        exact publish_error h
      · cases h
    · cases h
  rcases P_bind_error.mp h with h | ⟨_, _, h⟩
  · obtain ⟨a, h⟩ := publishEach_error h
    exact areaState_error hr h
  rcases P_bind_error.mp h with h | ⟨_, _, h⟩
  · obtain ⟨a, h⟩ := publishEach_error h
    exact zoneState_error hz (hw z hz) h
  rcases P_bind_error.mp h with h | ⟨_, _, h⟩
  · unfold subscribeMany at h
    split at h
    · cases h; rfl
    · cases h
  rcases P_bind_error.mp h with h | ⟨_, _, h⟩
  · exact publish_error h
  · cases h

/-! ## The program does only what the machine allows -/

/-- The connection to the panel, if there is one, has neither failed nor ended. -/
def Hale : Prog → Prop
  | .dialing _ => True
  | .connecting _ i => Unbroken i.panel.conn
  | .running _ b => Sturdy b

/-- Polls that do not fail read nothing while a packet is at the front. -/
theorem greet_ripe {i : Init} {w : Where} {g : Greet} {op : InitOp} {o : Obs} {ph : Phase}
    {rd : Bytes} {s : Socket} (hg : InitGood i) (hu : Unbroken i.panel.conn)
    (hs : Stands (.asking i) (.asking w g)) (h : i.step op = .ok (o, ph)) (hsk : sockOf ph = some s)
    (hr : s.received = i.panel.conn.sock.received ++ rd) : Ripe g.unread rd := by
  obtain ⟨rd', wr, x, h1, h2, h3⟩ := asks_of_step hg hs h
  obtain ⟨t, ht, b1, _⟩ := h3 s hsk
  cases ht
  rw [hr] at b1
  obtain rfl := List.append_cancel_left b1
  cases hs with
  | toAsk a k => cases h1 <;> exact .inl rfl
  | sending a k => cases h1 <;> exact .inl rfl
  | waiting a k =>
    match op, h with
    | .arrive _, _ => cases h1; exact .inl rfl
    | .writable _, _ => cases h1; exact .inl rfl
    | .tick cx, h =>
      obtain ⟨r, c, hn, _, _, _, _, hh⟩ := tick_next hg a h
      rw [← k.unread]
      refine next_ripe hu hn ?_
      rw [← has_sock hh s hsk]
      exact hr

theorem prog_init {s : Setup} {i : Init} {out : List Published} (h : ProgGood out (.connecting s i)) :
    InitGood i := by
  obtain ⟨_, ops, outs, hc⟩ := h
  rw [connect_run] at hc
  exact (ihist_of_run (ph := .asking _) (start_good fresh_empty) hc).good

/-- What comes of one poll of `connect`. -/
theorem connected_hale {s : Setup} {i : Init} {q : InitOp} {o : List Published} {p' : Prog}
    {w : Where} {g : Greet} {out : List Published} (hg : ProgGood out (.connecting s i))
    (hu : Unbroken i.panel.conn) (hs : Stands (.asking i) (.asking w g))
    (h : (i.step q >>= fun x => Prog.connected s x.2) = .ok (o, p')) :
    Hale p' ∧ ∀ rd, (lineOf p').1 = i.panel.conn.sock.received ++ rd → Ripe g.unread rd := by
  have hgi := prog_init hg
  obtain ⟨rfl, ops, outs, hc⟩ := hg
  rw [P_bind_ok] at h
  obtain ⟨⟨ob, ph⟩, h1, h2⟩ := h
  have hsp := step_sound hu h1
  match ph, h1, h2, hsp with
  | .asking i', h1, h2, hsp =>
    cases h2
    exact ⟨hsp, fun rd hr => greet_ripe hgi hu hs h1 rfl hr⟩
  | .finished (.error e), h1, h2, _ => cases h2
  | .finished (.ok p), h1, h2, hsp =>
    have h2 : (Bridge.start s.cfg p >>= fun b => Except.ok (b.log, Prog.running s b)) =
      .ok (o, p') := h2
    rw [P_bind_ok] at h2
    obtain ⟨b, h3, h4⟩ := h2
    cases h4
    obtain ⟨hc1, hc2⟩ := C65_connect fresh_empty (connect_snoc hc h1)
    obtain ⟨ra, ha⟩ := hc1.arming
    obtain ⟨z, hz⟩ := hc1.zones
    obtain ⟨_, code, hcode, hbe⟩ := (start_iff ha hz (hc2 z hz)).mp h3
    have e : b.panel = p := by rw [hbe]
    refine ⟨⟨start_good_bridge hc1 hc2 h3, e ▸ hsp⟩, fun rd hr => ?_⟩
    refine greet_ripe hgi hu hs h1 rfl (s := p.conn.sock) ?_
    rw [← e]
    exact hr

/-- One operation. -/
theorem step_endures {p p' : Prog} {x : Point} {op : POp} {out o : List Published}
    (hg : ProgGood out p) (hh : Hale p) (hb : Being p x) (h : p.step op = .ok (o, p')) :
    Hale p' ∧ ∃ rd wr x', Proceeds p.setup.cfg x op rd wr o x' ∧ Being p' x' ∧ Ripe x.unread rd ∧
      (lineOf p').1 = (lineOf p).1 ++ rd ∧ (lineOf p').2 = (lineOf p).2 ++ wr ∧
      (isMove op = false → x' = x) := by
  have hf := step_fares hg hb op
  rw [h] at hf
  obtain ⟨rd, wr, x', f1, f2, f3, f4⟩ := hf
  cases hb with
  | @dialing s =>
    match op, h with
    | .dialed (.error _), h => cases h
    | .dialed (.ok ()), h =>
      cases f1 with
      | reached =>
        have h : (Init.start {} >>= fun ph => Prog.connected s ph) = .ok ([], p') := h
        rw [start_ok] at h
        cases h
        exact ⟨fresh_unbroken fresh_empty, _, _, _, .reached, f2, .inl rfl, f3, f4, (fun h => nomatch h)⟩
      | dialed hn => exact absurd rfl hn
    | .op q, h =>
      cases f1
      cases h
      exact ⟨trivial, _, _, _, .early, f2, .inl rfl, f3, f4, fun _ => rfl⟩
  | @greeting s i w g hs =>
    have poll : ∀ {q : InitOp}, (i.step q >>= fun x => Prog.connected s x.2) = .ok (o, p') →
        Hale p' ∧ Ripe (Point.greeting w g).unread rd := by
      intro q hq
      obtain ⟨a, b⟩ := connected_hale hg hh hs hq
      exact ⟨a, b rd f3⟩
    match op, h with
    | .dialed r, h => 
      cases f1 with
      | dialed hn => cases h; exact ⟨hh, _, _, _, .dialed hn, f2, .inl rfl, f3, f4, fun _ => rfl⟩
    | .op (.deliver q), h =>
      cases f1 with
      | undelivered => cases h; exact ⟨hh, _, _, _, .undelivered, f2, .inl rfl, f3, f4, fun _ => rfl⟩
      | greets hp => cases hp
      | opens hp => cases hp
    | .op (.tick cx pf), h =>
      obtain ⟨a, b⟩ := poll h
      exact ⟨a, _, _, _, f1, f2, b, f3, f4, (fun h => nomatch h)⟩
    | .op (.arrive r), h =>
      obtain ⟨a, b⟩ := poll h
      refine ⟨a, _, _, _, f1, f2, b, f3, f4, fun _ => ?_⟩
      cases f1 with
      | greets hp hc => cases hp; cases hc; rfl
      | opens hp hc => cases hp; cases hc
    | .op (.writable r), h =>
      obtain ⟨a, b⟩ := poll h
      refine ⟨a, _, _, _, f1, f2, b, f3, f4, fun _ => ?_⟩
      cases f1 with
      | greets hp hc => cases hp; cases hc; rfl
      | opens hp hc => cases hp; cases hc
  | @serving s b d hs =>
    match op, h with
    | .dialed r, h =>
      cases f1 with
      | dialed hn => cases h; exact ⟨hh, _, _, _, .dialed hn, f2, .inl rfl, f3, f4, fun _ => rfl⟩
    | .op q, h =>
      have h : (b.step q >>= fun x => Except.ok (x.1.out, Prog.running s x.2)) = .ok (o, p') := h
      rw [P_bind_ok] at h
      obtain ⟨⟨ob, b'⟩, h1, h2⟩ := h
      cases h2
      obtain ⟨k1, k2, k3, rd', wr', d', m1, m2, m3, m4, m5, m6⟩ := step_toils hh hs h1
      have hcfg := (reached_good hg.2).2
      rw [hcfg] at m1
      exact ⟨k1, rd', wr', _, .serves m1 (voices_out ob), k3 ▸ .serving m2, m3, m4, m5,
        fun hj => by rw [m6 hj]⟩

theorem endures_of_traced {ops : List POp} : ∀ {p p' : Prog} {x : Point} {out : List Published}
    {ds : List Deal}, ProgGood out p → Hale p → Being p x → tracedProg ops p = .ok (ds, p') →
    (∃ out', ProgGood out' p') ∧ p'.setup = p.setup ∧ Hale p' ∧
      ∃ x', Being p' x' ∧ Endures p.setup.cfg x (moves ds) x' := by
  induction ops with
  | nil =>
    intro p p' x out ds hg hh hb h
    cases h
    exact ⟨⟨_, hg⟩, rfl, hh, x, hb, .nil⟩
  | cons op ops ih =>
    intro p p' x out ds hg hh hb h
    obtain ⟨o, p1, ds', h1, h2, rfl⟩ := deals_cons.mp h
    obtain ⟨a, rd, wr, x1, b1, b2, b3, b4, b5, b6⟩ := step_endures hg hh hb h1
    obtain ⟨g1, g2⟩ := prog_good hg h1
    obtain ⟨k1, k2, k3, x', k4, k5⟩ := ih g1 a b2 h2
    refine ⟨k1, k2.trans g2, k3, x', k4, ?_⟩
    rw [g2] at k5
    have e : dealOf p op o p1 = ⟨op, rd, wr, o⟩ := by
      unfold dealOf
      rw [b4, b5, List.drop_left, List.drop_left]
    rw [moves_cons, e]
    split
    · rename_i hm
      exact .cons hm b1 b3 k5
    · rename_i hm
      have hm : isMove op = false := by simpa using hm
      rw [b6 hm] at k5
      exact k5

/-- An operation that panics. -/
theorem step_dies {p : Prog} {x : Point} {op : POp} {out : List Published} {q : Panic}
    (hg : ProgGood out p) (hh : Hale p) (hb : Being p x) (h : p.step op = .error q) :
    Dies p.setup.cfg x op q := by
  cases hb with
  | @dialing s =>
    match op, h with
    | .dialed (.error _), h => cases h; exact .unreachable
    | .dialed (.ok ()), h =>
      have h : (Init.start {} >>= fun ph => Prog.connected s ph) = .error q := h
      rw [start_ok] at h
      cases h
    | .op q, h => cases h
  | @greeting s i w g hs =>
    have hgi := prog_init hg
    match op, h with
    | .dialed r, h => cases h
    | .op (.deliver _), h => cases h
    | .op (.arrive _), h => cases h
    | .op (.writable _), h => cases h
    | .op (.tick cx pf), h =>
      have h : (i.step (.tick cx) >>= fun x => Prog.connected s x.2) = .error q := h
      rcases init_cases hgi (.tick cx) with ⟨⟨o, ph⟩, h1, _⟩ | ⟨cx', e, h1, h2⟩
      · rw [h1] at h
        have h : Prog.connected s ph = .error q := h
        match ph, h1, h with
        | .asking i', h1, h => cases h
        | .finished (.error e), h1, h =>
          cases h
          obtain ⟨d, x, k1, k2, k3, k4, _⟩ := tries_of_tick hgi hh hs h1
          cases k4
          exact .lost k2 k3
        | .finished (.ok p), h1, h =>
          obtain ⟨_, ops, outs, hc⟩ := hg
          obtain ⟨hc1, hc2⟩ := C65_connect fresh_empty (connect_snoc hc h1)
          have h : (Bridge.start s.cfg p >>= fun b => Except.ok (b.log, Prog.running s b)) =
            .error q := h
          rcases P_bind_error.mp h with h | ⟨_, _, h⟩
          · cases start_error hc1 hc2 h
            obtain ⟨rd, wr, x, k1, k2, k3⟩ := asks_of_tick hgi hs h1
            cases k2 with
            | done k =>
              obtain ⟨t, ht, c1, _⟩ := k3 _ rfl
              cases ht
              refine .unusable k1 (greet_ripe hgi hh hs h1 rfl c1) fun hu => ?_
              obtain ⟨b, hb⟩ := (C65_starts (cfg := s.cfg) hc1 hc2).mpr hu
              rw [hb] at h
              cases h
          · cases h
      · cases e
        rw [h1] at h
        cases h
        obtain ⟨io, r, c', hb, hn, hrv, ha⟩ := breaks_read hgi hs h2
        refine .room hb ?_
        have hk : Knows i.panel g := by cases hs <;> assumption
        rw [← hk.unread]
        exact next_ripe hh hn hrv
  | @serving s b d hs =>
    match op, h with
    | .dialed r, h => cases h
    | .op op, h =>
      have h : (b.step op >>= fun x => Except.ok (x.1.out, Prog.running s x.2)) = .error q := h
      rcases P_bind_error.mp h with h | ⟨_, _, h⟩
      · obtain ⟨cx, pf, rfl, k⟩ := step_quits hh hs h
        rw [(reached_good hg.2).2] at k
        exact .quits k
      · cases h

/-! ## The machine allows only what the program does -/

/-- And nothing is queued on it. -/
def Rests : Prog → Prop
  | .dialing _ => True
  | .connecting _ i => Becalms i
  | .running _ b => Still b

theorem rests_hale {p : Prog} (h : Rests p) : Hale p := by
  cases p with
  | dialing => trivial
  | connecting => exact Becalms.sound h
  | running => exact Still.sturdy h

/-- Answers queued while connecting. -/
theorem deals_of_acts {ops : List InitOp} : ∀ {s : Setup} {i i₁ : Init} {as : List Act},
    tracedInit ops (.asking i) = .ok (as, .asking i₁) → polls as = [] →
    ∃ ops' ds, tracedProg ops' (.connecting s i) = .ok (ds, .connecting s i₁) ∧ moves ds = [] := by
  induction ops with
  | nil => intro s i i₁ as h _; cases h; exact ⟨[], [], rfl, rfl⟩
  | cons op ops ih =>
    intro s i i₁ as h hp
    obtain ⟨o, ph, as', h1, h2, rfl⟩ := acts_cons.mp h
    match op, h1, hp with
    | .tick cx, h1, hp => simp [polls, actOf, isTick] at hp
    | .arrive r, h1, hp =>
      cases h1
      obtain ⟨ops', ds, k1, k2⟩ := ih (s := s) h2 (by simpa [polls, actOf, isTick] using hp)
      exact ⟨.op (.arrive r) :: ops', _, deals_cons.mpr ⟨_, _, _, rfl, k1, rfl⟩,
        by rw [moves_cons]; exact k2⟩
    | .writable r, h1, hp =>
      cases h1
      obtain ⟨ops', ds, k1, k2⟩ := ih (s := s) h2 (by simpa [polls, actOf, isTick] using hp)
      exact ⟨.op (.writable r) :: ops', _, deals_cons.mpr ⟨_, _, _, rfl, k1, rfl⟩,
        by rw [moves_cons]; exact k2⟩

/-- A turn of the bridge as one of the program. -/
def toDeal (t : Turn) : Deal := ⟨.op t.op, t.rd, t.wr, t.out.out⟩

theorem toDeal_hushed (t : Turn) : toDeal (hushed t) = toDeal t := by
  obtain ⟨op, rd, wr, o⟩ := t
  cases o <;> rfl

theorem deals_of_turns {ops : List BOp} : ∀ {s : Setup} {b b' : Bridge} {ts : List Turn},
    tracedBridge ops b = .ok (ts, b') →
    tracedProg (ops.map .op) (.running s b) = .ok (ts.map toDeal, .running s b') := by
  induction ops with
  | nil => intro s b b' ts h; cases h; rfl
  | cons op ops ih =>
    intro s b b' ts h
    obtain ⟨o, b1, ts', h1, h2, rfl⟩ := turns_cons.mp h
    refine deals_cons.mpr ⟨o.out, .running s b1, _, ?_, ih h2, rfl⟩
    show (b.step op >>= fun x => Except.ok (x.1.out, Prog.running s x.2)) = _
    rw [h1]
    rfl

theorem moves_turns (ts : List Turn) : moves (ts.map toDeal) = (jobs ts).map toDeal := by
  unfold moves jobs
  rw [List.filter_map]
  rfl

/-- After answers queued while connecting, the program is where it was. -/
theorem fed_program {s : Setup} {i i₁ : Init} {w : Where} {g : Greet} {ops : List InitOp}
    {as : List Act} {out : List Published} (hg : ProgGood out (.connecting s i))
    (hh : Unbroken i.panel.conn) (hs : Stands (.asking i) (.asking w g))
    (h : tracedInit ops (.asking i) = .ok (as, .asking i₁)) (hp : polls as = []) :
    (∃ ops' ds, tracedProg ops' (.connecting s i) = .ok (ds, .connecting s i₁) ∧ moves ds = []) ∧
      (∃ out', ProgGood out' (.connecting s i₁)) ∧ Being (.connecting s i₁) (.greeting w g) := by
  obtain ⟨ops', ds, k1, k2⟩ := deals_of_acts (s := s) h hp
  obtain ⟨m1, _, _, x, m2, m3⟩ := endures_of_traced hg hh (.greeting hs) k1
  rw [k2] at m3
  cases m3
  exact ⟨⟨ops', ds, k1, k2⟩, m1, m2⟩

theorem obs_of_asking {w : Where} {g : Greet} {cx : Cx} {rd wr : Bytes} {o : Obs} {x : Outcome}
    (h : Connects w g (.tick cx) rd wr o x) (hn : ∀ e, x ≠ .failed e) : ∀ e, o ≠ .failed e := by
  rintro e rfl
  cases h <;> exact hn _ rfl

theorem bears_of_ripe {w : Where} {g : Greet} {rd wr : Bytes} {o : Obs} (hr : Ripe g.unread rd)
    (hn : ∀ e, o ≠ .failed e) : Bears w g rd wr o := by
  cases w with
  | toAsk => trivial
  | sending => exact fun e h => absurd h (hn e)
  | waiting => exact ⟨hr, fun e h => absurd h (hn e)⟩

theorem calm_fine {d d' : Act} (h : calm d = calm d') (hn : ∀ e, d'.out ≠ .failed e) : d = d' := by
  obtain ⟨op, rd, wr, o⟩ := d
  obtain ⟨op', rd', wr', o'⟩ := d'
  have e' : calm ⟨op', rd', wr', o'⟩ = ⟨op', rd', wr', o'⟩ := by
    cases o' <;> first | rfl | exact absurd rfl (hn _)
  rw [e'] at h
  cases o <;> first | exact h | skip
  cases h
  exact absurd rfl (hn _)

/-- A poll while connecting that the machine allows. -/
theorem greeting_realises {s : Setup} {i : Init} {w : Where} {g : Greet} {cx : Cx} {pf : Bool}
    {out pub : List Published} {rd wr : Bytes} {o : Obs} {x : Outcome} {y : Point}
    (hg : ProgGood out (.connecting s i)) (hc : Becalms i) (hs : Stands (.asking i) (.asking w g))
    (hm : MapCfg s.cfg) (hd : DistinctNames s.cfg) (h : Connects w g (.tick cx) rd wr o x)
    (hn : ∀ e, x ≠ .failed e) (hr : Ripe g.unread rd)
    (hp : Proceeds s.cfg (.greeting w g) (.op (.tick cx pf)) rd wr pub y)
    (hu : ∀ g', x = .done g' → UsableCfg s.cfg) :
    ∃ ops ds p', tracedProg ops (.connecting s i) = .ok (ds, p') ∧
      moves ds = [⟨.op (.tick cx pf), rd, wr, pub⟩] ∧ Rests p' ∧ Being p' y := by
  have ho := obs_of_asking h hn
  obtain ⟨ops, as, i₁, o', ph, k1, k2, k3, k4, k5, k6, k7, k8⟩ := act_readied (d := ⟨.tick cx, rd, wr, o⟩)
    hc hs rfl h (bears_of_ripe hr ho)
  have hact := calm_fine k7 ho
  obtain ⟨⟨ops', ds, m1, m2⟩, ⟨out', m3⟩, m4⟩ := fed_program hg hc.sound hs k1 k2
  have hst : i₁.step (.tick cx) = .ok (o', ph) := k5
  have hsp := step_sound k4 hst
  -- what the step comes to
  have key : ∃ pub' p', (Prog.connecting s i₁).step (.op (.tick cx pf)) = .ok (pub', p') ∧ Rests p' ∧
      (lineOf p').1.drop i₁.panel.conn.sock.received.length = rd ∧
      (lineOf p').2.drop i₁.panel.conn.sock.sent.length = wr := by
    have e : (Prog.connecting s i₁).step (.op (.tick cx pf)) = Prog.connected s ph := by
      show (i₁.step (.tick cx) >>= fun x => Prog.connected s x.2) = _
      rw [hst]
      rfl
    rw [e]
    have e1 : gained (·.received) i₁.panel.conn.sock ph = rd := congrArg Act.rd hact
    have e2 : gained (·.sent) i₁.panel.conn.sock ph = wr := congrArg Act.wr hact
    match ph, hst, k6, k8, hsp, e1, e2 with
    | .asking i', hst, k6, k8, hsp, e1, e2 =>
      obtain ⟨a, b⟩ := k8 _ rfl
      refine ⟨[], _, rfl, ⟨?_, hsp, a, b⟩, e1, e2⟩
      rcases init_cases k3 (.tick cx) with ⟨y, e, f⟩ | ⟨_, _, e, _⟩
      · rw [hst] at e; cases e; exact init_good k3 f
      · rw [hst] at e; cases e
    | .finished (.error e), _, k6, _, _, _, _ => cases k6; exact absurd rfl (hn _)
    | .finished (.ok p), hst, k6, k8, hsp, e1, e2 =>
      cases k6 with
      | done k =>
        obtain ⟨a, b⟩ := k8 _ rfl
        obtain ⟨_, cops, couts, hcon⟩ := m3
        obtain ⟨hc1, hc2⟩ := C65_connect fresh_empty (connect_snoc hcon hst)
        obtain ⟨br, hb⟩ := (C65_starts hc1 hc2).mpr (hu _ rfl)
        obtain ⟨v0, hl⟩ := looks_of_good (connected_good hc1)
        obtain ⟨n1, n2, n3, n4⟩ := start_still hc1 hc2 hsp.2.1 hsp.2.2 a b hb hl
        obtain ⟨_, code, _, hbe⟩ := (start_iff hl.shown hl.zones (hc2 _ hl.zones)).mp hb
        have e : br.panel = p := by rw [hbe]
        refine ⟨br.log, .running s br, ?_, n1, ?_, ?_⟩
        · show (Bridge.start s.cfg p >>= fun b => Except.ok (b.log, Prog.running s b)) = _
          rw [hb]
          rfl
        · show br.panel.conn.sock.received.drop _ = _
          rw [e]; exact e1
        · show br.panel.conn.sock.sent.drop _ = _
          rw [e]; exact e2
  obtain ⟨pub', p', n1, n2, n3, n4⟩ := key
  obtain ⟨_, rd', wr', y', f1, f2, f3, f4, f5, _⟩ := step_endures m3 k4 m4 n1
  have e1 : rd' = rd := by
    rw [f4] at n3
    rw [← n3]
    exact (List.drop_left (l₁ := i₁.panel.conn.sock.received)).symm
  have e2 : wr' = wr := by
    rw [f5] at n4
    rw [← n4]
    exact (List.drop_left (l₁ := i₁.panel.conn.sock.sent)).symm
  subst e1 e2
  obtain ⟨rfl, rfl⟩ := C132_settled hm hd f1 hp
  refine ⟨_, _, p', deals_append m1 (deals_one n1), ?_, n2, f2⟩
  rw [moves_append, m2, moves_cons]
  show [dealOf _ _ _ _] = _
  unfold dealOf
  rw [f4, f5, List.drop_left, List.drop_left]

/-- One operation that the machine allows. -/
theorem deal_realises {p : Prog} {x y : Point} {d : Deal} {out : List Published} (hg : ProgGood out p)
    (hr : Rests p) (hb : Being p x) (hm : MapCfg p.setup.cfg) (hd : DistinctNames p.setup.cfg)
    (hj : isMove d.op = true) (h : Proceeds p.setup.cfg x d.op d.rd d.wr d.out y)
    (hi : Ripe x.unread d.rd) :
    ∃ ops ds p', tracedProg ops p = .ok (ds, p') ∧ moves ds = [d] ∧ Rests p' ∧ Being p' y := by
  obtain ⟨op, rd, wr, pub⟩ := d
  dsimp only at hj h hi
  have alone : ∀ {p'}, p.step op = .ok (pub, p') → (lineOf p').1 = (lineOf p).1 ++ rd →
      (lineOf p').2 = (lineOf p).2 ++ wr → Rests p' → Being p' y →
      ∃ ops ds p', tracedProg ops p = .ok (ds, p') ∧ moves ds = [⟨op, rd, wr, pub⟩] ∧ Rests p' ∧
        Being p' y := by
    intro p' h1 h2 h3 h4 h5
    refine ⟨_, _, p', deals_one h1, ?_, h4, h5⟩
    rw [moves_cons, show isMove (dealOf p op pub p').op = true from hj, if_pos rfl]
    unfold dealOf
    rw [h2, h3, List.drop_left, List.drop_left]
    rfl
  cases h with
  | reached =>
    cases hb with
    | @dialing s =>
      refine alone (p' := .connecting s (began {})) ?_ rfl rfl (began_becalms fresh_empty rfl rfl)
        (.greeting (start_stands fresh_empty))
      show (Init.start {} >>= fun ph => Prog.connected s ph) = _
      rw [start_ok]
      rfl
  | early => cases hb; exact alone rfl rfl rfl trivial .dialing
  | dialed hn =>
    have : p.step (.dialed ‹_›) = .ok ([], p) := by
      cases hb with
      | dialing => exact absurd rfl hn
      | greeting => rfl
      | serving => rfl
    exact alone this (List.append_nil _).symm (List.append_nil _).symm hr hb
  | undelivered =>
    cases hb with
    | greeting hs =>
      exact alone rfl (List.append_nil _).symm (List.append_nil _).symm hr (.greeting hs)
  | @greets w g op q _ _ o w' g' hp hc =>
    cases hb with
    | @greeting s i _ _ hs =>
      cases hp with
      | arrive => cases hj
      | writable => cases hj
      | tick =>
        exact greeting_realises hg hr hs hm hd hc (by simp) hi (.greets .tick hc) (by simp)
  | @opens w g op q _ _ o g' a z code _ hp hc hu h1 h2 h3 h4 =>
    cases hb with
    | @greeting s i _ _ hs =>
      cases hp with
      | arrive => cases hj
      | writable => cases hj
      | tick =>
        exact greeting_realises hg hr hs hm hd hc (by simp) hi (.opens .tick hc hu h1 h2 h3 h4)
          (fun _ _ => hu)
  | @serves code dk op _ _ o d' _ h1 h2 =>
    cases hb with
    | @serving s b _ hs =>
      have hcfg := (reached_good hg.2).2
      have hsv : Serves b.cfg b.code dk op rd wr o d' := by rw [hcfg]; exact h1
      have hm' : MapCfg b.cfg := by rw [hcfg]; exact hm
      have hd' : DistinctNames b.cfg := by rw [hcfg]; exact hd
      have ha := serves_answered (t := ⟨op, rd, wr, o⟩) hr hs hm' hd' hj hsv hi
      obtain ⟨ops, ts, b', k1, k2, k3, k4, k5, k6⟩ := turn_realises (t := ⟨op, rd, wr, o⟩) hr hs hj ha
      refine ⟨_, _, _, deals_of_turns k1, ?_, k3, k6 ▸ .serving k4⟩
      rw [moves_turns]
      have : (jobs ts).map toDeal = ((jobs ts).map hushed).map toDeal := by
        rw [List.map_map]
        exact List.map_congr_left fun t _ => (toDeal_hushed t).symm
      rw [this, k2, List.map_singleton, toDeal_hushed]
      show [(⟨.op op, rd, wr, o.out⟩ : Deal)] = _
      rw [samePub_of .same (voices_out o) h2]

theorem traced_of_endures {l : List Deal} : ∀ {p : Prog} {x y : Point} {out : List Published},
    ProgGood out p → Rests p → Being p x → MapCfg p.setup.cfg → DistinctNames p.setup.cfg →
    Endures p.setup.cfg x l y →
    ∃ ops ds p', tracedProg ops p = .ok (ds, p') ∧ moves ds = l ∧ (∃ out', ProgGood out' p') ∧
      Rests p' ∧ Being p' y ∧ p'.setup = p.setup := by
  induction l with
  | nil =>
    intro p x y out hg hr hb hm hd h
    cases h
    exact ⟨[], [], p, rfl, rfl, ⟨_, hg⟩, hr, hb, rfl⟩
  | cons d l ih =>
    intro p x y out hg hr hb hm hd h
    cases h with
    | cons h1 h2 h3 h4 =>
      obtain ⟨ops, ds, p1, a1, a2, a3, a4⟩ := deal_realises hg hr hb hm hd h1 h2 h3
      obtain ⟨⟨out1, b1⟩, b2, _⟩ := endures_of_traced hg (rests_hale hr) hb a1
      rw [← b2] at hm hd h4
      obtain ⟨ops', ds', p', c1, c2, c3, c4, c5, c6⟩ := ih b1 a3 a4 hm hd h4
      exact ⟨_, _, p', deals_append a1 c1, by rw [moves_append, a2, c2]; rfl, c3, c4, c5, c6.trans b2⟩

/-- An end that the machine allows. -/
theorem death_realises {p : Prog} {x : Point} {op : POp} {q : Panic} {out : List Published}
    (hg : ProgGood out p) (hr : Rests p) (hb : Being p x) (h : Dies p.setup.cfg x op q) :
    ∃ ops ds p', tracedProg ops p = .ok (ds, p') ∧ moves ds = [] ∧ p'.step op = .error q := by
  cases h with
  | unreachable => cases hb; exact ⟨[], [], _, rfl, rfl, rfl⟩
  | @lost w g cx pf rd wr o e hc hbe =>
    cases hb with
    | @greeting s i _ _ hs =>
      obtain ⟨ops, as, i₁, o', ph, k1, k2, k3, k4, k5, k6, _⟩ :=
        act_readied (d := ⟨.tick cx, rd, wr, o⟩) hr hs rfl hc hbe
      obtain ⟨⟨ops', ds, m1, m2⟩, _⟩ := fed_program hg hr.sound hs k1 k2
      refine ⟨ops', ds, _, m1, m2, ?_⟩
      show (i₁.step (.tick cx) >>= fun x => Prog.connected s x.2) = _
      rw [show i₁.step (.tick cx) = .ok (o', ph) from k5]
      cases k6
      rfl
  | @room w g cx pf rd hbr hri =>
    cases hb with
    | @greeting s i _ _ hs =>
      obtain ⟨ops, as, i₁, k1, k2, k3⟩ := break_realises hr hs hbr hri
      obtain ⟨⟨ops', ds, m1, m2⟩, _⟩ := fed_program hg hr.sound hs k1 k2
      refine ⟨ops', ds, _, m1, m2, ?_⟩
      show (i₁.step (.tick cx) >>= fun x => Prog.connected s x.2) = _
      rw [k3]
      rfl
  | @unusable w g cx pf rd wr o g' hc hri hu =>
    cases hb with
    | @greeting s i _ _ hs =>
      obtain ⟨ops, as, i₁, o', ph, k1, k2, k3, k4, k5, k6, _⟩ :=
        act_readied (d := ⟨.tick cx, rd, wr, o⟩) hr hs rfl hc
          (bears_of_ripe hri (obs_of_asking hc (by simp)))
      obtain ⟨⟨ops', ds, m1, m2⟩, ⟨out', _, cops, couts, hcon⟩, _⟩ :=
        fed_program hg hr.sound hs k1 k2
      refine ⟨ops', ds, _, m1, m2, ?_⟩
      show (i₁.step (.tick cx) >>= fun x => Prog.connected s x.2) = _
      have hst : i₁.step (.tick cx) = .ok (o', ph) := k5
      rw [hst]
      cases k6 with
      | @done p _ k =>
        obtain ⟨hc1, hc2⟩ := C65_connect fresh_empty (connect_snoc hcon hst)
        show (Bridge.start s.cfg p >>= fun b => Except.ok (b.log, Prog.running s b)) = _
        match hs : Bridge.start s.cfg p with
        | .ok b => exact absurd ((C65_starts hc1 hc2).mp ⟨b, hs⟩) hu
        | .error e => cases start_error hc1 hc2 hs; rfl
  | @quits code d cx pf _ hq =>
    cases hb with
    | @serving s b _ hs =>
      have hq : Quits b.cfg d cx pf q := by rw [(reached_good hg.2).2]; exact hq
      obtain ⟨rs, ws, hx⟩ := quit_realises hr hs hq
      obtain ⟨ops, ts, rr, rw, m1, m2⟩ := bfeed hr rs ws
      refine ⟨_, _, _, deals_of_turns m1, by rw [moves_turns, m2]; rfl, ?_⟩
      show ((bfed b rs ws rr rw).step (.tick cx pf) >>= fun x =>
        Except.ok (x.1.out, Prog.running s x.2)) = _
      rw [hx rr rw]
      rfl

/-! ## The theorems -/

theorem neat_proceeds {cfg : Cfg} {x y : Point} {op : POp} {rd wr : Bytes} {out : List Published}
    (h : Proceeds cfg x op rd wr out y) (hn : Neat x) : Neat y := by
  cases h with
  | reached => exact fun _ _ _ => rfl
  | early => exact hn
  | dialed => exact hn
  | undelivered => exact hn
  | greets _ h => exact tidy_connects h hn
  | opens => trivial
  | serves => trivial

theorem neat_endures {cfg : Cfg} {x y : Point} {l : List Deal} (h : Endures cfg x l y)
    (hn : Neat x) : Neat y := by
  induction h with
  | nil => exact hn
  | cons _ h1 _ _ ih => exact ih (neat_proceeds h1 hn)

theorem being_one {p : Prog} {x y : Point} (h : Being p x) (h' : Being p y) (hn : Neat x)
    (hn' : Neat y) : x = y := by
  cases h with
  | dialing => cases h'; rfl
  | greeting a =>
    cases h' with
    | greeting b => cases stands_one a b hn hn'; rfl
  | serving a =>
    cases h' with
    | serving b => cases sits_one a b; rfl

theorem main_map {args : List Bytes} {file : Bytes → Option Bytes} {p0 : Prog}
    (h : Prog.main args file = .ok p0) : ∃ s, p0 = .dialing s ∧ MapCfg s.cfg := by
  unfold Prog.main at h
  split at h
  · simp only [P_bind_ok] at h
    obtain ⟨_, _, _, _, s, h1, _, _, h2⟩ := h
    cases h2
    exact ⟨s, rfl, C77_map (unwrapR_ok.mp h1)⟩
  · cases h

/-- **C140** Exactly the histories of the reference machine of the bridge program (`C132`), with the
rules of Spec/ExactProgram.lean, are histories of the program: of a program started with any
arguments and files whose areas have names of their own.  A history is
all that happens to the program, in order, but for what happens to the connection to the panel, the
bytes that each read from and wrote to the panel, and all that it published; where the program is at
the end is part of it. -/
theorem C140_exact {args : List Bytes} {file : Bytes → Option Bytes} {p0 : Prog}
    (h0 : Prog.main args file = .ok p0) (hd : DistinctNames p0.setup.cfg) {x : Point} {l : List Deal} :
    (∃ ops ds p, tracedProg ops p0 = .ok (ds, p) ∧ Being p x ∧ Neat x ∧ moves ds = l) ↔
    Endures p0.setup.cfg .dialing l x := by
  obtain ⟨s, rfl, hm⟩ := main_map h0
  constructor
  · rintro ⟨ops, ds, p, h1, h2, h3, rfl⟩
    obtain ⟨_, _, _, x', k1, k2⟩ := endures_of_traced (p := .dialing s) (out := []) rfl trivial
      .dialing h1
    obtain rfl := being_one k1 h2 (neat_endures k2 trivial) h3
    exact k2
  · intro h
    obtain ⟨ops, ds, p, k1, k2, _, _, k3, _⟩ := traced_of_endures (p := .dialing s) (out := []) rfl
      trivial .dialing hm hd h
    exact ⟨ops, ds, p, k1, k3, neat_endures h trivial, k2⟩

/-- **C140** And exactly where the machine dies, the program can panic, in that way. -/
theorem C140_ends {args : List Bytes} {file : Bytes → Option Bytes} {p0 : Prog}
    (h0 : Prog.main args file = .ok p0) (hd : DistinctNames p0.setup.cfg) {l : List Deal} {op : POp}
    {q : Panic} :
    (∃ ops ds p, tracedProg ops p0 = .ok (ds, p) ∧ moves ds = l ∧ p.step op = .error q) ↔
    ∃ x, Endures p0.setup.cfg .dialing l x ∧ Dies p0.setup.cfg x op q := by
  obtain ⟨s, rfl, hm⟩ := main_map h0
  constructor
  · rintro ⟨ops, ds, p, h1, rfl, h3⟩
    obtain ⟨⟨_, g⟩, e, hh, x', k1, k2⟩ := endures_of_traced (p := .dialing s) (out := []) rfl trivial
      .dialing h1
    have := step_dies g hh k1 h3
    rw [e] at this
    exact ⟨x', k2, this⟩
  · rintro ⟨x, h1, h2⟩
    obtain ⟨ops, ds, p, k1, k2, ⟨_, g⟩, k3, k4, e⟩ := traced_of_endures (p := .dialing s) (out := [])
      rfl trivial .dialing hm hd h1
    rw [← e] at h2
    obtain ⟨ops', ds', p', m1, m2, m3⟩ := death_realises g k3 k4 h2
    exact ⟨_, _, p', deals_append k1 m1, by rw [moves_append, m2, List.append_nil, k2], m3⟩

/-- **C140** The history has what the program publishes. -/
theorem C140_traced (ops : List POp) : ∀ p : Prog,
    (tracedProg ops p).map (fun x => (x.1.map Deal.out, x.2)) = progRun ops p := by
  induction ops with
  | nil => intro p; rfl
  | cons op ops ih =>
    intro p
    have e : tracedProg (op :: ops) p = (p.step op >>= fun x => tracedProg ops x.2 >>= fun y =>
      .ok (dealOf p op x.1 x.2 :: y.1, y.2)) := rfl
    have e' : progRun (op :: ops) p = (p.step op >>= fun x => progRun ops x.2 >>= fun y =>
      .ok (x.1 :: y.1, y.2)) := rfl
    rw [e, e']
    cases p.step op with
    | error => rfl
    | ok x =>
      rw [bind_ok, bind_ok, ← ih x.2]
      cases tracedProg ops x.2 <;> rfl

/-- Not vacuous: there is such a program. -/
theorem sample_main : ∃ p0, Prog.main [bs "cfg.json"] (fun _ => some sampleFile) = .ok p0 ∧
    DistinctNames p0.setup.cfg := by
  obtain ⟨p0, h, hd⟩ := of_holds (x := Prog.main [bs "cfg.json"] (fun _ => some sampleFile))
    (f := fun p => decide ((p.setup.cfg.elk.areas.map fun a : UInt8 × AreaCfg => a.2.name).Nodup) &&
      decide ((p.setup.cfg.elk.zones.map fun z : UInt8 × ZoneCfg => z.2.name).Nodup))
    (by decide +kernel)
  rw [Bool.and_eq_true, decide_eq_true_iff, decide_eq_true_iff] at hd
  exact ⟨p0, h, hd.1, hd.2⟩

/-- The machine reaches the panel, asks, and dies when nothing more can be written; so there is a run
of the program that does. -/
example : ∃ p0 ops ds p, Prog.main [bs "cfg.json"] (fun _ => some sampleFile) = .ok p0 ∧
    tracedProg ops p0 = .ok (ds, p) ∧
    moves ds = [⟨.dialed (.ok ()), [], [], []⟩, ⟨.op (.tick ⟨0, 0, 0⟩ true), [], [], []⟩] ∧
    p.step (.op (.tick ⟨0, 0, 0⟩ true)) = .error .expect := by
  obtain ⟨p0, h0, hd⟩ := sample_main
  obtain ⟨ops, ds, p, h1, h2, h3⟩ := (C140_ends h0 hd).mpr
    ⟨_, .cons (d := ⟨.dialed (.ok ()), [], [], []⟩) rfl .reached (.inl rfl)
        (.cons (d := ⟨.op (.tick ⟨0, 0, 0⟩ true), [], [], []⟩) rfl (.greets .tick .ask) (.inl rfl) .nil),
      .lost (e := .writeZero) (pf := true) (cx := ⟨0, 0, 0⟩) (wr := [])
        (.unwritten (u := asciiFrame (sentText .armingStatusRequest))
          ⟨rfl, (fun h => nomatch h), (fun h => nomatch h)⟩) (by
          intro e he
          cases he
          exact ⟨by simp [Greet.new, asciiFrame], .inl rfl⟩)⟩
  exact ⟨p0, ops, ds, p, h0, h1, h2, h3⟩

/-- The history of a sample run comes to all that was published, read and written. -/
example : ∃ x, (Prog.main [bs "cfg.json"] (fun _ => some sampleFile) >>= fun p0 =>
      tracedProg sampleProgOps p0) = .ok x ∧
    decide ((moves x.1).length = 17 ∧ ((moves x.1).map fun d => d.out.length).filter (· ≠ 0) = [7, 2] ∧
      ((moves x.1).flatMap Deal.wr).take 10 = bs "06as0066\r\n") = true :=
  of_holds (by decide +kernel)

end Elk.Props
