import Verif.Lemmas.Up
import Verif.Props.Mqtt
/-!
# Properties of the command-line tool
-/

namespace Elk.Props
open Spec

/-! ## C54: `read` accounts for every byte -/

theorem readLoop_drains {src : Bytes} {ps left} (h : Drains src ps left) :
    ∀ fuel, src.length < fuel → Cli.readLoop fuel src = .ok (ps, left) := by
  induction h with
  | stop h =>
    intro fuel hf
    match fuel, hf with
    | fuel + 1, hf =>
      unfold Cli.readLoop
      rw [h]
      rfl
  | step h _ ih =>
    intro fuel hf
    match fuel, hf with
    | fuel + 1, hf =>
      obtain ⟨w, _, hs, hw⟩ := (C05_progress _).1 _ _ h
      have hl := congrArg List.length hs
      rw [List.length_append] at hl
      unfold Cli.readLoop
      rw [h]
      simp only [bind_ok]
      rw [ih fuel (by omega)]
      rfl

/-- **C54** Whatever a file holds, `read` prints the packets it decodes to, in order, followed by
what is left over if that is not empty; together these account for every byte of the file. -/
theorem C54_read (data : Bytes) : ∃ ps left ws, Drains data ps left ∧
    Cli.read (.ok data) =
      .ok (ps.map Printed.packet ++ if left = [] then [] else [.incomplete left]) ∧
    Packet.decode left = .ok (none, left) ∧
    ps.mapM Packet.encode = .ok ws ∧ ws.flatten ++ left = data := by
  obtain ⟨ps, left, hd, -, -⟩ := C05_drain_terminates data
  obtain ⟨ws, h1, h2⟩ := C01_lossless_all hd
  refine ⟨ps, left, ws, hd, ?_, ?_, h1, h2⟩
  · unfold Cli.read Cli.readData
    dsimp only
    rw [readLoop_drains hd _ (Nat.lt_succ_self _)]
    rfl
  · clear h1 h2
    induction hd with
    | stop h => rw [decode_none_eq h]; exact h ▸ by rw [decode_none_eq h]
    | step _ _ ih => exact ih

/-- Non-vacuity: a good packet, a damaged one, and the start of another. -/
example : Cli.read (.ok (bs "06as0066\r\n06as00??\r\n1")) =
    .ok [.packet (.ascii ⟨bs "as00"⟩), .packet (.invalid ⟨.asciiCsumUnparseable, bs "06as00??\r\n"⟩),
      .incomplete (bs "1")] := by rfl

/-! ## C71: `watch` logs exactly what changed -/

theorem shown_pad (t : Bytes) (k : Nat) (h : t.getLast? ≠ some 0x20) :
    shown (t ++ List.replicate k 0x20) = t := by
  induction t with
  | nil =>
    cases k with
    | zero => rfl
    | succ k =>
      show shown (List.replicate (k + 1) 0x20) = []
      rw [List.replicate_succ, shown, if_pos]
      simp
  | cons b t ih =>
    rw [List.cons_append, shown, if_neg]
    · congr 1
      apply ih
      intro hl
      apply h
      rw [List.getLast?_cons, hl]
      rfl
    · intro ha
      rw [List.all_eq_true] at ha
      have hm := List.getLast_mem (l := b :: t) (by simp)
      have := ha _ (List.mem_append_left (as := b :: t) _ hm)
      apply h
      rw [List.getLast?_eq_some_getLast (by simp)]
      simpa using this

theorem trim_shown (s : Bytes) : trimEndSpaces s = shown s := by
  obtain ⟨⟨k, h1⟩, h2⟩ := trimEnd_spec s
  conv => rhs; rw [h1]
  exact (shown_pad _ k h2).symm

theorem asStr_shown {t : TextDescription} (h : WfText t) : t.asStr = .ok (shown t.text.toList) := by
  rw [asStr_wf h, trim_shown]

theorem debug_wf {s : ZoneStatus} (h : WfZoneStatus s) : s.debug = .ok (zoneOf s) := by
  obtain ⟨v⟩ := s
  have key : ∀ n : Fin 16, holds (⟨UInt8.ofNat n⟩ : ZoneStatus).debug
      (fun x => decide (x = zoneOf ⟨UInt8.ofNat n⟩)) = true := by decide +kernel
  have h : v.toNat < 16 := h
  obtain ⟨x, h1, h2⟩ := of_holds (key ⟨v.toNat, h⟩)
  simp only [UInt8.ofNat_toNat, decide_eq_true_eq] at h1 h2
  rw [h1, h2]

theorem areaStates_ok (r : ArmingStatusReport) (i : Fin 8) :
    r.areaStates i = .ok (areaOf r i) := by
  unfold ArmingStatusReport.areaStates arrGet
  simp only [dif_pos i.isLt, bind_ok]
  rfl

theorem areaLine_ok {prior cur : ArmingStatusReport} {names : Vector TextDescription 8} (i : Fin 8)
    (hn : ∀ t ∈ names.toList, WfText t) :
    Cli.areaLine prior cur names i =
      .ok (if areaOf prior i = areaOf cur i then []
        else [.area (shown names[i].text.toList) (areaOf prior i) (areaOf cur i)]) := by
  unfold Cli.areaLine
  rw [areaStates_ok, areaStates_ok]
  simp only [bind_ok]
  by_cases h : areaOf prior i = areaOf cur i
  · rw [if_neg (fun h' => h' h), if_pos h]
  · rw [if_pos h, if_neg h]
    unfold arrGet
    simp only [dif_pos i.isLt, bind_ok]
    have hw : WfText names[i] := hn _ (by simp [Vector.mem_toList_iff])
    rw [show names[i.val] = names[i] from rfl, asStr_shown hw]
    rfl

theorem areaLines_ok {prior cur : ArmingStatusReport} {names : Vector TextDescription 8}
    (hn : ∀ t ∈ names.toList, WfText t) (l : List (Fin 8)) :
    Cli.areaLines prior cur names (l.map Fin.val) =
      .ok (l.filterMap fun i => if areaOf prior i = areaOf cur i then none
        else some (.area (shown names[i].text.toList) (areaOf prior i) (areaOf cur i))) := by
  induction l with
  | nil => rfl
  | cons i l ih =>
    rw [List.map_cons, Cli.areaLines, areaLine_ok i hn, ih]
    simp only [bind_ok, List.filterMap_cons]
    split <;> rfl

theorem areaDiff_self (names : Fin 8 → Bytes) (a : ArmingStatusReport) : areaDiff names a a = [] := by
  unfold areaDiff
  simp

theorem zoneDiff_self (names : Fin 208 → Bytes) (z : ZoneStatusReport) :
    zoneDiff names z z = [] := by
  unfold zoneDiff
  simp

theorem filterMap_only {α β : Type} {f : α → Option β} {l : List α} (hl : l.Nodup) {a : α}
    (ha : a ∈ l) (hf : ∀ b, b ≠ a → f b = none) : l.filterMap f = (f a).toList := by
  induction l with
  | nil => cases ha
  | cons x l ih =>
    rw [List.nodup_cons] at hl
    rw [List.filterMap_cons]
    by_cases hx : x = a
    · subst hx
      have : l.filterMap f = [] := by
        rw [List.filterMap_eq_nil_iff]
        intro b hb
        exact hf b (fun h => hl.1 (h ▸ hb))
      rw [this]
      cases f x <;> rfl
    · rw [hf x hx]
      rcases List.mem_cons.mp ha with rfl | ha
      · exact absurd rfl hx
      · exact ih hl.2 ha

/-- A zone status report is reported as no change. -/
theorem report_next {p p' : Panel} (g : Good p) {cx : Cx} {ev : Event} {w : List Waker} {r}
    (hs : p.step (.pollNext cx) = .ok (.next (.ready (some (.ok ev))) w, p'))
    (hzs : ev.msg = some (.ok (.zoneStatusReport r))) :
    ev.change = none ∧ p'.armingStatus = p.armingStatus := by
  have hsc := step_cases g.sane hs
  cases hsc with
  | next _ new _ _ _ hn' =>
    cases hn' with
    | packet pkt c ev w _ _ hi =>
      cases hi with
      | bad e _ => cases hzs
      | skip _ => cases hzs
      | msg m ch p1 c w p2 _ _ ht hc =>
        cases hzs
        unfold Panel.armingStatus
        rw [(complete_keeps hc).2.1]
        cases ht with
        | zs _ => exact ⟨rfl, rfl⟩
        | other _ _ _ h => exact absurd rfl (h _)
    | fire _ _ _ _ _ _ _ => cases hzs

/-- A poll leaves the names alone. -/
theorem next_names {p p' : Panel} (g : Good p) {op o} (hs : p.step op = .ok (o, p')) :
    p'.areaNames = p.areaNames ∧ p'.state.zoneNames = p.state.zoneNames := by
  have hsc := step_cases g.sane hs
  by_cases hop : ∀ cx, op ≠ .pollNext cx
  · obtain ⟨h1, _, _⟩ := step_views hsc hop
    unfold Panel.areaNames
    rw [h1]; exact ⟨rfl, rfl⟩
  · cases hsc with
    | next cx new r w _ hn =>
      cases hn with
      | error e c _ => exact ⟨rfl, rfl⟩
      | ended c _ => exact ⟨rfl, rfl⟩
      | packet _ c _ _ _ _ hi =>
        obtain ⟨h1, h2, _⟩ := interp_names hi
        exact ⟨h2, h1⟩
      | idle c _ _ => exact ⟨rfl, rfl⟩
      | wait c pa _ _ _ => exact ⟨rfl, rfl⟩
      | fire _ _ _ _ _ _ _ => exact ⟨rfl, rfl⟩
    | _ => exact absurd (by intro cx h; cases h) hop

/-- Invariant of the panel that is watched. -/
structure Watched (p : Panel) : Prop where
  good : Good p
  view : WfView p
  names : WfNames p

theorem watched_step {p p' : Panel} (h : Watched p) {op o} (hs : p.step op = .ok (o, p')) :
    Watched p' := by
  have hsc := step_cases h.good.sane hs
  obtain ⟨n1, n2⟩ := next_names h.good hs
  refine ⟨step_good h.good hsc, wfView_iff.mpr (step_wf hsc (wfView_iff.mp h.view)), ?_, ?_⟩
  · rw [n1]; exact h.names.areas
  · intro zone t ht
    refine h.names.zones zone t ?_
    rw [← ht]
    unfold Panel.zoneName
    rw [n2]

theorem areaShown_step {p p' : Panel} (g : Good p) {op o} (hs : p.step op = .ok (o, p')) :
    areaShown p' = areaShown p := by
  unfold areaShown
  rw [(next_names g hs).1]

theorem zoneShown_step {p p' : Panel} (g : Good p) {op o} (hs : p.step op = .ok (o, p')) :
    zoneShown p' = zoneShown p := by
  unfold zoneShown
  rw [(next_names g hs).2]

/-- What is logged for an event. -/
theorem event_lines {p p' : Panel} (g : Watched p) {cx : Cx} {ev : Event} {w : List Waker}
    (hs : p.step (.pollNext cx) = .ok (.next (.ready (some (.ok ev))) w, p')) :
    ∃ a a' z z' zl, p.armingStatus = .ok a ∧ p'.armingStatus = .ok a' ∧
      p.zoneStatuses = .ok z ∧ p'.zoneStatuses = .ok z' ∧
      Cli.lines p' ev = .ok (areaDiff (areaShown p) a a' ++ zl) ∧
      ((∀ r, ev.msg ≠ some (.ok (.zoneStatusReport r))) → zl = zoneDiff (zoneShown p) z z') ∧
      (∀ r, ev.msg = some (.ok (.zoneStatusReport r)) → zl = []) ∧
      ∀ l ∈ zl, ∃ n x y, l = .zone n x y := by
  have g' := watched_step g hs
  by_cases hzs : ∃ r, ev.msg = some (.ok (.zoneStatusReport r))
  · obtain ⟨r, hr⟩ := hzs
    obtain ⟨h1, h2⟩ := report_next g.good hs hr
    obtain ⟨a, ha⟩ := Option.ne_none_iff_exists'.mp g.good.has
    obtain ⟨z, hz⟩ := Option.ne_none_iff_exists'.mp g.good.zones
    obtain ⟨z', hz'⟩ := Option.ne_none_iff_exists'.mp g'.good.zones
    refine ⟨a, a, z, z', [], arming_iff.mpr ha, h2.trans (arming_iff.mpr ha), zones_iff.mpr hz,
      zones_iff.mpr hz', ?_, fun h => absurd hr (h r), fun _ _ => rfl, by intro l hl; cases hl⟩
    unfold Cli.lines
    rw [h1, areaDiff_self]
    rfl
  · obtain ⟨a, a', z, z', ha, ha', hz, hz', hch⟩ := change_next g.good hs fun r h => hzs ⟨r, h⟩
    have hzl : ∀ l ∈ zoneDiff (zoneShown p) z z', ∃ n x y, l = .zone n x y := by
      intro l hl
      obtain ⟨i, _, hi⟩ := List.mem_filterMap.mp hl
      split at hi
      · cases hi
      · cases hi; exact ⟨_, _, _, rfl⟩
    refine ⟨a, a', z, z', zoneDiff (zoneShown p) z z', ha, ha', hz, hz', ?_, fun _ => rfl,
      fun r h => absurd ⟨r, h⟩ hzs, hzl⟩
    unfold Cli.lines
    match hc : ev.change, hch with
    | none, hch =>
      obtain ⟨rfl, rfl⟩ := hch
      rw [areaDiff_self, zoneDiff_self]
      rfl
    | some (.armingStatus prior), hch =>
      obtain ⟨rfl, _, rfl⟩ := hch
      dsimp only
      rw [ha', zoneDiff_self, List.append_nil]
      simp only [bind_ok]
      have e : List.range 8 = (List.finRange 8).map Fin.val := by decide
      rw [e, areaLines_ok g'.names.areas, (next_names g.good hs).1]
      rfl
    | some (.zoneChange zone prior), hch =>
      obtain ⟨rfl, i, hi, hzi, hp, hne, hj⟩ := hch
      dsimp only
      have htn : zone.toIndex = .ok i := by
        unfold Limited.toIndex
        rw [if_pos (by omega), hzi]
        rfl
      have hname : p'.zoneName zone = .ok p'.state.zoneNames[i] := by
        unfold Panel.zoneName
        rw [htn]
        simp only [bind_ok, arrGet]
        rw [dif_pos hi]
      have hw1 : WfZoneStatus z.zones[i] :=
        g.view z hz _ (Vector.mem_toList_iff.mpr (Vector.getElem_mem hi))
      have hw2 : WfZoneStatus z'.zones[i] :=
        g'.view z' hz' _ (Vector.mem_toList_iff.mpr (Vector.getElem_mem hi))
      rw [hname, htn, hz']
      simp only [bind_ok]
      rw [asStr_shown (g'.names.zones zone _ hname)]
      simp only [bind_ok]
      rw [hp, debug_wf hw1]
      simp only [bind_ok, arrGet]
      rw [dif_pos hi]
      simp only [bind_ok]
      rw [debug_wf hw2]
      simp only [bind_ok]
      rw [areaDiff_self, List.nil_append]
      unfold zoneDiff
      rw [filterMap_only (List.nodup_finRange 208) (List.mem_finRange ⟨i, hi⟩)]
      · have hne' : z.zones[(⟨i, hi⟩ : Fin 208)] ≠ z'.zones[(⟨i, hi⟩ : Fin 208)] := by
          intro h
          apply hne
          rw [hp]
          exact h.symm
        rw [if_neg hne']
        have e : p'.state.zoneNames[i] = p.state.zoneNames[(⟨i, hi⟩ : Fin 208)] := by
          show p'.state.zoneNames[i] = p.state.zoneNames[i]
          simp only [(next_names g.good hs).2]
        rw [e]
        rfl
      · intro b hb
        rw [if_pos]
        have := hj b.val b.isLt (fun h => hb (Fin.ext h))
        exact this.symm

/-- **C71** (partial) For every event other than a zone status report, whatever happened since
`connect`, `watch` logs a line for each area and each zone whose state differs, with its name and
the states before and after, and nothing else.  Missing: zone status reports, for which nothing is
logged (`C71_report_unlogged`). -/
theorem C71_lines_partial {p0 p p' : Panel} (hc : Connected p0) (hv : WfView p0) (hn : WfNames p0)
    {ops : List Op} {outs : List Out} (hr : Panel.run ops p0 = .ok (outs, p))
    {cx : Cx} {ev : Event} {w : List Waker}
    (hs : p.pollNext cx = .ok (.ready (some (.ok ev)), w, p'))
    (hzs : ∀ r, ev.msg ≠ some (.ok (.zoneStatusReport r))) :
    ∃ a a' z z', p.armingStatus = .ok a ∧ p'.armingStatus = .ok a' ∧
      p.zoneStatuses = .ok z ∧ p'.zoneStatuses = .ok z' ∧
      Cli.watchTick p cx = .ok (.event ev (areaDiff (areaShown p0) a a' ++
        zoneDiff (zoneShown p0) z z'), .watching p') := by
  have hg : ∀ {ops : List Op} {outs} {p0 p : Panel}, Watched p0 → Panel.run ops p0 = .ok (outs, p) →
      Watched p ∧ areaShown p = areaShown p0 ∧ zoneShown p = zoneShown p0 := by
    intro ops
    induction ops with
    | nil => intro outs p0 p h hr; cases hr; exact ⟨h, rfl, rfl⟩
    | cons op ops ih =>
      intro outs p0 p h hr
      obtain ⟨o, p1, os, h1, h2, rfl⟩ := run_cons.mp hr
      obtain ⟨i1, i2, i3⟩ := ih (watched_step h h1) h2
      exact ⟨i1, i2.trans (areaShown_step h.good h1), i3.trans (zoneShown_step h.good h1)⟩
  obtain ⟨g, n1, n2⟩ := hg ⟨connected_good hc, hv, hn⟩ hr
  obtain ⟨a, a', z, z', zl, ha, ha', hz, hz', hl, h1, _, _⟩ := event_lines g (next_step.mpr hs)
  refine ⟨a, a', z, z', ha, ha', hz, hz', ?_⟩
  unfold Cli.watchTick
  rw [hs]
  simp only [bind_ok]
  rw [hl, h1 hzs, n1, n2]
  rfl

/-- **C71** is false for zone status reports: the view of the zones changes and nothing is
logged. -/
theorem C71_report_unlogged : ∃ p p' cx ev, Connected p ∧ WfView p ∧ WfNames p ∧
    Cli.watchTick p cx = .ok (.event ev [], .watching p') ∧ p'.zoneStatuses ≠ p.zoneStatuses := by
  obtain ⟨⟨r, w, p'⟩, h, hd⟩ := of_holds (x := Panel.pollNext
      (samplePanel [.data (msgBytes (.zoneStatusReport violatedReport))]) ⟨1, 0, 0⟩)
    (f := fun x => (match x.1 with
      | .ready (some (.ok ev)) => decide (ev.change = none)
      | _ => false) && decide (x.2.2.state.zoneStatuses = some violatedReport))
    (by decide +kernel)
  match r, hd with
  | .ready (some (.ok ev)), hd =>
    simp only [Bool.and_eq_true, decide_eq_true_eq] at hd
    refine ⟨samplePanel [.data (msgBytes (.zoneStatusReport violatedReport))], p', ⟨1, 0, 0⟩, ev,
      samplePanel_connected _, samplePanel_view _, wfNames_of default_namesOk, ?_, ?_⟩
    · unfold Cli.watchTick
      rw [h]
      simp only [bind_ok]
      unfold Cli.lines
      rw [hd.1]
      rfl
    · unfold Panel.zoneStatuses
      rw [hd.2]
      intro h'
      have : violatedReport = .allUnconfigured := by
        simpa [expectSome, samplePanel] using h'
      exact absurd this (by decide +kernel)

/-! ### What the log tells about the current state -/

/-- One step of `watch`, as a step of the panel. -/
theorem watchStep_cases {p : Panel} (g : Watched p) (op : InitOp) :
    ∃ o p', p.step (panelOp op) = .ok (o, p') ∧
      ((itemOf o ≠ some none ∧ (∀ e, itemOf o ≠ some (some (.error e))) ∧
        ∃ w l, Cli.watchStep p op = .ok (w, .watching p') ∧ logged [w] = l ∧
          watched [w] = (eventOf o).toList ∧
          ((eventOf o = none ∧ l = []) ∨ ∃ ev, eventOf o = some ev ∧ Cli.lines p' ev = .ok l)) ∨
      (itemOf o = some none ∧ Cli.watchStep p op = .ok (.returned, .done p')) ∨
      (∃ e, itemOf o = some (some (.error e)) ∧ Cli.watchStep p op = .error .expect)) := by
  match op with
  | .arrive r =>
    exact ⟨_, _, rfl, .inl ⟨by simp [itemOf], by simp [itemOf], .env, [], rfl, rfl, rfl, .inl ⟨rfl, rfl⟩⟩⟩
  | .writable r =>
    exact ⟨_, _, rfl, .inl ⟨by simp [itemOf], by simp [itemOf], .env, [], rfl, rfl, rfl, .inl ⟨rfl, rfl⟩⟩⟩
  | .tick cx =>
    obtain ⟨⟨o, p'⟩, hs⟩ := step_total g.good.sane (.pollNext cx) (by intro c h; cases h)
    refine ⟨o, p', hs, ?_⟩
    have hsc := step_cases g.good.sane hs
    cases hsc with
    | next _ new r w _ hn =>
      have hp := next_step.mp hs
      unfold Cli.watchStep Cli.watchTick
      dsimp only
      rw [hp]
      simp only [bind_ok]
      match r, hs with
      | .pending, hs =>
        exact .inl ⟨by simp [itemOf], by simp [itemOf], .pending, [], rfl, rfl, rfl, .inl ⟨rfl, rfl⟩⟩
      | .ready none, hs => exact .inr (.inl ⟨rfl, rfl⟩)
      | .ready (some (.error e)), hs => exact .inr (.inr ⟨e, rfl, rfl⟩)
      | .ready (some (.ok ev)), hs =>
        obtain ⟨a, a', z, z', zl, _, _, _, _, hl, _, _, _⟩ := event_lines g hs
        dsimp only
        rw [hl]
        refine .inl ⟨?_, ?_, .event ev _, _, rfl, rfl, rfl, .inr ⟨ev, rfl, ?_⟩⟩
        · unfold itemOf
          cases ev.pkt <;> simp
        · unfold itemOf
          cases ev.pkt <;> simp
        · rw [hl]
          simp [logged]

theorem watch_cons {op : InitOp} {ops : List InitOp} {p : Panel} :
    Watch.run (op :: ops) (.watching p) = (Cli.watchStep p op >>= fun x => Watch.run ops x.2 >>=
      fun y => .ok (x.1 :: y.1, y.2)) := rfl

theorem watch_done {ops : List InitOp} {p : Panel} : Watch.run ops (.done p) = .ok ([], .done p) := by
  cases ops <;> rfl

theorem logged_cons (w : WObs) (obs : List WObs) : logged (w :: obs) = logged [w] ++ logged obs := by
  unfold logged
  rw [List.flatMap_cons, List.flatMap_cons]
  simp

theorem watched_cons (w : WObs) (obs : List WObs) :
    watched (w :: obs) = watched [w] ++ watched obs := by
  unfold watched
  rw [← List.filterMap_append]
  rfl

theorem lastArea_append (n : Bytes) (l l' : List WatchLine) :
    lastArea n (l ++ l') = (lastArea n l').or (lastArea n l) := by
  unfold lastArea
  rw [List.filterMap_append, List.getLast?_append]

theorem lastZone_append (n : Bytes) (l l' : List WatchLine) :
    lastZone n (l ++ l') = (lastZone n l').or (lastZone n l) := by
  unfold lastZone
  rw [List.filterMap_append, List.getLast?_append]

theorem lastArea_zones (n : Bytes) (l : List WatchLine) (h : ∀ x ∈ l, ∃ n a b, x = .zone n a b) :
    lastArea n l = none := by
  unfold lastArea
  rw [List.filterMap_eq_nil_iff.mpr]
  · rfl
  · intro x hx
    obtain ⟨_, _, _, rfl⟩ := h x hx
    rfl

theorem lastArea_diff (names : Fin 8 → Bytes) (a a' : ArmingStatusReport) (i : Fin 8)
    (hi : ∀ j, names j = names i → j = i) :
    lastArea (names i) (areaDiff names a a') =
      if areaOf a i = areaOf a' i then none else some (areaOf a' i) := by
  unfold lastArea areaDiff
  rw [List.filterMap_filterMap, filterMap_only (List.nodup_finRange 8) (List.mem_finRange i)]
  · split
    · rfl
    · simp
  · intro j hj
    split
    · rfl
    · simp only [Option.bind_some]
      rw [if_neg fun h => hj (hi j h)]

theorem lastZone_areas (names : Fin 8 → Bytes) (a a' : ArmingStatusReport) (n : Bytes) :
    lastZone n (areaDiff names a a') = none := by
  unfold lastZone areaDiff
  rw [List.filterMap_eq_nil_iff.mpr]
  · rfl
  · intro x hx
    obtain ⟨i, _, hi⟩ := List.mem_filterMap.mp hx
    split at hi
    · cases hi
    · cases hi; rfl

theorem lastZone_diff (names : Fin 208 → Bytes) (z z' : ZoneStatusReport) (i : Fin 208)
    (hi : ∀ j, names j = names i → j = i) :
    lastZone (names i) (zoneDiff names z z') =
      if z.zones[i] = z'.zones[i] then none else some (zoneOf z'.zones[i]) := by
  unfold lastZone zoneDiff
  rw [List.filterMap_filterMap, filterMap_only (List.nodup_finRange 208) (List.mem_finRange i)]
  · split
    · rfl
    · simp
  · intro j hj
    split
    · rfl
    · simp only [Option.bind_some]
      rw [if_neg fun h => hj (hi j h)]

/-- The panel of a state of `watch`. -/
def _root_.Elk.Watch.panel : Watch → Panel
  | .watching p => p
  | .done p => p

theorem event_of_none {o : Out} (h : itemOf o = some none) : eventOf o = none := by
  match o, h with
  | .next (.ready none) _, _ => rfl
  | .next (.ready (some (.ok ev))) _, h =>
    unfold itemOf at h
    dsimp only at h
    cases hp : ev.pkt <;> rw [hp] at h <;> cases h

theorem watch_good {ops : List InitOp} : ∀ {p0 : Panel} {obs w} (_ : Watched p0)
    (_ : Watch.run ops (.watching p0) = .ok (obs, w)), Watched w.panel := by
  induction ops with
  | nil => intro p0 obs w g h; cases h; exact g
  | cons op ops ih =>
    intro p0 obs w g h
    rw [watch_cons] at h
    obtain ⟨o, p1, hs, hc⟩ := watchStep_cases g op
    rcases hc with ⟨_, _, wo, l, hw, _⟩ | ⟨hit, hw⟩ | ⟨e, _, hw⟩
    · rw [hw] at h
      simp only [bind_ok] at h
      rw [P_bind_ok] at h
      obtain ⟨⟨os, w'⟩, h1, h2⟩ := h
      cases h2
      exact ih (watched_step g hs) h1
    · rw [hw] at h
      simp only [bind_ok, watch_done] at h
      cases h
      exact watched_step g hs
    · rw [hw] at h; cases h

theorem replay {ops : List InitOp} : ∀ {p0 : Panel} {obs w} (_ : Watched p0)
    (_ : Watch.run ops (.watching p0) = .ok (obs, w)) {a0 a : ArmingStatusReport}
    {z0 z : ZoneStatusReport} (_ : p0.armingStatus = .ok a0) (_ : w.panel.armingStatus = .ok a)
    (_ : p0.zoneStatuses = .ok z0) (_ : w.panel.zoneStatuses = .ok z),
    (∀ i, (∀ j, areaShown p0 j = areaShown p0 i → j = i) →
      areaOf a i = (lastArea (areaShown p0 i) (logged obs)).getD (areaOf a0 i)) ∧
    ((∀ ev ∈ watched obs, ∀ r, ev.msg ≠ some (.ok (.zoneStatusReport r))) →
      ∀ i, (∀ j, zoneShown p0 j = zoneShown p0 i → j = i) →
      zoneOf z.zones[i] = (lastZone (zoneShown p0 i) (logged obs)).getD (zoneOf z0.zones[i])) := by
  induction ops with
  | nil =>
    intro p0 obs w g h a0 a z0 z ha0 ha hz0 hz
    cases h
    rw [show (Watch.watching p0).panel = p0 from rfl] at ha hz
    rw [ha0] at ha
    rw [hz0] at hz
    cases ha
    cases hz
    exact ⟨fun _ _ => rfl, fun _ _ _ => rfl⟩
  | cons op ops ih =>
    intro p0 obs w g h a0 a z0 z ha0 ha hz0 hz
    rw [watch_cons] at h
    obtain ⟨o, p1, hs, hc⟩ := watchStep_cases g op
    rcases hc with ⟨_, _, wo, l, hw, hl, hwe, hev⟩ | ⟨hit, hw⟩ | ⟨e, _, hw⟩
    · rw [hw] at h
      simp only [bind_ok] at h
      rw [P_bind_ok] at h
      obtain ⟨⟨os, w'⟩, h1, h2⟩ := h
      cases h2
      have n := areaShown_step g.good hs
      have n' := zoneShown_step g.good hs
      rcases hev with ⟨hnone, rfl⟩ | ⟨ev, hsome, hlines⟩
      · have hv := views_next g.good hs hnone
        obtain ⟨i1, i2⟩ := ih (watched_step g hs) h1 (hv.1.trans ha0) ha (hv.2.trans hz0) hz
        rw [n] at i1
        rw [n'] at i2
        rw [logged_cons, hl, List.nil_append]
        refine ⟨i1, fun hzs => i2 fun ev he => hzs ev ?_⟩
        rw [watched_cons]
        exact List.mem_append_right _ he
      · obtain ⟨cx, wk, hop, ho⟩ : ∃ cx wk, op = .tick cx ∧ o = .next (.ready (some (.ok ev))) wk := by
          match op, o, hs, hsome with
          | .tick cx, .next (.ready (some (.ok ev'))) wk, hs, hsome =>
            cases hsome
            exact ⟨cx, wk, rfl, rfl⟩
          | .arrive r, _, hs, hsome => cases hs; cases hsome
          | .writable r, _, hs, hsome => cases hs; cases hsome
        subst hop
        subst ho
        obtain ⟨b, b', y, y', zl, hb, hb', hy, hy', hll, hzd, _, hzl⟩ := event_lines g hs
        rw [ha0] at hb
        cases hb
        rw [hz0] at hy
        cases hy
        rw [hlines] at hll
        cases hll
        obtain ⟨i1, i2⟩ := ih (watched_step g hs) h1 hb' ha hy' hz
        rw [n] at i1
        rw [n'] at i2
        rw [logged_cons, hl]
        constructor
        · intro i hi
          rw [i1 i hi, lastArea_append, lastArea_append, lastArea_zones _ _ hzl, Option.none_or,
            lastArea_diff _ _ _ _ hi]
          cases lastArea (areaShown p0 i) (logged os) with
          | some x => rfl
          | none =>
            simp only [Option.none_or, Option.getD_none]
            split
            · rename_i he; rw [he]; rfl
            · rfl
        · intro hzs i hi
          rw [watched_cons, hwe] at hzs
          rw [i2 (fun ev he => hzs ev (List.mem_append_right _ he)) i hi, lastZone_append,
            lastZone_append, lastZone_areas, hzd (hzs ev (List.mem_append_left _ (by simp [eventOf]))),
            lastZone_diff _ _ _ _ hi, Option.or_none]
          cases lastZone (zoneShown p0 i) (logged os) with
          | some x => rfl
          | none =>
            simp only [Option.none_or, Option.getD_none]
            split
            · rename_i he; rw [he]; rfl
            · rfl
    · rw [hw] at h
      simp only [bind_ok, watch_done] at h
      cases h
      have hv := views_next g.good hs (event_of_none hit)
      rw [show (Watch.done p1).panel = p1 from rfl] at ha hz
      rw [hv.1, ha0] at ha
      rw [hv.2, hz0] at hz
      cases ha
      cases hz
      exact ⟨fun _ _ => rfl, fun _ _ _ => rfl⟩
    · rw [hw] at h; cases h

/-- **C71** The log tells the current states of the areas: for every area whose name is shared by no
other, the state last logged under that name, or that at the start if there is none, is the
panel's. -/
theorem C71_replay_areas {p0 : Panel} (hc : Connected p0) (hv : WfView p0) (hn : WfNames p0)
    {ops : List InitOp} {obs : List WObs} {w : Watch}
    (hr : Watch.run ops (.watching p0) = .ok (obs, w)) {a0 a : ArmingStatusReport}
    (h0 : p0.armingStatus = .ok a0) (h1 : w.panel.armingStatus = .ok a)
    (i : Fin 8) (hi : ∀ j, areaShown p0 j = areaShown p0 i → j = i) :
    areaOf a i = (lastArea (areaShown p0 i) (logged obs)).getD (areaOf a0 i) := by
  have g : Watched p0 := ⟨connected_good hc, hv, hn⟩
  obtain ⟨z0, hz0⟩ := hc.zones
  obtain ⟨z, hz⟩ : ∃ z, w.panel.zoneStatuses = .ok z := by
    obtain ⟨z, hz⟩ := Option.ne_none_iff_exists'.mp (watch_good g hr).good.zones
    exact ⟨z, zones_iff.mpr hz⟩
  exact (replay g hr h0 h1 hz0 hz).1 i hi

/-- **C71** (partial) The same for zones, if no zone status report was received (they are not
logged). -/
theorem C71_replay_zones_partial {p0 : Panel} (hc : Connected p0) (hv : WfView p0) (hn : WfNames p0)
    {ops : List InitOp} {obs : List WObs} {w : Watch}
    (hr : Watch.run ops (.watching p0) = .ok (obs, w)) {z0 z : ZoneStatusReport}
    (h0 : p0.zoneStatuses = .ok z0) (h1 : w.panel.zoneStatuses = .ok z)
    (hzs : ∀ ev ∈ watched obs, ∀ r, ev.msg ≠ some (.ok (.zoneStatusReport r)))
    (i : Fin 208) (hi : ∀ j, zoneShown p0 j = zoneShown p0 i → j = i) :
    zoneOf z.zones[i] = (lastZone (zoneShown p0 i) (logged obs)).getD (zoneOf z0.zones[i]) := by
  have g : Watched p0 := ⟨connected_good hc, hv, hn⟩
  obtain ⟨a0, ha0⟩ := hc.arming
  obtain ⟨a, ha⟩ : ∃ a, w.panel.armingStatus = .ok a := by
    obtain ⟨a, ha⟩ := Option.ne_none_iff_exists'.mp (watch_good g hr).good.has
    exact ⟨a, arming_iff.mpr ha⟩
  exact (replay g hr ha0 ha h0 h1).2 hzs i hi

/-- The hypotheses of the theorems about `watch` hold of what `connect` yields. -/
theorem C71_after_connect {c : Connection} (hc : Fresh c) {ops : List InitOp} {outs : List Obs}
    {p : Panel} (h : Init.connect c ops = .ok (outs, .finished (.ok p))) :
    Connected p ∧ WfView p ∧ WfNames p ∧ Live p :=
  ⟨C36_connect_establishes c hc ops outs p h, connect_wfView hc h, connect_wfNames hc h,
    (connect_live hc h).1, (connect_live hc h).2⟩

/-- Non-vacuity: a suspicious arming report (logged 5 seconds late, a line for each area) and a
zone change. -/
example : ∃ r, Watch.run [.tick ⟨1, 0, 0⟩, .tick ⟨1, 0, 0⟩, .tick ⟨1, 6000, 6000⟩]
      (.watching (samplePanel [.data (msgBytes (.armingStatusReport armedReport)),
        .data (msgBytes (.zoneChange ⟨⟨3⟩, ⟨9⟩⟩))])) = .ok r ∧
    decide (logged r.1 = .zone [] (.normal, .unconfigured) (.violated, .opened) ::
      List.replicate 8 (.area [] ⟨.disarmed, .readyToArm, .noAlarmActive⟩
        ⟨.armedAway, .armedFully, .noAlarmActive⟩)) = true :=
  of_holds (by decide +kernel)

/-! ## C72: a connection that stays up is never reported to have ended -/

theorem run_up {ops : List Op} : ∀ {p0 p : Panel} {outs}, Good p0 → LiveConn p0.conn →
    (∀ r ∈ p0.conn.sock.incoming ++ arrived ops, Up r) → Panel.run ops p0 = .ok (outs, p) →
    (∀ o ∈ outs, ¬ saysEnd o) ∧ LiveConn p.conn ∧ ∀ r ∈ p.conn.sock.incoming, Up r := by
  induction ops with
  | nil =>
    intro p0 p outs g hl hu h
    cases h
    exact ⟨(by intro o ho; cases ho), hl, fun r hr => hu r (List.mem_append_left _ hr)⟩
  | cons op ops ih =>
    intro p0 p outs g hl hu h
    obtain ⟨o, p1, os, h1, h2, rfl⟩ := run_cons.mp h
    rw [arrived_cons] at hu
    obtain ⟨s1, s2, s3⟩ := step_up g hl (fun r hr => hu r (List.mem_append_left _ hr))
      (fun r hr => hu r (List.mem_append_right _ (List.mem_append_left _ hr))) h1
    obtain ⟨i1, i2⟩ := ih (step_good g (step_cases g.sane h1)) s2
      (fun r hr => by
        rcases List.mem_append.mp hr with hr | hr
        · exact s3 r hr
        · exact hu r (List.mem_append_right _ (List.mem_append_right _ hr))) h2
    refine ⟨?_, i2⟩
    intro x hx
    rcases List.mem_cons.mp hx with rfl | hx
    · exact s1
    · exact i1 x hx

/-- **C72** On a live connection whose socket returns no error and no end of file, no poll of the
stream, at any time and whatever commands are sent, reports an error or the end of the stream; and
the connection stays live. -/
theorem C72_stays_up {p0 p : Panel} (hc : Connected p0) (hl : Live p0) {ops : List Op}
    {outs : List Out} (hu : ∀ r ∈ p0.conn.sock.incoming ++ arrived ops, Up r)
    (hr : Panel.run ops p0 = .ok (outs, p)) :
    (∀ o ∈ outs, itemOf o ≠ some none ∧ ∀ e, itemOf o ≠ some (some (.error e))) ∧ Live p := by
  obtain ⟨h1, h2, _⟩ := run_up (connected_good hc) ⟨hl.eof, hl.ok⟩ hu hr
  exact ⟨fun o ho => ⟨fun h => h1 o ho (.inl h), fun e h => h1 o ho (.inr ⟨e, h⟩)⟩, h2.1, h2.2⟩

/-- **C72** So an error or the end of the stream, the first time either is reported, goes back to
the socket's having returned an error or the end of file. -/
theorem C72_cause {p0 p : Panel} (hc : Connected p0) (hl : Live p0) {ops : List Op}
    {outs : List Out} (hr : Panel.run ops p0 = .ok (outs, p)) {o : Out} (ho : o ∈ outs)
    (he : itemOf o = some none ∨ ∃ e, itemOf o = some (some (.error e))) :
    ∃ r ∈ p0.conn.sock.incoming ++ arrived ops,
      r = .eof ∨ (∃ c, r = .error c) ∨ r = .data [] := by
  by_cases hu : ∀ r ∈ p0.conn.sock.incoming ++ arrived ops, Up r
  · obtain ⟨h1, h2⟩ := (C72_stays_up hc hl hu hr).1 o ho
    rcases he with he | ⟨e, he⟩
    · exact absurd he h1
    · exact absurd he (h2 e)
  · simp only [Classical.not_forall] at hu
    obtain ⟨r, hm, hr⟩ := hu
    refine ⟨r, hm, ?_⟩
    match r, hr with
    | .eof, _ => exact .inl rfl
    | .error c, _ => exact .inr (.inl ⟨c, rfl⟩)
    | .blocked, hr => exact absurd (.inl rfl) hr
    | .data [], _ => exact .inr (.inr rfl)
    | .data (b :: l), hr => exact absurd (.inr ⟨_, rfl, by simp⟩) hr

/-- Non-vacuity: a connection that stays up, with data in pieces. -/
example : (∀ r ∈ [ReadItem.data (bs "06as"), .blocked, .data (bs "0066\r\n")], Up r) ∧
    ∃ r, Panel.run [.pollNext ⟨1, 0, 0⟩, .pollNext ⟨1, 0, 0⟩, .pollNext ⟨1, 0, 0⟩]
      (samplePanel [.data (bs "06as"), .blocked, .data (bs "0066\r\n")]) = .ok r ∧
    decide (packets r.1 = [.ascii ⟨bs "as00"⟩] ∧ r.2.conn.rd.eof = false) = true := by
  refine ⟨?_, of_holds (by decide +kernel)⟩
  intro r hr
  simp only [List.mem_cons, List.not_mem_nil, or_false] at hr
  rcases hr with rfl | rfl | rfl
  · exact .inr ⟨_, rfl, by decide⟩
  · exact .inl rfl
  · exact .inr ⟨_, rfl, by decide⟩

/-! ## C73: `watch` ends only with the connection -/

/-- **C73** `watch` panics only when the stream reports an I/O error. -/
theorem C73_panics {p0 : Panel} (hc : Connected p0) (hv : WfView p0) (hn : WfNames p0)
    {ops : List InitOp} {e : Panic} (hr : Watch.run ops (.watching p0) = .error e) :
    e = .expect ∧ ∃ ops₁ cx ops₂ outs p io w p', ops = ops₁ ++ .tick cx :: ops₂ ∧
      Panel.run (ops₁.map panelOp) p0 = .ok (outs, p) ∧
      p.pollNext cx = .ok (.ready (some (.error io)), w, p') := by
  have g : Watched p0 := ⟨connected_good hc, hv, hn⟩
  clear hc hv hn
  induction ops generalizing p0 with
  | nil => cases hr
  | cons op ops ih =>
    rw [watch_cons] at hr
    obtain ⟨o, p1, hs, hcs⟩ := watchStep_cases g op
    rcases hcs with ⟨_, _, wo, l, hw, _⟩ | ⟨hit, hw⟩ | ⟨io, hit, hw⟩
    · rw [hw] at hr
      simp only [bind_ok] at hr
      rw [P_bind_error] at hr
      rcases hr with hr | ⟨_, _, hr⟩
      · obtain ⟨h1, ops₁, cx, ops₂, outs, p, io, w, p', rfl, h2, h3⟩ := ih hr (watched_step g hs)
        exact ⟨h1, op :: ops₁, cx, ops₂, o :: outs, p, io, w, p', rfl,
          run_cons.mpr ⟨o, p1, outs, hs, h2, rfl⟩, h3⟩
      · cases hr
    · rw [hw] at hr
      simp only [bind_ok, watch_done] at hr
      cases hr
    · rw [hw] at hr
      cases hr
      refine ⟨rfl, ?_⟩
      match op, o, hs, hit with
      | .tick cx, .next (.ready (some (.error io))) wk, hs, _ =>
        exact ⟨[], cx, ops, [], p0, io, wk, p1, rfl, rfl, next_step.mp hs⟩
      | .tick cx, .next (.ready (some (.ok ev))) wk, hs, hit =>
        unfold itemOf at hit
        dsimp only at hit
        cases hp : ev.pkt <;> rw [hp] at hit <;> cases hit
      | .arrive r, _, hs, hit => cases hs; cases hit
      | .writable r, _, hs, hit => cases hs; cases hit

/-- **C73** `watch` returns only when the stream reports its end. -/
theorem C73_returns {p0 p : Panel} (hc : Connected p0) (hv : WfView p0) (hn : WfNames p0)
    {ops : List InitOp} {obs : List WObs}
    (hr : Watch.run ops (.watching p0) = .ok (obs, .done p)) :
    ∃ ops₁ cx ops₂ outs p1 w, ops = ops₁ ++ .tick cx :: ops₂ ∧
      Panel.run (ops₁.map panelOp) p0 = .ok (outs, p1) ∧
      p1.pollNext cx = .ok (.ready none, w, p) ∧ watched obs = events outs := by
  have g : Watched p0 := ⟨connected_good hc, hv, hn⟩
  clear hc hv hn
  induction ops generalizing p0 obs with
  | nil => cases hr
  | cons op ops ih =>
    rw [watch_cons] at hr
    obtain ⟨o, p1, hs, hcs⟩ := watchStep_cases g op
    rcases hcs with ⟨_, _, wo, l, hw, _, hwe, _⟩ | ⟨hit, hw⟩ | ⟨io, hit, hw⟩
    · rw [hw] at hr
      simp only [bind_ok] at hr
      rw [P_bind_ok] at hr
      obtain ⟨⟨os, w'⟩, h1, h2⟩ := hr
      cases h2
      obtain ⟨ops₁, cx, ops₂, outs, p', w, rfl, h2, h3, h4⟩ := ih h1 (watched_step g hs)
      refine ⟨op :: ops₁, cx, ops₂, o :: outs, p', w, rfl,
        run_cons.mpr ⟨o, p1, outs, hs, h2, rfl⟩, h3, ?_⟩
      rw [watched_cons, hwe, h4]
      unfold events
      rw [List.filterMap_cons]
      cases eventOf o <;> rfl
    · rw [hw] at hr
      simp only [bind_ok, watch_done] at hr
      cases hr
      match op, o, hs, hit with
      | .tick cx, .next (.ready none) wk, hs, _ =>
        exact ⟨[], cx, ops, [], p0, wk, rfl, rfl, next_step.mp hs, rfl⟩
      | .tick cx, .next (.ready (some (.ok ev))) wk, hs, hit =>
        unfold itemOf at hit
        dsimp only at hit
        cases hp : ev.pkt <;> rw [hp] at hit <;> cases hit
      | .arrive r, _, hs, hit => cases hs; cases hit
      | .writable r, _, hs, hit => cases hs; cases hit
    · rw [hw] at hr; cases hr

/-- **C73** So while the connection is up, `watch` neither panics nor returns, and it handles every
event. -/
theorem C73_watches {p0 : Panel} (hc : Connected p0) (hv : WfView p0) (hn : WfNames p0)
    (hl : Live p0) (ops : List InitOp)
    (hu : ∀ r ∈ p0.conn.sock.incoming ++ arrived (ops.map panelOp), Up r) :
    ∃ obs p outs, Watch.run ops (.watching p0) = .ok (obs, .watching p) ∧
      obs.length = ops.length ∧ Panel.run (ops.map panelOp) p0 = .ok (outs, p) ∧
      watched obs = events outs := by
  have g : Watched p0 := ⟨connected_good hc, hv, hn⟩
  have hl' : LiveConn p0.conn := ⟨hl.eof, hl.ok⟩
  clear hc hv hn hl
  induction ops generalizing p0 with
  | nil => exact ⟨[], p0, [], rfl, rfl, rfl, rfl⟩
  | cons op ops ih =>
    obtain ⟨o, p1, hs, hcs⟩ := watchStep_cases g op
    rw [List.map_cons, arrived_cons] at hu
    obtain ⟨s1, s2, s3⟩ := step_up g.good hl' (fun r hr => hu r (List.mem_append_left _ hr))
      (fun r hr => hu r (List.mem_append_right _ (List.mem_append_left _ hr))) hs
    obtain ⟨obs, p, outs, i1, i2, i3, i4⟩ := ih
      (fun r hr => by
        rcases List.mem_append.mp hr with hr | hr
        · exact s3 r hr
        · exact hu r (List.mem_append_right _ (List.mem_append_right _ hr)))
      (watched_step g hs) s2
    rcases hcs with ⟨_, _, wo, l, hw, _, hwe, _⟩ | ⟨hit, hw⟩ | ⟨io, hit, hw⟩
    · refine ⟨wo :: obs, p, o :: outs, ?_, by simp [i2], run_cons.mpr ⟨o, p1, outs, hs, i3, rfl⟩, ?_⟩
      · rw [watch_cons, hw]
        simp only [bind_ok]
        rw [i1]
        rfl
      · rw [watched_cons, hwe, i4]
        unfold events
        rw [List.filterMap_cons]
        cases eventOf o <;> rfl
    · exact absurd (.inl hit) s1
    · exact absurd (.inr ⟨io, hit⟩) s1

/-- Non-vacuity: bytes are left over when the connection closes, and `watch` panics. -/
example : Watch.run [.tick ⟨1, 0, 0⟩] (.watching (samplePanel [.data (bs "06a"), .eof])) =
    .error .expect := by rfl

end Elk.Props
