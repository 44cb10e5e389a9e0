import Verif.Props.Main
import Verif.Props.Stream
import Verif.Spec.EndToEnd
/-!
# From the panel's line to the broker (C90, C91)
-/

namespace Elk.Props
open Elk.Spec

/-! ## Draining -/

theorem drains_unique {a : Bytes} {ps left} (h : Drains a ps left) : ∀ {ps' left'},
    Drains a ps' left' → ps' = ps ∧ left' = left := by
  induction h with
  | stop h =>
    intro ps' left' h'
    cases h' with
    | stop h' => rw [h] at h'; cases h'; exact ⟨rfl, rfl⟩
    | step h' _ => rw [h] at h'; cases h'
  | step h _ ih =>
    intro ps' left' h'
    obtain ⟨qs, rfl, hd⟩ := drains_det h' h
    obtain ⟨rfl, rfl⟩ := ih hd
    exact ⟨rfl, rfl⟩

theorem steps_into {a : Bytes} {ps mid qs left} (h : Steps a ps mid) (h' : Drains mid qs left) :
    Drains a (ps ++ qs) left := by
  induction h with
  | nil => exact h'
  | cons h _ ih => exact .step h (ih h')

theorem says_sent {m : Message} (h : WfMessage m) : says (.ascii ⟨sentText m⟩) = some m := by
  unfold says
  rw [parse_sent h]

theorem sent_steps {s : Sent} (h : s.Fine) (t : Bytes) :
    ∃ ps, Steps (s.bytes ++ t) ps t ∧ ps.filterMap says = s.heard.toList := by
  obtain ⟨g, m, sp⟩ := s
  obtain ⟨hw, hg, hsp⟩ := h
  dsimp only at hw hg hsp
  have hv : ValidPacket (.ascii ⟨sentText m⟩) := sentText_valid hw
  have bad_says : ∀ bad : List InvalidPacket, (bad.map Packet.invalid).filterMap says = [] := by
    intro bad
    rw [List.filterMap_map, List.filterMap_eq_nil_iff]
    intro a _
    rfl
  match sp with
  | none =>
    obtain ⟨w, bad, e1, e2, _, _⟩ := C13_resync g hg hv t
    rw [encode_valid hv, Except.ok.injEq] at e1
    subst e1
    refine ⟨_, e2, ?_⟩
    rw [List.filterMap_append, bad_says, List.filterMap_cons, says_sent hw]
    rfl
  | some (i, v) =>
    obtain ⟨h2, b, hb, hne⟩ := hsp i v rfl
    obtain ⟨hlt, rfl⟩ := List.getElem?_eq_some_iff.mp hb
    obtain ⟨e, he⟩ := C10_contained hv (encode_valid hv) (i := i) hlt h2 hne t
    obtain ⟨x, y, n, hx, hn, hf⟩ := asciiFrame_split hv.2.1
    obtain ⟨r, hr, hrl⟩ : ∃ r, (asciiFrame (sentText m)).set i v ++ t = x :: y :: r ∧
        1 ≤ r.length := by
      rw [hf]
      match i, h2 with
      | i + 2, _ =>
        exact ⟨_, rfl, by simp [hexByte]; omega⟩
    obtain ⟨bad, h1, _⟩ := garbage_steps g hg hr hrl (Or.inr (by rw [hx]; rfl))
    refine ⟨bad.map .invalid ++ [.invalid ⟨e, (asciiFrame (sentText m)).set i v⟩], ?_, ?_⟩
    · show Steps (g ++ (asciiFrame (sentText m)).set i v ++ t) _ _
      rw [List.append_assoc]
      exact steps_trans h1 (.cons he .nil)
    · rw [List.filterMap_append, bad_says]
      rfl

theorem drains_sent {ss : List Sent} {rest : Bytes} {qs left} (hr : Drains rest qs left)
    (h : ∀ s ∈ ss, s.Fine) : ∃ ps, Drains (ss.flatMap (·.bytes) ++ rest) ps left ∧
      ps.filterMap says = ss.filterMap (·.heard) ++ qs.filterMap says := by
  induction ss with
  | nil => exact ⟨qs, hr, rfl⟩
  | cons s ss ih =>
    obtain ⟨ps, h1, h2⟩ := ih fun s' hs' => h s' (List.mem_cons_of_mem _ hs')
    obtain ⟨ps', h3, h4⟩ := sent_steps (h s (List.mem_cons_self ..)) (ss.flatMap (·.bytes) ++ rest)
    refine ⟨ps' ++ ps, ?_, ?_⟩
    · rw [List.flatMap_cons, List.append_assoc]
      exact steps_into h3 h1
    · rw [List.filterMap_append, h2, h4, List.filterMap_cons]
      cases s.heard <;> rfl

/-! ## What events say is what was on the line -/

/-- The message of an event. -/
def messageOf (ev : Event) : Option Message :=
  match ev.msg with
  | some (.ok m) => some m
  | _ => none

theorem interp_says {p : Panel} {now pkt ev w p'} (h : InterpCase p now pkt (ev, w, p')) :
    ev.pkt = some pkt ∧ messageOf ev = says pkt := by
  unfold says messageOf
  cases h with
  | bad e h => dsimp only; rw [h]; exact ⟨rfl, rfl⟩
  | skip h => dsimp only; rw [h]; exact ⟨rfl, rfl⟩
  | msg m ch q comp w p2 h _ _ _ => dsimp only; rw [h]; exact ⟨rfl, rfl⟩

theorem step_says {p p1 : Panel} {op o} (hs : StepCase p op (o, p1)) :
    (eventOf o).bind messageOf = (packetOf o).bind says := by
  cases hs with
  | next cx new r w _ hn =>
    cases hn with
    | packet pkt c ev w _ _ hi =>
      obtain ⟨h1, h2⟩ := interp_says hi
      show messageOf ev = (ev.pkt).bind _
      rw [h1, h2]
      rfl
    | error e c _ => rfl
    | ended c _ => rfl
    | idle c _ _ => rfl
    | wait c pa _ _ _ => rfl
    | fire c pa prior _ _ _ _ => rfl
  | _ => rfl

theorem filterMap_toList {α β : Type} (f : α → Option β) (o : Option α) :
    o.toList.filterMap f = (o.bind f).toList := by
  cases o with
  | none => rfl
  | some a =>
    show List.filterMap f [a] = (f a).toList
    rw [List.filterMap_cons]
    cases f a <;> rfl

theorem hist_says {p p' : Panel} {ops outs} (h : Hist p ops outs p') :
    (events outs).filterMap messageOf =
      (packets outs).filterMap says := by
  induction h with
  | nil _ => rfl
  | @cons p op o p1 ops os p2 _ hs _ ih =>
    rw [events_cons, packets_cons, List.filterMap_append, List.filterMap_append, ih,
      filterMap_toList, filterMap_toList, step_says hs]

theorem reports_says (evs : List Event) :
    evs.filterMap reportOf = (evs.filterMap messageOf).filterMap armingSaid := by
  rw [List.filterMap_filterMap]
  congr 1
  funext ev
  unfold reportOf messageOf
  match ev.msg with
  | none => rfl
  | some (.error _) => rfl
  | some (.ok m) => cases m <;> rfl

theorem zones_says (i : Nat) (evs : List Event) :
    evs.filterMap (zoneReport i) = (evs.filterMap messageOf).filterMap (zoneSaid i) := by
  rw [List.filterMap_filterMap]
  congr 1
  funext ev
  unfold zoneReport messageOf
  match ev.msg with
  | none => rfl
  | some (.error _) => rfl
  | some (.ok m) => cases m <;> rfl

/-! ## C90: the broker holds what the panel said -/

/-- The general form: for any bytes on the line, in terms of the packets they are decoded to. -/
theorem idle_current {cfg : Cfg} {p0 : Panel} (hc : Connected p0) (hw : WfView p0)
    (hm : MapCfg cfg) (hd : DistinctNames cfg) {b0 : Bridge} (hs : Bridge.start cfg p0 = .ok b0)
    {m0 : ArmingStatusReport} (h0 : Latest p0 m0) {z0 : ZoneStatusReport}
    (hz0 : p0.zoneStatuses = .ok z0) {ops : List BOp} {obs : List BObs} {b b' : Bridge}
    (hr : Bridge.run ops b0 = .ok (obs, b)) {cx : Cx} {pf : Bool}
    (ht : b.step (.tick cx pf) = .ok (.pending, b')) (hsel : b.waiting = .select)
    (hbl : .blocked ∉ b.panel.conn.sock.incoming) {ps : List Packet} {left : Bytes}
    (hline : Drains (p0.conn.rd.buffer ++ dataBytes (p0.conn.sock.incoming ++ arrivedAt ops))
      ps left) :
    Current cfg b'.log m0 z0 (ps.filterMap says) ∧
    (¬ Shows cfg b'.log (lastOr ((ps.filterMap says).filterMap armingSaid) m0)
        (fun i => lastOr ((ps.filterMap says).filterMap (zoneSaid i)) z0.zones[i]) →
      ∃ pa, b'.panel.pendingArm = some pa ∧ cx.timer < pa.deadline) := by
  obtain ⟨r, z, hr1, hz1, _, h4, h5⟩ := C49_tracks hc hw hm hd hs hr
  have hh := bhist_of_run hr
  have hp0 : b0.panel = p0 := by
    obtain ⟨r0, hr0⟩ := hc.arming
    obtain ⟨_, _, _, rfl⟩ := (start_iff hr0 hz0 (hw z0 hz0)).mp hs
    rfl
  obtain ⟨pops, outs, k1, k2, k3, k4⟩ := bhist_panel hh
  rw [hp0] at k1
  have hph := hist_of_run (connected_good hc) k1
  -- the final poll
  have hcase := bstep_cases ht
  obtain ⟨w, panel, hpn, rfl⟩ : ∃ w panel, b.panel.pollNext cx = .ok (.pending, w, panel) ∧
      b' = { b with panel } := by
    cases hcase with
    | idle _ _ w panel _ _ h => exact ⟨w, panel, h, rfl⟩
    | notReady _ _ c _ h _ => rw [hsel] at h; cases h
    | notFlushed _ _ _ h _ => rw [hsel] at h; cases h
  have hstep : b.panel.step (.pollNext cx) = .ok (.next .pending w, panel) := by
    unfold Panel.step
    dsimp only
    rw [hpn]
    rfl
  obtain ⟨bytes, _, _, _, hlast⟩ := C45_mirror hc k1
  obtain ⟨more, _, hdr, hallb⟩ := hlast cx w panel hstep
  rw [hallb hbl, k4] at hdr
  obtain ⟨e1, _⟩ := drains_unique hline hdr
  have esays : (events outs).filterMap messageOf = ps.filterMap says := by
    rw [hist_says hph, e1]
  -- the views
  have hl := C31_latest hc h0 k1
  have er : reports outs = (ps.filterMap says).filterMap armingSaid := by
    rw [← esays]; exact reports_says _
  rw [er] at hl
  obtain ⟨z0', z', g1, g2, g3⟩ := C35_zones hc k1
  rw [hz0] at g1
  cases g1
  rw [hz1] at g2
  cases g2
  have hshow : Shows cfg b.log r fun i =>
      lastOr ((ps.filterMap says).filterMap (zoneSaid i)) z0.zones[i] := by
    refine ⟨h4, fun a ha => ?_⟩
    obtain ⟨i, hi, hret⟩ := h5 a ha
    refine ⟨i, hi, ?_⟩
    rw [hret]
    have := g3 i.val i.isLt
    rw [zones_says, esays] at this
    show some (Payload.text (bs (zoneText z.zones[i.val].val.toNat))) = _
    rw [this]
    rfl
  rcases hl with ⟨h, _⟩ | ⟨v, pa, h, hpa, hrep, hsus⟩
  · rw [hr1] at h
    cases h
    exact ⟨⟨_, .inl rfl, hshow⟩, fun hno => absurd hshow hno⟩
  · rw [hr1] at h
    cases h
    refine ⟨⟨_, .inr hsus, hshow⟩, fun _ => ?_⟩
    have hsc := step_cases hph.good.sane hstep
    cases hsc with
    | next _ new _ _ _ hn =>
      cases hn with
      | idle c _ hno => rw [hpa] at hno; cases hno
      | wait c pa' _ hpa' hlt => rw [hpa] at hpa'; cases hpa'; exact ⟨_, rfl, hlt⟩

/-- **C90** Let the bridge have been started with a connected panel, and let the line have carried,
from the end of the connecting dialogue, well-formed messages, in pieces of any sizes, with garbage
between them that cannot be taken for a packet, some with a byte spoilt after the length digits, and
at most the beginning of another packet.
Whenever the bridge then has nothing to do (it was polled, and waits for the panel or the broker)
and the socket has handed over everything, the broker holds what the panel
last said unspoilt; except that a
suspicious report may still be withheld, as long as its time has not come. -/
theorem C90_end_to_end {cfg : Cfg} {p0 : Panel} (hc : Connected p0) (hw : WfView p0)
    (hm : MapCfg cfg) (hd : DistinctNames cfg) {b0 : Bridge} (hs : Bridge.start cfg p0 = .ok b0)
    {m0 : ArmingStatusReport} (h0 : Latest p0 m0) {z0 : ZoneStatusReport}
    (hz0 : p0.zoneStatuses = .ok z0) {ops : List BOp} {obs : List BObs} {b b' : Bridge}
    (hr : Bridge.run ops b0 = .ok (obs, b)) {cx : Cx} {pf : Bool}
    (ht : b.step (.tick cx pf) = .ok (.pending, b')) (hsel : b.waiting = .select)
    (hbl : .blocked ∉ b.panel.conn.sock.incoming) {ss : List Sent} (hss : ∀ s ∈ ss, s.Fine)
    {rest : Bytes} (hrest : Packet.decode rest = .ok (none, rest))
    (hline : p0.conn.rd.buffer ++ dataBytes (p0.conn.sock.incoming ++ arrivedAt ops) =
      ss.flatMap (·.bytes) ++ rest) :
    Current cfg b'.log m0 z0 (ss.filterMap (·.heard)) ∧
    (¬ Shows cfg b'.log (lastOr ((ss.filterMap (·.heard)).filterMap armingSaid) m0)
        (fun i => lastOr ((ss.filterMap (·.heard)).filterMap (zoneSaid i)) z0.zones[i]) →
      ∃ pa, b'.panel.pendingArm = some pa ∧ cx.timer < pa.deadline) := by
  obtain ⟨ps, h1, h2⟩ := drains_sent (.stop hrest) hss
  rw [show ss.filterMap (·.heard) = ps.filterMap says by rw [h2]; simp]
  exact idle_current hc hw hm hd hs h0 hz0 hr ht hsel hbl (hline ▸ h1)

/-! ## C91: what follows damage is heard -/

/-- A packet is not taken for a valid one if it does not end with a line feed. -/
theorem ascii_bad {a b n : UInt8} {r x t : Bytes} {c : UInt8} (hx : dehexByte a b = some n)
    (hs : x ++ [c] ++ t = a :: b :: r) (hl : x.length + 1 = 4 + n.toNat) (hc : c ≠ 10) :
    ∃ bad, Packet.decode (x ++ [c] ++ t) = .ok (some (.invalid bad), t) := by
  have hlen : (x ++ [c]).length = 4 + n.toNat := by simp; omega
  obtain ⟨p, hp, hcase⟩ := decodeAscii_full (src := x ++ [c] ++ t) (n := n) (by simp; omega)
  have hd : Packet.decode (x ++ [c] ++ t) = Packet.decodeAscii (x ++ [c] ++ t) n := by
    rw [hs]
    exact decode_ascii r hx
  rw [hd, hp, ← hlen, List.drop_left]
  rw [← hlen, List.take_left] at hcase
  rcases hcase with ⟨q, _, h⟩ | ⟨e, rfl, _⟩
  · obtain ⟨a', b', h, _⟩ := asciiDecode_ok h
    have e : x ++ [c] = ([a', b'] ++ q.body ++ hexByte (checksum ([a', b'] ++ q.body)) ++ [13]) ++ [10] := by
      rw [h]; simp
    have := (List.append_inj' e rfl).2
    cases this
    exact absurd rfl hc
  · exact ⟨_, rfl⟩

/-- The frame of a zone change of a zone below 100. -/
def ZoneFrame (f : Bytes) : Prop := ∃ t, f = bs "0AZC0" ++ t ∧ t.length = 9

theorem zone_frame {m : ZoneChange} (h : m.zone.val.toNat < 100) :
    ZoneFrame (asciiFrame (sentText (.zoneChange m))) := by
  have e : sentText (.zoneChange m) = bs "ZC0" ++ [dig (m.zone.val.toNat / 10 % 10),
      dig (m.zone.val.toNat % 10), hexDigit m.status.val.toNat, b' '0', b' '0'] := by
    have hz : dig (m.zone.val.toNat / 100) = b' '0' := by
      rw [show m.zone.val.toNat / 100 = 0 by omega]
      rfl
    show [b' 'Z', b' 'C', dig (m.zone.val.toNat / 100), _, _, _, _, _] = _
    rw [hz]
    rfl
  refine ⟨(asciiFrame (sentText (.zoneChange m))).drop 5, ?_, ?_⟩
  · conv => lhs; rw [← List.take_append_drop 5 (asciiFrame (sentText (.zoneChange m)))]
    congr 1
    have hl : (sentText (.zoneChange m)).length = 8 := by rw [e]; rfl
    unfold asciiFrame
    rw [hl, e]
    rfl
  · rw [List.length_drop, asciiFrame_length, e]
    rfl

theorem zone_frames_length {fs : List Bytes} (h : ∀ f ∈ fs, ZoneFrame f) :
    fs.flatten.length = 14 * fs.length := by
  induction fs with
  | nil => rfl
  | cons f fs ih =>
    obtain ⟨t, rfl, ht⟩ := h f (List.mem_cons_self ..)
    rw [List.flatten_cons, List.length_append, ih fun f hf => h f (List.mem_cons_of_mem _ hf),
      List.length_append, ht]
    simp [bs]
    omega

/-- Begun three bytes into a zone change, the packets are never found again. -/
theorem zone_lock (n : Nat) : ∀ fs : List Bytes, fs.length = n → (∀ f ∈ fs, ZoneFrame f) →
    ∃ (bad : List InvalidPacket) (left : Bytes),
      Drains (fs.flatten.drop 3) (bad.map .invalid) left := by
  induction n using Nat.strongRecOn with
  | ind n ih =>
    intro fs hn hfs
    have hlen := zone_frames_length hfs
    match hf : fs with
    | [] => exact ⟨[], [], .stop rfl⟩
    | f :: fs' =>
      rw [← hf] at hfs hlen hn ⊢
      obtain ⟨t, rfl, ht⟩ := hfs f (by rw [hf]; exact List.mem_cons_self ..)
      have hst : fs.flatten.drop 3 = b' 'C' :: b' '0' :: (t ++ fs'.flatten) := by
        rw [hf]; rfl
      have hx : dehexByte (b' 'C') (b' '0') = some 192 := by decide
      have hlen3 : (fs.flatten.drop 3).length = 14 * fs.length - 3 := by
        rw [List.length_drop, hlen]
      by_cases hs : fs.length < 15
      · refine ⟨[], _, .stop (decodeCase_decode (.asciiMore _ _ 192 _ hst hx ?_))⟩
        rw [hlen3]
        show _ < 196
        omega
      · have hB : ∀ f ∈ fs.drop 14, ZoneFrame f := fun f hf => hfs f (List.mem_of_mem_drop hf)
        have hlenA : (fs.take 14).flatten.length = 196 := by
          rw [zone_frames_length fun f hf => hfs f (List.mem_of_mem_take hf), List.length_take]
          omega
        have hF : fs.flatten = (fs.take 14).flatten ++ (fs.drop 14).flatten := by
          rw [← List.flatten_append, List.take_append_drop]
        obtain ⟨g, gs, hgs⟩ : ∃ g gs, fs.drop 14 = g :: gs := by
          match hd : fs.drop 14 with
          | [] => rw [List.drop_eq_nil_iff] at hd; omega
          | g :: gs => exact ⟨g, gs, rfl⟩
        obtain ⟨u, rfl, hu⟩ := hB g (by rw [hgs]; exact List.mem_cons_self ..)
        have hBe : (fs.drop 14).flatten = [b' '0', b' 'A'] ++ [b' 'Z'] ++
            (fs.drop 14).flatten.drop 3 := by
          rw [hgs]; rfl
        have hsrc : fs.flatten.drop 3 = (fs.take 14).flatten.drop 3 ++ [b' '0', b' 'A'] ++ [b' 'Z'] ++
            (fs.drop 14).flatten.drop 3 := by
          conv => lhs; rw [hF, List.drop_append_of_le_length (by omega), hBe]
          simp [List.append_assoc]
        obtain ⟨bad, hbad⟩ := ascii_bad (x := (fs.take 14).flatten.drop 3 ++ [b' '0', b' 'A'])
          (c := b' 'Z') (t := (fs.drop 14).flatten.drop 3) hx (by rw [← hsrc]; exact hst)
          (by simp [hlenA]) (by decide)
        rw [← hsrc] at hbad
        obtain ⟨more, left, hm⟩ := ih (fs.drop 14).length (by rw [List.length_drop]; omega)
          (fs.drop 14) rfl hB
        exact ⟨bad :: more, left, .step hbad hm⟩

theorem zone_lost_first {fs : List Bytes} (hfs : ∀ f ∈ fs, ZoneFrame f) :
    ∃ (bad : List InvalidPacket) (left : Bytes),
      Drains (fs.flatten.drop 1) (bad.map .invalid) left := by
  obtain ⟨bad, left, h⟩ := zone_lock _ fs rfl hfs
  match hf : fs with
  | [] => exact ⟨[], [], .stop rfl⟩
  | f :: fs' =>
    rw [← hf] at hfs h ⊢
    obtain ⟨t, rfl, ht⟩ := hfs f (by rw [hf]; exact List.mem_cons_self ..)
    have hst : fs.flatten.drop 1 = b' 'A' :: b' 'Z' :: b' 'C' :: b' '0' :: (t ++ fs'.flatten) := by
      rw [hf]; rfl
    refine ⟨⟨.noPrefix, [b' 'A', b' 'Z']⟩ :: bad, left, .step ?_ h⟩
    have e1 : [b' 'A', b' 'Z'] = (fs.flatten.drop 1).take 2 := by rw [hst]; rfl
    have e2 : fs.flatten.drop 3 = (fs.flatten.drop 1).drop 2 := by rw [List.drop_drop]
    rw [e1, e2]
    refine decodeCase_decode (.scanBad _ _ _ 2 hst (by decide) (by decide) (by omega) (by omega)
      (by rw [hst]; simp) ?_ (Or.inr ⟨⟨b' 'C', b' '0', ?_, ?_, Or.inr (by decide)⟩, ?_⟩))
    · intro i hi
      rw [hst]
      rintro ⟨a, b, ha, hb, h⟩
      match i, hi with
      | 0, _ =>
        cases ha; cases hb
        rcases h with h | h
        · exact absurd h (by decide)
        · exact absurd h (by decide)
      | 1, _ =>
        cases ha; cases hb
        rcases h with h | h
        · exact absurd h (by decide)
        · exact absurd h (by decide)
    · rw [hst]; rfl
    · rw [hst]; rfl
    · rw [hst]; simp [ht]; omega

/-- **C91 is false of the code**: let any one byte of a message be lost, other than the two length
digits. Of the zone changes (of zones below 100) that follow, however many they are, none is ever
understood. -/
theorem C91_lost_byte {m : Message} (hw : WfMessage m) {i : Nat} (h2 : 2 ≤ i)
    (hi : i < (asciiFrame (sentText m)).length) {cs : List ZoneChange}
    (hcs : ∀ c ∈ cs, c.zone.val.toNat < 100) :
    ∃ (bad : List InvalidPacket) (left : Bytes),
      Drains ((asciiFrame (sentText m)).eraseIdx i ++
        cs.flatMap fun c => asciiFrame (sentText (.zoneChange c))) (bad.map .invalid) left := by
  have hv : ValidPacket (.ascii ⟨sentText m⟩) := sentText_valid hw
  obtain ⟨x, y, n, hx, hn, hf⟩ := asciiFrame_split hv.2.1
  have hfl := asciiFrame_length (sentText m)
  have hel : ((asciiFrame (sentText m)).eraseIdx i).length + 1 = 4 + n.toNat := by
    rw [List.length_eraseIdx_of_lt hi, hfl, hn]
    show List.length (sentText m) + 6 - 1 + 1 = 4 + (List.length (sentText m) + 2)
    omega
  obtain ⟨r, hr⟩ : ∃ r, (asciiFrame (sentText m)).eraseIdx i = x :: y :: r := by
    rw [hf]
    match i, h2 with
    | i + 2, _ => exact ⟨_, rfl⟩
  have hfs : ∀ f ∈ cs.map (fun c => asciiFrame (sentText (.zoneChange c))), ZoneFrame f := by
    intro f hf
    obtain ⟨c, hc, rfl⟩ := List.mem_map.mp hf
    exact zone_frame (hcs c hc)
  rw [List.flatMap_def]
  generalize cs.map (fun c => asciiFrame (sentText (.zoneChange c))) = fs at hfs
  obtain ⟨bad, left, h⟩ := zone_lost_first hfs
  match hfe : fs with
  | [] =>
    refine ⟨[], _, .stop (decodeCase_decode (.asciiMore x y n r ?_ hx ?_))⟩
    · simp [hr]
    · simp; omega
  | f :: fs' =>
    rw [← hfe] at hfs h ⊢
    obtain ⟨t, rfl, ht⟩ := hfs f (by rw [hfe]; exact List.mem_cons_self ..)
    have hst : fs.flatten = [b' '0'] ++ fs.flatten.drop 1 := by
      rw [hfe]; rfl
    obtain ⟨b1, hb1⟩ := ascii_bad (x := (asciiFrame (sentText m)).eraseIdx i) (c := b' '0')
      (t := fs.flatten.drop 1) (r := r ++ fs.flatten) hx (by rw [List.append_assoc, ← hst, hr]; rfl) hel
      (by decide)
    rw [List.append_assoc, ← hst] at hb1
    exact ⟨b1 :: bad, left, .step hb1 h⟩
/-- **C91** What holds: damage to a message that is garbage before it or one spoilt byte after the
length digits loses at most that message (missing: a byte lost or added, a spoilt length digit, and
garbage containing hex digits or escape bytes). -/
theorem C91_recovers_partial {s : Sent} (h : s.Fine) (more : Bytes) :
    ∃ ps, Steps (s.bytes ++ more) ps more ∧ ps.filterMap says = s.heard.toList :=
  sent_steps h more

/-! ## C92: the same from one end to the other -/

/-- The broker shows the bridge as available. -/
def Online (cfg : Cfg) (log : List Published) : Prop :=
  retained log (cfg.prefix ++ bs "/availability") = some (.text (bs "online"))

theorem idle_log {b b' : Bridge} {cx pf} (h : b.step (.tick cx pf) = .ok (.pending, b')) :
    b'.log = b.log := by
  cases bstep_cases h with
  | idle _ _ w panel _ _ h => rfl
  | notReady _ _ c _ h _ => rfl
  | notFlushed _ _ _ h _ => rfl

/-- **C92 is false of the code**: there are 1023 bytes after which nothing the panel sends reaches the
broker, while the bridge remains available. -/
theorem C92_frozen : ∃ w : Bytes, w.length = 1023 ∧
    ∀ {cfg : Cfg} {p0 : Panel} (_ : Connected p0) (_ : WfView p0)
    (_ : MapCfg cfg) (_ : DistinctNames cfg) {b0 : Bridge} (_ : Bridge.start cfg p0 = .ok b0)
    {m0 : ArmingStatusReport} (_ : Latest p0 m0) {z0 : ZoneStatusReport}
    (_ : p0.zoneStatuses = .ok z0) {ops : List BOp} {obs : List BObs} {b b' : Bridge}
    (_ : Bridge.run ops b0 = .ok (obs, b)) {cx : Cx} {pf : Bool}
    (_ : b.step (.tick cx pf) = .ok (.pending, b')) (_ : b.waiting = .select)
    (_ : .blocked ∉ b.panel.conn.sock.incoming) {ss : List Sent} (_ : ∀ s ∈ ss, s.Fine)
    {more : Bytes} (_ : p0.conn.rd.buffer ++ dataBytes (p0.conn.sock.incoming ++ arrivedAt ops) =
      ss.flatMap (·.bytes) ++ (w ++ more)),
    Current cfg b'.log m0 z0 (ss.filterMap (·.heard)) ∧ Online cfg b'.log := by
  obtain ⟨w, hl, hw⟩ := C08_stalls_forever
  refine ⟨w, hl, ?_⟩
  intro cfg p0 hc hv hm hd b0 hs m0 h0 z0 hz0 ops obs b b' hr cx pf ht hsel hbl ss hss more hline
  refine ⟨(C90_end_to_end hc hv hm hd hs h0 hz0 hr ht hsel hbl hss (hw more) hline).1, ?_⟩
  unfold Online
  rw [idle_log ht]
  exact C66_online_stays hc hv hs hr

/-- **C92 is false of the code**: when a byte of a message is lost (other than its length digits), of
the zone changes (of zones below 100) that follow, none reaches the broker, while the bridge remains
available. -/
theorem C92_deaf {cfg : Cfg} {p0 : Panel} (hc : Connected p0) (hw : WfView p0)
    (hm : MapCfg cfg) (hd : DistinctNames cfg) {b0 : Bridge} (hs : Bridge.start cfg p0 = .ok b0)
    {m0 : ArmingStatusReport} (h0 : Latest p0 m0) {z0 : ZoneStatusReport}
    (hz0 : p0.zoneStatuses = .ok z0) {ops : List BOp} {obs : List BObs} {b b' : Bridge}
    (hr : Bridge.run ops b0 = .ok (obs, b)) {cx : Cx} {pf : Bool}
    (ht : b.step (.tick cx pf) = .ok (.pending, b')) (hsel : b.waiting = .select)
    (hbl : .blocked ∉ b.panel.conn.sock.incoming) {ss : List Sent} (hss : ∀ s ∈ ss, s.Fine)
    {m : Message} (hwm : WfMessage m) {i : Nat} (h2 : 2 ≤ i)
    (hi : i < (asciiFrame (sentText m)).length) {cs : List ZoneChange}
    (hcs : ∀ c ∈ cs, c.zone.val.toNat < 100)
    (hline : p0.conn.rd.buffer ++ dataBytes (p0.conn.sock.incoming ++ arrivedAt ops) =
      ss.flatMap (·.bytes) ++ ((asciiFrame (sentText m)).eraseIdx i ++
        cs.flatMap fun c => asciiFrame (sentText (.zoneChange c)))) :
    Current cfg b'.log m0 z0 (ss.filterMap (·.heard)) ∧ Online cfg b'.log := by
  obtain ⟨bad, left, hb⟩ := C91_lost_byte hwm h2 hi hcs
  obtain ⟨ps, h1, h3⟩ := drains_sent hb hss
  have e : ss.filterMap (·.heard) = ps.filterMap says := by
    rw [h3, List.filterMap_map]
    have : bad.filterMap (says ∘ Packet.invalid) = [] := by
      rw [List.filterMap_eq_nil_iff]
      intro a _
      rfl
    rw [this, List.append_nil]
  rw [e]
  refine ⟨(idle_current hc hw hm hd hs h0 hz0 hr ht hsel hbl (hline ▸ h1)).1, ?_⟩
  unfold Online
  rw [idle_log ht]
  exact C66_online_stays hc hw hs hr

/-- A bridge that polls the panel this many times. -/
def ticks (n : Nat) : List BOp := List.replicate n (.tick ⟨1, 0, 0⟩ true)

/-- Whether a poll found nothing to do. -/
def idleStep (b : Bridge) : Bool :=
  holds (b.step (.tick ⟨1, 0, 0⟩ true)) fun x => match x.1 with | .pending => true | _ => false

theorem idleStep_iff {b : Bridge} (h : idleStep b = true) :
    ∃ b', b.step (.tick ⟨1, 0, 0⟩ true) = .ok (.pending, b') := by
  obtain ⟨⟨o, b'⟩, h1, h2⟩ := of_holds h
  refine ⟨b', ?_⟩
  rw [h1]
  dsimp only at h2
  split at h2
  · rfl
  · cases h2

/-- A run of the sample bridge on these bytes, polled until nothing is left to do. -/
theorem sample_idle {bytes : Bytes} {n : Nat}
    (h : holds (Bridge.start sampleCfg (samplePanel [.data bytes]) >>= Bridge.run (ticks n))
      (fun x => idleStep x.2 && decide (x.2.waiting = .select) &&
        decide (.blocked ∉ x.2.panel.conn.sock.incoming)) = true) :
    ∃ b0 obs b b', Bridge.start sampleCfg (samplePanel [.data bytes]) = .ok b0 ∧
      Bridge.run (ticks n) b0 = .ok (obs, b) ∧ b.step (.tick ⟨1, 0, 0⟩ true) = .ok (.pending, b') ∧
      b.waiting = .select ∧ .blocked ∉ b.panel.conn.sock.incoming := by
  obtain ⟨⟨obs, b⟩, h1, h2⟩ := of_holds h
  match hb : Bridge.start sampleCfg (samplePanel [.data bytes]), h1 with
  | .ok b0, h1 =>
    simp only [Bool.and_eq_true, decide_eq_true_eq] at h2
    obtain ⟨b', h3⟩ := idleStep_iff h2.1.1
    exact ⟨b0, obs, b, b', rfl, h1, h3, h2.1.2, h2.2⟩

/-- Non-vacuity of C90: garbage, a spoilt message and an unspoilt one, and the beginning of another. -/
example : ∃ b0 obs b b1, Bridge.start sampleCfg (samplePanel [.data
        (bs "~" ++ ((msgBytes (.zoneChange ⟨⟨1⟩, ⟨9⟩⟩)).set 4 (b' '1') ++
          msgBytes (.zoneChange ⟨⟨2⟩, ⟨9⟩⟩) ++ bs "0A"))]) = .ok b0 ∧
      Bridge.run (ticks 3) b0 = .ok (obs, b) ∧ b.step (.tick ⟨1, 0, 0⟩ true) = .ok (.pending, b1) ∧
      b.waiting = .select ∧ .blocked ∉ b.panel.conn.sock.incoming :=
  sample_idle (by decide +kernel)

example : [Sent.mk (bs "~") (.zoneChange ⟨⟨1⟩, ⟨9⟩⟩) (some (4, b' '1')),
      Sent.mk [] (.zoneChange ⟨⟨2⟩, ⟨9⟩⟩) none].flatMap (·.bytes) ++ bs "0A" =
    bs "~" ++ ((msgBytes (.zoneChange ⟨⟨1⟩, ⟨9⟩⟩)).set 4 (b' '1') ++
          msgBytes (.zoneChange ⟨⟨2⟩, ⟨9⟩⟩) ++ bs "0A") := by decide +kernel

/-- **C92 is false of the code**: after one byte was lost, what the panel says next does not reach the
broker. -/
theorem C92_false : ¬ ∀ {cfg : Cfg} {p0 : Panel} (_ : Connected p0) (_ : WfView p0)
    (_ : MapCfg cfg) (_ : DistinctNames cfg) {b0 : Bridge} (_ : Bridge.start cfg p0 = .ok b0)
    {m0 : ArmingStatusReport} (_ : Latest p0 m0) {z0 : ZoneStatusReport}
    (_ : p0.zoneStatuses = .ok z0) {ops : List BOp} {obs : List BObs} {b b' : Bridge}
    (_ : Bridge.run ops b0 = .ok (obs, b)) {cx : Cx} {pf : Bool}
    (_ : b.step (.tick cx pf) = .ok (.pending, b')) (_ : b.waiting = .select)
    (_ : .blocked ∉ b.panel.conn.sock.incoming) {m : Message} (_ : WfMessage m) {i : Nat} (_ : 2 ≤ i)
    (_ : i < (asciiFrame (sentText m)).length) {ss : List Sent} (_ : ∀ s ∈ ss, s.Fine)
    (_ : p0.conn.rd.buffer ++ dataBytes (p0.conn.sock.incoming ++ arrivedAt ops) =
      (asciiFrame (sentText m)).eraseIdx i ++ ss.flatMap (·.bytes)),
    Current cfg b'.log m0 z0 (ss.filterMap (·.heard)) := by
  intro h
  let lost : Bytes := (msgBytes (.zoneChange ⟨⟨2⟩, ⟨1⟩⟩)).eraseIdx 2
  let sent : Sent := ⟨[], .zoneChange ⟨⟨1⟩, ⟨9⟩⟩, none⟩
  obtain ⟨b0, obs, b, b', h1, h2, h3, h4, h5⟩ :=
    sample_idle (bytes := lost ++ msgBytes (.zoneChange ⟨⟨1⟩, ⟨9⟩⟩)) (n := 2) (by decide +kernel)
  have hw : WfMessage (.zoneChange ⟨⟨2⟩, ⟨1⟩⟩) := ⟨⟨by decide, by decide⟩, by unfold WfZoneStatus; decide⟩
  have hf : ∀ s ∈ [sent], s.Fine := by
    intro s hs
    rw [List.mem_singleton] at hs
    subst hs
    exact ⟨⟨⟨by decide, by decide⟩, by unfold WfZoneStatus; decide⟩, (by intro b hb; cases hb), (by intro i v hv; cases hv)⟩
  have hl0 : Latest (samplePanel [.data (lost ++ msgBytes (.zoneChange ⟨⟨1⟩, ⟨9⟩⟩))])
      (sameReport .disarmed .readyToArm) := .inl ⟨rfl, rfl⟩
  obtain ⟨r1, _, g1⟩ := h (samplePanel_connected _) (samplePanel_view _) sampleCfg_map
    sampleCfg_distinct h1 hl0 rfl h2 h3 h4 h5 hw (i := 2) (by decide) (by decide) hf (by decide +kernel)
  obtain ⟨⟨r2, _, g2⟩, _⟩ := C92_deaf (samplePanel_connected _) (samplePanel_view _) sampleCfg_map
    sampleCfg_distinct h1 hl0 rfl h2 h3 h4 h5 (ss := []) (by intro s hs; cases hs) hw (i := 2)
    (by decide) (by decide) (cs := [⟨⟨1⟩, ⟨9⟩⟩]) (by decide) (by decide +kernel)
  obtain ⟨i, hi, e1⟩ := g1.zones (1, ⟨bs "door", bs "door"⟩) (by decide)
  obtain ⟨j, hj, e2⟩ := g2.zones (1, ⟨bs "door", bs "door"⟩) (by decide)
  have hi0 : i = ⟨0, by decide⟩ := Fin.ext (by simpa using hi.symm)
  have hj0 : j = ⟨0, by decide⟩ := Fin.ext (by simpa using hj.symm)
  rw [e2, hi0, hj0] at e1
  have := congrArg textOf e1
  revert this
  decide +kernel

end Elk.Props
