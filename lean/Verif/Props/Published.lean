import Verif.Lemmas.JsonMeans
import Verif.Props.JsonSize
import Verif.Props.ConfigText
import Verif.Props.Main
/-!
# What is published is JSON (C116)

C99 reads published text with a reader that was written for the purpose.  Here the text is held against
the grammar of RFC 8259 (Spec/JsonGrammar.lean), and all that is published is UTF-8.
-/

namespace Elk.Props
open Elk.Spec Elk.Spec.Rfc

/-! ## C116: values -/

/-- **C116** What `to_string_pretty` writes of a value with texts in it is, by RFC 8259, a JSON text that
says this value. -/
theorem C116_value {j : Json} (h : Textual j) : JsonFor j j.toStringPretty := by
  obtain ⟨d, h1, h2⟩ := pretty_value 0 j h
  exact ⟨d, ⟨[], _, [], ws_nil, h1, ws_nil, by rw [List.nil_append, List.append_nil]; rfl⟩, h2⟩

/-- **C116** A text says at most one thing. -/
theorem C116_unique {j j' : Json} {s : Bytes} (h : JsonFor j s) (h' : JsonFor j' s) : j = j' := by
  obtain ⟨d, h1, h2⟩ := h
  obtain ⟨d', h1', h2'⟩ := h'
  rw [C115_unambiguous h1 h1'] at h2
  exact means_unique h2 h2'

/-! ## C116: what the bridge publishes -/

theorem utf8_part {p : AsciiPacket} (hv : ValidAsciiBody p.body) {s : Bytes} (h : ∀ b ∈ s, b ∈ p.body) :
    Utf8 s :=
  utf8_of_ascii fun b hb => by
    have := (hv.2.2 b (h b hb)).2
    omega

theorem utf8_num' (n : Nat) : Utf8 (num n) := by rw [← decStr_num]; exact utf8_num n

theorem utf8_listed (l : Bytes) : Utf8 (listed l) := by
  rw [← debugBytes_listed]
  have elems : ∀ l, Utf8 (debugElems l) := by
    intro l
    induction l with
    | nil => exact utf8_lit rfl
    | cons b l ih =>
      rw [debugElems]
      exact utf8_append (utf8_append (utf8_lit (by decide +kernel)) (utf8_num _)) ih
  cases l with
  | nil => exact utf8_lit (by decide +kernel)
  | cons b l =>
    rw [debugBytes]
    exact utf8_append (utf8_append (utf8_append (utf8_lit (by decide +kernel)) (utf8_num _)) (elems l))
      (utf8_lit (by decide +kernel))

theorem utf8_quoted {b : UInt8} (h : b.toNat < 128) : Utf8 (quoted b) := by
  apply utf8_of_ascii
  unfold quoted
  split <;> simp <;> simp [h] <;> decide

theorem hexDigit_ascii {n : Nat} (h : n < 16) : (hexDigit n).toNat < 128 := by
  have : ∀ n : Fin 16, (hexDigit n.val).toNat < 128 := by decide
  exact this ⟨n, h⟩

theorem hex2_ascii {n : Nat} (h : n < 256) : ∀ b ∈ hex2 n, b.toNat < 128 := by
  intro b hb
  unfold hex2 at hb
  simp only [List.mem_cons, List.not_mem_nil, or_false] at hb
  rcases hb with rfl | rfl <;> exact hexDigit_ascii (by omega)

theorem hexText_ascii {n : Nat} (h : n < 65536) : ∀ b ∈ hexText n, b.toNat < 128 := by
  intro b hb
  unfold hexText at hb
  rcases List.mem_append.mp hb with hb | hb
  · rcases List.mem_append.mp hb with hb | hb
    · split at hb
      · rw [List.mem_singleton.mp hb]; exact hexDigit_ascii (by omega)
      · cases hb
    · split at hb
      · rw [List.mem_singleton.mp hb]; exact hexDigit_ascii (by omega)
      · cases hb
  · exact hex2_ascii (by omega) b hb

theorem utf8_complaint {cmd data e : Bytes} (hd : ∀ b ∈ data, b.toNat < 128)
    (h : Complains cmd data e) : Utf8 e := by
  have lit : ∀ s : Bytes, asciiOnly s = true → Utf8 s := fun _ => utf8_lit
  have at' : ∀ {i : Nat} {b : UInt8}, data[i]? = some b → b.toNat < 128 :=
    fun h => hd _ (List.mem_of_getElem? h)
  cases h with
  | few need n =>
    exact utf8_append (utf8_append (utf8_append (lit _ (by decide +kernel)) (utf8_num' _))
      (lit _ (by decide +kernel))) (utf8_num' _)
  | fewArm l => exact utf8_append (lit _ (by decide +kernel)) (utf8_num' _)
  | number name i n hn =>
    refine utf8_append (utf8_append ?_ (lit _ (by decide +kernel))) (utf8_listed _)
    cases hn <;> exact lit _ (by decide +kernel)
  | range i n max v =>
    exact utf8_append (utf8_append (utf8_append (utf8_num' _) (lit _ (by decide +kernel)))
      (utf8_num' _)) (lit _ (by decide +kernel))
  | clock name i lo hi v _ hn => cases hn <;> exact lit _ (by decide +kernel)
  | letter name i letters b hn hb =>
    refine utf8_append (utf8_append (utf8_append (lit _ (by decide +kernel)) ?_)
      (lit _ (by decide +kernel))) (utf8_quoted (at' hb))
    cases hn <;> exact lit _ (by decide +kernel)
  | type v => exact utf8_append (lit _ (by decide +kernel)) (utf8_num' _)
  | timerArea b => exact utf8_append (lit _ (by decide +kernel)) (utf8_num' _)
  | zone i b _ hb => exact utf8_append (lit _ (by decide +kernel)) (utf8_quoted (at' hb))
  | _ => exact lit _ (by decide +kernel)

theorem utf8_error {p : AsciiPacket} (hv : ValidAsciiBody p.body) {e : Bytes}
    (h : Message.parse (.ascii p) = .error (.err e)) : Utf8 e := by
  by_cases hs : p.body.take 2 = bs "SD" ∧ 7 ≤ p.body.length ∧ p.body.length < 23
  · rw [C103_text hs.1 hs.2.1 hs.2.2] at h
    cases h
    exact utf8_append (utf8_lit (by decide +kernel)) (utf8_num' _)
  · refine utf8_complaint ?_ (C103_true_partial hv h hs)
    intro b hb
    have := (hv.2.2 b (List.mem_of_mem_drop hb)).2
    omega

theorem utf8_diagnosis {raw rest text : Bytes} (h : Diagnosis raw rest text) : Utf8 text := by
  have lit : ∀ s : Bytes, asciiOnly s = true → Utf8 s := fun _ => utf8_lit
  cases h with
  | ascii n r _ _ _ _ hd =>
    cases hd with
    | sum d c =>
      exact utf8_append (lit _ (by decide +kernel)) (utf8_of_ascii (hex2_ascii (by unfold checkOf; omega)))
    | letter n body i b => exact utf8_append (lit _ (by decide +kernel)) (utf8_num' _)
    | _ => exact lit _ (by decide +kernel)
  | crc d hi lo => exact utf8_append (lit _ (by decide +kernel)) (utf8_of_ascii (hexText_ascii (crc16_lt d)))
  | dle d c r =>
    exact utf8_append (lit _ (by decide +kernel)) (utf8_of_ascii (hex2_ascii c.toNat_lt))
  | _ => exact lit _ (by decide +kernel)

theorem textual_option {α : Type} {f : α → P Json} {o : Option α} {j : Json}
    (h : Json.ofOption f o = .ok j) (hf : ∀ a, o = some a → ∀ j, f a = .ok j → Textual j) :
    Textual j := by
  cases o with
  | none => cases h; rw [Textual]; trivial
  | some a => exact hf a rfl j h

/-- The events there are have only texts in them. -/
theorem textual_event {e : Event} {j : Json} (h : e.serialize = .ok j) (hs : Shape e) : Textual j := by
  obtain ⟨jp, jm, jc, jx, h1, h2, h3, h4, rfl⟩ := event_serialize_cases h
  have t1 : Textual jp := by
    refine textual_option h1 fun p hp j hj => ?_
    cases hj
    unfold Packet.serialize
    rcases hs with ⟨g, _⟩ | ⟨q, g, hv, _⟩ | ⟨_, _, _, ⟨q, g⟩ | ⟨q, g, _, hd⟩⟩
    · rw [g] at hp; cases hp
    · rw [g] at hp; cases hp
      have := utf8_part hv (fun _ h => h)
      dsimp only
      textual
    · rw [g] at hp; cases hp
      have := textual_bytes q.body
      dsimp only
      textual
    · rw [g] at hp; cases hp
      have := textual_bytes q.raw
      have := utf8_diagnosis hd
      dsimp only
      textual
  have t2 : Textual jm := by
    refine textual_option h2 fun r hr j hj => ?_
    rcases serializeResult_cases hj with ⟨m, j', _, hm, rfl⟩ | ⟨x, hx, rfl⟩
    · have := textual_message hm
      textual
    · have : Utf8 x := by
        rw [hx] at hr
        rcases hs with ⟨_, g, _⟩ | ⟨p, _, hv, hp⟩ | ⟨g, _⟩
        · rw [g] at hr; cases hr
        · exact utf8_error hv (hp x hr)
        · rw [g] at hr; cases hr
      textual
  have t3 : Textual jc := textual_option h3 fun m _ j hj => textual_message hj
  have t4 : Textual jx := textual_option h4 fun c _ j hj => by cases hj; exact textual_change c
  textual

theorem utf8_prefix {cfg : Cfg} (h : TextCfg cfg) : Utf8 cfg.prefix := by
  unfold Cfg.prefix
  split
  · rename_i p hp; exact h.topicPrefix p hp
  · exact utf8_append (utf8_lit (by decide +kernel)) h.serial

theorem textual_device {serial : Bytes} (h : Utf8 serial) : Textual (deviceConfig serial) := by
  unfold deviceConfig
  textual

theorem discovery_legible {cfg : Cfg} (h : TextCfg cfg) : ∀ m ∈ discoveryLog cfg, Legible m := by
  have lit : ∀ s : Bytes, asciiOnly s = true → Utf8 s := fun _ => utf8_lit
  intro m hm
  unfold discoveryLog at hm
  split at hm
  · rename_i ha hha
    have l1 := h.ha ha hha
    have l2 := utf8_prefix h
    have l3 := h.serial
    have l4 := textual_device l3
    have t1 : Utf8 (availabilityTopic cfg.prefix) := utf8_append l2 (lit _ (by decide +kernel))
    unfold discoveryMsgs at hm
    rcases List.mem_append.mp hm with hm | hm <;> obtain ⟨a, ham, rfl⟩ := List.mem_map.mp hm
    · have l5 := h.areas a ham
      have t2 : Utf8 (areaStateTopic cfg.prefix a.2.name) :=
        utf8_append (utf8_append (utf8_append l2 (lit _ (by decide +kernel))) l5)
          (lit _ (by decide +kernel))
      have t3 : Utf8 (areaCommandTopic cfg.prefix a.2.name) :=
        utf8_append (utf8_append (utf8_append l2 (lit _ (by decide +kernel))) l5)
          (lit _ (by decide +kernel))
      have t4 : Utf8 (areaUniqueId cfg.elk.serialNumber a.1) :=
        utf8_append (utf8_append (utf8_append (lit _ (by decide +kernel)) l3)
          (lit _ (by decide +kernel))) (utf8_num _)
      refine ⟨utf8_append (utf8_append (utf8_append l1 (lit _ (by decide +kernel))) t4)
        (lit _ (by decide +kernel)), C116_value ?_⟩
      simp only [alarmPanelConfig, Textual, TextualFields]
      exact ⟨lit _ (by decide +kernel), t1, lit _ (by decide +kernel), t2, lit _ (by decide +kernel), t3,
        lit _ (by decide +kernel), t4, lit _ (by decide +kernel), l5, lit _ (by decide +kernel), l4,
        trivial⟩
    · obtain ⟨l5, l7⟩ := h.zones a ham
      have t2 : Utf8 (zoneStateTopic cfg.prefix a.2.name) :=
        utf8_append (utf8_append (utf8_append l2 (lit _ (by decide +kernel))) l5)
          (lit _ (by decide +kernel))
      have t4 : Utf8 (zoneUniqueId cfg.elk.serialNumber a.1) :=
        utf8_append (utf8_append (utf8_append (lit _ (by decide +kernel)) l3)
          (lit _ (by decide +kernel))) (utf8_num _)
      refine ⟨utf8_append (utf8_append (utf8_append l1 (lit _ (by decide +kernel))) t4)
        (lit _ (by decide +kernel)), C116_value ?_⟩
      simp only [binarySensorConfig, Textual, TextualFields]
      exact ⟨lit _ (by decide +kernel), t1, lit _ (by decide +kernel), t2, lit _ (by decide +kernel), t4,
        lit _ (by decide +kernel), l5, lit _ (by decide +kernel), l4, lit _ (by decide +kernel), l7,
        trivial⟩
  · cases hm

theorem state_legible {cfg : Cfg} (h : TextCfg cfg) {m : Published}
    (hx : ∃ x, m.payload = .text x ∧ x.length ≤ 20 ∧ ∀ b ∈ x, b.toNat < 128)
    (ht : (∃ a ∈ cfg.elk.areas, m.topic = areaStateTopic cfg.prefix a.2.name) ∨
      (∃ a ∈ cfg.elk.zones, m.topic = zoneStateTopic cfg.prefix a.2.name) ∨
      m.topic = availabilityTopic cfg.prefix) : Legible m := by
  have lit : ∀ s : Bytes, asciiOnly s = true → Utf8 s := fun _ => utf8_lit
  have l2 := utf8_prefix h
  obtain ⟨x, hx, _, hl⟩ := hx
  unfold Legible
  rw [hx]
  refine ⟨?_, utf8_of_ascii hl⟩
  rcases ht with ⟨a, ha, hm⟩ | ⟨a, ha, hm⟩ | hm
  · rw [hm]
    exact utf8_append (utf8_append (utf8_append l2 (lit _ (by decide +kernel))) (h.areas a ha))
      (lit _ (by decide +kernel))
  · rw [hm]
    exact utf8_append (utf8_append (utf8_append l2 (lit _ (by decide +kernel))) (h.zones a ha).1)
      (lit _ (by decide +kernel))
  · rw [hm]; exact utf8_append l2 (lit _ (by decide +kernel))

/-- **C116** Everything the bridge ever publishes can be read: topics and texts are UTF-8, and what is
published as JSON is, by RFC 8259, JSON that says what was to be said. -/
theorem C116_legible {cfg : Cfg} (ht : TextCfg cfg) {p0 : Panel} (hc : Connected p0) (hw : WfView p0)
    {b0 : Bridge} (hs : Bridge.start cfg p0 = .ok b0) {ops : List BOp}
    {obs : List BObs} {b : Bridge} (hr : Bridge.run ops b0 = .ok (obs, b)) :
    ∀ m ∈ b.log, Legible m := by
  intro m hm
  have hg := start_good_bridge hc hw hs
  have hh := bhist_of_run hr
  obtain ⟨e1, _, _⟩ := start_no_event hc hw hs
  rw [(bhist_static hh).2.2.2] at hm
  rcases List.mem_append.mp hm with hm | hm
  · obtain ⟨r, hr⟩ := hc.arming
    obtain ⟨z, hz⟩ := hc.zones
    obtain ⟨_, code, _, rfl⟩ := (start_iff hr hz (hw z hz)).mp hs
    rcases List.mem_append.mp hm with hm | hm
    · rcases List.mem_append.mp hm with hm | hm
      · rcases List.mem_append.mp hm with hm | hm
        · exact discovery_legible ht m hm
        · obtain ⟨a, ha, rfl⟩ := List.mem_map.mp hm
          exact state_legible ht ⟨_, rfl, areaText_le _ _⟩ (.inl ⟨a, ha, rfl⟩)
      · obtain ⟨a, ha, rfl⟩ := List.mem_map.mp hm
        exact state_legible ht ⟨_, rfl, zoneText_le _⟩ (.inr (.inl ⟨a, ha, rfl⟩))
    · rw [List.mem_singleton.mp hm]
      exact state_legible ht ⟨_, rfl, by decide, by decide⟩ (.inr (.inr rfl))
  · have := published_kinds hh hg m hm
    rw [e1] at this
    rcases this with ⟨e, he, j, hj, hsh, rfl⟩ | ⟨hx, h⟩
    · exact ⟨utf8_append (utf8_prefix ht) (utf8_lit (by decide +kernel)),
        C116_value (textual_event hj hsh)⟩
    · exact state_legible ht hx (by
        rcases h with h | h
        · exact .inl h
        · exact .inr (.inl h))

/-- **C116** A configuration that was read from a file has only UTF-8 in it. -/
theorem C116_config {d : Doc} {s : Setup} (h : Describes d s) : TextCfg s.cfg := by
  have field : ∀ {fields d k t}, TextField fields d k t → Utf8 t := by
    rintro fields d k t ⟨raw, _, h⟩
    exact h.2
  have opt : ∀ {fields d k o}, OptText fields d k o → ∀ p, o = some p → Utf8 p := by
    rintro fields d k o h p rfl
    cases h with
    | given _ h => exact field h
  obtain ⟨elk, mqtt, _, he, _, hm⟩ := h
  obtain ⟨_, _, ha⟩ := he.areas
  obtain ⟨_, _, hz⟩ := he.zones
  obtain ⟨_, _, _, ha⟩ := ha.entries
  obtain ⟨_, _, _, hz⟩ := hz.entries
  refine ⟨field he.serial, opt hm.topicPrefix, opt hm.discovery, ?_, ?_⟩
  · intro a h
    obtain ⟨_, _, _, _, h, _⟩ := (ha a.1 a.2).mp h
    exact field h
  · intro a h
    obtain ⟨_, _, _, _, h, _⟩ := (hz a.1 a.2).mp h
    exact ⟨field h.1, field h.2⟩

/-- What is at the broker, and what is to be transmitted, can be read. -/
structure LegibleSite (s : Site) : Prop where
  broker : ∀ m ∈ s.broker, Legible m
  queue : ∀ m ∈ s.queue, Legible m
  prog : ∀ p, s.prog = some p → TextCfg p.setup.cfg

theorem will_legible {s : Setup} (h : TextCfg s.cfg) : Legible s.will :=
  ⟨utf8_append (utf8_prefix h) (utf8_lit (by decide +kernel)), utf8_lit (by decide +kernel)⟩

theorem die_legible {s : Site} (hl : LegibleSite s) {p : Prog} (hp : s.prog = some p) :
    LegibleSite (s.die p) := by
  refine ⟨?_, (fun _ h => nomatch h), (fun _ h => nomatch h)⟩
  intro m hm
  rcases List.mem_append.mp hm with hm | hm
  · exact hl.broker m hm
  · split at hm
    · rw [List.mem_singleton.mp hm]; exact will_legible (hl.prog p hp)
    · cases hm

theorem site_legible {s : Site} (hg : SiteGood s) (hl : LegibleSite s) (op : SOp) :
    LegibleSite (s.step op) := by
  match op with
  | .launch args file =>
    unfold Site.step
    dsimp only
    split
    · rename_i p hp hm
      refine ⟨hl.broker, (fun _ h => nomatch h), ?_⟩
      rintro q hq
      cases hq
      obtain ⟨_, _, d, c, _, _, _, h, _, rfl⟩ := (C78_main _ _ _).mp hm
      exact C116_config (C77_sound h)
    · exact hl
  | .prog op =>
    unfold Site.step
    dsimp only
    split
    · exact hl
    · rename_i p hp
      split
      · rename_i out p' hs
        obtain ⟨_, old, sent, _, _, hpg, _⟩ := hg.busy p hp
        obtain ⟨h1, h2⟩ := prog_good hpg hs
        have ht : TextCfg p'.setup.cfg := by rw [h2]; exact hl.prog p hp
        refine ⟨hl.broker, ?_, (fun q hq => by cases hq; exact ht)⟩
        intro m hm
        rcases List.mem_append.mp hm with hm | hm
        · exact hl.queue m hm
        · have hm' : m ∈ sent ++ s.queue ++ out := List.mem_append_right _ hm
          generalize sent ++ s.queue ++ out = all at h1 hm'
          clear hm hs h2
          match p', h1, ht with
          | .dialing _, h1, _ => rw [show all = [] from h1] at hm'; cases hm'
          | .connecting _ _, h1, _ => rw [h1.1] at hm'; cases hm'
          | .running c b, h1, ht =>
            obtain ⟨h1, p0, b0, ops, obs, hc, hw, hs, hr⟩ := h1
            rw [h1] at hm'
            exact C116_legible ht hc hw hs hr m hm'
      · exact die_legible hl hp
  | .link =>
    unfold Site.step
    dsimp only
    split
    · exact ⟨hl.broker, hl.queue, hl.prog⟩
    · exact hl
  | .transmit =>
    unfold Site.step
    dsimp only
    split
    · rename_i m queue _ hq
      refine ⟨?_, fun x hx => hl.queue x (by rw [hq]; exact List.mem_cons_of_mem _ hx), hl.prog⟩
      intro x hx
      rcases List.mem_append.mp hx with hx | hx
      · exact hl.broker x hx
      · rw [List.mem_singleton.mp hx]; exact hl.queue m (by rw [hq]; exact List.mem_cons_self)
    · exact hl
  | .unlink =>
    unfold Site.step
    dsimp only
    split
    · exact hl
    · rename_i p hp; exact die_legible hl hp
  | .kill =>
    unfold Site.step
    dsimp only
    split
    · exact hl
    · rename_i p hp; exact die_legible hl hp

/-- **C116** Whatever the files with which the program is started and restarted, and however it ends:
everything the broker ever gets from it can be read. -/
theorem C116_broker {s0 : Site} (h0 : Initial s0) (hb : ∀ m ∈ s0.broker, Legible m) (ops : List SOp) :
    ∀ m ∈ (Site.run ops s0).broker, Legible m := by
  have key : ∀ (ops : List SOp) (s : Site), SiteGood s → LegibleSite s →
      LegibleSite (Site.run ops s) := by
    intro ops
    induction ops with
    | nil => intro s _ h; exact h
    | cons op ops ih => intro s hg h; exact ih _ (site_good hg op) (site_legible hg h op)
  refine (key ops s0 (initial_good h0) ⟨hb, ?_, ?_⟩).broker
  · rw [h0.queue]; exact fun _ h => nomatch h
  · rw [h0.prog]; exact fun _ h => nomatch h

/-- Non-vacuity: a run of the program after which the broker has seven messages. -/
example : (Site.run (sampleLife sampleFile 7) sampleSite).broker.length = 7 ∧
    ∀ m ∈ (Site.run (sampleLife sampleFile 7) sampleSite).broker, Legible m :=
  ⟨by decide +kernel, C116_broker sampleSite_initial (fun _ h => nomatch h) _⟩

/-- Non-vacuity: a document of the sample is JSON. -/
example : TextCfg sampleSetup.cfg ∧ JsonFor (alarmPanelConfig (bs "elkm1/42") (bs "42") 1 ⟨bs "home"⟩)
    (alarmPanelConfig (bs "elkm1/42") (bs "42") 1 ⟨bs "home"⟩).toStringPretty := by
  obtain ⟨d, _, h⟩ := C115_sample
  have ht := C116_config h
  refine ⟨ht, ?_⟩
  exact (discovery_legible ht ⟨bs "homeassistant/alarm_control_panel/elk-42-area-1/config", true,
    .json (alarmPanelConfig (bs "elkm1/42") (bs "42") 1 ⟨bs "home"⟩)⟩
    (List.mem_cons_self)).2

end Elk.Props
