import Verif.Lemmas.Legible
import Verif.Props.Published
import Verif.Props.Objection
import Verif.Props.Debug
import Verif.Spec.Machine
/-!
# Lemmas: what is shown of packets, messages and events is legible
-/

namespace Elk
open Elk.Spec Elk.Props

/-! ## Texts of errors -/

theorem narrow_num (n : Nat) : Narrow (num n) := by
  rw [← decStr_num]; exact narrow_printable (decStr_printable n)

theorem narrow_listed (l : Bytes) : Narrow (listed l) := by
  rw [← debugBytes_listed]
  have dec : ∀ n, Narrow (decStr n) := fun n => narrow_printable (decStr_printable n)
  have elems : ∀ l, Narrow (debugElems l) := by
    intro l
    induction l with
    | nil => exact nofun
    | cons b l ih =>
      rw [debugElems]
      exact narrow_append.mpr ⟨narrow_append.mpr ⟨by decide +kernel, dec _⟩, ih⟩
  cases l with
  | nil => decide +kernel
  | cons b l =>
    rw [debugBytes]
    exact narrow_append.mpr ⟨narrow_append.mpr ⟨narrow_append.mpr ⟨by decide +kernel, dec _⟩, elems l⟩,
      by decide +kernel⟩

theorem narrow_quoted {b : UInt8} (h : b.toNat < 128) : Narrow (quoted b) := by
  unfold quoted Narrow
  split <;> simp <;> simp [h] <;> decide

theorem narrow_complaint {cmd data e : Bytes} (hd : ∀ b ∈ data, b.toNat < 128)
    (h : Complains cmd data e) : Narrow e := by
  have at' : ∀ {i : Nat} {b : UInt8}, data[i]? = some b → b.toNat < 128 :=
    fun h => hd _ (List.mem_of_getElem? h)
  have app : ∀ {a b : Bytes}, Narrow a → Narrow b → Narrow (a ++ b) := fun h h' => narrow_append.mpr ⟨h, h'⟩
  cases h with
  | few need n => exact app (app (app (by decide +kernel) (narrow_num _)) (by decide +kernel)) (narrow_num _)
  | fewArm l => exact app (by decide +kernel) (narrow_num _)
  | number name i n hn =>
    refine app (app ?_ (by decide +kernel)) (narrow_listed _)
    cases hn <;> decide +kernel
  | range i n max v =>
    exact app (app (app (narrow_num _) (by decide +kernel)) (narrow_num _)) (by decide +kernel)
  | clock name i lo hi v _ hn => cases hn <;> decide +kernel
  | letter name i letters b hn hb =>
    refine app (app (app (by decide +kernel) ?_) (by decide +kernel)) (narrow_quoted (at' hb))
    cases hn <;> decide +kernel
  | type v => exact app (by decide +kernel) (narrow_num _)
  | timerArea b => exact app (by decide +kernel) (narrow_num _)
  | zone i b _ hb => exact app (by decide +kernel) (narrow_quoted (at' hb))
  | _ => decide +kernel

theorem narrow_error {body : Bytes} (hv : ValidAsciiBody body) {e : Bytes} (h : Objects body e) :
    Narrow e := by
  have h := (C137_text (p := ⟨body⟩) hv).mpr h
  by_cases hs : body.take 2 = bs "SD" ∧ 7 ≤ body.length ∧ body.length < 23
  · rw [C103_text (p := ⟨body⟩) hs.1 hs.2.1 hs.2.2] at h
    cases h
    exact narrow_append.mpr ⟨by decide +kernel, narrow_num _⟩
  · refine narrow_complaint ?_ (C103_true_partial (p := ⟨body⟩) hv h hs)
    intro b hb
    have := (hv.2.2 b (List.mem_of_mem_drop hb)).2
    omega

theorem narrow_diagnosis {raw rest text : Bytes} (h : Diagnosis raw rest text) : Narrow text := by
  have app : ∀ {a b : Bytes}, Narrow a → Narrow b → Narrow (a ++ b) := fun h h' => narrow_append.mpr ⟨h, h'⟩
  cases h with
  | ascii n r _ _ _ _ hd =>
    cases hd with
    | sum d c => exact app (by decide +kernel) (hex2_ascii (by unfold checkOf; omega))
    | letter n body i b => exact app (by decide +kernel) (narrow_num _)
    | _ => decide +kernel
  | crc d hi lo => exact app (by decide +kernel) (hexText_ascii (crc16_lt d))
  | dle d c r => exact app (by decide +kernel) (hex2_ascii c.toNat_lt)
  | _ => decide +kernel

/-! ## Packets -/

theorem str_ascii {t : Bytes} (h : Narrow t) : (Dbg.str t).Ascii := by rw [Dbg.Ascii]; exact h

theorem hex_ascii (t : Bytes) : (Dbg.hex t).Ascii := by rw [Dbg.Ascii]; trivial

theorem body_narrow {body : Bytes} (h : ValidAsciiBody body) : Narrow body := narrow_printable h.2.2

theorem packet_ascii {src rest : Bytes} {p : Packet} (h : Front src (some p) rest) : p.debug.Ascii := by
  cases h with
  | packet _ _ hv =>
    cases p with
    | ascii p => exact wrap_ascii (wrap_ascii (str_ascii (body_narrow hv)))
    | rp p => exact wrap_ascii (wrap_ascii (hex_ascii _))
    | invalid p => exact hv.elim
  | invalid raw _ text _ hd =>
    refine wrap_ascii (struct_ascii ?_)
    simp only [List.mem_cons, List.not_mem_nil, or_false]
    rintro f (rfl | rfl)
    · exact str_ascii (narrow_diagnosis hd)
    · exact hex_ascii _

theorem packet_legible {src rest : Bytes} {p : Packet} (h : Front src (some p) rest) :
    Legible p.debug.text := text_legible _ (packet_shown p) (packet_ascii h)

theorem sent_legible {m : Message} (h : WfMessage m) : Legible (Packet.ascii ⟨sentText m⟩).debug.text :=
  text_legible _ (packet_shown _) (wrap_ascii (wrap_ascii (str_ascii (body_narrow (sentText_valid h)))))

/-! ## Messages -/

theorem rtc_ascii (r : RtcData) : r.debug.Ascii := by
  unfold RtcData.debug
  refine struct_ascii ?_
  simp only [List.mem_cons, List.not_mem_nil, or_false]
  rintro f (rfl | rfl | rfl | rfl | rfl)
  · refine str_ascii (narrow_printable ?_)
    unfold DateTime.toIso8601
    simp only [List.mem_append]
    rintro b (((((((((((h | h) | h) | h) | h) | h) | h) | h) | h) | h) | h) | h)
    all_goals first
      | exact padDec_printable _ _ b h
      | (revert b; decide +kernel)
  all_goals exact word_ascii _

theorem single_ascii {name k : String} {x : Dbg} (hx : x.Ascii) : (Dbg.struct name [(k, x)]).Ascii :=
  struct_ascii fun f hf => by rw [List.mem_singleton.mp hf]; exact hx

theorem message_ascii {m : Message} (hm : WfMessage m) {d : Dbg} (h : m.debug = .ok d) : d.Ascii := by
  cases m with
  | armRequest m =>
    unfold Message.debug ArmRequest.debug at h
    dsimp only at h
    rw [code_ok hm.2] at h
    cases h
    refine wrap_ascii (struct_ascii ?_)
    simp only [List.mem_cons, List.not_mem_nil, or_false]
    rintro f (rfl | rfl | rfl)
    · exact word_ascii _
    · exact variant_ascii _
    · refine str_ascii fun b hb => ?_
      have := hm.2 b hb
      unfold IsDigit at this
      omega
  | armingStatusRequest => cases h; exact wrap_ascii (word_ascii _)
  | armingStatusReport m => cases h; exact wrap_ascii (asr_ascii m)
  | sendTimeData m =>
    cases h
    refine wrap_ascii (struct_ascii ?_)
    simp only [List.mem_cons, List.not_mem_nil, or_false]
    rintro f (rfl | rfl | rfl | rfl | rfl)
    · exact word_ascii _
    · exact variant_ascii _
    · exact word_ascii _
    · exact word_ascii _
    · dsimp only
      split
      · exact word_ascii _
      · exact wrap_ascii (variant_ascii _)
  | sendCode m =>
    cases h
    refine wrap_ascii (struct_ascii ?_)
    simp only [List.mem_cons, List.not_mem_nil, or_false]
    rintro f (rfl | rfl | rfl)
    · exact arr_ascii (fun _ => word_ascii _) _
    · exact word_ascii _
    · exact word_ascii _
  | rtcRequest => cases h; exact wrap_ascii (word_ascii _)
  | rtcResponse r => cases h; exact wrap_ascii (single_ascii (rtc_ascii r))
  | stringDescriptionRequest m =>
    cases h
    refine wrap_ascii (struct_ascii ?_)
    simp only [List.mem_cons, List.not_mem_nil, or_false]
    rintro f (rfl | rfl)
    · exact variant_ascii _
    · exact word_ascii _
  | stringDescriptionResponse m =>
    have hm : WfText m.text := hm
    unfold Message.debug StringDescriptionResponse.debug TextDescription.debug at h
    dsimp only at h
    rw [asStr_wf hm] at h
    cases h
    refine wrap_ascii (struct_ascii ?_)
    simp only [List.mem_cons, List.not_mem_nil, or_false]
    rintro f (rfl | rfl | rfl)
    · exact variant_ascii _
    · exact word_ascii _
    · refine str_ascii (narrow_printable fun b hb => hm b ?_)
      unfold trimEndSpaces at hb
      exact List.mem_reverse.mp ((List.dropWhile_suffix _).mem (List.mem_reverse.mp hb))
  | activateTask t => cases h; exact wrap_ascii (single_ascii (word_ascii _))
  | taskChange t => cases h; exact wrap_ascii (single_ascii (word_ascii _))
  | heartbeat r => cases h; exact wrap_ascii (single_ascii (rtc_ascii r))
  | zoneChange m =>
    unfold Message.debug ZoneChange.debug at h
    obtain ⟨x, hx, h⟩ := P_bind_ok.mp h
    obtain ⟨y, hy, hx⟩ := P_bind_ok.mp hx
    cases hx
    cases h
    refine wrap_ascii (struct_ascii ?_)
    simp only [List.mem_cons, List.not_mem_nil, or_false]
    rintro f (rfl | rfl)
    · exact word_ascii _
    · exact zone_ascii hy
  | zoneStatusRequest => cases h; exact wrap_ascii (word_ascii _)
  | zoneStatusReport m =>
    unfold Message.debug ZoneStatusReport.debug at h
    obtain ⟨x, hx, h⟩ := P_bind_ok.mp h
    obtain ⟨y, hy, hx⟩ := P_bind_ok.mp hx
    cases hx
    cases h
    refine wrap_ascii ?_
    rw [Dbg.Ascii]
    exact zones_ascii hy

theorem message_fine {m : Message} (hm : WfMessage m) {d : Dbg} (h : m.debug = .ok d) : d.Fine := by
  obtain ⟨d', h1, h2⟩ := message_shown hm
  rw [h] at h1
  cases h1
  exact h2

theorem message_legible {m : Message} (hm : WfMessage m) {d : Dbg} (h : m.debug = .ok d) :
    Legible d.text := text_legible d (message_fine hm h) (message_ascii hm h)

theorem asr_legible (m : ArmingStatusReport) : Legible m.debug.text :=
  text_legible _ (asr_fine m) (asr_ascii m)

/-! ## Events -/

/-- What there is to know of an event. -/
structure SoundEvent (ev : Event) : Prop where
  pkt : ∀ p, ev.pkt = some p → p.debug.Ascii
  msg : ∀ m, ev.msg = some (.ok m) → WfMessage m
  err : ∀ e, ev.msg = some (.error e) → Narrow e
  completes : ∀ m, ev.completes = some m → WfMessage m

theorem opt_ascii {α : Type} {f : α → P Dbg} {o : Option α} {d : Dbg} (h : Dbg.opt f o = .ok d)
    (hf : ∀ a x, o = some a → f a = .ok x → x.Fine ∧ x.Ascii) : d.Fine ∧ d.Ascii := by
  cases o with
  | none =>
    cases h
    refine ⟨?_, word_ascii _⟩
    show Dbg.Fine (.word _)
    rw [Dbg.Fine]
    decide
  | some a =>
    unfold Dbg.opt at h
    obtain ⟨x, hx, h⟩ := P_bind_ok.mp h
    cases h
    obtain ⟨h1, h2⟩ := hf a x rfl hx
    exact ⟨wrap_fine (by decide) h1, wrap_ascii h2⟩

theorem zone_tuple_fine {s : ZoneStatus} {d : Dbg} (h : s.debugTree = .ok d) : d.Fine := by
  unfold ZoneStatus.debugTree at h
  obtain ⟨_, _, h⟩ := P_bind_ok.mp h
  cases h
  rw [Dbg.Fine, Dbg.FineItems, Dbg.FineItems, Dbg.FineItems]
  exact ⟨by decide, by simp, variant_fine _, variant_fine _, trivial⟩

theorem event_legible {ev : Event} (hs : SoundEvent ev) {d : Dbg} (h : ev.debug = .ok d) : Legible d.text := by
  unfold Event.debug at h
  obtain ⟨x1, h1, h⟩ := P_bind_ok.mp h
  obtain ⟨x2, h2, h⟩ := P_bind_ok.mp h
  obtain ⟨x3, h3, h⟩ := P_bind_ok.mp h
  obtain ⟨x4, h4, h⟩ := P_bind_ok.mp h
  cases h
  have g1 := opt_ascii h1 fun p x hp hx => by
    cases hx
    exact ⟨packet_shown p, hs.pkt p hp⟩
  have g2 := opt_ascii h2 fun r x hr hx => by
    cases r with
    | error e =>
      cases hx
      exact ⟨wrap_fine (by decide) (wrap_fine (by decide) (str_fine _)),
        wrap_ascii (wrap_ascii (str_ascii (hs.err e hr)))⟩
    | ok m =>
      unfold debugResult at hx
      obtain ⟨y, hy, hx⟩ := P_bind_ok.mp hx
      cases hx
      exact ⟨wrap_fine (by decide) (message_fine (hs.msg m hr) hy),
        wrap_ascii (message_ascii (hs.msg m hr) hy)⟩
  have g3 := opt_ascii h3 fun m x hm hx =>
    ⟨message_fine (hs.completes m hm) hx, message_ascii (hs.completes m hm) hx⟩
  have g4 := opt_ascii h4 fun c x _ hx => by
    cases c with
    | zoneChange z s =>
      unfold Change.debug at hx
      obtain ⟨y, hy, hx⟩ := P_bind_ok.mp hx
      cases hx
      constructor
      · refine struct_fine (by decide) (by simp) ?_
        simp only [List.mem_cons, List.not_mem_nil, or_false]
        rintro f (rfl | rfl)
        · exact ⟨by dsimp only; decide, limited_fine _⟩
        · exact ⟨by dsimp only; decide, zone_tuple_fine hy⟩
      · refine struct_ascii ?_
        simp only [List.mem_cons, List.not_mem_nil, or_false]
        rintro f (rfl | rfl)
        · exact word_ascii _
        · exact zone_ascii hy
    | armingStatus r =>
      cases hx
      exact ⟨single_fine (by decide) (by decide) (asr_fine r), single_ascii (asr_ascii r)⟩
  refine text_legible _ (struct_fine (by decide) (by simp) ?_) (struct_ascii ?_)
  · simp only [List.mem_cons, List.not_mem_nil, or_false]
    rintro f (rfl | rfl | rfl | rfl)
    · exact ⟨by dsimp only; decide, g1.1⟩
    · exact ⟨by dsimp only; decide, g2.1⟩
    · exact ⟨by dsimp only; decide, g3.1⟩
    · exact ⟨by dsimp only; decide, g4.1⟩
  · simp only [List.mem_cons, List.not_mem_nil, or_false]
    rintro f (rfl | rfl | rfl | rfl)
    · exact g1.2
    · exact g2.2
    · exact g3.2
    · exact g4.2

theorem means_ok {src rest : Bytes} {pkt : Packet} (hf : Front src (some pkt) rest)
    {r : Option (Except Bytes Message)} (h : Means pkt r) :
    (∀ m, r = some (.ok m) → WfMessage m) ∧ ∀ e, r = some (.error e) → Narrow e := by
  cases h with
  | says h => exact ⟨fun m hm => (by cases hm; exact h.1), fun e he => (by cases he)⟩
  | fault h =>
    refine ⟨fun m hm => (by cases hm), fun e he => ?_⟩
    cases he
    cases hf with
    | packet _ _ hv => exact narrow_error hv h
  | other => exact ⟨fun m hm => (by cases hm), fun e he => (by cases he)⟩
  | rp => exact ⟨fun m hm => (by cases hm), fun e he => (by cases he)⟩
  | invalid => exact ⟨fun m hm => (by cases hm), fun e he => (by cases he)⟩

end Elk
