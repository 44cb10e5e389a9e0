import Verif.Spec.Fuzz
import Verif.Lemmas.MsgMore
import Verif.Props.Msg
import Verif.Props.Pkt
/-!
# Properties of the fuzz targets
-/

namespace Elk.Props
open Spec

/-! ## C74: the packet targets never fail -/

theorem assertP_true : assertP true = .ok () := rfl

theorem depktLoop_drains {src : Bytes} {ps left} (h : Drains src ps left) :
    ∀ fuel out ws, src.length < fuel → ps.mapM Packet.encode = .ok ws →
      Fuzz.depktLoop fuel src out = .ok (out ++ ws.flatten, left) := by
  induction h with
  | stop h =>
    intro fuel out ws hf hw
    match fuel, hf with
    | fuel + 1, hf =>
      cases hw
      unfold Fuzz.depktLoop
      rw [h, bind_ok]
      simp
  | step h _ ih =>
    rename_i src rest p ps left _
    intro fuel out ws hf hw
    match fuel, hf with
    | fuel + 1, hf =>
      obtain ⟨w, hpw, hs, hw1⟩ := (C05_progress _).1 _ _ h
      have hl := congrArg List.length hs
      rw [List.length_append] at hl
      rw [List.mapM_cons, hpw, bind_ok] at hw
      cases hws' : ps.mapM Packet.encode with
      | error e => rw [hws'] at hw; cases hw
      | ok ws' =>
      rw [hws'] at hw
      cases hw
      have hnp := C18_parse_never_panics p
      unfold Fuzz.depktLoop
      rw [h]
      simp only [bind_ok]
      rw [hpw, bind_ok, ih fuel _ ws' (by omega) hws']
      simp

/-- **C74** The target `depkt` (take packets off any input, parse each, encode it again) never
fails, whatever the input. -/
theorem C74_depkt (data : Bytes) : Fuzz.depkt data = .ok () := by
  obtain ⟨ps, left, hd, -, -⟩ := C05_drain_terminates data
  obtain ⟨ws, h1, h2⟩ := C01_lossless_all hd
  unfold Fuzz.depkt
  rw [depktLoop_drains hd _ _ _ (Nat.lt_succ_self _) h1, bind_ok]
  simp [h2, assertP]

/-- **C74** The target `pkt` (build a packet from any input, encode it, decode it) never fails,
whatever the input. -/
theorem C74_pkt (data : Bytes) : Fuzz.pkt data = .ok () := by
  have key : ∀ p : Packet, Fuzz.pktOf data = some (.ok p) →
      (∃ v q, AsciiPacket.tryFrom v = .ok q ∧ p = .ascii q) ∨
      (∃ v q, RpPacket.tryFrom v = .ok q ∧ p = .rp q) := by
    intro p hp
    unfold Fuzz.pktOf at hp
    split at hp
    · rename_i body
      left
      cases ht : AsciiPacket.tryFrom body with
      | error e => rw [ht] at hp; cases hp
      | ok q => rw [ht] at hp; cases hp; exact ⟨body, q, ht, rfl⟩
    · rename_i body
      right
      cases ht : RpPacket.tryFrom body with
      | error e => rw [ht] at hp; cases hp
      | ok q => rw [ht] at hp; cases hp; exact ⟨body, q, ht, rfl⟩
    · cases hp
  unfold Fuzz.pkt
  split
  · rfl
  · rfl
  · rename_i p hp
    obtain ⟨w, hw, hd⟩ := C02_roundtrip (key p hp)
    have hd := hd []
    rw [List.append_nil] at hd
    rw [hw, bind_ok, hd, bind_ok]
    simp only [beq_self_eq_true, assertP_true, bind_ok]

/-- Non-vacuity: inputs that get as far as the checks. -/
example : Fuzz.pktOf (0 :: bs "as00") = some (.ok (.ascii ⟨bs "as00"⟩)) ∧
    Fuzz.pktOf [1, 0x10, 0x20] = some (.ok (.rp ⟨[0x10, 0x20]⟩)) := ⟨rfl, rfl⟩

/-! ## C75: the message target never fails -/

section gen
variable {α β : Type}

@[simp] theorem yields_ret {a b : α} : (Gen.ret a).Yields b ↔ b = a :=
  ⟨fun h => by cases h; rfl, fun h => h ▸ .ret a⟩

@[simp] theorem yields_fail {b : α} : (Gen.fail : Gen α).Yields b ↔ False :=
  ⟨fun h => (by cases h), False.elim⟩

@[simp] theorem yields_bytes {n : Nat} {k : Vector UInt8 n → Gen α} {b : α} :
    (Gen.bytes n k).Yields b ↔ ∃ v, (k v).Yields b :=
  ⟨fun h => (by cases h with | bytes v h => exact ⟨v, h⟩), fun ⟨v, h⟩ => .bytes v h⟩

@[simp] theorem yields_range {lo hi : UInt8} {k : UInt8 → Gen α} {b : α} :
    (Gen.range lo hi k).Yields b ↔ ∃ x, lo ≤ x ∧ x ≤ hi ∧ (k x).Yields b :=
  ⟨fun h => (by cases h with | range x h1 h2 h => exact ⟨x, h1, h2, h⟩),
   fun ⟨x, h1, h2, h⟩ => .range x h1 h2 h⟩

@[simp] theorem yields_choose {n : Nat} {k : Fin n → Gen α} {b : α} :
    (Gen.choose n k).Yields b ↔ ∃ i, (k i).Yields b :=
  ⟨fun h => (by cases h with | choose v h => exact ⟨v, h⟩), fun ⟨v, h⟩ => .choose v h⟩

theorem yields_bind' {g : Gen α} {f : α → Gen β} {b : β} :
    (g.bind f).Yields b ↔ ∃ a, g.Yields a ∧ (f a).Yields b := by
  induction g with
  | ret a => simp [Gen.bind]
  | fail => simp [Gen.bind]
  | bytes n k ih =>
    simp only [Gen.bind, yields_bytes, ih]
    exact ⟨fun ⟨v, a, h⟩ => ⟨a, ⟨v, h.1⟩, h.2⟩, fun ⟨a, ⟨v, h1⟩, h2⟩ => ⟨v, a, h1, h2⟩⟩
  | range lo hi k ih =>
    simp only [Gen.bind, yields_range, ih]
    exact ⟨fun ⟨v, h, h', a, h''⟩ => ⟨a, ⟨v, h, h', h''.1⟩, h''.2⟩,
      fun ⟨a, ⟨v, h, h', h1⟩, h2⟩ => ⟨v, h, h', a, h1, h2⟩⟩
  | choose n k ih =>
    simp only [Gen.bind, yields_choose, ih]
    exact ⟨fun ⟨v, a, h⟩ => ⟨a, ⟨v, h.1⟩, h.2⟩, fun ⟨a, ⟨v, h1⟩, h2⟩ => ⟨v, a, h1, h2⟩⟩

@[simp] theorem yields_bind {g : Gen α} {f : α → Gen β} {b : β} :
    (g >>= f).Yields b ↔ ∃ a, g.Yields a ∧ (f a).Yields b := yields_bind'

@[simp] theorem yields_u8 (b : UInt8) : Gen.u8.Yields b ↔ True := by
  simp only [Gen.u8, yields_bytes, yields_ret, iff_true]
  exact ⟨#v[b], rfl⟩

@[simp] theorem yields_bool (b : Bool) : Gen.bool.Yields b ↔ True := by
  simp only [Gen.bool, yields_choose, yields_ret, iff_true]
  cases b
  · exact ⟨0, rfl⟩
  · exact ⟨1, rfl⟩

@[simp] theorem yields_enum [ByteEnum α] [LawfulByteEnum α] (a : α) : Gen.enum.Yields a ↔ True := by
  simp only [Gen.enum, yields_choose, yields_ret, iff_true]
  obtain ⟨i, h⟩ := List.get_of_mem (LawfulByteEnum.complete a)
  exact ⟨i, h.symm⟩

@[simp] theorem yields_option {g : Gen α} (o : Option α) :
    (Gen.option g).Yields o ↔ ∀ a, o = some a → g.Yields a := by
  simp only [Gen.option, yields_choose]
  constructor
  · rintro ⟨i, h⟩ a rfl
    split at h
    · simp at h
    · simp only [yields_bind, yields_ret, Option.some.injEq] at h
      obtain ⟨a', h, rfl⟩ := h
      exact h
  · intro h
    cases o with
    | none => exact ⟨0, by simp⟩
    | some a => exact ⟨1, by simp [h]⟩

@[simp] theorem yields_array {g : Gen α} {n : Nat} (v : Vector α n) :
    (Gen.array g n).Yields v ↔ ∀ a ∈ v.toList, g.Yields a := by
  induction n with
  | zero => 
    simp only [Gen.array, yields_ret]
    constructor
    · rintro rfl a h; simp at h
    · intro _; ext i hi; omega
  | succ n ih =>
    simp only [Gen.array, yields_bind, yields_ret, ih]
    constructor
    · rintro ⟨w, hw, a, ha, rfl⟩ b hb
      simp only [Vector.toList_push, List.mem_append, List.mem_singleton] at hb
      rcases hb with hb | rfl
      · exact hw b hb
      · exact ha
    · intro h
      refine ⟨v.pop, ?_, v.back, ?_, ?_⟩
      · intro a ha
        apply h
        simp only [Vector.mem_toList_iff] at ha ⊢
        obtain ⟨i, hi, rfl⟩ := Vector.mem_iff_getElem.mp ha
        simp
      · apply h; simp [Vector.back]
      · simp
end gen

theorem yields_limited {max : UInt8} (x : Limited max.toNat) :
    (Limited.arbitrary max).Yields x ↔ InRange x := by
  simp only [Limited.arbitrary, yields_range, yields_ret, InRange, UInt8.le_iff_toNat_le]
  constructor
  · rintro ⟨y, h1, h2, rfl⟩; exact ⟨h1, h2⟩
  · rintro ⟨h1, h2⟩; exact ⟨x.val, h1, h2, rfl⟩

theorem yields_datetime (d : DateTime) : DateTime.arbitrary.Yields d ↔ WfDateTime d := by
  simp only [DateTime.arbitrary, yields_range, yields_ret, WfDateTime, UInt8.le_iff_toNat_le]
  constructor
  · rintro ⟨y, -, h1, m, h2, h3, d, h4, h5, h, -, h6, mi, -, h7, s, -, h8, rfl⟩
    simp at *
    omega
  · rintro ⟨h1, h2, h3, h4, h5, h6⟩
    refine ⟨d.year, ?_, ?_, d.month, ?_, ?_, d.day, ?_, ?_, d.hour, ?_, ?_, d.minute, ?_, ?_,
      d.second, ?_, ?_, rfl⟩ <;> simp <;> omega

theorem yields_rtc (r : RtcData) : RtcData.arbitrary.Yields r ↔ WfDateTime r.datetime := by
  simp only [RtcData.arbitrary, yields_bind, yields_ret, yields_datetime, yields_enum, yields_bool,
    true_and]
  constructor
  · rintro ⟨d, h, _, _, _, _, rfl⟩; exact h
  · intro h; exact ⟨r.datetime, h, _, _, _, _, rfl⟩

theorem yields_zoneStatus (s : ZoneStatus) : ZoneStatus.arbitrary.Yields s ↔ WfZoneStatus s := by
  have key : ∀ b : UInt8, b &&& 0xF0 = 0 ↔ b.toNat < 16 := by apply forall_u8; decide +kernel
  simp only [ZoneStatus.arbitrary, yields_bytes, WfZoneStatus, ne_eq, ite_not]
  constructor
  · rintro ⟨v, h⟩
    split at h
    · rename_i hv
      rw [yields_ret] at h
      subst h
      exact (key _).mp hv
    · simp at h
  · intro h
    refine ⟨#v[s.val], ?_⟩
    show Gen.Yields (if s.val &&& 0xF0 = 0 then Gen.ret ⟨s.val⟩ else Gen.fail) s
    rw [if_pos ((key _).mpr h)]
    exact .ret _

theorem yields_text (t : TextDescription) : TextDescription.arbitrary.Yields t ↔ WfText t := by
  simp only [TextDescription.arbitrary, yields_bytes, WfText]
  constructor
  · rintro ⟨v, h⟩
    split at h
    · rename_i hv
      rw [yields_ret] at h
      subst h
      exact checkPrintable_ok.mp hv
    · simp at h
  · intro h
    refine ⟨t.text, ?_⟩
    rw [checkPrintable_ok.mpr h]
    simp

theorem digits_inj : ∀ {n : Nat} {l m : Bytes}, l.length = n → m.length = n →
    (∀ b ∈ l, IsDigit b) → (∀ b ∈ m, IsDigit b) → digitsValue l = digitsValue m → l = m := by
  intro n
  induction n with
  | zero =>
    intro l m hl hm _ _ _
    rw [List.length_eq_zero_iff.mp hl, List.length_eq_zero_iff.mp hm]
  | succ n ih =>
    intro l m hl hm h1 h2 h
    rcases List.eq_nil_or_concat l with rfl | ⟨l', b, rfl⟩
    · cases hl
    rcases List.eq_nil_or_concat m with rfl | ⟨m', c, rfl⟩
    · cases hm
    simp only [List.concat_eq_append] at *
    rw [digitsValue_append, digitsValue_append] at h
    have hb := h1 b (by simp)
    have hc := h2 c (by simp)
    unfold IsDigit at hb hc
    have hbc : b = c := by apply UInt8.toNat_inj.mp; omega
    subst hbc
    rw [ih (l := l') (m := m') (by simpa using hl) (by simpa using hm)
      (fun x hx => h1 x (by simp [hx])) (fun x hx => h2 x (by simp [hx])) (by omega)]

/-- The number that `ArmCode::arbitrary` makes of its three bytes. -/
theorem codeNum (a b c : UInt8) :
    ((a.toUInt32 <<< 24) ||| (b.toUInt32 <<< 16) ||| c.toUInt32).toNat =
      a.toNat * 16777216 + b.toNat * 65536 + c.toNat := by
  have ha := a.toNat_lt
  have hb := b.toNat_lt
  have hc := c.toNat_lt
  simp only [UInt32.toNat_or, UInt32.toNat_shiftLeft, UInt8.toNat_toUInt32]
  have e1 : a.toNat <<< ((24 : UInt32).toNat % 32) % 2 ^ 32 = a.toNat * 2 ^ 24 := by
    show a.toNat <<< 24 % 2 ^ 32 = _
    rw [Nat.shiftLeft_eq]; omega
  have e2 : b.toNat <<< ((16 : UInt32).toNat % 32) % 2 ^ 32 = b.toNat * 2 ^ 16 := by
    show b.toNat <<< 16 % 2 ^ 32 = _
    rw [Nat.shiftLeft_eq]; omega
  rw [e1, e2]
  rw [← Nat.shiftLeft_eq, ← Nat.shiftLeft_add_eq_or_of_lt (by omega)]
  rw [Nat.shiftLeft_eq, show a.toNat * 2 ^ 24 + b.toNat * 2 ^ 16 = (a.toNat * 256 + b.toNat) * 2 ^ 16
    by omega, ← Nat.shiftLeft_eq, ← Nat.shiftLeft_add_eq_or_of_lt (by omega), Nat.shiftLeft_eq]

theorem codeNum_small (x y z : Nat) (h : x * 16777216 + y * 65536 + z < 1000000) :
    x = 0 ∧ y < 16 := by omega

theorem digitsValue_lt : ∀ {n : Nat} {l : Bytes}, l.length = n → (∀ b ∈ l, IsDigit b) →
    digitsValue l < 10 ^ n := by
  intro n
  induction n with
  | zero =>
    intro l hl _
    rw [List.length_eq_zero_iff.mp hl]
    decide
  | succ n ih =>
    intro l hl h1
    rcases List.eq_nil_or_concat l with rfl | ⟨l', b, rfl⟩
    · cases hl
    simp only [List.concat_eq_append] at *
    rw [digitsValue_append]
    have hb := h1 b (by simp)
    unfold IsDigit at hb
    have := ih (l := l') (by simpa using hl) (fun x hx => h1 x (by simp [hx]))
    rw [Nat.pow_succ]
    omega

theorem yields_armCode (c : ArmCode) :
    ArmCode.arbitrary.Yields c ↔ WfArmCode c ∧ TriedCode c := by
  simp only [ArmCode.arbitrary, yields_bytes]
  constructor
  · rintro ⟨v, h⟩
    split at h
    · rename_i c' hc
      rw [yields_ret] at h
      subst h
      obtain ⟨h1, h2⟩ := (C25_number _).2.2 _ hc
      refine ⟨h1, ?_⟩
      have h3 := (C25_number _).2.1.mp ⟨_, hc⟩
      rw [codeNum] at h3 h2
      have h4 := v[2].toNat_lt
      have h5 := codeNum_small _ _ _ h3
      refine ⟨v[1].toNat, v[2].toNat, h5.2, h4, h2.trans ?_⟩
      rw [h5.1, Nat.zero_mul, Nat.zero_add]
    · simp at h
  · rintro ⟨h1, hi, lo, hhi, hlo, h2⟩
    have hlt : digitsValue c.code.toList < 10 ^ 6 := digitsValue_lt (by simp) h1
    refine ⟨#v[0, UInt8.ofNat hi, UInt8.ofNat lo], ?_⟩
    have hn := codeNum 0 (UInt8.ofNat hi) (UInt8.ofNat lo)
    have e : (0 : UInt8).toNat * 16777216 + (UInt8.ofNat hi).toNat * 65536 +
        (UInt8.ofNat lo).toNat = digitsValue c.code.toList := by
      rw [UInt8.toNat_ofNat', UInt8.toNat_ofNat', h2]
      simp only [UInt8.toNat_zero]
      omega
    rw [e] at hn
    have hc : ArmCode.tryFromNum (((0 : UInt8).toUInt32 <<< 24) |||
        ((UInt8.ofNat hi).toUInt32 <<< 16) ||| (UInt8.ofNat lo).toUInt32) = .ok c := by
      rw [armCodeNum_ok, hn]
      refine ⟨hlt, ?_⟩
      have hp := padDec_spec (w := 5) (n := digitsValue c.code.toList) hlt
      exact digits_inj (n := 6) (by simp) hp.1 h1 hp.2.1 hp.2.2.symm
    show Gen.Yields (match ArmCode.tryFromNum (((0 : UInt8).toUInt32 <<< 24) |||
        ((UInt8.ofNat hi).toUInt32 <<< 16) ||| (UInt8.ofNat lo).toUInt32) with
      | .ok c => Gen.ret c
      | .error _ => Gen.fail) c
    rw [hc]
    exact .ret _

theorem yields_armRequest (m : ArmRequest) : ArmRequest.arbitrary.Yields m ↔
    InRange m.area ∧ WfArmCode m.code ∧ TriedCode m.code := by
  simp only [ArmRequest.arbitrary, yields_bind, yields_ret, yields_enum, yields_armCode]
  constructor
  · rintro ⟨a, ha, l, -, c, hc, rfl⟩
    exact ⟨(yields_limited (max := 8) a).mp ha, hc⟩
  · rintro ⟨ha, hc⟩
    exact ⟨m.area, (yields_limited (max := 8) m.area).mpr ha, m.level, trivial, m.code, hc, rfl⟩

theorem yields_armingStatusReport (m : ArmingStatusReport) :
    ArmingStatusReport.arbitrary.Yields m := by
  simp only [ArmingStatusReport.arbitrary, yields_bind, yields_ret, yields_enum, yields_array,
    yields_u8, implies_true, true_and]
  exact ⟨_, _, _, _, rfl⟩

theorem yields_sendTimeData (m : SendTimeData) :
    SendTimeData.arbitrary.Yields m ↔ InRange m.area := by
  simp only [SendTimeData.arbitrary, yields_bind, yields_ret, yields_enum, yields_option,
    yields_u8, implies_true, true_and]
  constructor
  · rintro ⟨a, ha, _, _, _, _, rfl⟩
    exact (yields_limited (max := 8) a).mp ha
  · intro ha
    exact ⟨m.area, (yields_limited (max := 8) m.area).mpr ha, _, _, _, _, rfl⟩

theorem yields_sendCode (m : SendCode) : SendCode.arbitrary.Yields m ↔ InRange m.keypad := by
  simp only [SendCode.arbitrary, yields_bind, yields_ret, yields_array,
    yields_u8, implies_true, true_and]
  constructor
  · rintro ⟨_, _, k, hk, rfl⟩
    exact (yields_limited (max := 16) k).mp hk
  · intro hk
    exact ⟨_, _, m.keypad, (yields_limited (max := 16) m.keypad).mpr hk, rfl⟩

theorem yields_sdr (m : StringDescriptionRequest) : StringDescriptionRequest.arbitrary.Yields m := by
  simp only [StringDescriptionRequest.arbitrary, yields_bind, yields_ret, yields_enum,
    yields_u8, true_and]
  exact ⟨_, _, rfl⟩

theorem yields_sd (m : StringDescriptionResponse) :
    StringDescriptionResponse.arbitrary.Yields m ↔ WfText m.text := by
  simp only [StringDescriptionResponse.arbitrary, yields_bind, yields_ret, yields_enum,
    yields_u8, true_and, yields_text]
  constructor
  · rintro ⟨_, _, t, ht, rfl⟩; exact ht
  · intro ht; exact ⟨_, _, m.text, ht, rfl⟩

theorem yields_zoneChange (m : ZoneChange) :
    ZoneChange.arbitrary.Yields m ↔ InRange m.zone ∧ WfZoneStatus m.status := by
  simp only [ZoneChange.arbitrary, yields_bind, yields_ret, yields_zoneStatus]
  constructor
  · rintro ⟨z, hz, s, hs, rfl⟩
    exact ⟨(yields_limited (max := 208) z).mp hz, hs⟩
  · rintro ⟨hz, hs⟩
    exact ⟨m.zone, (yields_limited (max := 208) m.zone).mpr hz, m.status, hs, rfl⟩

theorem yields_zoneStatusReport (m : ZoneStatusReport) :
    ZoneStatusReport.arbitrary.Yields m ↔ ∀ z ∈ m.zones.toList, WfZoneStatus z := by
  simp only [ZoneStatusReport.arbitrary, yields_bind, yields_ret, yields_array, yields_zoneStatus]
  constructor
  · rintro ⟨zs, hz, rfl⟩; exact hz
  · intro h; exact ⟨m.zones, h, rfl⟩

theorem tried_iff_mem (m : Message) : Tried m ↔ ∃ g ∈ Message.generators, g.Yields m := by
  unfold Tried Message.arbitrary
  rw [yields_choose]
  constructor
  · rintro ⟨i, h⟩; exact ⟨_, List.get_mem _ i, h⟩
  · rintro ⟨g, hg, h⟩
    obtain ⟨i, rfl⟩ := List.get_of_mem hg
    exact ⟨i, h⟩

/-- **C76** The messages that the fuzzer can present are the well-formed ones, except that of the
arming codes only those of the form `hi * 65536 + lo`, `lo < 256`, are tried. -/
theorem C76_tried_partial (m : Message) : Tried m ↔
    WfMessage m ∧ ∀ r, m = .armRequest r → TriedCode r.code := by
  rw [tried_iff_mem]
  unfold Message.generators
  simp only [List.mem_cons, List.not_mem_nil, or_false, exists_eq_or_imp, exists_eq_left,
    yields_bind, yields_ret, yields_armRequest, yields_armingStatusReport, yields_sendTimeData,
    yields_sendCode, yields_rtc, yields_sdr, yields_sd, yields_zoneChange, yields_zoneStatusReport,
    true_and]
  have l32 : ∀ t : Limited 32, (Limited.arbitrary 32).Yields t ↔ InRange t :=
    fun t => yields_limited (max := 32) t
  cases m <;> simp [WfMessage]
  · exact and_assoc.symm
  · exact l32 _
  · exact l32 _

/-- **C76** In particular every well-formed message that is not an arming request is tried. -/
theorem C76_others (m : Message) (h : WfMessage m) (hm : ∀ r, m ≠ .armRequest r) : Tried m :=
  (C76_tried_partial m).mpr ⟨h, fun r hr => absurd hr (hm r)⟩

/-- Disarming area 1 with the code 001234. -/
def untried : Message :=
  .armRequest ⟨⟨1⟩, .disarm, ⟨#v[48, 48, 49, 50, 51, 52]⟩⟩

/-- **C76** The full claim, that every well-formed message is tried, is false: the code 001234 never
is.  (The first two of the three bytes are shifted by 24 and 16 bits instead of 16 and 8.) -/
theorem C76_untried : WfMessage untried ∧ ¬ Tried untried := by
  constructor
  · refine ⟨?_, ?_⟩
    · unfold InRange; decide
    · show ∀ b ∈ [48, 48, 49, 50, 51, 52], IsDigit b
      unfold IsDigit; decide
  · intro h
    obtain ⟨hi, lo, h1, h2, h3⟩ := ((C76_tried_partial _).mp h).2 _ rfl
    have h4 : digitsValue [48, 48, 49, 50, 51, 52] = 1234 := by decide
    rw [show (#v[48, 48, 49, 50, 51, 52] : Vector UInt8 6).toList = [48, 48, 49, 50, 51, 52] from rfl,
      h4] at h3
    omega

/-- **C75** The target `msg` (encode any message the fuzzer can present, parse it) never fails. -/
theorem C75_msg (m : Message) (h : Tried m) : Fuzz.msg m = .ok () := by
  obtain ⟨p, h1, -, h2⟩ := C17_roundtrip m ((C76_tried_partial m).mp h).1
  unfold Fuzz.msg
  rw [h1, bind_ok, h2]
  simp [assertP]

/-- Non-vacuity: messages with the largest values that the fuzzer can present; and the target does
fail for messages that cannot be constructed from outside the crate. -/
example : Tried (.zoneChange ⟨⟨208⟩, ⟨15⟩⟩) ∧ Tried (.activateTask ⟨32⟩) ∧
    Tried (.armRequest ⟨⟨8⟩, .forceArmToStay, ⟨#v[57, 56, 51, 50, 57, 53]⟩⟩) ∧
    Fuzz.msg (.activateTask ⟨33⟩) = .error .expect ∧
    Fuzz.msg (.zoneChange ⟨⟨0⟩, ⟨0⟩⟩) = .error .expect := by
  refine ⟨C76_others _ ⟨?_, ?_⟩ nofun, C76_others _ ?_ nofun, (C76_tried_partial _).mpr ⟨⟨?_, ?_⟩, ?_⟩,
    rfl, rfl⟩
  · unfold InRange; decide
  · unfold WfZoneStatus; decide
  · unfold WfMessage InRange; decide
  · unfold InRange; decide
  · show ∀ b ∈ [57, 56, 51, 50, 57, 53], IsDigit b
    unfold IsDigit; decide
  · intro r hr
    cases hr
    exact ⟨15, 255, by decide, by decide, by decide⟩

end Elk.Props
