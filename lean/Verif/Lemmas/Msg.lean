import Verif.Lemmas.MsgBase
/-! # Parsing and printing of each message type -/

namespace Elk
open Spec

/-! ## Zone status -/

theorem hexDigit_nibble : ∀ v : UInt8, v.toNat < 16 → hexDigit v.toNat = hexNibble v := by
  apply forall_u8; decide +kernel

theorem dehex_hexDigit : ∀ v : UInt8, v.toNat < 16 → dehexNibble (hexDigit v.toNat) = some v := by
  apply forall_u8; decide +kernel

theorem dehex_some {a v : UInt8} (h : dehexNibble a = some v) :
    v.toNat < 16 ∧ a = hexDigit v.toNat := by
  have h1 := hexNibble_dehex a v h
  have h2 : v.toNat < 16 := by simpa [UInt8.lt_iff_toNat_lt] using h1.1
  exact ⟨h2, by rw [hexDigit_nibble v h2, h1.2]⟩

theorem zoneStatus_fwd {s : ZoneStatus} (h : WfZoneStatus s) :
    ZoneStatus.fromAscii (hexDigit s.val.toNat) = .ok s := by
  unfold ZoneStatus.fromAscii
  rw [dehex_hexDigit s.val h]; rfl

theorem zoneStatus_bwd {a : UInt8} {s : ZoneStatus} (h : ZoneStatus.fromAscii a = .ok s) :
    WfZoneStatus s ∧ a = hexDigit s.val.toNat := by
  unfold ZoneStatus.fromAscii at h
  rw [R_bind_ok] at h
  obtain ⟨v, hv, h⟩ := h
  rw [okOr_ok] at hv
  injection h with h; subst h
  exact dehex_some hv

theorem NoPanic.zoneStatus (a : UInt8) : NoPanic (ZoneStatus.fromAscii a) :=
  NoPanic.bind (NoPanic.okOr _ _) fun _ _ => NoPanic.ok _

/-! ## Splitting off a fixed number of bytes -/

theorem split3 {l : Bytes} (h : 3 ≤ l.length) :
    ∃ a0 a1 a2 t, l = a0 :: a1 :: a2 :: t := by
  obtain ⟨a0, l1, rfl, h1⟩ := length_ge_cons h
  obtain ⟨a1, l2, rfl, h2⟩ := length_ge_cons h1
  obtain ⟨a2, l3, rfl, h3⟩ := length_ge_cons h2
  exact ⟨_, _, _, _, rfl⟩

theorem split4 {l : Bytes} (h : 4 ≤ l.length) :
    ∃ a0 a1 a2 a3 t, l = a0 :: a1 :: a2 :: a3 :: t := by
  obtain ⟨a0, l1, rfl, h1⟩ := length_ge_cons h
  obtain ⟨a1, l2, rfl, h2⟩ := length_ge_cons h1
  obtain ⟨a2, l3, rfl, h3⟩ := length_ge_cons h2
  obtain ⟨a3, l4, rfl, h4⟩ := length_ge_cons h3
  exact ⟨_, _, _, _, _, rfl⟩

theorem split5 {l : Bytes} (h : 5 ≤ l.length) :
    ∃ a0 a1 a2 a3 a4 t, l = a0 :: a1 :: a2 :: a3 :: a4 :: t := by
  obtain ⟨a0, l1, rfl, h1⟩ := length_ge_cons h
  obtain ⟨a1, l2, rfl, h2⟩ := length_ge_cons h1
  obtain ⟨a2, l3, rfl, h3⟩ := length_ge_cons h2
  obtain ⟨a3, l4, rfl, h4⟩ := length_ge_cons h3
  obtain ⟨a4, l5, rfl, h5⟩ := length_ge_cons h4
  exact ⟨_, _, _, _, _, _, rfl⟩

theorem split7 {l : Bytes} (h : 7 ≤ l.length) :
    ∃ a0 a1 a2 a3 a4 a5 a6 t, l = a0 :: a1 :: a2 :: a3 :: a4 :: a5 :: a6 :: t := by
  obtain ⟨a0, l1, rfl, h1⟩ := length_ge_cons h
  obtain ⟨a1, l2, rfl, h2⟩ := length_ge_cons h1
  obtain ⟨a2, l3, rfl, h3⟩ := length_ge_cons h2
  obtain ⟨a3, l4, rfl, h4⟩ := length_ge_cons h3
  obtain ⟨a4, l5, rfl, h5⟩ := length_ge_cons h4
  obtain ⟨a5, l6, rfl, h6⟩ := length_ge_cons h5
  obtain ⟨a6, l7, rfl, h7⟩ := length_ge_cons h6
  exact ⟨_, _, _, _, _, _, _, _, rfl⟩

theorem split9 {l : Bytes} (h : 9 ≤ l.length) :
    ∃ a0 a1 a2 a3 a4 a5 a6 a7 a8 t, l = a0 :: a1 :: a2 :: a3 :: a4 :: a5 :: a6 :: a7 :: a8 :: t := by
  obtain ⟨a0, l1, rfl, h1⟩ := length_ge_cons h
  obtain ⟨a1, l2, rfl, h2⟩ := length_ge_cons h1
  obtain ⟨a2, l3, rfl, h3⟩ := length_ge_cons h2
  obtain ⟨a3, l4, rfl, h4⟩ := length_ge_cons h3
  obtain ⟨a4, l5, rfl, h5⟩ := length_ge_cons h4
  obtain ⟨a5, l6, rfl, h6⟩ := length_ge_cons h5
  obtain ⟨a6, l7, rfl, h7⟩ := length_ge_cons h6
  obtain ⟨a7, l8, rfl, h8⟩ := length_ge_cons h7
  obtain ⟨a8, l9, rfl, h9⟩ := length_ge_cons h8
  exact ⟨_, _, _, _, _, _, _, _, _, _, rfl⟩

theorem split16 {l : Bytes} (h : 16 ≤ l.length) :
    ∃ a0 a1 a2 a3 a4 a5 a6 a7 a8 a9 a10 a11 a12 a13 a14 a15 t, l = a0 :: a1 :: a2 :: a3 :: a4 :: a5 :: a6 :: a7 :: a8 :: a9 :: a10 :: a11 :: a12 :: a13 :: a14 :: a15 :: t := by
  obtain ⟨a0, l1, rfl, h1⟩ := length_ge_cons h
  obtain ⟨a1, l2, rfl, h2⟩ := length_ge_cons h1
  obtain ⟨a2, l3, rfl, h3⟩ := length_ge_cons h2
  obtain ⟨a3, l4, rfl, h4⟩ := length_ge_cons h3
  obtain ⟨a4, l5, rfl, h5⟩ := length_ge_cons h4
  obtain ⟨a5, l6, rfl, h6⟩ := length_ge_cons h5
  obtain ⟨a6, l7, rfl, h7⟩ := length_ge_cons h6
  obtain ⟨a7, l8, rfl, h8⟩ := length_ge_cons h7
  obtain ⟨a8, l9, rfl, h9⟩ := length_ge_cons h8
  obtain ⟨a9, l10, rfl, h10⟩ := length_ge_cons h9
  obtain ⟨a10, l11, rfl, h11⟩ := length_ge_cons h10
  obtain ⟨a11, l12, rfl, h12⟩ := length_ge_cons h11
  obtain ⟨a12, l13, rfl, h13⟩ := length_ge_cons h12
  obtain ⟨a13, l14, rfl, h14⟩ := length_ge_cons h13
  obtain ⟨a14, l15, rfl, h15⟩ := length_ge_cons h14
  obtain ⟨a15, l16, rfl, h16⟩ := length_ge_cons h15
  exact ⟨_, _, _, _, _, _, _, _, _, _, _, _, _, _, _, _, _, rfl⟩

/-! ## ZC -/

theorem zoneChange_fwd {m : ZoneChange} (h : WfMessage (.zoneChange m)) {x : Bytes}
    (hx : Written (.zoneChange m) x) (y : Bytes) : ZoneChange.fromAsciiData (x ++ y) = .ok m := by
  obtain ⟨hz, hs⟩ := h
  obtain ⟨z, h1, rfl⟩ := hx
  obtain ⟨a, b, c, rfl, hp⟩ := three_parse h1
  unfold ZoneChange.fromAsciiData
  rw [failIf_neg (by simp), R_ok_bind]
  simp [R_ok_bind, parseField, slice, liftP, hp, limited_val hz, idx, zoneStatus_fwd hs]

theorem zoneChange_bwd {m : ZoneChange} {data : Bytes} (h : ZoneChange.fromAsciiData data = .ok m) :
    WfMessage (.zoneChange m) ∧
      ∃ x y, data = x ++ y ∧ Written (.zoneChange m) x := by
  unfold ZoneChange.fromAsciiData at h
  simp only [R_bind_ok, failIf_ok] at h
  obtain ⟨_, hl, b, hb, z, hz, c, hc, s, hs, h⟩ := h
  obtain ⟨a0, a1, a2, a3, t, rfl⟩ := split4 (Nat.not_lt.mp hl)
  simp [parseField, slice, liftP, R_ok_bind] at hb
  simp [idx, liftP] at hc
  subst hc
  obtain ⟨rfl, hz'⟩ := limited_ok.mp hz
  obtain ⟨hs', rfl⟩ := zoneStatus_bwd hs
  injection h with h; subst h
  exact ⟨⟨hz', hs'⟩, [a0, a1, a2] ++ [_], t, rfl, _, parseU8Dec3_ok hb, rfl⟩

theorem NoPanic.zoneChange (data : Bytes) : NoPanic (ZoneChange.fromAsciiData data) := by
  refine NoPanic.bind (NoPanic.failIf _) fun _ hl => ?_
  rw [failIf_ok] at hl
  refine NoPanic.bind (NoPanic.parseField (by omega)) fun _ _ => ?_
  refine NoPanic.bind (NoPanic.limited _) fun _ _ => ?_
  refine NoPanic.bind (NoPanic.idx (by omega)) fun _ _ => ?_
  exact NoPanic.bind (NoPanic.zoneStatus _) fun _ _ => NoPanic.ok _

/-! ## tn, TC -/

theorem task_fwd {t : Task} (h : InRange t) {x : Bytes} (hx : Three t.val x) (y : Bytes) :
    taskFromAsciiData (x ++ y) = .ok t := by
  obtain ⟨a, b, c, rfl, hp⟩ := three_parse hx
  unfold taskFromAsciiData
  rw [failIf_neg (by simp), R_ok_bind]
  simp [R_ok_bind, parseField, slice, liftP, hp, limited_val h]

theorem task_bwd {m : Task} {data : Bytes} (h : taskFromAsciiData data = .ok m) :
    InRange m ∧ ∃ x y, data = x ++ y ∧ Three m.val x := by
  unfold taskFromAsciiData at h
  simp only [R_bind_ok, failIf_ok] at h
  obtain ⟨_, hl, b, hb, hz⟩ := h
  obtain ⟨a0, a1, a2, t, rfl⟩ := split3 (Nat.not_lt.mp hl)
  simp [parseField, slice, liftP, R_ok_bind] at hb
  obtain ⟨rfl, hz'⟩ := limited_ok.mp hz
  exact ⟨hz', [a0, a1, a2], t, rfl, parseU8Dec3_ok hb⟩

theorem NoPanic.task (data : Bytes) : NoPanic (taskFromAsciiData data) := by
  refine NoPanic.bind (NoPanic.failIf _) fun _ hl => ?_
  rw [failIf_ok] at hl
  refine NoPanic.bind (NoPanic.parseField (by omega)) fun _ _ => ?_
  exact NoPanic.limited _

/-! ## sd, SD -/

theorem sdRequest_fwd {m : StringDescriptionRequest} {x : Bytes}
    (hx : Written (.stringDescriptionRequest m) x) (y : Bytes) :
    StringDescriptionRequest.fromAsciiData (x ++ y) = .ok m := by
  obtain ⟨t, n, h1, h2, rfl⟩ := hx
  rw [textType_num] at h1
  obtain ⟨a, b, rfl, hp⟩ := two_parse h1
  obtain ⟨c, d, e, rfl, hq⟩ := three_parse h2
  unfold StringDescriptionRequest.fromAsciiData
  rw [failIf_neg (by simp), R_ok_bind]
  simp [R_ok_bind, parseField, slice, liftP, hp, hq, enum_code]

theorem sdRequest_bwd {m : StringDescriptionRequest} {data : Bytes}
    (h : StringDescriptionRequest.fromAsciiData data = .ok m) :
    ∃ x y, data = x ++ y ∧ Written (.stringDescriptionRequest m) x := by
  unfold StringDescriptionRequest.fromAsciiData at h
  simp only [R_bind_ok, failIf_ok] at h
  obtain ⟨_, hl, b, hb, ty, hty, n, hn, h⟩ := h
  obtain ⟨a0, a1, a2, a3, a4, t, rfl⟩ := split5 (Nat.not_lt.mp hl)
  simp [parseField, slice, liftP, R_ok_bind] at hb hn
  rw [enum_ok] at hty; subst hty
  injection h with h; subst h
  refine ⟨[a0, a1] ++ [a2, a3, a4], t, rfl, _, _, ?_, parseU8Dec3_ok hn, rfl⟩
  rw [textType_num]
  exact parseU8Dec2_ok hb

theorem NoPanic.sdRequest (data : Bytes) :
    NoPanic (StringDescriptionRequest.fromAsciiData data) := by
  refine NoPanic.bind (NoPanic.failIf _) fun _ hl => ?_
  rw [failIf_ok] at hl
  refine NoPanic.bind (NoPanic.parseField (by omega)) fun _ _ => ?_
  refine NoPanic.bind (NoPanic.enum _) fun _ _ => ?_
  exact NoPanic.bind (NoPanic.parseField (by omega)) fun _ _ => NoPanic.ok _

theorem toArrayN_ok {n : Nat} {l : Bytes} {p : Panic} {v : Vector UInt8 n} :
    toArrayN n l p = .ok v ↔ v.toList = l := by
  unfold toArrayN
  split
  · rename_i h
    constructor
    · intro e; injection e with e; subst e; rfl
    · intro e; subst e; rfl
  · rename_i h
    constructor
    · intro e; cases e
    · intro e; subst e; simp at h

theorem NoPanic.toArrayN {n : Nat} {l : Bytes} {p : Panic} (h : l.length = n) :
    NoPanic (liftP (toArrayN n l p)) := by
  unfold Elk.toArrayN; rw [dif_pos h]; exact NoPanic.ok _

theorem sdResponse_fwd {m : StringDescriptionResponse} {x : Bytes}
    (hx : Written (.stringDescriptionResponse m) x) (y : Bytes) :
    StringDescriptionResponse.fromAsciiData (x ++ y) = .ok m := by
  obtain ⟨t, n, h1, h2, rfl⟩ := hx
  rw [textType_num] at h1
  obtain ⟨a, b, rfl, hp⟩ := two_parse h1
  obtain ⟨c, d, e, rfl, hq⟩ := three_parse h2
  unfold StringDescriptionResponse.fromAsciiData
  rw [failIf_neg (by simp), R_ok_bind]
  have ht : slice ([a, b] ++ [c, d, e] ++ m.text.text.toList ++ y) 5 21 = .ok m.text.text.toList := by
    rw [slice_ok_iff]
    refine ⟨by simp, ?_⟩
    simp
  have ht2 : toArrayN 16 m.text.text.toList .expect = .ok m.text.text := toArrayN_ok.mpr rfl
  rw [ht]
  simp [R_ok_bind, parseField, slice, liftP, hp, hq, enum_code, ht2]

theorem sdResponse_bwd {m : StringDescriptionResponse} {data : Bytes}
    (h : StringDescriptionResponse.fromAsciiData data = .ok m) :
    (∀ b ∈ m.text.text.toList, b ∈ data) ∧
    ∃ x y, data = x ++ y ∧ Written (.stringDescriptionResponse m) x := by
  unfold StringDescriptionResponse.fromAsciiData at h
  simp only [R_bind_ok, failIf_ok, liftP_ok] at h
  obtain ⟨_, hl, b, hb, ty, hty, n, hn, s, hs, v, hv, h⟩ := h
  obtain ⟨a0, a1, a2, a3, a4, t, rfl⟩ := split5 (by omega : 5 ≤ data.length)
  simp [parseField, slice, liftP, R_ok_bind] at hb hn
  rw [enum_ok] at hty; subst hty
  rw [toArrayN_ok] at hv
  injection h with h; subst h
  rw [slice_ok_iff] at hs
  obtain ⟨_, hs⟩ := hs
  simp at hs
  subst hs
  constructor
  · intro b hb
    have := List.mem_of_mem_take (hv ▸ hb)
    simp [this]
  · refine ⟨[a0, a1] ++ [a2, a3, a4] ++ t.take 16, t.drop 16, by simp,
      [a0, a1], _, ?_, parseU8Dec3_ok hn, ?_⟩
    · rw [textType_num]
      exact parseU8Dec2_ok hb
    · dsimp only
      rw [hv]

theorem NoPanic.sdResponse (data : Bytes) :
    NoPanic (StringDescriptionResponse.fromAsciiData data) := by
  refine NoPanic.bind (NoPanic.failIf _) fun _ hl => ?_
  rw [failIf_ok] at hl
  refine NoPanic.bind (NoPanic.parseField (by omega)) fun _ _ => ?_
  refine NoPanic.bind (NoPanic.enum _) fun _ _ => ?_
  refine NoPanic.bind (NoPanic.parseField (by omega)) fun _ _ => ?_
  refine NoPanic.bind (NoPanic.slice (by omega)) fun s hs => ?_
  rw [liftP_ok, slice_ok_iff] at hs
  refine NoPanic.bind (NoPanic.toArrayN ?_) fun _ _ => NoPanic.ok _
  rw [← hs.2]; simp
  omega

/-! ## Real time clock data -/

theorem dst_ok {d : UInt8} {x : Bool} :
    dstFlag d = .ok x ↔ d = if x then b' '1' else b' '0' := by
  unfold dstFlag errR
  cases x
  · simp only [Bool.false_eq_true, if_false]
    split
    · simp_all
    · split <;> simp_all
  · simp only [if_true]
    split
    · rename_i h; subst h; simp; decide
    · split <;> simp_all

theorem NoPanic.dst (d : UInt8) : NoPanic (dstFlag d) := by
  unfold dstFlag
  split
  · exact NoPanic.ok _
  · split
    · exact NoPanic.ok _
    · exact NoPanic.err _

theorem rtc_fwd {r : RtcData} (h : WfDateTime r.datetime) {x : Bytes} (hx : ClockWritten r x)
    (z : Bytes) : RtcData.fromAscii (x ++ z) = .ok r := by
  obtain ⟨hy, hmo, hd, hh, hmi, hs⟩ := h
  obtain ⟨s, mi, hr, d, mo, y, w6, w5, w4, w3, w2, w1, hx⟩ := hx
  obtain ⟨y1, y2, rfl, h1⟩ := two_parse w1
  obtain ⟨mo1, mo2, rfl, h2⟩ := two_parse w2
  obtain ⟨d1, d2, rfl, h3⟩ := two_parse w3
  obtain ⟨hr1, hr2, rfl, h4⟩ := two_parse w4
  obtain ⟨mi1, mi2, rfl, h5⟩ := two_parse w5
  obtain ⟨s1, s2, rfl, h6⟩ := two_parse w6
  have hxl : x.length = 16 := by rw [hx]; rfl
  unfold RtcData.fromAscii
  rw [failIf_neg (by rw [List.length_append]; omega), R_ok_bind]
  have e1 : parseField "year" (x ++ z) 11 13 = .ok r.datetime.year := by
    simp [hx, parseField, slice, liftP, R_ok_bind, h1]
  have e2 : parseField "month" (x ++ z) 9 11 = .ok r.datetime.month := by
    simp [hx, parseField, slice, liftP, R_ok_bind, h2]
  have e3 : parseField "day" (x ++ z) 7 9 = .ok r.datetime.day := by
    simp [hx, parseField, slice, liftP, R_ok_bind, h3]
  have e4 : parseField "hour" (x ++ z) 4 6 = .ok r.datetime.hour := by
    simp [hx, parseField, slice, liftP, R_ok_bind, h4]
  have e5 : parseField "minute" (x ++ z) 2 4 = .ok r.datetime.minute := by
    simp [hx, parseField, slice, liftP, R_ok_bind, h5]
  have e6 : parseField "second" (x ++ z) 0 2 = .ok r.datetime.second := by
    simp [hx, parseField, slice, liftP, R_ok_bind, h6]
  have f1 : idx (x ++ z) 6 = .ok (ByteEnum.code r.weekday) := by
    simp [hx, idx, weekday_char]
  have f2 : idx (x ++ z) 13 = .ok (if r.dst then b' '1' else b' '0') := by
    simp [hx, idx]
  have f3 : idx (x ++ z) 14 = .ok (ByteEnum.code r.clockDisplay) := by
    simp [hx, idx, clock_char]
  have f4 : idx (x ++ z) 15 = .ok (ByteEnum.code r.dateDisplay) := by
    simp [hx, idx, date_char]
  have g1 : r.datetime.year < 100 := by simpa [UInt8.lt_iff_toNat_lt] using hy
  have g2 : ¬ ¬ (1 ≤ r.datetime.month ∧ r.datetime.month ≤ 12) := by
    simpa [UInt8.le_iff_toNat_le] using hmo
  have g3 : ¬ ¬ (1 ≤ r.datetime.day ∧ r.datetime.day ≤ 31) := by
    simpa [UInt8.le_iff_toNat_le] using hd
  have g4 : ¬ r.datetime.hour ≥ 24 := by
    simpa [UInt8.le_iff_toNat_le] using hh
  have g5 : ¬ r.datetime.minute ≥ 60 := by
    simpa [UInt8.le_iff_toNat_le] using hmi
  have g6 : ¬ r.datetime.second ≥ 60 := by
    simpa [UInt8.le_iff_toNat_le] using hs
  rw [e1, e2, e3, e4, e5, e6, f1, f2, f3, f4]
  have hdst := (dst_ok (x := r.dst)).mpr rfl
  simp only [R_ok_bind, assertR_pos g1, hdst, failIf_neg g2, failIf_neg g3, failIf_neg g4,
    failIf_neg g5, failIf_neg g6, liftP, enum_code]

theorem rtc_bwd {r : RtcData} {data : Bytes} (h : RtcData.fromAscii data = .ok r) :
    WfDateTime r.datetime ∧ ∃ x y, data = x ++ y ∧ ClockWritten r x := by
  unfold RtcData.fromAscii at h
  simp only [R_bind_ok, failIf_ok, assertR_ok, liftP_ok, enum_ok] at h
  obtain ⟨_, hl, year, hy, _, hy2, mo, hmo, _, hmo2, d, hd, _, hd2, hr, hhr, _, hhr2, mi, hmi, _,
    hmi2, s, hs, _, hs2, a, ha, wd, hwd, b, hb, dst, hdst, c, hc, cd, hcd, e, he, dd, hdd, h⟩ := h
  obtain ⟨a0, a1, a2, a3, a4, a5, a6, a7, a8, a9, a10, a11, a12, a13, a14, a15, t, rfl⟩ :=
    split16 (Nat.not_lt.mp hl)
  simp [parseField, slice, liftP, R_ok_bind] at hy hmo hd hhr hmi hs
  simp [idx] at ha hb hc he
  subst ha hb hc he hwd hcd hdd
  injection h with h; subst h
  have hy' := parseU8Dec2_ok hy
  have hmo' := parseU8Dec2_ok hmo
  have hd' := parseU8Dec2_ok hd
  have hhr' := parseU8Dec2_ok hhr
  have hmi' := parseU8Dec2_ok hmi
  have hs' := parseU8Dec2_ok hs
  simp only [Classical.not_not, UInt8.le_iff_toNat_le, ge_iff_le] at hmo2 hd2 hhr2 hmi2 hs2
  refine ⟨⟨hy'.1, hmo2, hd2, by simpa using hhr2, by simpa using hmi2, by simpa using hs2⟩,
    [a0, a1] ++ [a2, a3] ++ [a4, a5] ++ [_] ++ [a7, a8] ++ [a9, a10] ++ [a11, a12] ++ [a13] ++ [_]
      ++ [_], t, rfl, _, _, _, _, _, _, hs', hmi', hhr', hd', hmo', hy', ?_⟩
  rw [weekday_char, clock_char, date_char, dst_ok.mp hdst]

theorem NoPanic.rtc (data : Bytes) : NoPanic (RtcData.fromAscii data) := by
  refine NoPanic.bind (NoPanic.failIf _) fun _ hl => ?_
  rw [failIf_ok] at hl
  refine NoPanic.bind (NoPanic.parseField (by omega)) fun year hy => ?_
  have hy2 : year < 100 := by
    obtain ⟨a0, a1, a2, a3, a4, a5, a6, a7, a8, a9, a10, a11, a12, a13, a14, a15, t, rfl⟩ :=
      split16 (Nat.not_lt.mp hl)
    simp [Elk.parseField, Elk.slice, liftP, R_ok_bind] at hy
    simpa [UInt8.lt_iff_toNat_lt] using (parseU8Dec2_ok hy).1
  rw [assertR_pos hy2, R_ok_bind]
  refine NoPanic.bind (NoPanic.parseField (by omega)) fun _ _ => ?_
  refine NoPanic.bind (NoPanic.failIf _) fun _ _ => ?_
  refine NoPanic.bind (NoPanic.parseField (by omega)) fun _ _ => ?_
  refine NoPanic.bind (NoPanic.failIf _) fun _ _ => ?_
  refine NoPanic.bind (NoPanic.parseField (by omega)) fun _ _ => ?_
  refine NoPanic.bind (NoPanic.failIf _) fun _ _ => ?_
  refine NoPanic.bind (NoPanic.parseField (by omega)) fun _ _ => ?_
  refine NoPanic.bind (NoPanic.failIf _) fun _ _ => ?_
  refine NoPanic.bind (NoPanic.parseField (by omega)) fun _ _ => ?_
  refine NoPanic.bind (NoPanic.failIf _) fun _ _ => ?_
  refine NoPanic.bind (NoPanic.idx (by omega)) fun _ _ => ?_
  refine NoPanic.bind (NoPanic.enum _) fun _ _ => ?_
  refine NoPanic.bind (NoPanic.idx (by omega)) fun _ _ => ?_
  refine NoPanic.bind (NoPanic.dst _) fun _ _ => ?_
  refine NoPanic.bind (NoPanic.idx (by omega)) fun _ _ => ?_
  refine NoPanic.bind (NoPanic.enum _) fun _ _ => ?_
  refine NoPanic.bind (NoPanic.idx (by omega)) fun _ _ => ?_
  exact NoPanic.bind (NoPanic.enum _) fun _ _ => NoPanic.ok _

/-! ## Arm code, ArmRequest -/

theorem isDigit_iff : ∀ b : UInt8,
    (!(decide (b' '0' ≤ b) && decide (b ≤ b' '9'))) = true ↔ ¬ IsDigit b := by
  unfold IsDigit
  apply forall_u8; decide +kernel

theorem armCode_ok {value : Bytes} {c : ArmCode} :
    ArmCode.tryFromBytes value = .ok c ↔ c.code.toList = value ∧ WfArmCode c := by
  unfold ArmCode.tryFromBytes
  simp only [R_bind_ok, failIf_ok, liftP_ok, toArrayN_ok]
  have key : ∀ v : Vector UInt8 6,
      (¬ (v.toList.any fun b => !(decide (b' '0' ≤ b) && decide (b ≤ b' '9'))) = true) ↔
        WfArmCode ⟨v⟩ := by
    intro v
    rw [List.any_eq_true]
    simp only [isDigit_iff, WfArmCode, not_exists, not_and, Classical.not_not]
  constructor
  · rintro ⟨_, hl, v, hv, _, hd, h⟩
    injection h with h; subst h
    exact ⟨hv, (key v).mp hd⟩
  · rintro ⟨h, hw⟩
    refine ⟨(), ?_, c.code, h, (), (key _).mpr hw, rfl⟩
    rw [← h]; simp

theorem NoPanic.armCode (value : Bytes) : NoPanic (ArmCode.tryFromBytes value) := by
  refine NoPanic.bind (NoPanic.failIf _) fun _ hl => ?_
  rw [failIf_ok] at hl
  refine NoPanic.bind (NoPanic.toArrayN (by omega)) fun _ _ => ?_
  exact NoPanic.bind (NoPanic.failIf _) fun _ _ => NoPanic.ok _

theorem parseU8Dec_dig : ∀ n : UInt8, n.toNat < 10 → ∀ name, parseU8Dec name [dig n.toNat] = .ok n := by
  have : ∀ n : UInt8, n.toNat < 10 → fromStrDec 255 [dig n.toNat] = some n.toNat := by
    apply forall_u8; decide +kernel
  intro n h
  simp [parseU8Dec, this n h]

theorem armRequest_fwd {m : ArmRequest} (h : WfMessage (.armRequest m)) {y : Bytes}
    (hy : 2 ≤ y.length) :
    ArmRequest.fromAscii (b' (armLevelChar m.level)) (msgData (.armRequest m) ++ y) = .ok m := by
  obtain ⟨ha, hc⟩ := h
  have hl : m.code.code.toList.length = 6 := by simp
  have hp := parseU8Dec_dig m.area.val (by have := ha.2; omega)
  have hs : slice (msgData (.armRequest m) ++ y) 1 7 = .ok m.code.code.toList := by
    rw [slice_ok_iff]
    refine ⟨by simp [msgData], ?_⟩
    simp [msgData]
  have hs0 : parseField "area" (msgData (.armRequest m) ++ y) 0 1 = .ok m.area.val := by
    simp [msgData, parseField, slice, liftP, R_ok_bind, hp]
  unfold ArmRequest.fromAscii armLevelExpect
  rw [armLevel_char, enum_code]
  dsimp only
  rw [R_ok_bind, failIf_neg (by simp [msgData]; omega), R_ok_bind, hs0, R_ok_bind, limited_val ha,
    R_ok_bind, hs]
  simp only [liftP]
  rw [R_ok_bind, armCode_ok.mpr ⟨rfl, hc⟩]
  rfl

theorem armRequest_bwd {m : ArmRequest} {sub : UInt8} {data : Bytes}
    (h : ArmRequest.fromAscii sub data = .ok m) :
    sub = b' (armLevelChar m.level) ∧ WfMessage (.armRequest m) ∧
      ∃ x y, data = x ++ y ∧ x = msgData (.armRequest m) ∧ 2 ≤ y.length := by
  unfold ArmRequest.fromAscii at h
  simp only [R_bind_ok, failIf_ok, liftP_ok] at h
  obtain ⟨l, hl, _, hlen, a, ha, ar, har, s, hs, c, hc, h⟩ := h
  injection h with h; subst h
  have hl' : ByteEnum.code l = sub := by
    unfold armLevelExpect at hl
    split at hl
    · rename_i l' hl'
      injection hl with hl; subst hl
      exact enum_ok.mp hl'
    · cases hl
  rw [armCode_ok] at hc
  rw [slice_ok_iff] at hs
  obtain ⟨a0, t, rfl, ht⟩ := length_ge_cons (n := 8) (by omega : 8 + 1 ≤ data.length)
  simp [parseField, slice, liftP, R_ok_bind] at ha
  obtain ⟨rfl, har'⟩ := limited_ok.mp har
  refine ⟨by rw [armLevel_char, hl'], ⟨har', hc.2⟩, a0 :: s, t.drop 6, ?_, ?_, by simp; omega⟩
  · rw [← hs.2]; simp
  · rw [msgData]
    dsimp only
    rw [hc.1, ← (parseU8Dec1_ok ha).2]
    rfl

theorem NoPanic.armRequest {sub : UInt8} (hs : ∃ l : ArmLevel, ByteEnum.code l = sub)
    (data : Bytes) : NoPanic (ArmRequest.fromAscii sub data) := by
  obtain ⟨l, rfl⟩ := hs
  unfold ArmRequest.fromAscii armLevelExpect
  rw [enum_code]
  refine NoPanic.bind (NoPanic.ok _) fun _ _ => ?_
  refine NoPanic.bind (NoPanic.failIf _) fun _ hl => ?_
  rw [failIf_ok] at hl
  refine NoPanic.bind (NoPanic.parseField (by omega)) fun _ _ => ?_
  refine NoPanic.bind (NoPanic.limited _) fun _ _ => ?_
  refine NoPanic.bind (NoPanic.slice (by omega)) fun _ _ => ?_
  exact NoPanic.bind (NoPanic.armCode _) fun _ _ => NoPanic.ok _

/-! ## EE -/

theorem areaDigit_fwd : ∀ n : UInt8, 1 ≤ n.toNat ∧ n.toNat ≤ 8 →
    b' '1' ≤ dig n.toNat ∧ dig n.toNat ≤ b' '8' ∧ dig n.toNat - b' '0' = n := by
  apply forall_u8; decide +kernel

theorem areaDigit_bwd : ∀ b : UInt8, b' '1' ≤ b ∧ b ≤ b' '8' →
    1 ≤ (b - b' '0').toNat ∧ (b - b' '0').toNat ≤ 8 ∧ dig (b - b' '0').toNat = b := by
  apply forall_u8; decide +kernel

theorem areaDigit_ok {b : UInt8} {a : Area} :
    areaDigit b = .ok a ↔ InRange a ∧ b = dig a.val.toNat := by
  unfold areaDigit InRange
  constructor
  · intro h
    split at h
    · rename_i hb
      injection h with h; subst h
      have := areaDigit_bwd b hb
      exact ⟨⟨this.1, this.2.1⟩, this.2.2.symm⟩
    · cases h
  · rintro ⟨h, rfl⟩
    have := areaDigit_fwd a.val h
    rw [if_pos ⟨this.1, this.2.1⟩, this.2.2]

theorem NoPanic.areaDigit (b : UInt8) : NoPanic (areaDigit b) := by
  unfold Elk.areaDigit; split
  · exact NoPanic.ok _
  · exact NoPanic.err _

theorem sendTimeData_fwd {m : SendTimeData} (h : WfMessage (.sendTimeData m)) {x y : Bytes}
    (hx : Written (.sendTimeData m) x) (hy : TailOk (.sendTimeData m) y) :
    SendTimeData.fromAsciiData (x ++ y) = .ok m := by
  obtain ⟨area, ty, t1, t2, st⟩ := m
  obtain ⟨u1, u2, h1, h2, hx⟩ := hx
  obtain ⟨a, b, c, rfl, hp⟩ := three_parse h1
  obtain ⟨d, e, f, rfl, hq⟩ := three_parse h2
  dsimp only at hx hp hq
  have ha : areaDigit (dig area.val.toNat) = .ok area := areaDigit_ok.mpr ⟨h, rfl⟩
  have hlen : ¬ (x ++ y).length < 10 := by
    rw [hx]
    cases st <;> simp [TailOk] at hy <;> simp <;> omega
  unfold SendTimeData.fromAsciiData
  rw [failIf_neg hlen, R_ok_bind]
  have e0 : idx (x ++ y) 0 = .ok (dig area.val.toNat) := by simp [hx, idx]
  have e1 : idx (x ++ y) 1 = .ok (ByteEnum.code ty) := by simp [hx, idx, timeType_char]
  have e2 : parseField "timer1" (x ++ y) 2 5 = .ok t1 := by
    simp [hx, parseField, slice, liftP, R_ok_bind, hp]
  have e3 : parseField "timer2" (x ++ y) 5 8 = .ok t2 := by
    simp [hx, parseField, slice, liftP, R_ok_bind, hq]
  have e4 : armedStateField (x ++ y) = .ok st := by
    unfold armedStateField
    cases st with
    | none =>
      simp [TailOk] at hy
      rw [if_pos (by simp [hx]; omega)]
    | some s =>
      simp [TailOk] at hy
      rw [if_neg (by simp [hx]; omega)]
      have : idx (x ++ y) 8 = .ok (ByteEnum.code s) := by simp [hx, idx, armedState_char]
      rw [this]
      simp only [liftP, R_ok_bind, enum_code]
  rw [e0, e1, e2, e3, e4]
  simp only [liftP, R_ok_bind, enum_code, ha]

theorem sendTimeData_bwd {m : SendTimeData} {data : Bytes}
    (h : SendTimeData.fromAsciiData data = .ok m) :
    WfMessage (.sendTimeData m) ∧
      ∃ x y, data = x ++ y ∧ Written (.sendTimeData m) x ∧
        TailOk (.sendTimeData m) y := by
  unfold SendTimeData.fromAsciiData at h
  simp only [R_bind_ok, failIf_ok, liftP_ok, enum_ok, idx_ok_iff, areaDigit_ok] at h
  obtain ⟨_, hl, a, ha, ar, ⟨har, har2⟩, b, hb, ty, hty, t1, ht1, t2, ht2, st, hst, h⟩ := h
  injection h with h; subst h
  obtain ⟨a0, a1, a2, a3, a4, a5, a6, a7, a8, t, rfl⟩ := split9 (by omega : 9 ≤ data.length)
  simp [parseField, slice, liftP, R_ok_bind] at ht1 ht2
  simp at ha hb
  subst ha hb
  refine ⟨har, ?_⟩
  unfold armedStateField at hst
  have hpre : [a0, a1] = [dig ar.val.toNat, b' (timeTypeChar ty)] := by
    rw [timeType_char, hty, ← har2]
  split at hst
  · rename_i hl2
    injection hst with hst; subst hst
    refine ⟨[a0, a1] ++ [a2, a3, a4] ++ [a5, a6, a7], a8 :: t, rfl,
      ⟨_, _, parseU8Dec3_ok ht1, parseU8Dec3_ok ht2, ?_⟩, ?_⟩
    · rw [hpre]; rfl
    · simp [TailOk] at hl hl2 ⊢; omega
  · rename_i hl2
    simp only [R_bind_ok, liftP_ok, enum_ok, idx_ok_iff] at hst
    obtain ⟨c, hc, s, hs, hst⟩ := hst
    injection hst with hst; subst hst
    simp at hc; subst hc
    refine ⟨[a0, a1] ++ [a2, a3, a4] ++ [a5, a6, a7] ++ [a8], t, rfl,
      ⟨_, _, parseU8Dec3_ok ht1, parseU8Dec3_ok ht2, ?_⟩, ?_⟩
    · rw [hpre, ← hs, ← armedState_char]; rfl
    · simp [TailOk] at hl hl2 ⊢; omega

theorem NoPanic.sendTimeData (data : Bytes) : NoPanic (SendTimeData.fromAsciiData data) := by
  refine NoPanic.bind (NoPanic.failIf _) fun _ hl => ?_
  rw [failIf_ok] at hl
  refine NoPanic.bind (NoPanic.idx (by omega)) fun _ _ => ?_
  refine NoPanic.bind (NoPanic.areaDigit _) fun _ _ => ?_
  refine NoPanic.bind (NoPanic.idx (by omega)) fun _ _ => ?_
  refine NoPanic.bind (NoPanic.enum _) fun _ _ => ?_
  refine NoPanic.bind (NoPanic.parseField (by omega)) fun _ _ => ?_
  refine NoPanic.bind (NoPanic.parseField (by omega)) fun _ _ => ?_
  refine NoPanic.bind ?_ fun _ _ => NoPanic.ok _
  unfold armedStateField
  split
  · exact NoPanic.ok _
  · refine NoPanic.bind (NoPanic.idx (by omega)) fun _ _ => ?_
    exact NoPanic.bind (NoPanic.enum _) fun _ _ => NoPanic.ok _

/-! ## ZS -/

theorem zoneStatusReport_fwd {m : ZoneStatusReport} (h : WfMessage (.zoneStatusReport m))
    (y : Bytes) :
    ZoneStatusReport.fromAsciiData (msgData (.zoneStatusReport m) ++ y) = .ok m := by
  unfold ZoneStatusReport.fromAsciiData
  rw [failIf_neg (by simp [msgData, numZones]), R_ok_bind]
  rw [R_bind_ok]
  refine ⟨m.zones, ?_, rfl⟩
  · rw [fillM_ok]
    intro i hi
    have hidx : idx (msgData (.zoneStatusReport m) ++ y) i
        = .ok (hexDigit m.zones[i].val.toNat) := by
      rw [idx_ok_iff, List.getElem?_append_left (by simp [msgData, hi])]
      simp [msgData, hi]
    rw [hidx]
    simp only [liftP, R_ok_bind]
    exact zoneStatus_fwd (h _ (by simp))

theorem zoneStatusReport_bwd {m : ZoneStatusReport} {data : Bytes}
    (h : ZoneStatusReport.fromAsciiData data = .ok m) :
    WfMessage (.zoneStatusReport m) ∧
      ∃ x y, data = x ++ y ∧ x = msgData (.zoneStatusReport m) := by
  unfold ZoneStatusReport.fromAsciiData at h
  simp only [R_bind_ok, failIf_ok, fillM_ok, liftP_ok, idx_ok_iff] at h
  obtain ⟨_, hl, z, hz, h⟩ := h
  injection h with h; subst h
  simp only [numZones] at hl
  constructor
  · intro s hs
    obtain ⟨i, hi, rfl⟩ := List.getElem_of_mem hs
    simp at hi
    obtain ⟨a, _, ha⟩ := hz i hi
    simpa using (zoneStatus_bwd ha).1
  · refine ⟨data.take 208, data.drop 208, by simp, ?_⟩
    have : data.take 208 = msgData (.zoneStatusReport ⟨z⟩) := by
      apply List.ext_getElem?
      intro i
      by_cases hi : i < 208
      · obtain ⟨a, ha1, ha⟩ := hz i hi
        rw [List.getElem?_take_of_lt hi, ha1, (zoneStatus_bwd ha).2]
        simp [msgData, hi]
      · rw [List.getElem?_eq_none (by simp; omega), List.getElem?_eq_none (by simp [msgData]; omega)]
    exact this

theorem NoPanic.zoneStatusReport (data : Bytes) :
    NoPanic (ZoneStatusReport.fromAsciiData data) := by
  refine NoPanic.bind (NoPanic.failIf _) fun _ hl => ?_
  rw [failIf_ok] at hl
  simp only [numZones] at hl
  refine NoPanic.bind (NoPanic.fillM fun i hi => ?_) fun _ _ => NoPanic.ok _
  exact NoPanic.bind (NoPanic.idx (by omega)) fun _ _ => NoPanic.zoneStatus _

/-! ## IC -/

theorem sendCode_fwd {m : SendCode} (h : WfMessage (.sendCode m)) {x y : Bytes}
    (hx : Written (.sendCode m) x) (hy : 2 ≤ y.length) : SendCode.fromAsciiData (x ++ y) = .ok m := by
  obtain ⟨code, user, keypad⟩ := m
  obtain ⟨u, k, h1, h2, hx⟩ := hx
  obtain ⟨a, b, c, rfl, hp⟩ := three_parse h1
  obtain ⟨d, e, rfl, hq⟩ := two_parse h2
  dsimp only at hx hp hq
  have hlc : (code.toList.flatMap fun b => hex2 b.toNat).length = 12 := by
    simp [hex2, List.length_flatMap]
    rw [List.map_const']; simp
  have hl : x.length = 17 := by
    simp only [hx, List.length_append, hlc]; rfl
  unfold SendCode.fromAsciiData
  rw [failIf_neg (by simp [hl]; omega), R_ok_bind]
  have hk : InRange keypad := h
  have e1 : parseField "user" (x ++ y) 12 15 = .ok user := by
    simp only [hx, List.append_assoc, List.cons_append, List.nil_append]
    rw [parseField3 hlc rfl]
    exact hp _
  have e2 : parseField "keypad" (x ++ y) 15 17 = .ok keypad.val := by
    have : x ++ y = ((code.toList.flatMap fun b => hex2 b.toNat) ++ [a, b, c]) ++ d :: e :: y := by
      simp [hx]
    rw [this, parseField2 (by simp only [List.length_append, hlc]; rfl) rfl]
    exact hq _
  have e3 : fillM (fun i => do
      let hi ← liftP (idx (x ++ y) (2 * i))
      let lo ← liftP (idx (x ++ y) (2 * i + 1))
      okOr (dehexByte hi lo) (bs "invalid hex code")) 6 = .ok code := by
    rw [fillM_ok]
    intro i hi
    obtain ⟨⟨l⟩, hcl⟩ := code
    simp at hcl
    obtain ⟨c0, c1, c2, c3, c4, c5, rfl⟩ : ∃ c0 c1 c2 c3 c4 c5, l = [c0, c1, c2, c3, c4, c5] := by
      match l, hcl with
      | [c0, c1, c2, c3, c4, c5], _ => exact ⟨c0, c1, c2, c3, c4, c5, rfl⟩
    have hxx : ∀ c : UInt8, hex2 c.toNat = [hexNibble (c >>> 4), hexNibble c] := fun c => by
      rw [hex2_eq]; rfl
    have hd : ∀ c : UInt8, dehexByte (hexNibble (c >>> 4)) (hexNibble c) = some c := fun c =>
      dehexByte_hexByte c _ _ rfl
    match i, hi with
    | 0, _ => simp [hx, hxx, idx, liftP, R_ok_bind, hd, okOr]
    | 1, _ => simp [hx, hxx, idx, liftP, R_ok_bind, hd, okOr]
    | 2, _ => simp [hx, hxx, idx, liftP, R_ok_bind, hd, okOr]
    | 3, _ => simp [hx, hxx, idx, liftP, R_ok_bind, hd, okOr]
    | 4, _ => simp [hx, hxx, idx, liftP, R_ok_bind, hd, okOr]
    | 5, _ => simp [hx, hxx, idx, liftP, R_ok_bind, hd, okOr]
  rw [e3, R_ok_bind, e1, R_ok_bind, e2, R_ok_bind, limited_val hk]
  rfl

theorem sendCode_bwd {m : SendCode} {data : Bytes} (h : SendCode.fromAsciiData data = .ok m) :
    WfMessage (.sendCode m) ∧
      ∃ x y, data = x ++ y ∧ Written (.sendCode m) x ∧ 2 ≤ y.length := by
  unfold SendCode.fromAsciiData at h
  simp only [R_bind_ok, failIf_ok, liftP_ok, idx_ok_iff, fillM_ok, okOr_ok] at h
  obtain ⟨_, hl, code, hcode, user, huser, k, hk, kp, hkp, h⟩ := h
  injection h with h; subst h
  obtain ⟨rfl, hkp'⟩ := limited_ok.mp hkp
  refine ⟨hkp', ?_⟩
  obtain ⟨hd, t, hdl, rfl⟩ : ∃ hd t : Bytes, hd.length = 12 ∧ data = hd ++ t :=
    ⟨data.take 12, data.drop 12, by simp; omega, by simp⟩
  obtain ⟨u0, u1, u2, k0, k1, r, rfl⟩ := split5 (by simp at hl; omega : 5 ≤ t.length)
  rw [parseField3 hdl rfl] at huser
  have : hd ++ u0 :: u1 :: u2 :: k0 :: k1 :: r = (hd ++ [u0, u1, u2]) ++ k0 :: k1 :: r := by simp
  rw [this, parseField2 (by simp [hdl]) rfl] at hk
  refine ⟨hd ++ [u0, u1, u2] ++ [k0, k1], r, by simp, ?_, by simp [hdl] at hl; omega⟩
  have hh : hd = code.toList.flatMap fun b => hex2 b.toNat := by
    obtain ⟨d0, d1, d2, d3, d4, d5, d6, d7, d8, d9, d10, d11, rfl⟩ : ∃ d0 d1 d2 d3 d4 d5 d6 d7 d8
        d9 d10 d11, hd = [d0, d1, d2, d3, d4, d5, d6, d7, d8, d9, d10, d11] := by
      match hd, hdl with
      | [d0, d1, d2, d3, d4, d5, d6, d7, d8, d9, d10, d11], _ => exact ⟨_, _, _, _, _, _, _, _, _,
          _, _, _, rfl⟩
    obtain ⟨⟨l⟩, hcl⟩ := code
    simp at hcl
    obtain ⟨c0, c1, c2, c3, c4, c5, rfl⟩ : ∃ c0 c1 c2 c3 c4 c5, l = [c0, c1, c2, c3, c4, c5] := by
      match l, hcl with
      | [c0, c1, c2, c3, c4, c5], _ => exact ⟨c0, c1, c2, c3, c4, c5, rfl⟩
    have h0 := hcode 0 (by omega)
    have h1 := hcode 1 (by omega)
    have h2 := hcode 2 (by omega)
    have h3 := hcode 3 (by omega)
    have h4 := hcode 4 (by omega)
    have h5 := hcode 5 (by omega)
    simp only [dehexByte_eq_some_iff, ← hex2_eq] at h0 h1 h2 h3 h4 h5
    simp at h0 h1 h2 h3 h4 h5
    simp [h0, h1, h2, h3, h4, h5]
  refine ⟨_, _, parseU8Dec3_ok huser, parseU8Dec2_ok hk, ?_⟩
  dsimp only
  rw [← hh]

theorem NoPanic.sendCode (data : Bytes) : NoPanic (SendCode.fromAsciiData data) := by
  refine NoPanic.bind (NoPanic.failIf _) fun _ hl => ?_
  rw [failIf_ok] at hl
  refine NoPanic.bind (NoPanic.fillM fun i hi => ?_) fun _ _ => ?_
  · refine NoPanic.bind (NoPanic.idx (by omega)) fun _ _ => ?_
    refine NoPanic.bind (NoPanic.idx (by omega)) fun _ _ => ?_
    exact NoPanic.okOr _ _
  refine NoPanic.bind (NoPanic.parseField (by omega)) fun _ _ => ?_
  refine NoPanic.bind (NoPanic.parseField (by omega)) fun _ _ => ?_
  exact NoPanic.bind (NoPanic.limited _) fun _ _ => NoPanic.ok _

/-! ## AS -/

theorem armingData_get {m : ArmingStatusReport} {y : Bytes} {i : Nat} (hi : i < 8) :
    (msgData (.armingStatusReport m) ++ y)[i]? = some (ByteEnum.code m.armingStatus[i]) ∧
    (msgData (.armingStatusReport m) ++ y)[8 + i]? = some (ByteEnum.code m.upState[i]) ∧
    (msgData (.armingStatusReport m) ++ y)[16 + i]? = some (ByteEnum.code m.alarmState[i]) := by
  simp only [msgData, armingStatus_char, armUp_char, alarm_char, List.append_assoc]
  refine ⟨?_, ?_, ?_⟩
  · rw [List.getElem?_append_left (by simpa using hi)]
    simp [hi]
  · rw [List.getElem?_append_right (by simp), List.getElem?_append_left (by simp; omega)]
    simp [hi]
  · rw [List.getElem?_append_right (by simp; omega), List.getElem?_append_right (by simp; omega),
      List.getElem?_append_left (by simp; omega)]
    have : 16 + i - 8 - 8 = i := by omega
    simp [this, hi]

theorem armingData_hex {m : ArmingStatusReport} {y : Bytes} :
    ∃ a b, hexByte m.firstExitTime = [a, b] ∧
      (msgData (.armingStatusReport m) ++ y)[24]? = some a ∧
      (msgData (.armingStatusReport m) ++ y)[25]? = some b := by
  refine ⟨_, _, rfl, ?_, ?_⟩ <;>
  · simp only [msgData, List.append_assoc, hex2_eq, hexByte]
    rw [List.getElem?_append_right (by simp), List.getElem?_append_right (by simp),
      List.getElem?_append_right (by simp)]
    simp

theorem arming_fwd (m : ArmingStatusReport) (y : Bytes) :
    ArmingStatusReport.fromAsciiData (msgData (.armingStatusReport m) ++ y) = .ok m := by
  unfold ArmingStatusReport.fromAsciiData
  rw [failIf_neg (by simp [msgData, hex2]; omega), R_ok_bind, R_bind_ok]
  refine ⟨Vector.ofFn fun i : Fin 8 => (m.armingStatus[i], m.upState[i], m.alarmState[i]), ?_, ?_⟩
  · rw [fillM_ok]
    intro i hi
    obtain ⟨h1, h2, h3⟩ := armingData_get (m := m) (y := y) hi
    simp only [numAreas, R_bind_ok, liftP_ok, idx_ok_iff, enum_ok]
    exact ⟨_, h1, _, rfl, _, h2, _, rfl, _, h3, _, rfl, by simp⟩
  · obtain ⟨a, b, hab, ha, hb⟩ := armingData_hex (m := m) (y := y)
    simp only [R_bind_ok, liftP_ok, idx_ok_iff, okOr_ok]
    refine ⟨a, ha, b, hb, _, dehexByte_hexByte _ _ _ hab, ?_⟩
    obtain ⟨s, u, al, e⟩ := m
    congr 1
    congr 1
    · ext i hi; simp
    · ext i hi; simp
    · ext i hi; simp

theorem arming_bwd {m : ArmingStatusReport} {data : Bytes}
    (h : ArmingStatusReport.fromAsciiData data = .ok m) :
    ∃ x y, data = x ++ y ∧ x = msgData (.armingStatusReport m) := by
  unfold ArmingStatusReport.fromAsciiData at h
  simp only [numAreas, R_bind_ok, failIf_ok, liftP_ok, idx_ok_iff, fillM_ok, okOr_ok, enum_ok] at h
  obtain ⟨_, hl, v, hv, a, ha, b, hb, t, ht, h⟩ := h
  injection h with h; subst h
  refine ⟨data.take 26, data.drop 26, by simp, ?_⟩
  have : data.take 26 = msgData (.armingStatusReport
      ⟨v.map (·.1), v.map (·.2.1), v.map (·.2.2), t⟩) := by
    apply List.ext_getElem?
    intro i
    generalize hm : (⟨v.map (·.1), v.map (·.2.1), v.map (·.2.2), t⟩ : ArmingStatusReport) = m
    have key : ∀ k (hk : k < 8), data[k]? = some (ByteEnum.code m.armingStatus[k]) ∧
        data[8 + k]? = some (ByteEnum.code m.upState[k]) ∧
        data[16 + k]? = some (ByteEnum.code m.alarmState[k]) := by
      intro k hk
      obtain ⟨x, hx, s, hs, x2, hx2, u, hu, x3, hx3, al, hal, he⟩ := hv k hk
      injection he with he
      subst hm
      simp only [Vector.getElem_map, ← he, hs, hu, hal]
      exact ⟨hx, hx2, hx3⟩
    by_cases h26 : i < 26
    · rw [List.getElem?_take_of_lt h26]
      have get := fun k (hk : k < 8) => armingData_get (m := m) (y := []) hk
      have hex := armingData_hex (m := m) (y := [])
      simp only [List.append_nil] at get hex
      by_cases h8 : i < 8
      · rw [(key i h8).1, (get i h8).1]
      · by_cases h16 : i < 16
        · have e : i = 8 + (i - 8) := by omega
          rw [e, (key (i - 8) (by omega)).2.1, (get (i - 8) (by omega)).2.1]
        · by_cases h24 : i < 24
          · have e : i = 16 + (i - 16) := by omega
            rw [e, (key (i - 16) (by omega)).2.2, (get (i - 16) (by omega)).2.2]
          · obtain ⟨a', b', hab, ha', hb'⟩ := hex
            have h2 : hexByte m.firstExitTime = [a, b] := by
              rw [← hm]; exact dehexByte_eq_some_iff.mp ht
            rw [h2] at hab
            simp at hab
            obtain ⟨rfl, rfl⟩ := hab
            by_cases h24' : i = 24
            · rw [h24', ha, ha']
            · have : i = 25 := by omega
              rw [this, hb, hb']
    · rw [List.getElem?_eq_none (by simp; omega), List.getElem?_eq_none]
      simp [msgData, hex2]; omega
  exact this

theorem NoPanic.arming (data : Bytes) : NoPanic (ArmingStatusReport.fromAsciiData data) := by
  refine NoPanic.bind (NoPanic.failIf _) fun _ hl => ?_
  rw [failIf_ok] at hl
  refine NoPanic.bind (NoPanic.fillM fun i hi => ?_) fun _ _ => ?_
  · simp only [numAreas]
    refine NoPanic.bind (NoPanic.idx (by omega)) fun _ _ => ?_
    refine NoPanic.bind (NoPanic.enum _) fun _ _ => ?_
    refine NoPanic.bind (NoPanic.idx (by omega)) fun _ _ => ?_
    refine NoPanic.bind (NoPanic.enum _) fun _ _ => ?_
    refine NoPanic.bind (NoPanic.idx (by omega)) fun _ _ => ?_
    exact NoPanic.bind (NoPanic.enum _) fun _ _ => NoPanic.ok _
  refine NoPanic.bind (NoPanic.idx (by omega)) fun _ _ => ?_
  refine NoPanic.bind (NoPanic.idx (by omega)) fun _ _ => ?_
  exact NoPanic.bind (NoPanic.okOr _ _) fun _ _ => NoPanic.ok _

end Elk
