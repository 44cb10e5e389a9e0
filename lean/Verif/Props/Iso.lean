import Verif.Lemmas.Complaint
import Verif.Props.Msg
import Verif.Spec.Iso
/-!
# Exactly which texts are dates (C119)
-/

namespace Elk.Props
open Elk.Spec

theorem boundary_iff {s : Bytes} {i : Nat} (hi : i ≤ s.length) :
    isCharBoundary s i = true ↔ ¬ Across s i := by
  unfold isCharBoundary Across
  split
  · rename_i b hb
    rw [hb, Bool.or_eq_true, decide_eq_true_eq, decide_eq_true_eq, UInt8.lt_iff_toNat_lt,
      UInt8.le_iff_toNat_le]
    constructor
    · rintro h ⟨b', hb', h1, h2⟩
      cases hb'
      have e1 : (0x80 : UInt8).toNat = 128 := rfl
      have e2 : (0xC0 : UInt8).toNat = 192 := rfl
      omega
    · intro h
      have e1 : (0x80 : UInt8).toNat = 128 := rfl
      have e2 : (0xC0 : UInt8).toNat = 192 := rfl
      by_cases h1 : b.toNat < 128
      · exact .inl (by omega)
      · refine .inr ?_
        rw [e2]
        by_cases h2 : 192 ≤ b.toNat
        · exact h2
        · exact absurd ⟨b, rfl, by omega, by omega⟩ h
  · rename_i hb
    rw [hb]
    rw [List.getElem?_eq_none_iff] at hb
    constructor
    · rintro _ ⟨b, h, _⟩; cases h
    · intro _; simp; omega

theorem slice_eq {s : Bytes} {i j : Nat} (hi : i ≤ j) (hj : j ≤ s.length) (h0 : ¬ Across s i) :
    (Across s j ∧ strSlice s i j = .error .slice) ∨
      (¬ Across s j ∧ strSlice s i j = .ok (fieldAt s i (j - i))) := by
  unfold strSlice
  by_cases h : Across s j
  · exact .inl ⟨h, if_neg fun h' => (boundary_iff hj).mp h'.2.2 h⟩
  · refine .inr ⟨h, ?_⟩
    rw [if_pos ⟨hi, (boundary_iff (by omega)).mpr h0, (boundary_iff hj).mpr h⟩, fieldAt,
      List.drop_take]

theorem reads_bound {s : Bytes} {v : Nat} (h : Reads s v) : v < 10 ^ s.length := by
  have key : ∀ (l : Bytes) (acc : Nat), (∀ b ∈ l, IsDigit b) →
      l.foldl (fun n b => 10 * n + (b.toNat - 48)) acc < (acc + 1) * 10 ^ l.length := by
    intro l
    induction l with
    | nil => intro acc _; simp
    | cons b l ih =>
      intro acc hb
      have hd := hb b List.mem_cons_self
      unfold IsDigit at hd
      rw [List.foldl_cons, List.length_cons]
      refine Nat.lt_of_lt_of_le (ih _ fun b h => hb b (List.mem_cons_of_mem _ h)) ?_
      rw [Nat.pow_succ, Nat.mul_comm (10 ^ l.length) 10, ← Nat.mul_assoc]
      exact Nat.mul_le_mul_right _ (by omega)
  obtain ⟨ds, hs, _, hd, rfl⟩ := h
  have h1 : digitsValue ds < 10 ^ ds.length := by
    have := key ds 0 hd
    rw [Nat.zero_add, Nat.one_mul] at this
    exact this
  refine Nat.lt_of_lt_of_le h1 (Nat.pow_le_pow_right (by omega) ?_)
  rcases hs with rfl | rfl <;> simp

theorem reads_inj {s : Bytes} {v w : Nat} (h1 : Reads s v) (h2 : Reads s w) : v = w := by
  have a := reads_fromStr h1 (Nat.le_max_left v w)
  have b := reads_fromStr h2 (Nat.le_max_right v w)
  rw [a] at b
  exact Option.some.inj b

theorem field_len {s : Bytes} {i n : Nat} : (fieldAt s i n).length ≤ n := by
  unfold fieldAt; simp; omega

/-- What a number field comes to. -/
theorem isoField_case {max : Nat} {s : Bytes} {i j : Nat} {msg : String} (hi : i ≤ j)
    (hj : j ≤ s.length) (h0 : ¬ Across s i) (hm : 10 ^ (j - i) ≤ max + 1) :
    (Across s j ∧ isoField max s i j msg = .error (.panic .slice)) ∨
    (¬ Across s j ∧ ((∃ v, Reads (fieldAt s i (j - i)) v ∧ isoField max s i j msg = .ok v) ∨
      ((∀ v, ¬ Reads (fieldAt s i (j - i)) v) ∧ isoField max s i j msg = .error (.err (bs msg))))) := by
  unfold isoField
  rcases slice_eq hi hj h0 with ⟨h, e⟩ | ⟨h, e⟩
  · exact .inl ⟨h, by rw [e]; rfl⟩
  · refine .inr ⟨h, ?_⟩
    rw [e]
    simp only [liftP, R_ok_bind]
    cases hf : fromStrDec max (fieldAt s i (j - i)) with
    | some v => exact .inl ⟨v, fromStr_reads hf, rfl⟩
    | none =>
      refine .inr ⟨fun v hv => fromStr_none hf v ?_ hv, rfl⟩
      have h1 := reads_bound hv
      have h2 : 10 ^ (fieldAt s i (j - i)).length ≤ 10 ^ (j - i) :=
        Nat.pow_le_pow_right (by omega) field_len
      omega

theorem charAt_field {s : Bytes} {i : Nat} {c : Char} : fieldAt s i 1 = [b' c] ↔ CharAt s i c := by
  unfold fieldAt CharAt
  rw [← List.head?_drop]
  cases s.drop i with
  | nil => simp
  | cons a l => simp

/-- What a separator comes to. -/
theorem isoSep_case {s : Bytes} {i : Nat} {c : Char} {msg : String}
    (hj : i + 1 ≤ s.length) (h0 : ¬ Across s i) :
    (Across s (i + 1) ∧ isoSep s i c msg = .error (.panic .slice)) ∨
    (¬ Across s (i + 1) ∧ ((CharAt s i c ∧ isoSep s i c msg = .ok ()) ∨
      (¬ CharAt s i c ∧ isoSep s i c msg = .error (.err (bs msg))))) := by
  unfold isoSep
  rcases slice_eq (Nat.le_succ i) hj h0 with ⟨h, e⟩ | ⟨h, e⟩
  · exact .inl ⟨h, by rw [e]; rfl⟩
  · refine .inr ⟨h, ?_⟩
    rw [e]
    simp only [liftP, R_ok_bind]
    rw [show i.succ - i = 1 by omega]
    by_cases hc : CharAt s i c
    · exact .inl ⟨hc, failIf_neg (by simpa using charAt_field.mpr hc)⟩
    · refine .inr ⟨hc, ?_⟩
      unfold failIf
      rw [if_pos (by simpa using fun h => hc (charAt_field.mp h))]
      rfl

/-- What follows a number field panics or not. -/
theorem field_panic {max : Nat} {s : Bytes} {i j n : Nat} {msg : String} {f : Nat → R DateTime}
    {q : Panic} {B : Prop}
    (hi : i + n = j) (hj : j ≤ s.length) (h0 : ¬ Across s i) (hm : 10 ^ n ≤ max + 1)
    (hf : ¬ Across s j → ((∃ v, Reads (fieldAt s i n) v ∧ f v = .error (.panic q)) ↔
      q = .slice ∧ B)) :
    (isoField max s i j msg >>= f) = .error (.panic q) ↔ q = .slice ∧ (Across s j ∨ B) := by
  have hn : j - i = n := by omega
  have hc := isoField_case (msg := msg) (max := max) (by omega) hj h0 (by rw [hn]; exact hm)
  rw [hn] at hc
  rcases hc with ⟨h, e⟩ | ⟨h, ⟨v, hv, e⟩ | ⟨hv, e⟩⟩
  · rw [e]
    constructor
    · intro h'; cases h'; exact ⟨rfl, .inl h⟩
    · rintro ⟨rfl, _⟩; rfl
  · rw [e, R_ok_bind]
    have := hf h
    constructor
    · intro h'
      obtain ⟨hq, hb⟩ := this.mp ⟨v, hv, h'⟩
      exact ⟨hq, .inr hb⟩
    · rintro ⟨hq, h' | hb⟩
      · exact absurd h' h
      · obtain ⟨w, hw, h'⟩ := this.mpr ⟨hq, hb⟩
        rw [reads_inj hv hw]; exact h'
  · rw [e]
    have := hf h
    constructor
    · intro h'; cases h'
    · rintro ⟨hq, h' | hb⟩
      · exact absurd h' h
      · obtain ⟨w, hw, h'⟩ := this.mpr ⟨hq, hb⟩
        exact absurd hw (hv w)

theorem sep_panic {s : Bytes} {i j : Nat} {c : Char} {msg : String} {f : Unit → R DateTime}
    {q : Panic} {B : Prop} (hi : i + 1 = j) (hj : j ≤ s.length) (h0 : ¬ Across s i)
    (hf : ¬ Across s j → CharAt s i c → (f () = .error (.panic q) ↔ q = .slice ∧ B)) :
    (isoSep s i c msg >>= f) = .error (.panic q) ↔
      q = .slice ∧ (Across s j ∨ (CharAt s i c ∧ B)) := by
  subst hi
  rcases isoSep_case (c := c) (msg := msg) hj h0 with ⟨h, e⟩ | ⟨h, ⟨hv, e⟩ | ⟨hv, e⟩⟩
  · rw [e]
    constructor
    · intro h'; cases h'; exact ⟨rfl, .inl h⟩
    · rintro ⟨rfl, _⟩; rfl
  · rw [e, R_ok_bind, hf h hv]
    constructor
    · rintro ⟨hq, hb⟩; exact ⟨hq, .inr ⟨hv, hb⟩⟩
    · rintro ⟨hq, h' | hb⟩
      · exact absurd h' h
      · exact ⟨hq, hb.2⟩
  · rw [e]
    constructor
    · intro h'; cases h'
    · rintro ⟨hq, h' | hb⟩
      · exact absurd h' h
      · exact absurd hb.1 hv

theorem failIf_panic {c : Prop} [Decidable c] {msg : Bytes} {f : Unit → R DateTime} {q : Panic} :
    (failIf c msg >>= f) = .error (.panic q) ↔ ¬ c ∧ f () = .error (.panic q) := by
  unfold failIf errR
  split
  · rename_i h
    constructor
    · intro h'; cases h'
    · rintro ⟨h', _⟩; exact absurd h h'
  · rename_i h
    exact ⟨fun h' => ⟨h, h'⟩, fun h' => h'.2⟩

/-- The range check behind a number. -/
theorem range_panic {s : Bytes} {i n lo hi : Nat} {c : Nat → Prop} [∀ v, Decidable (c v)]
    {msg : Nat → Bytes} {f : Nat → R DateTime} {q : Panic} {B : Prop}
    (hc : ∀ v, ¬ c v ↔ lo ≤ v ∧ v ≤ hi)
    (hf : ∀ v, f v = .error (.panic q) ↔ q = .slice ∧ B) :
    (∃ v, Reads (fieldAt s i n) v ∧ (failIf (c v) (msg v) >>= fun _ => f v) = .error (.panic q)) ↔
      q = .slice ∧ ((∃ v, NumAt s i n lo hi v) ∧ B) := by
  constructor
  · rintro ⟨v, hv, h⟩
    rw [failIf_panic, hf, hc] at h
    exact ⟨h.2.1, ⟨v, hv, h.1⟩, h.2.2⟩
  · rintro ⟨hq, ⟨v, hv, hr⟩, hb⟩
    refine ⟨v, hv, ?_⟩
    rw [failIf_panic, hf, hc]
    exact ⟨hr, hq, hb⟩

/-- The beginning of a text is not inside a character. -/
theorem not_across_zero {s : Bytes} (h : utf8Valid s = true) : ¬ Across s 0 := by
  rintro ⟨b, hb, h1, h2⟩
  cases s with
  | nil => cases hb
  | cons a l =>
    rw [List.getElem?_cons_zero] at hb
    cases hb
    have key : ∀ a : UInt8, 128 ≤ a.toNat → a.toNat < 192 →
        ¬ a < 0x80 ∧ ¬ (0xC2 ≤ a ∧ a ≤ 0xDF) ∧ a ≠ 0xE0 ∧
        ¬ ((0xE1 ≤ a ∧ a ≤ 0xEC) ∨ a = 0xEE ∨ a = 0xEF) ∧ a ≠ 0xED ∧ a ≠ 0xF0 ∧
        ¬ (0xF1 ≤ a ∧ a ≤ 0xF3) ∧ a ≠ 0xF4 := by
      apply forall_u8; decide +kernel
    obtain ⟨k1, k2, k3, k4, k5, k6, k7, k8⟩ := key b h1 h2
    unfold utf8Valid at h
    rw [utf8Go, if_neg k1, if_neg k2, if_neg k3, if_neg k4, if_neg k5, if_neg k6, if_neg k7,
      if_neg k8] at h
    cases h

/-- `from_iso_8601` from the minute on. -/
def rest (s : Bytes) (year month day hour : Nat) : R DateTime := do
  let minute ← isoField 255 s 14 16 "bad minute"
  failIf (minute > 59) (bs "minute " ++ decStr minute ++ bs " out of range")
  isoSep s 16 ':' "bad minute-second separator"
  let second ← isoField 255 s 17 19 "bad second"
  failIf (second > 59) (bs "second out of range")
  .ok { year := UInt8.ofNat (year - 2000), month := UInt8.ofNat month, day := UInt8.ofNat day,
        hour := UInt8.ofNat hour, minute := UInt8.ofNat minute, second := UInt8.ofNat second }

/-- **C119** `from_iso_8601` panics exactly on the texts that are right up to a place where they
would have to be cut inside a character. -/
theorem C119_panics {s : Bytes} (hu : utf8Valid s = true) (q : Panic) :
    DateTime.fromIso8601 s = .error (.panic q) ↔ q = .slice ∧ CutInside s := by
  unfold DateTime.fromIso8601 CutInside
  rw [failIf_panic, Decidable.not_not]
  by_cases hl : s.length = 19
  case neg => exact ⟨fun h => absurd h.1 hl, fun h => absurd h.2.1 hl⟩
  have e : ∀ {A B C : Prop}, A → (B ↔ (q = .slice ∧ C)) → ((A ∧ B) ↔ (q = .slice ∧ A ∧ C)) := by
    intro A B C ha h
    rw [h]
    exact ⟨fun h => ⟨h.2.1, ha, h.2.2⟩, fun h => ⟨ha, h.1, h.2.2⟩⟩
  refine e hl ?_
  refine field_panic (n := 4) rfl (by omega) (not_across_zero hu) (by omega) fun a4 => ?_
  refine range_panic (by intro v; exact Decidable.not_not) fun year => ?_
  refine sep_panic rfl (by omega) a4 fun a5 _ => ?_
  refine field_panic (n := 2) rfl (by omega) a5 (by omega) fun a7 => ?_
  refine range_panic (by intro v; exact Decidable.not_not) fun month => ?_
  refine sep_panic rfl (by omega) a7 fun a8 _ => ?_
  refine field_panic (n := 2) rfl (by omega) a8 (by omega) fun a10 => ?_
  refine range_panic (by intro v; exact Decidable.not_not) fun day => ?_
  refine sep_panic rfl (by omega) a10 fun a11 _ => ?_
  refine field_panic (n := 2) rfl (by omega) a11 (by omega) fun a13 => ?_
  have hh : ∀ v, Reads (fieldAt s 11 2) v →
      ((isoSep s 13 ':' "bad hour-minute separator" >>= fun _ =>
        failIf (v > 23) (bs "hour " ++ decStr v ++ bs " out of range") >>= fun _ =>
        rest s year month day v) = .error (.panic q) ↔
        q = .slice ∧ (Across s 14 ∨ (CharAt s 13 ':' ∧ (∃ v, NumAt s 11 2 0 23 v) ∧
          (Across s 16 ∨ ((∃ v, NumAt s 14 2 0 59 v) ∧ Across s 17))))) := by
    intro v hv
    refine sep_panic rfl (by omega) a13 fun a14 _ => ?_
    rw [failIf_panic]
    have hr : (∃ v, NumAt s 11 2 0 23 v) ↔ ¬ v > 23 :=
      ⟨fun ⟨w, hw, h⟩ => by rw [reads_inj hv hw]; omega, fun h => ⟨v, hv, by omega, by omega⟩⟩
    rw [hr]
    have hb : rest s year month day v = .error (.panic q) ↔
        q = .slice ∧ (Across s 16 ∨ ((∃ v, NumAt s 14 2 0 59 v) ∧ Across s 17)) := by
      unfold rest
      refine field_panic (n := 2) rfl (by omega) a14 (by omega) fun a16 => ?_
      refine range_panic (by intro v; omega) fun minute => ?_
      have h17 : Across s 17 ↔ (Across s 17 ∨ (CharAt s 16 ':' ∧ (Across s 19 ∨ False))) := by
        constructor
        · exact .inl
        · rintro (h | ⟨_, ⟨b, h, _⟩ | h⟩)
          · exact h
          · rw [List.getElem?_eq_none (by omega)] at h; cases h
          · exact h.elim
      rw [h17]
      refine sep_panic rfl (by omega) a16 fun a17 _ => ?_
      refine field_panic (n := 2) rfl (by omega) a17 (by omega) fun a19 => ?_
      constructor
      · rintro ⟨v, _, h⟩
        rw [failIf_panic] at h
        cases h.2
      · rintro ⟨_, h⟩; exact h.elim
    rw [hb]
    exact ⟨fun h => ⟨h.2.1, h.1, h.2.2⟩, fun h => ⟨h.2.1, h.1, h.2.2⟩⟩
  constructor
  · rintro ⟨v, hv, h⟩
    obtain ⟨hq, h⟩ := (hh v hv).mp h
    exact ⟨hq, ⟨v, hv⟩, h⟩
  · rintro ⟨hq, ⟨v, hv⟩, h⟩
    exact ⟨v, hv, (hh v hv).mpr ⟨hq, h⟩⟩

/-- What an accepted number field is. -/
theorem field_ok {max : Nat} {s : Bytes} {i j n v : Nat} {msg : String} (hi : i + n = j)
    (hj : j ≤ s.length) (h0 : ¬ Across s i) (hm : 10 ^ n ≤ max + 1) :
    isoField max s i j msg = .ok v ↔ ¬ Across s j ∧ Reads (fieldAt s i n) v := by
  have hn : j - i = n := by omega
  have hc := isoField_case (msg := msg) (max := max) (by omega) hj h0 (by rw [hn]; exact hm)
  rw [hn] at hc
  rcases hc with ⟨h, e⟩ | ⟨h, ⟨w, hw, e⟩ | ⟨hw, e⟩⟩
  · rw [e]
    exact ⟨fun h' => (nomatch h'), fun h' => absurd h h'.1⟩
  · rw [e]
    exact ⟨fun h' => by cases h'; exact ⟨h, hw⟩, fun h' => by rw [reads_inj hw h'.2]⟩
  · rw [e]
    exact ⟨fun h' => (nomatch h'), fun h' => absurd h'.2 (hw v)⟩

theorem sep_ok {s : Bytes} {i j : Nat} {c : Char} {msg : String} {u : Unit} (hi : i + 1 = j)
    (hj : j ≤ s.length) (h0 : ¬ Across s i) :
    isoSep s i c msg = .ok u ↔ ¬ Across s j ∧ CharAt s i c := by
  subst hi
  rcases isoSep_case (c := c) (msg := msg) hj h0 with ⟨h, e⟩ | ⟨h, ⟨hv, e⟩ | ⟨hv, e⟩⟩
  · rw [e]
    exact ⟨fun h' => (nomatch h'), fun h' => absurd h h'.1⟩
  · rw [e]
    exact ⟨fun _ => ⟨h, hv⟩, fun _ => rfl⟩
  · rw [e]
    exact ⟨fun h' => (nomatch h'), fun h' => absurd h'.2 hv⟩

theorem char_not_across {s : Bytes} {i : Nat} {c : Char} (h : CharAt s i c) (hc : (b' c).toNat < 128) :
    ¬ Across s i := by
  rintro ⟨b, hb, h1, _⟩
  unfold CharAt at h
  rw [h] at hb
  cases hb
  omega

theorem reads_not_across {s : Bytes} {i n v : Nat} (h : Reads (fieldAt s i n) v) : ¬ Across s i := by
  rintro ⟨b, hb, h1, _⟩
  unfold fieldAt at h
  rw [← List.head?_drop] at hb
  cases hd : s.drop i with
  | nil => rw [hd] at hb; cases hb
  | cons a l =>
    rw [hd] at hb h
    cases hb
    obtain ⟨ds, hs, hne, hd, _⟩ := h
    cases n with
    | zero =>
      rw [List.take_zero] at hs
      rcases hs with rfl | hs
      · exact hne rfl
      · cases hs
    | succ n =>
      rw [List.take_succ_cons] at hs
      rcases hs with rfl | hs
      · have := hd b List.mem_cons_self
        unfold IsDigit at this
        omega
      · injection hs with h _
        rw [h] at h1
        exact absurd h1 (by decide)

/-- **C119** It yields a date exactly on the texts that are the date. -/
theorem C119_date {s : Bytes} (d : DateTime) :
    DateTime.fromIso8601 s = .ok d ↔ IsoDate s d := by
  unfold DateTime.fromIso8601 IsoDate NumAt
  simp only [R_bind_ok, failIf_ok, Decidable.not_not]
  constructor
  · rintro ⟨_, hl, y, hy, _, ry, _, s1, mo, hmo, _, rmo, _, s2, da, hda, _, rda, _, s3, ho, hho, _,
      s4, _, rho, mi, hmi, _, rmi, _, s5, se, hse, _, rse, h⟩
    have a0 : ¬ Across s 0 := by
      intro ha
      have : isCharBoundary s 0 = false := by
        rw [← Bool.not_eq_true, boundary_iff (by omega)]; exact fun h => h ha
      unfold isoField strSlice at hy
      rw [if_neg (by rw [this]; simp)] at hy
      cases hy
    rw [field_ok (n := 4) rfl (by omega) a0 (by omega)] at hy
    rw [sep_ok rfl (by omega) hy.1] at s1
    rw [field_ok (n := 2) rfl (by omega) s1.1 (by omega)] at hmo
    rw [sep_ok rfl (by omega) hmo.1] at s2
    rw [field_ok (n := 2) rfl (by omega) s2.1 (by omega)] at hda
    rw [sep_ok rfl (by omega) hda.1] at s3
    rw [field_ok (n := 2) rfl (by omega) s3.1 (by omega)] at hho
    rw [sep_ok rfl (by omega) hho.1] at s4
    rw [field_ok (n := 2) rfl (by omega) s4.1 (by omega)] at hmi
    rw [sep_ok rfl (by omega) hmi.1] at s5
    rw [field_ok (n := 2) rfl (by omega) s5.1 (by omega)] at hse
    injection h with h
    subst h
    dsimp only
    rw [ofNat_toNat_lt (by omega), ofNat_toNat_lt (by omega), ofNat_toNat_lt (by omega),
      ofNat_toNat_lt (by omega), ofNat_toNat_lt (by omega), ofNat_toNat_lt (by omega),
      show 2000 + (y - 2000) = y by omega]
    exact ⟨hl, ⟨hy.2, ry⟩, s1.2, ⟨hmo.2, rmo⟩, s2.2, ⟨hda.2, rda⟩, s3.2, ⟨hho.2, by omega⟩, s4.2,
      ⟨hmi.2, by omega⟩, s5.2, hse.2, by omega⟩
  · rintro ⟨hl, ⟨hy, ry⟩, s1, ⟨hmo, rmo⟩, s2, ⟨hda, rda⟩, s3, ⟨hho, rho⟩, s4, ⟨hmi, rmi⟩, s5, hse,
      rse⟩
    refine ⟨(), hl, _, (field_ok rfl (by omega) (reads_not_across hy) (by omega)).mpr
        ⟨char_not_across s1 (by decide), hy⟩, (), ry,
      (), (sep_ok rfl (by omega) (char_not_across s1 (by decide))).mpr ⟨reads_not_across hmo, s1⟩,
      _, (field_ok rfl (by omega) (reads_not_across hmo) (by omega)).mpr
        ⟨char_not_across s2 (by decide), hmo⟩, (), rmo,
      (), (sep_ok rfl (by omega) (char_not_across s2 (by decide))).mpr ⟨reads_not_across hda, s2⟩,
      _, (field_ok rfl (by omega) (reads_not_across hda) (by omega)).mpr
        ⟨char_not_across s3 (by decide), hda⟩, (), rda,
      (), (sep_ok rfl (by omega) (char_not_across s3 (by decide))).mpr ⟨reads_not_across hho, s3⟩,
      _, (field_ok rfl (by omega) (reads_not_across hho) (by omega)).mpr
        ⟨char_not_across s4 (by decide), hho⟩,
      (), (sep_ok rfl (by omega) (char_not_across s4 (by decide))).mpr ⟨reads_not_across hmi, s4⟩,
      (), by omega,
      _, (field_ok rfl (by omega) (reads_not_across hmi) (by omega)).mpr
        ⟨char_not_across s5 (by decide), hmi⟩, (), by omega,
      (), (sep_ok rfl (by omega) (char_not_across s5 (by decide))).mpr ⟨reads_not_across hse, s5⟩,
      _, (field_ok rfl (by omega) (reads_not_across hse) (by omega)).mpr
        ⟨?_, hse⟩, (), by omega, ?_⟩
    · rintro ⟨b, h, _⟩
      rw [List.getElem?_eq_none (by omega)] at h; cases h
    · rw [Nat.add_sub_cancel_left]
      simp

/-- **C119** A text is at most one date. -/
theorem C119_one {s : Bytes} {d d' : DateTime} (h : IsoDate s d) (h' : IsoDate s d') : d = d' := by
  have h1 := (C119_date d).mpr h
  rw [(C119_date d').mpr h'] at h1
  injection h1 with h1
  exact h1.symm

/-- **C119** On all other texts it fails without a panic. -/
theorem C119_error {s : Bytes} (hu : utf8Valid s = true) :
    (∃ e, DateTime.fromIso8601 s = .error (.err e)) ↔ (∀ d, ¬ IsoDate s d) ∧ ¬ CutInside s := by
  constructor
  · rintro ⟨e, h⟩
    constructor
    · intro d hd
      rw [(C119_date d).mpr hd] at h; cases h
    · intro hc
      rw [(C119_panics hu .slice).mpr ⟨rfl, hc⟩] at h; cases h
  · rintro ⟨h1, h2⟩
    cases h : DateTime.fromIso8601 s with
    | ok d => exact absurd ((C119_date d).mp h) (h1 d)
    | error e =>
      cases e with
      | err e => exact ⟨e, rfl⟩
      | panic q => exact absurd ((C119_panics hu q).mp h).2 h2

theorem padDec2_length : ∀ n : UInt8, (padDec 2 n.toNat).length = if n.toNat < 100 then 2 else 3 := by
  apply forall_u8; decide +kernel

/-- **C119** What a date prints as is no other date, and it is the date exactly when the fields are in
their ranges. -/
theorem C119_prints (d : DateTime) :
    (∀ d', DateTime.fromIso8601 d.toIso8601 = .ok d' → d' = d) ∧
    (DateTime.fromIso8601 d.toIso8601 = .ok d ↔ WfDateTime d) := by
  have key : ∀ d', DateTime.fromIso8601 d.toIso8601 = .ok d' → d' = d ∧ WfDateTime d := by
    intro d' h
    obtain ⟨y, mo, da, ho, mi, se⟩ := d
    have hd := (C119_date d').mp h
    have hr := fromIso_range h
    have hl := hd.1
    have hy := padDec2_length y
    have hmo := padDec2_length mo
    have hda := padDec2_length da
    have hho := padDec2_length ho
    have hmi := padDec2_length mi
    have hse := padDec2_length se
    have h100 : y.toNat < 100 ∧ mo.toNat < 100 ∧ da.toNat < 100 ∧ ho.toNat < 100 ∧ mi.toNat < 100 ∧
        se.toNat < 100 := by
      unfold DateTime.toIso8601 at hl
      simp only [List.length_append, List.length_cons, List.length_nil] at hl
      repeat' split at *
      all_goals omega
    obtain ⟨ly, lmo, lda, lho, lmi, lse⟩ := h100
    have heq : (DateTime.mk y mo da ho mi se).toIso8601 =
        [b' '2', b' '0'] ++ dec2 y ++ [b' '-'] ++ dec2 mo ++ [b' '-'] ++ dec2 da ++ [b' 'T'] ++
        dec2 ho ++ [b' ':'] ++ dec2 mi ++ [b' ':'] ++ dec2 se := by
      unfold DateTime.toIso8601
      dsimp only
      rw [padDec2 y ly, padDec2 mo lmo, padDec2 da lda, padDec2 ho lho, padDec2 mi lmi,
        padDec2 se lse]
    rw [heq] at hd
    obtain ⟨_, ⟨ry, _⟩, _, ⟨rmo, _⟩, _, ⟨rda, _⟩, _, ⟨rho, _⟩, _, ⟨rmi, _⟩, _, ⟨rse, _⟩⟩ := hd
    have ey := reads_inj ry (fromStr_reads (isoYear y ly))
    have emo := reads_inj rmo (fromStr_reads (parse_dec2 mo lmo))
    have eda := reads_inj rda (fromStr_reads (parse_dec2 da lda))
    have eho := reads_inj rho (fromStr_reads (parse_dec2 ho lho))
    have emi := reads_inj rmi (fromStr_reads (parse_dec2 mi lmi))
    have ese := reads_inj rse (fromStr_reads (parse_dec2 se lse))
    have e : d' = ⟨y, mo, da, ho, mi, se⟩ := by
      obtain ⟨y', mo', da', ho', mi', se'⟩ := d'
      dsimp only at ey emo eda eho emi ese
      have ey : y'.toNat = y.toNat := by omega
      rw [UInt8.toNat_inj] at ey emo eda eho emi ese
      rw [ey, emo, eda, eho, emi, ese]
    subst e
    exact ⟨rfl, ly, hr.2⟩
  exact ⟨fun d' h => (key d' h).1, fun h => (key d h).2, iso_roundtrip⟩

/-- Non-vacuity: signs are accepted, so a date is written in several ways. -/
example : IsoDate (bs "2022-+5-13T+1:+3:+5") ⟨22, 5, 13, 1, 3, 5⟩ ∧
    IsoDate (bs "2022-05-13T01:03:05") ⟨22, 5, 13, 1, 3, 5⟩ :=
  ⟨(C119_date _).mp rfl, (C119_date _).mp rfl⟩

/-- Non-vacuity: a character across the end of the year; and one behind an hour of 99. -/
example : CutInside (bs "200" ++ [0xC3, 0xA9] ++ bs "01-01T00:00:00") ∧
    CutInside (bs "2022-05-13T99" ++ [0xC3, 0xA9] ++ bs "0000") :=
  ⟨((C119_panics rfl .slice).mp rfl).2, ((C119_panics rfl .slice).mp rfl).2⟩

end Elk.Props
