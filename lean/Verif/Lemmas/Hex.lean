import Verif.Spec.Wire
/-! # Hexadecimal digits and bytes -/

namespace Elk

theorem forall_u8 {p : UInt8 → Prop} (h : ∀ n : Fin 256, p (UInt8.ofNat n)) : ∀ b, p b := by
  intro b
  have := h ⟨b.toNat, b.toNat_lt⟩
  simpa using this

theorem hexNibble_dehex (a v : UInt8) (hv : dehexNibble a = some v) :
    v < 16 ∧ hexNibble v = a := by
  have h : ∀ a : UInt8, (dehexNibble a).all (fun v => decide (v < 16 ∧ hexNibble v = a)) = true := by
    apply forall_u8
    decide +kernel
  have := h a
  rw [hv] at this
  simpa using this

theorem dehex_hexNibble : ∀ v : UInt8, dehexNibble (hexNibble v) = some (v &&& 0xF) := by
  apply forall_u8; decide +kernel

theorem nibbles_join : ∀ b : UInt8, (((b >>> 4) &&& 0xF) <<< 4) ||| (b &&& 0xF) = b := by
  apply forall_u8; decide +kernel

theorem nibbles_split : ∀ v w : UInt8, v < 16 → w < 16 →
    ((v <<< 4) ||| w) >>> 4 = v ∧ hexNibble ((v <<< 4) ||| w) = hexNibble w := by
  have h : ∀ v w : Fin 16, ((UInt8.ofNat v <<< 4) ||| UInt8.ofNat w) >>> 4 = UInt8.ofNat v
      ∧ hexNibble ((UInt8.ofNat v <<< 4) ||| UInt8.ofNat w) = hexNibble (UInt8.ofNat w) := by
    decide +kernel
  intro v w hv hw
  have := h ⟨v.toNat, by simpa [UInt8.lt_iff_toNat_lt] using hv⟩
    ⟨w.toNat, by simpa [UInt8.lt_iff_toNat_lt] using hw⟩
  simpa using this

theorem dehexByte_hexByte (n : UInt8) (a b : UInt8) (h : hexByte n = [a, b]) :
    dehexByte a b = some n := by
  simp only [hexByte, List.cons.injEq, and_true] at h
  obtain ⟨rfl, rfl⟩ := h
  simp [dehexByte, dehex_hexNibble, nibbles_join]

theorem dehexByte_some {a b n : UInt8} (h : dehexByte a b = some n) : hexByte n = [a, b] := by
  simp only [dehexByte, Option.pure_def, Option.bind_eq_bind] at h
  rw [Option.bind_eq_some_iff] at h
  obtain ⟨v, hv, h⟩ := h
  rw [Option.bind_eq_some_iff] at h
  obtain ⟨w, hw, h⟩ := h
  have h1 := hexNibble_dehex a v hv
  have h2 := hexNibble_dehex b w hw
  simp only [Option.some.injEq] at h
  subst h
  have h3 := nibbles_split v w h1.1 h2.1
  simp [hexByte, h3.1, h3.2, h1.2, h2.2]

theorem dehexByte_eq_some_iff {a b n : UInt8} : dehexByte a b = some n ↔ hexByte n = [a, b] :=
  ⟨dehexByte_some, dehexByte_hexByte n a b⟩

theorem dehexNibble_isSome_iff : ∀ a : UInt8, (dehexNibble a).isSome ↔
    (48 ≤ a.toNat ∧ a.toNat ≤ 57) ∨ (65 ≤ a.toNat ∧ a.toNat ≤ 70) := by
  apply forall_u8; decide +kernel

theorem dehexByte_isSome_iff (a b : UInt8) :
    (dehexByte a b).isSome ↔ (dehexNibble a).isSome ∧ (dehexNibble b).isSome := by
  simp only [dehexByte]
  cases dehexNibble a <;> cases dehexNibble b <;> simp

theorem hex2_eq : ∀ b : UInt8, Spec.hex2 b.toNat = hexByte b := by
  apply forall_u8; decide +kernel

theorem hex2_eq_nat (n : Nat) (h : n < 256) : Spec.hex2 n = hexByte (UInt8.ofNat n) := by
  have := hex2_eq (UInt8.ofNat n)
  rw [← this]
  simp [Nat.mod_eq_of_lt h]

theorem hexByte_length (b : UInt8) : (hexByte b).length = 2 := rfl

theorem hexByte_inj {a b : UInt8} (h : hexByte a = hexByte b) : a = b := by
  have h1 := dehexByte_hexByte a _ _ rfl
  have h2 := dehexByte_hexByte b (hexNibble (a >>> 4)) (hexNibble a) (by rw [← h]; rfl)
  rw [h1] at h2; exact Option.some.inj h2

/-- Hex digits are ASCII digits or `A`-`F`, so neither control characters nor DLE. -/
theorem hexNibble_range : ∀ a : UInt8,
    (48 ≤ (hexNibble a).toNat ∧ (hexNibble a).toNat ≤ 57) ∨
    (65 ≤ (hexNibble a).toNat ∧ (hexNibble a).toNat ≤ 70) := by
  apply forall_u8; decide +kernel

/-! ## Checksum -/

theorem foldl_sub (l : Bytes) (a : UInt8) :
    l.foldl (fun acc b => acc - b) a = a + checksum l := by
  unfold checksum
  induction l generalizing a with
  | nil => simp
  | cons x xs ih =>
    simp only [List.foldl_cons]
    rw [ih, ih (0 - x)]
    simp [UInt8.sub_eq_add_neg, UInt8.add_assoc]

theorem checksum_nil : checksum [] = 0 := rfl

theorem checksum_cons (x : UInt8) (xs : Bytes) : checksum (x :: xs) = checksum xs - x := by
  show List.foldl _ (0 - x) xs = _
  rw [foldl_sub]
  simp [UInt8.sub_eq_add_neg, UInt8.add_comm]

theorem checksum_append (l m : Bytes) : checksum (l ++ m) = checksum l + checksum m := by
  show List.foldl _ 0 (l ++ m) = _
  rw [List.foldl_append, foldl_sub]
  rfl

theorem checksum_toNat (l : Bytes) :
    (checksum l).toNat = (256 - Spec.byteSum l % 256) % 256 := by
  induction l with
  | nil => rfl
  | cons x xs ih =>
    rw [checksum_cons, UInt8.toNat_sub, ih]
    simp only [Spec.byteSum, List.map_cons, List.sum_cons]
    have := x.toNat_lt
    omega

theorem byteSum_append (l m : Bytes) :
    Spec.byteSum (l ++ m) = Spec.byteSum l + Spec.byteSum m := by
  simp [Spec.byteSum]

end Elk
