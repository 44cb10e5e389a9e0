import Verif.Lemmas.Hex
/-! # The table-driven CRC equals the bit-serial one; its steps are injective -/

namespace Elk
open Spec

/-- Top bit of the register. -/
def crcTop (c : UInt16) : Bool := c.toNat.testBit 15

theorem crcTop_iff (c : UInt16) : (c &&& 0x8000 ≠ 0) ↔ crcTop c = true := by
  have h : (c &&& 0x8000).toNat = (c.toNat.testBit 15).toNat * 2 ^ 15 := by
    rw [UInt16.toNat_and]
    apply Nat.eq_of_testBit_eq
    intro i
    have e : UInt16.toNat 0x8000 = 2 ^ 15 := rfl
    rw [Nat.testBit_and, e, Nat.testBit_two_pow, Nat.mul_comm, Nat.testBit_two_pow_mul]
    by_cases hi : i = 15
    · subst hi; cases c.toNat.testBit 15 <;> simp
    · cases c.toNat.testBit 15
      · simp; omega
      · have h1 : decide (15 = i) = false := by simp; omega
        rw [h1]
        by_cases h2 : 15 ≤ i
        · have : Nat.testBit 1 (i - 15) = false := by
            rw [Nat.testBit_eq_decide_div_mod_eq]
            have : 1 / 2 ^ (i - 15) = 0 := Nat.div_eq_of_lt (Nat.one_lt_two_pow (by omega))
            simp [this]
          simp [this]
        · simp [h2]
  rw [ne_eq, ← UInt16.toNat_inj, h, crcTop]
  cases c.toNat.testBit 15 <;> simp

theorem crcTop_le (c : UInt16) : decide (32768 ≤ c.toNat) = crcTop c := by
  rw [crcTop, Nat.testBit_eq_decide_div_mod_eq]
  have := c.toNat_lt
  congr 1
  apply propext
  omega

theorem crcTop_xor (a b : UInt16) : crcTop (a ^^^ b) = (crcTop a != crcTop b) := by
  simp [crcTop, UInt16.toNat_xor, Nat.testBit_xor]

theorem crcTableStep_eq (c : UInt16) :
    crcTableStep c = (c <<< 1) ^^^ (if crcTop c then 0x1021 else 0) := by
  unfold crcTableStep
  by_cases h : crcTop c = true
  · rw [if_pos ((crcTop_iff c).mpr h), if_pos h]
  · rw [if_neg (fun hh => h ((crcTop_iff c).mp hh)), if_neg h]

theorem u16_xor_shl (a b k : UInt16) : (a ^^^ b) <<< k = (a <<< k) ^^^ (b <<< k) := by
  apply UInt16.toNat_inj.mp
  simp only [UInt16.toNat_xor, UInt16.toNat_shiftLeft]
  rw [Nat.shiftLeft_xor_distrib, Nat.xor_mod_two_pow]

theorem crcTableStep_xor (a b : UInt16) :
    crcTableStep (a ^^^ b) = crcTableStep a ^^^ crcTableStep b := by
  simp only [crcTableStep_eq, crcTop_xor, u16_xor_shl]
  have hc : ∀ x y z w : UInt16, (x ^^^ y) ^^^ (z ^^^ w) = (x ^^^ z) ^^^ (y ^^^ w) := by
    intro x y z w
    rw [UInt16.xor_assoc, ← UInt16.xor_assoc y, UInt16.xor_comm y z, UInt16.xor_assoc z,
      ← UInt16.xor_assoc x]
  rw [hc]
  cases crcTop a <;> cases crcTop b <;> simp

theorem repeat_xor (n : Nat) (a b : UInt16) :
    Nat.repeat crcTableStep n (a ^^^ b)
      = Nat.repeat crcTableStep n a ^^^ Nat.repeat crcTableStep n b := by
  induction n with
  | zero => rfl
  | succ n ih => simp only [Nat.repeat, ih, crcTableStep_xor]

theorem crcTable_length : crcTable.length = 256 := by simp [crcTable]

/-- The table lookup of pkt.rs:461 is always in range and yields the table entry. -/
theorem crcTable_getD (i : UInt8) : crcTable.getD i.toNat 0 = crcTableEntry i := by
  have h : i.toNat < 256 := i.toNat_lt
  simp [crcTable, h]

theorem crcTableEntry_xor (a b : UInt8) :
    crcTableEntry (a ^^^ b) = crcTableEntry a ^^^ crcTableEntry b := by
  simp only [crcTableEntry]
  rw [← repeat_xor]
  congr 1
  rw [← u16_xor_shl]
  rfl

theorem low_repeat (c : UInt16) (h : c.toNat < 256) : Nat.repeat crcTableStep 8 c = c <<< 8 := by
  have key : ∀ n : Fin 256, Nat.repeat crcTableStep 8 (UInt16.ofNat n) = UInt16.ofNat n <<< 8 := by
    decide +kernel
  have := key ⟨c.toNat, h⟩
  simpa using this

theorem split_hi_lo (c : UInt16) :
    c = (((c >>> 8).toUInt8).toUInt16 <<< 8) ^^^ (c &&& 0xFF) := by
  apply UInt16.toNat_inj.mp
  have := c.toNat_lt
  simp only [UInt16.toNat_xor, UInt16.toNat_shiftLeft, UInt8.toNat_toUInt16, UInt16.toNat_toUInt8,
    UInt16.toNat_shiftRight, UInt16.toNat_and]
  have e : (UInt16.toNat 255) = 2 ^ 8 - 1 := rfl
  have e8 : (UInt16.toNat 8) % 16 = 8 := rfl
  rw [e, e8, Nat.and_two_pow_sub_one_eq_mod, Nat.shiftRight_eq_div_pow, Nat.shiftLeft_eq]
  have h1 : c.toNat / 2 ^ 8 % 2 ^ 8 * 2 ^ 8 % 2 ^ 16 = 2 ^ 8 * (c.toNat / 2 ^ 8) := by omega
  rw [h1]
  apply Nat.eq_of_testBit_eq
  intro i
  rw [Nat.testBit_xor, Nat.testBit_two_pow_mul, Nat.testBit_mod_two_pow, Nat.testBit_div_two_pow]
  by_cases hi : i < 8
  · have : ¬ 8 ≤ i := by omega
    simp [hi, this]
  · have h8 : 8 ≤ i := by omega
    simp [hi, h8]

theorem lo_shl (c : UInt16) : (c &&& 0xFF) <<< 8 = c <<< 8 := by
  apply UInt16.toNat_inj.mp
  have := c.toNat_lt
  simp only [UInt16.toNat_shiftLeft, UInt16.toNat_and]
  have e : (UInt16.toNat 255) = 2 ^ 8 - 1 := rfl
  have e8 : (UInt16.toNat 8) % 16 = 8 := rfl
  rw [e, e8, Nat.and_two_pow_sub_one_eq_mod, Nat.shiftLeft_eq, Nat.shiftLeft_eq]
  omega

theorem lo_lt (c : UInt16) : (c &&& 0xFF).toNat < 256 := by
  rw [UInt16.toNat_and]
  have e : (UInt16.toNat 255) = 2 ^ 8 - 1 := rfl
  rw [e, Nat.and_two_pow_sub_one_eq_mod]
  omega

/-- One byte step = eight register steps of the register with the byte xored into the top. -/
theorem crcStep_eq (c : UInt16) (b : UInt8) :
    crcStep c b = Nat.repeat crcTableStep 8 c ^^^ crcTableEntry b := by
  have h : Nat.repeat crcTableStep 8 c = crcTableEntry (c >>> 8).toUInt8 ^^^ (c <<< 8) := by
    conv => lhs; rw [split_hi_lo c]
    rw [repeat_xor, low_repeat _ (lo_lt c), lo_shl]; rfl
  rw [crcStep, crcTable_getD, crcTableEntry_xor, h]
  rw [UInt16.xor_assoc, UInt16.xor_assoc, UInt16.xor_comm (c <<< 8)]

/-- A bit-serial step on the 16-bit register. -/
def crcBit16 (c : UInt16) (bit : Bool) : UInt16 :=
  crcTableStep c ^^^ (if bit then 0x1021 else 0)

theorem crcBit16_toNat (c : UInt16) (bit : Bool) : (crcBit16 c bit).toNat = crcBit c.toNat bit := by
  unfold crcBit16 crcBit
  rw [crcTableStep_eq, crcTop_le]
  have h2 : (c <<< 1).toNat = 2 * c.toNat % 65536 := by
    rw [UInt16.toNat_shiftLeft, Nat.shiftLeft_eq]
    have : (UInt16.toNat 1) % 16 = 1 := rfl
    rw [this]; omega
  cases crcTop c <;> cases bit <;> simp [h2, UInt16.toNat_xor, UInt16.xor_assoc]

theorem foldBits_toNat (bits : List Bool) (c : UInt16) :
    (bits.foldl crcBit16 c).toNat = bits.foldl crcBit c.toNat := by
  induction bits generalizing c with
  | nil => rfl
  | cons b bits ih => simp only [List.foldl_cons, ih, crcBit16_toNat]

theorem foldBits_split (bits : List Bool) (c : UInt16) :
    bits.foldl crcBit16 c
      = Nat.repeat crcTableStep bits.length c ^^^ bits.foldl crcBit16 0 := by
  have comm : ∀ n c, Nat.repeat crcTableStep n (crcTableStep c)
      = crcTableStep (Nat.repeat crcTableStep n c) := by
    intro n c
    induction n with
    | zero => rfl
    | succ n ih => simp only [Nat.repeat, ih]
  induction bits generalizing c with
  | nil => simp [Nat.repeat]
  | cons b bits ih =>
    simp only [List.foldl_cons, List.length_cons]
    rw [ih, ih (crcBit16 0 b)]
    have h0 : crcTableStep 0 = 0 := by decide
    simp only [crcBit16, repeat_xor, h0, comm, Nat.repeat]
    have hz : Nat.repeat crcTableStep bits.length 0 = 0 := by
      clear ih
      induction bits.length with
      | zero => rfl
      | succ n ih => simp only [Nat.repeat, ih, h0]
    rw [hz, UInt16.zero_xor, UInt16.xor_assoc]

theorem entry_bits : ∀ b : UInt8, (bitsOf b).foldl crcBit16 0 = crcTableEntry b := by
  apply forall_u8; decide +kernel

theorem crcStep_bits (c : UInt16) (b : UInt8) : crcStep c b = (bitsOf b).foldl crcBit16 c := by
  rw [crcStep_eq, foldBits_split, entry_bits]; rfl

theorem crc_foldl (data : Bytes) (c : UInt16) :
    (data.foldl crcStep c).toNat = (data.flatMap bitsOf).foldl crcBit c.toNat := by
  induction data generalizing c with
  | nil => rfl
  | cons b data ih =>
    rw [List.foldl_cons, ih, crcStep_bits, foldBits_toNat, List.flatMap_cons, List.foldl_append]

theorem crc_toNat (data : Bytes) : (RpPacket.crc data).toNat = crc16 data := crc_foldl data 0

theorem crc16_lt (data : Bytes) : crc16 data < 65536 := by
  rw [← crc_toNat]; exact (RpPacket.crc data).toNat_lt

theorem toBeBytes_crc (data : Bytes) : toBeBytes (RpPacket.crc data)
    = [UInt8.ofNat (crc16 data / 256), UInt8.ofNat (crc16 data % 256)] := by
  rw [← crc_toNat]
  have := (RpPacket.crc data).toNat_lt
  simp only [toBeBytes, List.cons.injEq, and_true]
  constructor
  · apply UInt8.toNat_inj.mp
    simp [Nat.shiftRight_eq_div_pow]
  · apply UInt8.toNat_inj.mp
    simp

/-! ## Injectivity -/

theorem entry_low_inj : ∀ a : UInt8, a ≠ 0 → (crcTableEntry a).toUInt8 ≠ 0 := by
  have h : ∀ a : UInt8, a = 0 ∨ (crcTableEntry a).toUInt8 ≠ 0 := by
    apply forall_u8; decide +kernel
  intro a ha
  rcases h a with h | h
  · exact absurd h ha
  · exact h

theorem u8_xor_eq_zero {a b : UInt8} (h : a ^^^ b = 0) : a = b := by
  have : (a ^^^ b) ^^^ b = 0 ^^^ b := by rw [h]
  rwa [UInt8.xor_assoc, UInt8.xor_self, UInt8.xor_zero, UInt8.zero_xor] at this

theorem shl8_low (c : UInt16) : (c <<< 8).toUInt8 = 0 := by
  apply UInt8.toNat_inj.mp
  rw [UInt16.toNat_toUInt8, UInt16.toNat_shiftLeft, Nat.shiftLeft_eq]
  have e8 : (UInt16.toNat 8) % 16 = 8 := rfl
  rw [e8]
  show _ = 0
  omega

theorem shl8_inj {c d : UInt16} (h : c <<< 8 = d <<< 8) : c.toUInt8 = d.toUInt8 := by
  apply UInt8.toNat_inj.mp
  have := congrArg UInt16.toNat h
  rw [UInt16.toNat_shiftLeft, UInt16.toNat_shiftLeft, Nat.shiftLeft_eq, Nat.shiftLeft_eq] at this
  have e8 : (UInt16.toNat 8) % 16 = 8 := rfl
  rw [e8] at this
  rw [UInt16.toNat_toUInt8, UInt16.toNat_toUInt8]
  omega

/-- If two steps agree then the table index and the low byte of the register agreed. -/
theorem crcStep_inj {c d : UInt16} {a b : UInt8} (h : crcStep c a = crcStep d b) :
    (c >>> 8).toUInt8 ^^^ a = (d >>> 8).toUInt8 ^^^ b ∧ c.toUInt8 = d.toUInt8 := by
  simp only [crcStep, crcTable_getD] at h
  have hi : (c >>> 8).toUInt8 ^^^ a = (d >>> 8).toUInt8 ^^^ b := by
    have h1 := congrArg UInt16.toUInt8 h
    rw [UInt16.toUInt8_xor, UInt16.toUInt8_xor, shl8_low, shl8_low, UInt8.xor_zero,
      UInt8.xor_zero] at h1
    apply Classical.byContradiction
    intro hne
    have : ((c >>> 8).toUInt8 ^^^ a) ^^^ ((d >>> 8).toUInt8 ^^^ b) ≠ 0 :=
      fun hh => hne (u8_xor_eq_zero hh)
    apply entry_low_inj _ this
    rw [crcTableEntry_xor, UInt16.toUInt8_xor, h1, UInt8.xor_self]
  refine ⟨hi, ?_⟩
  rw [hi] at h
  apply shl8_inj
  have := congrArg (crcTableEntry ((d >>> 8).toUInt8 ^^^ b) ^^^ ·) h
  simpa [← UInt16.xor_assoc] using this

theorem hi_lo_inj {c d : UInt16} (h : (c >>> 8).toUInt8 = (d >>> 8).toUInt8)
    (h' : c.toUInt8 = d.toUInt8) : c = d := by
  have := congrArg UInt8.toNat h
  have h2 := congrArg UInt8.toNat h'
  apply UInt16.toNat_inj.mp
  have := c.toNat_lt
  have := d.toNat_lt
  simp [Nat.shiftRight_eq_div_pow] at *
  omega

theorem u8_xor_right {a b c : UInt8} (h : a ^^^ c = b ^^^ c) : a = b := by
  apply u8_xor_eq_zero
  have : (a ^^^ c) ^^^ (b ^^^ c) = 0 := by rw [h, UInt8.xor_self]
  rwa [UInt8.xor_comm b c, UInt8.xor_assoc, ← UInt8.xor_assoc c, UInt8.xor_self,
    UInt8.zero_xor] at this

theorem u8_xor_left {a b c : UInt8} (h : c ^^^ a = c ^^^ b) : a = b := by
  rw [UInt8.xor_comm c a, UInt8.xor_comm c b] at h
  exact u8_xor_right h

theorem crcStep_reg_inj {c d : UInt16} {b : UInt8} (h : crcStep c b = crcStep d b) : c = d := by
  obtain ⟨h1, h2⟩ := crcStep_inj h
  exact hi_lo_inj (u8_xor_right h1) h2

theorem crc_foldl_inj {c d : UInt16} {l : Bytes} (h : l.foldl crcStep c = l.foldl crcStep d) :
    c = d := by
  induction l generalizing c d with
  | nil => exact h
  | cons b l ih => exact crcStep_reg_inj (ih h)

theorem crcStep_two_inj {c : UInt16} {a1 a2 b1 b2 : UInt8}
    (h : crcStep (crcStep c a1) a2 = crcStep (crcStep c b1) b2) : a1 = b1 ∧ a2 = b2 := by
  obtain ⟨h1, h2⟩ := crcStep_inj h
  have h3 : (c >>> 8).toUInt8 ^^^ a1 = (c >>> 8).toUInt8 ^^^ b1 := by
    simp only [crcStep, crcTable_getD] at h2
    rw [UInt16.toUInt8_xor, UInt16.toUInt8_xor, shl8_low, UInt8.xor_zero, UInt8.xor_zero] at h2
    apply Classical.byContradiction
    intro hne
    have : ((c >>> 8).toUInt8 ^^^ a1) ^^^ ((c >>> 8).toUInt8 ^^^ b1) ≠ 0 :=
      fun hh => hne (u8_xor_eq_zero hh)
    apply entry_low_inj _ this
    rw [crcTableEntry_xor, UInt16.toUInt8_xor, h2, UInt8.xor_self]
  have h4 := u8_xor_left h3
  subst h4
  exact ⟨rfl, u8_xor_left h1⟩

end Elk
