import Verif.Props.Pkt
import Mathlib.Algebra.Polynomial.Div
import Mathlib.Algebra.Field.ZMod
import Mathlib.Tactic.ComputeDegree
import Mathlib.Tactic.LinearCombination
import Mathlib.Tactic.IntervalCases
/-!
# Properties of the RP checksum (C11, C12)
-/

namespace Elk.Props
open Elk.Spec Polynomial

/-- A bit as an element of GF(2). -/
def bit (b : Bool) : ZMod 2 := if b then 1 else 0

/-- The polynomial over GF(2) whose coefficients are the given bits, highest power first. -/
noncomputable def bitsPoly (l : List Bool) : (ZMod 2)[X] :=
  l.foldl (fun acc b => acc * X + C (bit b)) 0

/-- The body as a polynomial: its bits, first byte first, most significant bit first. -/
noncomputable def bodyPoly (body : Bytes) : (ZMod 2)[X] :=
  bitsPoly (body.flatMap bitsOf)

/-- The polynomial whose coefficient of `X^i` is bit `i` of a 16-bit number. -/
noncomputable def wordPoly (n : Nat) : (ZMod 2)[X] :=
  ∑ i ∈ Finset.range 16, C (bit (n.testBit i)) * X ^ i

/-- The generator `x^16 + x^12 + x^5 + 1`. -/
noncomputable def gen : (ZMod 2)[X] := X ^ 16 + X ^ 12 + X ^ 5 + 1

theorem bit_xor (a b : Bool) : bit (a ^^ b) = bit a + bit b := by
  cases a <;> cases b <;> decide

theorem wordPoly_xor (a b : Nat) : wordPoly (a ^^^ b) = wordPoly a + wordPoly b := by
  unfold wordPoly
  rw [← Finset.sum_add_distrib]
  apply Finset.sum_congr rfl
  intro i _
  rw [Nat.testBit_xor, bit_xor, C_add, add_mul]

theorem wordPoly_zero : wordPoly 0 = 0 := by
  simp [wordPoly, bit]

theorem wordPoly_const : wordPoly 0x1021 = X ^ 12 + X ^ 5 + 1 := by
  simp only [wordPoly, Finset.sum_range_succ, Finset.sum_range_zero]
  have h : ∀ i, bit (Nat.testBit 0x1021 i) = if i = 0 ∨ i = 5 ∨ i = 12 then 1 else 0 := by
    intro i
    by_cases hi : i < 16
    · interval_cases i <;> decide
    · rw [Nat.testBit_lt_two_pow (Nat.lt_of_lt_of_le (by decide : 0x1021 < 2 ^ 16)
        (Nat.pow_le_pow_right (by omega) (by omega))), if_neg (by omega)]
      rfl
  simp only [h]
  simp
  ring

theorem wordPoly_shift_aux {r s : Nat} {t : Bool} (h0 : s.testBit 0 = false)
    (hs : ∀ i, i < 15 → s.testBit (i + 1) = r.testBit i) (h15 : r.testBit 15 = t) :
    wordPoly r * X = wordPoly s + C (bit t) * X ^ 16 := by
  unfold wordPoly
  have e1 := Finset.sum_range_succ (fun i => C (bit (r.testBit i)) * (X : (ZMod 2)[X]) ^ i) 15
  have e2 := Finset.sum_range_succ' (fun i => C (bit (s.testBit i)) * (X : (ZMod 2)[X]) ^ i) 15
  have e3 : (∑ i ∈ Finset.range 15, C (bit (r.testBit i)) * (X : (ZMod 2)[X]) ^ i) * X
      = ∑ i ∈ Finset.range 15, C (bit (s.testBit (i + 1))) * (X : (ZMod 2)[X]) ^ (i + 1) := by
    rw [Finset.sum_mul]
    apply Finset.sum_congr rfl
    intro i hi
    rw [hs i (Finset.mem_range.mp hi), pow_succ, mul_assoc]
  rw [h15] at e1
  rw [h0, show bit false = 0 from rfl, map_zero, zero_mul, add_zero, ← e3] at e2
  rw [e1, e2]
  ring

theorem wordPoly_shift {r : Nat} (hr : r < 65536) :
    wordPoly r * X = wordPoly (2 * r % 65536) + C (bit (decide (32768 ≤ r))) * X ^ 16 := by
  apply wordPoly_shift_aux
  · rw [show (65536 : Nat) = 2 ^ 16 by rfl, Nat.testBit_mod_two_pow]
    simp
  · intro i hi
    rw [show (65536 : Nat) = 2 ^ 16 by rfl, Nat.testBit_mod_two_pow,
      decide_eq_true (show i + 1 < 16 by omega), Bool.true_and, Nat.testBit_succ]
    simp
  · rw [Nat.testBit_eq_decide_div_mod_eq, Bool.eq_iff_iff]
    simp only [decide_eq_true_iff]
    omega

theorem gen_monic : gen.Monic := by
  unfold gen; monicity!

theorem gen_degree : gen.degree = 16 := by
  unfold gen; compute_degree!

theorem wordPoly_degree (n : Nat) : (wordPoly n).degree < gen.degree := by
  rw [gen_degree]
  apply lt_of_le_of_lt (degree_sum_le _ _)
  rw [Finset.sup_lt_iff (by decide)]
  intro i hi
  apply lt_of_le_of_lt (degree_C_mul_X_pow_le i _)
  exact_mod_cast Finset.mem_range.mp hi

theorem two_poly (p : (ZMod 2)[X]) : p + p = 0 := by
  have : (2 : (ZMod 2)[X]) = 0 := by
    have h : (2 : ZMod 2) = 0 := by decide
    have := congrArg (C : ZMod 2 → (ZMod 2)[X]) h
    rwa [map_ofNat, map_zero] at this
  rw [← two_mul, this, zero_mul]

theorem wordPoly_crcBit {r : Nat} (hr : r < 65536) (b : Bool) :
    gen ∣ (wordPoly r * X + C (bit b) * X ^ 16) - wordPoly (crcBit r b) := by
  unfold crcBit
  rw [wordPoly_shift hr]
  by_cases ht : 32768 ≤ r
  · cases b
    · simp only [ht, decide_true, Bool.bne_false, if_true]
      rw [wordPoly_xor, wordPoly_const]
      have e : bit true = 1 := rfl
      have e' : bit false = 0 := rfl
      rw [e, e']
      refine ⟨1, ?_⟩
      unfold gen
      simp only [map_one, map_zero]
      linear_combination (-1 : (ZMod 2)[X]) * two_poly (X ^ 12 + X ^ 5 + 1)
    · simp only [ht, decide_true, bne_self_eq_false, Bool.false_eq_true, if_false]
      have e : bit true = 1 := rfl
      rw [e]
      refine ⟨0, ?_⟩
      simp only [map_one]
      linear_combination two_poly (X ^ 16)
  · cases b
    · simp only [ht, decide_false, bne_self_eq_false, Bool.false_eq_true, if_false]
      have e' : bit false = 0 := rfl
      rw [e']
      refine ⟨0, ?_⟩
      simp only [map_zero]
      ring
    · simp only [ht, decide_false, Bool.bne_true, Bool.not_false, if_true]
      rw [wordPoly_xor, wordPoly_const]
      have e : bit true = 1 := rfl
      have e' : bit false = 0 := rfl
      rw [e, e']
      refine ⟨1, ?_⟩
      unfold gen
      simp only [map_one, map_zero]
      linear_combination (-1 : (ZMod 2)[X]) * two_poly (X ^ 12 + X ^ 5 + 1)

theorem crcBit_lt (r : Nat) (b : Bool) : crcBit r b < 65536 := by
  unfold crcBit
  have h : 2 * r % 65536 < 2 ^ 16 := Nat.mod_lt _ (by decide)
  split
  · exact Nat.xor_lt_two_pow h (by decide)
  · exact h

theorem crc_bits_dvd (l : List Bool) :
    l.foldl crcBit 0 < 65536 ∧ gen ∣ bitsPoly l * X ^ 16 - wordPoly (l.foldl crcBit 0) := by
  induction l using List.reverseRecOn with
  | nil => exact ⟨by decide, by simp [bitsPoly, wordPoly_zero]⟩
  | append_singleton l b ih =>
    obtain ⟨hlt, ih⟩ := ih
    rw [List.foldl_append]
    refine ⟨crcBit_lt _ _, ?_⟩
    have h1 : bitsPoly (l ++ [b]) = bitsPoly l * X + C (bit b) := by
      unfold bitsPoly; rw [List.foldl_append]; rfl
    rw [h1]
    have h2 := wordPoly_crcBit hlt b
    simp only [List.foldl_cons, List.foldl_nil]
    have h3 := dvd_add (Dvd.dvd.mul_right ih X) h2
    convert h3 using 1
    ring

/-- **C11** The RP trailer is the remainder of `body · x^16` modulo `x^16 + x^12 + x^5 + 1` over
GF(2): the 16-bit number computed by `RpPacket::crc` has exactly the coefficients of the remainder. -/
theorem C11_crc_is_remainder (body : Bytes) :
    wordPoly (RpPacket.crc body).toNat = (bodyPoly body * X ^ 16) %ₘ gen := by
  rw [crc_toNat]
  have h := (crc_bits_dvd (body.flatMap bitsOf)).2
  rw [bodyPoly, modByMonic_eq_of_dvd_sub gen_monic h]
  exact ((modByMonic_eq_self_iff gen_monic).mpr (wordPoly_degree _)).symm

/-- The coefficients determine the 16-bit number, so C11 pins the value of `crc` down. -/
theorem wordPoly_inj {m n : Nat} (hm : m < 65536) (hn : n < 65536)
    (h : wordPoly m = wordPoly n) : m = n := by
  have hc : ∀ k i, i < 16 → (wordPoly k).coeff i = bit (k.testBit i) := by
    intro k i hi
    unfold wordPoly
    rw [finsetSum_coeff]
    simp only [coeff_C_mul, coeff_X_pow]
    rw [Finset.sum_eq_single i]
    · simp
    · intro j _ hj; simp [Ne.symm hj]
    · intro hni; exact absurd (Finset.mem_range.mpr hi) hni
  have hb : ∀ a b, bit a = bit b → a = b := by
    intro a b; cases a <;> cases b <;> decide
  apply Nat.eq_of_testBit_eq
  intro i
  by_cases hi : i < 16
  · apply hb
    rw [← hc m i hi, ← hc n i hi, h]
  · have hp : (65536 : Nat) ≤ 2 ^ i := by
      rw [show (65536 : Nat) = 2 ^ 16 by rfl]
      exact Nat.pow_le_pow_right (by omega) (by omega)
    rw [Nat.testBit_lt_two_pow (by omega), Nat.testBit_lt_two_pow (by omega)]

/-- **C11** as a characterisation: a 16-bit number is the CRC iff it represents the remainder. -/
theorem C11_crc_iff (body : Bytes) (c : UInt16) :
    RpPacket.crc body = c ↔ wordPoly c.toNat = (bodyPoly body * X ^ 16) %ₘ gen := by
  constructor
  · rintro rfl; exact C11_crc_is_remainder body
  · intro h
    rw [← C11_crc_is_remainder] at h
    exact UInt16.toNat_inj.mp
      (wordPoly_inj (RpPacket.crc body).toNat_lt c.toNat_lt h.symm)

/-- The check value of CRC-16/XMODEM. -/
example : RpPacket.crc (bs "123456789") = 0x31c3 := by decide +kernel

/-! ## C12 -/

/-- **C12** Bodies that differ only within a window of at most two adjacent bytes have different CRCs. -/
theorem C12_window (x w w' y : Bytes) (hl : w.length = w'.length) (h2 : w.length ≤ 2)
    (hne : w ≠ w') : RpPacket.crc (x ++ w ++ y) ≠ RpPacket.crc (x ++ w' ++ y) := by
  intro h
  apply hne
  unfold RpPacket.crc at h
  simp only [List.foldl_append] at h
  have h := crc_foldl_inj h
  match w, w', hl, h2 with
  | [], [], _, _ => rfl
  | [a], [b], _, _ =>
    have := (crcStep_inj (show crcStep _ a = crcStep _ b from h)).1
    rw [u8_xor_left this]
  | [a1, a2], [b1, b2], _, _ =>
    obtain ⟨e1, e2⟩ := crcStep_two_inj (show crcStep (crcStep _ a1) a2 = crcStep (crcStep _ b1) b2 from h)
    rw [e1, e2]

/-- **C12** An RP frame in which one or two adjacent body bytes were altered on the wire (old and new
bytes not being the escape byte): `decode` returns Invalid with exactly the altered frame and leaves
what follows. -/
theorem C12_contained {x w w' y f : Bytes} (hl : w.length = w'.length) (h2 : w.length ≤ 2)
    (hne : w ≠ w') (hw : 0x10 ∉ w) (hw' : 0x10 ∉ w')
    (hv : ValidPacket (.rp ⟨x ++ w ++ y⟩)) (hf : Packet.encode (.rp ⟨x ++ w ++ y⟩) = .ok f)
    (rest : Bytes) : ∃ pre post e, f = pre ++ w ++ post ∧ pre.length = 2 + (escape x).length ∧
      Packet.decode (pre ++ w' ++ post ++ rest)
        = .ok (some (.invalid ⟨e, pre ++ w' ++ post⟩), rest) := by
  rw [encode_valid hv] at hf
  simp only [Except.ok.injEq] at hf
  have hcrc := C12_window x w w' y hl h2 hne
  let hi := UInt8.ofNat (crc16 (x ++ w ++ y) / 256)
  let lo := UInt8.ofNat (crc16 (x ++ w ++ y) % 256)
  have hbe : toBeBytes (RpPacket.crc (x ++ w ++ y)) = [hi, lo] := toBeBytes_crc _
  have hfr : f = ([0x10, 0x02] ++ escape x) ++ w ++ (escape y ++ [0x10, 0x03] ++ [hi, lo]) := by
    rw [← hf, wire, rpFrame, escape_append, escape_append, escape_clean hw]
    simp [hi, lo]
  have hd' : ([0x10, 0x02] ++ escape x) ++ w' ++ (escape y ++ [0x10, 0x03] ++ [hi, lo])
      = [0x10, 0x02] ++ escape (x ++ w' ++ y) ++ [0x10, 0x03] ++ [hi, lo] := by
    rw [escape_append, escape_append, escape_clean hw']
    simp
  refine ⟨[0x10, 0x02] ++ escape x, escape y ++ [0x10, 0x03] ++ [hi, lo],
    .rpCrc (RpPacket.crc (x ++ w' ++ y)), hfr, by simp; omega, ?_⟩
  rw [hd']
  apply decodeCase_decode
  refine .rp (escape (x ++ w' ++ y) ++ [0x10, 0x03] ++ [hi, lo] ++ rest) _ (by simp)
    (.badCrc (x ++ w' ++ y) hi lo rest ?_ rfl ?_)
  · intro he
    have := fromBe_inj.mp he.symm
    rw [← hbe] at this
    exact hcrc (by
      have h := congrArg (fun l => match l with | [a, b] => fromBeBytes a b | _ => 0) this
      simpa [toBeBytes, fromBe_toBe] using h)
  · rw [← hd']
    have hv' : (rpFrame (x ++ w ++ y)).length ≤ 1024 := hv
    rw [show rpFrame (x ++ w ++ y) = f from hf, hfr] at hv'
    simp only [List.length_append] at hv' ⊢
    omega

example : Packet.decode [0x10, 2, 1, 9, 3, 0x10, 3, 0x14, 0x01, 7]
    = .ok (some (.invalid ⟨.rpCrc 0xbdcb, [0x10, 2, 1, 9, 3, 0x10, 3, 0x14, 0x01]⟩), [7]) := by
  rfl

end Elk.Props
