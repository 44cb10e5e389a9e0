import Verif.Lemmas.Hex
/-! # Helper lemmas about framing -/

namespace Elk
open Spec

/-! ## Slices -/

theorem slice_ok {α} {l : List α} {i j : Nat} (h : i ≤ j) (h' : j ≤ l.length) :
    slice l i j = .ok ((l.take j).drop i) := by
  simp [slice, h, h']

theorem sliceFrom_ok {α} {l : List α} {i : Nat} (h : i ≤ l.length) :
    sliceFrom l i = .ok (l.drop i) := by simp [sliceFrom, h]

theorem advance_ok {l : Bytes} {i : Nat} (h : i ≤ l.length) :
    advance l i = .ok (l.drop i) := by simp [advance, h]

theorem bind_ok {ε α β} (a : α) (f : α → Except ε β) : (Except.ok a >>= f) = f a := rfl
theorem bind_error {ε α β} (e : ε) (f : α → Except ε β) :
    ((Except.error e : Except ε α) >>= f) = .error e := rfl

theorem idx_ok {α} {l : List α} {i : Nat} {a : α} (h : l[i]? = some a) : idx l i = .ok a := by
  simp [idx, h]

/-! ## memchr -/

theorem memchr_none {b : UInt8} {l : Bytes} (h : b ∉ l) : memchr b l = none := by
  rw [memchr, List.findIdx?_eq_none_iff]
  intro x hx
  simp; rintro rfl; exact h hx

theorem memchr_append {b : UInt8} {d r : Bytes} (h : b ∉ d) :
    memchr b (d ++ b :: r) = some d.length := by
  induction d with
  | nil => simp [memchr, List.findIdx?_cons]
  | cons x xs ih =>
    simp only [List.mem_cons, not_or] at h
    have := ih h.2
    simp only [memchr] at this ⊢
    rw [List.cons_append, List.findIdx?_cons, this]
    have hx : (x == b) = false := by simp; exact fun hh => h.1 hh.symm
    simp [hx]

theorem split_first (b : UInt8) (l : Bytes) : b ∉ l ∨ ∃ d r, l = d ++ b :: r ∧ b ∉ d := by
  induction l with
  | nil => left; simp
  | cons x xs ih =>
    by_cases hx : x = b
    · exact Or.inr ⟨[], xs, by simp [hx], by simp⟩
    · have hx' : b ≠ x := fun hh => hx hh.symm
      rcases ih with h | ⟨d, r, h1, h2⟩
      · exact Or.inl (by simp [hx', h])
      · exact Or.inr ⟨x :: d, r, by simp [h1], by simp [hx', h2]⟩

/-! ## RP escaping -/

theorem escape_nil : escape [] = [] := rfl

theorem escape_append (a b : Bytes) : escape (a ++ b) = escape a ++ escape b := by
  simp [escape]

theorem escape_dle : escape [0x10] = [0x10, 0x10] := rfl

theorem escape_clean {d : Bytes} (h : 0x10 ∉ d) : escape d = d := by
  induction d with
  | nil => rfl
  | cons x xs ih =>
    simp only [List.mem_cons, not_or] at h
    have := ih h.2
    simp only [escape, List.flatMap_cons] at this ⊢
    rw [this, if_neg (fun hh => h.1 hh.symm)]
    rfl

theorem escape_cons_ne {x : UInt8} {xs : Bytes} (h : x ≠ 0x10) : escape (x :: xs) = x :: escape xs := by
  simp [escape, List.flatMap_cons, h]

theorem escape_cons_dle {xs : Bytes} : escape (0x10 :: xs) = 0x10 :: 0x10 :: escape xs := by
  simp [escape, List.flatMap_cons]

theorem escape_length (d : Bytes) :
    (escape d).length = d.length + (d.filter (· == 0x10)).length := by
  induction d with
  | nil => rfl
  | cons x xs ih =>
    by_cases h : x = 0x10
    · subst h; rw [escape_cons_dle]; simp [ih]; omega
    · rw [escape_cons_ne h]; simp [ih, h]; omega

/-- Every byte string is an escaped body followed by nothing, by a lone DLE, or by a DLE and a
byte that is not DLE. -/
theorem classify (l : Bytes) : ∃ d, l = escape d ∨ l = escape d ++ [0x10] ∨
    ∃ c r, c ≠ 0x10 ∧ l = escape d ++ 0x10 :: c :: r := by
  suffices H : ∀ n (l : Bytes), l.length ≤ n → ∃ d, l = escape d ∨ l = escape d ++ [0x10] ∨
    ∃ c r, c ≠ 0x10 ∧ l = escape d ++ 0x10 :: c :: r from H _ l (Nat.le_refl _)
  intro n
  induction n with
  | zero =>
    intro l hl
    have : l = [] := List.length_eq_zero_iff.mp (by omega)
    exact ⟨[], Or.inl (by rw [this]; rfl)⟩
  | succ n ih =>
    intro l hl
    match l with
    | [] => exact ⟨[], Or.inl rfl⟩
    | x :: xs =>
      by_cases hx : x = 0x10
      · subst hx
        match xs with
        | [] => exact ⟨[], Or.inr (Or.inl rfl)⟩
        | c :: r =>
          by_cases hc : c = 0x10
          · subst hc
            obtain ⟨d, h⟩ := ih r (by simp at hl; omega)
            refine ⟨0x10 :: d, ?_⟩
            rw [escape_cons_dle]
            rcases h with h | h | ⟨c, r', hc, h⟩
            · left; rw [h]
            · right; left; rw [h]; rfl
            · right; right; exact ⟨c, r', hc, by rw [h]; rfl⟩
          · exact ⟨[], Or.inr (Or.inr ⟨c, r, hc, rfl⟩)⟩
      · obtain ⟨d, h⟩ := ih xs (by simp at hl; omega)
        refine ⟨x :: d, ?_⟩
        rw [escape_cons_ne hx]
        rcases h with h | h | ⟨c, r', hc, h⟩
        · left; rw [h]
        · right; left; rw [h]; rfl
        · right; right; exact ⟨c, r', hc, by rw [h]; rfl⟩

theorem encodeLoop_eq (body : Bytes) : ∀ fuel pos, pos ≤ body.length → body.length - pos < fuel →
    RpPacket.encodeLoop body fuel pos = .ok (escape (body.drop pos)) := by
  intro fuel
  induction fuel with
  | zero => intro pos _ h; omega
  | succ fuel ih =>
    intro pos hp hf
    rw [RpPacket.encodeLoop, sliceFrom_ok hp, bind_ok]
    rcases split_first 0x10 (body.drop pos) with h | ⟨d, r, h, hd⟩
    · rw [memchr_none h, escape_clean h]
    · have hlen : body.length = pos + d.length + r.length + 1 := by
        have := congrArg List.length h
        simp at this; omega
      rw [h, memchr_append hd]
      simp only
      rw [slice_ok (by omega) (by omega), bind_ok, ih _ (by omega) (by omega), bind_ok]
      have h1 : (body.take (pos + d.length + 1)).drop pos = d ++ [0x10] := by
        rw [List.drop_take, h]
        have : pos + d.length + 1 - pos = d.length + 1 := by omega
        rw [this, List.take_length_add_append]
        rfl
      have h2 : body.drop (pos + d.length + 1) = r := by
        have : body.drop (pos + d.length + 1) = (body.drop pos).drop (d.length + 1) := by
          rw [List.drop_drop]; rfl
        rw [this, h, List.drop_length_add_append]
        rfl
      rw [h1, h2, escape_append, escape_clean hd, escape_cons_dle]
      simp

/-! ## CRC trailer -/

theorem beBytes_roundtrip (hi lo : UInt8) : toBeBytes (fromBeBytes hi lo) = [hi, lo] := by
  have h : ∀ h l : UInt8, ((fromBeBytes h l) >>> 8).toUInt8 = h ∧ (fromBeBytes h l).toUInt8 = l := by
    intro h l
    unfold fromBeBytes
    have := h.toNat_lt
    have := l.toNat_lt
    have key : (h.toNat <<< 8 % 65536 ||| l.toNat) = h.toNat * 256 + l.toNat := by
      rw [Nat.shiftLeft_eq]
      have : h.toNat * 2 ^ 8 % 65536 = 2 ^ 8 * h.toNat := by omega
      rw [this, ← Nat.two_pow_add_eq_or_of_lt (by omega)]
      omega
    constructor
    · apply UInt8.toNat_inj.mp
      simp [key, Nat.shiftRight_eq_div_pow]
      omega
    · apply UInt8.toNat_inj.mp
      rw [UInt16.toNat_toUInt8, UInt16.toNat_or, UInt16.toNat_shiftLeft]
      simp [key]
  simp [toBeBytes, h]

theorem fromBe_toBe (v : UInt16) :
    fromBeBytes (v >>> 8).toUInt8 v.toUInt8 = v := by
  unfold fromBeBytes
  apply UInt16.toNat_inj.mp
  have := v.toNat_lt
  simp [Nat.shiftRight_eq_div_pow, Nat.shiftLeft_eq]
  have h1 : v.toNat / 256 % 256 * 256 % 65536 = 2 ^ 8 * (v.toNat / 256) := by omega
  rw [h1, ← Nat.two_pow_add_eq_or_of_lt (by omega)]
  omega

theorem fromBe_inj {v : UInt16} {hi lo : UInt8} : fromBeBytes hi lo = v ↔ [hi, lo] = toBeBytes v := by
  constructor
  · rintro rfl; rw [beBytes_roundtrip]
  · intro h
    simp only [toBeBytes, List.cons.injEq, and_true] at h
    rw [h.1, h.2, fromBe_toBe]

theorem last2_append (l : Bytes) (a b : UInt8) : last2 (l ++ [a, b]) = some (a, b) := by
  have : (l ++ [a, b]).drop ((l ++ [a, b]).length - 2) = [a, b] := by
    have : (l ++ [a, b]).length - 2 = l.length := by simp
    rw [this, List.drop_left]
  simp [last2]

theorem last2_some {l : Bytes} {a b : UInt8} (h : last2 l = some (a, b)) : ∃ d, l = d ++ [a, b] := by
  unfold last2 at h
  split at h
  · rename_i x y heq
    simp only [Option.some.injEq, Prod.mk.injEq] at h
    obtain ⟨rfl, rfl⟩ := h
    exact ⟨l.take (l.length - 2), by rw [← heq, List.take_append_drop]⟩
  · simp at h

theorem splitLast4_append (d : Bytes) (a b c e : UInt8) :
    splitLast4 (d ++ [a, b, c, e]) = some (d, a, b, c, e) := by
  have hl : (d ++ [a, b, c, e]).length - 4 = d.length := by simp
  unfold splitLast4
  rw [hl, List.drop_left, List.take_left]

theorem splitLast4_some {l d : Bytes} {a b c e : UInt8} (h : splitLast4 l = some (d, a, b, c, e)) :
    l = d ++ [a, b, c, e] := by
  unfold splitLast4 at h
  split at h
  · rename_i heq
    simp only [Option.some.injEq, Prod.mk.injEq] at h
    obtain ⟨rfl, rfl, rfl, rfl, rfl⟩ := h
    rw [← heq, List.take_append_drop]
  · simp at h

theorem splitLast4_none {l : Bytes} (h : splitLast4 l = none) : l.length < 4 := by
  apply Nat.lt_of_not_le
  intro hl
  have : l = l.take (l.length - 4) ++ l.drop (l.length - 4) := (List.take_append_drop _ _).symm
  have hlen : (l.drop (l.length - 4)).length = 4 := by simp; omega
  match hd : l.drop (l.length - 4), hlen with
  | [a, b, c, e], _ =>
    rw [hd] at this
    rw [this, splitLast4_append] at h
    simp at h

/-! ## RP decoding -/

/-- Outcome of `decodeLoop` once the escaped stretch is over: `tail` is the rest of `buf` at offset
`n` (nothing, a lone DLE, or a DLE followed by a byte other than DLE), `data` the body so far. -/
def rpEnd (src buf : Bytes) (n : Nat) (data tail : Bytes) : P RpResult :=
  match tail with
  | _ :: c :: r =>
    if c = 0x03 then
      match r with
      | hi :: lo :: _ =>
        if RpPacket.crc data = fromBeBytes hi lo then .ok (.ok (some ⟨data⟩), src.drop (n + 4))
        else .ok (.error ⟨.rpCrc (RpPacket.crc data), buf.take (n + 4)⟩, src.drop (n + 4))
      | _ => .ok (.ok none, src)
    else .ok (.error ⟨.rpBadEscape c, src.take (n + 1)⟩, src.drop (n + 1))
  | _ => RpPacket.decodeUnfinished src

/-- The possible tails. -/
def RpTail (tail : Bytes) : Prop :=
  tail = [] ∨ tail = [0x10] ∨ ∃ c r, c ≠ 0x10 ∧ tail = 0x10 :: c :: r

theorem decodeLoop_clean (src pre d tail acc : Bytes) (fuel : Nat) (hd : 0x10 ∉ d)
    (ht : RpTail tail) (hsrc : (pre ++ (d ++ tail)).length ≤ src.length) :
    RpPacket.decodeLoop src (pre ++ (d ++ tail)) (fuel + 1) pre.length acc =
      rpEnd src (pre ++ (d ++ tail)) (pre.length + d.length) (acc ++ d) tail := by
  rw [RpPacket.decodeLoop, sliceFrom_ok (by simp), bind_ok, List.drop_left]
  rcases ht with rfl | rfl | ⟨c, r, hc, rfl⟩
  · rw [List.append_nil, memchr_none hd]; rfl
  · rw [memchr_append hd]
    have : (pre ++ (d ++ [0x10]))[pre.length + d.length + 1]? = none := by
      rw [List.getElem?_eq_none]; simp; omega
    simp only [this]; rfl
  · rw [memchr_append hd]
    have : (pre ++ (d ++ 0x10 :: c :: r))[pre.length + d.length + 1]? = some c := by
      rw [List.getElem?_append_right (by omega), List.getElem?_append_right (by omega)]
      have : pre.length + d.length + 1 - pre.length - d.length = 1 := by omega
      rw [this]; rfl
    simp only [this]
    rw [if_neg hc]
    simp only [List.length_append, List.length_cons] at hsrc
    by_cases h3 : c = 3
    · subst h3
      rw [if_pos rfl, slice_ok (by omega) (by simp), bind_ok]
      have hs : ((pre ++ (d ++ 0x10 :: 3 :: r)).take (pre.length + d.length)).drop pre.length = d := by
        rw [List.take_length_add_append, List.drop_left, List.take_left]
      simp only [hs]
      match r with
      | [] =>
        have : getTo (pre ++ (d ++ [0x10, 3])) (pre.length + d.length + 4) = none := by
          simp [getTo]; omega
        rw [this]; rfl
      | [x] =>
        have : getTo (pre ++ (d ++ [0x10, 3, x])) (pre.length + d.length + 4) = none := by
          simp [getTo]; omega
        rw [this]; rfl
      | hi :: lo :: r' =>
        simp only [List.length_cons] at hsrc
        have h4 : (pre ++ (d ++ 0x10 :: 3 :: hi :: lo :: r')).take (pre.length + d.length + 4)
            = (pre ++ d ++ [0x10, 3]) ++ [hi, lo] := by
          rw [show pre.length + d.length + 4 = pre.length + (d.length + 4) by omega,
            List.take_length_add_append, List.take_length_add_append]
          simp
        have : getTo (pre ++ (d ++ 0x10 :: 3 :: hi :: lo :: r')) (pre.length + d.length + 4)
            = some ((pre ++ d ++ [0x10, 3]) ++ [hi, lo]) := by
          rw [getTo, if_pos (by simp; omega), h4]
        rw [this]
        simp only [last2_append]
        rw [advance_ok (by omega), slice_ok (by omega) (by simp; omega), h4]
        simp only [rpEnd, if_true]
        by_cases hcrc : RpPacket.crc (acc ++ d) = fromBeBytes hi lo
        · simp only [hcrc, ne_eq, not_true_eq_false, if_false, if_true]; rfl
        · simp only [hcrc, ne_eq, not_false_eq_true, if_true, if_false]; rw [h4]; rfl
    · simp only [h3, if_false, rpEnd]
      rw [slice_ok (by omega) (by omega), bind_ok, advance_ok (by omega), bind_ok]
      rfl

theorem decodeLoop_skip (src pre d r acc : Bytes) (fuel : Nat) (hd : 0x10 ∉ d) :
    RpPacket.decodeLoop src (pre ++ (d ++ 0x10 :: 0x10 :: r)) (fuel + 1) pre.length acc =
      RpPacket.decodeLoop src (pre ++ (d ++ 0x10 :: 0x10 :: r)) fuel (pre.length + d.length + 2)
        (acc ++ d ++ [0x10]) := by
  rw [RpPacket.decodeLoop, sliceFrom_ok (by simp), bind_ok, List.drop_left, memchr_append hd]
  have : (pre ++ (d ++ 0x10 :: 0x10 :: r))[pre.length + d.length + 1]? = some 0x10 := by
    rw [List.getElem?_append_right (by omega), List.getElem?_append_right (by omega)]
    have : pre.length + d.length + 1 - pre.length - d.length = 1 := by omega
    rw [this]; rfl
  simp only [this, if_true]
  rw [slice_ok (by omega) (by simp; omega), bind_ok]
  have hs : ((pre ++ (d ++ 0x10 :: 0x10 :: r)).take (pre.length + d.length + 1)).drop pre.length
      = d ++ [0x10] := by
    rw [Nat.add_assoc, List.take_length_add_append, List.drop_left, List.take_length_add_append]; rfl
  rw [hs, List.append_assoc]

theorem decodeLoop_eq (src tail : Bytes) (ht : RpTail tail) :
    ∀ n (pre d acc : Bytes) fuel, d.length ≤ n → d.length < fuel →
    (pre ++ (escape d ++ tail)).length ≤ src.length →
    RpPacket.decodeLoop src (pre ++ (escape d ++ tail)) fuel pre.length acc =
      rpEnd src (pre ++ (escape d ++ tail)) (pre.length + (escape d).length) (acc ++ d) tail := by
  intro n
  induction n with
  | zero =>
    intro pre d acc fuel hd hf hsrc
    have hd0 : d = [] := List.length_eq_zero_iff.mp (by omega)
    subst hd0
    obtain ⟨f, rfl⟩ : ∃ f, fuel = f + 1 := ⟨fuel - 1, by simp at hf; omega⟩
    exact decodeLoop_clean src pre [] tail acc f (by simp) ht hsrc
  | succ n ih =>
    intro pre d acc fuel hd hf hsrc
    obtain ⟨f, rfl⟩ : ∃ f, fuel = f + 1 := ⟨fuel - 1, by omega⟩
    rcases split_first 0x10 d with h | ⟨d1, d2, rfl, h1⟩
    · rw [escape_clean h] at hsrc ⊢
      exact decodeLoop_clean src pre d tail acc f h ht hsrc
    · simp only [List.length_append, List.length_cons] at hd hf
      have e : escape (d1 ++ 0x10 :: d2) ++ tail = d1 ++ 0x10 :: 0x10 :: (escape d2 ++ tail) := by
        rw [escape_append, escape_clean h1, escape_cons_dle]; simp
      have e2 : pre ++ (d1 ++ 0x10 :: 0x10 :: (escape d2 ++ tail))
          = (pre ++ d1 ++ [0x10, 0x10]) ++ (escape d2 ++ tail) := by simp
      rw [e] at hsrc ⊢
      rw [decodeLoop_skip _ _ _ _ _ _ h1]
      rw [e2] at hsrc ⊢
      have := ih (pre ++ d1 ++ [0x10, 0x10]) d2 (acc ++ d1 ++ [0x10]) f (by omega) (by omega) hsrc
      have hl : (pre ++ d1 ++ [0x10, 0x10]).length = pre.length + d1.length + 2 := by simp; omega
      rw [hl] at this
      rw [this]
      have hl2 : (escape (d1 ++ 0x10 :: d2)).length = d1.length + 2 + (escape d2).length := by
        rw [escape_append, escape_clean h1, escape_cons_dle]; simp; omega
      rw [hl2]
      congr 1
      · omega
      · simp

theorem rpTail_of_classify (l : Bytes) : ∃ d tail, l = escape d ++ tail ∧ RpTail tail := by
  obtain ⟨d, h⟩ := classify l
  rcases h with h | h | ⟨c, r, hc, h⟩
  · exact ⟨d, [], by simp [h], Or.inl rfl⟩
  · exact ⟨d, [0x10], h, Or.inr (Or.inl rfl)⟩
  · exact ⟨d, _, h, Or.inr (Or.inr ⟨c, r, hc, rfl⟩)⟩

/-- `RpPacket::decode` in closed form. -/
theorem rpDecode_eq (src d tail : Bytes) (ht : RpTail tail)
    (hsrc : src.take 1024 = [0x10, 0x02] ++ (escape d ++ tail)) :
    RpPacket.decode src = rpEnd src (src.take 1024) (2 + (escape d).length) d tail := by
  have hlen : 2 ≤ src.length := by
    have := congrArg List.length hsrc
    simp at this; omega
  have htake : src.take 2 = rpHeader := by
    have : src.take 2 = (src.take 1024).take 2 := by rw [List.take_take]; rfl
    rw [this, hsrc]; rfl
  rw [RpPacket.decode, if_neg (by omega), slice_ok (by omega) hlen, bind_ok]
  rw [List.drop_zero, htake]
  simp only [ne_eq, not_true_eq_false, if_false]
  rw [slice_ok (by omega) (by omega), bind_ok, List.drop_zero]
  have hm : src.take (min src.length RpPacket.maxLen) = src.take 1024 := by
    rw [List.take_eq_take_iff]; simp [RpPacket.maxLen]; omega
  rw [hm, hsrc]
  have hesc := escape_length d
  have := decodeLoop_eq src tail ht d.length [0x10, 0x02] d []
    (([0x10, 0x02] ++ (escape d ++ tail)).length + 1) (Nat.le_refl _) (by simp; omega)
    (by rw [← hsrc]; simp; omega)
  simpa using this

end Elk
