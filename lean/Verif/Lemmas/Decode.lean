import Verif.Lemmas.Pkt
import Verif.Lemmas.Crc
/-! # Main lemmas about `Packet::decode` and `Packet::encode` -/

namespace Elk
open Spec

/-! ## Constructors and encoders -/

theorem printable_iff (b : UInt8) :
    (decide (0x20 ≤ b) && decide (b ≤ 0x7e)) = true ↔ Printable b := by
  simp [Printable, UInt8.le_iff_toNat_le]

theorem checkPrintable_ok {v : Bytes} : checkPrintable v = .ok () ↔ ∀ b ∈ v, Printable b := by
  unfold checkPrintable
  split
  · rename_i i h
    rw [List.findIdx?_eq_some_iff_getElem] at h
    obtain ⟨hi, h1, _⟩ := h
    simp only [reduceCtorEq, false_iff]
    intro hall
    have := (printable_iff _).mpr (hall v[i] (List.getElem_mem hi))
    simp [this] at h1
  · rename_i h
    rw [List.findIdx?_eq_none_iff] at h
    simp only [true_iff]
    intro b hb
    have := h b hb
    rw [← printable_iff]
    simpa using this

theorem checkPrintable_err {v : Bytes} (h : ¬ ∀ b ∈ v, Printable b) :
    ∃ e, checkPrintable v = .error e := by
  match hc : checkPrintable v with
  | .ok () => exact absurd (checkPrintable_ok.mp hc) h
  | .error e => exact ⟨e, rfl⟩

theorem ascii_tryFrom_ok {v : Bytes} {p : AsciiPacket} :
    AsciiPacket.tryFrom v = .ok p ↔ p.body = v ∧ ValidAsciiBody v := by
  unfold AsciiPacket.tryFrom
  by_cases h : ∀ b ∈ v, Printable b
  · rw [checkPrintable_ok.mpr h, bind_ok]
    by_cases h2 : v.length < 2 ∨ v.length > 253
    · rw [if_pos h2]
      simp only [reduceCtorEq, ValidAsciiBody, false_iff, not_and]
      intro _ h3 h4; omega
    · rw [if_neg h2]
      simp only [Except.ok.injEq, ValidAsciiBody]
      constructor
      · rintro rfl; exact ⟨rfl, by omega, by omega, h⟩
      · rintro ⟨rfl, _⟩; rfl
  · obtain ⟨e, he⟩ := checkPrintable_err h
    rw [he, bind_error]
    simp only [reduceCtorEq, ValidAsciiBody, false_iff, not_and]
    intro _ _ _; exact h

theorem checksum_hex_body (n : UInt8) (body : Bytes) :
    checksum (hexByte n) + checksum body = checksum (hexByte n ++ body) := by
  rw [checksum_append]

theorem ascii_encode_eq {body : Bytes} (h : body.length ≤ 253) :
    AsciiPacket.encode ⟨body⟩ = .ok (asciiFrame body) := by
  have hn : (UInt8.ofNat body.length).toNat = body.length := by
    simp [Nat.mod_eq_of_lt (show body.length < 256 by omega)]
  have ha : addU8 2 (UInt8.ofNat body.length) = .ok (UInt8.ofNat (body.length + 2)) := by
    unfold addU8
    rw [if_pos (by rw [hn]; show 2 + _ < _; omega)]
    congr 1
    apply UInt8.toNat_inj.mp
    rw [UInt8.toNat_add, hn]
    simp; omega
  unfold AsciiPacket.encode asciiFrame
  rw [ha, bind_ok]
  simp only [pure, Except.pure]
  rw [checksum_hex_body, hex2_eq_nat _ (show body.length + 2 < 256 by omega), ← checksum_toNat,
    hex2_eq]
  rfl

theorem rp_encode_eq (body : Bytes) : RpPacket.encode ⟨body⟩ = .ok (rpFrame body) := by
  unfold RpPacket.encode
  rw [encodeLoop_eq _ _ _ (by omega) (by simp), bind_ok]
  simp only [pure, Except.pure, rpFrame, List.drop_zero, toBeBytes_crc]
  rfl

theorem rpFrame_length (body : Bytes) :
    (rpFrame body).length = body.length + (body.filter (· == 0x10)).length + 6 := by
  simp only [rpFrame, List.length_append, escape_length, List.length_cons, List.length_nil]
  omega

theorem asciiFrame_length (body : Bytes) : (asciiFrame body).length = body.length + 6 := by
  simp [asciiFrame, hex2]

theorem rp_tryFrom_ok {v : Bytes} {p : RpPacket} :
    RpPacket.tryFrom v = .ok p ↔ p.body = v ∧ (rpFrame v).length ≤ 1024 := by
  unfold RpPacket.tryFrom RpPacket.maxLen
  rw [rpFrame_length]
  dsimp only
  by_cases h : 6 + v.length + (v.filter (· == 0x10)).length > 1024
  · rw [if_pos h]; simp; omega
  · rw [if_neg h]
    simp only [Except.ok.injEq]
    constructor
    · rintro rfl; exact ⟨rfl, by omega⟩
    · rintro ⟨rfl, _⟩; rfl

theorem encode_valid {p : Packet} (h : ValidPacket p) : p.encode = .ok (wire p) := by
  match p, h with
  | .ascii ⟨body⟩, h => exact ascii_encode_eq h.2.1
  | .rp ⟨body⟩, _ => exact rp_encode_eq body

/-! ## ASCII decoding -/

theorem decodeRest_total (raw : Bytes) : ∃ e, AsciiPacket.decodeRest raw = .ok (.error e) := by
  unfold AsciiPacket.decodeRest
  split
  · split <;> exact ⟨_, rfl⟩
  · exact ⟨_, rfl⟩

theorem decodeRest_ne (raw : Bytes) (p : AsciiPacket) :
    ¬ AsciiPacket.decodeRest raw = .ok (.ok p) := by
  obtain ⟨e, he⟩ := decodeRest_total raw
  rw [he]; simp

/-- The frame whose length digits are `a b`: what `AsciiPacket::decode` accepts. -/
theorem asciiDecode_ok {raw : Bytes} {p : AsciiPacket} (h : AsciiPacket.decode raw = .ok (.ok p)) :
    ∃ a b, raw = [a, b] ++ p.body ++ hexByte (checksum ([a, b] ++ p.body)) ++ [13, 10]
      ∧ ValidAsciiBody p.body := by
  unfold AsciiPacket.decode at h
  split at h
  · rename_i d hi lo c e hs
    have hraw := splitLast4_some hs
    split at h
    · rename_i hc
      obtain ⟨rfl, rfl, hd⟩ := hc
      unfold AsciiPacket.decodeBody at h
      split at h
      · simp at h
      · rename_i n hn
        have hx := dehexByte_some hn
        dsimp only at h
        split at h
        · simp at h
        · rename_i heq
          have heq : n = checksum d := Classical.not_not.mp heq
          rw [sliceFrom_ok (by omega), bind_ok] at h
          simp only [Except.ok.injEq] at h
          obtain ⟨hb, hv⟩ := ascii_tryFrom_ok.mp h
          match d, hd with
          | a :: b :: d', _ =>
            simp only [List.drop_succ_cons, List.drop_zero] at hb hv
            refine ⟨a, b, ?_, hb ▸ hv⟩
            rw [hb]
            rw [heq] at hx
            have e : [a, b] ++ d' = a :: b :: d' := rfl
            rw [e, hx, hraw]
            simp
            decide
    · exact absurd h (decodeRest_ne raw p)
  · exact absurd h (decodeRest_ne raw p)

theorem asciiDecode_total (raw : Bytes) : ∃ r, AsciiPacket.decode raw = .ok r := by
  have hc : ∃ r, AsciiPacket.decodeRest raw = .ok r := by
    obtain ⟨e, he⟩ := decodeRest_total raw
    exact ⟨_, he⟩
  unfold AsciiPacket.decode
  split
  · rename_i d hi lo c e hs
    split
    · rename_i h
      unfold AsciiPacket.decodeBody
      split
      · exact ⟨_, rfl⟩
      · dsimp only
        split
        · exact ⟨_, rfl⟩
        · rw [sliceFrom_ok (by omega)]; exact ⟨_, rfl⟩
    · exact hc
  · exact hc

theorem asciiDecode_valid {a b : UInt8} {body : Bytes} (hv : ValidAsciiBody body) :
    AsciiPacket.decode ([a, b] ++ body ++ hexByte (checksum ([a, b] ++ body)) ++ [13, 10])
      = .ok (.ok ⟨body⟩) := by
  have e : [a, b] ++ body ++ hexByte (checksum ([a, b] ++ body)) ++ ([13, 10] : Bytes)
      = ([a, b] ++ body) ++ [hexNibble (checksum ([a, b] ++ body) >>> 4),
        hexNibble (checksum ([a, b] ++ body)), 13, 10] := by
    simp [hexByte]
  have h1 := hv.1
  rw [e, AsciiPacket.decode, splitLast4_append]
  simp only
  rw [if_pos ⟨rfl, rfl, by simp; omega⟩, AsciiPacket.decodeBody,
    dehexByte_hexByte (checksum ([a, b] ++ body)) _ _ rfl]
  simp only [ne_eq, not_true_eq_false, if_false]
  rw [sliceFrom_ok (by simp), bind_ok]
  congr 1
  exact ascii_tryFrom_ok.mpr ⟨rfl, hv⟩

/-! ## Branches of `Packet::decode` -/

theorem startsWith_iff {l : Bytes} : startsWith l rpHeader = true ↔ ∃ r, l = 0x10 :: 0x02 :: r := by
  unfold startsWith rpHeader
  match l with
  | [] => simp
  | [a] => simp
  | a :: b :: r =>
    simp [List.isPrefixOf]
    constructor
    · rintro ⟨h1, h2⟩; exact ⟨h1.symm, h2.symm⟩
    · rintro ⟨h1, h2⟩; exact ⟨h1.symm, h2.symm⟩

theorem startsWith_cons2 (a b : UInt8) (r : Bytes) :
    startsWith (a :: b :: r) rpHeader = decide (a = 0x10 ∧ b = 0x02) := by
  rw [Bool.eq_iff_iff, startsWith_iff]
  simp

theorem decode_short {src : Bytes} (h : src.length < 2) : Packet.decode src = .ok (none, src) := by
  unfold Packet.decode; rw [if_pos h]

theorem decode_rp (r : Bytes) :
    Packet.decode (0x10 :: 0x02 :: r) = Packet.decodeRp (0x10 :: 0x02 :: r) := by
  unfold Packet.decode
  rw [if_neg (by simp), if_pos (startsWith_iff.mpr ⟨r, rfl⟩)]

theorem not_header_of_hex {a b n : UInt8} (h : dehexByte a b = some n) : ¬ (a = 0x10 ∧ b = 0x02) := by
  rintro ⟨rfl, rfl⟩
  revert h; decide +kernel +revert

theorem decode_ascii {a b n : UInt8} (r : Bytes) (h : dehexByte a b = some n) :
    Packet.decode (a :: b :: r) = Packet.decodeAscii (a :: b :: r) n := by
  unfold Packet.decode
  rw [if_neg (by simp), startsWith_cons2]
  simp only [not_header_of_hex h, decide_false, Bool.false_eq_true, if_false]
  show (do
    let a' ← idx (a :: b :: r) 0
    let b' ← idx (a :: b :: r) 1
    match dehexByte a' b' with
    | some n => Packet.decodeAscii (a :: b :: r) n
    | none => Packet.decodeScan (a :: b :: r)) = _
  rw [idx_ok (a := a) rfl, bind_ok, idx_ok (a := b) rfl, bind_ok, h]

theorem decode_scan {a b : UInt8} (r : Bytes) (h : ¬ (a = 0x10 ∧ b = 0x02))
    (h' : dehexByte a b = none) :
    Packet.decode (a :: b :: r) = Packet.decodeScan (a :: b :: r) := by
  unfold Packet.decode
  rw [if_neg (by simp), startsWith_cons2]
  simp only [h, decide_false, Bool.false_eq_true, if_false]
  show (do
    let a' ← idx (a :: b :: r) 0
    let b' ← idx (a :: b :: r) 1
    match dehexByte a' b' with
    | some n => Packet.decodeAscii (a :: b :: r) n
    | none => Packet.decodeScan (a :: b :: r)) = _
  rw [idx_ok (a := a) rfl, bind_ok, idx_ok (a := b) rfl, bind_ok, h']

/-- The four kinds of buffer `decode` distinguishes. -/
theorem decode_branches (src : Bytes) :
    src.length < 2 ∨ (∃ r, src = 0x10 :: 0x02 :: r) ∨
    (∃ a b r n, src = a :: b :: r ∧ dehexByte a b = some n) ∨
    (∃ a b r, src = a :: b :: r ∧ ¬ (a = 0x10 ∧ b = 0x02) ∧ dehexByte a b = none) := by
  match src with
  | [] => left; simp
  | [a] => left; simp
  | a :: b :: r =>
    right
    by_cases h : a = 0x10 ∧ b = 0x02
    · left; exact ⟨r, by rw [h.1, h.2]⟩
    · right
      match h' : dehexByte a b with
      | some n => left; exact ⟨a, b, r, n, rfl, h'⟩
      | none => right; exact ⟨a, b, r, rfl, h, h'⟩

theorem getTo_some {α} {l : List α} {n : Nat} (h : n ≤ l.length) : getTo l n = some (l.take n) := by
  simp [getTo, h]
theorem getTo_none {α} {l : List α} {n : Nat} (h : l.length < n) : getTo l n = none := by
  simp [getTo]; omega

theorem decodeAscii_short {src : Bytes} {n : UInt8} (h : src.length < 4 + n.toNat) :
    Packet.decodeAscii src n = .ok (none, src) := by
  unfold Packet.decodeAscii; dsimp only; rw [getTo_none h]

theorem decodeAscii_full {src : Bytes} {n : UInt8} (h : 4 + n.toNat ≤ src.length) :
    ∃ p, Packet.decodeAscii src n = .ok (some p, src.drop (4 + n.toNat)) ∧
      ((∃ q, p = .ascii q ∧ AsciiPacket.decode (src.take (4 + n.toNat)) = .ok (.ok q)) ∨
       (∃ e, p = .invalid ⟨e, src.take (4 + n.toNat)⟩ ∧
          AsciiPacket.decode (src.take (4 + n.toNat)) = .ok (.error e))) := by
  unfold Packet.decodeAscii
  dsimp only
  rw [getTo_some h]
  obtain ⟨r, hr⟩ := asciiDecode_total (src.take (4 + n.toNat))
  simp only [hr, bind_ok, advance_ok h]
  match r with
  | .ok q => exact ⟨_, rfl, Or.inl ⟨q, rfl, rfl⟩⟩
  | .error e => exact ⟨_, rfl, Or.inr ⟨e, rfl, rfl⟩⟩

/-! ## RP branch -/

/-- The buffer split used by the RP decoder. -/
theorem rp_split (r : Bytes) : ∃ d tail, RpTail tail ∧
    (0x10 :: 0x02 :: r : Bytes).take 1024 = [0x10, 0x02] ++ (escape d ++ tail) := by
  obtain ⟨d, tail, h, ht⟩ := rpTail_of_classify (r.take 1022)
  exact ⟨d, tail, ht, by rw [← h]; rfl⟩

theorem decodeRp_of {src : Bytes} {x : RpResult} (h : RpPacket.decode src = .ok x) :
    Packet.decodeRp src = .ok (match x.1 with
      | .ok none => (none, x.2)
      | .ok (some p) => (some (.rp p), x.2)
      | .error i => (some (.invalid i), x.2)) := by
  unfold Packet.decodeRp
  rw [h, bind_ok]
  obtain ⟨r, s⟩ := x
  match r with
  | .ok none => rfl
  | .ok (some p) => rfl
  | .error i => rfl

/-- All outcomes of the RP branch. -/
inductive RpCase (src : Bytes) : Option Packet × Bytes → Prop
  /-- no terminator yet, below the size limit -/
  | more (d tail : Bytes) : src.length < 1024 → (tail = [] ∨ tail = [0x10]) →
      src.take 1024 = [0x10, 0x02] ++ (escape d ++ tail) → RpCase src (none, src)
  /-- terminator seen but the two CRC bytes are not in the first 1024 bytes -/
  | crcMissing (d x : Bytes) : x.length < 2 →
      src.take 1024 = [0x10, 0x02] ++ (escape d ++ (0x10 :: 0x03 :: x)) → RpCase src (none, src)
  /-- no terminator in 1024 bytes -/
  | noEtx (d tail : Bytes) : 1024 ≤ src.length → (tail = [] ∨ tail = [0x10]) →
      src.take 1024 = [0x10, 0x02] ++ (escape d ++ tail) →
      RpCase src (some (.invalid ⟨.rpNoEtx, src.take 1024⟩), src.drop 1024)
  | badEscape (d : Bytes) (c : UInt8) (r : Bytes) : c ≠ 0x10 → c ≠ 0x03 →
      src = [0x10, 0x02] ++ escape d ++ [0x10] ++ c :: r →
      ([0x10, 0x02] ++ escape d ++ [0x10, c]).length ≤ 1024 →
      RpCase src (some (.invalid ⟨.rpBadEscape c, [0x10, 0x02] ++ escape d ++ [0x10]⟩), c :: r)
  | badCrc (d : Bytes) (hi lo : UInt8) (r : Bytes) : RpPacket.crc d ≠ fromBeBytes hi lo →
      src = ([0x10, 0x02] ++ escape d ++ [0x10, 0x03] ++ [hi, lo]) ++ r →
      ([0x10, 0x02] ++ escape d ++ [0x10, 0x03] ++ [hi, lo]).length ≤ 1024 →
      RpCase src (some (.invalid ⟨.rpCrc (RpPacket.crc d),
        [0x10, 0x02] ++ escape d ++ [0x10, 0x03] ++ [hi, lo]⟩), r)
  | good (d r : Bytes) : src = rpFrame d ++ r → (rpFrame d).length ≤ 1024 →
      RpCase src (some (.rp ⟨d⟩), r)

theorem take_append_split {src a b : Bytes} {n : Nat} (h : src.take n = a ++ b) :
    a.length ≤ n ∧ a.length ≤ src.length ∧ src = a ++ src.drop a.length ∧ src.take a.length = a := by
  have hl := congrArg List.length h
  simp only [List.length_take, List.length_append] at hl
  have ht : src.take a.length = a := by
    have : (src.take n).take a.length = src.take a.length := by
      rw [List.take_take]; congr 1; omega
    rw [← this, h, List.take_left]
  refine ⟨by omega, by omega, ?_, ht⟩
  conv => lhs; rw [← List.take_append_drop a.length src, ht]

theorem rpFrame_eq (d : Bytes) :
    rpFrame d = [0x10, 0x02] ++ escape d ++ [0x10, 0x03] ++ toBeBytes (RpPacket.crc d) := by
  rw [toBeBytes_crc]; rfl

theorem decodeRp_cases {src : Bytes} (r : Bytes) (hs : src = 0x10 :: 0x02 :: r) :
    ∃ x, Packet.decodeRp src = .ok x ∧ RpCase src x := by
  obtain ⟨d, tail, ht, hsplit⟩ := rp_split r
  rw [← hs] at hsplit
  have hdec := rpDecode_eq src d tail ht hsplit
  have unf (htl : tail = [] ∨ tail = [0x10]) : ∃ x, RpPacket.decodeUnfinished src = .ok x ∧ RpCase src (match x.1 with
      | .ok none => (none, x.2)
      | .ok (some p) => (some (.rp p), x.2)
      | .error i => (some (.invalid i), x.2)) := by
    unfold RpPacket.decodeUnfinished RpPacket.maxLen
    by_cases hl : src.length ≥ 1024
    · rw [if_pos hl, slice_ok (by omega) hl, bind_ok, advance_ok hl, bind_ok]
      exact ⟨_, rfl, RpCase.noEtx d tail hl htl hsplit⟩
    · rw [if_neg hl]
      exact ⟨_, rfl, RpCase.more d tail (by omega) htl hsplit⟩
  have fin : ∃ x, RpPacket.decode src = .ok x ∧ RpCase src (match x.1 with
      | .ok none => (none, x.2)
      | .ok (some p) => (some (.rp p), x.2)
      | .error i => (some (.invalid i), x.2)) := by
    rw [hdec]
    rcases ht with rfl | rfl | ⟨c, t, hc, rfl⟩
    · exact unf (Or.inl rfl)
    · exact unf (Or.inr rfl)
    · simp only [rpEnd]
      by_cases h3 : c = 3
      · subst h3
        rw [if_pos rfl]
        match t with
        | [] => exact ⟨_, rfl, RpCase.crcMissing d [] (by simp) hsplit⟩
        | [x] => exact ⟨_, rfl, RpCase.crcMissing d [x] (by simp) hsplit⟩
        | hi :: lo :: t' =>
          have hs2 : src.take 1024
              = ([0x10, 0x02] ++ escape d ++ [0x10, 0x03] ++ [hi, lo]) ++ t' := by
            rw [hsplit]; simp
          obtain ⟨l1, l2, l3, l4⟩ := take_append_split hs2
          have hn : 2 + (escape d).length + 4
              = ([0x10, 0x02] ++ escape d ++ [0x10, 0x03] ++ [hi, lo]).length := by simp; omega
          simp only
          by_cases hcrc : RpPacket.crc d = fromBeBytes hi lo
          · rw [if_pos hcrc]
            have hfr : rpFrame d = [0x10, 0x02] ++ escape d ++ [0x10, 0x03] ++ [hi, lo] := by
              rw [rpFrame_eq, fromBe_inj.mp hcrc.symm]
            rw [hn, ← hfr]
            rw [← hfr] at l1 l3
            exact ⟨_, rfl, RpCase.good d _ l3 l1⟩
          · rw [if_neg hcrc, hn]
            have : (src.take 1024).take
                ([0x10, 0x02] ++ escape d ++ [0x10, 0x03] ++ [hi, lo]).length
                = [0x10, 0x02] ++ escape d ++ [0x10, 0x03] ++ [hi, lo] := by
              rw [hs2, List.take_left]
            rw [this]
            exact ⟨_, rfl, RpCase.badCrc d hi lo _ hcrc l3 l1⟩
      · rw [if_neg h3]
        have hs2 : src.take 1024 = ([0x10, 0x02] ++ escape d ++ [0x10]) ++ (c :: t) := by
          rw [hsplit]; simp
        have hs3 : src.take 1024 = ([0x10, 0x02] ++ escape d ++ [0x10, c]) ++ t := by
          rw [hsplit]; simp
        obtain ⟨l1, l2, l3, l4⟩ := take_append_split hs2
        obtain ⟨m1, m2, m3, m4⟩ := take_append_split hs3
        have hn : 2 + (escape d).length + 1 = ([0x10, 0x02] ++ escape d ++ [0x10]).length := by
          simp; omega
        have hdrop : src.drop ([0x10, 0x02] ++ escape d ++ [0x10]).length
            = c :: src.drop ([0x10, 0x02] ++ escape d ++ [0x10, c]).length := by
          conv => lhs; rw [m3]
          rw [show ([0x10, 0x02] ++ escape d ++ [0x10, c])
              = ([0x10, 0x02] ++ escape d ++ [0x10]) ++ [c] by simp,
            List.append_assoc ([0x10, 0x02] ++ escape d ++ [0x10]), List.drop_left]
          rfl
        rw [hn, l4, hdrop]
        refine ⟨_, rfl, RpCase.badEscape d c _ hc h3 ?_ m1⟩
        rw [← hdrop]; exact l3
  obtain ⟨x, hx, hcase⟩ := fin
  exact ⟨_, decodeRp_of hx, hcase⟩

/-! ## Scan branch -/

/-- A position at which a packet may start. -/
def PlausibleStart (src : Bytes) (i : Nat) : Prop :=
  ∃ a b, src[i]? = some a ∧ src[i + 1]? = some b ∧ ((a = 0x10 ∧ b = 0x02) ∨ (dehexByte a b).isSome)

theorem drop_two {src : Bytes} {pos : Nat} (h : pos + 2 ≤ src.length) :
    ∃ a b, src[pos]? = some a ∧ src[pos + 1]? = some b ∧
      src.drop pos = a :: b :: src.drop (pos + 2) := by
  refine ⟨src[pos], src[pos + 1], List.getElem?_eq_getElem _, List.getElem?_eq_getElem _, ?_⟩
  rw [List.drop_eq_getElem_cons (by omega), List.drop_eq_getElem_cons (by omega)]

theorem scanLoop_succ {src : Bytes} {left pos : Nat} (h : pos + 2 ≤ src.length) :
    (pos + 2 = src.length ∧ Packet.scanLoop src (left + 1) pos = .ok none) ∨
    (pos + 2 < src.length ∧ PlausibleStart src pos ∧
      Packet.scanLoop src (left + 1) pos = .ok (some pos)) ∨
    (pos + 2 < src.length ∧ ¬ PlausibleStart src pos ∧
      Packet.scanLoop src (left + 1) pos = Packet.scanLoop src left (pos + 1)) := by
  by_cases he : pos + 2 = src.length
  · left; exact ⟨he, by rw [Packet.scanLoop, if_pos he]⟩
  · right
    obtain ⟨a, b, ha, hb, hd⟩ := drop_two h
    have hps : PlausibleStart src pos ↔ ((a = 0x10 ∧ b = 0x02) ∨ (dehexByte a b).isSome) := by
      constructor
      · rintro ⟨a', b', ha', hb', hh⟩
        rw [ha] at ha'; rw [hb] at hb'
        simp only [Option.some.injEq] at ha' hb'
        rw [ha', hb']; exact hh
      · intro hh; exact ⟨a, b, ha, hb, hh⟩
    rw [Packet.scanLoop, if_neg he, sliceFrom_ok (by omega), bind_ok, hd, startsWith_cons2]
    by_cases h1 : a = 0x10 ∧ b = 0x02
    · left
      exact ⟨by omega, hps.mpr (Or.inl h1), by simp [h1]⟩
    · simp only [h1, decide_false, Bool.false_eq_true, if_false]
      rw [idx_ok ha, bind_ok, idx_ok hb, bind_ok]
      by_cases h2 : (dehexByte a b).isSome = true
      · left
        exact ⟨by omega, hps.mpr (Or.inr h2), by rw [if_pos h2]⟩
      · right
        refine ⟨by omega, ?_, by rw [if_neg h2]⟩
        rw [hps]; simp only [h1, h2, or_self, not_false_eq_true, Bool.false_eq_true]

theorem scanLoop_spec (src : Bytes) : ∀ left pos, pos + 2 ≤ src.length →
    (∃ p, Packet.scanLoop src left pos = .ok (some p) ∧ pos ≤ p ∧ p ≤ pos + left ∧
      p + 2 ≤ src.length ∧ (∀ i, pos ≤ i → i < p → ¬ PlausibleStart src i) ∧
      (p = pos + left ∨ (PlausibleStart src p ∧ p + 2 < src.length))) ∨
    (Packet.scanLoop src left pos = .ok none ∧ src.length < pos + left + 2 ∧
      (∀ i, pos ≤ i → i + 2 < src.length → ¬ PlausibleStart src i)) := by
  intro left
  induction left with
  | zero =>
    intro pos h
    left
    exact ⟨pos, rfl, by omega, by omega, h, by intro i h1 h2; omega, Or.inl rfl⟩
  | succ left ih =>
    intro pos h
    rcases scanLoop_succ (left := left) h with ⟨h1, h2⟩ | ⟨h1, h2, h3⟩ | ⟨h1, h2, h3⟩
    · right; exact ⟨h2, by omega, by intro i h3 h4; omega⟩
    · left
      exact ⟨pos, h3, by omega, by omega, h, by intro i h1 h2; omega, Or.inr ⟨h2, h1⟩⟩
    · rcases ih (pos + 1) (by omega) with ⟨p, g1, g2, g3, g4, g5, g6⟩ | ⟨g1, g2, g3⟩
      · left
        refine ⟨p, by rw [h3, g1], by omega, by omega, g4, ?_, ?_⟩
        · intro i hi1 hi2
          by_cases hi : i = pos
          · rw [hi]; exact h2
          · exact g5 i (by omega) hi2
        · rcases g6 with g6 | g6
          · left; omega
          · right; exact g6
      · right
        refine ⟨by rw [h3, g1], by omega, ?_⟩
        intro i hi1 hi2
        by_cases hi : i = pos
        · rw [hi]; exact h2
        · exact g3 i (by omega) hi2

theorem plausible_append {src t : Bytes} {i : Nat} (h : i + 2 ≤ src.length) :
    PlausibleStart (src ++ t) i ↔ PlausibleStart src i := by
  unfold PlausibleStart
  rw [List.getElem?_append_left (by omega), List.getElem?_append_left (by omega)]

/-- The scan finds the first plausible start (or the length limit). -/
theorem scanLoop_found {src : Bytes} : ∀ left pos p, p + 2 ≤ src.length → pos ≤ p →
    p ≤ pos + left → (∀ i, pos ≤ i → i < p → ¬ PlausibleStart src i) →
    (p = pos + left ∨ (PlausibleStart src p ∧ p + 2 < src.length)) →
    Packet.scanLoop src left pos = .ok (some p) := by
  intro left pos p h1 h2 h3 h4 h5
  rcases scanLoop_spec src left pos (by omega) with ⟨q, g1, g2, g3, g4, g5, g6⟩ | ⟨g1, g2, g3⟩
  · have : q = p := by
      apply Nat.le_antisymm
      · apply Nat.le_of_not_lt
        intro hlt
        rcases h5 with h5 | h5
        · omega
        · exact g5 p h2 hlt h5.1
      · apply Nat.le_of_not_lt
        intro hlt
        rcases g6 with g6 | g6
        · omega
        · exact h4 q g2 hlt g6.1
    rw [g1, this]
  · rcases h5 with h5 | h5
    · omega
    · exact absurd h5.1 (g3 p h2 h5.2)

theorem decodeScan_some {src : Bytes} {p : Nat} (h : Packet.scanLoop src 1024 0 = .ok (some p))
    (hp : p ≤ src.length) :
    Packet.decodeScan src = .ok (some (.invalid ⟨.noPrefix, src.take p⟩), src.drop p) := by
  unfold Packet.decodeScan InvalidPacket.maxLen
  rw [h, bind_ok]
  simp only
  rw [slice_ok (by omega) hp, bind_ok, advance_ok hp, bind_ok, List.drop_zero]

theorem decodeScan_none {src : Bytes} (h : Packet.scanLoop src 1024 0 = .ok none) :
    Packet.decodeScan src = .ok (none, src) := by
  unfold Packet.decodeScan InvalidPacket.maxLen
  rw [h, bind_ok]

/-! ## Summary of `decode` -/

/-- Everything `Packet::decode` can do. -/
inductive DecodeCase (src : Bytes) : Option Packet × Bytes → Prop
  | short : src.length < 2 → DecodeCase src (none, src)
  | rp (r : Bytes) (x : Option Packet × Bytes) : src = 0x10 :: 0x02 :: r → RpCase src x →
      DecodeCase src x
  | asciiMore (a b n : UInt8) (r : Bytes) : src = a :: b :: r → dehexByte a b = some n →
      src.length < 4 + n.toNat → DecodeCase src (none, src)
  | asciiBad (a b n : UInt8) (r : Bytes) (e : Reason) : src = a :: b :: r →
      dehexByte a b = some n → 4 + n.toNat ≤ src.length →
      AsciiPacket.decode (src.take (4 + n.toNat)) = .ok (.error e) →
      DecodeCase src (some (.invalid ⟨e, src.take (4 + n.toNat)⟩), src.drop (4 + n.toNat))
  | asciiGood (body r : Bytes) : ValidAsciiBody body → src = asciiFrame body ++ r →
      DecodeCase src (some (.ascii ⟨body⟩), r)
  | scanMore (a b : UInt8) (r : Bytes) : src = a :: b :: r → ¬ (a = 0x10 ∧ b = 0x02) →
      dehexByte a b = none → src.length < 1026 →
      (∀ i, i + 2 < src.length → ¬ PlausibleStart src i) → DecodeCase src (none, src)
  | scanBad (a b : UInt8) (r : Bytes) (p : Nat) : src = a :: b :: r →
      ¬ (a = 0x10 ∧ b = 0x02) → dehexByte a b = none → 1 ≤ p → p ≤ 1024 → p + 2 ≤ src.length →
      (∀ i, i < p → ¬ PlausibleStart src i) →
      (p = 1024 ∨ (PlausibleStart src p ∧ p + 2 < src.length)) →
      DecodeCase src (some (.invalid ⟨.noPrefix, src.take p⟩), src.drop p)

theorem not_plausible_zero {a b : UInt8} {r : Bytes} (h : ¬ (a = 0x10 ∧ b = 0x02))
    (h' : dehexByte a b = none) : ¬ PlausibleStart (a :: b :: r) 0 := by
  rintro ⟨a', b', ha, hb, hh⟩
  simp at ha hb
  subst ha; subst hb
  rcases hh with hh | hh
  · exact h hh
  · rw [h'] at hh; simp at hh

theorem asciiFrame_of {a b n : UInt8} {body : Bytes} (hx : dehexByte a b = some n)
    (hn : body.length + 2 = n.toNat) :
    asciiFrame body = [a, b] ++ body ++ hexByte (checksum ([a, b] ++ body)) ++ [13, 10] := by
  unfold asciiFrame
  rw [hn, hex2_eq, dehexByte_some hx, ← checksum_toNat, hex2_eq]

theorem decode_cases (src : Bytes) : ∃ x, Packet.decode src = .ok x ∧ DecodeCase src x := by
  rcases decode_branches src with h | ⟨r, h⟩ | ⟨a, b, r, n, h, hx⟩ | ⟨a, b, r, h, hnh, hx⟩
  · exact ⟨_, decode_short h, .short h⟩
  · obtain ⟨x, h1, h2⟩ := decodeRp_cases r h
    exact ⟨x, by rw [h, decode_rp, ← h, h1], .rp r x h h2⟩
  · by_cases hl : src.length < 4 + n.toNat
    · exact ⟨_, by rw [h, decode_ascii r hx, ← h, decodeAscii_short hl], .asciiMore a b n r h hx hl⟩
    · have hl : 4 + n.toNat ≤ src.length := by omega
      obtain ⟨p, hp, hcase⟩ := decodeAscii_full hl
      refine ⟨_, by rw [h, decode_ascii r hx, ← h, hp], ?_⟩
      rcases hcase with ⟨q, rfl, hd⟩ | ⟨e, rfl, hd⟩
      · obtain ⟨a', b', hraw, hv⟩ := asciiDecode_ok hd
        have hlen := congrArg List.length hraw
        simp [hexByte] at hlen
        have hn : q.body.length + 2 = n.toNat := by omega
        have hab : a' = a ∧ b' = b := by
          rw [h, show 4 + n.toNat = (2 + n.toNat) + 2 by omega] at hraw
          simp at hraw
          exact ⟨hraw.1.symm, hraw.2.1.symm⟩
        rw [hab.1, hab.2, ← asciiFrame_of hx hn] at hraw
        have hsrc : src = asciiFrame q.body ++ src.drop (4 + n.toNat) := by
          conv => lhs; rw [← List.take_append_drop (4 + n.toNat) src, hraw]
        exact .asciiGood q.body _ hv hsrc
      · exact .asciiBad a b n r e h hx hl hd
  · have hl : 2 ≤ src.length := by rw [h]; simp
    rcases scanLoop_spec src 1024 0 (by omega) with ⟨p, g1, g2, g3, g4, g5, g6⟩ | ⟨g1, g2, g3⟩
    · refine ⟨_, by rw [h, decode_scan r hnh hx, ← h, decodeScan_some g1 (by omega)], ?_⟩
      have hp : 1 ≤ p := by
        apply Nat.pos_of_ne_zero
        intro hp0
        rcases g6 with g6 | g6
        · omega
        · rw [hp0, h] at g6
          exact not_plausible_zero hnh hx g6.1
      exact .scanBad a b r p h hnh hx hp (by omega) g4 (fun i hi => g5 i (by omega) hi)
        (by rcases g6 with g6 | g6
            · left; omega
            · right; exact g6)
    · exact ⟨_, by rw [h, decode_scan r hnh hx, ← h, decodeScan_none g1],
        .scanMore a b r h hnh hx (by omega) (fun i hi => g3 i (by omega) hi)⟩

/-! ## The cases determine the result -/

theorem rpCase_decode {src : Bytes} {x} (r : Bytes) (_hr : src = 0x10 :: 0x02 :: r)
    (h : RpCase src x) : Packet.decodeRp src = .ok x := by
  have take_of {a b : Bytes} (hs : src = a ++ b) (hl : a.length ≤ 1024) :
      src.take 1024 = a ++ b.take (1024 - a.length) := by
    rw [hs, List.take_append, List.take_of_length_le hl]
  cases h with
  | more d tail hl ht hsp =>
    rw [decodeRp_of (x := (.ok none, src))]
    rw [rpDecode_eq src d tail (ht.imp id Or.inl) hsp]
    rcases ht with rfl | rfl <;>
      simp [rpEnd, RpPacket.decodeUnfinished, RpPacket.maxLen, show ¬ (1024 ≤ src.length) by omega]
  | crcMissing d y hy hsp =>
    rw [decodeRp_of (x := (.ok none, src))]
    rw [rpDecode_eq src d _ (Or.inr (Or.inr ⟨3, y, by decide, rfl⟩)) hsp]
    match y, hy with
    | [], _ => rfl
    | [_], _ => rfl
  | noEtx d tail hl ht hsp =>
    rw [decodeRp_of (x := (.error ⟨.rpNoEtx, src.take 1024⟩, src.drop 1024))]
    rw [rpDecode_eq src d tail (ht.imp id Or.inl) hsp]
    have : RpPacket.decodeUnfinished src
        = .ok (.error ⟨.rpNoEtx, src.take 1024⟩, src.drop 1024) := by
      unfold RpPacket.decodeUnfinished RpPacket.maxLen
      rw [if_pos hl, slice_ok (by omega) hl, bind_ok, advance_ok hl, bind_ok]
      rfl
    rcases ht with rfl | rfl <;> exact this
  | badEscape d c t h1 h2 hs hl =>
    rw [decodeRp_of (x := (.error ⟨.rpBadEscape c, [0x10, 0x02] ++ escape d ++ [0x10]⟩, c :: t))]
    have hs1 : src = ([0x10, 0x02] ++ escape d ++ [0x10, c]) ++ t := by rw [hs]; simp
    have ht := take_of hs1 hl
    rw [rpDecode_eq src d (0x10 :: c :: t.take (1024 - ([0x10, 0x02] ++ escape d ++ [0x10, c]).length))
      (Or.inr (Or.inr ⟨c, _, h1, rfl⟩)) (by rw [ht]; simp)]
    simp only [rpEnd]
    rw [if_neg h2]
    have hn : 2 + (escape d).length + 1 = ([0x10, 0x02] ++ escape d ++ [0x10]).length := by
      simp; omega
    rw [hn]
    have e1 : src.take ([0x10, 0x02] ++ escape d ++ [0x10]).length
        = [0x10, 0x02] ++ escape d ++ [0x10] := by rw [hs, List.take_left]
    have e2 : src.drop ([0x10, 0x02] ++ escape d ++ [0x10]).length = c :: t := by
      rw [hs, List.drop_left]
    rw [e1, e2]
  | badCrc d hi lo t hne hs hl =>
    rw [decodeRp_of (x := (.error ⟨.rpCrc (RpPacket.crc d),
      [0x10, 0x02] ++ escape d ++ [0x10, 0x03] ++ [hi, lo]⟩, t))]
    have ht := take_of hs hl
    rw [rpDecode_eq src d (0x10 :: 0x03 :: hi :: lo :: t.take (1024 -
        ([0x10, 0x02] ++ escape d ++ [0x10, 0x03] ++ [hi, lo]).length))
      (Or.inr (Or.inr ⟨3, _, by decide, rfl⟩)) (by rw [ht]; simp)]
    simp only [rpEnd, if_true]
    have hn : 2 + (escape d).length + 4
        = ([0x10, 0x02] ++ escape d ++ [0x10, 0x03] ++ [hi, lo]).length := by simp; omega
    rw [if_neg hne, hn, ht, List.take_left]
    rw [hs, List.drop_left]
  | good d t hs hl =>
    rw [decodeRp_of (x := (.ok (some ⟨d⟩), t))]
    have ht := take_of hs hl
    obtain ⟨hi, lo, hbe⟩ : ∃ hi lo, toBeBytes (RpPacket.crc d) = [hi, lo] := ⟨_, _, rfl⟩
    have hcrc := (fromBe_inj (v := RpPacket.crc d) (hi := hi) (lo := lo)).mpr hbe.symm
    rw [rpFrame_eq, hbe] at ht hs
    rw [rpDecode_eq src d (0x10 :: 0x03 :: hi :: lo :: t.take (1024 -
        ([0x10, 0x02] ++ escape d ++ [0x10, 0x03] ++ [hi, lo]).length))
      (Or.inr (Or.inr ⟨3, _, by decide, rfl⟩)) (by rw [ht]; simp)]
    simp only [rpEnd, if_true]
    have hn : 2 + (escape d).length + 4
        = ([0x10, 0x02] ++ escape d ++ [0x10, 0x03] ++ [hi, lo]).length := by simp; omega
    rw [if_pos hcrc.symm, hn, hs, List.drop_left]

theorem asciiFrame_split {body : Bytes} (h : body.length ≤ 253) : ∃ a b n,
    dehexByte a b = some n ∧ n.toNat = body.length + 2 ∧
    asciiFrame body = [a, b] ++ body ++ hexByte (checksum ([a, b] ++ body)) ++ [13, 10] := by
  let n := UInt8.ofNat (body.length + 2)
  have hn : n.toNat = body.length + 2 := by
    simp [n]; omega
  refine ⟨hexNibble (n >>> 4), hexNibble n, n, dehexByte_hexByte n _ _ rfl, hn, ?_⟩
  exact asciiFrame_of (dehexByte_hexByte n _ _ rfl) hn.symm

theorem decodeCase_decode {src : Bytes} {x} (h : DecodeCase src x) :
    Packet.decode src = .ok x := by
  cases h with
  | short h => exact decode_short h
  | rp r _ hs hc => rw [hs, decode_rp, ← hs]; exact rpCase_decode r hs hc
  | asciiMore a b n r hs hx hl => rw [hs, decode_ascii r hx, ← hs, decodeAscii_short hl]
  | asciiBad a b n r e hs hx hl hd =>
    rw [hs, decode_ascii r hx, ← hs]
    obtain ⟨p, hp, hcase⟩ := decodeAscii_full hl
    rw [hp]
    rcases hcase with ⟨q, rfl, hq⟩ | ⟨e', rfl, hq⟩
    · rw [hd] at hq; simp at hq
    · rw [hd] at hq
      simp only [Except.ok.injEq, Except.error.injEq] at hq
      rw [hq]
  | asciiGood body r hv hs =>
    obtain ⟨a, b, n, hx, hn, hf⟩ := asciiFrame_split hv.2.1
    have hlen : (asciiFrame body).length = 4 + n.toNat := by rw [asciiFrame_length, hn]; omega
    have hs' : src = a :: b :: (body ++ hexByte (checksum ([a, b] ++ body)) ++ [13, 10] ++ r) := by
      rw [hs, hf]; simp
    have hl : 4 + n.toNat ≤ src.length := by rw [hs, List.length_append, hlen]; omega
    obtain ⟨p, hp, hcase⟩ := decodeAscii_full hl
    have hd : AsciiPacket.decode (src.take (4 + n.toNat)) = .ok (.ok ⟨body⟩) := by
      rw [← hlen, hs, List.take_left, hf]
      exact asciiDecode_valid hv
    have hdrop : src.drop (4 + n.toNat) = r := by rw [← hlen, hs, List.drop_left]
    rw [hs', decode_ascii _ hx, ← hs', hp, hdrop]
    rcases hcase with ⟨q, rfl, hq⟩ | ⟨e', rfl, hq⟩
    · rw [hd] at hq
      simp only [Except.ok.injEq] at hq
      rw [hq]
    · rw [hd] at hq; simp at hq
  | scanMore a b r hs hnh hx hl hno =>
    rw [hs, decode_scan r hnh hx, ← hs]
    apply decodeScan_none
    have h2 : 2 ≤ src.length := by rw [hs]; simp
    rcases scanLoop_spec src 1024 0 (by omega) with ⟨p, g1, g2, g3, g4, g5, g6⟩ | ⟨g1, g2, g3⟩
    · rcases g6 with g6 | g6
      · omega
      · exact absurd g6.1 (hno p g6.2)
    · exact g1
  | scanBad a b r p hs hnh hx h1 h2 h3 hno hlast =>
    rw [hs, decode_scan r hnh hx, ← hs]
    apply decodeScan_some _ (by omega)
    exact scanLoop_found 1024 0 p h3 (by omega) (by omega) (fun i _ hi => hno i hi)
      (hlast.imp (by omega) id)

theorem take_of_take_eq {src t : Bytes} {n : Nat} (h : n ≤ src.length) :
    (src ++ t).take n = src.take n := List.take_append_of_le_length h

theorem drop_append_le {src t : Bytes} {n : Nat} (h : n ≤ src.length) :
    (src ++ t).drop n = src.drop n ++ t := List.drop_append_of_le_length h

theorem rpCase_mono {src t : Bytes} {p : Packet} {rest : Bytes} (h : RpCase src (some p, rest)) :
    RpCase (src ++ t) (some p, rest ++ t) := by
  cases h with
  | noEtx d tail hl ht hsp =>
    rw [← drop_append_le hl, ← take_of_take_eq (t := t) hl]
    exact .noEtx d tail (by simp; omega) ht (by rw [take_of_take_eq hl]; exact hsp)
  | badEscape d c r h1 h2 hs hl =>
    exact .badEscape d c (r ++ t) h1 h2 (by rw [hs]; simp) hl
  | badCrc d hi lo r hne hs hl =>
    exact .badCrc d hi lo (rest ++ t) hne (by rw [hs]; simp) hl
  | good d r hs hl =>
    exact .good d (rest ++ t) (by rw [hs]; simp) hl

theorem decodeCase_mono {src t : Bytes} {p : Packet} {rest : Bytes}
    (h : DecodeCase src (some p, rest)) : DecodeCase (src ++ t) (some p, rest ++ t) := by
  cases h with
  | rp r _ hs hc =>
    exact .rp (r ++ t) _ (by rw [hs]; rfl) (rpCase_mono hc)
  | asciiBad a b n r e hs hx hl hd =>
    rw [← drop_append_le hl, ← take_of_take_eq (t := t) hl]
    exact .asciiBad a b n (r ++ t) e (by rw [hs]; rfl) hx (by simp; omega)
      (by rw [take_of_take_eq hl]; exact hd)
  | asciiGood body r hv hs => exact .asciiGood body _ hv (by rw [hs]; simp)
  | scanBad a b r p hs hnh hx h1 h2 h3 hno hlast =>
    rw [← drop_append_le (by omega), ← take_of_take_eq (t := t) (by omega)]
    refine .scanBad a b (r ++ t) p (by rw [hs]; rfl) hnh hx h1 h2 (by simp; omega) ?_ ?_
    · intro i hi
      rw [plausible_append (by omega)]
      exact hno i hi
    · rcases hlast with h | ⟨h4, h5⟩
      · exact Or.inl h
      · exact Or.inr ⟨(plausible_append (by omega)).mpr h4, by simp; omega⟩

theorem decode_mono {src : Bytes} {p : Packet} {rest : Bytes}
    (h : Packet.decode src = .ok (some p, rest)) (t : Bytes) :
    Packet.decode (src ++ t) = .ok (some p, rest ++ t) := by
  obtain ⟨y, hy, hc⟩ := decode_cases src
  rw [hy] at h
  simp only [Except.ok.injEq] at h
  subst h
  exact decodeCase_decode (decodeCase_mono hc)

theorem decode_case_of {src : Bytes} {x} (h : Packet.decode src = .ok x) : DecodeCase src x := by
  obtain ⟨y, hy, hc⟩ := decode_cases src
  rw [hy] at h
  simp only [Except.ok.injEq] at h
  rw [← h]; exact hc

end Elk
