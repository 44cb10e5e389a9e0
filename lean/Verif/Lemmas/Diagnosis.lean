import Verif.Spec.Diagnosis
import Verif.Lemmas.Complaint
import Verif.Lemmas.Decode
/-! # Lemmas: what is wrong with bytes that are no packet -/

namespace Elk
open Spec

/-! ## Texts -/

theorem padHex_u8 : ∀ b : UInt8, padHex 2 b.toNat = hex2 b.toNat := by
  apply forall_u8; decide +kernel

theorem hexGo_small : ∀ n : Nat, n < 16 → hexUp n = hexDigit n := by decide

theorem hexGo_step (fuel n : Nat) (h : 16 ≤ n) (_hf : n ≤ fuel) :
    hexGo (fuel + 1) n = hexGo fuel (n / 16) ++ [hexDigit (n % 16)] := by
  rw [hexGo, if_neg (by omega), hexGo_small _ (Nat.mod_lt _ (by omega))]

theorem hexGo_one (fuel n : Nat) (h : n < 16) : hexGo (fuel + 1) n = [hexDigit n] := by
  rw [hexGo, if_pos h, hexGo_small _ h]

theorem padHex_hexText (n : Nat) (h : n < 65536) : padHex 2 n = hexText n := by
  unfold padHex hexText hex2
  dsimp only
  by_cases h1 : n < 16
  · rw [hexGo_one n n h1, if_neg (by omega), if_neg (by omega),
      show n % 256 / 16 = 0 by omega, show n % 256 % 16 = n by omega]
    rfl
  · obtain ⟨f, rfl⟩ : ∃ f, n = f + 1 := ⟨n - 1, by omega⟩
    rw [hexGo_step _ _ (by omega) (by omega)]
    by_cases h2 : (f + 1) / 16 < 16
    · rw [hexGo_one f _ h2, if_neg (by omega), if_neg (by omega),
        show (f + 1) % 256 / 16 = (f + 1) / 16 by omega, show (f + 1) % 256 % 16 = (f + 1) % 16 by omega]
      rfl
    · obtain ⟨g, rfl⟩ : ∃ g, f = g + 1 := ⟨f - 1, by omega⟩
      rw [hexGo_step _ _ (by omega) (by omega)]
      by_cases h3 : (g + 1 + 1) / 16 / 16 < 16
      · rw [hexGo_one g _ h3, if_neg (by omega), if_pos (by omega),
          show (g + 1 + 1) % 256 / 16 = (g + 1 + 1) / 16 % 16 by omega,
          show (g + 1 + 1) % 256 % 16 = (g + 1 + 1) % 16 by omega,
          show (g + 1 + 1) / 256 % 16 = (g + 1 + 1) / 16 / 16 by omega]
        rfl
      · obtain ⟨k, rfl⟩ : ∃ k, g = k + 1 := ⟨g - 1, by omega⟩
        rw [hexGo_step _ _ (by omega) (by omega), hexGo_one k _ (by omega), if_pos (by omega),
          if_pos (by omega),
          show (k + 1 + 1 + 1) % 256 / 16 = (k + 1 + 1 + 1) / 16 % 16 by omega,
          show (k + 1 + 1 + 1) % 256 % 16 = (k + 1 + 1 + 1) % 16 by omega,
          show (k + 1 + 1 + 1) / 256 % 16 = (k + 1 + 1 + 1) / 16 / 16 % 16 by omega,
          show (k + 1 + 1 + 1) / 4096 = (k + 1 + 1 + 1) / 16 / 16 / 16 by omega]
        rfl

theorem rpCrc_text (d : Bytes) : Reason.rpCrc (RpPacket.crc d) =
    bs "RP packet doesn't have expected CRC " ++ hexText (crc16 d) := by
  unfold Reason.rpCrc
  rw [crc_toNat, padHex_hexText _ (crc16_lt d)]

theorem asciiCsum_text (d : Bytes) : Reason.asciiCsum (checksum d) =
    bs "ASCII packet doesn't have expected checksum " ++ hex2 (checkOf d) := by
  unfold Reason.asciiCsum
  rw [padHex_u8, checksum_toNat]
  rfl

theorem dehex_hex {a : UInt8} : (dehexNibble a).isSome ↔ IsHex a := by
  rw [dehexNibble_isSome_iff]; rfl

theorem dehexByte_hex {a b : UInt8} : (dehexByte a b).isSome ↔ IsHex a ∧ IsHex b := by
  rw [dehexByte_isSome_iff, dehex_hex, dehex_hex]

theorem dehexByte_hex2 {n : Nat} (h : n < 256) {a b : UInt8} (hx : hex2 n = [a, b]) :
    dehexByte a b = some (UInt8.ofNat n) := by
  rw [hex2_eq_nat n h] at hx
  exact dehexByte_hexByte _ _ _ hx

/-! ## ASCII packets -/

theorem checkPrintable_cases (v : Bytes) : (checkPrintable v = .ok () ∧ ∀ b ∈ v, Printable b) ∨
    ∃ (i : Nat) (b : UInt8), checkPrintable v = .error (Reason.nonPrintable i) ∧ v[i]? = some b ∧
      ¬ Printable b ∧ ∀ (j : Nat) c, j < i → v[j]? = some c → Printable c := by
  unfold checkPrintable
  split
  · rename_i i h
    rw [List.findIdx?_eq_some_iff_getElem] at h
    obtain ⟨hi, h1, h2⟩ := h
    refine .inr ⟨i, v[i], rfl, List.getElem?_eq_getElem hi, ?_, ?_⟩
    · unfold Printable
      simp only [Bool.not_eq_true', Bool.and_eq_false_iff, decide_eq_false_iff_not,
        UInt8.le_iff_toNat_le] at h1
      rintro ⟨h3, h4⟩
      rcases h1 with h1 | h1
      · exact h1 h3
      · exact h1 h4
    · intro j c hj hc
      obtain ⟨hl, rfl⟩ := List.getElem?_eq_some_iff.mp hc
      have := h2 j hj
      simp only [Bool.not_eq_true', Bool.not_eq_false, Bool.and_eq_true, decide_eq_true_eq,
        UInt8.le_iff_toNat_le] at this
      exact this
  · rename_i h
    refine .inl ⟨rfl, fun b hb => ?_⟩
    rw [List.findIdx?_eq_none_iff] at h
    have := h b hb
    simp only [Bool.not_eq_false', Bool.and_eq_true, decide_eq_true_eq, UInt8.le_iff_toNat_le] at this
    exact this

theorem asciiDecode_error {raw : Bytes} {e : Reason} (hl : raw.length ≤ 259)
    (h : AsciiPacket.decode raw = .ok (.error e)) : AsciiDiagnosis raw e := by
  have rest : AsciiPacket.decodeRest raw = .ok (.error e) → (∀ x, raw = x ++ [13, 10] → raw.length < 8) →
      AsciiDiagnosis raw e := by
    intro h hx
    have key : ∀ c d, last2 raw = some (c, d) → ¬ (c = b' '\r' ∧ d = b' '\n') →
        ¬ ∃ x, raw = x ++ [13, 10] := by
      rintro c d h2 hn ⟨x, rfl⟩
      rw [last2_append] at h2
      cases h2
      exact hn ⟨rfl, rfl⟩
    unfold AsciiPacket.decodeRest at h
    split at h
    · rename_i c d h2
      split at h
      · rename_i hcd
        cases h
        obtain ⟨x, hraw⟩ := last2_some h2
        rw [hcd.1, hcd.2] at hraw
        exact .short x hraw (hx x hraw)
      · rename_i hcd
        cases h
        exact .noCrlf (key c d h2 hcd)
    · rename_i h2
      cases h
      refine .noCrlf ?_
      rintro ⟨x, rfl⟩
      rw [last2_append] at h2
      cases h2
  unfold AsciiPacket.decode at h
  split at h
  · rename_i d hi lo c e' hs
    have hraw := splitLast4_some hs
    split at h
    · rename_i hc
      obtain ⟨rfl, rfl, hd⟩ := hc
      unfold AsciiPacket.decodeBody at h
      split at h
      · rename_i hn
        cases h
        refine .digits d hi lo hraw hd fun hh => ?_
        have := dehexByte_hex.mpr hh
        rw [hn] at this
        cases this
      · rename_i n hn
        have hx := dehexByte_some hn
        rw [← hex2_eq] at hx
        dsimp only at h
        split at h
        · rename_i hne
          cases h
          rw [asciiCsum_text]
          refine .sum d n.toNat ?_ n.toNat_lt hd ?_
          · rw [hraw, hx, List.append_assoc]; rfl
          · intro heq
            apply hne
            apply UInt8.toNat_inj.mp
            rw [checksum_toNat]; exact heq
        · rename_i heq
          have heq : n = checksum d := Classical.not_not.mp heq
          rw [sliceFrom_ok (by omega), bind_ok] at h
          injection h with h
          have hdl : d.length ≤ 255 := by
            have := congrArg List.length hraw
            simp at this; omega
          unfold AsciiPacket.tryFrom at h
          rcases checkPrintable_cases (d.drop 2) with ⟨h1, _⟩ | ⟨i, b, h1, h2, h3, h4⟩
          · rw [h1, bind_ok, if_neg (by rw [List.length_drop]; omega)] at h
            cases h
          · rw [h1] at h
            cases h
            unfold Reason.nonPrintable
            rw [decStr_num]
            refine .letter (d.take 2) (d.drop 2) i b ?_ (by rw [List.length_take]; omega)
              (by rw [List.length_drop]; omega) h2 h3 h4
            have : hex2 (checkOf d) = [hi, lo] := by
              unfold checkOf
              rw [← checksum_toNat, ← heq]; exact hx
            rw [List.take_append_drop, this, hraw, List.append_assoc]
            rfl
    · rename_i hc
      refine rest h fun x hx => Nat.lt_of_not_le fun h8 => hc ?_
      have hl2 : last2 raw = some (c, e') := by
        rw [hraw, show d ++ [hi, lo, c, e'] = (d ++ [hi, lo]) ++ [c, e'] by simp]
        exact last2_append _ _ _
      rw [hx, last2_append] at hl2
      cases hl2
      refine ⟨rfl, rfl, ?_⟩
      have := congrArg List.length hraw
      simp at this; omega
  · rename_i hs
    refine rest h fun x hx => ?_
    refine Nat.lt_of_not_le fun h8 => ?_
    unfold splitLast4 at hs
    split at hs
    · cases hs
    · rename_i hne
      have hlen : (raw.drop (raw.length - 4)).length = 4 := by rw [List.length_drop]; omega
      match hd : raw.drop (raw.length - 4), hlen with
      | [a, b, c, d], _ => exact hne a b c d hd

theorem asciiDiagnosis_decode {raw : Bytes} {e : Reason} (h4 : 4 ≤ raw.length)
    (h : AsciiDiagnosis raw e) : AsciiPacket.decode raw = .ok (.error e) := by
  have split4 : ∀ {x : Bytes}, 4 ≤ x.length → ∃ d h l c e, x = d ++ [h, l, c, e] := by
    intro x hx
    have hlen : (x.drop (x.length - 4)).length = 4 := by rw [List.length_drop]; omega
    match hd : x.drop (x.length - 4), hlen with
    | [a, b, c, d], _ => exact ⟨x.take (x.length - 4), a, b, c, d, by
        rw [← hd, List.take_append_drop]⟩
  cases h with
  | short x hx h8 =>
    obtain ⟨d, h, l, c, e, hd⟩ := split4 h4
    unfold AsciiPacket.decode
    rw [hd, splitLast4_append]
    dsimp only
    have hdl : ¬ (d.length ≥ 4) := by
      have := congrArg List.length hd
      simp at this; omega
    rw [if_neg fun hh => hdl hh.2.2, ← hd]
    unfold AsciiPacket.decodeRest
    rw [hx, last2_append]
    rfl
  | noCrlf hx =>
    obtain ⟨d, h, l, c, e, hd⟩ := split4 h4
    have hne : ¬ (c = b' '\r' ∧ e = b' '\n') := by
      rintro ⟨rfl, rfl⟩
      exact hx ⟨d ++ [h, l], by rw [hd]; simp; decide⟩
    unfold AsciiPacket.decode
    rw [hd, splitLast4_append]
    dsimp only
    rw [if_neg fun hh => hne ⟨hh.1, hh.2.1⟩]
    unfold AsciiPacket.decodeRest
    rw [show d ++ [h, l, c, e] = (d ++ [h, l]) ++ [c, e] by simp, last2_append]
    dsimp only
    rw [if_neg hne]
    rfl
  | digits d h l hd hdl hn =>
    unfold AsciiPacket.decode
    rw [hd, splitLast4_append]
    dsimp only
    rw [if_pos ⟨by decide, by decide, hdl⟩]
    unfold AsciiPacket.decodeBody
    have : dehexByte h l = none := by
      cases hh : dehexByte h l with
      | none => rfl
      | some v => exact absurd (dehexByte_hex.mp (by rw [hh]; rfl)) hn
    rw [this]
    rfl
  | sum d c hd hc hdl hne =>
    obtain ⟨a, b, hab⟩ : ∃ a b, hex2 c = [a, b] := ⟨_, _, rfl⟩
    rw [hab] at hd
    unfold AsciiPacket.decode
    rw [hd, List.append_assoc, show ([a, b] : Bytes) ++ [13, 10] = [a, b, 13, 10] from rfl,
      splitLast4_append]
    dsimp only
    rw [if_pos ⟨by decide, by decide, hdl⟩]
    unfold AsciiPacket.decodeBody
    rw [dehexByte_hex2 hc hab]
    dsimp only
    rw [if_pos, asciiCsum_text]
    intro heq
    apply hne
    have := congrArg UInt8.toNat heq
    rw [ofNat_toNat_lt hc, checksum_toNat] at this
    exact this
  | letter n body i b hd hn hb hi hp hj =>
    have hcl : checkOf (n ++ body) < 256 := Nat.mod_lt _ (by omega)
    obtain ⟨x, y, hxy⟩ : ∃ a b, hex2 (checkOf (n ++ body)) = [a, b] := ⟨_, _, rfl⟩
    rw [hxy] at hd
    unfold AsciiPacket.decode
    rw [hd, List.append_assoc, show ([x, y] : Bytes) ++ [13, 10] = [x, y, 13, 10] from rfl,
      splitLast4_append]
    dsimp only
    rw [if_pos ⟨by decide, by decide, by rw [List.length_append]; omega⟩]
    unfold AsciiPacket.decodeBody
    rw [dehexByte_hex2 hcl hxy]
    dsimp only
    have hck : UInt8.ofNat (checkOf (n ++ body)) = checksum (n ++ body) := by
      apply UInt8.toNat_inj.mp
      rw [ofNat_toNat_lt hcl, checksum_toNat]; rfl
    rw [if_neg fun hh => hh hck, sliceFrom_ok (by rw [List.length_append]; omega), bind_ok,
      ← hn, List.drop_left]
    unfold AsciiPacket.tryFrom
    rcases checkPrintable_cases body with ⟨_, h1⟩ | ⟨i', b', h1, h2, h3, h4⟩
    · exact absurd (h1 b (List.mem_of_getElem? hi)) hp
    · have : i' = i := by
        rcases Nat.lt_trichotomy i' i with h | h | h
        · exact absurd (hj i' b' h h2) h3
        · exact h
        · exact absurd (h4 i b h hi) hp
      subst this
      rw [h1]
      unfold Reason.nonPrintable
      rw [decStr_num]
      rfl

/-! ## All packets -/

theorem starts_iff {src : Bytes} {i : Nat} : PlausibleStart src i ↔ Starts (src.drop i) := by
  unfold PlausibleStart Starts
  constructor
  · rintro ⟨a, b, ha, hb, h⟩
    have : i + 2 ≤ src.length := by
      have := (List.getElem?_eq_some_iff.mp hb).1
      omega
    obtain ⟨a', b', ha', hb', hd⟩ := drop_two this
    rw [ha] at ha'; cases ha'
    rw [hb] at hb'; cases hb'
    refine ⟨a, b, _, hd, h.imp id fun h => dehexByte_hex.mp h⟩
  · rintro ⟨a, b, r, hd, h⟩
    have h0 : (src.drop i)[0]? = some a := by rw [hd]; rfl
    have h1 : (src.drop i)[1]? = some b := by rw [hd]; rfl
    rw [List.getElem?_drop] at h0 h1
    exact ⟨a, b, h0, h1, h.imp id fun h => dehexByte_hex.mpr h⟩

theorem fromBe_nat (hi lo : UInt8) : (fromBeBytes hi lo).toNat = hi.toNat * 256 + lo.toNat := by
  unfold fromBeBytes
  have h1 := hi.toNat_lt
  have h2 := lo.toNat_lt
  simp [Nat.shiftLeft_eq]
  rw [Nat.mod_eq_of_lt (by omega), Nat.mul_comm, ← Nat.two_pow_add_eq_or_of_lt (i := 8) (by omega)]

theorem crc_ne {d : Bytes} {hi lo : UInt8} :
    RpPacket.crc d ≠ fromBeBytes hi lo ↔ hi.toNat * 256 + lo.toNat ≠ crc16 d := by
  rw [← fromBe_nat, ← crc_toNat]
  constructor
  · intro h heq; exact h (UInt16.toNat_inj.mp heq.symm)
  · intro h heq; exact h (by rw [heq])

theorem decode_diagnosis {src rest : Bytes} {p : InvalidPacket}
    (h : DecodeCase src (some (.invalid p), rest)) :
    src = p.raw ++ rest ∧ Diagnosis p.raw rest p.reason := by
  generalize hx : (some (Packet.invalid p), rest) = x at h
  cases h with
  | short => cases hx
  | asciiMore => cases hx
  | asciiGood => cases hx
  | scanMore => cases hx
  | asciiBad a b n r e hs hd hl he =>
    cases hx
    refine ⟨(List.take_append_drop _ _).symm, ?_⟩
    have hlen : (src.take (4 + n.toNat)).length = 4 + n.toNat := by rw [List.length_take]; omega
    have hn := n.toNat_lt
    refine .ascii n.toNat (r.take (2 + n.toNat)) _ n.toNat_lt ?_ hlen
      (asciiDecode_error (by dsimp only; omega) he)
    show src.take (4 + n.toNat) = _
    rw [hex2_eq, dehexByte_some hd, hs, show 4 + n.toNat = 2 + n.toNat + 1 + 1 by omega]
    rfl
  | scanBad a b r q hs hnh hd h1 h2 h3 hno hlast =>
    cases hx
    refine ⟨(List.take_append_drop _ _).symm, ?_⟩
    have hlen : (src.take q).length = q := by rw [List.length_take]; omega
    refine .noStart (by rw [hlen]; exact h1) (by rw [hlen]; exact h2) ?_ ?_
    · intro x y hxy hlt hst
      dsimp only at hxy hlt
      rw [List.take_append_drop] at hxy
      rw [hlen] at hlt
      refine hno x.length hlt (starts_iff.mpr ?_)
      rw [hxy, List.drop_left]
      exact hst
    · dsimp only
      rw [hlen, List.length_drop]
      rcases hlast with h | ⟨h, hl⟩
      · exact .inl ⟨h, by omega⟩
      · exact .inr ⟨starts_iff.mp h, by omega⟩
  | rp r x hs hc =>
    subst hx
    generalize hx : (some (Packet.invalid p), rest) = x at hc
    cases hc with
    | more => cases hx
    | crcMissing => cases hx
    | good => cases hx
    | noEtx d tail hl ht hsp =>
      cases hx
      refine ⟨(List.take_append_drop _ _).symm, .noEnd d tail ?_ ht ?_⟩
      · rw [List.append_assoc]; exact hsp
      · show (src.take 1024).length = 1024
        rw [List.length_take]; omega
    | badEscape d c r h1 h2 hs hl =>
      cases hx
      refine ⟨hs, ?_⟩
      show Diagnosis _ _ (Reason.rpBadEscape c)
      unfold Reason.rpBadEscape
      rw [padHex_u8]
      refine .dle d c r rfl ?_ rfl h1 h2
      simp at hl ⊢; omega
    | badCrc d hi lo r hne hs hl =>
      cases hx
      refine ⟨hs, ?_⟩
      show Diagnosis _ _ (Reason.rpCrc (RpPacket.crc d))
      rw [rpCrc_text]
      exact .crc d hi lo rfl hl (crc_ne.mp hne)

theorem diagnosis_decode {raw rest : Bytes} {e : Reason} (h : Diagnosis raw rest e) :
    DecodeCase (raw ++ rest) (some (.invalid ⟨e, raw⟩), rest) := by
  cases h with
  | ascii n r _ hn hr hl hd =>
    obtain ⟨a, b, hab⟩ : ∃ a b, hex2 n = [a, b] := ⟨_, _, rfl⟩
    have hx := dehexByte_hex2 hn hab
    have hnn : (UInt8.ofNat n).toNat = n := ofNat_toNat_lt hn
    have := DecodeCase.asciiBad (src := raw ++ rest) a b (UInt8.ofNat n) (r ++ rest) e
      (by rw [hr, hab]; rfl) hx (by rw [hnn, List.length_append]; omega) (by
        rw [hnn, ← hl, List.take_left]
        exact asciiDiagnosis_decode (by omega) hd)
    rw [hnn, ← hl, List.take_left, List.drop_left] at this
    exact this
  | crc d hi lo hr hl hne =>
    refine .rp (escape d ++ [0x10, 0x03] ++ [hi, lo] ++ rest) _ (by rw [hr]; simp) ?_
    rw [← rpCrc_text, hr]
    rw [hr] at hl
    exact .badCrc d hi lo rest (crc_ne.mpr hne) rfl hl
  | dle d c r hr hl hrest h1 h2 =>
    refine .rp (escape d ++ [0x10] ++ rest) _ (by rw [hr]; simp) ?_
    have : bs "RP packet has bad sequence DTS " ++ hex2 c.toNat = Reason.rpBadEscape c := by
      unfold Reason.rpBadEscape; rw [padHex_u8]
    rw [this, hr, hrest]
    rw [hr] at hl
    refine .badEscape d c r h1 h2 rfl ?_
    simp at hl ⊢; omega
  | noEnd d tail hr ht hl =>
    refine .rp (escape d ++ tail ++ rest) _ (by rw [hr]; simp) ?_
    have := RpCase.noEtx (src := raw ++ rest) d tail (by rw [List.length_append]; omega) ht (by
      rw [← hl, List.take_left, hr, List.append_assoc])
    rw [← hl, List.take_left, List.drop_left] at this
    exact this
  | noStart h1 h2 hno hlast =>
    have hlen : raw.length + 2 ≤ (raw ++ rest).length := by
      rw [List.length_append]; omega
    have hns : ∀ i, i < raw.length → ¬ PlausibleStart (raw ++ rest) i := by
      intro i hi hp
      refine hno ((raw ++ rest).take i) ((raw ++ rest).drop i) (List.take_append_drop _ _).symm ?_
        (starts_iff.mp hp)
      rw [List.length_take]; omega
    match hr : raw ++ rest, hlen with
    | a :: b :: r, _ =>
      have h0 := hns 0 h1
      have := DecodeCase.scanBad (src := raw ++ rest) a b r raw.length hr ?_ ?_ h1 h2 (by omega) hns ?_
      · rw [List.take_left, List.drop_left] at this
        rw [← hr]
        exact this
      · rintro ⟨rfl, rfl⟩
        exact h0 (starts_iff.mpr ⟨_, _, r, by rw [hr]; rfl, .inl ⟨rfl, rfl⟩⟩)
      · cases hd : dehexByte a b with
        | none => rfl
        | some v =>
          exact absurd (starts_iff.mpr ⟨a, b, r, by rw [hr]; rfl,
            .inr (dehexByte_hex.mp (by rw [hd]; rfl))⟩) h0
      · rcases hlast with ⟨h, _⟩ | ⟨h, hl⟩
        · exact .inl h
        · refine .inr ⟨starts_iff.mpr ?_, by rw [List.length_append]; omega⟩
          rw [List.drop_left]; exact h

end Elk
