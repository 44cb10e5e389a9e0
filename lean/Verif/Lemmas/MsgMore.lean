import Verif.Lemmas.MsgParse
/-! # Dates, codes, texts and reports -/

namespace Elk
open Spec

/-! ## Decimal text -/

theorem digitsValue_append (a : Bytes) (b : UInt8) :
    digitsValue (a ++ [b]) = 10 * digitsValue a + (b.toNat - 48) := by
  simp [digitsValue]

theorem decDigit_spec : ∀ n : Nat, n < 10 → IsDigit (decDigit n) ∧ (decDigit n).toNat - 48 = n := by
  have : ∀ n : Fin 10, (48 ≤ (decDigit n).toNat ∧ (decDigit n).toNat ≤ 57) ∧
      (decDigit n).toNat - 48 = n := by decide +kernel
  exact fun n h => this ⟨n, h⟩

theorem decGo_spec : ∀ (fuel n : Nat), n < fuel →
    (∀ b ∈ decGo fuel n, IsDigit b) ∧ digitsValue (decGo fuel n) = n ∧
      ∀ k, n < 10 ^ (k + 1) → (decGo fuel n).length ≤ k + 1
  | 0, n, h => by omega
  | fuel + 1, n, h => by
    rw [decGo]
    split
    · rename_i hn
      have := decDigit_spec n hn
      refine ⟨by simpa using this.1, ?_, by simp⟩
      simp [digitsValue]; exact this.2
    · rename_i hn
      have hm := decDigit_spec (n % 10) (by omega)
      obtain ⟨h1, h2, h3⟩ := decGo_spec fuel (n / 10) (by omega)
      refine ⟨?_, ?_, ?_⟩
      · intro b hb
        rcases List.mem_append.mp hb with hb | hb
        · exact h1 b hb
        · rw [List.mem_singleton.mp hb]; exact hm.1
      · rw [digitsValue_append, h2, hm.2]; omega
      · intro k hk
        match k with
        | 0 => simp at hk; omega
        | k + 1 =>
          have : n / 10 < 10 ^ (k + 1) := by
            apply Nat.div_lt_of_lt_mul
            rw [Nat.pow_succ 10 (k + 1)] at hk; omega
          have := h3 k this
          simp; omega

theorem decStr_spec (n : Nat) :
    (∀ b ∈ decStr n, IsDigit b) ∧ digitsValue (decStr n) = n ∧
      ∀ k, n < 10 ^ (k + 1) → (decStr n).length ≤ k + 1 :=
  decGo_spec (n + 1) n (by omega)

theorem decStr_inj {a b : Nat} (h : decStr a = decStr b) : a = b := by
  have h1 := (decStr_spec a).2.1
  rw [h, (decStr_spec b).2.1] at h1
  exact h1.symm

theorem digitsValue_zeros (k : Nat) (l : Bytes) :
    digitsValue (List.replicate k (b' '0') ++ l) = digitsValue l := by
  induction k with
  | zero => simp
  | succ k ih =>
    rw [List.replicate_succ, List.cons_append]
    rw [← ih]
    show List.foldl _ (10 * 0 + ((b' '0').toNat - 48)) _ = _
    rfl

theorem padDec_spec {w n : Nat} (h : n < 10 ^ (w + 1)) :
    (padDec (w + 1) n).length = w + 1 ∧ (∀ b ∈ padDec (w + 1) n, IsDigit b) ∧
      digitsValue (padDec (w + 1) n) = n := by
  obtain ⟨h1, h2, h3⟩ := decStr_spec n
  have := h3 w h
  unfold padDec
  refine ⟨by simp; omega, ?_, ?_⟩
  · intro b hb
    rcases List.mem_append.mp hb with hb | hb
    · rw [List.eq_of_mem_replicate hb]; unfold IsDigit; decide
    · exact h1 b hb
  · dsimp only
    rw [digitsValue_zeros, h2]

theorem armCodeNum_ok {n : UInt32} {c : ArmCode} :
    ArmCode.tryFromNum n = .ok c ↔ n.toNat < 1000000 ∧ c.code.toList = padDec 6 n.toNat := by
  unfold ArmCode.tryFromNum
  simp only [R_bind_ok, failIf_ok, liftP_ok, toArrayN_ok]
  have hn : (¬ n ≥ 1000000) ↔ n.toNat < 1000000 := by
    rw [ge_iff_le, UInt32.le_iff_toNat_le]; simp
  constructor
  · rintro ⟨_, h1, v, h2, h3⟩
    injection h3 with h3
    subst h3
    exact ⟨hn.mp h1, h2⟩
  · rintro ⟨h1, h2⟩
    exact ⟨(), hn.mpr h1, c.code, h2, rfl⟩

theorem NoPanic.armCodeNum (n : UInt32) : NoPanic (ArmCode.tryFromNum n) := by
  unfold ArmCode.tryFromNum
  refine NoPanic.bind (NoPanic.failIf _) fun _ h => ?_
  rw [failIf_ok] at h
  have hn : n.toNat < 10 ^ (5 + 1) := by
    rw [ge_iff_le, UInt32.le_iff_toNat_le] at h; simp at h; omega
  exact NoPanic.bind (NoPanic.toArrayN (padDec_spec hn).1) fun _ _ => NoPanic.ok _

/-! ## ISO dates -/

theorem isCharBoundary_ascii {s : Bytes} (h : ∀ b ∈ s, b.toNat < 128) {i : Nat} (hi : i ≤ s.length) :
    isCharBoundary s i = true := by
  unfold isCharBoundary
  split
  · rename_i b hb
    have := h b (List.mem_of_getElem? hb)
    have : b < 0x80 := by rw [UInt8.lt_iff_toNat_lt]; simpa using this
    simp [this]
  · rename_i hb
    rw [List.getElem?_eq_none_iff] at hb
    simp; omega

theorem strSlice_ascii {s : Bytes} (h : ∀ b ∈ s, b.toNat < 128) {i j : Nat} (hi : i ≤ j)
    (hj : j ≤ s.length) : strSlice s i j = .ok ((s.take j).drop i) := by
  unfold strSlice
  rw [if_pos ⟨hi, isCharBoundary_ascii h (by omega), isCharBoundary_ascii h hj⟩]

theorem NoPanic.isoField {s : Bytes} (h : ∀ b ∈ s, b.toNat < 128) {i j : Nat} (hi : i ≤ j)
    (hj : j ≤ s.length) (max : Nat) (msg : String) : NoPanic (isoField max s i j msg) := by
  unfold Elk.isoField
  rw [strSlice_ascii h hi hj]
  exact NoPanic.bind (NoPanic.ok _) fun _ _ => NoPanic.okOr _ _

theorem NoPanic.isoSep {s : Bytes} (h : ∀ b ∈ s, b.toNat < 128) {i : Nat}
    (hj : i + 1 ≤ s.length) (c : Char) (msg : String) : NoPanic (isoSep s i c msg) := by
  unfold Elk.isoSep
  rw [strSlice_ascii h (by omega) hj]
  exact NoPanic.bind (NoPanic.ok _) fun _ _ => NoPanic.failIf _

theorem NoPanic.fromIso {s : Bytes} (h : ∀ b ∈ s, b.toNat < 128) :
    NoPanic (DateTime.fromIso8601 s) := by
  unfold DateTime.fromIso8601
  refine NoPanic.bind (NoPanic.failIf _) fun _ hl => ?_
  rw [failIf_ok] at hl
  have hl : s.length = 19 := by omega
  refine NoPanic.bind (NoPanic.isoField h (by omega) (by omega) _ _) fun _ _ => ?_
  refine NoPanic.bind (NoPanic.failIf _) fun _ _ => ?_
  refine NoPanic.bind (NoPanic.isoSep h (by omega) _ _) fun _ _ => ?_
  refine NoPanic.bind (NoPanic.isoField h (by omega) (by omega) _ _) fun _ _ => ?_
  refine NoPanic.bind (NoPanic.failIf _) fun _ _ => ?_
  refine NoPanic.bind (NoPanic.isoSep h (by omega) _ _) fun _ _ => ?_
  refine NoPanic.bind (NoPanic.isoField h (by omega) (by omega) _ _) fun _ _ => ?_
  refine NoPanic.bind (NoPanic.failIf _) fun _ _ => ?_
  refine NoPanic.bind (NoPanic.isoSep h (by omega) _ _) fun _ _ => ?_
  refine NoPanic.bind (NoPanic.isoField h (by omega) (by omega) _ _) fun _ _ => ?_
  refine NoPanic.bind (NoPanic.isoSep h (by omega) _ _) fun _ _ => ?_
  refine NoPanic.bind (NoPanic.failIf _) fun _ _ => ?_
  refine NoPanic.bind (NoPanic.isoField h (by omega) (by omega) _ _) fun _ _ => ?_
  refine NoPanic.bind (NoPanic.failIf _) fun _ _ => ?_
  refine NoPanic.bind (NoPanic.isoSep h (by omega) _ _) fun _ _ => ?_
  refine NoPanic.bind (NoPanic.isoField h (by omega) (by omega) _ _) fun _ _ => ?_
  refine NoPanic.bind (NoPanic.failIf _) fun _ _ => ?_
  exact NoPanic.ok _

/-- What an accepted ISO date satisfies. -/
theorem fromIso_range {s : Bytes} {d : DateTime} (h : DateTime.fromIso8601 s = .ok d) :
    d.year.toNat ≤ 100 ∧ (1 ≤ d.month.toNat ∧ d.month.toNat ≤ 12) ∧
    (1 ≤ d.day.toNat ∧ d.day.toNat ≤ 31) ∧ d.hour.toNat < 24 ∧ d.minute.toNat < 60 ∧
    d.second.toNat < 60 := by
  unfold DateTime.fromIso8601 at h
  simp only [R_bind_ok, failIf_ok, Decidable.not_not] at h
  obtain ⟨_, _, y, _, _, hy, _, _, mo, _, _, hmo, _, _, da, _, _, hd, _, _, ho, _, _, _, _, hh,
    mi, _, _, hmi, _, _, se, _, _, hse, h⟩ := h
  injection h with h
  subst h
  dsimp only
  rw [ofNat_toNat_lt, ofNat_toNat_lt, ofNat_toNat_lt, ofNat_toNat_lt, ofNat_toNat_lt,
    ofNat_toNat_lt] <;> omega

theorem isoYear : ∀ n : UInt8, n.toNat < 100 →
    fromStrDec 65535 ([b' '2', b' '0'] ++ dec2 n) = some (2000 + n.toNat) := by
  apply forall_u8; decide +kernel

theorem isoField_eq {max : Nat} {val : Bytes} {i j : Nat} {msg : String} {x : Bytes} {n : Nat}
    (h1 : strSlice val i j = .ok x) (h2 : fromStrDec max x = some n) :
    isoField max val i j msg = .ok n := by
  unfold isoField; rw [h1]; simp [liftP, R_ok_bind, h2, okOr]

theorem isoSep_eq {val : Bytes} {i : Nat} {c : Char} {msg : String}
    (h1 : strSlice val i (i + 1) = .ok [b' c]) : isoSep val i c msg = .ok () := by
  unfold isoSep; rw [h1]; simp [liftP, R_ok_bind, failIf]

theorem iso_roundtrip {d : DateTime} (h : WfDateTime d) :
    DateTime.fromIso8601 d.toIso8601 = .ok d := by
  obtain ⟨hy, hmo, hd, hh, hmi, hs⟩ := h
  obtain ⟨y, mo, da, ho, mi, se⟩ := d
  dsimp only at hy hmo hd hh hmi hs
  have hlt : ∀ b ∈ (DateTime.mk y mo da ho mi se).toIso8601, b.toNat < 128 := by
    have hp : ∀ n : UInt8, n.toNat < 100 → ∀ b ∈ padDec 2 n.toNat, b.toNat < 128 := by
      intro n hn b hb
      rw [padDec2 _ hn] at hb
      have := (dec2_printable hn b hb).2
      omega
    unfold DateTime.toIso8601
    dsimp only
    intro b hb
    simp only [List.mem_append] at hb
    rcases hb with ((((((((((hb | hb) | hb) | hb) | hb) | hb) | hb) | hb) | hb) | hb) | hb) | hb
    · simp only [List.mem_cons, List.not_mem_nil, or_false] at hb
      rcases hb with rfl | rfl <;> decide
    · exact hp _ (by omega) b hb
    · rw [List.mem_singleton.mp hb]; decide
    · exact hp _ (by omega) b hb
    · rw [List.mem_singleton.mp hb]; decide
    · exact hp _ (by omega) b hb
    · rw [List.mem_singleton.mp hb]; decide
    · exact hp _ (by omega) b hb
    · rw [List.mem_singleton.mp hb]; decide
    · exact hp _ (by omega) b hb
    · rw [List.mem_singleton.mp hb]; decide
    · exact hp _ (by omega) b hb
  have heq : (DateTime.mk y mo da ho mi se).toIso8601 =
      [b' '2', b' '0'] ++ dec2 y ++ [b' '-'] ++ dec2 mo ++ [b' '-'] ++ dec2 da ++ [b' 'T'] ++
      dec2 ho ++ [b' ':'] ++ dec2 mi ++ [b' ':'] ++ dec2 se := by
    unfold DateTime.toIso8601
    dsimp only
    rw [padDec2 y (by omega), padDec2 mo (by omega), padDec2 da (by omega), padDec2 ho (by omega),
      padDec2 mi (by omega), padDec2 se (by omega)]
  rw [heq] at hlt ⊢
  have hl : ([b' '2', b' '0'] ++ dec2 y ++ [b' '-'] ++ dec2 mo ++ [b' '-'] ++ dec2 da ++ [b' 'T'] ++
      dec2 ho ++ [b' ':'] ++ dec2 mi ++ [b' ':'] ++ dec2 se).length = 19 := rfl
  unfold DateTime.fromIso8601
  rw [failIf_neg (by rw [hl]; simp), R_ok_bind]
  rw [isoField_eq (x := [b' '2', b' '0'] ++ dec2 y)
    (strSlice_ascii hlt (by omega) (by rw [hl]; omega)) (isoYear y hy), R_ok_bind]
  rw [failIf_neg (by omega), R_ok_bind]
  rw [isoSep_eq (strSlice_ascii hlt (by omega) (by rw [hl]; omega)), R_ok_bind]
  rw [isoField_eq (x := dec2 mo) (strSlice_ascii hlt (by omega) (by rw [hl]; omega))
    (parse_dec2 mo (by omega)), R_ok_bind]
  rw [failIf_neg (by omega), R_ok_bind]
  rw [isoSep_eq (strSlice_ascii hlt (by omega) (by rw [hl]; omega)), R_ok_bind]
  rw [isoField_eq (x := dec2 da) (strSlice_ascii hlt (by omega) (by rw [hl]; omega))
    (parse_dec2 da (by omega)), R_ok_bind]
  rw [failIf_neg (by omega), R_ok_bind]
  rw [isoSep_eq (strSlice_ascii hlt (by omega) (by rw [hl]; omega)), R_ok_bind]
  rw [isoField_eq (x := dec2 ho) (strSlice_ascii hlt (by omega) (by rw [hl]; omega))
    (parse_dec2 ho (by omega)), R_ok_bind]
  rw [isoSep_eq (strSlice_ascii hlt (by omega) (by rw [hl]; omega)), R_ok_bind]
  rw [failIf_neg (by omega), R_ok_bind]
  rw [isoField_eq (x := dec2 mi) (strSlice_ascii hlt (by omega) (by rw [hl]; omega))
    (parse_dec2 mi (by omega)), R_ok_bind]
  rw [failIf_neg (by omega), R_ok_bind]
  rw [isoSep_eq (strSlice_ascii hlt (by omega) (by rw [hl]; omega)), R_ok_bind]
  rw [isoField_eq (x := dec2 se) (strSlice_ascii hlt (by omega) (by rw [hl]; omega))
    (parse_dec2 se (by omega)), R_ok_bind]
  rw [failIf_neg (by omega), R_ok_bind]
  simp

/-! ## Texts -/

theorem trimEnd_spec (s : Bytes) : TrimmedOf (trimEndSpaces s) s := by
  unfold trimEndSpaces TrimmedOf
  constructor
  · refine ⟨(s.reverse.takeWhile (· == b' ' ')).length, ?_⟩
    have h1 := List.takeWhile_append_dropWhile (p := (· == b' ' ')) (l := s.reverse)
    have h2 : s.reverse.takeWhile (· == b' ' ') =
        List.replicate (s.reverse.takeWhile (· == b' ' ')).length 0x20 := by
      rw [List.eq_replicate_iff]
      refine ⟨rfl, fun b hb => ?_⟩
      have := List.all_takeWhile (p := (· == b' ' ')) (l := s.reverse)
      rw [List.all_eq_true] at this
      have h := this b hb
      rw [beq_iff_eq] at h
      exact h
    have h3 := congrArg List.reverse h1
    rw [List.reverse_append, List.reverse_reverse] at h3
    rw [h2, List.reverse_replicate] at h3
    exact h3.symm
  · rw [List.getLast?_reverse]
    intro h
    have := List.head?_dropWhile_not (· == b' ' ') s.reverse
    rw [h] at this
    simp at this
    exact this (by decide)

theorem trimmed_unique {s t u : Bytes} (hs : TrimmedOf s u) (ht : TrimmedOf t u) : s = t := by
  obtain ⟨⟨k, hk⟩, hs⟩ := hs
  obtain ⟨⟨j, hj⟩, ht⟩ := ht
  induction k generalizing j u with
  | zero =>
    match j with
    | 0 => simp_all
    | j + 1 =>
      simp at hk
      rw [hk, List.replicate_succ', ← List.append_assoc] at hj
      rw [hj] at hs; simp at hs
  | succ k ih =>
    match j with
    | 0 =>
      simp at hj
      rw [hj, List.replicate_succ', ← List.append_assoc] at hk
      rw [hk] at ht; simp at ht
    | j + 1 =>
      rw [List.replicate_succ', ← List.append_assoc] at hj hk
      rw [hk] at hj
      have := List.append_inj_left' hj rfl
      exact ih rfl j this

theorem textNew_ok {s : Bytes} {t : TextDescription} :
    TextDescription.new s = .ok t ↔ (∀ b ∈ s, Printable b) ∧
      t.text.toList = s.take 16 ++ List.replicate (16 - s.length) 0x20 := by
  have hc : (∃ u, (checkPrintable s).toOption = some u) ↔ ∀ b ∈ s, Printable b := by
    constructor
    · rintro ⟨u, hu⟩
      cases h : checkPrintable s with
      | ok x => exact checkPrintable_ok.mp h
      | error e => rw [h] at hu; cases hu
    · intro h
      rw [checkPrintable_ok.mpr h]; exact ⟨(), rfl⟩
  have hv : (Vector.ofFn fun i : Fin 16 => s.getD i.val (TextDescription.empty.text[i.val])).toList
      = s.take 16 ++ List.replicate (16 - s.length) 0x20 := by
    apply List.ext_getElem
    · simp; omega
    · intro i h1 h2
      simp at h1
      rw [List.getElem_append]
      have he : TextDescription.empty.text[i] = 0x20 := by
        show (Vector.replicate 16 (b' ' '))[i] = _
        rw [Vector.getElem_replicate]; rfl
      split
      · rename_i hi
        simp at hi
        simp [List.getElem?_eq_getElem (show i < s.length by omega)]
      · rename_i hi
        simp at hi
        have : s.length ≤ i := by omega
        simp [List.getElem?_eq_none this, he]
  have hp : ∀ u, printableR s = .ok u ↔ (checkPrintable s).toOption = some u := by
    intro u
    unfold printableR
    cases checkPrintable s <;> simp [errR, Except.toOption]
  unfold TextDescription.new
  simp only [R_bind_ok, hp]
  constructor
  · rintro ⟨u, h1, h2⟩
    injection h2 with h2
    subst h2
    exact ⟨hc.mp ⟨u, h1⟩, hv⟩
  · rintro ⟨h1, h2⟩
    obtain ⟨u, hu⟩ := hc.mpr h1
    refine ⟨u, hu, ?_⟩
    congr 1
    have : t.text = Vector.ofFn fun i : Fin 16 => s.getD i.val (TextDescription.empty.text[i.val]) := by
      apply Vector.toList_inj.mp
      rw [h2, hv]
    cases t
    rw [← this]

theorem NoPanic.textNew (s : Bytes) : NoPanic (TextDescription.new s) := by
  unfold TextDescription.new
  refine NoPanic.bind ?_ fun _ _ => NoPanic.ok _
  unfold printableR
  split
  · exact NoPanic.ok _
  · exact NoPanic.err _

theorem asStr_wf {t : TextDescription} (h : WfText t) :
    t.asStr = .ok (trimEndSpaces t.text.toList) := by
  unfold TextDescription.asStr
  rw [asPaddedStr_wf h]; rfl

/-! ## Dispatch to no message -/

theorem supported_of_mem {cmd : Bytes} (h : cmd ∈ armCmds) :
    ∃ c ∈ supportedCodes, cmd = [b' c.1, b' c.2] := by
  simp only [armCmds, List.mem_cons, List.not_mem_nil, or_false] at h
  rcases h with h | h | h | h | h | h | h | h | h | h | h <;> subst h
  · exact ⟨('a', '0'), by decide, rfl⟩
  · exact ⟨('a', '1'), by decide, rfl⟩
  · exact ⟨('a', '2'), by decide, rfl⟩
  · exact ⟨('a', '3'), by decide, rfl⟩
  · exact ⟨('a', '4'), by decide, rfl⟩
  · exact ⟨('a', '5'), by decide, rfl⟩
  · exact ⟨('a', '6'), by decide, rfl⟩
  · exact ⟨('a', '7'), by decide, rfl⟩
  · exact ⟨('a', '8'), by decide, rfl⟩
  · exact ⟨('a', '9'), by decide, rfl⟩
  · exact ⟨('a', ':'), by decide, rfl⟩

theorem dispatch_unsupported {cmd : Bytes} (data : Bytes)
    (h : ∀ c ∈ supportedCodes, cmd ≠ [b' c.1, b' c.2]) : Message.dispatch cmd data = .ok none := by
  have hn : ∀ c ∈ supportedCodes, ¬ cmd = cmd2 c.1 c.2 := h
  unfold Message.dispatch
  rw [if_neg (fun hc => by obtain ⟨c, h1, h2⟩ := supported_of_mem hc; exact h c h1 h2)]
  rw [if_neg (hn ('a', 's') (by decide)), if_neg (hn ('A', 'S') (by decide)),
    if_neg (hn ('E', 'E') (by decide)), if_neg (hn ('I', 'C') (by decide)),
    if_neg (hn ('r', 'r') (by decide)), if_neg (hn ('R', 'R') (by decide)),
    if_neg (hn ('s', 'd') (by decide)), if_neg (hn ('S', 'D') (by decide)),
    if_neg (hn ('t', 'n') (by decide)), if_neg (hn ('T', 'C') (by decide)),
    if_neg (hn ('X', 'K') (by decide)), if_neg (hn ('Z', 'C') (by decide)),
    if_neg (hn ('z', 's') (by decide)), if_neg (hn ('Z', 'S') (by decide))]

theorem bind_none_false {α : Type} {x : R α} {f : α → Message}
    (h : (do Except.ok (some (f (← x))) : R (Option Message)) = .ok none) : False := by
  rw [R_bind_ok] at h
  obtain ⟨a, _, h⟩ := h
  cases h

theorem dispatch_none {cmd data : Bytes} (h : Message.dispatch cmd data = .ok none) :
    ∀ c ∈ supportedCodes, cmd ≠ [b' c.1, b' c.2] := by
  have key : cmd ∉ armCmds ∧ cmd ≠ cmd2 'a' 's' ∧ cmd ≠ cmd2 'A' 'S' ∧ cmd ≠ cmd2 'E' 'E' ∧
      cmd ≠ cmd2 'I' 'C' ∧ cmd ≠ cmd2 'r' 'r' ∧ cmd ≠ cmd2 'R' 'R' ∧ cmd ≠ cmd2 's' 'd' ∧
      cmd ≠ cmd2 'S' 'D' ∧ cmd ≠ cmd2 't' 'n' ∧ cmd ≠ cmd2 'T' 'C' ∧ cmd ≠ cmd2 'X' 'K' ∧
      cmd ≠ cmd2 'Z' 'C' ∧ cmd ≠ cmd2 'z' 's' ∧ cmd ≠ cmd2 'Z' 'S' := by
    unfold Message.dispatch at h
    refine ite_elim h (fun hc h => ?_) (fun hn h => ⟨hn, ?_⟩)
    · exfalso
      simp only [R_bind_ok, liftP_ok] at h
      obtain ⟨b, hb, m', hm, h⟩ := h
      cases h
    refine ite_elim h (fun hc h => by cases h) (fun hn h => ⟨hn, ?_⟩)
    refine ite_elim h (fun hc h => (bind_none_false h).elim) (fun hn h => ⟨hn, ?_⟩)
    refine ite_elim h (fun hc h => (bind_none_false h).elim) (fun hn h => ⟨hn, ?_⟩)
    refine ite_elim h (fun hc h => (bind_none_false h).elim) (fun hn h => ⟨hn, ?_⟩)
    refine ite_elim h (fun hc h => by cases h) (fun hn h => ⟨hn, ?_⟩)
    refine ite_elim h (fun hc h => (bind_none_false h).elim) (fun hn h => ⟨hn, ?_⟩)
    refine ite_elim h (fun hc h => (bind_none_false h).elim) (fun hn h => ⟨hn, ?_⟩)
    refine ite_elim h (fun hc h => (bind_none_false h).elim) (fun hn h => ⟨hn, ?_⟩)
    refine ite_elim h (fun hc h => (bind_none_false h).elim) (fun hn h => ⟨hn, ?_⟩)
    refine ite_elim h (fun hc h => (bind_none_false h).elim) (fun hn h => ⟨hn, ?_⟩)
    refine ite_elim h (fun hc h => (bind_none_false h).elim) (fun hn h => ⟨hn, ?_⟩)
    refine ite_elim h (fun hc h => (bind_none_false h).elim) (fun hn h => ⟨hn, ?_⟩)
    refine ite_elim h (fun hc h => by cases h) (fun hn h => ⟨hn, ?_⟩)
    exact ite_elim h (fun hc h => (bind_none_false h).elim) (fun hn h => hn)
  obtain ⟨h0, h1, h2, h3, h4, h5, h6, h7, h8, h9, h10, h11, h12, h13, h14⟩ := key
  intro c hc he
  simp only [supportedCodes, List.mem_cons, List.not_mem_nil, or_false] at hc
  rcases hc with h | h | h | h | h | h | h | h | h | h | h | h | h | h | h | h | h | h | h | h | h |
    h | h | h | h <;> subst h
  iterate 11 exact h0 (he ▸ by decide)
  · exact h1 he
  · exact h2 he
  · exact h3 he
  · exact h4 he
  · exact h5 he
  · exact h6 he
  · exact h7 he
  · exact h8 he
  · exact h9 he
  · exact h10 he
  · exact h11 he
  · exact h12 he
  · exact h13 he
  · exact h14 he

theorem msgCode_supported (m : Message) : msgCode m ∈ supportedCodes := by
  cases m with
  | armRequest m =>
    show ('a', armLevelChar m.level) ∈ _
    cases m.level <;> decide
  | _ => simp only [msgCode]; decide

/-! ## Suspicious transitions -/

theorem hasEntryDelay_iff (s : ArmingStatus) : s.hasEntryDelay = true ↔ HasEntryDelay s := by
  unfold HasEntryDelay
  cases s <;> simp [ArmingStatus.hasEntryDelay]

theorem suspicious_iff (f t : ArmingStatusReport) :
    f.isTransitionSuspicious t = true ↔ Suspicious f t := by
  unfold ArmingStatusReport.isTransitionSuspicious Suspicious
  rw [List.any_eq_true]
  constructor
  · rintro ⟨⟨⟨a, b⟩, c⟩, hx, h⟩
    obtain ⟨i, hi, he⟩ := List.mem_iff_getElem.mp hx
    simp at hi
    simp at he
    obtain ⟨⟨rfl, rfl⟩, rfl⟩ := he
    simp only [Bool.and_eq_true, decide_eq_true_eq, hasEntryDelay_iff] at h
    exact ⟨⟨i, by omega⟩, h.1.1, h.1.2, h.2⟩
  · rintro ⟨i, h1, h2, h3⟩
    refine ⟨((f.armingStatus[i], t.armingStatus[i]), t.upState[i]), ?_, ?_⟩
    · refine List.mem_iff_getElem.mpr ⟨i.val, by simp, by simp⟩
    · simp only [Bool.and_eq_true, decide_eq_true_eq, hasEntryDelay_iff]
      exact ⟨⟨h1, h2⟩, h3⟩

theorem plusEq_eq {x c : Bytes} (h : PlusEq x c) (hx : b' '+' ∉ x) : x = c := by
  induction h with
  | nil => rfl
  | same b _ ih => rw [ih (fun h => hx (by simp [h]))]
  | plus _ _ => simp at hx

end Elk
