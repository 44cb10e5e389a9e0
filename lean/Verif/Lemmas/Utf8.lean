import Verif.Lemmas.JsonRead
/-!
# Lemmas: `std::str::from_utf8` accepts encoded characters and nothing else
-/

namespace Elk

theorem ofNat_of {n : Nat} {b : UInt8} (h : n = b.toNat) : UInt8.ofNat n = b := by
  rw [h, UInt8.ofNat_toNat]

theorem utf8Go_more {lo hi b : UInt8} {ps : List (UInt8 × UInt8)} {r : Bytes} :
    utf8Go ((lo, hi) :: ps) (b :: r) = true ↔ lo.toNat ≤ b.toNat ∧ b.toNat ≤ hi.toNat ∧
      utf8Go ps r = true := by
  rw [utf8Go, Bool.and_eq_true, Bool.and_eq_true, decide_eq_true_eq, decide_eq_true_eq,
    UInt8.le_iff_toNat_le, UInt8.le_iff_toNat_le, and_assoc]

theorem utf8Go_nil {ps : List (UInt8 × UInt8)} : utf8Go ps [] = true ↔ ps = [] := by
  cases ps <;> simp [utf8Go]

/-- The check of a first byte, with numbers. -/
theorem utf8Go_first (b : UInt8) (r : Bytes) : utf8Go [] (b :: r) =
    if b.toNat < 0x80 then utf8Go [] r
    else if 0xC2 ≤ b.toNat ∧ b.toNat ≤ 0xDF then utf8Go [(0x80, 0xBF)] r
    else if b.toNat = 0xE0 then utf8Go [(0xA0, 0xBF), (0x80, 0xBF)] r
    else if (0xE1 ≤ b.toNat ∧ b.toNat ≤ 0xEC) ∨ b.toNat = 0xEE ∨ b.toNat = 0xEF then
      utf8Go [(0x80, 0xBF), (0x80, 0xBF)] r
    else if b.toNat = 0xED then utf8Go [(0x80, 0x9F), (0x80, 0xBF)] r
    else if b.toNat = 0xF0 then utf8Go [(0x90, 0xBF), (0x80, 0xBF), (0x80, 0xBF)] r
    else if 0xF1 ≤ b.toNat ∧ b.toNat ≤ 0xF3 then utf8Go [(0x80, 0xBF), (0x80, 0xBF), (0x80, 0xBF)] r
    else if b.toNat = 0xF4 then utf8Go [(0x80, 0x8F), (0x80, 0xBF), (0x80, 0xBF)] r
    else false := by
  rw [utf8Go]
  simp only [UInt8.le_iff_toNat_le, UInt8.lt_iff_toNat_lt, ← UInt8.toNat_inj]
  rfl

theorem toNat_of {n : Nat} (h : n < 256) : (UInt8.ofNat n).toNat = n :=
  UInt8.toNat_ofNat_of_lt' (by simpa [UInt8.size] using h)

/-- An encoded character is accepted. -/
theorem utf8Go_utf8 {n : Nat} (h : n < 0xd800 ∨ 0xdfff < n ∧ n < 0x110000) (r : Bytes) :
    utf8Go [] (Doc.utf8 n ++ r) = true ↔ utf8Go [] r = true := by
  have e1 : (0x80 : UInt8).toNat = 128 := rfl
  have e2 : (0xBF : UInt8).toNat = 191 := rfl
  have e3 : (0xA0 : UInt8).toNat = 160 := rfl
  have e4 : (0x9F : UInt8).toNat = 159 := rfl
  have e5 : (0x90 : UInt8).toNat = 144 := rfl
  have e6 : (0x8F : UInt8).toNat = 143 := rfl
  unfold Doc.utf8
  split
  · rw [List.singleton_append, utf8Go_first, toNat_of (by omega), if_pos (by omega)]
  · split
    · simp only [List.cons_append, List.nil_append]
      rw [utf8Go_first, toNat_of (by omega), if_neg (by omega), if_pos (by omega), utf8Go_more,
        toNat_of (by omega), e1, e2]
      exact ⟨fun h => h.2.2, fun h => ⟨by omega, by omega, h⟩⟩
    · split
      · simp only [List.cons_append, List.nil_append]
        rw [utf8Go_first, toNat_of (by omega), if_neg (by omega), if_neg (by omega)]
        by_cases g1 : n / 4096 = 0
        · rw [if_pos (by omega), utf8Go_more, utf8Go_more, toNat_of (by omega), toNat_of (by omega),
            e1, e2, e3]
          exact ⟨fun h => h.2.2.2.2, fun h => ⟨by omega, by omega, by omega, by omega, h⟩⟩
        · rw [if_neg (by omega)]
          by_cases g2 : n / 4096 = 13
          · rw [if_neg (by omega), if_pos (by omega), utf8Go_more, utf8Go_more, toNat_of (by omega),
              toNat_of (by omega), e1, e2, e4]
            exact ⟨fun h => h.2.2.2.2, fun h => ⟨by omega, by omega, by omega, by omega, h⟩⟩
          · rw [if_pos (by omega), utf8Go_more, utf8Go_more, toNat_of (by omega),
              toNat_of (by omega), e1, e2]
            exact ⟨fun h => h.2.2.2.2, fun h => ⟨by omega, by omega, by omega, by omega, h⟩⟩
      · simp only [List.cons_append, List.nil_append]
        rw [utf8Go_first, toNat_of (by omega), if_neg (by omega), if_neg (by omega),
          if_neg (by omega), if_neg (by omega), if_neg (by omega)]
        by_cases g1 : n / 262144 = 0
        · rw [if_pos (by omega), utf8Go_more, utf8Go_more, utf8Go_more, toNat_of (by omega),
            toNat_of (by omega), toNat_of (by omega), e1, e2, e5]
          exact ⟨fun h => h.2.2.2.2.2.2,
            fun h => ⟨by omega, by omega, by omega, by omega, by omega, by omega, h⟩⟩
        · rw [if_neg (by omega)]
          by_cases g2 : n / 262144 = 4
          · rw [if_neg (by omega), if_pos (by omega), utf8Go_more, utf8Go_more, utf8Go_more,
              toNat_of (by omega), toNat_of (by omega), toNat_of (by omega), e1, e2, e6]
            exact ⟨fun h => h.2.2.2.2.2.2,
              fun h => ⟨by omega, by omega, by omega, by omega, by omega, by omega, h⟩⟩
          · rw [if_pos (by omega), utf8Go_more, utf8Go_more, utf8Go_more,
              toNat_of (by omega), toNat_of (by omega), toNat_of (by omega), e1, e2]
            exact ⟨fun h => h.2.2.2.2.2.2,
              fun h => ⟨by omega, by omega, by omega, by omega, by omega, by omega, h⟩⟩

/-- What follows a first byte: the rest of a sequence. -/
theorem utf8Go_cons {lo hi : UInt8} {ps : List (UInt8 × UInt8)} {s : Bytes}
    (h : utf8Go ((lo, hi) :: ps) s = true) :
    ∃ b r, s = b :: r ∧ lo.toNat ≤ b.toNat ∧ b.toNat ≤ hi.toNat ∧ utf8Go ps r = true := by
  cases s with
  | nil => simp [utf8Go] at h
  | cons b r => exact ⟨b, r, rfl, utf8Go_more.mp h⟩

/-- What is accepted begins with an encoded character. -/
theorem utf8Go_split {b : UInt8} {s : Bytes} (h : utf8Go [] (b :: s) = true) :
    ∃ n r, (n < 0xd800 ∨ 0xdfff < n ∧ n < 0x110000) ∧ b :: s = Doc.utf8 n ++ r ∧
      utf8Go [] r = true := by
  have e1 : (0x80 : UInt8).toNat = 128 := rfl
  have e2 : (0xBF : UInt8).toNat = 191 := rfl
  have e3 : (0xA0 : UInt8).toNat = 160 := rfl
  have e4 : (0x9F : UInt8).toNat = 159 := rfl
  have e5 : (0x90 : UInt8).toNat = 144 := rfl
  have e6 : (0x8F : UInt8).toNat = 143 := rfl
  have hb := b.toNat_lt
  -- sequences of three and four bytes
  have three : ∀ {c d : UInt8} {r : Bytes}, 0xE0 ≤ b.toNat → b.toNat ≤ 0xEF → 128 ≤ c.toNat →
      c.toNat ≤ 191 → 128 ≤ d.toNat → d.toNat ≤ 191 → (b.toNat = 0xE0 → 160 ≤ c.toNat) →
      (b.toNat = 0xED → c.toNat ≤ 159) → utf8Go [] r = true →
      ∃ n r', (n < 0xd800 ∨ 0xdfff < n ∧ n < 0x110000) ∧ b :: c :: d :: r = Doc.utf8 n ++ r' ∧
        utf8Go [] r' = true := by
    intro c d r h1 h2 h3 h4 h5 h6 h7 h8 hr
    refine ⟨(b.toNat - 0xE0) * 4096 + (c.toNat - 128) * 64 + (d.toNat - 128), r, by omega, ?_, hr⟩
    unfold Doc.utf8
    rw [if_neg (by omega), if_neg (by omega), if_pos (by omega), ofNat_of (b := b) (by omega),
      ofNat_of (b := c) (by omega), ofNat_of (b := d) (by omega)]
    rfl
  have four : ∀ {c d e : UInt8} {r : Bytes}, 0xF0 ≤ b.toNat → b.toNat ≤ 0xF4 → 128 ≤ c.toNat →
      c.toNat ≤ 191 → 128 ≤ d.toNat → d.toNat ≤ 191 → 128 ≤ e.toNat → e.toNat ≤ 191 →
      (b.toNat = 0xF0 → 144 ≤ c.toNat) → (b.toNat = 0xF4 → c.toNat ≤ 143) → utf8Go [] r = true →
      ∃ n r', (n < 0xd800 ∨ 0xdfff < n ∧ n < 0x110000) ∧
        b :: c :: d :: e :: r = Doc.utf8 n ++ r' ∧ utf8Go [] r' = true := by
    intro c d e r h1 h2 h3 h4 h5 h6 h7 h8 h9 h10 hr
    refine ⟨(b.toNat - 0xF0) * 262144 + (c.toNat - 128) * 4096 + (d.toNat - 128) * 64 +
      (e.toNat - 128), r, by omega, ?_, hr⟩
    unfold Doc.utf8
    rw [if_neg (by omega), if_neg (by omega), if_neg (by omega), ofNat_of (b := b) (by omega),
      ofNat_of (b := c) (by omega), ofNat_of (b := d) (by omega), ofNat_of (b := e) (by omega)]
    rfl
  rw [utf8Go_first] at h
  split at h
  · refine ⟨b.toNat, s, by omega, ?_, h⟩
    unfold Doc.utf8
    rw [if_pos (by omega), UInt8.ofNat_toNat]
    rfl
  · split at h
    · obtain ⟨c, r, rfl, h1, h2, hr⟩ := utf8Go_cons h
      refine ⟨(b.toNat - 0xC0) * 64 + (c.toNat - 128), r, by omega, ?_, hr⟩
      unfold Doc.utf8
      rw [if_neg (by omega), if_pos (by omega), ofNat_of (b := b) (by omega),
        ofNat_of (b := c) (by omega)]
      rfl
    · split at h
      · obtain ⟨c, r, rfl, h1, h2, h⟩ := utf8Go_cons h
        obtain ⟨d, r, rfl, h3, h4, hr⟩ := utf8Go_cons h
        exact three (by omega) (by omega) (by omega) (by omega) (by omega) (by omega) (by omega)
          (by omega) hr
      · split at h
        · obtain ⟨c, r, rfl, h1, h2, h⟩ := utf8Go_cons h
          obtain ⟨d, r, rfl, h3, h4, hr⟩ := utf8Go_cons h
          exact three (by omega) (by omega) (by omega) (by omega) (by omega) (by omega) (by omega)
            (by omega) hr
        · split at h
          · obtain ⟨c, r, rfl, h1, h2, h⟩ := utf8Go_cons h
            obtain ⟨d, r, rfl, h3, h4, hr⟩ := utf8Go_cons h
            exact three (by omega) (by omega) (by omega) (by omega) (by omega) (by omega) (by omega)
              (by omega) hr
          · split at h
            · obtain ⟨c, r, rfl, h1, h2, h⟩ := utf8Go_cons h
              obtain ⟨d, r, rfl, h3, h4, h⟩ := utf8Go_cons h
              obtain ⟨e, r, rfl, h5, h6, hr⟩ := utf8Go_cons h
              exact four (by omega) (by omega) (by omega) (by omega) (by omega) (by omega)
                (by omega) (by omega) (by omega) (by omega) hr
            · split at h
              · obtain ⟨c, r, rfl, h1, h2, h⟩ := utf8Go_cons h
                obtain ⟨d, r, rfl, h3, h4, h⟩ := utf8Go_cons h
                obtain ⟨e, r, rfl, h5, h6, hr⟩ := utf8Go_cons h
                exact four (by omega) (by omega) (by omega) (by omega) (by omega) (by omega)
                  (by omega) (by omega) (by omega) (by omega) hr
              · split at h
                · obtain ⟨c, r, rfl, h1, h2, h⟩ := utf8Go_cons h
                  obtain ⟨d, r, rfl, h3, h4, h⟩ := utf8Go_cons h
                  obtain ⟨e, r, rfl, h5, h6, hr⟩ := utf8Go_cons h
                  exact four (by omega) (by omega) (by omega) (by omega) (by omega) (by omega)
                    (by omega) (by omega) (by omega) (by omega) hr
                · cases h

theorem utf8_ne (n : Nat) : Doc.utf8 n ≠ [] := by
  unfold Doc.utf8
  split
  · simp
  · split
    · simp
    · split <;> simp

/-- `std::str::from_utf8` succeeds exactly for encoded characters. -/
theorem utf8Valid_iff (s : Bytes) : utf8Valid s = true ↔
    ∃ cs : List Char, s = cs.flatMap String.utf8EncodeChar := by
  constructor
  · have key : ∀ (k : Nat) {s : Bytes}, s.length ≤ k → utf8Go [] s = true →
        ∃ cs : List Char, s = cs.flatMap String.utf8EncodeChar := by
      intro k
      induction k with
      | zero =>
        intro s hs _
        exact ⟨[], List.eq_nil_of_length_eq_zero (Nat.le_zero.mp hs)⟩
      | succ k ih =>
        intro s hs h
        cases s with
        | nil => exact ⟨[], rfl⟩
        | cons b s =>
          obtain ⟨n, r, hn, e, hr⟩ := utf8Go_split h
          have hl : 0 < (Doc.utf8 n).length := List.length_pos_iff.mpr (utf8_ne n)
          have hl2 := congrArg List.length e
          rw [List.length_append] at hl2
          obtain ⟨cs, hcs⟩ := ih (s := r) (by omega) hr
          obtain ⟨c, rfl⟩ := char_of hn
          exact ⟨c :: cs, by rw [e, hcs, utf8_char]; rfl⟩
    exact key s.length (Nat.le_refl _)
  · rintro ⟨cs, rfl⟩
    unfold utf8Valid
    induction cs with
    | nil => simp [utf8Go]
    | cons c cs ih =>
      rw [List.flatMap_cons, ← utf8_char]
      refine (utf8Go_utf8 ?_ _).mpr ih
      have e : c.toNat = c.val.toNat := rfl
      rcases c.valid with h | h <;> omega

/-- A string is read as what it says. -/
theorem text_iff {raw t : Bytes} : Doc.text raw = some t ↔ Spec.Rfc.Says raw t := by
  unfold Doc.text Spec.Rfc.Says
  rw [← utf8Valid_iff]
  constructor
  · intro h
    split at h
    · rename_i x hx
      split at h
      · rename_i hu
        cases h
        exact ⟨unescape_sound raw.length (Nat.le_refl _) hx, hu⟩
      · cases h
    · cases h
  · rintro ⟨h1, h2⟩
    rw [unescape_complete h1]
    dsimp only
    rw [if_pos h2]

end Elk
