import Verif.Spec.JsonGrammar
import Verif.Lemmas.JsonText
/-!
# Lemmas: the reader of JSON text follows the grammar
-/

namespace Elk
open Spec.Rfc

/-! ## White space -/

/-- Not white space. -/
def Hard (b : UInt8) : Prop := ¬ (b = b' ' ' ∨ b = 0x0a ∨ b = 0x09 ∨ b = 0x0d)

instance (b : UInt8) : Decidable (Hard b) := by unfold Hard; infer_instance

theorem skip_hard {b : UInt8} (h : Hard b) (s : Bytes) : Doc.skip (b :: s) = b :: s := by
  rw [Doc.skip, if_neg h]

theorem skip_ws {w : Bytes} (h : Ws w) (s : Bytes) : Doc.skip (w ++ s) = Doc.skip s := by
  induction w with
  | nil => rfl
  | cons b w ih =>
    have hb : b = b' ' ' ∨ b = 0x0a ∨ b = 0x09 ∨ b = 0x0d := by
      rcases h b List.mem_cons_self with h | h | h | h
      · exact .inl h
      · exact .inr (.inr (.inl h))
      · exact .inr (.inl h)
      · exact .inr (.inr (.inr h))
    rw [List.cons_append, Doc.skip, if_pos hb]
    exact ih fun x hx => h x (List.mem_cons_of_mem _ hx)

theorem skip_all {w : Bytes} (h : Ws w) : Doc.skip w = [] := by
  have := skip_ws h []
  rwa [List.append_nil] at this

theorem skip_split (s : Bytes) : ∃ w, Ws w ∧ s = w ++ Doc.skip s := by
  induction s with
  | nil => exact ⟨[], (fun _ h => nomatch h), rfl⟩
  | cons b s ih =>
    rw [Doc.skip]
    split
    · rename_i hb
      obtain ⟨w, h1, h2⟩ := ih
      refine ⟨b :: w, ?_, congrArg (b :: ·) h2⟩
      intro x hx
      rcases List.mem_cons.mp hx with rfl | hx
      · rcases hb with h | h | h | h
        · exact .inl h
        · exact .inr (.inr (.inl h))
        · exact .inr (.inl h)
        · exact .inr (.inr (.inr h))
      · exact h1 x hx
    · exact ⟨[], (fun _ h => nomatch h), rfl⟩

theorem ws_nil : Ws [] := fun _ h => nomatch h

/-! ## Strings -/

theorem hexDigit_iff {b : UInt8} {n : Nat} : Doc.hexDigit b = some n ↔ Hex b n := by
  have key : ∀ b : UInt8, Doc.hexDigit b =
      if 0x30 ≤ b.toNat ∧ b.toNat ≤ 0x39 then some (b.toNat - 0x30)
      else if 0x41 ≤ b.toNat ∧ b.toNat ≤ 0x46 then some (b.toNat - 0x41 + 10)
      else if 0x61 ≤ b.toNat ∧ b.toNat ≤ 0x66 then some (b.toNat - 0x61 + 10) else none := by
    apply forall_u8; decide +kernel
  rw [key]
  constructor
  · intro h
    split at h
    · rename_i hb; cases h; exact .digit b hb.1 hb.2
    · split at h
      · rename_i hb; cases h; exact .upper b hb.1 hb.2
      · split at h
        · rename_i hb; cases h; exact .lower b hb.1 hb.2
        · cases h
  · intro h
    cases h with
    | digit h1 h2 => rw [if_pos ⟨h1, h2⟩]
    | upper h1 h2 => rw [if_neg (by omega), if_pos ⟨h1, h2⟩]
    | lower h1 h2 => rw [if_neg (by omega), if_neg (by omega), if_pos ⟨h1, h2⟩]

theorem hex4_iff {a b c d : UInt8} {n : Nat} :
    Doc.hex4 a b c d = some n ↔ Hex4 [a, b, c, d] n := by
  unfold Doc.hex4
  constructor
  · intro h
    simp only [bind, Option.bind_eq_some_iff] at h
    obtain ⟨a', ha, b', hb, c', hc, d', hd, h⟩ := h
    cases h
    have := Hex4.mk (hexDigit_iff.mp ha) (hexDigit_iff.mp hb) (hexDigit_iff.mp hc)
      (hexDigit_iff.mp hd)
    have e : ((a' * 16 + b') * 16 + c') * 16 + d' = a' * 4096 + b' * 256 + c' * 16 + d' := by omega
    rwa [e] at this
  · intro h
    cases h with
    | mk ha hb hc hd =>
      rw [hexDigit_iff.mpr ha, hexDigit_iff.mpr hb, hexDigit_iff.mpr hc, hexDigit_iff.mpr hd]
      exact congrArg some (by omega)

theorem hex4_shape {h : Bytes} {n : Nat} (hh : Hex4 h n) :
    ∃ a b c d, h = [a, b, c, d] ∧ Doc.hex4 a b c d = some n := by
  cases hh with
  | mk ha hb hc hd => exact ⟨_, _, _, _, rfl, hex4_iff.mpr (.mk ha hb hc hd)⟩

theorem hex4_lt {h : Bytes} {n : Nat} (hh : Hex4 h n) : n < 65536 := by
  have d : ∀ {b m}, Hex b m → m < 16 := by
    intro b m h
    cases h <;> omega
  cases hh with
  | mk h1 h2 h3 h4 =>
    have := d h1; have := d h2; have := d h3; have := d h4
    omega

theorem escape_iff {c x : UInt8} : Doc.escape c = some x ↔ (c, x) ∈ Spec.Rfc.escapes := by
  have key : ∀ c : UInt8, Doc.escape c = (Spec.Rfc.escapes.lookup c) := by
    apply forall_u8; decide +kernel
  rw [key]
  constructor
  · intro h
    have : ∀ c x : UInt8, List.lookup c Spec.Rfc.escapes = some x → (c, x) ∈ Spec.Rfc.escapes := by
      intro c x h
      unfold Spec.Rfc.escapes at h ⊢
      simp only [List.lookup_cons] at h
      repeat' split at h
      all_goals first
        | (rename_i hc; cases h; rw [beq_iff_eq.mp hc]; decide)
        | cases h
    exact this c x h
  · intro h
    unfold Spec.Rfc.escapes at h
    simp only [List.mem_cons, Prod.mk.injEq, List.not_mem_nil, or_false] at h
    rcases h with ⟨rfl, rfl⟩ | ⟨rfl, rfl⟩ | ⟨rfl, rfl⟩ | ⟨rfl, rfl⟩ | ⟨rfl, rfl⟩ | ⟨rfl, rfl⟩ |
      ⟨rfl, rfl⟩ | ⟨rfl, rfl⟩ <;> decide

theorem escape_not_u : Doc.escape (b' 'u') = none := by decide

theorem escape_ne_u {c x : UInt8} (h : (c, x) ∈ Spec.Rfc.escapes) : c ≠ b' 'u' := by
  intro hc
  have := escape_iff.mpr h
  rw [hc, escape_not_u] at this
  cases this

theorem quoted_complete {raw : Bytes} (h : Chars raw) (r : Bytes) :
    Doc.quoted (raw ++ b' '"' :: r) = some (raw, r) := by
  induction h with
  | nil => rw [List.nil_append, Doc.quoted.eq_def]; rfl
  | @plain b s h1 h2 h3 _ ih =>
    rw [List.cons_append, Doc.quoted.eq_def]
    dsimp only
    rw [if_neg h2, if_neg (by rw [UInt8.lt_iff_toNat_lt]; exact Nat.not_lt.mpr h1), if_neg h3, ih]
    rfl
  | @escaped c x s hc _ ih =>
    rw [List.cons_append, List.cons_append, Doc.quoted.eq_def]
    dsimp only
    rw [if_neg (by decide), if_neg (by decide), if_pos rfl, if_neg (escape_ne_u hc),
      escape_iff.mpr hc, ih]
    rfl
  | @unicode hh n s hn _ ih =>
    obtain ⟨a, b, c, d, rfl, h4⟩ := hex4_shape hn
    simp only [List.cons_append, List.nil_append]
    rw [Doc.quoted.eq_def]
    dsimp only
    rw [if_neg (by decide), if_neg (by decide), if_pos rfl, if_pos rfl, h4, ih]
    rfl

theorem put_ok {w raw r : Bytes} {o : Option (Bytes × Bytes)} (h : Doc.put w o = some (raw, r)) :
    ∃ s, o = some (s, r) ∧ raw = w ++ s := by
  unfold Doc.put at h
  split at h
  · cases h; exact ⟨_, rfl, rfl⟩
  · cases h

theorem quoted_sound : ∀ (n : Nat) {s raw r : Bytes}, s.length ≤ n → Doc.quoted s = some (raw, r) →
    Chars raw ∧ s = raw ++ b' '"' :: r := by
  intro n
  induction n with
  | zero =>
    intro s raw r hl h
    cases s with
    | nil => rw [Doc.quoted.eq_def] at h; cases h
    | cons b s => simp at hl
  | succ n ih =>
    intro s raw r hl h
    cases s with
    | nil => rw [Doc.quoted.eq_def] at h; cases h
    | cons b s =>
      rw [List.length_cons] at hl
      rw [Doc.quoted.eq_def] at h
      dsimp only at h
      split at h
      · rename_i hb; cases h; subst hb; exact ⟨.nil, rfl⟩
      · rename_i hq
        split at h
        · cases h
        · rename_i hlt
          split at h
          · rename_i hb
            subst hb
            split at h
            · cases h
            · rename_i c s
              split at h
              · rename_i hc
                subst hc
                split at h
                · rename_i h1 h2 h3 h4 s
                  split at h
                  · rename_i hx
                    obtain ⟨m, hm⟩ := Option.isSome_iff_exists.mp hx
                    obtain ⟨t, e1, e2⟩ := put_ok h
                    obtain ⟨g1, g2⟩ := ih (by simp at hl; omega) e1
                    subst e2
                    refine ⟨.unicode (hex4_iff.mp hm) g1, ?_⟩
                    rw [g2]
                    rfl
                  · cases h
                · cases h
              · split at h
                · rename_i hx
                  obtain ⟨m, hm⟩ := Option.isSome_iff_exists.mp hx
                  obtain ⟨t, e1, e2⟩ := put_ok h
                  obtain ⟨g1, g2⟩ := ih (by simp at hl; omega) e1
                  subst e2
                  refine ⟨.escaped (escape_iff.mp hm) g1, ?_⟩
                  rw [g2]
                  rfl
                · cases h
          · rename_i hb
            obtain ⟨t, e1, e2⟩ := put_ok h
            obtain ⟨g1, g2⟩ := ih (by omega) e1
            subst e2
            refine ⟨.plain ?_ hq hb g1, by rw [g2]; rfl⟩
            rw [UInt8.lt_iff_toNat_lt] at hlt
            exact Nat.not_lt.mp hlt

/-- A string ends at the first quotation mark that is not escaped. -/
theorem quoted_iff {s raw r : Bytes} :
    Doc.quoted s = some (raw, r) ↔ Chars raw ∧ s = raw ++ b' '"' :: r := by
  constructor
  · exact quoted_sound s.length (Nat.le_refl _)
  · rintro ⟨h, rfl⟩
    exact quoted_complete h r

theorem utf8_char (c : Char) : Doc.utf8 c.toNat = String.utf8EncodeChar c := by
  unfold Doc.utf8 String.utf8EncodeChar
  have hc : c.val.toNat < 0x110000 := by
    rcases c.valid with h | h <;> omega
  show _ = (if c.val.toNat ≤ 0x7f then _ else if c.val.toNat ≤ 0x7ff then _ else
    if c.val.toNat ≤ 0xffff then _ else _)
  have e : c.toNat = c.val.toNat := rfl
  rw [e]
  generalize c.val.toNat = v at hc
  by_cases g1 : v < 0x80
  · rw [if_pos g1, if_pos (by omega)]
  · rw [if_neg g1, if_neg (by omega : ¬ v ≤ 0x7f)]
    by_cases g2 : v < 0x800
    · rw [if_pos g2, if_pos (by omega)]
      have h1 : 0xc0 + v / 64 = v / 64 % 0x20 + 0xc0 := by omega
      have h2 : 0x80 + v % 64 = v % 0x40 + 0x80 := by omega
      rw [h1, h2]
    · rw [if_neg g2, if_neg (by omega : ¬ v ≤ 0x7ff)]
      by_cases g3 : v < 0x10000
      · rw [if_pos g3, if_pos (by omega)]
        have h1 : 0xe0 + v / 4096 = v / 4096 % 0x10 + 0xe0 := by omega
        have h2 : 0x80 + v / 64 % 64 = v / 64 % 0x40 + 0x80 := by omega
        have h3 : 0x80 + v % 64 = v % 0x40 + 0x80 := by omega
        rw [h1, h2, h3]
      · rw [if_neg g3, if_neg (by omega : ¬ v ≤ 0xffff)]
        have h1 : 0xf0 + v / 262144 = v / 262144 % 0x08 + 0xf0 := by omega
        have h2 : 0x80 + v / 4096 % 64 = v / 4096 % 0x40 + 0x80 := by omega
        have h3 : 0x80 + v / 64 % 64 = v / 64 % 0x40 + 0x80 := by omega
        have h4 : 0x80 + v % 64 = v % 0x40 + 0x80 := by omega
        rw [h1, h2, h3, h4]

/-- A number that is a character. -/
theorem char_of {n : Nat} (h : n < 0xd800 ∨ 0xdfff < n ∧ n < 0x110000) : ∃ c : Char, c.toNat = n := by
  have hv : n.isValidChar := h
  refine ⟨Char.ofNat n, ?_⟩
  unfold Char.ofNat
  rw [dif_pos hv]
  rfl

theorem char_not_surrogate (c : Char) : ¬ (0xd800 ≤ c.toNat ∧ c.toNat ≤ 0xdfff) := by
  have : c.toNat = c.val.toNat := rfl
  rcases c.valid with h | h <;> omega

theorem unescape_complete {raw t : Bytes} (h : Unescaped raw t) : Doc.unescape raw = some t := by
  induction h with
  | nil => rw [Doc.unescape.eq_def]
  | plain hb _ ih =>
    rw [Doc.unescape.eq_def]
    dsimp only
    rw [if_neg hb, ih]
    rfl
  | escaped hc _ ih =>
    rw [Doc.unescape.eq_def]
    dsimp only
    rw [if_pos rfl, if_neg (escape_ne_u hc), escape_iff.mpr hc, ih]
    rfl
  | unicode c hc _ ih =>
    obtain ⟨p, q, r, s, rfl, h4⟩ := hex4_shape hc
    have hs := char_not_surrogate c
    simp only [List.cons_append, List.nil_append]
    rw [Doc.unescape.eq_def]
    dsimp only
    rw [if_pos rfl, if_pos rfl, h4]
    dsimp only
    rw [if_neg (by omega), if_neg (by omega), ih, utf8_char]
    rfl
  | pair c hh hl h1 h2 hc _ ih =>
    obtain ⟨p, q, r, s, rfl, h4⟩ := hex4_shape hh
    obtain ⟨p', q', r', s', rfl, h4'⟩ := hex4_shape hl
    simp only [List.cons_append, List.nil_append]
    rw [Doc.unescape.eq_def]
    dsimp only
    rw [if_pos rfl, if_pos rfl, h4]
    dsimp only
    rw [if_neg (by omega), if_pos (by omega), if_pos ⟨rfl, rfl⟩, h4']
    dsimp only
    rw [if_pos (by omega), ih, ← utf8_char, hc]
    simp only [Option.map_some, Option.some.injEq]
    rw [show ∀ a b : Nat, (0xd800 + a - 0xd800) * 1024 + (0xdc00 + b - 0xdc00) + 0x10000 =
      0x10000 + a * 1024 + b from fun a b => by omega]

theorem unescape_sound : ∀ (n : Nat) {raw t : Bytes}, raw.length ≤ n → Doc.unescape raw = some t →
    Unescaped raw t := by
  intro n
  induction n with
  | zero =>
    intro raw t hl h
    cases raw with
    | nil => rw [Doc.unescape.eq_def] at h; cases h; exact .nil
    | cons b s => simp at hl
  | succ n ih =>
    intro raw t hl h
    cases raw with
    | nil => rw [Doc.unescape.eq_def] at h; cases h; exact .nil
    | cons b s =>
      rw [List.length_cons] at hl
      rw [Doc.unescape.eq_def] at h
      dsimp only at h
      split at h
      · rename_i hb
        subst hb
        split at h
        · cases h
        · rename_i c s
          split at h
          · rename_i hc
            subst hc
            split at h
            · rename_i h1 h2 h3 h4 s
              split at h
              · cases h
              · rename_i m hm
                split at h
                · cases h
                · rename_i hlo
                  split at h
                  · rename_i hhi
                    split at h
                    · rename_i e u l1 l2 l3 l4 s
                      split at h
                      · rename_i heu
                        obtain ⟨rfl, rfl⟩ := heu
                        split at h
                        · cases h
                        · rename_i k hk
                          split at h
                          · rename_i hk2
                            obtain ⟨t', e1, rfl⟩ := Option.map_eq_some_iff.mp h
                            have g := ih (by simp at hl; omega) e1
                            obtain ⟨ch, hch⟩ := char_of
                              (n := (m - 0xd800) * 1024 + (k - 0xdc00) + 0x10000) (by omega)
                            have := Unescaped.pair (h := [h1, h2, h3, h4]) (l := [l1, l2, l3, l4])
                              (hi := m - 0xd800) (lo := k - 0xdc00) ch
                              (by rw [Nat.add_sub_cancel' hhi.1]; exact hex4_iff.mp hm)
                              (by rw [Nat.add_sub_cancel' hk2.1]; exact hex4_iff.mp hk)
                              (by omega) (by omega) (by rw [hch]; omega) g
                            rw [← utf8_char, hch] at this
                            exact this
                          · cases h
                      · cases h
                    · cases h
                  · rename_i hhi
                    obtain ⟨t', e1, rfl⟩ := Option.map_eq_some_iff.mp h
                    have g := ih (by simp at hl; omega) e1
                    have hlt := hex4_lt (hex4_iff.mp hm)
                    obtain ⟨ch, hch⟩ := char_of (n := m) (by omega)
                    have := Unescaped.unicode (h := [h1, h2, h3, h4]) ch
                      (by rw [hch]; exact hex4_iff.mp hm) g
                    rw [← utf8_char, hch] at this
                    exact this
            · cases h
          · split at h
            · rename_i x hx
              obtain ⟨t', e1, rfl⟩ := Option.map_eq_some_iff.mp h
              exact .escaped (escape_iff.mp hx) (ih (by simp at hl; omega) e1)
            · cases h
      · rename_i hb
        obtain ⟨t', e1, rfl⟩ := Option.map_eq_some_iff.mp h
        exact .plain hb (ih (by omega) e1)

/-! ## Numbers -/

theorem decGo_fuel : ∀ {fuel fuel' n : Nat}, n < fuel → n < fuel' → decGo fuel n = decGo fuel' n
  | 0, _, _, h, _ => by omega
  | _ + 1, 0, _, _, h => by omega
  | fuel + 1, fuel' + 1, n, h, h' => by
    rw [decGo, decGo]
    split
    · rfl
    · rw [decGo_fuel (fuel := fuel) (fuel' := fuel') (by omega) (by omega)]

theorem decDigit_of {b : UInt8} (h : Digit b) : decDigit (b.toNat - 48) = b := by
  have : ∀ b : UInt8, (decide (48 ≤ b.toNat) && decide (b.toNat ≤ 57)) = true →
      decDigit (b.toNat - 48) = b := by
    apply forall_u8; decide +kernel
  exact this b (by simp [h.1, h.2])

/-- Digits without superfluous zeros are what their value is printed as. -/
theorem dec_of_digits : ∀ (k : Nat) {l : Bytes}, l.length ≤ k → Digits l →
    (∀ b r, l = b :: r → b = 48 → r = []) → decStr (Spec.digitsValue l) = l := by
  intro k
  induction k with
  | zero =>
    intro l hk hl
    exact absurd (List.eq_nil_of_length_eq_zero (Nat.le_zero.mp hk)) hl.1
  | succ k ih =>
    intro l hk hl hz
    obtain ⟨m, b, rfl⟩ : ∃ m b, l = m ++ [b] :=
      ⟨l.dropLast, l.getLast hl.1, (List.dropLast_concat_getLast hl.1).symm⟩
    have hb : Digit b := hl.2 b (by simp)
    by_cases hm : m = []
    · subst hm
      have e : Spec.digitsValue ([] ++ [b]) = b.toNat - 48 := by simp [Spec.digitsValue]
      have := hb.2
      rw [e, decStr, decGo, if_pos (by unfold Digit at hb; omega), decDigit_of hb]
      rfl
    · obtain ⟨c, r, rfl⟩ := List.exists_cons_of_ne_nil hm
      have hc : c ≠ 48 := by
        intro hc
        have := hz c (r ++ [b]) rfl hc
        simp at this
      have e := ih (l := c :: r) (by simp at hk ⊢; omega)
        ⟨List.cons_ne_nil _ _, fun x hx => hl.2 x (List.mem_append_left _ hx)⟩
        (fun x y hx hy => by cases hx; exact absurd hy hc)
      have hpos : Spec.digitsValue (c :: r) ≠ 0 := by
        intro h0
        rw [h0] at e
        have : c = 48 := by
          have h := (List.cons.inj e).1
          rw [← h]
          decide
        exact hc this
      rw [digitsValue_append]
      generalize Spec.digitsValue (c :: r) = v at e hpos
      have hd := hb.1
      have hd2 := hb.2
      have h1 : (10 * v + (b.toNat - 48)) / 10 = v := by omega
      have h2 : (10 * v + (b.toNat - 48)) % 10 = b.toNat - 48 := by omega
      rw [decStr, decGo, if_neg (by omega), h1, h2, decDigit_of hb,
        decGo_fuel (fuel' := v + 1) (by omega) (by omega)]
      exact congrArg (· ++ [b]) e

theorem digit_iff {b : UInt8} : Doc.digit b = true ↔ Digit b := by
  unfold Doc.digit Digit
  rw [Bool.and_eq_true, decide_eq_true_eq, decide_eq_true_eq, UInt8.le_iff_toNat_le,
    UInt8.le_iff_toNat_le]
  rfl

/-- What follows does not continue a sequence of digits. -/
def NoDigit (r : Bytes) : Prop := ∀ b r', r = b :: r' → Doc.digit b = false

theorem dropWhile_noDigit (s : Bytes) : NoDigit (s.dropWhile Doc.digit) := by
  intro b r h
  have := List.head?_dropWhile_not Doc.digit s
  rw [h] at this
  simpa using this

theorem takeWhile_digits {s : Bytes} (h : s.takeWhile Doc.digit ≠ []) :
    Digits (s.takeWhile Doc.digit) :=
  ⟨h, fun b hb => digit_iff.mp (by
    have := List.all_takeWhile (p := Doc.digit) (l := s)
    rw [List.all_eq_true] at this
    exact this b hb)⟩

theorem span_digits {l r : Bytes} (hl : ∀ b ∈ l, Digit b) (hr : NoDigit r) :
    (l ++ r).takeWhile Doc.digit = l ∧ (l ++ r).dropWhile Doc.digit = r := by
  have hall : ∀ b ∈ l, Doc.digit b = true := fun b hb => digit_iff.mpr (hl b hb)
  have hrest : r.takeWhile Doc.digit = [] ∧ r.dropWhile Doc.digit = r := by
    cases r with
    | nil => exact ⟨rfl, rfl⟩
    | cons b r => simp [hr b r rfl]
  rw [List.takeWhile_append_of_pos hall, List.dropWhile_append_of_pos hall, hrest.1, hrest.2,
    List.append_nil]
  exact ⟨rfl, rfl⟩

theorem fold_digits (l : Bytes) :
    l.foldl (fun n b => n * 10 + (b.toNat - 48)) 0 = Spec.digitsValue l := by
  unfold Spec.digitsValue
  exact congrFun (congrFun (congrArg List.foldl (by funext n b; omega)) 0) l

theorem integer_iff {s r : Bytes} {n : Nat} :
    Doc.integer s = some (n, r) ↔ s = decStr n ++ r ∧ NoDigit r := by
  unfold Doc.integer
  constructor
  · intro h
    split at h
    · cases h
    · rename_i d ds hd
      split at h
      · cases h
      · rename_i hz
        cases h
        refine ⟨?_, dropWhile_noDigit s⟩
        rw [fold_digits, dec_of_digits _ (Nat.le_refl _), ← hd, List.takeWhile_append_dropWhile]
        · rw [← hd]
          exact takeWhile_digits (by rw [hd]; exact List.cons_ne_nil _ _)
        · intro b r hb hb'
          cases hb
          exact Decidable.byContradiction fun h => hz ⟨hb', h⟩
  · rintro ⟨rfl, hr⟩
    obtain ⟨h1, h2⟩ := span_digits (l := decStr n) (decStr_spec n).1 hr
    rw [h1, h2]
    cases h : decStr n with
    | nil => exact absurd h (decStr_ne n)
    | cons d ds =>
      dsimp only
      rw [if_neg (fun hc => hc.2 (decGo_head (n + 1) n (by omega) d ds h hc.1)), fold_digits, ← h,
        (decStr_spec n).2.1]

/-- A fraction, or none. -/
def Frac (l : Bytes) : Prop := l = [] ∨ ∃ ds, Digits ds ∧ l = b' '.' :: ds

/-- An exponent, or none. -/
def Expo (l : Bytes) : Prop := l = [] ∨ ∃ e s ds, (e = b' 'e' ∨ e = b' 'E') ∧
  (s = [] ∨ s = [b' '+'] ∨ s = [b' '-']) ∧ Digits ds ∧ l = e :: (s ++ ds)

/-- What follows does not continue a number. -/
def Stop (r : Bytes) : Prop := ∀ b r', r = b :: r' → Doc.digit b = false ∧ b ≠ b' '.' ∧
  b ≠ b' 'e' ∧ b ≠ b' 'E'

theorem fraction_sound {s r : Bytes} {f : Bool} (h : Doc.fraction s = some (f, r)) :
    ∃ l, Frac l ∧ s = l ++ r ∧ (f = false ↔ l = []) := by
  unfold Doc.fraction at h
  split at h
  · cases h; exact ⟨[], .inl rfl, rfl, by simp⟩
  · split at h
    · rename_i hb
      subst hb
      split at h
      · cases h
      · rename_i s hne
        cases h
        exact ⟨b' '.' :: s.takeWhile Doc.digit, .inr ⟨_, takeWhile_digits hne, rfl⟩,
          by rw [List.cons_append, List.takeWhile_append_dropWhile], by simp⟩
    · cases h; exact ⟨[], .inl rfl, rfl, by simp⟩

theorem sign_split (s : Bytes) : ∃ x, (x = [] ∨ x = [b' '+'] ∨ x = [b' '-']) ∧ s = x ++ Doc.sign s := by
  cases s with
  | nil => exact ⟨[], .inl rfl, rfl⟩
  | cons b s =>
    rw [Doc.sign]
    split
    · rename_i hb
      rcases hb with rfl | rfl
      · exact ⟨[b' '+'], .inr (.inl rfl), rfl⟩
      · exact ⟨[b' '-'], .inr (.inr rfl), rfl⟩
    · exact ⟨[], .inl rfl, rfl⟩

theorem exponent_sound {s r : Bytes} {f : Bool} (h : Doc.exponent s = some (f, r)) :
    ∃ l, Expo l ∧ s = l ++ r ∧ (f = false ↔ l = []) := by
  unfold Doc.exponent at h
  split at h
  · cases h; exact ⟨[], .inl rfl, rfl, by simp⟩
  · split at h
    · rename_i b s hb
      split at h
      · cases h
      · rename_i hne
        cases h
        obtain ⟨x, hx, e⟩ := sign_split s
        refine ⟨b :: (x ++ (Doc.sign s).takeWhile Doc.digit),
          .inr ⟨b, x, _, hb, hx, takeWhile_digits hne, rfl⟩, ?_, by simp⟩
        rw [List.cons_append, List.append_assoc, List.takeWhile_append_dropWhile, ← e]
    · cases h; exact ⟨[], .inl rfl, rfl, by simp⟩

theorem fraction_complete {l r : Bytes} (h : Frac l) (hr : NoDigit r)
    (hd : ∀ b r', r = b :: r' → b ≠ b' '.') : ∃ f, Doc.fraction (l ++ r) = some (f, r) ∧
      (f = false ↔ l = []) := by
  rcases h with rfl | ⟨ds, hds, rfl⟩
  · refine ⟨false, ?_, by simp⟩
    rw [List.nil_append]
    unfold Doc.fraction
    cases r with
    | nil => rfl
    | cons b r => dsimp only; rw [if_neg (hd b r rfl)]
  · refine ⟨true, ?_, by simp⟩
    obtain ⟨h1, h2⟩ := span_digits hds.2 hr
    rw [List.cons_append]
    unfold Doc.fraction
    dsimp only
    rw [if_pos rfl, h1, h2, if_neg hds.1]

theorem sign_put {x ds : Bytes} (hx : x = [] ∨ x = [b' '+'] ∨ x = [b' '-']) (hd : Digits ds)
    (r : Bytes) : Doc.sign (x ++ (ds ++ r)) = ds ++ r := by
  rcases hx with rfl | rfl | rfl
  · obtain ⟨b, l, rfl⟩ := List.exists_cons_of_ne_nil hd.1
    have hb := hd.2 b List.mem_cons_self
    rw [List.nil_append, List.cons_append, Doc.sign, if_neg]
    rintro (rfl | rfl) <;> exact absurd hb (by unfold Digit; decide)
  · rfl
  · rfl

theorem exponent_complete {l r : Bytes} (h : Expo l) (hr : Stop r) :
    ∃ f, Doc.exponent (l ++ r) = some (f, r) ∧ (f = false ↔ l = []) := by
  rcases h with rfl | ⟨e, x, ds, he, hx, hds, rfl⟩
  · refine ⟨false, ?_, by simp⟩
    rw [List.nil_append]
    unfold Doc.exponent
    cases r with
    | nil => rfl
    | cons b r =>
      dsimp only
      rw [if_neg (fun h => h.elim (hr b r rfl).2.2.1 (hr b r rfl).2.2.2)]
  · refine ⟨true, ?_, by simp⟩
    obtain ⟨h1, h2⟩ := span_digits (r := r) hds.2 (fun b r' h => (hr b r' h).1)
    rw [List.cons_append, List.append_assoc]
    unfold Doc.exponent
    dsimp only
    rw [if_pos he, sign_put hx hds, h1, h2, if_neg hds.1]

theorem unsigned_sound {s r : Bytes} {d : Doc} (h : Doc.unsigned s = some (d, r)) :
    ∃ t, s = t ++ r ∧ Number d t ∧ Number .other (b' '-' :: t) := by
  unfold Doc.unsigned at h
  simp only [bind, Option.bind_eq_some_iff] at h
  obtain ⟨⟨n, r1⟩, h1, ⟨f, r2⟩, h2, ⟨e, r3⟩, h3, h4⟩ := h
  obtain ⟨e1, _⟩ := integer_iff.mp h1
  obtain ⟨l, hl, e2, hf⟩ := fraction_sound h2
  obtain ⟨m, hm, e3, he⟩ := exponent_sound h3
  dsimp only at e1 e2 e3
  cases h4
  refine ⟨decStr n ++ l ++ m, by rw [e1, e2, e3]; simp, ?_, ?_⟩
  · cases f with
    | true => exact Number.other (minus := []) (.inl rfl) hl hm (by
        intro h
        have := List.append_eq_nil_iff.mp h
        have := hf.mpr (List.append_eq_nil_iff.mp this.1).2
        cases this)
    | false =>
      cases e with
      | true => exact Number.other (minus := []) (.inl rfl) hl hm (by
          intro h
          have := he.mpr (List.append_eq_nil_iff.mp h).2
          cases this)
      | false =>
        rw [hf.mp rfl, he.mp rfl, List.append_nil, List.append_nil]
        exact .nat n
  · exact Number.other (minus := [b' '-']) (.inr rfl) hl hm (by simp)

theorem unsigned_complete {l m r : Bytes} (n : Nat) (hl : Frac l) (hm : Expo m) (hr : Stop r) :
    Doc.unsigned (decStr n ++ l ++ m ++ r) =
      some (if l = [] ∧ m = [] then .nat n else .other, r) := by
  have key : ∀ {l : Bytes}, Expo l → ∀ b r', l ++ r = b :: r' → Doc.digit b = false ∧ b ≠ b' '.' := by
    intro l hl b r' h
    rcases hl with rfl | ⟨e, x, ds, he, _, _, rfl⟩
    · exact ⟨(hr b r' h).1, (hr b r' h).2.1⟩
    · cases h
      rcases he with rfl | rfl <;> decide
  have key2 : NoDigit (l ++ (m ++ r)) := by
    intro b r' h
    rcases hl with rfl | ⟨ds, _, rfl⟩
    · exact (key hm b r' h).1
    · cases h; rfl
  unfold Doc.unsigned
  rw [List.append_assoc, List.append_assoc, integer_iff.mpr ⟨rfl, key2⟩]
  obtain ⟨f, h1, h2⟩ := fraction_complete (r := m ++ r) hl (fun b r' h => (key hm b r' h).1)
    (fun b r' h => (key hm b r' h).2)
  obtain ⟨e, h3, h4⟩ := exponent_complete hm hr
  simp only [bind, Option.bind_some, h1, h3]
  have e1 : (f || e) = false ↔ l = [] ∧ m = [] := by
    rw [Bool.or_eq_false_iff, h2, h4]
  by_cases hc : l = [] ∧ m = []
  · rw [if_pos hc, e1.mpr hc]
    rfl
  · rw [if_neg hc]
    have : (f || e) = true := by
      cases h : f || e with
      | true => rfl
      | false => exact absurd (e1.mp h) hc
    rw [this]
    rfl

/-! ## Values -/

theorem stop_cons {b : UInt8} (h : Doc.digit b = false ∧ b ≠ b' '.' ∧ b ≠ b' 'e' ∧ b ≠ b' 'E')
    (r : Bytes) : Stop (b :: r) := by
  intro b' r' h'; cases h'; exact h

theorem stop_nil : Stop [] := fun _ _ h => nomatch h

theorem stop_ws {w r : Bytes} (hw : Ws w) (hr : Stop r) : Stop (w ++ r) := by
  cases w with
  | nil => exact hr
  | cons b w =>
    rcases hw b List.mem_cons_self with rfl | rfl | rfl | rfl <;> exact stop_cons (by decide) _

theorem prefix_drop {w s : Bytes} (h : w <+: s) : s = w ++ s.drop w.length := by
  obtain ⟨t, rfl⟩ := h
  simp

theorem literal_sound {w : String} {d e : Doc} {s r : Bytes} (h : Doc.literal w d s = some (e, r)) :
    e = d ∧ s = bs w ++ r := by
  unfold Doc.literal at h
  split at h
  · rename_i hp
    cases h
    exact ⟨rfl, prefix_drop hp⟩
  · cases h

theorem literal_complete (w : String) (d : Doc) (r : Bytes) :
    Doc.literal w d (bs w ++ r) = some (d, r) := by
  unfold Doc.literal
  rw [if_pos (List.prefix_append _ _), List.drop_left]

theorem scalar_sound {s r : Bytes} {d : Doc} (h : Doc.scalar s = some (d, r)) :
    ∃ t, Value d t ∧ s = t ++ r := by
  unfold Doc.scalar at h
  split at h
  · cases h
  · rename_i b s
    split at h
    · rename_i hb
      subst hb
      obtain ⟨⟨raw, r'⟩, h1, h2⟩ := Option.map_eq_some_iff.mp h
      cases h2
      obtain ⟨h3, rfl⟩ := quoted_iff.mp h1
      exact ⟨_, .string h3, by simp⟩
    · split at h
      · obtain ⟨rfl, e⟩ := literal_sound h; exact ⟨_, .null, e⟩
      · split at h
        · obtain ⟨rfl, e⟩ := literal_sound h; exact ⟨_, .true, e⟩
        · split at h
          · obtain ⟨rfl, e⟩ := literal_sound h; exact ⟨_, .false, e⟩
          · split at h
            · rename_i hb
              subst hb
              obtain ⟨⟨d', r'⟩, h1, h2⟩ := Option.map_eq_some_iff.mp h
              cases h2
              obtain ⟨t, rfl, _, h3⟩ := unsigned_sound h1
              exact ⟨_, .number h3, rfl⟩
            · obtain ⟨t, e, h3, _⟩ := unsigned_sound h
              exact ⟨t, .number h3, e⟩

/-- The first character of a number. -/
theorem number_head {d : Doc} {t : Bytes} (h : Number d t) :
    ∃ b r, t = b :: r ∧ (Digit b ∨ b = b' '-') := by
  have dec : ∀ n x, ∃ b r, decStr n ++ x = b :: r ∧ (Digit b ∨ b = b' '-') := by
    intro n x
    cases h : decStr n with
    | nil => exact absurd h (decStr_ne n)
    | cons b r =>
      exact ⟨b, r ++ x, rfl, .inl ((decStr_spec n).1 b (by rw [h]; exact List.mem_cons_self))⟩
  cases h with
  | nat n =>
    obtain ⟨b, r, h⟩ := dec n []
    rw [List.append_nil] at h
    exact ⟨b, r, h⟩
  | @other minus n frac exp h1 _ _ _ =>
    rcases h1 with rfl | rfl
    · obtain ⟨b, r, h⟩ := dec n (frac ++ exp)
      exact ⟨b, r, by rw [← h.1]; simp, h.2⟩
    · exact ⟨b' '-', _, rfl, .inr rfl⟩

theorem number_first : ∀ b : UInt8, Digit b ∨ b = b' '-' → Hard b ∧ b ≠ b' ']' ∧ b ≠ b' '[' ∧
    b ≠ b' '{' ∧ b ≠ b' '"' ∧ b ≠ b' 'n' ∧ b ≠ b' 't' ∧ b ≠ b' 'f' := by
  have : ∀ b : UInt8, (decide (0x30 ≤ b.toNat ∧ b.toNat ≤ 0x39) || b == b' '-') = true → Hard b ∧
      b ≠ b' ']' ∧ b ≠ b' '[' ∧ b ≠ b' '{' ∧ b ≠ b' '"' ∧ b ≠ b' 'n' ∧ b ≠ b' 't' ∧ b ≠ b' 'f' := by
    apply forall_u8; decide +kernel
  intro b hb
  refine this b ?_
  rcases hb with hb | rfl
  · rw [Bool.or_eq_true]; exact .inl (decide_eq_true hb)
  · rfl

theorem value_head {d : Doc} {t : Bytes} (h : Value d t) :
    ∃ b r, t = b :: r ∧ Hard b ∧ b ≠ b' ']' := by
  cases h with
  | null => exact ⟨b' 'n', _, rfl, by decide, by decide⟩
  | true => exact ⟨b' 't', _, rfl, by decide, by decide⟩
  | false => exact ⟨b' 'f', _, rfl, by decide, by decide⟩
  | number h =>
    obtain ⟨b, r, e, hb⟩ := number_head h
    have := number_first b hb
    exact ⟨b, r, e, this.1, this.2.1⟩
  | string => exact ⟨b' '"', _, rfl, by decide, by decide⟩
  | emptyArray => exact ⟨b' '[', _, rfl, by decide, by decide⟩
  | array => exact ⟨b' '[', _, rfl, by decide, by decide⟩
  | emptyObject => exact ⟨b' '{', _, rfl, by decide, by decide⟩
  | object => exact ⟨b' '{', _, rfl, by decide, by decide⟩

theorem number_complete {d : Doc} {t r : Bytes} (h : Number d t) (hr : Stop r) :
    Doc.scalar (t ++ r) = some (d, r) := by
  cases h with
  | nat n =>
    obtain ⟨b, x, e, hb⟩ := number_head (.nat n)
    have hf := (number_first b hb).2.2.2.2
    have hm : b ≠ b' '-' := by
      have := (decStr_spec n).1 b (by rw [e]; exact List.mem_cons_self)
      rintro rfl
      exact absurd this (by unfold Spec.IsDigit; decide)
    have := unsigned_complete (l := []) (m := []) n (.inl rfl) (.inl rfl) hr
    rw [List.append_nil, List.append_nil, if_pos ⟨rfl, rfl⟩] at this
    rw [e, List.cons_append] at this ⊢
    unfold Doc.scalar
    dsimp only
    rw [if_neg hf.1, if_neg hf.2.1, if_neg hf.2.2.1, if_neg hf.2.2.2, if_neg hm, this]
  | @other minus n frac exp h1 h2 h3 h4 =>
    have := unsigned_complete n h2 h3 hr
    rcases h1 with rfl | rfl
    · rw [if_neg (by rintro ⟨rfl, rfl⟩; exact h4 rfl)] at this
      rw [List.nil_append]
      obtain ⟨b, x, e⟩ := List.exists_cons_of_ne_nil (decStr_ne n)
      have hd := (decStr_spec n).1 b (by rw [e]; exact List.mem_cons_self)
      have hf := (number_first b (.inl hd)).2.2.2.2
      have hm : b ≠ b' '-' := by
        rintro rfl
        exact absurd hd (by unfold Spec.IsDigit; decide)
      rw [e] at this ⊢
      simp only [List.cons_append] at this ⊢
      unfold Doc.scalar
      dsimp only
      rw [if_neg hf.1, if_neg hf.2.1, if_neg hf.2.2.1, if_neg hf.2.2.2, if_neg hm, this]
    · have e : [b' '-'] ++ decStr n ++ frac ++ exp ++ r =
          b' '-' :: (decStr n ++ frac ++ exp ++ r) := by simp
      rw [e]
      unfold Doc.scalar
      dsimp only
      rw [if_neg (by decide), if_neg (by decide), if_neg (by decide), if_neg (by decide),
        if_pos rfl, this]
      rfl

theorem value_ws {w : Bytes} (hw : Ws w) (fuel : Nat) (s : Bytes) :
    Doc.value fuel (w ++ s) = Doc.value fuel s := by
  cases fuel with
  | zero => rw [Doc.value, Doc.value]
  | succ n => rw [Doc.value, Doc.value, skip_ws hw]

theorem scalar_value {fuel : Nat} {b : UInt8} {r : Bytes} (h : Hard b) (h1 : b ≠ b' '[')
    (h2 : b ≠ b' '{') : Doc.value (fuel + 1) (b :: r) = Doc.scalar (b :: r) := by
  rw [Doc.value, skip_hard h]
  dsimp only
  rw [if_neg h1, if_neg h2]

/-- What the reader makes of a text with this much fuel, if it is JSON. -/
theorem reader_complete (fuel : Nat) :
    (∀ {d t r}, Value d t → t.length ≤ fuel → Stop r → Doc.value fuel (t ++ r) = some (d, r)) ∧
    (∀ {l t r}, Elements l t → t.length + 1 ≤ fuel →
      Doc.elements fuel (t ++ b' ']' :: r) = some (l, r)) ∧
    (∀ {l t r}, Members l t → t.length + 1 ≤ fuel →
      Doc.members fuel (t ++ b' '}' :: r) = some (l, r)) := by
  induction fuel with
  | zero =>
    refine ⟨?_, (fun _ h => by omega), (fun _ h => by omega)⟩
    intro d t r h hl
    obtain ⟨b, x, rfl, _⟩ := value_head h
    simp at hl
  | succ fuel ih =>
    obtain ⟨ihv, ihe, ihm⟩ := ih
    refine ⟨?_, ?_, ?_⟩
    · intro d t r h hl hr
      cases h with
      | null =>
        have := literal_complete "null" .null r
        show Doc.value (fuel + 1) (b' 'n' :: (bs "ull" ++ r)) = _
        rw [scalar_value (by decide) (by decide) (by decide)]
        exact this
      | true =>
        have := literal_complete "true" (.bool true) r
        show Doc.value (fuel + 1) (b' 't' :: (bs "rue" ++ r)) = _
        rw [scalar_value (by decide) (by decide) (by decide)]
        exact this
      | false =>
        have := literal_complete "false" (.bool false) r
        show Doc.value (fuel + 1) (b' 'f' :: (bs "alse" ++ r)) = _
        rw [scalar_value (by decide) (by decide) (by decide)]
        exact this
      | number h =>
        have hc := number_complete h hr
        obtain ⟨b, x, rfl, hb⟩ := number_head h
        have hf := number_first b hb
        rw [List.cons_append] at hc ⊢
        rw [scalar_value hf.1 hf.2.2.1 hf.2.2.2.1, hc]
      | @string raw h =>
        have e : [b' '"'] ++ raw ++ [b' '"'] ++ r = b' '"' :: (raw ++ b' '"' :: r) := by simp
        rw [e, scalar_value (by decide) (by decide) (by decide)]
        unfold Doc.scalar
        dsimp only
        rw [if_pos rfl, quoted_complete h]
        rfl
      | @emptyArray w h =>
        have e : [b' '['] ++ w ++ [b' ']'] ++ r = b' '[' :: (w ++ b' ']' :: r) := by simp
        rw [e, Doc.value, skip_hard (by decide)]
        dsimp only
        rw [if_pos rfl, skip_ws h, skip_hard (by decide)]
        dsimp only
        rw [if_pos rfl]
      | @array l t h =>
        have e : [b' '['] ++ t ++ [b' ']'] ++ r = b' '[' :: (t ++ b' ']' :: r) := by simp
        have hne : ∃ c x, Doc.skip (t ++ b' ']' :: r) = c :: x ∧ c ≠ b' ']' := by
          cases h with
          | one hv h _ | cons hv h _ _ =>
            obtain ⟨c, x, rfl, h1, h2⟩ := value_head h
            simp only [List.append_assoc]
            rw [skip_ws hv, List.cons_append, skip_hard h1]
            exact ⟨c, _, rfl, h2⟩
        obtain ⟨c, x, h1, h2⟩ := hne
        rw [e, Doc.value, skip_hard (by decide)]
        dsimp only
        rw [if_pos rfl, h1]
        dsimp only
        rw [if_neg h2, ihe h (by simp at hl; omega)]
      | @emptyObject w h =>
        have e : [b' '{'] ++ w ++ [b' '}'] ++ r = b' '{' :: (w ++ b' '}' :: r) := by simp
        rw [e, Doc.value, skip_hard (by decide)]
        dsimp only
        rw [if_neg (by decide), if_pos rfl, skip_ws h, skip_hard (by decide)]
        dsimp only
        rw [if_pos rfl]
      | @object l t h =>
        have e : [b' '{'] ++ t ++ [b' '}'] ++ r = b' '{' :: (t ++ b' '}' :: r) := by simp
        have hne : ∃ x, Doc.skip (t ++ b' '}' :: r) = b' '"' :: x := by
          cases h with
          | one hu _ _ _ _ _ | cons hu _ _ _ _ _ _ =>
            simp only [List.append_assoc]
            rw [skip_ws hu, List.singleton_append, skip_hard (by decide)]
            exact ⟨_, rfl⟩
        obtain ⟨x, h1⟩ := hne
        rw [e, Doc.value, skip_hard (by decide)]
        dsimp only
        rw [if_neg (by decide), if_pos rfl, h1]
        dsimp only
        rw [if_neg (by decide), ihm h (by simp at hl; omega)]
    · intro l t r h hl
      cases h with
      | @one d v t w hv h hw =>
        have e : v ++ t ++ w ++ b' ']' :: r = v ++ (t ++ (w ++ b' ']' :: r)) := by simp
        rw [e, Doc.elements, value_ws hv, ihv h (by simp at hl; omega)
          (stop_ws hw (stop_cons (by decide) _))]
        dsimp only
        rw [skip_ws hw, skip_hard (by decide)]
        dsimp only
        rw [if_pos rfl]
      | @cons d v t w l t' hv h hw h' =>
        have e : v ++ t ++ w ++ [b' ','] ++ t' ++ b' ']' :: r =
          v ++ (t ++ (w ++ b' ',' :: (t' ++ b' ']' :: r))) := by simp
        rw [e, Doc.elements, value_ws hv, ihv h (by simp at hl; omega)
          (stop_ws hw (stop_cons (by decide) _))]
        dsimp only
        rw [skip_ws hw, skip_hard (by decide)]
        dsimp only
        rw [if_neg (by decide), if_pos rfl, ihe h' (by simp at hl; omega)]
    · intro l t r h hl
      cases h with
      | @one k d u v x t w hu hk hv hx h hw =>
        have e : u ++ [b' '"'] ++ k ++ [b' '"'] ++ v ++ [b' ':'] ++ x ++ t ++ w ++ b' '}' :: r =
          u ++ b' '"' :: (k ++ b' '"' :: (v ++ b' ':' :: (x ++ (t ++ (w ++ b' '}' :: r))))) := by
          simp
        rw [e, Doc.members, skip_ws hu, skip_hard (by decide)]
        dsimp only
        rw [if_pos rfl, quoted_complete hk]
        dsimp only
        rw [skip_ws hv, skip_hard (by decide)]
        dsimp only
        rw [if_pos rfl, value_ws hx, ihv h (by simp at hl; omega)
          (stop_ws hw (stop_cons (by decide) _))]
        dsimp only
        rw [skip_ws hw, skip_hard (by decide)]
        dsimp only
        rw [if_pos rfl]
      | @cons k d u v x t w l t' hu hk hv hx h hw h' =>
        have e : u ++ [b' '"'] ++ k ++ [b' '"'] ++ v ++ [b' ':'] ++ x ++ t ++ w ++ [b' ','] ++ t' ++
          b' '}' :: r = u ++ b' '"' :: (k ++ b' '"' :: (v ++ b' ':' :: (x ++ (t ++ (w ++ b' ',' ::
            (t' ++ b' '}' :: r)))))) := by
          simp
        rw [e, Doc.members, skip_ws hu, skip_hard (by decide)]
        dsimp only
        rw [if_pos rfl, quoted_complete hk]
        dsimp only
        rw [skip_ws hv, skip_hard (by decide)]
        dsimp only
        rw [if_pos rfl, value_ws hx, ihv h (by simp at hl; omega)
          (stop_ws hw (stop_cons (by decide) _))]
        dsimp only
        rw [skip_ws hw, skip_hard (by decide)]
        dsimp only
        rw [if_neg (by decide), if_pos rfl, ihm h' (by simp at hl; omega)]

theorem skip_eq {s r : Bytes} {b : UInt8} (h : Doc.skip s = b :: r) : ∃ w, Ws w ∧ s = w ++ b :: r := by
  obtain ⟨w, h1, h2⟩ := skip_split s
  rw [h] at h2
  exact ⟨w, h1, h2⟩

/-- What the reader accepts is JSON. -/
theorem reader_sound (fuel : Nat) :
    (∀ {d s r}, Doc.value fuel s = some (d, r) → ∃ v t, Ws v ∧ Value d t ∧ s = v ++ t ++ r) ∧
    (∀ {l s r}, Doc.elements fuel s = some (l, r) → ∃ t, Elements l t ∧ s = t ++ b' ']' :: r) ∧
    (∀ {l s r}, Doc.members fuel s = some (l, r) → ∃ t, Members l t ∧ s = t ++ b' '}' :: r) := by
  induction fuel with
  | zero =>
    refine ⟨?_, ?_, ?_⟩
    · intro d s r h; rw [Doc.value] at h; cases h
    · intro d s r h; rw [Doc.elements] at h; cases h
    · intro d s r h; rw [Doc.members] at h; cases h
  | succ fuel ih =>
    obtain ⟨ihv, ihe, ihm⟩ := ih
    refine ⟨?_, ?_, ?_⟩
    · intro d s r h
      rw [Doc.value] at h
      split at h
      · cases h
      · rename_i b x hs
        obtain ⟨v, hv, rfl⟩ := skip_eq hs
        split at h
        · rename_i hb
          subst hb
          split at h
          · cases h
          · rename_i c y hy
            obtain ⟨w, hw, rfl⟩ := skip_eq hy
            split at h
            · rename_i hc
              subst hc
              cases h
              exact ⟨v, _, hv, .emptyArray hw, by simp⟩
            · split at h
              · rename_i l z hl
                cases h
                obtain ⟨t, h1, h2⟩ := ihe hl
                rw [h2]
                exact ⟨v, _, hv, .array h1, by simp⟩
              · cases h
        · split at h
          · rename_i hb
            subst hb
            split at h
            · cases h
            · rename_i c y hy
              obtain ⟨w, hw, rfl⟩ := skip_eq hy
              split at h
              · rename_i hc
                subst hc
                cases h
                exact ⟨v, _, hv, .emptyObject hw, by simp⟩
              · split at h
                · rename_i l z hl
                  cases h
                  obtain ⟨t, h1, h2⟩ := ihm hl
                  rw [h2]
                  exact ⟨v, _, hv, .object h1, by simp⟩
                · cases h
          · obtain ⟨t, h1, h2⟩ := scalar_sound h
            exact ⟨v, t, hv, h1, by rw [h2, List.append_assoc]⟩
    · intro l s r h
      rw [Doc.elements] at h
      split at h
      · cases h
      · rename_i d x hd
        obtain ⟨v, t, hv, ht, rfl⟩ := ihv hd
        split at h
        · cases h
        · rename_i b y hy
          obtain ⟨w, hw, rfl⟩ := skip_eq hy
          split at h
          · rename_i hb
            subst hb
            cases h
            exact ⟨_, .one hv ht hw, by simp⟩
          · split at h
            · rename_i hb
              subst hb
              split at h
              · rename_i l' z hl
                cases h
                obtain ⟨t', h1, rfl⟩ := ihe hl
                exact ⟨_, .cons hv ht hw h1, by simp⟩
              · cases h
            · cases h
    · intro l s r h
      rw [Doc.members] at h
      split at h
      · cases h
      · rename_i q x hq
        obtain ⟨u, hu, rfl⟩ := skip_eq hq
        split at h
        · rename_i hb
          subst hb
          split at h
          · cases h
          · rename_i k y hk
            obtain ⟨hchars, rfl⟩ := quoted_iff.mp hk
            split at h
            · cases h
            · rename_i c z hz
              obtain ⟨v, hv, rfl⟩ := skip_eq hz
              split at h
              · rename_i hc
                subst hc
                split at h
                · cases h
                · rename_i d a hd
                  obtain ⟨x, t, hx, ht, rfl⟩ := ihv hd
                  split at h
                  · cases h
                  · rename_i b y hy
                    obtain ⟨w, hw, rfl⟩ := skip_eq hy
                    split at h
                    · rename_i hb
                      subst hb
                      cases h
                      exact ⟨_, .one hu hchars hv hx ht hw, by simp⟩
                    · split at h
                      · rename_i hb
                        subst hb
                        split at h
                        · rename_i l' z hl
                          cases h
                          obtain ⟨t', h1, rfl⟩ := ihm hl
                          exact ⟨_, .cons hu hchars hv hx ht hw h1, by simp⟩
                        · cases h
                      · cases h
              · cases h
        · cases h

/-- The reader accepts JSON and nothing else, and reads what is written. -/
theorem docParse_iff {s : Bytes} {d : Doc} : Doc.parse s = some d ↔ Text d s := by
  unfold Doc.parse
  constructor
  · intro h
    split at h
    · rename_i x r hx
      split at h
      · rename_i hr
        cases h
        obtain ⟨v, t, h1, h2, h3⟩ := (reader_sound _).1 hx
        obtain ⟨w, h4, h5⟩ := skip_split r
        rw [hr, List.append_nil] at h5
        subst h5
        exact ⟨v, t, r, h1, h2, h4, h3⟩
      · cases h
    · cases h
  · rintro ⟨v, t, w, hv, ht, hw, rfl⟩
    rw [List.append_assoc, value_ws hv, (reader_complete _).1 ht (by simp; omega)
      (by have := stop_ws hw stop_nil; rwa [List.append_nil] at this)]
    dsimp only
    rw [if_pos (skip_all hw)]

end Elk
