import Verif.Spec.JsonText
import Verif.Lemmas.MqttRun
/-!
# Lemmas: printed JSON reads back
-/

namespace Elk
open Elk.Spec

theorem skipWs_spaces (n : Nat) (s : Bytes) : skipWs (List.replicate n (b' ' ') ++ s) = skipWs s := by
  induction n with
  | zero => rfl
  | succ n ih => rw [List.replicate_succ, List.cons_append, skipWs, if_pos (by decide), ih]

theorem skipWs_newline (d : Nat) (s : Bytes) : skipWs (newline d ++ s) = skipWs s := by
  rw [newline, List.cons_append, skipWs, if_pos (by decide), skipWs_spaces]

/-- Not white space. -/
def Solid (b : UInt8) : Prop := ¬ (b = 0x20 ∨ b = 0x09 ∨ b = 0x0a ∨ b = 0x0d)

instance (b : UInt8) : Decidable (Solid b) := by unfold Solid; infer_instance

theorem skipWs_solid {b : UInt8} (h : Solid b) (s : Bytes) : skipWs (b :: s) = b :: s := by
  rw [skipWs, if_neg h]

theorem readValue_ws {s s' : Bytes} (h : skipWs s = skipWs s') (n : Nat) :
    readValue n s = readValue n s' := by
  cases n with
  | zero => rw [readValue, readValue]
  | succ n => rw [readValue, readValue, h]

theorem readField_ws {s s' : Bytes} (h : skipWs s = skipWs s') (n : Nat) :
    readField n s = readField n s' := by
  cases n with
  | zero => rw [readField, readField]
  | succ n => rw [readField, readField, h]

/-! ## Strings -/

/-- What `jsonEscape` writes is read as the byte. -/
def escapeOk (b : UInt8) : Bool :=
  match jsonEscape b with
  | [x] => x == b && b != b' '"' && !(b.toNat < 0x20) && b != b' '\\'
  | [x, c] => x == b' '\\' && c != b' 'u' && shortEscape c == some b
  | [x, u, z0, z1, h, l] => x == b' '\\' && u == b' 'u' && z0 == b' '0' && z1 == b' '0' &&
      (match hexValue h, hexValue l with
       | some h, some l => h < 8 && UInt8.ofNat (16 * h + l) == b
       | _, _ => false)
  | _ => false

theorem escapeOk_all : ∀ b : UInt8, escapeOk b = true := by
  apply forall_u8; decide +kernel

theorem readString_escape (b : UInt8) (s : Bytes) :
    readString (jsonEscape b ++ s) = andThen b (readString s) := by
  have h := escapeOk_all b
  unfold escapeOk at h
  split at h
  · rename_i x hx
    simp only [Bool.and_eq_true, beq_iff_eq, bne_iff_ne, ne_eq, Bool.not_eq_true',
      decide_eq_false_iff_not] at h
    obtain ⟨⟨⟨rfl, h1⟩, h2⟩, h3⟩ := h
    rw [hx, List.singleton_append, readString.eq_def]
    simp only [if_neg h1, if_neg h2, if_neg h3]
  · rename_i x c hx
    simp only [Bool.and_eq_true, beq_iff_eq, bne_iff_ne, ne_eq] at h
    obtain ⟨⟨rfl, h1⟩, h2⟩ := h
    rw [hx, List.cons_append, List.singleton_append, readString.eq_def]
    dsimp only
    rw [if_neg (by decide), if_neg (by decide), if_pos rfl, if_neg h1, h2]
  · rename_i x u z0 z1 p l hx
    simp only [Bool.and_eq_true, beq_iff_eq] at h
    obtain ⟨⟨⟨⟨rfl, rfl⟩, rfl⟩, rfl⟩, h⟩ := h
    split at h
    · rename_i p' l' hp hl
      simp only [Bool.and_eq_true, decide_eq_true_eq, beq_iff_eq] at h
      rw [hx]
      simp only [List.cons_append, List.nil_append]
      rw [readString.eq_def]
      dsimp only
      rw [if_neg (by decide), if_neg (by decide), if_pos rfl, if_pos rfl, if_pos ⟨rfl, rfl⟩, hp, hl]
      dsimp only
      rw [if_pos h.1, h.2]
    · cases h
  · cases h

theorem readString_json (s rest : Bytes) :
    readString (s.flatMap jsonEscape ++ ([b' '"'] ++ rest)) = some (s, rest) := by
  induction s with
  | nil => rw [List.flatMap_nil, List.nil_append, List.singleton_append, readString.eq_def]; rfl
  | cons b s ih =>
    rw [List.flatMap_cons, List.append_assoc, readString_escape, ih]; rfl

/-! ## Numbers -/

theorem isDec_of_digit {b : UInt8} (h : IsDigit b) : isDec b = true := by
  unfold IsDigit at h; unfold isDec; simp; exact h

theorem decGo_head (fuel n : Nat) (h : n < fuel) (b : UInt8) (l : Bytes)
    (hg : decGo fuel n = b :: l) : b = 48 → l = [] := by
  induction fuel generalizing n l with
  | zero => omega
  | succ fuel ih =>
    unfold decGo at hg
    split at hg
    · cases hg; intro _; rfl
    · rename_i hn
      have h10 : n / 10 < fuel := by omega
      cases hd : decGo fuel (n / 10) with
      | nil =>
        exfalso
        cases fuel with
        | zero => omega
        | succ f => 
          unfold decGo at hd
          split at hd
          · cases hd
          · simp at hd
      | cons c l' =>
        rw [hd] at hg
        cases hg
        intro hb
        have hl := ih (n / 10) h10 l' hd hb
        subst hl hb
        exfalso
        have hv := (decGo_spec fuel (n / 10) h10).2.1
        rw [hd] at hv
        simp [digitsValue] at hv
        omega

theorem decStr_ne (n : Nat) : decStr n ≠ [] := by
  unfold decStr decGo
  split <;> simp

theorem readNumber_dec (n : Nat) (rest : Bytes) (hr : ∀ b r, rest = b :: r → isDec b = false) :
    readNumber (decStr n ++ rest) = some (n, rest) := by
  have hs := decStr_spec n
  have hall : ∀ b ∈ decStr n, isDec b = true := fun b hb => isDec_of_digit (hs.1 b hb)
  have hrest : rest.takeWhile isDec = [] ∧ rest.dropWhile isDec = rest := by
    cases rest with
    | nil => exact ⟨rfl, rfl⟩
    | cons b r => simp [hr b r rfl]
  unfold readNumber
  rw [List.takeWhile_append_of_pos hall, List.dropWhile_append_of_pos hall, hrest.1, hrest.2,
    List.append_nil]
  cases h : decStr n with
  | nil => exact absurd h (decStr_ne n)
  | cons d ds =>
    dsimp only
    rw [if_neg (fun hc => hc.2 (decGo_head (n + 1) n (by omega) d ds h hc.1)), ← h]
    exact congrArg some (Prod.ext hs.2.1 rfl)

/-! ## Values -/

theorem digit_solid {b : UInt8} (h : IsDigit b) : Solid b ∧ b ≠ b' ']' ∧ b ≠ b' '"' ∧ b ≠ b' '[' ∧
    b ≠ b' '{' := by
  have : ∀ b : UInt8, isDec b = true → Solid b ∧ b ≠ b' ']' ∧ b ≠ b' '"' ∧ b ≠ b' '[' ∧
    b ≠ b' '{' := by
    apply forall_u8; decide +kernel
  exact this b (isDec_of_digit h)

theorem pretty_head (d : Nat) (j : Json) :
    ∃ b r, j.pretty d = b :: r ∧ Solid b ∧ b ≠ b' ']' := by
  have hs : ∀ s, ∃ b r, jsonString s = b :: r ∧ Solid b ∧ b ≠ b' ']' :=
    fun s => ⟨b' '"', _, rfl, by decide, by decide⟩
  match j with
  | .null => exact ⟨b' 'n', bs "ull", by rw [Json.pretty]; rfl, by decide, by decide⟩
  | .bool true => exact ⟨b' 't', bs "rue", by rw [Json.pretty]; rfl, by decide, by decide⟩
  | .bool false => exact ⟨b' 'f', bs "alse", by rw [Json.pretty]; rfl, by decide, by decide⟩
  | .num n =>
    rw [Json.pretty]
    cases h : decStr n with
    | nil => exact absurd h (decStr_ne n)
    | cons b r =>
      have := digit_solid ((decStr_spec n).1 b (by rw [h]; exact List.mem_cons_self))
      exact ⟨b, r, rfl, this.1, this.2.1⟩
  | .str s => rw [Json.pretty]; exact hs s
  | .arr [] => exact ⟨b' '[', bs "]", by rw [Json.pretty]; rfl, by decide, by decide⟩
  | .arr (x :: l) => rw [Json.pretty]; exact ⟨b' '[', _, rfl, by decide, by decide⟩
  | .obj [] => exact ⟨b' '{', bs "}", by rw [Json.pretty]; rfl, by decide, by decide⟩
  | .obj ((k, x) :: l) => rw [Json.pretty]; exact ⟨b' '{', _, rfl, by decide, by decide⟩

theorem pretty_pos (d : Nat) (j : Json) : 0 < (j.pretty d).length := by
  obtain ⟨b, r, h, _⟩ := pretty_head d j
  rw [h]; simp

theorem readValue_string (n : Nat) (s rest : Bytes) :
    readValue (n + 1) (jsonString s ++ rest) = some (.str s, rest) := by
  unfold jsonString
  rw [List.append_assoc, List.append_assoc, List.singleton_append, readValue,
    skipWs_solid (by decide)]
  dsimp only
  rw [if_pos rfl, readString_json]

/-- What follows a value: nothing that continues a number. -/
def Ends (rest : Bytes) : Prop := ∀ b r, rest = b :: r → isDec b = false

theorem ends_cons {b : UInt8} (h : isDec b = false) (r : Bytes) : Ends (b :: r) := by
  intro b' r' h'; cases h'; exact h

theorem ends_newline (d : Nat) (r : Bytes) : Ends (newline d ++ r) := ends_cons (by decide) _

theorem ends_elems (d d' : Nat) (l : List Json) (r : Bytes) :
    Ends (Json.prettyElems d l ++ (newline d' ++ r)) := by
  cases l with
  | nil => rw [Json.prettyElems, List.nil_append]; exact ends_newline _ _
  | cons x l => rw [Json.prettyElems]; exact ends_cons (by decide) _

theorem ends_fields (d d' : Nat) (l : List (Bytes × Json)) (r : Bytes) :
    Ends (Json.prettyFields d l ++ (newline d' ++ r)) := by
  cases l with
  | nil => rw [Json.prettyFields, List.nil_append]; exact ends_newline _ _
  | cons x l => rw [Json.prettyFields]; exact ends_cons (by decide) _

theorem readField_of {n : Nat} {k : Bytes} {p : Bytes} {x : Json} {rest : Bytes}
    (h : readValue n (p ++ rest) = some (x, rest)) :
    readField (n + 1) (jsonString k ++ (bs ": " ++ (p ++ rest))) = some ((k, x), rest) := by
  unfold jsonString
  rw [List.append_assoc, List.append_assoc, List.singleton_append, readField,
    skipWs_solid (by decide)]
  dsimp only
  rw [if_pos rfl, readString_json]
  dsimp only
  have : bs ": " ++ (p ++ rest) = b' ':' :: (b' ' ' :: (p ++ rest)) := rfl
  rw [this, skipWs_solid (by decide)]
  dsimp only
  rw [if_pos rfl, readValue_ws (s' := p ++ rest) (by rw [skipWs, if_pos (by decide)]), h]

theorem word_self (w : String) (rest : Bytes) : word w (bs w ++ rest) = some rest := by
  unfold word
  rw [if_pos (List.prefix_append _ _), List.drop_left]

theorem word_other {w v : String} {rest : Bytes} (h : (bs w).head? ≠ (bs v).head? ∧ bs w ≠ [] ∧ bs v ≠ []) :
    word w (bs v ++ rest) = none := by
  unfold word
  rw [if_neg]
  rintro ⟨r, hr⟩
  cases hw : bs w with
  | nil => exact h.2.1 hw
  | cons a l =>
    cases hv : bs v with
    | nil => exact h.2.2 hv
    | cons c m =>
      rw [hw, hv] at hr h
      simp at hr h
      exact h hr.1

/-- The first byte of a value that is a word. -/
def Wordy (s : Bytes) : Prop :=
  match s with
  | b :: _ => Solid b ∧ b ≠ b' '"' ∧ b ≠ b' '[' ∧ b ≠ b' '{' ∧ isDec b = false
  | [] => False

instance (s : Bytes) : Decidable (Wordy s) := by unfold Wordy; cases s <;> infer_instance

theorem readValue_word {s : Bytes} (h : Wordy s) (n : Nat) (rest : Bytes) :
    readValue (n + 1) (s ++ rest) =
      match word "null" (s ++ rest), word "true" (s ++ rest), word "false" (s ++ rest) with
        | some r, _, _ => some (.null, r)
        | _, some r, _ => some (.bool true, r)
        | _, _, some r => some (.bool false, r)
        | _, _, _ => none := by
  cases s with
  | nil => exact absurd h (by simp [Wordy])
  | cons b s =>
    obtain ⟨h1, h2, h3, h4, h5⟩ := h
    rw [readValue, List.cons_append, skipWs_solid h1]
    dsimp only
    rw [if_neg h2, if_neg h3, if_neg h4, if_neg (by rw [h5]; decide)]
    rfl

mutual
theorem read_pretty (d : Nat) : ∀ (j : Json) (n : Nat) (rest : Bytes),
    (j.pretty d).length ≤ n → Ends rest →
    readValue n (j.pretty d ++ rest) = some (j, rest)
  | j, 0, rest, hn, _ => absurd (pretty_pos d j) (by omega)
  | .null, n + 1, rest, _, _ => by
    rw [Json.pretty, readValue_word (by decide) n rest, word_self]
  | .bool true, n + 1, rest, _, _ => by
    rw [Json.pretty, readValue_word (by decide) n rest, word_self,
      word_other (by decide)]
  | .bool false, n + 1, rest, _, _ => by
    rw [Json.pretty, readValue_word (by decide) n rest, word_self,
      word_other (by decide), word_other (by decide)]
  | .num k, n + 1, rest, _, hr => by
    rw [Json.pretty, readValue]
    cases h : decStr k with
    | nil => exact absurd h (decStr_ne k)
    | cons b r =>
      have hd := (decStr_spec k).1 b (by rw [h]; exact List.mem_cons_self)
      obtain ⟨h1, _, h2, h3, h4⟩ := digit_solid hd
      rw [List.cons_append, skipWs_solid h1]
      dsimp only
      rw [if_neg h2, if_neg h3, if_neg h4, if_pos (isDec_of_digit hd), ← List.cons_append, ← h,
        readNumber_dec k rest hr]
  | .str s, n + 1, rest, _, _ => by
    rw [Json.pretty]; exact readValue_string n _ rest
  | .arr [], n + 1, rest, _, _ => by
    rw [Json.pretty, readValue]
    have : bs "[]" ++ rest = b' '[' :: (b' ']' :: rest) := rfl
    rw [this, skipWs_solid (by decide)]
    dsimp only
    rw [if_neg (by decide), if_pos rfl, skipWs_solid (by decide)]
    rfl
  | .arr (x :: l), n + 1, rest, hn, _ => by
    rw [Json.pretty] at hn
    rw [Json.pretty, readValue]
    simp only [List.length_append, List.length_singleton] at hn
    simp only [List.append_assoc, List.cons_append, List.nil_append]
    rw [skipWs_solid (by decide)]
    dsimp only
    rw [if_neg (by decide), if_pos rfl, skipWs_newline]
    obtain ⟨b, r, hb, hb1, hb2⟩ := pretty_head (d + 1) x
    rw [hb, List.cons_append, skipWs_solid hb1]
    dsimp only
    rw [if_neg hb2, ← List.cons_append, ← hb, readValue_ws (skipWs_newline _ _),
      read_pretty (d + 1) x n _ (by omega) (ends_elems _ _ _ _)]
    dsimp only
    rw [read_elems (d + 1) d l n rest (by simp [newline] at hn; omega)]
  | .obj [], n + 1, rest, _, _ => by
    rw [Json.pretty, readValue]
    have : bs "{}" ++ rest = b' '{' :: (b' '}' :: rest) := rfl
    rw [this, skipWs_solid (by decide)]
    dsimp only
    rw [if_neg (by decide), if_neg (by decide), if_pos rfl, skipWs_solid (by decide)]
    rfl
  | .obj ((k, x) :: l), n + 1, rest, hn, _ => by
    rw [Json.pretty] at hn
    rw [Json.pretty, readValue]
    simp only [List.length_append, List.length_singleton] at hn
    simp only [List.append_assoc, List.cons_append, List.nil_append]
    rw [skipWs_solid (by decide)]
    dsimp only
    rw [if_neg (by decide), if_neg (by decide), if_pos rfl, skipWs_newline]
    have hk : ∀ s, jsonString k ++ s = b' '"' :: ((k.flatMap jsonEscape ++ [b' '"']) ++ s) := fun _ => by
      simp [jsonString]
    rw [hk, skipWs_solid (by decide)]
    dsimp only
    rw [if_neg (by decide), ← hk, readField_ws (skipWs_newline _ _)]
    match n, hn with
    | 0, hn => exact absurd hn (by simp [newline])
    | n + 1, hn =>
    rw [readField_of (read_pretty (d + 1) x n _ (by simp [newline] at hn; omega) (ends_fields _ _ _ _))]
    dsimp only
    rw [read_fields (d + 1) d l (n + 1) rest (by simp [newline] at hn; omega)]
theorem read_elems (d d' : Nat) : ∀ (l : List Json) (n : Nat) (rest : Bytes),
    (Json.prettyElems d l).length < n →
    readElems n (Json.prettyElems d l ++ (newline d' ++ (b' ']' :: rest))) = some (l, rest)
  | l, 0, rest, hn => absurd hn (by omega)
  | [], n + 1, rest, _ => by
    rw [Json.prettyElems, readElems, List.nil_append, skipWs_newline,
      skipWs_solid (by decide)]
    rfl
  | x :: l, n + 1, rest, hn => by
    rw [Json.prettyElems] at hn
    rw [Json.prettyElems, readElems]
    simp only [List.length_append, List.length_singleton] at hn
    simp only [List.append_assoc, List.cons_append, List.nil_append]
    rw [skipWs_solid (by decide)]
    dsimp only
    rw [if_neg (by decide), if_pos rfl, readValue_ws (skipWs_newline _ _),
      read_pretty d x n _ (by omega) (ends_elems _ _ _ _)]
    dsimp only
    rw [read_elems d d' l n rest (by omega)]
theorem read_fields (d d' : Nat) : ∀ (l : List (Bytes × Json)) (n : Nat) (rest : Bytes),
    (Json.prettyFields d l).length < n →
    readFields n (Json.prettyFields d l ++ (newline d' ++ (b' '}' :: rest))) =
      some (l, rest)
  | l, 0, rest, hn => absurd hn (by omega)
  | [], n + 1, rest, _ => by
    rw [Json.prettyFields, readFields, List.nil_append, skipWs_newline,
      skipWs_solid (by decide)]
    rfl
  | (k, x) :: l, n + 1, rest, hn => by
    rw [Json.prettyFields] at hn
    rw [Json.prettyFields, readFields]
    simp only [List.length_append, List.length_singleton] at hn
    simp only [List.append_assoc, List.cons_append, List.nil_append]
    rw [skipWs_solid (by decide)]
    dsimp only
    rw [if_neg (by decide), if_pos rfl, readField_ws (skipWs_newline _ _)]
    match n, hn with
    | 0, hn => omega
    | n + 1, hn =>
    rw [readField_of (read_pretty d x n _ (by simp [newline] at hn; omega) (ends_fields _ _ _ _))]
    dsimp only
    rw [read_fields d d' l (n + 1) rest (by simp [newline] at hn; omega)]
end

end Elk
