import Verif.Model.Debug
import Verif.Lemmas.JsonText
/-!
# Lemmas: what `{:?}` shows determines what is shown
-/

namespace Elk
open Elk.Spec

/-! ## Words -/

/-- A letter, a digit or an underscore. -/
def Lettery (b : UInt8) : Prop :=
  (48 ≤ b ∧ b ≤ 57) ∨ (65 ≤ b ∧ b ≤ 90) ∨ (97 ≤ b ∧ b ≤ 122) ∨ b = 95

instance (b : UInt8) : Decidable (Lettery b) := by unfold Lettery; infer_instance

/-- Does not go on with a word. -/
def Parted : Bytes → Prop
  | [] => True
  | c :: _ => ¬ Lettery c

theorem word_cancel : ∀ {w v r s : Bytes}, (∀ b ∈ w, Lettery b) → (∀ b ∈ v, Lettery b) →
    Parted r → Parted s → w ++ r = v ++ s → w = v ∧ r = s
  | [], [], _, _, _, _, _, _, h => ⟨rfl, h⟩
  | [], c :: v, r, s, _, hv, hr, _, h => by
    have h : r = c :: (v ++ s) := h
    subst h
    exact absurd (hv c List.mem_cons_self) hr
  | c :: w, [], r, s, hw, _, _, hs, h => by
    have h : c :: (w ++ r) = s := h
    subst h
    exact absurd (hw c List.mem_cons_self) hs
  | c :: w, d :: v, r, s, hw, hv, hr, hs, h => by
    have h : c :: (w ++ r) = d :: (v ++ s) := h
    injection h with h1 h2
    obtain ⟨h3, h4⟩ := word_cancel (fun b hb => hw b (List.mem_cons_of_mem _ hb))
      (fun b hb => hv b (List.mem_cons_of_mem _ hb)) hr hs h2
    exact ⟨by rw [h1, h3], h4⟩

/-- The text starts with something that is in no word. -/
def startsApart : Bytes → Bool
  | [] => false
  | c :: _ => !decide (Lettery c)

theorem apart_bs {x : Bytes} (t : String) (h : startsApart (bs t) = true) : Parted (bs t ++ x) := by
  cases hb : bs t with
  | nil => rw [hb] at h; cases h
  | cons c l =>
    rw [hb] at h
    exact of_decide_eq_false (by simpa [startsApart] using h)

theorem decStr_wordy (n : Nat) : ∀ b ∈ decStr n, Lettery b := by
  intro b hb
  have h := (decStr_spec n).1 b hb
  unfold IsDigit at h
  left
  exact ⟨UInt8.le_iff_toNat_le.mpr h.1, UInt8.le_iff_toNat_le.mpr h.2⟩

theorem decStr_cancel {m n : Nat} {r s : Bytes} (hr : Parted r) (hs : Parted s)
    (h : decStr m ++ r = decStr n ++ s) : m = n ∧ r = s := by
  obtain ⟨h1, h2⟩ := word_cancel (decStr_wordy m) (decStr_wordy n) hr hs h
  exact ⟨decStr_inj h1, h2⟩

/-! ## Strings -/

/-- No code of a byte starts that of another, and none starts with a quotation mark. -/
theorem debugByte_codes : ∀ a : UInt8, (debugByte a).head? ≠ some (b' '"') ∧ debugByte a ≠ [] := by
  apply forall_u8; decide +kernel

/-- The bytes that are shown as an escape sequence. -/
def escapes : List UInt8 := (List.range 32 ++ [34, 92, 127]).map UInt8.ofNat

theorem debugByte_plain : ∀ a : UInt8, debugByte a = [a] ∧ a ≠ b' '\\' ∨
    a ∈ escapes ∧ (debugByte a).head? = some (b' '\\') := by
  apply forall_u8; decide +kernel

theorem escapes_prefix : ∀ a ∈ escapes, ∀ b ∈ escapes,
    (debugByte a).isPrefixOf (debugByte b) = true → a = b := by
  decide +kernel

theorem debugByte_prefix (a b : UInt8) (h : (debugByte a).isPrefixOf (debugByte b) = true) :
    a = b := by
  have head : (debugByte b).head? = (debugByte a).head? := by
    obtain ⟨t, ht⟩ := List.isPrefixOf_iff_prefix.mp h
    rw [← ht, List.head?_append]
    cases hd : debugByte a with
    | nil => exact absurd hd (debugByte_codes a).2
    | cons c l => rfl
  rcases debugByte_plain a with ⟨ha, ha'⟩ | ⟨ha, ha'⟩ <;>
    rcases debugByte_plain b with ⟨hb, hb'⟩ | ⟨hb, hb'⟩
  · rw [ha, hb] at head
    exact (Option.some.inj head).symm
  · rw [ha, hb'] at head
    exact absurd (Option.some.inj head).symm ha'
  · rw [ha', hb] at head
    exact absurd (Option.some.inj head) hb'
  · exact escapes_prefix a ha b hb h

theorem debugByte_cancel {a b : UInt8} {x y : Bytes} (h : debugByte a ++ x = debugByte b ++ y) :
    a = b ∧ x = y := by
  have : a = b := by
    rcases Nat.le_total (debugByte a).length (debugByte b).length with hl | hl
    · exact debugByte_prefix a b (List.isPrefixOf_iff_prefix.mpr
        (List.prefix_of_prefix_length_le ⟨x, h⟩ (List.prefix_append _ y) hl))
    · exact (debugByte_prefix b a (List.isPrefixOf_iff_prefix.mpr
        (List.prefix_of_prefix_length_le ⟨y, h.symm⟩ (List.prefix_append _ x) hl))).symm
  subst this
  exact ⟨rfl, List.append_cancel_left h⟩

theorem quote_not_byte {a : UInt8} {x y : Bytes} (h : b' '"' :: x = debugByte a ++ y) : False := by
  obtain ⟨h1, h2⟩ := debugByte_codes a
  cases hd : debugByte a with
  | nil => exact h2 hd
  | cons c l =>
    rw [hd] at h h1
    injection h with h3 _
    exact h1 (by rw [h3]; rfl)

theorem escaped_cancel : ∀ {s t : Bytes} {x y : Bytes},
    s.flatMap debugByte ++ (b' '"' :: x) = t.flatMap debugByte ++ (b' '"' :: y) → s = t ∧ x = y
  | [], [], _, _, h => by
    injection h with _ h
    exact ⟨rfl, h⟩
  | [], b :: t, _, _, h => by
    rw [List.flatMap_nil, List.nil_append, List.flatMap_cons, List.append_assoc] at h
    exact (quote_not_byte h).elim
  | a :: s, [], _, _, h => by
    rw [List.flatMap_nil, List.nil_append, List.flatMap_cons, List.append_assoc] at h
    exact (quote_not_byte h.symm).elim
  | a :: s, b :: t, _, _, h => by
    rw [List.flatMap_cons, List.append_assoc, List.flatMap_cons, List.append_assoc] at h
    obtain ⟨h1, h2⟩ := debugByte_cancel h
    obtain ⟨h3, h4⟩ := escaped_cancel h2
    exact ⟨by rw [h1, h3], h4⟩

theorem debugText_cancel {s t x y : Bytes} (h : debugText s ++ x = debugText t ++ y) :
    s = t ∧ x = y := by
  unfold debugText at h
  simp only [List.append_assoc, List.cons_append, List.nil_append, List.cons.injEq, true_and] at h
  exact escaped_cancel h

/-! ## Hexadecimal dumps -/

theorem lowerHex_inj : ∀ a < (16 : Nat), ∀ b < (16 : Nat),
    lowerHex (UInt8.ofNat a) = lowerHex (UInt8.ofNat b) → a = b := by
  decide +kernel

theorem nibbles : ∀ a : UInt8, ∃ h < 16, ∃ l < 16, a >>> 4 = UInt8.ofNat h ∧
    a &&& 0x0f = UInt8.ofNat l ∧ a = UInt8.ofNat (h * 16 + l) := by
  apply forall_u8
  intro i
  refine ⟨i.val / 16, by omega, i.val % 16, by omega, ?_⟩
  revert i
  decide +kernel

/-- Two digits show a byte. -/
theorem hexDigits_inj (a b : UInt8) (h1 : lowerHex (a >>> 4) = lowerHex (b >>> 4))
    (h2 : lowerHex (a &&& 0x0f) = lowerHex (b &&& 0x0f)) : a = b := by
  obtain ⟨i, hi, j, hj, e1, e2, e3⟩ := nibbles a
  obtain ⟨k, hk, l, hl, f1, f2, f3⟩ := nibbles b
  rw [e1, f1] at h1
  rw [e2, f2] at h2
  rw [e3, f3, lowerHex_inj i hi k hk h1, lowerHex_inj j hj l hl h2]

theorem hexCells_inj : ∀ {i : Nat} {a b : Bytes} {x y : Bytes}, a.length = b.length →
    hexCells i a ++ x = hexCells i b ++ y → a = b ∧ x = y
  | _, [], [], _, _, _, h => ⟨rfl, h⟩
  | _, [], _ :: _, _, _, hl, _ => by cases hl
  | _, _ :: _, [], _, _, hl, _ => by cases hl
  | i, c :: a, d :: b, x, y, hl, h => by
    rw [hexCells, hexCells] at h
    simp only [List.append_assoc] at h
    have h := List.append_cancel_left h
    simp only [List.cons_append, List.nil_append, List.cons.injEq] at h
    obtain ⟨h1, h2, h3⟩ := h
    obtain ⟨h4, h5⟩ := hexCells_inj (Nat.succ.inj hl) h3
    exact ⟨by rw [hexDigits_inj c d h1 h2, h4], h5⟩

theorem hexRow_inj {i : Nat} {a b x y : Bytes} (hl : a.length = b.length)
    (h : hexRow i a ++ x = hexRow i b ++ y) : a = b ∧ x = y := by
  unfold hexRow at h
  simp only [List.append_assoc] at h
  have h := List.append_cancel_left (List.append_cancel_left h)
  obtain ⟨rfl, h⟩ := hexCells_inj hl h
  exact ⟨rfl, by simpa using h⟩

theorem hexRows_inj : ∀ {n i : Nat} {a b x y : Bytes}, a.length = b.length → a.length ≤ n → a ≠ [] →
    hexRows n i a ++ x = hexRows n i b ++ y → a = b ∧ x = y
  | 0, _, a, _, _, _, _, hn, ha, _ => absurd (List.length_eq_zero_iff.mp (by omega)) ha
  | n + 1, i, a, b, x, y, hl, hn, ha, h => by
    rw [hexRows, hexRows, ← hl] at h
    split at h
    · exact hexRow_inj hl h
    · rename_i hlong
      simp only [List.append_assoc] at h
      obtain ⟨h1, h2⟩ := hexRow_inj (by simp [hl]) h
      have h2 := List.append_cancel_left h2
      obtain ⟨h3, h4⟩ := hexRows_inj (a := a.drop 16) (b := b.drop 16) (by simp [hl])
        (by rw [List.length_drop]; omega)
        (by intro h0; have := congrArg List.length h0; simp at this; omega) h2
      refine ⟨?_, h4⟩
      rw [← List.take_append_drop 16 a, ← List.take_append_drop 16 b, h1, h3]

theorem hexDump_cancel {a b x y : Bytes} (h : hexDump a ++ x = hexDump b ++ y) : a = b ∧ x = y := by
  unfold hexDump at h
  simp only [List.append_assoc] at h
  have h := List.append_cancel_left h
  obtain ⟨hl, h⟩ := decStr_cancel (apart_bs " (0x" (by decide)) (apart_bs " (0x" (by decide)) h
  rw [hl] at h
  have h := List.append_cancel_left (List.append_cancel_left (List.append_cancel_left
    (List.append_cancel_left h)))
  by_cases ha : a = []
  · have hb : b = [] := List.length_eq_zero_iff.mp (by rw [← hl, ha]; rfl)
    rw [if_pos ha, if_pos hb] at h
    exact ⟨ha.trans hb.symm, h⟩
  · have hb : b ≠ [] := fun h0 => ha (List.length_eq_zero_iff.mp (by rw [hl, h0]; rfl))
    rw [if_neg ha, if_neg hb] at h
    exact hexRows_inj hl (by omega) ha h

/-! ## Trees -/

/-- A word that is not empty. -/
def IsWord (w : Bytes) : Prop := w ≠ [] ∧ ∀ b ∈ w, Lettery b

instance (w : Bytes) : Decidable (IsWord w) := by unfold IsWord; infer_instance

mutual
/-- Names are words, and nothing with fields has none. -/
def Dbg.Fine : Dbg → Prop
  | .word w => IsWord w
  | .str _ => True
  | .hex _ => True
  | .tuple name args => IsWord name ∧ args ≠ [] ∧ Dbg.FineItems args
  | .record name fields => IsWord name ∧ fields ≠ [] ∧ Dbg.FineFields fields
  | .seq items => Dbg.FineItems items
  | .map entries => Dbg.FineEntries entries
def Dbg.FineItems : List Dbg → Prop
  | [] => True
  | x :: l => x.Fine ∧ Dbg.FineItems l
def Dbg.FineFields : List (Bytes × Dbg) → Prop
  | [] => True
  | (k, x) :: l => IsWord k ∧ x.Fine ∧ Dbg.FineFields l
def Dbg.FineEntries : List (Nat × Dbg) → Prop
  | [] => True
  | (_, x) :: l => x.Fine ∧ Dbg.FineEntries l
end

/-- What can follow a value. -/
def Follows : Bytes → Prop
  | [] => True
  | c :: x => ¬ Lettery c ∧ c ≠ b' '(' ∧ c ≠ b' ':' ∧ (c = b' ' ' → x.head? ≠ some (b' '{'))

theorem Follows.apart {x : Bytes} (h : Follows x) : Parted x := by
  cases x with
  | nil => trivial
  | cons c x => exact h.1

/-- The word a value starts with. -/
def Dbg.lead : Dbg → Bytes
  | .word w => w
  | .hex _ => bs "Length"
  | .tuple name _ => name
  | .record name _ => name
  | .str _ => []
  | .seq _ => []
  | .map _ => []

/-- What comes after it. -/
def Dbg.tail : Dbg → Bytes
  | .word _ => []
  | .str s => debugText s
  | .hex b => (hexDump b).drop 6
  | .tuple _ [] => []
  | .tuple _ (x :: l) => bs "(" ++ x.text ++ Dbg.textItems l ++ bs ")"
  | .record _ [] => []
  | .record _ ((k, x) :: l) => bs " { " ++ k ++ bs ": " ++ x.text ++ Dbg.textFields l ++ bs " }"
  | .seq l => Dbg.text (.seq l)
  | .map l => Dbg.text (.map l)

/-- Which kind of value it is. -/
def Dbg.kind : Dbg → Nat
  | .word _ => 0
  | .str _ => 1
  | .seq _ => 2
  | .map _ => 3
  | .tuple .. => 4
  | .record .. => 5
  | .hex _ => 6

/-- The kind, from the text. -/
def kindOf (w r : Bytes) : Nat :=
  if w = [] then
    if r.head? = some (b' '"') then 1 else if r.head? = some (b' '[') then 2 else 3
  else if r.head? = some (b' '(') then 4
  else if r.head? = some (b' ' ') ∧ r[1]? = some (b' '{') then 5
  else if r.head? = some (b' ':') then 6
  else 0

theorem text_lead (t : Dbg) : t.text = t.lead ++ t.tail := by
  match t with
  | .word w => rw [Dbg.text, Dbg.lead, Dbg.tail, List.append_nil]
  | .str s => rw [Dbg.text, Dbg.lead, Dbg.tail]; rfl
  | .hex b =>
    rw [Dbg.text, Dbg.lead, Dbg.tail]
    unfold hexDump
    simp only [List.append_assoc]
    rfl
  | .tuple n [] => rw [Dbg.text, Dbg.lead, Dbg.tail, List.append_nil]
  | .tuple n (x :: l) => rw [Dbg.text, Dbg.lead, Dbg.tail]; simp only [List.append_assoc]
  | .record n [] => rw [Dbg.text, Dbg.lead, Dbg.tail, List.append_nil]
  | .record n ((k, x) :: l) => rw [Dbg.text, Dbg.lead, Dbg.tail]; simp only [List.append_assoc]
  | .seq l => rw [Dbg.lead, Dbg.tail]; rfl
  | .map l => rw [Dbg.lead, Dbg.tail]; rfl

theorem lead_wordy {t : Dbg} (h : t.Fine) : ∀ b ∈ t.lead, Lettery b := by
  match t with
  | .word w => rw [Dbg.Fine] at h; exact h.2
  | .str s => intro b hb; cases hb
  | .hex b => rw [Dbg.lead]; decide
  | .tuple n l => rw [Dbg.Fine] at h; exact h.1.2
  | .record n l => rw [Dbg.Fine] at h; exact h.1.2
  | .seq l => intro b hb; cases hb
  | .map l => intro b hb; cases hb

theorem tail_kind {t : Dbg} (h : t.Fine) {x : Bytes} (hx : Follows x) :
    Parted (t.tail ++ x) ∧ kindOf t.lead (t.tail ++ x) = t.kind := by
  match t with
  | .word w =>
    rw [Dbg.Fine] at h
    refine ⟨hx.apart, ?_⟩
    rw [Dbg.lead, Dbg.tail, List.nil_append, Dbg.kind]
    unfold kindOf
    rw [if_neg h.1]
    cases x with
    | nil => rfl
    | cons c x =>
      obtain ⟨_, h1, h2, h3⟩ := hx
      rw [if_neg (by intro h; exact h1 (Option.some.inj h)), if_neg (by
        rintro ⟨h, h'⟩
        refine h3 (Option.some.inj h) ?_
        cases x with
        | nil => cases h'
        | cons d x => exact h'), if_neg (by intro h; exact h2 (Option.some.inj h))]
  | .str s =>
    refine ⟨?_, ?_⟩
    · show ¬ Lettery (b' '"'); decide
    · rfl
  | .hex b =>
    rw [Dbg.lead, Dbg.tail]
    unfold hexDump
    simp only [List.append_assoc]
    refine ⟨?_, ?_⟩
    · show ¬ Lettery (b' ':'); decide
    · rfl
  | .tuple n [] => rw [Dbg.Fine] at h; exact absurd rfl h.2.1
  | .tuple n (y :: l) =>
    rw [Dbg.Fine] at h
    rw [Dbg.lead, Dbg.tail]
    simp only [List.append_assoc]
    refine ⟨?_, ?_⟩
    · show ¬ Lettery (b' '('); decide
    · unfold kindOf; rw [if_neg h.1.1]; rfl
  | .record n [] => rw [Dbg.Fine] at h; exact absurd rfl h.2.1
  | .record n ((k, y) :: l) =>
    rw [Dbg.Fine] at h
    rw [Dbg.lead, Dbg.tail]
    simp only [List.append_assoc]
    refine ⟨?_, ?_⟩
    · show ¬ Lettery (b' ' '); decide
    · unfold kindOf; rw [if_neg h.1.1]; rfl
  | .seq [] =>
    refine ⟨?_, rfl⟩
    show ¬ Lettery (b' '['); decide
  | .seq (y :: l) =>
    rw [Dbg.lead, Dbg.tail, Dbg.text]
    simp only [List.append_assoc]
    refine ⟨?_, rfl⟩
    show ¬ Lettery (b' '['); decide
  | .map [] =>
    refine ⟨?_, rfl⟩
    show ¬ Lettery (b' '{'); decide
  | .map ((k, y) :: l) =>
    rw [Dbg.lead, Dbg.tail, Dbg.text]
    simp only [List.append_assoc]
    refine ⟨?_, rfl⟩
    show ¬ Lettery (b' '{'); decide

theorem text_split {t u : Dbg} (ht : t.Fine) (hu : u.Fine) {x y : Bytes} (hx : Follows x)
    (hy : Follows y) (h : t.text ++ x = u.text ++ y) :
    t.lead = u.lead ∧ t.tail ++ x = u.tail ++ y ∧ t.kind = u.kind := by
  rw [text_lead t, text_lead u, List.append_assoc, List.append_assoc] at h
  obtain ⟨h1, h2⟩ := tail_kind ht hx
  obtain ⟨h3, h4⟩ := tail_kind hu hy
  obtain ⟨h5, h6⟩ := word_cancel (lead_wordy ht) (lead_wordy hu) h1 h3 h
  exact ⟨h5, h6, by rw [← h2, ← h4, h5, h6]⟩

/-- What closes a list. -/
def Closer (c : UInt8) : Prop := c = b' ')' ∨ c = b' ']' ∨ c = b' '}'

theorem follows_items (l : List Dbg) {c : UInt8} (hc : Closer c) (x : Bytes) :
    Follows (Dbg.textItems l ++ (c :: x)) := by
  cases l with
  | nil =>
    rw [Dbg.textItems]
    rcases hc with rfl | rfl | rfl <;>
      exact ⟨by decide, by decide, by decide, fun h => absurd h (by decide)⟩
  | cons y l =>
    rw [Dbg.textItems]
    simp only [List.append_assoc]
    exact ⟨(by decide : ¬ Lettery (b' ',')), by decide, by decide, fun h => absurd h (by decide)⟩

theorem follows_fields (l : List (Bytes × Dbg)) (x : Bytes) :
    Follows (Dbg.textFields l ++ (bs " }" ++ x)) := by
  match l with
  | [] =>
    rw [Dbg.textFields]
    refine ⟨(by decide : ¬ Lettery (b' ' ')), by decide, by decide, fun _ h => ?_⟩
    have h : some (b' '}') = some (b' '{') := h
    exact absurd h (by decide)
  | (k, y) :: l =>
    rw [Dbg.textFields]
    simp only [List.append_assoc]
    exact ⟨(by decide : ¬ Lettery (b' ',')), by decide, by decide, fun h => absurd h (by decide)⟩

theorem follows_entries (l : List (Nat × Dbg)) (x : Bytes) :
    Follows (Dbg.textEntries l ++ (bs "}" ++ x)) := by
  match l with
  | [] =>
    rw [Dbg.textEntries]
    exact ⟨(by decide : ¬ Lettery (b' '}')), by decide, by decide, fun h => absurd h (by decide)⟩
  | (k, y) :: l =>
    rw [Dbg.textEntries]
    simp only [List.append_assoc]
    exact ⟨(by decide : ¬ Lettery (b' ',')), by decide, by decide, fun h => absurd h (by decide)⟩

theorem closer_comma {c : UInt8} (hc : Closer c) {x y : Bytes} (h : c :: x = bs ", " ++ y) :
    False := by
  have h : c = b' ',' := (List.cons.inj h).1
  subst h
  revert hc
  unfold Closer
  decide

theorem closer_dec {c : UInt8} (hc : Closer c) {n : Nat} {x y : Bytes}
    (h : c :: x = decStr n ++ y) : False := by
  cases hd : decStr n with
  | nil => exact decStr_ne n hd
  | cons d l =>
    rw [hd] at h
    have hw := decStr_wordy n d (by rw [hd]; exact List.mem_cons_self)
    rw [← (List.cons.inj h).1] at hw
    rcases hc with rfl | rfl | rfl <;> revert hw <;> decide

/-- A value does not start with what closes a list. -/
theorem closer_text {t : Dbg} (ht : t.Fine) {c : UInt8} (hc : Closer c) {x y : Bytes}
    (h : c :: x = t.text ++ y) : False := by
  have key : ∃ d l, t.text = d :: l ∧ ¬ Closer d := by
    by_cases hl : t.lead = []
    · match t with
      | .word w => rw [Dbg.Fine] at ht; exact absurd hl ht.1
      | .str s => rw [Dbg.text]; exact ⟨_, _, rfl, by unfold Closer; decide⟩
      | .hex b => cases hl
      | .tuple n l => rw [Dbg.Fine] at ht; exact absurd hl ht.1.1
      | .record n l => rw [Dbg.Fine] at ht; exact absurd hl ht.1.1
      | .seq [] => rw [Dbg.text]; exact ⟨_, _, rfl, by unfold Closer; decide⟩
      | .seq (a :: l) =>
        rw [Dbg.text]
        simp only [List.append_assoc]
        exact ⟨_, _, rfl, by unfold Closer; decide⟩
      | .map [] => rw [Dbg.text]; exact ⟨_, _, rfl, by unfold Closer; decide⟩
      | .map ((k, a) :: l) =>
        rw [Dbg.text]
        simp only [List.append_assoc]
        exact ⟨_, _, rfl, by unfold Closer; decide⟩
    · cases hd : t.lead with
      | nil => exact absurd hd hl
      | cons d l =>
        refine ⟨d, l ++ t.tail, by rw [text_lead, hd]; rfl, ?_⟩
        have := lead_wordy ht d (by rw [hd]; exact List.mem_cons_self)
        rintro (rfl | rfl | rfl) <;> revert this <;> decide
  obtain ⟨d, l, hd, hn⟩ := key
  rw [hd] at h
  exact hn ((List.cons.inj h).1 ▸ hc)

mutual
/-- The text of a value, together with what follows it, determines both. -/
theorem text_cancel : ∀ (t u : Dbg) {x y : Bytes}, t.Fine → u.Fine → Follows x → Follows y →
    t.text ++ x = u.text ++ y → t = u ∧ x = y
  | .word w, u, x, y, ht, hu, hx, hy, h => by
    obtain ⟨h1, h2, h3⟩ := text_split ht hu hx hy h
    cases u <;> cases h3
    exact ⟨congrArg _ h1, h2⟩
  | .str s, u, x, y, ht, hu, hx, hy, h => by
    obtain ⟨h1, h2, h3⟩ := text_split ht hu hx hy h
    cases u <;> cases h3
    obtain ⟨h4, h5⟩ := debugText_cancel h2
    exact ⟨congrArg _ h4, h5⟩
  | .hex b, u, x, y, ht, hu, hx, hy, h => by
    obtain ⟨h1, h2, h3⟩ := text_split ht hu hx hy h
    cases u <;> cases h3
    rw [Dbg.text, Dbg.text] at h
    obtain ⟨h4, h5⟩ := hexDump_cancel h
    exact ⟨congrArg _ h4, h5⟩
  | .tuple n [], u, x, y, ht, hu, hx, hy, h => by
    rw [Dbg.Fine] at ht
    exact absurd rfl ht.2.1
  | .tuple n (a :: l), u, x, y, ht, hu, hx, hy, h => by
    obtain ⟨h1, h2, h3⟩ := text_split ht hu hx hy h
    match u, h3 with
    | .tuple n' args', _ =>
      rw [Dbg.Fine] at ht hu
      have hn : n = n' := h1
      match args' with
      | [] => exact absurd rfl hu.2.1
      | a' :: l' =>
        rw [Dbg.tail, Dbg.tail] at h2
        simp only [List.append_assoc] at h2
        have h2 := List.append_cancel_left h2
        have h4 := ht.2.2
        have h5 := hu.2.2
        rw [Dbg.FineItems] at h4 h5
        obtain ⟨h6, h7⟩ := text_cancel a a' h4.1 h5.1 (follows_items l (.inl rfl) x)
          (follows_items l' (.inl rfl) y) h2
        obtain ⟨h8, h9⟩ := items_cancel l l' (.inl rfl) h4.2 h5.2 h7
        exact ⟨by rw [hn, h6, h8], h9⟩
  | .record n [], u, x, y, ht, hu, hx, hy, h => by
    rw [Dbg.Fine] at ht
    exact absurd rfl ht.2.1
  | .record n ((k, a) :: l), u, x, y, ht, hu, hx, hy, h => by
    obtain ⟨h1, h2, h3⟩ := text_split ht hu hx hy h
    match u, h3 with
    | .record n' fields', _ =>
      rw [Dbg.Fine] at ht hu
      have hn : n = n' := h1
      match fields' with
      | [] => exact absurd rfl hu.2.1
      | (k', a') :: l' =>
        rw [Dbg.tail, Dbg.tail] at h2
        simp only [List.append_assoc] at h2
        have h2 := List.append_cancel_left h2
        have h4 := ht.2.2
        have h5 := hu.2.2
        rw [Dbg.FineFields] at h4 h5
        obtain ⟨hk, h2⟩ := word_cancel h4.1.2 h5.1.2 (apart_bs ": " (by decide))
          (apart_bs ": " (by decide)) h2
        have h2 := List.append_cancel_left h2
        obtain ⟨h6, h7⟩ := text_cancel a a' h4.2.1 h5.2.1 (follows_fields l x)
          (follows_fields l' y) h2
        obtain ⟨h8, h9⟩ := fields_cancel l l' h4.2.2 h5.2.2 h7
        exact ⟨by rw [hn, hk, h6, h8], h9⟩
  | .seq [], u, x, y, ht, hu, hx, hy, h => by
    obtain ⟨h1, h2, h3⟩ := text_split ht hu hx hy h
    match u, h3 with
    | .seq items', _ =>
      rw [Dbg.Fine] at hu
      match items' with
      | [] => exact ⟨rfl, List.append_cancel_left h2⟩
      | a :: l =>
        rw [Dbg.tail, Dbg.tail, Dbg.text, Dbg.text] at h2
        simp only [List.append_assoc] at h2
        have h2 : b' ']' :: x = a.text ++ (Dbg.textItems l ++ (bs "]" ++ y)) :=
          (List.cons.inj h2).2
        exact (closer_text hu.1 (.inr (.inl rfl)) h2).elim
  | .seq (a :: l), u, x, y, ht, hu, hx, hy, h => by
    obtain ⟨h1, h2, h3⟩ := text_split ht hu hx hy h
    match u, h3 with
    | .seq items', _ =>
      rw [Dbg.Fine] at ht hu
      match items' with
      | [] =>
        rw [Dbg.tail, Dbg.tail, Dbg.text, Dbg.text] at h2
        simp only [List.append_assoc] at h2
        have h2 : a.text ++ (Dbg.textItems l ++ (bs "]" ++ x)) = b' ']' :: y :=
          (List.cons.inj h2).2
        exact (closer_text ht.1 (.inr (.inl rfl)) h2.symm).elim
      | a' :: l' =>
        rw [Dbg.tail, Dbg.tail, Dbg.text, Dbg.text] at h2
        simp only [List.append_assoc] at h2
        have h2 := List.append_cancel_left h2
        rw [Dbg.FineItems] at ht hu
        obtain ⟨h6, h7⟩ := text_cancel a a' ht.1 hu.1 (follows_items l (.inr (.inl rfl)) x)
          (follows_items l' (.inr (.inl rfl)) y) h2
        obtain ⟨h8, h9⟩ := items_cancel l l' (.inr (.inl rfl)) ht.2 hu.2 h7
        exact ⟨by rw [h6, h8], h9⟩
  | .map [], u, x, y, ht, hu, hx, hy, h => by
    obtain ⟨h1, h2, h3⟩ := text_split ht hu hx hy h
    match u, h3 with
    | .map entries', _ =>
      match entries' with
      | [] => exact ⟨rfl, List.append_cancel_left h2⟩
      | (k, a) :: l =>
        rw [Dbg.tail, Dbg.tail, Dbg.text, Dbg.text] at h2
        simp only [List.append_assoc] at h2
        have h2 : b' '}' :: x =
            decStr k ++ (bs ": " ++ (a.text ++ (Dbg.textEntries l ++ (bs "}" ++ y)))) :=
          (List.cons.inj h2).2
        exact (closer_dec (.inr (.inr rfl)) h2).elim
  | .map ((k, a) :: l), u, x, y, ht, hu, hx, hy, h => by
    obtain ⟨h1, h2, h3⟩ := text_split ht hu hx hy h
    match u, h3 with
    | .map entries', _ =>
      rw [Dbg.Fine] at ht hu
      match entries' with
      | [] =>
        rw [Dbg.tail, Dbg.tail, Dbg.text, Dbg.text] at h2
        simp only [List.append_assoc] at h2
        have h2 : decStr k ++ (bs ": " ++ (a.text ++ (Dbg.textEntries l ++ (bs "}" ++ x)))) =
            b' '}' :: y :=
          (List.cons.inj h2).2
        exact (closer_dec (.inr (.inr rfl)) h2.symm).elim
      | (k', a') :: l' =>
        rw [Dbg.tail, Dbg.tail, Dbg.text, Dbg.text] at h2
        simp only [List.append_assoc] at h2
        have h2 := List.append_cancel_left h2
        rw [Dbg.FineEntries] at ht hu
        obtain ⟨hk, h2⟩ := decStr_cancel (apart_bs ": " (by decide)) (apart_bs ": " (by decide)) h2
        have h2 := List.append_cancel_left h2
        obtain ⟨h6, h7⟩ := text_cancel a a' ht.1 hu.1 (follows_entries l x)
          (follows_entries l' y) h2
        obtain ⟨h8, h9⟩ := entries_cancel l l' ht.2 hu.2 h7
        exact ⟨by rw [hk, h6, h8], h9⟩
  termination_by t => sizeOf t
theorem items_cancel : ∀ (l l' : List Dbg) {c : UInt8} {x y : Bytes}, Closer c → Dbg.FineItems l →
    Dbg.FineItems l' → Dbg.textItems l ++ (c :: x) = Dbg.textItems l' ++ (c :: y) → l = l' ∧ x = y
  | [], [], c, x, y, _, _, _, h => by
    rw [Dbg.textItems] at h
    exact ⟨rfl, (List.cons.inj h).2⟩
  | [], a :: l, c, x, y, hc, _, _, h => by
    rw [Dbg.textItems, Dbg.textItems] at h
    simp only [List.append_assoc] at h
    exact (closer_comma hc h).elim
  | a :: l, [], c, x, y, hc, _, _, h => by
    rw [Dbg.textItems, Dbg.textItems] at h
    simp only [List.append_assoc] at h
    exact (closer_comma hc h.symm).elim
  | a :: l, a' :: l', c, x, y, hc, hl, hl', h => by
    rw [Dbg.textItems, Dbg.textItems] at h
    simp only [List.append_assoc] at h
    have h := List.append_cancel_left h
    rw [Dbg.FineItems] at hl hl'
    obtain ⟨h6, h7⟩ := text_cancel a a' hl.1 hl'.1 (follows_items l hc x) (follows_items l' hc y) h
    obtain ⟨h8, h9⟩ := items_cancel l l' hc hl.2 hl'.2 h7
    exact ⟨by rw [h6, h8], h9⟩
  termination_by l => sizeOf l
theorem fields_cancel : ∀ (l l' : List (Bytes × Dbg)) {x y : Bytes}, Dbg.FineFields l →
    Dbg.FineFields l' → Dbg.textFields l ++ (bs " }" ++ x) = Dbg.textFields l' ++ (bs " }" ++ y) →
    l = l' ∧ x = y
  | [], [], x, y, _, _, h => by
    rw [Dbg.textFields] at h
    exact ⟨rfl, List.append_cancel_left h⟩
  | [], (k, a) :: l, x, y, _, _, h => by
    rw [Dbg.textFields, Dbg.textFields] at h
    simp only [List.append_assoc] at h
    exact absurd (List.cons.inj h).1 (by decide)
  | (k, a) :: l, [], x, y, _, _, h => by
    rw [Dbg.textFields, Dbg.textFields] at h
    simp only [List.append_assoc] at h
    exact absurd (List.cons.inj h).1 (by decide)
  | (k, a) :: l, (k', a') :: l', x, y, hl, hl', h => by
    rw [Dbg.textFields, Dbg.textFields] at h
    simp only [List.append_assoc] at h
    have h := List.append_cancel_left h
    rw [Dbg.FineFields] at hl hl'
    obtain ⟨hk, h⟩ := word_cancel hl.1.2 hl'.1.2 (apart_bs ": " (by decide))
      (apart_bs ": " (by decide)) h
    have h := List.append_cancel_left h
    obtain ⟨h6, h7⟩ := text_cancel a a' hl.2.1 hl'.2.1 (follows_fields l x) (follows_fields l' y) h
    obtain ⟨h8, h9⟩ := fields_cancel l l' hl.2.2 hl'.2.2 h7
    exact ⟨by rw [hk, h6, h8], h9⟩
  termination_by l => sizeOf l
theorem entries_cancel : ∀ (l l' : List (Nat × Dbg)) {x y : Bytes}, Dbg.FineEntries l →
    Dbg.FineEntries l' →
    Dbg.textEntries l ++ (bs "}" ++ x) = Dbg.textEntries l' ++ (bs "}" ++ y) → l = l' ∧ x = y
  | [], [], x, y, _, _, h => by
    rw [Dbg.textEntries] at h
    exact ⟨rfl, List.append_cancel_left h⟩
  | [], (k, a) :: l, x, y, _, _, h => by
    rw [Dbg.textEntries, Dbg.textEntries] at h
    simp only [List.append_assoc] at h
    exact absurd (List.cons.inj h).1 (by decide)
  | (k, a) :: l, [], x, y, _, _, h => by
    rw [Dbg.textEntries, Dbg.textEntries] at h
    simp only [List.append_assoc] at h
    exact absurd (List.cons.inj h).1 (by decide)
  | (k, a) :: l, (k', a') :: l', x, y, hl, hl', h => by
    rw [Dbg.textEntries, Dbg.textEntries] at h
    simp only [List.append_assoc] at h
    have h := List.append_cancel_left h
    rw [Dbg.FineEntries] at hl hl'
    obtain ⟨hk, h⟩ := decStr_cancel (apart_bs ": " (by decide)) (apart_bs ": " (by decide)) h
    have h := List.append_cancel_left h
    obtain ⟨h6, h7⟩ := text_cancel a a' hl.1 hl'.1 (follows_entries l x) (follows_entries l' y) h
    obtain ⟨h8, h9⟩ := entries_cancel l l' hl.2 hl'.2 h7
    exact ⟨by rw [hk, h6, h8], h9⟩
  termination_by l => sizeOf l
end

end Elk
