import Verif.Spec.Msg
import Verif.Lemmas.Decode
/-! # Lemmas about the parsing monad, decimal text and enums -/

namespace Elk
open Spec

/-! ## The monads -/

theorem R_bind_ok {α β : Type} {x : R α} {f : α → R β} {b : β} :
    (x >>= f) = .ok b ↔ ∃ a, x = .ok a ∧ f a = .ok b := by
  cases x with
  | ok a => simp [bind, Except.bind]
  | error e => simp [bind, Except.bind]

theorem R_ok_bind {α β : Type} (a : α) (f : α → R β) :
    ((Except.ok a : R α) >>= f) = f a := rfl

theorem failIf_ok {c : Prop} [Decidable c] {msg : Bytes} {u : Unit} :
    failIf c msg = .ok u ↔ ¬ c := by
  unfold failIf errR; split <;> simp_all

theorem failIf_neg {c : Prop} [Decidable c] {msg : Bytes} (h : ¬ c) :
    failIf c msg = .ok () := by simp [failIf, h]

theorem assertR_ok {c : Prop} [Decidable c] {u : Unit} : assertR c = .ok u ↔ c := by
  unfold assertR; split <;> simp_all

theorem assertR_pos {c : Prop} [Decidable c] (h : c) : assertR c = .ok () := by
  simp [assertR, h]

theorem okOr_ok {α : Type} {o : Option α} {msg : Bytes} {a : α} :
    okOr o msg = .ok a ↔ o = some a := by
  cases o <;> simp [okOr, errR]

theorem liftP_ok {α : Type} {x : P α} {a : α} : liftP x = .ok a ↔ x = .ok a := by
  cases x <;> simp [liftP]

theorem idx_ok_iff {α : Type} {l : List α} {i : Nat} {a : α} : idx l i = .ok a ↔ l[i]? = some a := by
  unfold idx; split <;> simp_all

theorem slice_ok_iff {α : Type} {l r : List α} {i j : Nat} :
    slice l i j = .ok r ↔ (i ≤ j ∧ j ≤ l.length) ∧ (l.take j).drop i = r := by
  unfold slice; split
  · rename_i h; simp [h]
  · rename_i h; simp only [reduceCtorEq, false_iff]; exact fun h' => h h'.1

/-- The computation does not panic. -/
def NoPanic {α : Type} (x : R α) : Prop := ∀ p, x ≠ .error (.panic p)

theorem NoPanic.ok {α : Type} (a : α) : NoPanic (.ok a : R α) := by intro p h; cases h

theorem NoPanic.err {α : Type} (msg : Bytes) : NoPanic (errR msg : R α) := by
  intro p h; cases h

theorem NoPanic.bind {α β : Type} {x : R α} {f : α → R β} (hx : NoPanic x)
    (hf : ∀ a, x = .ok a → NoPanic (f a)) : NoPanic (x >>= f) := by
  cases x with
  | ok a => exact hf a rfl
  | error e => intro p h; exact hx p (by simpa [Bind.bind, Except.bind] using h)

theorem NoPanic.failIf {c : Prop} [Decidable c] (msg : Bytes) : NoPanic (failIf c msg) := by
  unfold Elk.failIf; split
  · exact NoPanic.err _
  · exact NoPanic.ok _

theorem NoPanic.okOr {α : Type} (o : Option α) (msg : Bytes) : NoPanic (okOr o msg) := by
  unfold Elk.okOr; split
  · exact NoPanic.ok _
  · exact NoPanic.err _

theorem NoPanic.idx {α : Type} {l : List α} {i : Nat} (h : i < l.length) :
    NoPanic (liftP (idx l i)) := by
  have : Elk.idx l i = .ok l[i] := idx_ok_iff.mpr (by simp [h])
  rw [this]; exact NoPanic.ok _

theorem NoPanic.slice {α : Type} {l : List α} {i j : Nat} (h : i ≤ j ∧ j ≤ l.length) :
    NoPanic (liftP (slice l i j)) := by
  unfold Elk.slice; rw [if_pos h]; exact NoPanic.ok _

theorem fillM_ok {α : Type} {f : Nat → R α} : ∀ {n : Nat} {v : Vector α n},
    fillM f n = .ok v ↔ ∀ i (h : i < n), f i = .ok v[i]
  | 0, v => by
    constructor
    · intro _ i h; omega
    · intro _
      have : v = #v[] := by ext i h; omega
      rw [this]; rfl
  | n + 1, v => by
    rw [fillM, R_bind_ok]
    constructor
    · rintro ⟨w, hw, h⟩
      rw [R_bind_ok] at h
      obtain ⟨a, ha, h⟩ := h
      injection h with h
      subst h
      intro i hi
      by_cases hin : i < n
      · rw [fillM_ok.mp hw i hin]; simp [hin]
      · have : i = n := by omega
        subst this; simp [ha]
    · intro h
      refine ⟨v.pop, ?_, ?_⟩
      · apply fillM_ok.mpr
        intro i hi
        rw [h i (by omega)]; simp
      · rw [R_bind_ok]
        refine ⟨v.back, ?_, ?_⟩
        · rw [h n (by omega)]; simp [Vector.back]
        · simp

theorem NoPanic.fillM {α : Type} {f : Nat → R α} : ∀ {n : Nat},
    (∀ i, i < n → NoPanic (f i)) → NoPanic (fillM f n)
  | 0, _ => NoPanic.ok _
  | n + 1, h => by
    rw [Elk.fillM]
    refine NoPanic.bind (NoPanic.fillM fun i hi => h i (by omega)) fun w _ => ?_
    exact NoPanic.bind (h n (by omega)) fun a _ => NoPanic.ok _

/-! ## Lists -/

theorem length_ge_cons {α : Type} {l : List α} {n : Nat} (h : n + 1 ≤ l.length) :
    ∃ a t, l = a :: t ∧ n ≤ t.length := by
  cases l with
  | nil => simp at h
  | cons a t => exact ⟨a, t, rfl, by simpa using h⟩

/-! ## Decimal text -/

theorem dig_eq (n : Nat) (h : n < 10) : dig n = decDigit n := by
  have : ∀ n : Fin 10, dig n = decDigit n := by decide +kernel
  exact this ⟨n, h⟩

theorem dig_isDigit : ∀ n : Nat, n < 10 → b' '0' ≤ dig n ∧ dig n ≤ b' '9' ∧
    (dig n - b' '0').toNat = n ∧ dig n ≠ b' '+' := by
  have : ∀ n : Fin 10, b' '0' ≤ dig n ∧ dig n ≤ b' '9' ∧ (dig n - b' '0').toNat = n ∧
    dig n ≠ b' '+' := by decide +kernel
  intro n h
  exact this ⟨n, h⟩

theorem isDigit_dig : ∀ b : UInt8, b' '0' ≤ b ∧ b ≤ b' '9' → ∃ n, n < 10 ∧ b = dig n := by
  have : ∀ b : UInt8, b' '0' ≤ b ∧ b ≤ b' '9' → b.toNat - 48 < 10 ∧ b = dig (b.toNat - 48) := by
    apply forall_u8; decide +kernel
  intro b hb
  exact ⟨_, this b hb⟩

theorem digitsGo_dig {max acc n : Nat} {r : Bytes} (h : n < 10) :
    digitsGo max acc (dig n :: r) =
      if acc * 10 + n ≤ max then digitsGo max (acc * 10 + n) r else none := by
  have hd := dig_isDigit n h
  rw [digitsGo, if_pos ⟨hd.1, hd.2.1⟩]
  dsimp only
  rw [hd.2.2.1]

theorem digitsGo_cons_some {max acc v : Nat} {b : UInt8} {r : Bytes}
    (h : digitsGo max acc (b :: r) = some v) :
    ∃ n, n < 10 ∧ b = dig n ∧ digitsGo max (acc * 10 + n) r = some v := by
  by_cases hb : b' '0' ≤ b ∧ b ≤ b' '9'
  · obtain ⟨n, hn, rfl⟩ := isDigit_dig b hb
    rw [digitsGo_dig hn] at h
    split at h
    · exact ⟨n, hn, rfl, h⟩
    · cases h
  · rw [digitsGo, if_neg hb] at h; cases h

theorem padDec2 : ∀ n : UInt8, n.toNat < 100 → padDec 2 n.toNat = dec2 n := by
  apply forall_u8; decide +kernel

theorem padDec3 : ∀ n : UInt8, padDec 3 n.toNat = dec3 n := by
  apply forall_u8; decide +kernel

theorem parse_dec2 : ∀ n : UInt8, n.toNat < 100 → fromStrDec 255 (dec2 n) = some n.toNat := by
  apply forall_u8; decide +kernel

theorem parse_dec3 : ∀ n : UInt8, fromStrDec 255 (dec3 n) = some n.toNat := by
  apply forall_u8; decide +kernel

theorem Spec.PlusEq.refl : ∀ l, PlusEq l l
  | [] => .nil
  | b :: l => .same b (PlusEq.refl l)

theorem Spec.PlusEq.append {a b c d : Bytes} (h1 : PlusEq a b) (h2 : PlusEq c d) :
    PlusEq (a ++ c) (b ++ d) := by
  induction h1 with
  | nil => exact h2
  | same x _ ih => exact .same x ih
  | plus _ ih => exact .plus ih

theorem Spec.PlusEq.length {a b : Bytes} (h : PlusEq a b) : a.length = b.length := by
  induction h with
  | nil => rfl
  | same x _ ih => simp [ih]
  | plus _ ih => simp [ih]

theorem ofNat_toNat_lt {n : Nat} (h : n < 256) : (UInt8.ofNat n).toNat = n := by
  simp [Nat.mod_eq_of_lt h]

theorem parse2_some {a b : UInt8} {v : Nat} (h : fromStrDec 255 [a, b] = some v) :
    v < 100 ∧ Two (UInt8.ofNat v) [a, b] := by
  rw [fromStrDec] at h
  · split at h
    · rename_i hp
      obtain ⟨n, hn, rfl, h1⟩ := digitsGo_cons_some h
      simp only [digitsGo, Option.some.injEq] at h1
      subst h1
      have e2 : 0 * 10 + n = n := by omega
      rw [e2]
      refine ⟨by omega, by rw [ofNat_toNat_lt (by omega)]; omega, .inr ?_⟩
      rw [hp, ofNat_toNat_lt (by omega)]
      exact ⟨hn, rfl⟩
    · obtain ⟨n, hn, rfl, h1⟩ := digitsGo_cons_some h
      obtain ⟨m, hm, rfl, h2⟩ := digitsGo_cons_some h1
      simp only [digitsGo, Option.some.injEq] at h2
      subst h2
      refine ⟨by omega, by rw [ofNat_toNat_lt (by omega)]; omega, .inl ?_⟩
      rw [dec2, ofNat_toNat_lt (by omega)]
      have e1 : ((0 * 10 + n) * 10 + m) / 10 = n := by omega
      have e2 : ((0 * 10 + n) * 10 + m) % 10 = m := by omega
      rw [e1, e2]
  · simp

theorem digitsGo_le {max : Nat} : ∀ {l : Bytes} {acc v : Nat}, l ≠ [] →
    digitsGo max acc l = some v → v ≤ max
  | [], _, _, h, _ => absurd rfl h
  | b :: r, acc, v, _, h => by
    obtain ⟨n, hn, rfl, h'⟩ := digitsGo_cons_some h
    rw [digitsGo_dig hn] at h
    split at h
    · rename_i hle
      cases r with
      | nil => simp only [digitsGo, Option.some.injEq] at h; omega
      | cons c r => exact digitsGo_le (by simp) h
    · cases h

theorem parse3_some {a b c : UInt8} {v : Nat} (h : fromStrDec 255 [a, b, c] = some v) :
    v < 256 ∧ Three (UInt8.ofNat v) [a, b, c] := by
  rw [fromStrDec] at h
  · split at h
    · rename_i hp
      obtain ⟨n, hn, rfl, h1⟩ := digitsGo_cons_some h
      obtain ⟨m, hm, rfl, h2⟩ := digitsGo_cons_some h1
      simp only [digitsGo, Option.some.injEq] at h2
      subst h2
      refine ⟨by omega, .inr ?_⟩
      rw [hp, dec2, ofNat_toNat_lt (by omega)]
      have e1 : ((0 * 10 + n) * 10 + m) / 10 = n := by omega
      have e2 : ((0 * 10 + n) * 10 + m) % 10 = m := by omega
      rw [e1, e2]
      exact ⟨by omega, rfl⟩
    · have hle := digitsGo_le (by simp) h
      obtain ⟨n, hn, rfl, h1⟩ := digitsGo_cons_some h
      obtain ⟨m, hm, rfl, h2⟩ := digitsGo_cons_some h1
      obtain ⟨k, hk, rfl, h3⟩ := digitsGo_cons_some h2
      simp only [digitsGo, Option.some.injEq] at h3
      subst h3
      refine ⟨by omega, .inl ?_⟩
      rw [dec3, ofNat_toNat_lt (by omega)]
      have e0 : (((0 * 10 + n) * 10 + m) * 10 + k) / 100 = n := by omega
      have e1 : (((0 * 10 + n) * 10 + m) * 10 + k) / 10 % 10 = m := by omega
      have e2 : (((0 * 10 + n) * 10 + m) * 10 + k) % 10 = k := by omega
      rw [e0, e1, e2]
  · simp

theorem parse1_some {a : UInt8} {v : Nat} (h : fromStrDec 255 [a] = some v) :
    v < 10 ∧ a = dig v := by
  rw [fromStrDec] at h
  split at h
  · cases h
  · obtain ⟨n, hn, rfl, h1⟩ := digitsGo_cons_some h
    simp only [digitsGo, Option.some.injEq] at h1
    subst h1
    have e : 0 * 10 + n = n := by omega
    rw [e]; exact ⟨hn, rfl⟩

theorem parseU8Dec_ok {name s : Bytes} {n : UInt8} :
    parseU8Dec name s = .ok n → ∃ v, fromStrDec 255 s = some v ∧ n = UInt8.ofNat v := by
  unfold parseU8Dec
  split
  · rename_i v hv
    intro h; injection h with h
    exact ⟨v, hv, h.symm⟩
  · split <;> (intro h; cases h)

theorem NoPanic.parseU8Dec (name s : Bytes) : NoPanic (parseU8Dec name s) := by
  unfold Elk.parseU8Dec; split
  · exact NoPanic.ok _
  · split <;> exact NoPanic.err _

theorem NoPanic.parseField {name : String} {data : Bytes} {i j : Nat} (h : i ≤ j ∧ j ≤ data.length) :
    NoPanic (parseField name data i j) :=
  NoPanic.bind (NoPanic.slice h) fun _ _ => NoPanic.parseU8Dec _ _

/-- A two-digit field of `pre ++ [a, b] ++ post`. -/
theorem parseField2 {name : String} {pre post : Bytes} {a b : UInt8} {i j : Nat} (hi : pre.length = i)
    (hj : j = i + 2) :
    parseField name (pre ++ a :: b :: post) i j = parseU8Dec (bs name) [a, b] := by
  subst hi; subst hj
  unfold parseField slice
  rw [if_pos (by simp)]
  simp [liftP, bind, Except.bind, List.take_append]

theorem parseField3 {name : String} {pre post : Bytes} {a b c : UInt8} {i j : Nat} (hi : pre.length = i)
    (hj : j = i + 3) :
    parseField name (pre ++ a :: b :: c :: post) i j = parseU8Dec (bs name) [a, b, c] := by
  subst hi; subst hj
  unfold parseField slice
  rw [if_pos (by simp)]
  simp [liftP, bind, Except.bind, List.take_append]

theorem parseU8Dec_dec2 {n : UInt8} (h : n.toNat < 100) (name : Bytes) :
    parseU8Dec name (dec2 n) = .ok n := by
  simp [parseU8Dec, parse_dec2 n h]

theorem parseU8Dec_dec3 (n : UInt8) (name : Bytes) : parseU8Dec name (dec3 n) = .ok n := by
  simp [parseU8Dec, parse_dec3 n]

theorem parseU8Dec2_ok {name : Bytes} {a b n : UInt8} (h : parseU8Dec name [a, b] = .ok n) :
    Two n [a, b] := by
  obtain ⟨v, hv, rfl⟩ := parseU8Dec_ok h
  exact (parse2_some hv).2

theorem parseU8Dec3_ok {name : Bytes} {a b c n : UInt8} (h : parseU8Dec name [a, b, c] = .ok n) :
    Three n [a, b, c] := by
  obtain ⟨v, hv, rfl⟩ := parseU8Dec_ok h
  exact (parse3_some hv).2

theorem parse_two : ∀ n : UInt8, n.toNat < 10 → fromStrDec 255 [b' '+', dig n.toNat] = some n.toNat := by
  apply forall_u8; decide +kernel

theorem parse_three : ∀ n : UInt8, n.toNat < 100 → fromStrDec 255 (b' '+' :: dec2 n) = some n.toNat := by
  apply forall_u8; decide +kernel

theorem two_parse {n : UInt8} {x : Bytes} (h : Two n x) :
    ∃ a b, x = [a, b] ∧ ∀ name, parseU8Dec name [a, b] = .ok n := by
  obtain ⟨h, rfl | ⟨h', rfl⟩⟩ := h
  · exact ⟨_, _, rfl, fun name => parseU8Dec_dec2 h name⟩
  · exact ⟨_, _, rfl, fun name => by simp [parseU8Dec, parse_two n h']⟩

theorem three_parse {n : UInt8} {x : Bytes} (h : Three n x) :
    ∃ a b c, x = [a, b, c] ∧ ∀ name, parseU8Dec name [a, b, c] = .ok n := by
  obtain rfl | ⟨h', rfl⟩ := h
  · exact ⟨_, _, _, rfl, fun name => parseU8Dec_dec3 n name⟩
  · refine ⟨_, _, _, rfl, fun name => ?_⟩
    have := parse_three n h'
    rw [dec2] at this
    simp [parseU8Dec, this]

theorem two_plus {n : UInt8} {x : Bytes} (h : Two n x) : PlusEq x (dec2 n) := by
  obtain ⟨h, rfl | ⟨h', rfl⟩⟩ := h
  · exact .refl _
  · rw [dec2, show n.toNat / 10 = 0 by omega, show n.toNat % 10 = n.toNat by omega]
    exact .plus (.refl _)

theorem three_plus {n : UInt8} {x : Bytes} (h : Three n x) : PlusEq x (dec3 n) := by
  obtain rfl | ⟨h', rfl⟩ := h
  · exact .refl _
  · rw [dec3, show n.toNat / 100 = 0 by omega, show n.toNat / 10 % 10 = n.toNat / 10 by omega]
    exact .plus (.refl _)

theorem two_canon {n : UInt8} (h : n.toNat < 100) : Two n (dec2 n) := ⟨h, .inl rfl⟩

theorem three_canon (n : UInt8) : Three n (dec3 n) := .inl rfl

theorem parseU8Dec1_ok {name : Bytes} {a n : UInt8} (h : parseU8Dec name [a] = .ok n) :
    n.toNat < 10 ∧ a = dig n.toNat := by
  obtain ⟨v, hv, rfl⟩ := parseU8Dec_ok h
  have := parse1_some hv
  rw [ofNat_toNat_lt (by omega)]; exact this

/-! ## Enums -/

/-- The properties of the tables given to `byte_enum!`/`num_enum!` that make the enum conversions
inverse to each other. -/
class LawfulByteEnum (α : Type) [ByteEnum α] : Prop where
  complete : ∀ a : α, a ∈ ByteEnum.all
  inj : ∀ a b : α, ByteEnum.code a = ByteEnum.code b → a = b

instance : LawfulByteEnum ArmLevel where
  complete a := by cases a <;> decide
  inj a b h := by revert h; cases a <;> cases b <;> decide
instance : LawfulByteEnum TimeDataType where
  complete a := by cases a <;> decide
  inj a b h := by revert h; cases a <;> cases b <;> decide
instance : LawfulByteEnum ArmedState where
  complete a := by cases a <;> decide
  inj a b h := by revert h; cases a <;> cases b <;> decide
instance : LawfulByteEnum Weekday where
  complete a := by cases a <;> decide
  inj a b h := by revert h; cases a <;> cases b <;> decide
instance : LawfulByteEnum ClockDisplayMode where
  complete a := by cases a <;> decide
  inj a b h := by revert h; cases a <;> cases b <;> decide
instance : LawfulByteEnum DateDisplayMode where
  complete a := by cases a <;> decide
  inj a b h := by revert h; cases a <;> cases b <;> decide
instance : LawfulByteEnum ArmingStatus where
  complete a := by cases a <;> decide
  inj a b h := by revert h; cases a <;> cases b <;> decide
instance : LawfulByteEnum ArmUpState where
  complete a := by cases a <;> decide
  inj a b h := by revert h; cases a <;> cases b <;> decide
instance : LawfulByteEnum AlarmState where
  complete a := by cases a <;> decide
  inj a b h := by revert h; cases a <;> cases b <;> decide
instance : LawfulByteEnum TextDescriptionType where
  complete a := by cases a <;> decide
  inj a b h := by revert h; cases a <;> cases b <;> decide

theorem enum_ok {α : Type} [ByteEnum α] [LawfulByteEnum α] {v : UInt8} {a : α} :
    (ByteEnum.tryFrom v : R α) = .ok a ↔ ByteEnum.code a = v := by
  unfold ByteEnum.tryFrom
  rw [okOr_ok]
  constructor
  · intro h
    simpa using List.find?_some h
  · intro h
    cases hf : (ByteEnum.all (α := α)).find? (fun w => ByteEnum.code w == v) with
    | none =>
      rw [List.find?_eq_none] at hf
      have := hf a (LawfulByteEnum.complete a)
      simp [h] at this
    | some b =>
      have hb : ByteEnum.code b = v := by simpa using List.find?_some hf
      rw [LawfulByteEnum.inj b a (hb.trans h.symm)]

theorem enum_code {α : Type} [ByteEnum α] [LawfulByteEnum α] (a : α) :
    (ByteEnum.tryFrom (ByteEnum.code a) : R α) = .ok a := enum_ok.mpr rfl

theorem NoPanic.enum {α : Type} [ByteEnum α] (v : UInt8) : NoPanic (ByteEnum.tryFrom v : R α) :=
  NoPanic.okOr _ _

theorem armLevel_char (l : ArmLevel) : b' (armLevelChar l) = ByteEnum.code l := by cases l <;> rfl
theorem armingStatus_char (l : ArmingStatus) : b' (armingStatusChar l) = ByteEnum.code l := by
  cases l <;> rfl
theorem armUp_char (l : ArmUpState) : b' (armUpChar l) = ByteEnum.code l := by cases l <;> rfl
theorem alarm_char (l : AlarmState) : b' (alarmChar l) = ByteEnum.code l := by cases l <;> rfl
theorem timeType_char (l : TimeDataType) : b' (timeTypeChar l) = ByteEnum.code l := by
  cases l <;> rfl
theorem armedState_char (l : ArmedState) : b' (armedStateChar l) = ByteEnum.code l := by
  cases l <;> rfl
theorem weekday_char (l : Weekday) : b' (weekdayChar l) = ByteEnum.code l := by cases l <;> rfl
theorem clock_char (l : ClockDisplayMode) : b' (clockChar l) = ByteEnum.code l := by
  cases l <;> rfl
theorem date_char (l : DateDisplayMode) : b' (dateChar l) = ByteEnum.code l := by cases l <;> rfl
theorem textType_num (l : TextDescriptionType) : textTypeNum l = ByteEnum.code l := by
  cases l <;> rfl
theorem textType_lt (l : TextDescriptionType) : (ByteEnum.code l).toNat < 100 := by
  cases l <;> decide

/-! ## Limited numbers -/

theorem limited_ok {max : Nat} {v : UInt8} {x : Limited max} :
    (Limited.tryFrom v : R (Limited max)) = .ok x ↔ x = ⟨v⟩ ∧ InRange x := by
  unfold Limited.tryFrom InRange
  split
  · rename_i h
    constructor
    · intro e; injection e with e; subst e; exact ⟨rfl, h⟩
    · rintro ⟨rfl, _⟩; rfl
  · rename_i h
    constructor
    · intro e; cases e
    · rintro ⟨rfl, h'⟩; exact absurd h' h

theorem limited_val {max : Nat} {x : Limited max} (h : InRange x) :
    (Limited.tryFrom x.val : R (Limited max)) = .ok x := limited_ok.mpr ⟨rfl, h⟩

theorem NoPanic.limited {max : Nat} (v : UInt8) :
    NoPanic (Limited.tryFrom v : R (Limited max)) := by
  unfold Limited.tryFrom; split
  · exact NoPanic.ok _
  · exact NoPanic.err _

theorem expectAscii_ok {v : Bytes} (h : ValidAsciiBody v) : expectAscii v = .ok ⟨v⟩ := by
  have : AsciiPacket.tryFrom v = .ok ⟨v⟩ := ascii_tryFrom_ok.mpr ⟨rfl, h⟩
  simp [expectAscii, this]

theorem expectAscii_some {v : Bytes} {p : AsciiPacket} (h : expectAscii v = .ok p) :
    p.body = v ∧ ValidAsciiBody v := by
  unfold expectAscii at h
  split at h
  · rename_i q hq
    injection h with h; subst h
    exact ascii_tryFrom_ok.mp hq
  · cases h

end Elk
