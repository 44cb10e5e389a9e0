import Verif.Model.Clock
import Verif.Spec.Clock
import Verif.Props.Fuzz
/-!
# The times in the log (C148)
-/

namespace Elk.Props
open Elk.Spec

/-! ## Counting off days -/

def total (len : Nat → Nat) (k j : Nat) : Nat := ((List.range j).map fun i => len (k + i)).sum

theorem total_succ (len : Nat → Nat) (k j : Nat) : total len k (j + 1) = total len k j + len (k + j) := by
  simp [total, List.range_succ]

theorem total_first (len : Nat → Nat) (k : Nat) : ∀ j,
    total len k (j + 1) = len k + total len (k + 1) j := by
  intro j
  induction j with
  | zero => simp [total]
  | succ j ih =>
    rw [total_succ, ih, total_succ]
    rw [show k + (j + 1) = k + 1 + j by omega]
    omega

theorem countOff_spec (len : Nat → Nat) : ∀ fuel k n, ∃ j r, countOff len fuel k n = (k + j, r) ∧
    j ≤ fuel ∧ n = total len k j + r ∧ (r < len (k + j) ∨ j = fuel) := by
  intro fuel
  induction fuel with
  | zero => intro k n; exact ⟨0, n, rfl, Nat.le_refl _, by simp [total], .inr rfl⟩
  | succ fuel ih =>
    intro k n
    by_cases h : n < len k
    · refine ⟨0, n, ?_, Nat.zero_le _, by simp [total], .inl h⟩
      rw [countOff, if_pos h]
      rfl
    · obtain ⟨j, r, a, b, c, d⟩ := ih (k + 1) (n - len k)
      refine ⟨j + 1, r, ?_, by omega, ?_, ?_⟩
      · rw [countOff, if_neg h, a]
        rw [show k + 1 + j = k + (j + 1) by omega]
      · rw [total_first]
        omega
      · rw [show k + (j + 1) = k + 1 + j by omega]
        rcases d with d | d
        · exact .inl d
        · exact .inr (by omega)

theorem leap_iff (y : Nat) : Civil.leap y = true ↔ IsLeap y := by
  unfold Civil.leap IsLeap
  simp only [Bool.and_eq_true, Bool.or_eq_true, beq_iff_eq, bne_iff_ne]
  omega

theorem months_sum (y : Nat) : (months y).sum = Civil.yearLen y := by
  unfold months Civil.yearLen
  by_cases h : IsLeap y
  · rw [if_pos h, if_pos ((leap_iff y).mpr h)]; rfl
  · rw [if_neg h, if_neg (fun e => h ((leap_iff y).mp e))]; rfl

theorem months_get (y : Nat) : ∀ m, 1 ≤ m → m ≤ 12 →
    (months y)[m - 1]? = some (Civil.monthLen y m) := by
  intro m h1 h2
  have : m = 1 ∨ m = 2 ∨ m = 3 ∨ m = 4 ∨ m = 5 ∨ m = 6 ∨ m = 7 ∨ m = 8 ∨ m = 9 ∨ m = 10 ∨ m = 11 ∨
    m = 12 := by omega
  unfold months Civil.monthLen
  by_cases h : IsLeap y
  · rw [if_pos h, if_pos ((leap_iff y).mpr h)]
    rcases this with h | h | h | h | h | h | h | h | h | h | h | h <;> subst h <;> rfl
  · rw [if_neg h, if_neg (fun e => h ((leap_iff y).mp e))]
    rcases this with h | h | h | h | h | h | h | h | h | h | h | h <;> subst h <;> rfl

theorem months_take (y : Nat) : ∀ j, j ≤ 12 → ((months y).take j).sum = total (Civil.monthLen y) 1 j := by
  intro j
  induction j with
  | zero => intro _; simp [total]
  | succ j ih =>
    intro h
    have g := months_get y (j + 1) (by omega) h
    rw [Nat.add_sub_cancel] at g
    rw [total_succ, ← ih (by omega), List.take_add_one, g]
    simp [Nat.add_comm]

theorem before_total (y : Nat) : daysBefore y = total Civil.yearLen 0 y := by
  unfold daysBefore total
  congr 1
  apply List.map_congr_left
  intro k _
  rw [months_sum, Nat.zero_add]

theorem before_succ (y : Nat) : daysBefore (y + 1) = daysBefore y + Civil.yearLen y := by
  rw [before_total, before_total, total_succ, Nat.zero_add]

theorem year_pos (y : Nat) : 365 ≤ Civil.yearLen y := by
  unfold Civil.yearLen; split <;> omega

theorem before_le {a b : Nat} (h : a ≤ b) : daysBefore a ≤ daysBefore b := by
  induction h with
  | refl => exact Nat.le_refl _
  | step _ ih => rw [before_succ]; omega

theorem before_ge (y : Nat) : y ≤ daysBefore y := by
  induction y with
  | zero => omega
  | succ y ih =>
    have := year_pos y
    rw [before_succ]
    omega

/-- The date of a day. -/
theorem date_of (n : Nat) : ∃ y j d, countOff Civil.yearLen n 0 n = (y, j) ∧
    countOff (Civil.monthLen y) 12 1 j = d ∧ 1 ≤ d.1 ∧ d.1 ≤ 12 ∧ d.2 < Civil.monthLen y d.1 ∧
    n = daysBefore y + ((months y).take (d.1 - 1)).sum + d.2 := by
  obtain ⟨j, r, a, _, c, d⟩ := countOff_spec Civil.yearLen n 0 n
  rw [Nat.zero_add] at a d
  have hr : r < Civil.yearLen j := by
    rcases d with d | d
    · exact d
    · have h1 := before_ge j
      have h2 := year_pos j
      rw [before_total] at h1
      omega
  obtain ⟨k, s, e, f, g, h⟩ := countOff_spec (Civil.monthLen j) 12 1 r
  have hk : k < 12 := by
    rcases Nat.lt_or_ge k 12 with hk | hk
    · exact hk
    · have : k = 12 := by omega
      subst this
      rw [← months_take j 12 (Nat.le_refl _)] at g
      have : ((months j).take 12).sum = Civil.yearLen j := months_sum j
      omega
  have hs : s < Civil.monthLen j (1 + k) := by
    rcases h with h | h
    · exact h
    · omega
  refine ⟨j, r, _, a, rfl, ?_⟩
  rw [e]
  dsimp only
  refine ⟨by omega, by omega, hs, ?_⟩
  rw [before_total, show 1 + k - 1 = k by omega, months_take j k (by omega)]
  omega

/-! ## The text -/

/-- What `jiff` shows of a date and time. -/
def stampOf (c : Civil) : Stamp := ⟨c.year, c.month, c.day, c.hour, c.minute, c.second, c.nano / 1000⟩

theorem civil_real {n : Nat} (h : n < daysBefore 10000 * 86400000000000) :
    (stampOf (Civil.of n)).Real ∧ (stampOf (Civil.of n)).micros = n / 1000 := by
  obtain ⟨y, j, d, h1, h2, h3, h4, h5, h6⟩ := date_of (n / 86400000000000)
  obtain ⟨m, d⟩ := d
  dsimp only at h3 h4 h5 h6
  have e : Civil.of n = ⟨y, m, d + 1, n % 86400000000000 / 3600000000000,
      n % 86400000000000 / 60000000000 % 60, n % 86400000000000 / 1000000000 % 60,
      n % 86400000000000 % 1000000000⟩ := by
    unfold Civil.of
    simp only [h1, h2]
  have hy : y < 10000 := by
    rcases Nat.lt_or_ge y 10000 with hy | hy
    · exact hy
    · have := before_le hy
      omega
  have hd : (stampOf (Civil.of n)).days = n / 86400000000000 := by
    rw [e, h6]
    unfold Stamp.days stampOf
    dsimp only
    omega
  constructor
  · rw [e]
    refine ⟨hy, h3, ?_, ⟨_, months_get y m h3 h4, ?_⟩, ?_, ?_, ?_, ?_⟩ <;> dsimp only [stampOf] <;> omega
  · unfold Stamp.micros
    rw [hd, e]
    dsimp only [stampOf]
    omega

theorem monthLen_le (y m : Nat) : Civil.monthLen y m ≤ 31 := by
  unfold Civil.monthLen
  split
  · split <;> omega
  · split <;> omega

theorem real_month {s : Stamp} (h : s.Real) : s.month ≤ 12 ∧ s.day ≤ Civil.monthLen s.year s.month := by
  obtain ⟨n, h1, h2⟩ := h.inMonth
  obtain ⟨h3, _⟩ := List.getElem?_eq_some_iff.mp h1
  have : (months s.year).length = 12 := rfl
  have := h.month
  have hm : s.month ≤ 12 := by omega
  rw [months_get _ _ h.month hm] at h1
  cases h1
  exact ⟨hm, h2⟩

theorem strftime_written {c : Civil} (h : (stampOf c).Real) :
    (stampOf c).Written (strftime c timeFormat) := by
  have e : strftime c timeFormat = padDec 4 c.year ++ bs "-" ++ padDec 2 c.month ++ bs "-" ++
      padDec 2 c.day ++ bs "T" ++ padDec 2 c.hour ++ bs ":" ++ padDec 2 c.minute ++ bs ":" ++
      padDec 2 c.second ++ bs "." ++ padDec 6 (c.nano / 1000) := by
    have : timeFormat = [0x25, 0x59, 0x2D, 0x25, 0x6D, 0x2D, 0x25, 0x64, 0x54, 0x25, 0x48, 0x3A, 0x25,
      0x4D, 0x3A, 0x25, 0x53, 0x25, 0x2E, 0x36, 0x66] := by decide +kernel
    rw [this]
    simp [strftime]
    rfl
  rw [e]
  obtain ⟨hm, hd⟩ := real_month h
  have := monthLen_le c.year c.month
  have g1 := h.year
  have g2 := h.hour
  have g3 := h.minute
  have g4 := h.second
  have g5 := h.micro
  dsimp only [stampOf] at *
  exact .mk (padDec_spec (w := 3) (by omega)) (padDec_spec (w := 1) (by omega))
    (padDec_spec (w := 1) (by omega)) (padDec_spec (w := 1) (by omega)) (padDec_spec (w := 1) (by omega))
    (padDec_spec (w := 1) (by omega)) (padDec_spec (w := 5) (by omega))

/-! ## The order of texts -/

theorem digits_cons (b : UInt8) (l : Bytes) :
    digitsValue (b :: l) = (b.toNat - 48) * 10 ^ l.length + digitsValue l := by
  have : ∀ (l : Bytes) (a : Nat), l.foldl (fun n b => 10 * n + (b.toNat - 48)) a =
      a * 10 ^ l.length + digitsValue l := by
    intro l
    induction l with
    | nil => intro a; simp [digitsValue]
    | cons c l ih =>
      intro a
      unfold digitsValue
      rw [List.foldl_cons, List.foldl_cons, ih, ih (10 * 0 + _), List.length_cons, Nat.pow_succ]
      rw [Nat.add_mul]
      simp only [Nat.mul_zero, Nat.zero_add]
      rw [Nat.mul_comm 10 a, Nat.mul_assoc, Nat.mul_comm 10 (10 ^ l.length)]
      omega
  show List.foldl _ _ _ = _
  rw [List.foldl_cons, this]
  simp

theorem numeral_lt {w n m : Nat} {a b : Bytes} (ha : Numeral w n a) (hb : Numeral w m b) :
    (a < b ↔ n < m) ∧ (a = b ↔ n = m) := by
  obtain ⟨a1, a2, a3⟩ := ha
  obtain ⟨b1, b2, b3⟩ := hb
  subst a3 b3
  induction w generalizing a b with
  | zero =>
    obtain rfl := List.length_eq_zero_iff.mp a1
    obtain rfl := List.length_eq_zero_iff.mp b1
    simp
  | succ w ih =>
    match a, b, a1, b1 with
    | x :: a, y :: b, a1, b1 =>
      have a1 : a.length = w := by simpa using a1
      have b1 : b.length = w := by simpa using b1
      have a2' : ∀ c ∈ a, IsDigit c := fun c hc => a2 c (List.mem_cons_of_mem _ hc)
      have b2' : ∀ c ∈ b, IsDigit c := fun c hc => b2 c (List.mem_cons_of_mem _ hc)
      obtain ⟨i1, i2⟩ := ih a1 a2' b1 b2'
      have h1 := digitsValue_lt a1 a2'
      have h2 := digitsValue_lt b1 b2'
      obtain ⟨x1, x2⟩ := a2 x List.mem_cons_self
      obtain ⟨y1, y2⟩ := b2 y List.mem_cons_self
      rw [digits_cons, digits_cons, a1, b1, List.cons_lt_cons_iff, UInt8.lt_iff_toNat_lt]
      rw [List.cons.injEq, i1, i2, ← UInt8.toNat_inj]
      generalize 10 ^ w = p at *
      rcases Nat.lt_trichotomy x.toNat y.toNat with h | h | h
      · have : (x.toNat - 48 + 1) * p ≤ (y.toNat - 48) * p := Nat.mul_le_mul_right _ (by omega)
        rw [Nat.add_mul] at this
        constructor <;> constructor <;> intro h' <;> omega
      · rw [h]
        constructor <;> constructor <;> intro h' <;> omega
      · have : (y.toNat - 48 + 1) * p ≤ (x.toNat - 48) * p := Nat.mul_le_mul_right _ (by omega)
        rw [Nat.add_mul] at this
        constructor <;> constructor <;> intro h' <;> omega

theorem lt_append {a b c d : Bytes} (h : a.length = b.length) :
    (a ++ c < b ++ d ↔ a < b ∨ (a = b ∧ c < d)) := by
  induction a generalizing b with
  | nil => obtain rfl := List.length_eq_zero_iff.mp h.symm; simp
  | cons x a ih =>
    match b, h with
    | y :: b, h =>
      rw [List.cons_append, List.cons_append, List.cons_lt_cons_iff, List.cons_lt_cons_iff,
        ih (by simpa using h), List.cons.injEq]
      constructor
      · rintro (h | ⟨h, h' | ⟨h', h''⟩⟩)
        · exact .inl (.inl h)
        · exact .inl (.inr ⟨h, h'⟩)
        · exact .inr ⟨⟨h, h'⟩, h''⟩
      · rintro ((h | ⟨h, h'⟩) | ⟨⟨h, h'⟩, h''⟩)
        · exact .inl h
        · exact .inr ⟨h, .inl h'⟩
        · exact .inr ⟨h, .inr ⟨h', h''⟩⟩

theorem written_lt {s t : Stamp} {a b : Bytes} (ha : s.Written a) (hb : t.Written b) :
    (a < b ↔ s.year < t.year ∨ s.year = t.year ∧ (s.month < t.month ∨ s.month = t.month ∧
      (s.day < t.day ∨ s.day = t.day ∧ (s.hour < t.hour ∨ s.hour = t.hour ∧
      (s.minute < t.minute ∨ s.minute = t.minute ∧ (s.second < t.second ∨ s.second = t.second ∧
      s.micro < t.micro)))))) := by
  cases ha with
  | mk a1 a2 a3 a4 a5 a6 a7 =>
    cases hb with
    | mk b1 b2 b3 b4 b5 b6 b7 =>
      obtain ⟨c1, d1⟩ := numeral_lt a1 b1
      obtain ⟨c2, d2⟩ := numeral_lt a2 b2
      obtain ⟨c3, d3⟩ := numeral_lt a3 b3
      obtain ⟨c4, d4⟩ := numeral_lt a4 b4
      obtain ⟨c5, d5⟩ := numeral_lt a5 b5
      obtain ⟨c6, d6⟩ := numeral_lt a6 b6
      obtain ⟨c7, d7⟩ := numeral_lt a7 b7
      simp only [List.append_assoc]
      have same : ∀ {x c d : Bytes}, (x ++ c < x ++ d ↔ c < d) := by
        intro x c d
        rw [lt_append rfl]
        simp [List.lt_irrefl]
      rw [lt_append (a1.1.trans b1.1.symm), same, lt_append (a2.1.trans b2.1.symm), same,
        lt_append (a3.1.trans b3.1.symm), same, lt_append (a4.1.trans b4.1.symm), same,
        lt_append (a5.1.trans b5.1.symm), same, lt_append (a6.1.trans b6.1.symm), same,
        c1, c2, c3, c4, c5, c6, c7, d1, d2, d3, d4, d5, d6]

theorem written_same {s : Stamp} {a b : Bytes} (ha : s.Written a) (hb : s.Written b) : a = b := by
  cases ha with
  | mk a1 a2 a3 a4 a5 a6 a7 =>
    cases hb with
    | mk b1 b2 b3 b4 b5 b6 b7 =>
      rw [(numeral_lt a1 b1).2.mpr rfl, (numeral_lt a2 b2).2.mpr rfl, (numeral_lt a3 b3).2.mpr rfl,
        (numeral_lt a4 b4).2.mpr rfl, (numeral_lt a5 b5).2.mpr rfl, (numeral_lt a6 b6).2.mpr rfl,
        (numeral_lt a7 b7).2.mpr rfl]

/-- A later date is more days on. -/
theorem days_lt {s t : Stamp} (hs : s.Real) (ht : t.Real)
    (h : s.year < t.year ∨ s.year = t.year ∧ (s.month < t.month ∨ s.month = t.month ∧ s.day < t.day)) :
    s.days < t.days := by
  obtain ⟨s1, s2⟩ := real_month hs
  obtain ⟨t1, t2⟩ := real_month ht
  have sm := hs.month
  have sd := hs.day
  have tm := ht.month
  have td := ht.day
  have tot : ∀ y j, j ≤ 12 → ∀ k, k ≤ j → total (Civil.monthLen y) 1 k ≤ total (Civil.monthLen y) 1 j := by
    intro y j _ k hk
    induction hk with
    | refl => exact Nat.le_refl _
    | step _ ih => rw [total_succ]; have := ih (by omega); omega
  have sub : s.month - 1 + 1 = s.month := by omega
  have one : 1 + (s.month - 1) = s.month := by omega
  have sl := total_succ (Civil.monthLen s.year) 1 (s.month - 1)
  rw [sub, one] at sl
  unfold Stamp.days
  rw [months_take _ _ (by omega), months_take _ _ (by omega)]
  rcases h with h | ⟨h, h' | ⟨h', _⟩⟩
  · have h1 := before_le (show s.year + 1 ≤ t.year from h)
    have h2 := tot s.year 12 (Nat.le_refl _) s.month (by omega)
    have h3 : total (Civil.monthLen s.year) 1 12 = Civil.yearLen s.year :=
      (months_take s.year 12 (Nat.le_refl _)).symm.trans (months_sum s.year)
    rw [before_succ] at h1
    omega
  · rw [← h]
    have h2 := tot s.year (t.month - 1) (by omega) s.month (by omega)
    omega
  · rw [← h, ← h']
    omega

/-- The order of dates and times. -/
theorem micros_lt {s t : Stamp} (hs : s.Real) (ht : t.Real)
    (h : s.year < t.year ∨ s.year = t.year ∧ (s.month < t.month ∨ s.month = t.month ∧
      (s.day < t.day ∨ s.day = t.day ∧ (s.hour < t.hour ∨ s.hour = t.hour ∧
      (s.minute < t.minute ∨ s.minute = t.minute ∧ (s.second < t.second ∨ s.second = t.second ∧
      s.micro < t.micro)))))) : s.micros < t.micros := by
  have s1 := hs.hour
  have s2 := hs.minute
  have s3 := hs.second
  have s4 := hs.micro
  unfold Stamp.micros
  by_cases hd : s.year < t.year ∨ s.year = t.year ∧ (s.month < t.month ∨ s.month = t.month ∧
      s.day < t.day)
  · have := days_lt hs ht hd
    omega
  · have e1 : s.year = t.year := by omega
    have e2 : s.month = t.month := by omega
    have e3 : s.day = t.day := by omega
    have : s.days = t.days := by unfold Stamp.days; rw [e1, e2, e3]
    omega

theorem written_micros {s t : Stamp} {a b : Bytes} (hs : s.Real) (ht : t.Real) (ha : s.Written a)
    (hb : t.Written b) : (a < b ↔ s.micros < t.micros) ∧ (a = b ↔ s.micros = t.micros) := by
  have l1 := written_lt ha hb
  have l2 := written_lt hb ha
  have m1 := micros_lt hs ht
  have m2 := micros_lt ht hs
  by_cases h1 : a < b
  · have := m1 (l1.mp h1)
    refine ⟨⟨fun _ => this, fun _ => h1⟩, fun e => ?_, fun e => ?_⟩
    · subst e
      exact absurd h1 (List.lt_irrefl _)
    · omega
  · by_cases h2 : b < a
    · have := m2 (l2.mp h2)
      refine ⟨⟨fun h => absurd h h1, fun h => ?_⟩, fun e => ?_, fun e => ?_⟩
      · omega
      · subst e
        exact absurd h2 (List.lt_irrefl _)
      · omega
    · have e : s = t := by
        rw [l1] at h1
        rw [l2] at h2
        obtain ⟨y, mo, d, h, mi, se, us⟩ := s
        obtain ⟨y', mo', d', h', mi', se', us'⟩ := t
        dsimp only at h1 h2
        have e1 : y = y' := by omega
        have e2 : mo = mo' := by omega
        have e3 : d = d' := by omega
        have e4 : h = h' := by omega
        have e5 : mi = mi' := by omega
        have e6 : se = se' := by omega
        have e7 : us = us' := by omega
        subst e1 e2 e3 e4 e5 e6 e7
        rfl
      subst e
      have := written_same ha hb
      subst this
      simp [List.lt_irrefl]

/-! ## The theorems -/

theorem local_shows {t off : Int} (h : FourDigits t off) :
    (localNanos t off).toNat < daysBefore 10000 * 86400000000000 ∧
      (((localNanos t off).toNat / 1000 : Nat) : Int) = clockShows t off := by
  obtain ⟨h1, h2⟩ := h
  unfold clockShows at *
  unfold localNanos epochDay
  generalize daysBefore 10000 = n at *
  omega

/-- **C148** The time of a line of the log is the date and time of day that a clock shows at the
offset of the time zone, to the microsecond, written `2026-11-17T14:00:00.000000`. -/
theorem C148_time {t off : Int} (h : FourDigits t off) :
    ∃ s : Stamp, s.Real ∧ (s.micros : Int) = clockShows t off ∧ s.Written (formatTime t off) := by
  obtain ⟨h1, h2⟩ := local_shows h
  obtain ⟨h3, h4⟩ := civil_real h1
  exact ⟨_, h3, by rw [h4]; exact h2, strftime_written h3⟩

/-- **C148** There is no other such date, and no other such text. -/
theorem C148_one {s s' : Stamp} {a a' : Bytes} (hs : s.Real) (hs' : s'.Real) (ha : s.Written a)
    (ha' : s'.Written a') : s.micros = s'.micros ↔ a = a' := (written_micros hs hs' ha ha').2.symm

/-- **C148** Texts are in order as what the clock shows. -/
theorem C148_order {t t' off off' : Int} (h : FourDigits t off) (h' : FourDigits t' off') :
    (formatTime t off < formatTime t' off' ↔ clockShows t off < clockShows t' off') ∧
    (formatTime t off = formatTime t' off' ↔ clockShows t off = clockShows t' off') := by
  obtain ⟨s, a1, a2, a3⟩ := C148_time h
  obtain ⟨s', b1, b2, b3⟩ := C148_time h'
  obtain ⟨c1, c2⟩ := written_micros a1 b1 a3 b3
  rw [c1, c2, ← a2, ← b2]
  omega

/-- **C148** So as long as the offset of the time zone stays the same, the order of the texts is that of
the times, to the microsecond. -/
theorem C148_chronological {t t' off : Int} (h : FourDigits t off) (h' : FourDigits t' off) :
    (formatTime t off < formatTime t' off ↔ t / 1000 < t' / 1000) ∧
    (formatTime t off = formatTime t' off ↔ t / 1000 = t' / 1000) := by
  obtain ⟨c1, c2⟩ := C148_order h h'
  rw [c1, c2]
  unfold clockShows
  omega

/-- **C148** But the offset is not written: when clocks are put back, every time that passes until they
show again what they showed then is written like a time before, and a later line bears an earlier
time. -/
theorem C148_put_back {t off back : Int} (hb : 0 < back) (h : FourDigits t off)
    (h' : FourDigits t (off - back)) :
    formatTime (t + back * 1000000000) (off - back) = formatTime t off ∧
    formatTime t (off - back) < formatTime t off := by
  have h'' : FourDigits (t + back * 1000000000) (off - back) := by
    obtain ⟨h1, h2⟩ := h
    unfold FourDigits clockShows at *
    generalize daysBefore 10000 = n at *
    omega
  refine ⟨(C148_order h'' h).2.mpr ?_, (C148_order h' h).1.mpr ?_⟩ <;> unfold clockShows <;> omega

/-- Not vacuous: the night in which summer time ends in Berlin in 2026.  An hour later it is as late. -/
example : formatTime 1792888200123456789 7200 = bs "2026-10-25T02:30:00.123456" ∧
    formatTime 1792891800123456789 3600 = bs "2026-10-25T02:30:00.123456" := by decide +kernel

theorem years_shown : daysBefore 10000 = 3652425 := by
  have cyc : ∀ y, (months (y + 400)).sum = (months y).sum := by
    intro y
    have : IsLeap (y + 400) ↔ IsLeap y := by unfold IsLeap; omega
    unfold months
    by_cases h : IsLeap y
    · rw [if_pos h, if_pos (this.mpr h)]
    · rw [if_neg h, if_neg (fun e => h (this.mp e))]
  have era : ∀ y, daysBefore (y + 400) = daysBefore y + daysBefore 400 := by
    intro y
    induction y with
    | zero => simp [daysBefore]
    | succ y ih =>
      rw [show y + 1 + 400 = y + 400 + 1 by omega, before_succ (y + 400), before_succ y, ih,
        ← months_sum (y + 400), ← months_sum y, cyc]
      omega
  have one : daysBefore 400 = 146097 := by decide +kernel
  have many : ∀ k, daysBefore (400 * k) = 146097 * k := by
    intro k
    induction k with
    | zero => rfl
    | succ k ih => rw [Nat.mul_succ, era, ih, one]; omega
  exact many 25

/-- And these are times of which the theorems speak. -/
example : FourDigits 1792888200123456789 7200 ∧ FourDigits 1792888200123456789 (7200 - 3600) := by
  unfold FourDigits
  rw [years_shown]
  decide +kernel

end Elk.Props
