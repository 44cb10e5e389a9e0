import Verif.Spec.Complaint
import Verif.Lemmas.MsgMore
/-! # Lemmas: what parse errors say -/

namespace Elk
open Spec

/-! ## Texts -/

theorem digitChar_u8 : ∀ n : Nat, n < 10 → (Nat.digitChar n).toUInt8 = decDigit n := by decide

theorem decGo_toDigits : ∀ (fuel n : Nat), n < fuel →
    decGo fuel n = (Nat.toDigits 10 n).map Char.toUInt8 := by
  intro fuel
  induction fuel with
  | zero => intro n h; omega
  | succ fuel ih =>
    intro n h
    rw [decGo]
    split
    · rename_i hn
      rw [Nat.toDigits_of_lt_base hn, List.map_singleton, digitChar_u8 n hn]
    · rename_i hn
      rw [ih (n / 10) (by omega), Nat.toDigits_of_base_le (by omega) (Nat.le_of_not_lt hn),
        List.map_append, List.map_singleton, digitChar_u8 _ (Nat.mod_lt _ (by omega))]

theorem decStr_num (n : Nat) : decStr n = num n := by
  unfold decStr num
  rw [decGo_toDigits _ _ (Nat.lt_succ_self n)]
  show _ = bs (Nat.repr n)
  unfold Nat.repr
  simp [bs]

theorem debugElems_eq (l : Bytes) (s : String) :
    bs ((l.map UInt8.toNat).foldl (fun l r => l ++ ", " ++ toString r) s) = bs s ++ debugElems l := by
  induction l generalizing s with
  | nil => simp [debugElems]
  | cons b l ih =>
    rw [List.map_cons, List.foldl_cons, ih, debugElems, decStr_num]
    simp [bs, num]

theorem debugBytes_listed (l : Bytes) : debugBytes l = listed l := by
  unfold listed
  cases l with
  | nil => rfl
  | cons b l =>
    cases l with
    | nil =>
      show debugBytes [b] = bs (String.push ("[" ++ toString b.toNat) ']')
      rw [debugBytes, decStr_num, debugElems]
      simp [bs, num]
    | cons c l =>
      show debugBytes (b :: c :: l) = bs (String.push (((c :: l).map UInt8.toNat).foldl
        (fun l r => l ++ ", " ++ toString r) ("[" ++ toString b.toNat)) ']')
      rw [debugBytes, decStr_num]
      have h := debugElems_eq (c :: l) ("[" ++ toString b.toNat)
      rw [show ∀ s : String, bs (s.push ']') = bs s ++ bs "]" from fun s => by simp [bs], h]
      simp [bs, num]

theorem debugChar_quoted : ∀ b : UInt8, Printable b → debugChar b = quoted b := by
  unfold Printable
  apply forall_u8; decide +kernel

/-! ## Reading numbers -/

theorem digitsGo_reads {max : Nat} : ∀ {l : Bytes} {acc v : Nat}, digitsGo max acc l = some v →
    (∀ b ∈ l, IsDigit b) ∧ l.foldl (fun n b => 10 * n + (b.toNat - 48)) acc = v
  | [], acc, v, h => by
    simp only [digitsGo, Option.some.injEq] at h
    exact ⟨by simp, h⟩
  | b :: l, acc, v, h => by
    obtain ⟨n, hn, rfl, h1⟩ := digitsGo_cons_some h
    obtain ⟨h2, h3⟩ := digitsGo_reads h1
    have hd : (dig n).toNat = 48 + n := by
      unfold dig; rw [ofNat_toNat_lt (by omega)]
    refine ⟨?_, ?_⟩
    · intro b hb
      rcases List.mem_cons.mp hb with rfl | hb
      · unfold IsDigit; omega
      · exact h2 b hb
    · rw [List.foldl_cons, hd, ← h3]
      congr 1
      omega

theorem foldl_ge (l : Bytes) : ∀ acc : Nat,
    acc ≤ l.foldl (fun n b => 10 * n + (b.toNat - 48)) acc := by
  induction l with
  | nil => intro acc; exact Nat.le_refl _
  | cons b l ih =>
    intro acc
    have := ih (10 * acc + (b.toNat - 48))
    rw [List.foldl_cons]
    omega

theorem digitsGo_some {max : Nat} : ∀ {l : Bytes} {acc : Nat}, (∀ b ∈ l, IsDigit b) →
    l.foldl (fun n b => 10 * n + (b.toNat - 48)) acc ≤ max →
    digitsGo max acc l = some (l.foldl (fun n b => 10 * n + (b.toNat - 48)) acc)
  | [], acc, _, _ => by simp [digitsGo]
  | b :: l, acc, h, hm => by
    have hb := h b List.mem_cons_self
    rw [digitsGo, if_pos (by
      rw [UInt8.le_iff_toNat_le, UInt8.le_iff_toNat_le]; exact hb)]
    have hs : (b - b' '0').toNat = b.toNat - 48 := by
      rw [UInt8.toNat_sub_of_le _ _ (by rw [UInt8.le_iff_toNat_le]; exact hb.1)]; rfl
    dsimp only
    rw [hs]
    rw [List.foldl_cons] at hm ⊢
    have := foldl_ge l (10 * acc + (b.toNat - 48))
    rw [Nat.mul_comm acc 10, if_pos (by omega)]
    exact digitsGo_some (fun b hb => h b (List.mem_cons_of_mem _ hb)) hm

theorem fromStr_reads {max : Nat} {s : Bytes} {v : Nat} (h : fromStrDec max s = some v) :
    Reads s v := by
  unfold fromStrDec at h
  split at h
  · cases h
  · split at h
    · cases h
    · have := digitsGo_reads h
      exact ⟨_, .inl rfl, by simp, this.1, this.2⟩
  · rename_i b r hr
    split at h
    · rename_i hb
      have := digitsGo_reads h
      refine ⟨r, .inr (by rw [hb]), ?_, this.1, this.2⟩
      rintro rfl
      exact hr rfl
    · have := digitsGo_reads h
      exact ⟨_, .inl rfl, by simp, this.1, this.2⟩

theorem fromStr_le {max : Nat} {s : Bytes} {v : Nat} (hw : fromStrDec max s = some v) : v ≤ max := by
  unfold fromStrDec at hw
  split at hw
  · cases hw
  · split at hw
    · cases hw
    · exact digitsGo_le (by simp) hw
  · rename_i b r hne
    split at hw
    · exact digitsGo_le (by rintro rfl; exact hne rfl) hw
    · exact digitsGo_le (by simp) hw

theorem digit_ne_plus {b : UInt8} (h : IsDigit b) : b ≠ b' '+' := by
  rintro rfl; revert h; unfold IsDigit; decide

theorem reads_fromStr {max : Nat} {s : Bytes} {v : Nat} (h : Reads s v) (hv : v ≤ max) :
    fromStrDec max s = some v := by
  obtain ⟨ds, hs, hne, hd, rfl⟩ := h
  have hg := digitsGo_some (acc := 0) hd hv
  cases ds with
  | nil => exact absurd rfl hne
  | cons d ds =>
    have hp := digit_ne_plus (hd d List.mem_cons_self)
    rcases hs with rfl | rfl
    · cases ds with
      | nil => rw [fromStrDec, if_neg hp]; exact hg
      | cons e ds => rw [fromStrDec, if_neg hp]; exact hg; simp
    · rw [fromStrDec, if_pos rfl]
      · exact hg
      · simp

theorem fromStr_none {max : Nat} {s : Bytes} (h : fromStrDec max s = none) :
    ∀ v, v ≤ max → ¬ Reads s v := by
  intro v hv hr
  rw [reads_fromStr hr hv] at h
  cases h

/-! ## Errors -/

/-- Every error of a computation has a property. -/
def Errs {α : Type} (Q : Bytes → Prop) (x : R α) : Prop := ∀ e, x = .error (.err e) → Q e

theorem Errs.ok {α : Type} {Q : Bytes → Prop} (a : α) : Errs Q (.ok a : R α) := by
  intro e h; cases h

theorem Errs.panic {α : Type} {Q : Bytes → Prop} (p : Panic) : Errs Q (.error (.panic p) : R α) := by
  intro e h; cases h

theorem Errs.err {α : Type} {Q : Bytes → Prop} {e : Bytes} (h : Q e) : Errs Q (errR e : R α) := by
  intro e' h'; cases h'; exact h

theorem Errs.bind {α β : Type} {Q : Bytes → Prop} {x : R α} {f : α → R β} (hx : Errs Q x)
    (hf : ∀ a, x = .ok a → Errs Q (f a)) : Errs Q (x >>= f) := by
  intro e h
  cases x with
  | error r =>
    cases h
    exact hx e rfl
  | ok a => exact hf a rfl e h

theorem Errs.failIf {Q : Bytes → Prop} {c : Prop} [Decidable c] {msg : Bytes} (h : c → Q msg) :
    Errs Q (failIf c msg) := by
  unfold Elk.failIf
  split
  · exact Errs.err (h ‹_›)
  · exact Errs.ok _

theorem Errs.assertR {Q : Bytes → Prop} {c : Prop} [Decidable c] : Errs Q (assertR c) := by
  unfold Elk.assertR
  split
  · exact Errs.ok _
  · exact Errs.panic _

theorem Errs.okOr {α : Type} {Q : Bytes → Prop} {o : Option α} {msg : Bytes} (h : o = none → Q msg) :
    Errs Q (okOr o msg) := by
  unfold Elk.okOr
  split
  · exact Errs.ok _
  · exact Errs.err (h rfl)

theorem Errs.liftP {α : Type} {Q : Bytes → Prop} {x : P α} : Errs Q (liftP x) := by
  unfold Elk.liftP
  split
  · exact Errs.ok _
  · exact Errs.panic _

theorem Errs.fillM {α : Type} {Q : Bytes → Prop} {f : Nat → R α} : ∀ {n : Nat},
    (∀ i, i < n → Errs Q (f i)) → Errs Q (fillM f n)
  | 0, _ => Errs.ok _
  | n + 1, h => by
    refine Errs.bind (Errs.fillM fun i hi => h i (by omega)) fun v _ => ?_
    exact Errs.bind (h n (by omega)) fun a _ => Errs.ok _

theorem Errs.ite {α : Type} {Q : Bytes → Prop} {c : Prop} [Decidable c] {x y : R α} (hx : c → Errs Q x)
    (hy : ¬ c → Errs Q y) : Errs Q (if c then x else y) := by
  split
  · exact hx ‹_›
  · exact hy ‹_›

theorem utf8_ascii : ∀ {l : Bytes}, (∀ b ∈ l, b.toNat < 128) → utf8Go [] l = true
  | [], _ => by simp [utf8Go]
  | b :: l, h => by
    rw [utf8Go, if_pos (by rw [UInt8.lt_iff_toNat_lt]; exact h b List.mem_cons_self)]
    exact utf8_ascii fun b hb => h b (List.mem_cons_of_mem _ hb)

theorem slice_field {data s : Bytes} {i j : Nat} (h : slice data i j = .ok s) :
    s = fieldAt data i (j - i) ∧ i ≤ j ∧ j ≤ data.length := by
  obtain ⟨h1, h2⟩ := slice_ok_iff.mp h
  refine ⟨?_, h1⟩
  rw [← h2]
  unfold fieldAt
  rw [List.drop_take]

section
variable {cmd data : Bytes}

theorem mem_fieldAt {i n : Nat} {b : UInt8} (h : b ∈ fieldAt data i n) : b ∈ data :=
  List.mem_of_mem_drop (List.mem_of_mem_take h)

theorem errs_field (hp : ∀ b ∈ data, Printable b) {name : String} {i n j : Nat} (hj : j = i + n)
    (hf : NumberField cmd name i n) : Errs (Complains cmd data) (parseField name data i j) := by
  refine Errs.bind Errs.liftP fun s hs => ?_
  obtain ⟨hs, _, hl⟩ := slice_field (liftP_ok.mp hs)
  have hn : j - i = n := by omega
  rw [hn] at hs
  subst hs
  unfold parseU8Dec
  split
  · exact Errs.ok _
  · rename_i hnone
    have hu : utf8Valid (fieldAt data i n) = true := utf8_ascii fun b hb => by
      have := (hp b (mem_fieldAt hb)).2
      omega
    rw [if_pos hu, debugBytes_listed]
    exact Errs.err (.number name i n hf (by omega) (fromStr_none hnone))

theorem field_reads {name : String} {i j n : Nat} {v : UInt8} (hj : j = i + n)
    (h : parseField name data i j = .ok v) : Reads (fieldAt data i n) v.toNat := by
  unfold parseField at h
  rw [R_bind_ok] at h
  obtain ⟨s, hs, h⟩ := h
  obtain ⟨hs, _, _⟩ := slice_field (liftP_ok.mp hs)
  rw [show j - i = n by omega] at hs
  subst hs
  obtain ⟨w, hw, rfl⟩ := parseU8Dec_ok h
  have hr := fromStr_reads hw
  have : w < 256 := by have := fromStr_le hw; omega
  rw [ofNat_toNat_lt this]
  exact hr

theorem errs_range {i n max : Nat} {v : UInt8} (hf : RangeField cmd i n max)
    (hr : Reads (fieldAt data i n) v.toNat) :
    Errs (Complains cmd data) (Limited.tryFrom (max := max) v) := by
  unfold Limited.tryFrom
  split
  · exact Errs.ok _
  · rename_i h
    rw [decStr_num, decStr_num]
    exact Errs.err (.range i n max _ hf hr h)

/-- The letters of an enum. -/
class Letters (α : Type) [ByteEnum α] where
  name : String
  letters : String
  bad : ∀ v, ByteEnum.bad α v = badByte name v
  all : ∀ b ∈ bs letters, b ∈ (ByteEnum.all (α := α)).map ByteEnum.code

theorem errs_letter {α : Type} [ByteEnum α] [LawfulByteEnum α] [Letters α] {i : Nat}
    (hp : ∀ b ∈ data, Printable b)
    (hf : LetterField cmd (Letters.name α) i (Letters.letters α)) {b : UInt8} (hb : idx data i = .ok b) :
    Errs (Complains cmd data) (ByteEnum.tryFrom b : R α) := by
  have hi := idx_ok_iff.mp hb
  intro e he
  have : e = ByteEnum.bad α b := by
    unfold ByteEnum.tryFrom okOr at he
    split at he
    · cases he
    · cases he; rfl
  rw [this, Letters.bad, badByte, debugChar_quoted b (hp b (List.mem_of_getElem? hi))]
  refine .letter _ i _ b hf hi fun hmem => ?_
  obtain ⟨a, _, ha⟩ := List.mem_map.mp (Letters.all (α := α) b hmem)
  rw [enum_ok.mpr ha] at he
  cases he


instance : Letters TimeDataType := ⟨"TimeDataType", "01", fun _ => rfl, by decide⟩
instance : Letters ArmedState := ⟨"ArmedState", "0123456", fun _ => rfl, by decide⟩
instance : Letters ArmingStatus := ⟨"ArmingStatus", "0123456", fun _ => rfl, by decide⟩
instance : Letters ArmUpState := ⟨"ArmUpState", "0123456", fun _ => rfl, by decide⟩
instance : Letters AlarmState := ⟨"AlarmState", "0123456789:;<=>?@AB", fun _ => rfl, by decide⟩
instance : Letters Weekday := ⟨"Weekday", "1234567", fun _ => rfl, by decide⟩
instance : Letters ClockDisplayMode := ⟨"ClockDisplayMode", "01", fun _ => rfl, by decide⟩
instance : Letters DateDisplayMode := ⟨"DateDisplayMode", "01", fun _ => rfl, by decide⟩

theorem errs_idx_letter {α β : Type} [ByteEnum α] [LawfulByteEnum α] [Letters α] {i : Nat}
    (hp : ∀ b ∈ data, Printable b)
    (hf : LetterField cmd (Letters.name α) i (Letters.letters α)) {f : α → R β}
    (h : ∀ a, Errs (Complains cmd data) (f a)) :
    Errs (Complains cmd data) (do let a ← ByteEnum.tryFrom (← liftP (idx data i)); f a) :=
  Errs.bind Errs.liftP fun _ hb =>
    Errs.bind (errs_letter hp hf (liftP_ok.mp hb)) fun a _ => h a

theorem errs_few {need n : Nat} (h : Needs cmd need) (hn : n ≤ need) :
    Errs (Complains cmd data) (failIf (data.length < n) (expected n data)) :=
  Errs.failIf fun hl => by
    unfold expected
    rw [decStr_num, decStr_num]
    exact .few need n h hn hl

theorem errs_type (hc : IsText cmd) {v : UInt8} (hr : Reads (fieldAt data 0 2) v.toNat) :
    Errs (Complains cmd data) (ByteEnum.tryFrom v : R TextDescriptionType) := by
  intro e he
  have : e = badNum "TextDescriptionType" v := by
    unfold ByteEnum.tryFrom okOr at he
    split at he
    · cases he
    · cases he; rfl
  rw [this, badNum, decStr_num]
  refine .type v.toNat hc hr (Nat.le_of_not_lt fun hlt => ?_)
  have : ∀ v : UInt8, v.toNat < 20 → v ∈ (ByteEnum.all (α := TextDescriptionType)).map ByteEnum.code := by
    apply forall_u8; decide +kernel
  obtain ⟨a, _, ha⟩ := List.mem_map.mp (this v hlt)
  rw [enum_ok.mpr ha] at he
  cases he

theorem hex_isHex : ∀ b : UInt8, dehexNibble b = none → ¬ IsHex b := by
  unfold IsHex IsDigit
  apply forall_u8; decide +kernel

theorem hexByte_none {a b : UInt8} (h : dehexByte a b = none) : ¬ IsHex a ∨ ¬ IsHex b := by
  unfold dehexByte at h
  cases ha : dehexNibble a with
  | none => exact .inl (hex_isHex a ha)
  | some x =>
    cases hb : dehexNibble b with
    | none => exact .inr (hex_isHex b hb)
    | some y => simp [ha, hb] at h

theorem errs_zone (hp : ∀ b ∈ data, Printable b) {i : Nat}
    (hc : (cmd = bs "ZC" ∧ i = 3) ∨ (cmd = bs "ZS" ∧ i < 208)) {b : UInt8} (hb : idx data i = .ok b) :
    Errs (Complains cmd data) (ZoneStatus.fromAscii b) := by
  have hi := idx_ok_iff.mp hb
  refine Errs.bind (Errs.okOr fun hn => ?_) fun _ _ => Errs.ok _
  rw [debugChar_quoted b (hp b (List.mem_of_getElem? hi))]
  exact .zone i b hc hi (hex_isHex b hn)

theorem fieldAt_mem {i n k : Nat} {b : UInt8} (h : data[k]? = some b) (hi : i ≤ k) (hk : k < i + n) :
    b ∈ fieldAt data i n := by
  refine List.mem_of_getElem? (i := k - i) ?_
  unfold fieldAt
  rw [List.getElem?_take, if_pos (by omega), List.getElem?_drop, show i + (k - i) = k by omega, h]

/-! ## Each message -/

theorem errs_arm (hp : ∀ b ∈ data, Printable b) (l : ArmLevel) (sub : UInt8) :
    Errs (Complains (armCmd l) data) (ArmRequest.fromAscii sub data) := by
  refine Errs.bind ?_ fun level _ => ?_
  · unfold armLevelExpect; split
    · exact Errs.ok _
    · exact Errs.panic _
  refine Errs.bind (Errs.failIf fun h => ?_) fun _ hl => ?_
  · rw [decStr_num]; exact .fewArm l rfl h
  refine Errs.bind (errs_field hp rfl (.area l)) fun v hv => ?_
  refine Errs.bind (errs_range (.area l) (field_reads rfl hv)) fun area _ => ?_
  refine Errs.bind Errs.liftP fun s hs => ?_
  obtain ⟨hs, _, hsl⟩ := slice_field (liftP_ok.mp hs)
  refine Errs.bind ?_ fun _ _ => Errs.ok _
  refine Errs.bind (Errs.failIf fun h => ?_) fun _ _ => ?_
  · exfalso; apply h
    rw [hs]; unfold fieldAt
    rw [List.length_take, List.length_drop]
    omega
  refine Errs.bind Errs.liftP fun c hc => ?_
  refine Errs.bind (Errs.failIf fun h => ?_) fun _ _ => Errs.ok _
  have hc' : c.toList = s := by
    have := liftP_ok.mp hc
    unfold toArrayN at this
    split at this
    · cases this; simp [Vector.toList]
    · cases this
  refine .armCode l rfl ?_
  obtain ⟨b, hb, hd⟩ := List.any_eq_true.mp h
  refine ⟨b, by rw [← hs, ← hc']; exact hb, fun hdig => ?_⟩
  unfold IsDigit at hdig
  simp only [Bool.not_eq_true', Bool.and_eq_false_iff, decide_eq_false_iff_not,
    UInt8.le_iff_toNat_le] at hd
  rcases hd with h | h
  · exact h hdig.1
  · exact h hdig.2

theorem errs_report (hp : ∀ b ∈ data, Printable b) :
    Errs (Complains (bs "AS") data) (ArmingStatusReport.fromAsciiData data) := by
  refine Errs.bind (Errs.failIf fun h => .fewReport rfl h) fun _ _ => ?_
  refine Errs.bind (Errs.fillM fun i hi => ?_) fun v _ => ?_
  · refine errs_idx_letter hp (.arming i hi) fun _ => ?_
    refine errs_idx_letter hp (.up i hi) fun _ => ?_
    exact errs_idx_letter hp (.alarm i hi) fun _ => Errs.ok _
  refine Errs.bind Errs.liftP fun hi hhi => ?_
  refine Errs.bind Errs.liftP fun lo hlo => ?_
  refine Errs.bind (Errs.okOr fun hn => .hexTime rfl ?_) fun _ _ => Errs.ok _
  rcases hexByte_none hn with h | h
  · exact ⟨hi, fieldAt_mem (idx_ok_iff.mp (liftP_ok.mp hhi)) (by omega) (by omega), h⟩
  · exact ⟨lo, fieldAt_mem (idx_ok_iff.mp (liftP_ok.mp hlo)) (by omega) (by omega), h⟩

theorem areaDigit_none : ∀ b : UInt8, ¬ (b' '1' ≤ b ∧ b ≤ b' '8') → b ∉ bs "12345678" := by
  apply forall_u8; decide +kernel

theorem errs_timer (hp : ∀ b ∈ data, Printable b) :
    Errs (Complains (bs "EE") data) (SendTimeData.fromAsciiData data) := by
  refine Errs.bind (errs_few .timer (Nat.le_refl _)) fun _ _ => ?_
  refine Errs.bind Errs.liftP fun b hb => ?_
  refine Errs.bind ?_ fun _ _ => ?_
  · unfold areaDigit
    split
    · exact Errs.ok _
    · rename_i h
      rw [decStr_num]
      exact Errs.err (.timerArea b rfl (idx_ok_iff.mp (liftP_ok.mp hb)) (areaDigit_none b h))
  refine errs_idx_letter hp .timer fun _ => ?_
  refine Errs.bind (errs_field hp rfl .timer1) fun _ _ => ?_
  refine Errs.bind (errs_field hp rfl .timer2) fun _ _ => ?_
  refine Errs.bind ?_ fun _ _ => Errs.ok _
  unfold armedStateField
  split
  · exact Errs.ok _
  · exact errs_idx_letter hp .armed fun _ => Errs.ok _

theorem errs_code (hp : ∀ b ∈ data, Printable b) :
    Errs (Complains (bs "IC") data) (SendCode.fromAsciiData data) := by
  refine Errs.bind (errs_few .code (Nat.le_refl _)) fun _ _ => ?_
  refine Errs.bind (Errs.fillM fun i hi => ?_) fun _ _ => ?_
  · refine Errs.bind Errs.liftP fun x hx => ?_
    refine Errs.bind Errs.liftP fun y hy => Errs.okOr fun hn => .hexCode rfl ?_
    rcases hexByte_none hn with h | h
    · exact ⟨x, fieldAt_mem (idx_ok_iff.mp (liftP_ok.mp hx)) (by omega) (by omega), h⟩
    · exact ⟨y, fieldAt_mem (idx_ok_iff.mp (liftP_ok.mp hy)) (by omega) (by omega), h⟩
  refine Errs.bind (errs_field hp rfl .user) fun _ _ => ?_
  refine Errs.bind (errs_field hp rfl .keypad) fun _ hk => ?_
  exact Errs.bind (errs_range .keypad (field_reads rfl hk)) fun _ _ => Errs.ok _

theorem dst_none : ∀ b : UInt8, b ≠ b' '0' → b ≠ b' '1' → b ∉ bs "01" := by
  apply forall_u8; decide +kernel

theorem errs_clock (hp : ∀ b ∈ data, Printable b) (hc : IsClock cmd) :
    Errs (Complains cmd data) (RtcData.fromAscii data) := by
  have range : ∀ {name i lo hi} {v : UInt8} {c : Prop} [Decidable c] {msg : Bytes},
      ClockField name i lo hi → Reads (fieldAt data i 2) v.toNat →
      (c → ¬ (lo ≤ v.toNat ∧ v.toNat ≤ hi)) → msg = bs name ++ bs " out of range" →
      Errs (Complains cmd data) (failIf c msg) := by
    intro name i lo hi v c _ msg hf hr hn hm
    refine Errs.failIf fun h => ?_
    rw [hm]
    exact .clock name i lo hi _ hc hf hr (hn h)
  refine Errs.bind (Errs.failIf fun h => .fewClock hc h) fun _ _ => ?_
  refine Errs.bind (errs_field hp rfl (.year _ hc)) fun _ _ => ?_
  refine Errs.bind Errs.assertR fun _ _ => ?_
  refine Errs.bind (errs_field hp rfl (.month _ hc)) fun _ h => ?_
  refine Errs.bind (range .month (field_reads rfl h) ?_ rfl) fun _ _ => ?_
  · simp only [UInt8.le_iff_toNat_le]; exact id
  refine Errs.bind (errs_field hp rfl (.day _ hc)) fun _ h => ?_
  refine Errs.bind (range .day (field_reads rfl h) ?_ rfl) fun _ _ => ?_
  · simp only [UInt8.le_iff_toNat_le]; exact id
  refine Errs.bind (errs_field hp rfl (.hour _ hc)) fun _ h => ?_
  refine Errs.bind (range .hour (field_reads rfl h) ?_ rfl) fun _ _ => ?_
  · intro h; have : 24 ≤ _ := UInt8.le_iff_toNat_le.mp h; omega
  refine Errs.bind (errs_field hp rfl (.minute _ hc)) fun _ h => ?_
  refine Errs.bind (range .minute (field_reads rfl h) ?_ rfl) fun _ _ => ?_
  · intro h; have : 60 ≤ _ := UInt8.le_iff_toNat_le.mp h; omega
  refine Errs.bind (errs_field hp rfl (.second _ hc)) fun _ h => ?_
  refine Errs.bind (range .second (field_reads rfl h) ?_ rfl) fun _ _ => ?_
  · intro h; have : 60 ≤ _ := UInt8.le_iff_toNat_le.mp h; omega
  refine errs_idx_letter hp (.weekday _ hc) fun _ => ?_
  refine Errs.bind Errs.liftP fun b hb => ?_
  refine Errs.bind ?_ fun _ _ => ?_
  · unfold dstFlag
    split
    · exact Errs.ok _
    · split
      · exact Errs.ok _
      · exact Errs.err (.dst b hc (idx_ok_iff.mp (liftP_ok.mp hb)) (dst_none b ‹_› ‹_›))
  refine errs_idx_letter hp (.clock _ hc) fun _ => ?_
  exact errs_idx_letter hp (.date _ hc) fun _ => Errs.ok _

theorem errs_ask (hp : ∀ b ∈ data, Printable b) :
    Errs (Complains (bs "sd") data) (StringDescriptionRequest.fromAsciiData data) := by
  refine Errs.bind (errs_few .ask (Nat.le_refl _)) fun _ _ => ?_
  refine Errs.bind (errs_field hp rfl (.type _ (.inl rfl))) fun _ h => ?_
  refine Errs.bind (errs_type (.inl rfl) (field_reads rfl h)) fun _ _ => ?_
  exact Errs.bind (errs_field hp rfl (.num _ (.inl rfl))) fun _ _ => Errs.ok _

theorem errs_text (hp : ∀ b ∈ data, Printable b) (hl : ¬ (5 ≤ data.length ∧ data.length < 21)) :
    Errs (Complains (bs "SD") data) (StringDescriptionResponse.fromAsciiData data) := by
  refine Errs.bind (Errs.failIf fun h => ?_) fun _ _ => ?_
  · unfold expected
    rw [decStr_num, decStr_num]
    exact .few 21 5 .text (by omega) (by omega)
  refine Errs.bind (errs_field hp rfl (.type _ (.inr rfl))) fun _ h => ?_
  refine Errs.bind (errs_type (.inr rfl) (field_reads rfl h)) fun _ _ => ?_
  refine Errs.bind (errs_field hp rfl (.num _ (.inr rfl))) fun _ _ => ?_
  refine Errs.bind Errs.liftP fun _ _ => ?_
  exact Errs.bind Errs.liftP fun _ _ => Errs.ok _

theorem errs_task (hp : ∀ b ∈ data, Printable b) (hc : cmd = bs "tn" ∨ cmd = bs "TC") :
    Errs (Complains cmd data) (taskFromAsciiData data) := by
  rcases hc with rfl | rfl
  · refine Errs.bind (errs_few .activate (Nat.le_refl _)) fun _ _ => ?_
    exact Errs.bind (errs_field hp rfl .activate) fun _ h => errs_range .activate (field_reads rfl h)
  · refine Errs.bind (errs_few .task (Nat.le_refl _)) fun _ _ => ?_
    exact Errs.bind (errs_field hp rfl .task) fun _ h => errs_range .task (field_reads rfl h)

theorem errs_zoneChange (hp : ∀ b ∈ data, Printable b) :
    Errs (Complains (bs "ZC") data) (ZoneChange.fromAsciiData data) := by
  refine Errs.bind (errs_few .zone (Nat.le_refl _)) fun _ _ => ?_
  refine Errs.bind (errs_field hp rfl .zone) fun _ h => ?_
  refine Errs.bind (errs_range .zone (field_reads rfl h)) fun _ _ => ?_
  refine Errs.bind Errs.liftP fun b hb => ?_
  exact Errs.bind (errs_zone hp (.inl ⟨rfl, rfl⟩) (liftP_ok.mp hb)) fun _ _ => Errs.ok _

theorem errs_zones (hp : ∀ b ∈ data, Printable b) :
    Errs (Complains (bs "ZS") data) (ZoneStatusReport.fromAsciiData data) := by
  refine Errs.bind (errs_few .zones (Nat.le_refl _)) fun _ _ => ?_
  refine Errs.bind (Errs.fillM fun i hi => ?_) fun _ _ => Errs.ok _
  refine Errs.bind Errs.liftP fun b hb => ?_
  exact errs_zone hp (.inr ⟨rfl, hi⟩) (liftP_ok.mp hb)

theorem armCmds_eq {cmd : Bytes} (h : cmd ∈ armCmds) : ∃ l, cmd = armCmd l := by
  unfold armCmds at h
  simp only [List.mem_cons, List.not_mem_nil, or_false] at h
  rcases h with rfl | rfl | rfl | rfl | rfl | rfl | rfl | rfl | rfl | rfl | rfl
  · exact ⟨.disarm, rfl⟩
  · exact ⟨.armedAway, rfl⟩
  · exact ⟨.armedStay, rfl⟩
  · exact ⟨.armedStayInstant, rfl⟩
  · exact ⟨.armedNight, rfl⟩
  · exact ⟨.armedNightInstant, rfl⟩
  · exact ⟨.armedVacation, rfl⟩
  · exact ⟨.armToNextAwayMode, rfl⟩
  · exact ⟨.armToNextStayMode, rfl⟩
  · exact ⟨.forceArmToAway, rfl⟩
  · exact ⟨.forceArmToStay, rfl⟩

theorem errs_dispatch (hp : ∀ b ∈ data, Printable b)
    (hl : ¬ (cmd = bs "SD" ∧ 5 ≤ data.length ∧ data.length < 21)) :
    Errs (Complains cmd data) (Message.dispatch cmd data) := by
  unfold Message.dispatch
  refine Errs.ite (fun h => ?_) fun _ => ?_
  · obtain ⟨l, rfl⟩ := armCmds_eq h
    refine Errs.bind Errs.liftP fun _ _ => ?_
    exact Errs.bind (errs_arm hp l _) fun _ _ => Errs.ok _
  refine Errs.ite (fun _ => Errs.ok _) fun _ => ?_
  refine Errs.ite (fun h => ?_) fun _ => ?_
  · subst h; exact Errs.bind (errs_report hp) fun _ _ => Errs.ok _
  refine Errs.ite (fun h => ?_) fun _ => ?_
  · subst h; exact Errs.bind (errs_timer hp) fun _ _ => Errs.ok _
  refine Errs.ite (fun h => ?_) fun _ => ?_
  · subst h; exact Errs.bind (errs_code hp) fun _ _ => Errs.ok _
  refine Errs.ite (fun _ => Errs.ok _) fun _ => ?_
  refine Errs.ite (fun h => ?_) fun _ => ?_
  · subst h; exact Errs.bind (errs_clock hp (.inl rfl)) fun _ _ => Errs.ok _
  refine Errs.ite (fun h => ?_) fun _ => ?_
  · subst h; exact Errs.bind (errs_ask hp) fun _ _ => Errs.ok _
  refine Errs.ite (fun h => ?_) fun _ => ?_
  · subst h; exact Errs.bind (errs_text hp fun h => hl ⟨rfl, h⟩) fun _ _ => Errs.ok _
  refine Errs.ite (fun h => ?_) fun _ => ?_
  · subst h; exact Errs.bind (errs_task hp (.inl rfl)) fun _ _ => Errs.ok _
  refine Errs.ite (fun h => ?_) fun _ => ?_
  · subst h; exact Errs.bind (errs_task hp (.inr rfl)) fun _ _ => Errs.ok _
  refine Errs.ite (fun h => ?_) fun _ => ?_
  · subst h; exact Errs.bind (errs_clock hp (.inr rfl)) fun _ _ => Errs.ok _
  refine Errs.ite (fun h => ?_) fun _ => ?_
  · subst h; exact Errs.bind (errs_zoneChange hp) fun _ _ => Errs.ok _
  refine Errs.ite (fun _ => Errs.ok _) fun _ => ?_
  refine Errs.ite (fun h => ?_) fun _ => Errs.ok _
  subst h; exact Errs.bind (errs_zones hp) fun _ _ => Errs.ok _

end

end Elk
