import Verif.Spec.Objection
import Verif.Lemmas.Complaint
/-! # Lemmas: the first wrong field -/

namespace Elk
open Spec

section
variable {data : Bytes}

theorem fails_one {c : Check} {t t' : Bytes} (h : Fails data c t) (h' : Fails data c t') : t = t' := by
  cases c with
  | least n text => exact h.2.trans h'.2.symm
  | number name i n => exact h.2.trans h'.2.symm
  | range i n lo hi text =>
    obtain ⟨v, hv, _, rfl⟩ := h
    obtain ⟨w, hw, _, rfl⟩ := h'
    have a := reads_fromStr hv (Nat.le_max_left v w)
    rw [reads_fromStr hw (Nat.le_max_right v w)] at a
    cases a
    rfl
  | byte i fine text =>
    obtain ⟨b, hb, _, rfl⟩ := h
    obtain ⟨b', hb', _, rfl⟩ := h'
    rw [hb] at hb'; cases hb'; rfl
  | bytes i n fine text => exact h.2.trans h'.2.symm
  | beyond n i fine text =>
    obtain ⟨_, b, hb, _, rfl⟩ := h
    obtain ⟨_, b', hb', _, rfl⟩ := h'
    rw [hb] at hb'; cases hb'; rfl

theorem reads_one {s : Bytes} {v w : Nat} (hv : Reads s v) (hw : Reads s w) : v = w := by
  have a := reads_fromStr hv (Nat.le_max_left v w)
  rw [reads_fromStr hw (Nat.le_max_right v w)] at a
  cases a
  rfl

theorem first_one {cs : List Check} {r r' : Option Bytes} (h : First data cs r)
    (h' : First data cs r') : r = r' := by
  induction h with
  | none => cases h'; rfl
  | here hf =>
    cases h' with
    | here hf' => rw [fails_one hf hf']
    | later hn _ => exact absurd hf (hn _)
  | later hn _ ih =>
    cases h' with
    | here hf' => exact absurd hf' (hn _)
    | later _ h' => exact ih h'

/-- The computation fails as the checks say. -/
def Judges {α : Type} (data : Bytes) (cs : List Check) (x : R α) : Prop :=
  (∃ a, x = .ok a ∧ First data cs none) ∨ ∃ t, x = .error (.err t) ∧ First data cs (some t)

theorem first_append {cs cs' : List Check} {r : Option Bytes} (h : First data cs none)
    (h' : First data cs' r) : First data (cs ++ cs') r := by
  generalize ho : (none : Option Bytes) = o at h
  induction h with
  | none => exact h'
  | here => cases ho
  | later hn _ ih => exact .later hn (ih ho)

theorem first_left {cs cs' : List Check} {t : Bytes} (h : First data cs (some t)) :
    First data (cs ++ cs') (some t) := by
  generalize ho : some t = o at h
  induction h with
  | none => cases ho
  | here hf => exact .here hf
  | later hn _ ih => exact .later hn (ih ho)

theorem Judges.ok {α : Type} (a : α) : Judges data [] (.ok a : R α) := .inl ⟨a, rfl, .none⟩

theorem Judges.bind {α β : Type} {cs cs' : List Check} {x : R α} {f : α → R β}
    (hx : Judges data cs x) (hf : ∀ a, x = .ok a → Judges data cs' (f a)) :
    Judges data (cs ++ cs') (x >>= f) := by
  rcases hx with ⟨a, rfl, h⟩ | ⟨t, rfl, h⟩
  · rcases hf a rfl with ⟨b, hb, h'⟩ | ⟨t, hb, h'⟩
    · exact .inl ⟨b, hb, first_append h h'⟩
    · exact .inr ⟨t, hb, first_append h h'⟩
  · exact .inr ⟨t, rfl, first_left h⟩

theorem Judges.cons {α β : Type} {c : Check} {cs : List Check} {x : R α} {f : α → R β}
    (hx : Judges data [c] x) (hf : ∀ a, x = .ok a → Judges data cs (f a)) :
    Judges data (c :: cs) (x >>= f) := Judges.bind hx hf

theorem Judges.map {α β : Type} {cs : List Check} {x : R α} {f : α → β}
    (hx : Judges data cs x) : Judges data cs (x >>= fun a => (.ok (f a) : R β)) := by
  have := Judges.bind (f := fun a => (.ok (f a) : R β)) hx fun a _ => Judges.ok _
  rwa [List.append_nil] at this

theorem Judges.lift {α β : Type} {cs : List Check} {x : P α} {f : α → R β} {a : α}
    (hx : x = .ok a) (hf : Judges data cs (f a)) : Judges data cs (liftP x >>= f) := by
  subst hx; exact hf

theorem Judges.one {α : Type} {c : Check} {x : R α}
    (h : (∃ a, x = .ok a ∧ ∀ t, ¬ Fails data c t) ∨ ∃ t, x = .error (.err t) ∧ Fails data c t) :
    Judges data [c] x := by
  rcases h with ⟨a, rfl, h⟩ | ⟨t, rfl, h⟩
  · exact .inl ⟨a, rfl, .later h .none⟩
  · exact .inr ⟨t, rfl, .here h⟩

theorem Judges.fillM {α : Type} {f : Nat → R α} {c : Nat → List Check} : ∀ {n : Nat},
    (∀ i, i < n → Judges data (c i) (f i)) → Judges data ((List.range n).flatMap c) (fillM f n)
  | 0, _ => Judges.ok _
  | n + 1, h => by
    rw [List.range_succ, List.flatMap_append, List.flatMap_singleton]
    refine Judges.bind (Judges.fillM fun i hi => h i (by omega)) fun v _ => ?_
    exact Judges.map (h n (by omega))

/-! ## Each check -/

theorem judges_least {n : Nat} {text : Nat → Bytes} {msg : Bytes} (hm : msg = text data.length) :
    Judges data [.least n text] (failIf (data.length < n) msg) := by
  subst hm
  refine Judges.one ?_
  unfold failIf
  split
  · exact .inr ⟨_, rfl, ‹_›, rfl⟩
  · exact .inl ⟨_, rfl, fun t h => absurd h.1 ‹_›⟩

theorem idx_at {i : Nat} (h : i < data.length) : ∃ b, idx data i = .ok b ∧ data[i]? = some b :=
  ⟨data[i], idx_ok_iff.mpr (List.getElem?_eq_getElem h), List.getElem?_eq_getElem h⟩

theorem slice_at {i j n : Nat} (hj : j = i + n) (h : j ≤ data.length) :
    slice data i j = .ok (fieldAt data i n) := by
  subst hj
  refine slice_ok_iff.mpr ⟨⟨by omega, h⟩, ?_⟩
  unfold fieldAt
  rw [List.drop_take]
  congr 1
  omega

theorem judges_field (hp : ∀ b ∈ data, Printable b) {name : String} {i n j : Nat} (hj : j = i + n)
    (hl : j ≤ data.length) : Judges data [.number name i n] (parseField name data i j) := by
  refine Judges.lift (slice_at hj hl) (Judges.one ?_)
  unfold parseU8Dec
  split
  · rename_i v hv
    refine .inl ⟨_, rfl, fun t h => ?_⟩
    exact h.1 v (fromStr_le hv) (fromStr_reads hv)
  · rename_i hnone
    have hu : utf8Valid (fieldAt data i n) = true := utf8_ascii fun b hb => by
      have := (hp b (mem_fieldAt hb)).2
      omega
    rw [if_pos hu, debugBytes_listed]
    exact .inr ⟨_, rfl, fromStr_none hnone, rfl⟩

theorem judges_upTo {i n max : Nat} {v : UInt8} (hr : Reads (fieldAt data i n) v.toNat) :
    Judges data [upTo i n max] (Limited.tryFrom (max := max) v) := by
  refine Judges.one ?_
  unfold Limited.tryFrom
  split
  · rename_i h
    refine .inl ⟨_, rfl, ?_⟩
    rintro t ⟨w, hw, hn, _⟩
    rw [reads_one hw hr] at hn
    exact hn h
  · rename_i h
    refine .inr ⟨_, rfl, _, hr, h, ?_⟩
    rw [decStr_num, decStr_num]

theorem judges_range {i n lo hi : Nat} {v : UInt8} {c : Prop} [Decidable c] {msg : Bytes}
    {text : Nat → Bytes} (hr : Reads (fieldAt data i n) v.toNat)
    (hc : c ↔ ¬ (lo ≤ v.toNat ∧ v.toNat ≤ hi)) (hm : msg = text v.toNat) :
    Judges data [.range i n lo hi text] (failIf c msg) := by
  subst hm
  refine Judges.one ?_
  unfold failIf
  split
  · exact .inr ⟨_, rfl, _, hr, hc.mp ‹_›, rfl⟩
  · rename_i h
    refine .inl ⟨_, rfl, ?_⟩
    rintro t ⟨w, hw, hn, _⟩
    rw [reads_one hw hr] at hn
    exact h (hc.mpr hn)

theorem judges_time (hp : ∀ b ∈ data, Printable b) {name : String} {i j lo hi : Nat} (hj : j = i + 2)
    (hl : j ≤ data.length) {c : UInt8 → Prop} [DecidablePred c] {msg : Bytes} {α : Type}
    {f : UInt8 → R α} {cs : List Check}
    (hc : ∀ v, c v ↔ ¬ (lo ≤ v.toNat ∧ v.toNat ≤ hi)) (hm : msg = bs name ++ bs " out of range")
    (hf : ∀ v, Judges data cs (f v)) :
    Judges data (timeOf name i lo hi ++ cs)
      (do let v ← parseField name data i j; failIf (c v) msg; f v) := by
  refine Judges.cons (judges_field hp hj hl) fun v hv => ?_
  exact Judges.cons (judges_range (field_reads hj hv) (hc v) hm) fun _ _ => hf v

theorem tryFrom_cases {α : Type} [ByteEnum α] [LawfulByteEnum α] (b : UInt8) :
    (∃ a : α, (ByteEnum.tryFrom b : R α) = .ok a ∧ b ∈ (ByteEnum.all (α := α)).map ByteEnum.code) ∨
    ((ByteEnum.tryFrom b : R α) = .error (.err (ByteEnum.bad α b)) ∧
      b ∉ (ByteEnum.all (α := α)).map ByteEnum.code) := by
  cases h : (ByteEnum.all (α := α)).find? (fun v => ByteEnum.code v == b) with
  | some a =>
    refine .inl ⟨a, by unfold ByteEnum.tryFrom; rw [h]; rfl, ?_⟩
    refine List.mem_map.mpr ⟨a, List.mem_of_find?_eq_some h, ?_⟩
    have := List.find?_some h
    exact eq_of_beq this
  | none =>
    refine .inr ⟨by unfold ByteEnum.tryFrom; rw [h]; rfl, fun hm => ?_⟩
    obtain ⟨a, ha, hb⟩ := List.mem_map.mp hm
    have := List.find?_eq_none.mp h a ha
    simp [hb] at this

/-- The letters are all those of the enum. -/
class LettersAll (α : Type) [ByteEnum α] extends Letters α where
  only : ∀ b ∈ (ByteEnum.all (α := α)).map ByteEnum.code, b ∈ bs letters

instance : LettersAll TimeDataType := ⟨by decide⟩
instance : LettersAll ArmedState := ⟨by decide⟩
instance : LettersAll ArmingStatus := ⟨by decide⟩
instance : LettersAll ArmUpState := ⟨by decide⟩
instance : LettersAll AlarmState := ⟨by decide⟩
instance : LettersAll Weekday := ⟨by decide⟩
instance : LettersAll ClockDisplayMode := ⟨by decide⟩
instance : LettersAll DateDisplayMode := ⟨by decide⟩

theorem judges_byte {α : Type} {x : R α} {i : Nat} {fine : UInt8 → Prop} {text : UInt8 → Bytes}
    {b : UInt8} (hb : data[i]? = some b)
    (hx : (∃ a, x = .ok a ∧ fine b) ∨ (x = .error (.err (text b)) ∧ ¬ fine b)) :
    Judges data [.byte i fine text] x := by
  refine Judges.one ?_
  rcases hx with ⟨a, rfl, h⟩ | ⟨rfl, h⟩
  · refine .inl ⟨a, rfl, ?_⟩
    rintro t ⟨b', hb', hn, _⟩
    rw [hb] at hb'; cases hb'
    exact hn h
  · exact .inr ⟨_, rfl, b, hb, h, rfl⟩

theorem judges_letter {α : Type} [ByteEnum α] [LawfulByteEnum α] [LettersAll α] {i : Nat}
    (hp : ∀ b ∈ data, Printable b) {b : UInt8} (hb : data[i]? = some b) :
    Judges data [letter (Letters.name α) i (Letters.letters α)] (ByteEnum.tryFrom b : R α) := by
  refine judges_byte hb ?_
  rcases tryFrom_cases (α := α) b with ⟨a, h, hm⟩ | ⟨h, hm⟩
  · exact .inl ⟨a, h, LettersAll.only b hm⟩
  · refine .inr ⟨?_, fun hl => hm (Letters.all b hl)⟩
    rw [h, Letters.bad, badByte, debugChar_quoted b (hp b (List.mem_of_getElem? hb))]

theorem judges_idx_letter {α β : Type} [ByteEnum α] [LawfulByteEnum α] [LettersAll α] {i : Nat}
    {cs : List Check} (hp : ∀ b ∈ data, Printable b) (hl : i < data.length) {f : α → R β}
    (h : ∀ a, Judges data cs (f a)) :
    Judges data (letter (Letters.name α) i (Letters.letters α) :: cs)
      (do let a ← ByteEnum.tryFrom (← liftP (idx data i)); f a) := by
  obtain ⟨b, h1, h2⟩ := idx_at hl
  refine Judges.lift h1 ?_
  exact Judges.cons (judges_letter hp h2) fun a _ => h a

theorem isHex_iff : ∀ b : UInt8, (dehexNibble b).isSome = true ↔ IsHex b := by
  unfold IsHex IsDigit
  apply forall_u8; decide +kernel

theorem judges_zone (hp : ∀ b ∈ data, Printable b) {i : Nat} {b : UInt8} (hb : data[i]? = some b) :
    Judges data [zoneState i] (ZoneStatus.fromAscii b) := by
  refine judges_byte hb ?_
  have := isHex_iff b
  unfold ZoneStatus.fromAscii
  cases h : dehexNibble b with
  | none =>
    rw [h] at this
    refine .inr ⟨?_, fun hh => nomatch this.mpr hh⟩
    rw [← debugChar_quoted b (hp b (List.mem_of_getElem? hb))]
    rfl
  | some v =>
    rw [h] at this
    exact .inl ⟨_, rfl, this.mp rfl⟩

theorem judges_bytes {α : Type} {x : R α} {i n : Nat} {fine : UInt8 → Prop} {text : Bytes}
    (hx : (∃ a, x = .ok a ∧ ∀ b ∈ fieldAt data i n, fine b) ∨
      (x = .error (.err text) ∧ ∃ b ∈ fieldAt data i n, ¬ fine b)) :
    Judges data [.bytes i n fine text] x := by
  refine Judges.one ?_
  rcases hx with ⟨a, rfl, h⟩ | ⟨rfl, h⟩
  · refine .inl ⟨a, rfl, ?_⟩
    rintro t ⟨⟨b, hb, hn⟩, _⟩
    exact hn (h b hb)
  · exact .inr ⟨_, rfl, h, rfl⟩

theorem fieldAt_two {i : Nat} {a b : UInt8} (ha : data[i]? = some a) (hb : data[i + 1]? = some b) :
    fieldAt data i 2 = [a, b] := by
  unfold fieldAt
  obtain ⟨h1, rfl⟩ := List.getElem?_eq_some_iff.mp ha
  obtain ⟨h2, rfl⟩ := List.getElem?_eq_some_iff.mp hb
  rw [List.drop_eq_getElem_cons h1, List.drop_eq_getElem_cons h2]
  rfl

theorem judges_hex {i : Nat} {a b : UInt8} {text : Bytes} (ha : data[i]? = some a)
    (hb : data[i + 1]? = some b) :
    Judges data [.bytes i 2 IsHex text] (okOr (dehexByte a b) text) := by
  refine judges_bytes ?_
  rw [fieldAt_two ha hb]
  have h1 := isHex_iff a
  have h2 := isHex_iff b
  unfold dehexByte
  cases ha' : dehexNibble a with
  | none =>
    rw [ha'] at h1
    exact .inr ⟨rfl, a, by simp, fun h => nomatch h1.mpr h⟩
  | some x =>
    rw [ha'] at h1
    cases hb' : dehexNibble b with
    | none =>
      rw [hb'] at h2
      exact .inr ⟨rfl, b, by simp, fun h => nomatch h2.mpr h⟩
    | some y =>
      rw [hb'] at h2
      refine .inl ⟨_, rfl, ?_⟩
      simp only [List.mem_cons, List.not_mem_nil, or_false, forall_eq_or_imp, forall_eq]
      exact ⟨h1.mp rfl, h2.mp rfl⟩

theorem first_split {cs' : List Check} {r : Option Bytes} : ∀ {cs : List Check},
    First data (cs ++ cs') r →
    (∃ t, r = some t ∧ First data cs (some t)) ∨ (First data cs none ∧ First data cs' r)
  | [], h => .inr ⟨.none, h⟩
  | c :: cs, h => by
    cases h with
    | here hf => exact .inl ⟨_, rfl, .here hf⟩
    | later hn h =>
      rcases first_split h with ⟨t, h1, h2⟩ | ⟨h1, h2⟩
      · exact .inl ⟨t, h1, .later hn h2⟩
      · exact .inr ⟨.later hn h1, h2⟩

theorem pairs_cases {text : Bytes} : ∀ {n : Nat} {r : Option Bytes},
    First data ((List.range n).flatMap fun i => [Check.bytes (2 * i) 2 IsHex text]) r →
    (r = none ∧ ∀ b ∈ fieldAt data 0 (2 * n), IsHex b) ∨
    (r = some text ∧ ∃ b ∈ fieldAt data 0 (2 * n), ¬ IsHex b)
  | 0, r, h => by
    cases h
    exact .inl ⟨rfl, by simp [fieldAt]⟩
  | n + 1, r, h => by
    rw [List.range_succ, List.flatMap_append, List.flatMap_singleton] at h
    have hs : fieldAt data 0 (2 * (n + 1)) = fieldAt data 0 (2 * n) ++ fieldAt data (2 * n) 2 := by
      unfold fieldAt
      rw [List.drop_zero, show 2 * (n + 1) = 2 * n + 2 by omega, List.take_add]
    rw [hs]
    rcases first_split h with ⟨t, rfl, h1⟩ | ⟨h1, h2⟩
    · rcases pairs_cases h1 with ⟨h, _⟩ | ⟨h, b, hb, hn⟩
      · cases h
      · exact .inr ⟨h, b, List.mem_append_left _ hb, hn⟩
    · rcases pairs_cases h1 with ⟨_, hall⟩ | ⟨h, _⟩
      · cases h2 with
        | here hf =>
          obtain ⟨⟨b, hb, hn⟩, rfl⟩ := hf
          exact .inr ⟨rfl, b, List.mem_append_right _ hb, hn⟩
        | later hn h2 =>
          cases h2
          refine .inl ⟨rfl, fun b hb => ?_⟩
          rcases List.mem_append.mp hb with hb | hb
          · exact hall b hb
          · exact Classical.byContradiction fun h => hn text ⟨⟨b, hb, h⟩, rfl⟩
      · cases h

/-- Six pairs of hexadecimal digits are twelve. -/
theorem judges_pairs {α : Type} {x : R α} {text : Bytes} {n : Nat}
    (h : Judges data ((List.range n).flatMap fun i => [Check.bytes (2 * i) 2 IsHex text]) x) :
    Judges data [.bytes 0 (2 * n) IsHex text] x := by
  refine judges_bytes ?_
  rcases h with ⟨a, rfl, h⟩ | ⟨t, rfl, h⟩
  · rcases pairs_cases h with ⟨_, h⟩ | ⟨h, _⟩
    · exact .inl ⟨a, rfl, h⟩
    · cases h
  · rcases pairs_cases h with ⟨h, _⟩ | ⟨h, h'⟩
    · cases h
    · cases h
      exact .inr ⟨rfl, h'⟩

/-! ## Each message -/

theorem failIf_not {c : Prop} [Decidable c] {msg : Bytes} {u : Unit} (h : failIf c msg = .ok u) :
    ¬ c := by
  unfold failIf at h
  split at h
  · cases h
  · assumption

theorem judges_few {n : Nat} : Judges data [few n] (failIf (data.length < n) (expected n data)) :=
  judges_least (by unfold expected; rw [decStr_num, decStr_num])

theorem judges_arm (hp : ∀ b ∈ data, Printable b) (l : ArmLevel) :
    Judges data
      [.least 9 fun k => bs "Expected ArmRequest to have at least 9 bytes of data, got " ++ num k,
       .number "area" 0 1, upTo 0 1 8, .bytes 1 6 IsDigit (bs "ArmCode must be numeric")]
      (ArmRequest.fromAscii (b' (armLevelChar l)) data) := by
  have hl : armLevelExpect (b' (armLevelChar l)) = .ok l := by cases l <;> rfl
  unfold ArmRequest.fromAscii
  rw [hl, R_ok_bind]
  refine Judges.cons (judges_least ?_) fun _ hf => ?_
  · rw [decStr_num]
  have hlen := failIf_not hf
  refine Judges.cons (judges_field hp rfl (by omega)) fun v hv => ?_
  refine Judges.cons (judges_upTo (field_reads rfl hv)) fun area _ => ?_
  refine Judges.lift (slice_at (n := 6) rfl (by omega)) ?_
  refine Judges.map ?_
  unfold ArmCode.tryFromBytes
  have h6 : (fieldAt data 1 6).length = 6 := by
    unfold fieldAt
    rw [List.length_take, List.length_drop]
    omega
  have hn : failIf ((fieldAt data 1 6).length ≠ 6) (bs "ArmCode must be of length 6") = .ok () := by
    unfold failIf
    rw [if_neg (by rw [h6]; exact fun h => h rfl)]
  rw [hn]
  have ha : toArrayN 6 (fieldAt data 1 6) .slice = .ok ⟨(fieldAt data 1 6).toArray, by simp [h6]⟩ := by
    unfold toArrayN
    rw [dif_pos h6]
  refine Judges.lift ha ?_
  refine Judges.map ?_
  refine judges_bytes ?_
  have hd : ∀ b : UInt8, (!(decide (b' '0' ≤ b) && decide (b ≤ b' '9'))) = true ↔ ¬ IsDigit b := by
    unfold IsDigit
    apply forall_u8; decide +kernel
  unfold failIf
  have ht : (⟨(fieldAt data 1 6).toArray, by simp [h6]⟩ : Vector UInt8 6).toList = fieldAt data 1 6 := by
    simp [Vector.toList]
  rw [ht]
  split
  · rename_i h
    obtain ⟨b, hb, h⟩ := List.any_eq_true.mp h
    exact .inr ⟨rfl, b, hb, (hd b).mp h⟩
  · rename_i h
    refine .inl ⟨_, rfl, fun b hb => ?_⟩
    refine Classical.byContradiction fun hn => h ?_
    exact List.any_eq_true.mpr ⟨b, hb, (hd b).mpr hn⟩

theorem judges_report (hp : ∀ b ∈ data, Printable b) :
    Judges data ([.least 26 fun _ => bs "expected at least 26 data"] ++
      (List.range 8).flatMap (fun i => [letter "ArmingStatus" i "0123456",
        letter "ArmUpState" (8 + i) "0123456", letter "AlarmState" (16 + i) "0123456789:;<=>?@AB"]) ++
      [.bytes 24 2 IsHex (bs "bad first_exit_time")]) (ArmingStatusReport.fromAsciiData data) := by
  rw [List.append_assoc]
  refine Judges.bind (judges_least rfl) fun _ hf => ?_
  have hlen := failIf_not hf
  refine Judges.bind (Judges.fillM fun i hi => ?_) fun v _ => ?_
  · refine judges_idx_letter (α := ArmingStatus) hp (by omega) fun _ => ?_
    refine judges_idx_letter (α := ArmUpState) (i := 8 + i) hp (by omega) fun _ => ?_
    exact judges_idx_letter (α := AlarmState) (i := 16 + i) hp (by omega) fun _ => Judges.ok _
  obtain ⟨a, h1, h2⟩ := idx_at (data := data) (i := 24) (by omega)
  obtain ⟨b, h3, h4⟩ := idx_at (data := data) (i := 25) (by omega)
  refine Judges.lift h1 (Judges.lift h3 ?_)
  exact Judges.map (judges_hex h2 h4)

theorem judges_timer (hp : ∀ b ∈ data, Printable b) :
    Judges data [few 10,
       .byte 0 (· ∈ bs "12345678") (fun b => bs "expected area in [1, 8], got " ++ num b.toNat),
       letter "TimeDataType" 1 "01", .number "timer1" 2 3, .number "timer2" 5 3,
       .beyond 11 8 (· ∈ bs "0123456") fun b => bs "bad ArmedState " ++ quoted b]
      (SendTimeData.fromAsciiData data) := by
  refine Judges.cons judges_few fun _ hf => ?_
  have hlen := failIf_not hf
  obtain ⟨b, h1, h2⟩ := idx_at (data := data) (i := 0) (by omega)
  refine Judges.lift h1 ?_
  refine Judges.cons (judges_byte h2 ?_) fun _ _ => ?_
  · unfold areaDigit
    have hd : ∀ b : UInt8, (b' '1' ≤ b ∧ b ≤ b' '8') ↔ b ∈ bs "12345678" := by
      apply forall_u8; decide +kernel
    split
    · exact .inl ⟨_, rfl, (hd b).mp ‹_›⟩
    · rename_i h
      rw [decStr_num]
      exact .inr ⟨rfl, fun hm => h ((hd b).mpr hm)⟩
  refine judges_idx_letter (α := TimeDataType) hp (by omega) fun _ => ?_
  refine Judges.cons (judges_field hp rfl (by omega)) fun _ _ => ?_
  refine Judges.cons (judges_field hp rfl (by omega)) fun _ _ => ?_
  refine Judges.map (Judges.one ?_)
  unfold armedStateField
  split
  · rename_i hs
    exact .inl ⟨_, rfl, fun t h => by have := h.1; omega⟩
  · rename_i hs
    obtain ⟨c, h3, h4⟩ := idx_at (data := data) (i := 8) (by omega)
    rw [h3]
    rcases tryFrom_cases (α := ArmedState) c with ⟨a, h, hm⟩ | ⟨h, hm⟩
    · refine .inl ⟨some a, ?_, ?_⟩
      · show ((ByteEnum.tryFrom c : R ArmedState) >>= fun s => .ok (some s)) = _
        rw [h]; rfl
      · rintro t ⟨_, c', hc', hn, _⟩
        rw [h4] at hc'; cases hc'
        exact hn (LettersAll.only c hm)
    · refine .inr ⟨_, ?_, by omega, c, h4, fun hl => hm (Letters.all c hl), rfl⟩
      show ((ByteEnum.tryFrom c : R ArmedState) >>= fun s => .ok (some s)) = _
      rw [h, Letters.bad, badByte, debugChar_quoted c (hp c (List.mem_of_getElem? h4))]
      rfl

theorem judges_code (hp : ∀ b ∈ data, Printable b) :
    Judges data [few 19, .bytes 0 12 IsHex (bs "invalid hex code"), .number "user" 12 3,
       .number "keypad" 15 2, upTo 15 2 16] (SendCode.fromAsciiData data) := by
  refine Judges.cons judges_few fun _ hf => ?_
  have hlen := failIf_not hf
  refine Judges.cons (judges_pairs (n := 6) (Judges.fillM fun i hi => ?_)) fun _ _ => ?_
  · obtain ⟨a, h1, h2⟩ := idx_at (data := data) (i := 2 * i) (by omega)
    obtain ⟨b, h3, h4⟩ := idx_at (data := data) (i := 2 * i + 1) (by omega)
    exact Judges.lift h1 (Judges.lift h3 (judges_hex h2 h4))
  refine Judges.cons (judges_field hp rfl (by omega)) fun _ _ => ?_
  refine Judges.cons (judges_field hp rfl (by omega)) fun _ hk => ?_
  exact Judges.map (judges_upTo (field_reads rfl hk))

theorem judges_clock (hp : ∀ b ∈ data, Printable b) :
    Judges data clockChecks (RtcData.fromAscii data) := by
  refine Judges.cons (judges_least rfl) fun _ hf => ?_
  have hlen := failIf_not hf
  refine Judges.cons (judges_field hp rfl (by omega)) fun y hy => ?_
  have hy2 : y < 100 := by
    obtain ⟨a0, a1, a2, a3, a4, a5, a6, a7, a8, a9, a10, a11, a12, a13, a14, a15, t, rfl⟩ :=
      split16 (Nat.not_lt.mp hlen)
    simp [Elk.parseField, Elk.slice, liftP, R_ok_bind] at hy
    simpa [UInt8.lt_iff_toNat_lt] using (parseU8Dec2_ok hy).1
  rw [assertR_pos hy2, R_ok_bind]
  refine judges_time hp rfl (by omega) (fun v => ?_) rfl fun _ => ?_
  · simp only [UInt8.le_iff_toNat_le]; exact Iff.rfl
  refine judges_time hp rfl (by omega) (fun v => ?_) rfl fun _ => ?_
  · simp only [UInt8.le_iff_toNat_le]; exact Iff.rfl
  refine judges_time hp rfl (by omega) (fun v => ?_) rfl fun _ => ?_
  · show 24 ≤ v ↔ _
    rw [UInt8.le_iff_toNat_le]; show 24 ≤ v.toNat ↔ _; omega
  refine judges_time hp rfl (by omega) (fun v => ?_) rfl fun _ => ?_
  · show 60 ≤ v ↔ _
    rw [UInt8.le_iff_toNat_le]; show 60 ≤ v.toNat ↔ _; omega
  refine judges_time hp rfl (by omega) (fun v => ?_) rfl fun _ => ?_
  · show 60 ≤ v ↔ _
    rw [UInt8.le_iff_toNat_le]; show 60 ≤ v.toNat ↔ _; omega
  refine judges_idx_letter (α := Weekday) hp (by omega) fun _ => ?_
  obtain ⟨b, h1, h2⟩ := idx_at (data := data) (i := 13) (by omega)
  refine Judges.lift h1 ?_
  refine Judges.cons (judges_byte h2 ?_) fun _ _ => ?_
  · unfold dstFlag
    split
    · rename_i h; subst h; exact .inl ⟨_, rfl, by decide⟩
    · split
      · rename_i h; subst h; exact .inl ⟨_, rfl, by decide⟩
      · exact .inr ⟨rfl, dst_none b ‹_› ‹_›⟩
  refine judges_idx_letter (α := ClockDisplayMode) hp (by omega) fun _ => ?_
  exact judges_idx_letter (α := DateDisplayMode) hp (by omega) fun _ => Judges.ok _

theorem judges_type {v : UInt8} (hr : Reads (fieldAt data 0 2) v.toNat) :
    Judges data [.range 0 2 0 19 fun v => bs "bad TextDescriptionType " ++ num v]
      (ByteEnum.tryFrom v : R TextDescriptionType) := by
  have hall : ∀ v : UInt8, v.toNat < 20 ↔
      v ∈ (ByteEnum.all (α := TextDescriptionType)).map ByteEnum.code := by
    apply forall_u8; decide +kernel
  refine Judges.one ?_
  rcases tryFrom_cases (α := TextDescriptionType) v with ⟨a, h, hm⟩ | ⟨h, hm⟩
  · refine .inl ⟨a, h, ?_⟩
    rintro t ⟨w, hw, hn, _⟩
    rw [reads_one hw hr] at hn
    have := (hall v).mpr hm
    exact hn ⟨by omega, by omega⟩
  · refine .inr ⟨_, h, v.toNat, hr, ?_, ?_⟩
    · intro h'
      exact hm ((hall v).mp (by omega))
    · show badNum "TextDescriptionType" v = _
      rw [badNum, decStr_num]
      rfl

theorem judges_ask (hp : ∀ b ∈ data, Printable b) :
    Judges data ([few 5] ++ textOf) (StringDescriptionRequest.fromAsciiData data) := by
  refine Judges.cons judges_few fun _ hf => ?_
  have hlen := failIf_not hf
  refine Judges.cons (judges_field hp rfl (by omega)) fun _ h => ?_
  refine Judges.cons (judges_type (field_reads rfl h)) fun _ _ => ?_
  exact Judges.map (judges_field hp rfl (by omega))

theorem judges_text (hp : ∀ b ∈ data, Printable b) :
    Judges data ([.least 21 fun k => bs "expected at least 5 bytes, got " ++ num k] ++ textOf)
      (StringDescriptionResponse.fromAsciiData data) := by
  refine Judges.cons (judges_least ?_) fun _ hf => ?_
  · unfold expected
    rw [decStr_num, decStr_num]
    rfl
  have hlen := failIf_not hf
  refine Judges.cons (judges_field hp rfl (by omega)) fun _ h => ?_
  refine Judges.cons (judges_type (field_reads rfl h)) fun _ _ => ?_
  refine Judges.cons (judges_field hp rfl (by omega)) fun _ _ => ?_
  refine Judges.lift (slice_at (n := 16) rfl (by omega)) ?_
  have h16 : (fieldAt data 5 16).length = 16 := by
    unfold fieldAt
    rw [List.length_take, List.length_drop]
    omega
  refine Judges.lift (a := ⟨(fieldAt data 5 16).toArray, by simp [h16]⟩) ?_ (Judges.ok _)
  unfold toArrayN
  rw [dif_pos h16]

theorem judges_task (hp : ∀ b ∈ data, Printable b) :
    Judges data [few 3, .number "task" 0 3, upTo 0 3 32] (taskFromAsciiData data) := by
  refine Judges.cons judges_few fun _ hf => ?_
  have hlen := failIf_not hf
  refine Judges.cons (judges_field hp rfl (by omega)) fun _ h => ?_
  exact judges_upTo (field_reads rfl h)

theorem judges_zoneChange (hp : ∀ b ∈ data, Printable b) :
    Judges data [few 4, .number "zone" 0 3, upTo 0 3 208, zoneState 3]
      (ZoneChange.fromAsciiData data) := by
  refine Judges.cons judges_few fun _ hf => ?_
  have hlen := failIf_not hf
  refine Judges.cons (judges_field hp rfl (by omega)) fun _ h => ?_
  refine Judges.cons (judges_upTo (field_reads rfl h)) fun _ _ => ?_
  obtain ⟨b, h1, h2⟩ := idx_at (data := data) (i := 3) (by omega)
  exact Judges.lift h1 (Judges.map (judges_zone hp h2))

theorem judges_zones (hp : ∀ b ∈ data, Printable b) :
    Judges data ([few 208] ++ (List.range 208).map zoneState)
      (ZoneStatusReport.fromAsciiData data) := by
  rw [← List.flatMap_singleton' ((List.range 208).map zoneState), List.flatMap_map]
  refine Judges.cons judges_few fun _ hf => ?_
  have hlen : ¬ data.length < 208 := failIf_not hf
  refine Judges.map (Judges.fillM fun i hi => ?_)
  obtain ⟨b, h1, h2⟩ := idx_at (data := data) (i := i) (by omega)
  exact Judges.lift h1 (judges_zone hp h2)

theorem armCmd_ne : ∀ l : ArmLevel, armCmd l ≠ bs "AS" ∧ armCmd l ≠ bs "EE" ∧ armCmd l ≠ bs "IC" ∧
    armCmd l ≠ bs "RR" ∧ armCmd l ≠ bs "XK" ∧ armCmd l ≠ bs "sd" ∧ armCmd l ≠ bs "SD" ∧
    armCmd l ≠ bs "tn" ∧ armCmd l ≠ bs "TC" ∧ armCmd l ≠ bs "ZC" ∧ armCmd l ≠ bs "ZS" := by
  intro l; cases l <;> decide

theorem checks_one {cmd : Bytes} {cs cs' : List Check} (h : Checks cmd cs) (h' : Checks cmd cs') :
    cs = cs' := by
  generalize hg : cmd = c at h'
  cases h with
  | arm l =>
    obtain ⟨h1, h2, h3, h4, h5, h6, h7, h8, h9, h10, h11⟩ := armCmd_ne l
    cases h' <;> first | rfl | contradiction
  | _ =>
    cases h' <;> first
      | rfl
      | exact absurd hg (by decide)
      | (rename_i l
         obtain ⟨h1, h2, h3, h4, h5, h6, h7, h8, h9, h10, h11⟩ := armCmd_ne l
         have hg := hg.symm
         contradiction)

theorem checks_code {cmd : Bytes} {cs : List Check} (h : Checks cmd cs) : cmd ∈ armCmds ∨
    cmd ∈ [bs "AS", bs "EE", bs "IC", bs "RR", bs "XK", bs "sd", bs "SD", bs "tn", bs "TC", bs "ZC",
      bs "ZS"] := by
  cases h with
  | arm l => left; cases l <;> decide
  | _ => right; decide

/-- The command has checks, and they decide; or it has none, and there is no error. -/
def Ruled (data cmd : Bytes) (x : R (Option Message)) : Prop :=
  (∃ cs, Checks cmd cs ∧ Judges data cs x) ∨ ((∀ cs, ¬ Checks cmd cs) ∧ ∃ m, x = .ok m)

theorem Ruled.ite {cmd : Bytes} {c : Prop} [Decidable c] {x y : R (Option Message)}
    (hx : c → Ruled data cmd x) (hy : ¬ c → Ruled data cmd y) :
    Ruled data cmd (if c then x else y) := by
  split
  · exact hx ‹_›
  · exact hy ‹_›

theorem Ruled.free {cmd : Bytes} {m : Option Message} (h1 : cmd ∉ armCmds)
    (h2 : cmd ∉ [bs "AS", bs "EE", bs "IC", bs "RR", bs "XK", bs "sd", bs "SD", bs "tn", bs "TC",
      bs "ZC", bs "ZS"]) : Ruled data cmd (.ok m) :=
  .inr ⟨fun _ h => (checks_code h).elim h1 h2, m, rfl⟩

theorem judges_dispatch (hp : ∀ b ∈ data, Printable b) (cmd : Bytes) :
    Ruled data cmd (Message.dispatch cmd data) := by
  unfold Message.dispatch
  refine Ruled.ite (fun h => ?_) fun h0 => ?_
  · obtain ⟨l, rfl⟩ := armCmds_eq h
    exact .inl ⟨_, .arm l, Judges.lift rfl (Judges.map (judges_arm hp l))⟩
  refine Ruled.ite (fun h => ?_) fun _ => ?_
  · subst h; exact Ruled.free (by decide) (by decide)
  refine Ruled.ite (fun h => ?_) fun h1 => ?_
  · subst h; exact .inl ⟨_, .report, Judges.map (judges_report hp)⟩
  refine Ruled.ite (fun h => ?_) fun h2 => ?_
  · subst h; exact .inl ⟨_, .timer, Judges.map (judges_timer hp)⟩
  refine Ruled.ite (fun h => ?_) fun h3 => ?_
  · subst h; exact .inl ⟨_, .code, Judges.map (judges_code hp)⟩
  refine Ruled.ite (fun h => ?_) fun _ => ?_
  · subst h; exact Ruled.free (by decide) (by decide)
  refine Ruled.ite (fun h => ?_) fun h4 => ?_
  · subst h; exact .inl ⟨_, .clock, Judges.map (judges_clock hp)⟩
  refine Ruled.ite (fun h => ?_) fun h5 => ?_
  · subst h; exact .inl ⟨_, .ask, Judges.map (judges_ask hp)⟩
  refine Ruled.ite (fun h => ?_) fun h6 => ?_
  · subst h; exact .inl ⟨_, .text, Judges.map (judges_text hp)⟩
  refine Ruled.ite (fun h => ?_) fun h7 => ?_
  · subst h; exact .inl ⟨_, .activate, Judges.map (judges_task hp)⟩
  refine Ruled.ite (fun h => ?_) fun h8 => ?_
  · subst h; exact .inl ⟨_, .task, Judges.map (judges_task hp)⟩
  refine Ruled.ite (fun h => ?_) fun h9 => ?_
  · subst h; exact .inl ⟨_, .heartbeat, Judges.map (judges_clock hp)⟩
  refine Ruled.ite (fun h => ?_) fun h10 => ?_
  · subst h; exact .inl ⟨_, .zone, Judges.map (judges_zoneChange hp)⟩
  refine Ruled.ite (fun h => ?_) fun _ => ?_
  · subst h; exact Ruled.free (by decide) (by decide)
  refine Ruled.ite (fun h => ?_) fun h11 => ?_
  · subst h; exact .inl ⟨_, .zones, Judges.map (judges_zones hp)⟩
  refine Ruled.free h0 fun hm => ?_
  simp only [List.mem_cons, List.not_mem_nil, or_false] at hm
  rcases hm with h | h | h | h | h | h | h | h | h | h | h
  · exact h1 h
  · exact h2 h
  · exact h3 h
  · exact h4 h
  · exact h9 h
  · exact h5 h
  · exact h6 h
  · exact h7 h
  · exact h8 h
  · exact h10 h
  · exact h11 h

end
end Elk
