import Verif.Spec.JsonMeans
import Verif.Lemmas.Utf8
import Verif.Lemmas.Json
/-!
# Lemmas: what is printed is JSON
-/

namespace Elk
open Elk.Spec Elk.Spec.Rfc

/-! ## UTF-8 -/

theorem utf8_append {s t : Bytes} (h : Utf8 s) (h' : Utf8 t) : Utf8 (s ++ t) := by
  obtain ⟨a, rfl⟩ := h
  obtain ⟨b, rfl⟩ := h'
  exact ⟨a ++ b, by rw [List.flatMap_append]⟩

/-- A character of ASCII. -/
theorem ascii_char (b : UInt8) (h : b.toNat < 128) : ∃ c : Char, c.toNat = b.toNat ∧
    String.utf8EncodeChar c = [b] := by
  obtain ⟨c, hc⟩ := char_of (n := b.toNat) (.inl (by omega))
  refine ⟨c, hc, ?_⟩
  rw [← utf8_char, hc, Doc.utf8, if_pos h, UInt8.ofNat_toNat]

theorem utf8_of_ascii {s : Bytes} (h : ∀ b ∈ s, b.toNat < 128) : Utf8 s := by
  induction s with
  | nil => exact ⟨[], rfl⟩
  | cons b s ih =>
    obtain ⟨c, _, hc⟩ := ascii_char b (h b List.mem_cons_self)
    exact utf8_append (s := [b]) ⟨[c], by simp [hc]⟩ (ih fun x hx => h x (List.mem_cons_of_mem _ hx))

/-- The bytes are ASCII. -/
def asciiOnly (s : Bytes) : Bool := s.all fun b => decide (b.toNat < 128)

theorem utf8_lit {s : Bytes} (h : asciiOnly s = true) : Utf8 s :=
  utf8_of_ascii fun b hb => by simpa using List.all_eq_true.mp h b hb

/-! ## Strings -/

/-- What `jsonEscape` writes. -/
def writtenOk (b : UInt8) : Bool :=
  match jsonEscape b with
  | [x] => x == b && b != b' '"' && decide (0x20 ≤ b.toNat) && b != b' '\\'
  | [x, c] => x == b' '\\' && Rfc.escapes.contains (c, b)
  | [x, u, h1, h2, h3, h4] => x == b' '\\' && u == b' 'u' && decide (b.toNat < 128) &&
      Doc.hex4 h1 h2 h3 h4 == some b.toNat
  | _ => false

theorem writtenOk_all : ∀ b : UInt8, writtenOk b = true := by
  apply forall_u8; decide +kernel

theorem written_byte (b : UInt8) {r t : Bytes} (h1 : Chars r) (h2 : Unescaped r t) :
    Chars (jsonEscape b ++ r) ∧ Unescaped (jsonEscape b ++ r) (b :: t) := by
  have h := writtenOk_all b
  unfold writtenOk at h
  split at h
  · rename_i x hx
    simp only [Bool.and_eq_true, beq_iff_eq, bne_iff_ne, ne_eq, decide_eq_true_eq] at h
    obtain ⟨⟨⟨rfl, g1⟩, g2⟩, g3⟩ := h
    rw [hx]
    exact ⟨.plain g2 g1 g3 h1, .plain g3 h2⟩
  · rename_i x c hx
    simp only [Bool.and_eq_true, beq_iff_eq, List.contains_iff_mem] at h
    obtain ⟨rfl, g1⟩ := h
    rw [hx]
    exact ⟨.escaped g1 h1, .escaped g1 h2⟩
  · rename_i x u p q v w hx
    simp only [Bool.and_eq_true, beq_iff_eq, decide_eq_true_eq] at h
    obtain ⟨⟨⟨rfl, rfl⟩, g1⟩, g2⟩ := h
    obtain ⟨c, hc, he⟩ := ascii_char b g1
    rw [hx]
    have hh := hex4_iff.mp g2
    refine ⟨.unicode (h := [p, q, v, w]) hh h1, ?_⟩
    have := Unescaped.unicode (h := [p, q, v, w]) c (by rw [hc]; exact hh) h2
    rw [he] at this
    exact this
  · cases h

theorem written_string (s : Bytes) :
    Chars (s.flatMap jsonEscape) ∧ Unescaped (s.flatMap jsonEscape) s := by
  induction s with
  | nil => exact ⟨.nil, .nil⟩
  | cons b s ih => rw [List.flatMap_cons]; exact written_byte b ih.1 ih.2

/-! ## Values -/

theorem ws_newline (d : Nat) : Ws (newline d) := by
  intro b hb
  unfold newline at hb
  rcases List.mem_cons.mp hb with rfl | hb
  · simp
  · rw [(List.mem_replicate.mp hb).2]; decide

mutual
theorem pretty_value (d : Nat) : ∀ j : Json, Textual j → ∃ doc, Value doc (j.pretty d) ∧ Means doc j
  | .null, _ => ⟨_, by rw [Json.pretty]; exact .null, .null⟩
  | .bool true, _ => ⟨_, by rw [Json.pretty]; exact .true, .bool _⟩
  | .bool false, _ => ⟨_, by rw [Json.pretty]; exact .false, .bool _⟩
  | .num n, _ => ⟨_, by rw [Json.pretty]; exact .number (.nat n), .nat n⟩
  | .str s, h => by
    rw [Json.pretty]
    rw [Textual] at h
    exact ⟨_, .string (written_string s).1, .str ⟨(written_string s).2, h⟩⟩
  | .arr [], _ => ⟨_, by rw [Json.pretty]; exact .emptyArray ws_nil, .arr .nil⟩
  | .arr (x :: l), h => by
    rw [Textual, TextualAll] at h
    obtain ⟨doc, h1, h2⟩ := pretty_value (d + 1) x h.1
    obtain ⟨docs, h3, h4⟩ := pretty_elems (d + 1) d l h1 h.2
    rw [Json.pretty]
    refine ⟨_, ?_, .arr (.cons h2 h4)⟩
    have := Value.array h3
    simp only [List.append_assoc] at this ⊢
    exact this
  | .obj [], _ => ⟨_, by rw [Json.pretty]; exact .emptyObject ws_nil, .obj .nil⟩
  | .obj ((k, x) :: l), h => by
    rw [Textual, TextualFields] at h
    obtain ⟨doc, h1, h2⟩ := pretty_value (d + 1) x h.2.1
    obtain ⟨docs, h3, h4⟩ := pretty_fields (d + 1) d l (written_string k).1 h1 h.2.2
    rw [Json.pretty]
    refine ⟨_, ?_, .obj (.cons ⟨(written_string k).2, h.1⟩ h2 h4)⟩
    have := Value.object h3
    unfold jsonString
    simp only [List.append_assoc] at this ⊢
    exact this
theorem pretty_elems (d d' : Nat) : ∀ (l : List Json) {doc : Doc} {t : Bytes}, Value doc t →
    TextualAll l → ∃ docs, Elements (doc :: docs)
      (newline d ++ t ++ Json.prettyElems d l ++ newline d') ∧ MeansAll docs l
  | [], doc, t, h, _ => by
    rw [Json.prettyElems, List.append_nil]
    exact ⟨_, .one (ws_newline d) h (ws_newline d'), .nil⟩
  | x :: l, doc, t, h, hl => by
    rw [TextualAll] at hl
    obtain ⟨doc', h1, h2⟩ := pretty_value d x hl.1
    obtain ⟨docs, h3, h4⟩ := pretty_elems d d' l h1 hl.2
    rw [Json.prettyElems]
    refine ⟨_, ?_, .cons h2 h4⟩
    have := Elements.cons (ws_newline d) h ws_nil h3
    simp only [List.append_assoc, List.nil_append] at this ⊢
    exact this
theorem pretty_fields (d d' : Nat) : ∀ (l : List (Bytes × Json)) {raw : Bytes} {doc : Doc} {t : Bytes},
    Chars raw → Value doc t → TextualFields l → ∃ docs, Members ((raw, doc) :: docs)
      (newline d ++ [b' '"'] ++ raw ++ [b' '"'] ++ bs ": " ++ t ++ Json.prettyFields d l ++ newline d') ∧
      MeansFields docs l
  | [], raw, doc, t, hr, h, _ => by
    rw [Json.prettyFields, List.append_nil]
    refine ⟨_, ?_, .nil⟩
    have := Members.one (ws_newline d) hr ws_nil (x := [b' ' ']) (by intro b hb; simp at hb; simp [hb]; decide)
      h (ws_newline d')
    rw [show bs ": " = [b' ':'] ++ [b' ' '] from rfl]
    simp only [List.append_assoc, List.nil_append] at this ⊢
    exact this
  | (k, x) :: l, raw, doc, t, hr, h, hl => by
    rw [TextualFields] at hl
    obtain ⟨doc', h1, h2⟩ := pretty_value d x hl.2.1
    obtain ⟨docs, h3, h4⟩ := pretty_fields d d' l (written_string k).1 h1 hl.2.2
    rw [Json.prettyFields]
    refine ⟨_, ?_, .cons ⟨(written_string k).2, hl.1⟩ h2 h4⟩
    have := Members.cons (ws_newline d) hr ws_nil (x := [b' ' ']) (by intro b hb; simp at hb; simp [hb]; decide)
      h ws_nil h3
    rw [show bs ": " = [b' ':'] ++ [b' ' '] from rfl] at this ⊢
    unfold jsonString
    simp only [List.append_assoc, List.nil_append] at this ⊢
    exact this
end

theorem says_unique {raw t t' : Bytes} (h : Says raw t) (h' : Says raw t') : t = t' := by
  have := text_iff.mpr h
  rw [text_iff.mpr h'] at this
  cases this
  rfl

mutual
theorem means_unique : ∀ {d : Doc} {j j' : Json}, Means d j → Means d j' → j = j'
  | _, _, _, .null, .null => rfl
  | _, _, _, .bool _, .bool _ => rfl
  | _, _, _, .nat _, .nat _ => rfl
  | _, _, _, .str h, .str h' => by rw [says_unique h h']
  | _, _, _, .arr h, .arr h' => by rw [meansAll_unique h h']
  | _, _, _, .obj h, .obj h' => by rw [meansFields_unique h h']
theorem meansAll_unique : ∀ {d : List Doc} {j j' : List Json}, MeansAll d j → MeansAll d j' → j = j'
  | _, _, _, .nil, .nil => rfl
  | _, _, _, .cons h g, .cons h' g' => by rw [means_unique h h', meansAll_unique g g']
theorem meansFields_unique : ∀ {d : List (Bytes × Doc)} {j j' : List (Bytes × Json)},
    MeansFields d j → MeansFields d j' → j = j'
  | _, _, _, .nil, .nil => rfl
  | _, _, _, .cons h g k, .cons h' g' k' => by
    rw [says_unique h h', means_unique g g', meansFields_unique k k']
end

/-! ## What is serialized is UTF-8 -/

theorem textualAll_of {l : List Json} (h : ∀ x ∈ l, Textual x) : TextualAll l := by
  induction l with
  | nil => trivial
  | cons x l ih =>
    exact ⟨h x List.mem_cons_self, ih fun y hy => h y (List.mem_cons_of_mem _ hy)⟩

theorem textual_bytes (b : Bytes) : Textual (.ofBytes b) := by
  unfold Json.ofBytes
  rw [Textual]
  refine textualAll_of fun x hx => ?_
  obtain ⟨b, _, rfl⟩ := List.mem_map.mp hx
  unfold Json.ofU8
  rw [Textual]; trivial

theorem textual_arr {α : Type} {n : Nat} {f : α → Json} (hf : ∀ a, Textual (f a)) (v : Vector α n) :
    Textual (.ofArr f v) := by
  unfold Json.ofArr
  rw [Textual]
  refine textualAll_of fun x hx => ?_
  obtain ⟨a, _, rfl⟩ := List.mem_map.mp hx
  exact hf a

theorem textual_u8 (n : UInt8) : Textual (.ofU8 n) := by unfold Json.ofU8; rw [Textual]; trivial

/-- Names of variants are ASCII. -/
class Plain (α : Type) [Named α] : Prop where
  plain : ∀ a : α, asciiOnly (bs (Named.name a)) = true

instance : Plain ArmLevel := ⟨fun a => by cases a <;> decide +kernel⟩
instance : Plain TimeDataType := ⟨fun a => by cases a <;> decide +kernel⟩
instance : Plain ArmedState := ⟨fun a => by cases a <;> decide +kernel⟩
instance : Plain Weekday := ⟨fun a => by cases a <;> decide +kernel⟩
instance : Plain ClockDisplayMode := ⟨fun a => by cases a <;> decide +kernel⟩
instance : Plain DateDisplayMode := ⟨fun a => by cases a <;> decide +kernel⟩
instance : Plain ArmingStatus := ⟨fun a => by cases a <;> decide +kernel⟩
instance : Plain ArmUpState := ⟨fun a => by cases a <;> decide +kernel⟩
instance : Plain AlarmState := ⟨fun a => by cases a <;> decide +kernel⟩
instance : Plain TextDescriptionType := ⟨fun a => by cases a <;> decide +kernel⟩

theorem textual_enum {α : Type} [Named α] [Plain α] (a : α) : Textual (ByteEnum.serialize a) := by
  unfold ByteEnum.serialize
  rw [Textual]
  exact utf8_lit (Plain.plain a)

theorem utf8_num (n : Nat) : Utf8 (decStr n) :=
  utf8_of_ascii fun b hb => by
    have := (decStr_spec n).1 b hb
    unfold IsDigit at this
    omega

theorem utf8_iso (d : DateTime) : Utf8 d.toIso8601 := by
  have h : ∀ n : UInt8, asciiOnly (padDec 2 n.toNat) = true := by apply forall_u8; decide +kernel
  have h := fun n => utf8_lit (h n)
  have c : ∀ b : Bytes, asciiOnly b = true → Utf8 b := fun _ => utf8_lit
  exact utf8_append (utf8_append (utf8_append (utf8_append (utf8_append (utf8_append (utf8_append
    (utf8_append (utf8_append (utf8_append (utf8_append (c _ (by decide +kernel)) (h _))
    (c _ (by decide +kernel))) (h _)) (c _ (by decide +kernel))) (h _)) (c _ (by decide +kernel)))
    (h _)) (c _ (by decide +kernel))) (h _)) (c _ (by decide +kernel))) (h _)

/-- Fields with plain names. -/
macro "textual" : tactic => `(tactic|
  (simp only [Json.variant, Textual, TextualFields, TextualAll, and_true, true_and];
   repeat' first
     | assumption
     | exact textual_u8 _
     | exact textual_enum _
     | exact textual_arr textual_u8 _
     | exact textual_arr textual_enum _
     | exact utf8_lit (by decide +kernel)
     | apply And.intro))

theorem textual_rtc (r : RtcData) : Textual r.serialize := by
  have := utf8_iso r.datetime
  unfold RtcData.serialize DateTime.serialize
  textual

theorem textual_report (r : ArmingStatusReport) : Textual r.serialize := by
  unfold ArmingStatusReport.serialize
  textual

theorem textual_message {m : Message} {j : Json} (h : m.serialize = .ok j) : Textual j := by
  cases m with
  | armRequest m =>
    cases h; unfold ArmRequest.serialize ArmCode.serialize Limited.serialize; textual
  | armingStatusRequest => cases h; textual
  | rtcRequest => cases h; textual
  | zoneStatusRequest => cases h; textual
  | armingStatusReport m => cases h; have := textual_report m; textual
  | sendTimeData m =>
    cases h
    unfold SendTimeData.serialize Limited.serialize
    cases m.armedState <;> textual
  | sendCode m => cases h; unfold SendCode.serialize Limited.serialize; textual
  | rtcResponse r => cases h; have := textual_rtc r; textual
  | heartbeat r => cases h; have := textual_rtc r; textual
  | stringDescriptionRequest m => cases h; unfold StringDescriptionRequest.serialize; textual
  | stringDescriptionResponse m =>
    cases h; unfold StringDescriptionResponse.serialize TextDescription.serialize; textual
  | activateTask x => cases h; unfold Limited.serialize; textual
  | taskChange x => cases h; unfold Limited.serialize; textual
  | zoneChange m => cases h; unfold ZoneChange.serialize ZoneStatus.serialize Limited.serialize; textual
  | zoneStatusReport m => cases h

theorem textual_change (c : Change) : Textual c.serialize := by
  cases c with
  | zoneChange z p => unfold Change.serialize ZoneStatus.serialize Limited.serialize; textual
  | armingStatus p => have := textual_report p; unfold Change.serialize; textual

end Elk
