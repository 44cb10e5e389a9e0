import Verif.Spec.Document
import Verif.Lemmas.Json
/-!
# The JSON form of messages and events is that of Spec/Document.lean
-/

namespace Elk
open Elk.Spec

/-! ## The text -/

theorem quotedByte_eq : ∀ b : UInt8, jsonEscape b = quotedByte b := forall_u8 (by decide +kernel)

theorem inQuotes_eq (s : Bytes) : jsonString s = inQuotes s := by
  unfold jsonString inQuotes
  rw [show s.flatMap jsonEscape = s.flatMap quotedByte from by
    congr 1; exact funext quotedByte_eq]
  rfl

/-- Lines, from the second on indented. -/
def joinAt (d : Nat) : List Bytes → Bytes
  | [] => []
  | x :: l => x ++ l.flatMap (newline d ++ ·)

theorem joinAt_append {d : Nat} {l : List Bytes} (h : l ≠ []) (l' : List Bytes) :
    joinAt d (l ++ l') = joinAt d l ++ l'.flatMap (newline d ++ ·) := by
  cases l with
  | nil => exact absurd rfl h
  | cons x l =>
    show x ++ (l ++ l').flatMap _ = x ++ l.flatMap _ ++ _
    rw [List.flatMap_append, List.append_assoc]

theorem joinAt_shift (d : Nat) (l : List Bytes) :
    (shift l).flatMap (newline d ++ ·) = l.flatMap (newline (d + 1) ++ ·) := by
  unfold shift
  rw [List.flatMap_map]
  congr 1
  funext x
  unfold newline
  rw [show 2 * (d + 1) = 2 * d + 2 from rfl, ← List.replicate_append_replicate]
  simp only [List.cons_append, List.append_assoc]
  rfl

theorem flatMap_joinAt {d : Nat} {l : List Bytes} (h : l ≠ []) :
    l.flatMap (newline d ++ ·) = newline d ++ joinAt d l := by
  cases l with
  | nil => exact absurd rfl h
  | cons x l => rw [List.flatMap_cons]; unfold joinAt; rw [List.append_assoc]

theorem joinAt_block {d : Nat} {l : List Bytes} (h : l ≠ []) (a z : Bytes) :
    joinAt d ([a] ++ shift l ++ [z]) =
      a ++ newline (d + 1) ++ joinAt (d + 1) l ++ newline d ++ z := by
  rw [List.append_assoc, List.singleton_append]
  show a ++ (shift l ++ [z]).flatMap _ = _
  rw [List.flatMap_append, joinAt_shift, flatMap_joinAt h]
  simp only [List.flatMap_cons, List.flatMap_nil, List.append_nil, List.append_assoc]

theorem joinAt_comma {d : Nat} {l : List Bytes} (h : l ≠ []) :
    joinAt d (l.dropLast ++ [l.getLast?.getD [] ++ bs ","]) = joinAt d l ++ bs "," := by
  have he := List.dropLast_concat_getLast h
  rw [List.getLast?_eq_some_getLast h, Option.getD_some]
  generalize l.getLast h = z at he
  generalize l.dropLast = y at he
  subst he
  cases y with
  | nil => simp [joinAt]
  | cons x y => simp [joinAt, List.append_assoc]

theorem commas_ne {l : List Bytes} {r : List (List Bytes)} (h : l ≠ []) : commas (l :: r) ≠ [] := by
  cases r with
  | nil => exact h
  | cons l' r => unfold commas; simp

theorem joinAt_commas {d : Nat} {r : List (List Bytes)} : ∀ {l : List Bytes}, l ≠ [] →
    (∀ x ∈ r, x ≠ []) →
    joinAt d (commas (l :: r)) =
      joinAt d l ++ r.flatMap (fun x => bs "," ++ newline d ++ joinAt d x) := by
  induction r with
  | nil => intro l _ _; simp [commas]
  | cons l' r ih =>
    intro l h hr
    have h' := hr l' List.mem_cons_self
    unfold commas
    rw [joinAt_append (by simp), joinAt_comma h, flatMap_joinAt (commas_ne h'),
      ih h' (fun x hx => hr x (List.mem_cons_of_mem _ hx)), List.flatMap_cons]
    simp only [List.append_assoc]

theorem rows_ne : ∀ j, rows j ≠ []
  | .null | .bool _ | .num _ | .str _ | .arr [] | .arr (_ :: _) | .obj [] | .obj (_ :: _) => by
    unfold rows; simp

theorem joinAt_lead {d : Nat} {t : Bytes} {l : List Bytes} (h : l ≠ []) :
    joinAt d (lead t l) = t ++ joinAt d l := by
  cases l with
  | nil => exact absurd rfl h
  | cons x l => exact List.append_assoc _ _ _

theorem lead_ne {t : Bytes} {l : List Bytes} (h : l ≠ []) : lead t l ≠ [] := by
  cases l with
  | nil => exact absurd rfl h
  | cons x l => unfold lead; simp

theorem rowsAll_ne : ∀ {l : List Json} {x}, x ∈ rowsAll l → x ≠ []
  | [], _, h => nomatch h
  | y :: l, x, h => by
    unfold rowsAll at h
    rcases List.mem_cons.mp h with rfl | h
    · exact rows_ne y
    · exact rowsAll_ne h

theorem rowsFields_ne : ∀ {l : List (Bytes × Json)} {x}, x ∈ rowsFields l → x ≠ []
  | [], _, h => nomatch h
  | (k, y) :: l, x, h => by
    unfold rowsFields at h
    rcases List.mem_cons.mp h with rfl | h
    · exact lead_ne (rows_ne y)
    · exact rowsFields_ne h

mutual
theorem pretty_rows : ∀ (j : Json) (d : Nat), j.pretty d = joinAt d (rows j)
  | .null, d => by unfold Json.pretty rows; simp [joinAt]
  | .bool true, d => by unfold Json.pretty rows; simp [joinAt]
  | .bool false, d => by unfold Json.pretty rows; simp [joinAt]
  | .num n, d => by unfold Json.pretty rows; simp [joinAt]
  | .str s, d => by unfold Json.pretty rows; rw [inQuotes_eq]; simp [joinAt]
  | .arr [], d => by unfold Json.pretty rows; simp [joinAt]
  | .arr (x :: l), d => by
    unfold Json.pretty rows rowsAll
    rw [joinAt_block (commas_ne (rows_ne x)), joinAt_commas (rows_ne x) (fun _ h => rowsAll_ne h),
      pretty_rows x, elems_rows l]
    simp only [List.append_assoc]
    rfl
  | .obj [], d => by unfold Json.pretty rows; simp [joinAt]
  | .obj ((k, x) :: l), d => by
    unfold Json.pretty rows rowsFields
    rw [joinAt_block (commas_ne (lead_ne (rows_ne x))),
      joinAt_commas (lead_ne (rows_ne x)) (fun _ h => rowsFields_ne h), joinAt_lead (rows_ne x),
      pretty_rows x, fields_rows l, inQuotes_eq]
    simp only [List.append_assoc]
    rfl
theorem elems_rows : ∀ (l : List Json) (d : Nat),
    Json.prettyElems d l = (rowsAll l).flatMap (fun x => bs "," ++ newline d ++ joinAt d x)
  | [], d => by unfold Json.prettyElems rowsAll; rfl
  | x :: l, d => by
    unfold Json.prettyElems rowsAll
    rw [List.flatMap_cons, pretty_rows x, elems_rows l]
    rfl
theorem fields_rows : ∀ (l : List (Bytes × Json)) (d : Nat),
    Json.prettyFields d l = (rowsFields l).flatMap (fun x => bs "," ++ newline d ++ joinAt d x)
  | [], d => by unfold Json.prettyFields rowsFields; rfl
  | (k, x) :: l, d => by
    unfold Json.prettyFields rowsFields
    rw [List.flatMap_cons, pretty_rows x, fields_rows l, joinAt_lead (rows_ne x), inQuotes_eq]
    simp only [List.append_assoc]
    rfl
end

theorem joined_joinAt : ∀ l, joined l = joinAt 0 l
  | [] => rfl
  | [x] => by simp [joined, joinAt]
  | x :: y :: l => by
    unfold joined
    rw [joined_joinAt (y :: l)]
    simp only [joinAt, List.flatMap_cons, List.append_assoc]
    rfl

theorem text_json (j : Json) : j.toStringPretty = textOfJson j := by
  unfold Json.toStringPretty textOfJson
  rw [pretty_rows, joined_joinAt]

end Elk

namespace Elk
open Elk.Spec

/-! ## Fields -/

theorem value_dec3 : ∀ n : UInt8, digitsValue (dec3 n) = n.toNat := forall_u8 (by decide +kernel)

theorem value_dec2 : ∀ n : UInt8, digitsValue (dec2 n) = n.toNat := forall_u8 (by decide +kernel)

theorem value_dig : ∀ n : UInt8, n.toNat ≤ 8 → digitsValue [dig n.toNat] = n.toNat :=
  forall_u8 (by decide +kernel)

theorem pair_hex2 (n : UInt8) : hexPair (hex2 n.toNat) = some (.num n.toNat) := by
  have : ∀ n : UInt8, ∃ h l, hex2 n.toNat = [h, l] ∧ ∃ x y, hexValue h = some x ∧ hexValue l = some y ∧
      16 * x + y = n.toNat := by
    intro n
    refine ⟨_, _, rfl, ?_⟩
    have : ∀ n : UInt8, (hexValue (hexDigit (n.toNat / 16))) = some (n.toNat / 16) ∧
        (hexValue (hexDigit (n.toNat % 16))) = some (n.toNat % 16) := forall_u8 (by decide +kernel)
    refine ⟨_, _, (this n).1, (this n).2, ?_⟩
    omega
  obtain ⟨h, l, h1, x, y, h2, h3, h4⟩ := this n
  rw [h1]
  show ((hexValue h).bind fun h => (hexValue l).bind fun l => some (Json.num (16 * h + l))) = _
  rw [h2, h3, ← h4]
  rfl

theorem nibble_hex : ∀ n : UInt8, n.toNat < 16 → hexValue (hexDigit n.toNat) = some n.toNat :=
  forall_u8 (by decide +kernel)

theorem mapM_names {α : Type} {f : α → UInt8} {g : UInt8 → Option Json} {h : α → Json}
    (hg : ∀ a, g (f a) = some (h a)) : ∀ l : List α, (l.map f).mapM g = some (l.map h)
  | [] => rfl
  | a :: l => by
    rw [List.map_cons, List.mapM_cons, hg, mapM_names hg l]
    rfl

theorem name_level : ∀ a : ArmLevel, nameOf levelNames (b' (armLevelChar a)) = some (ByteEnum.serialize a) := by
  intro a; cases a <;> rfl
theorem name_mode : ∀ a : ArmingStatus, nameOf modeNames (b' (armingStatusChar a)) = some (ByteEnum.serialize a) := by
  intro a; cases a <;> rfl
theorem name_armed : ∀ a : ArmedState, nameOf modeNames (b' (armedStateChar a)) = some (ByteEnum.serialize a) := by
  intro a; cases a <;> rfl
theorem name_up : ∀ a : ArmUpState, nameOf upNames (b' (armUpChar a)) = some (ByteEnum.serialize a) := by
  intro a; cases a <;> rfl
theorem name_alarm : ∀ a : AlarmState, nameOf alarmNames (b' (alarmChar a)) = some (ByteEnum.serialize a) := by
  intro a; cases a <;> rfl
theorem name_time : ∀ a : TimeDataType, nameOf ["exit", "entry"] (b' (timeTypeChar a)) = some (ByteEnum.serialize a) := by
  intro a; cases a <;> rfl
theorem name_day : ∀ a : Weekday, nameOf dayNames (b' (weekdayChar a) - 1) = some (ByteEnum.serialize a) := by
  intro a; cases a <;> rfl
theorem name_clock : ∀ a : ClockDisplayMode,
    nameOf ["twentyFourHour", "twelveHour"] (b' (clockChar a)) = some (ByteEnum.serialize a) := by
  intro a; cases a <;> rfl
theorem name_date : ∀ a : DateDisplayMode,
    nameOf ["monthFirst", "dayFirst"] (b' (dateChar a)) = some (ByteEnum.serialize a) := by
  intro a; cases a <;> rfl
theorem name_text : ∀ a : TextDescriptionType,
    nameAt textNames (textTypeNum a).toNat = some (ByteEnum.serialize a) := by
  intro a; cases a <;> rfl

theorem octets_arr {n : Nat} (v : Vector UInt8 n) : octets v.toList = .ofArr .ofU8 v := rfl

theorem doc_clock {r : RtcData} (h : WfDateTime r.datetime) : clockDoc (rtcText r) = some r.serialize := by
  obtain ⟨hy, ⟨_, hmo⟩, ⟨_, hd⟩, hh, hmi, hs⟩ := h
  have e : r.datetime.serialize = dateOf (dec2 r.datetime.second) (dec2 r.datetime.minute)
      (dec2 r.datetime.hour) (dec2 r.datetime.day) (dec2 r.datetime.month) (dec2 r.datetime.year) := by
    unfold DateTime.serialize DateTime.toIso8601 dateOf
    rw [padDec2 _ hy, padDec2 _ (by omega), padDec2 _ (by omega), padDec2 _ (by omega),
      padDec2 _ (by omega), padDec2 _ (by omega)]
    rfl
  unfold RtcData.serialize
  rw [e]
  have hdst : flag (if r.dst then b' '1' else b' '0') = .bool r.dst := by cases r.dst <;> rfl
  show ((nameOf dayNames (b' (weekdayChar r.weekday) - 1)).bind fun weekday =>
    (nameOf ["twentyFourHour", "twelveHour"] (b' (clockChar r.clockDisplay))).bind fun clock =>
    (nameOf ["monthFirst", "dayFirst"] (b' (dateChar r.dateDisplay))).bind fun date =>
      some (record [("datetime", _), ("weekday", weekday), ("dst", flag (if r.dst then b' '1' else b' '0')),
        ("clock_display", clock), ("date_display", date)])) = _
  rw [name_day, name_clock, name_date, hdst]
  rfl

theorem doc_status (m : ArmingStatusReport) :
    ∃ l, statusDoc (msgData (.armingStatusReport m)) = some l ∧ record l = m.serialize := by
  have l1 : (m.armingStatus.toList.map fun s => b' (armingStatusChar s)).length = 8 := by simp
  have l2 : (m.upState.toList.map fun s => b' (armUpChar s)).length = 8 := by simp
  have l3 : (m.alarmState.toList.map fun s => b' (alarmChar s)).length = 8 := by simp
  have m1 := mapM_names name_mode m.armingStatus.toList
  have m2 := mapM_names name_up m.upState.toList
  have m3 := mapM_names name_alarm m.alarmState.toList
  show ∃ l, statusDoc (_ ++ _ ++ _ ++ hex2 m.firstExitTime.toNat) = some l ∧ _
  generalize m.armingStatus.toList.map (fun s => b' (armingStatusChar s)) = a at *
  generalize m.upState.toList.map (fun s => b' (armUpChar s)) = b at *
  generalize m.alarmState.toList.map (fun s => b' (alarmChar s)) = c at *
  have c1 : cut 0 8 (a ++ b ++ c ++ hex2 m.firstExitTime.toNat) = a := by
    unfold cut
    rw [List.drop_zero, List.append_assoc, List.append_assoc, List.take_left' l1]
  have c2 : cut 8 8 (a ++ b ++ c ++ hex2 m.firstExitTime.toNat) = b := by
    unfold cut
    rw [List.append_assoc, List.append_assoc, List.drop_left' l1, List.take_left' l2]
  have c3 : cut 16 8 (a ++ b ++ c ++ hex2 m.firstExitTime.toNat) = c := by
    unfold cut
    rw [List.append_assoc, List.drop_left' (by simp [l1, l2]), List.take_left' l3]
  have c4 : cut 24 2 (a ++ b ++ c ++ hex2 m.firstExitTime.toNat) = hex2 m.firstExitTime.toNat := by
    unfold cut
    rw [List.drop_left' (by simp [l1, l2, l3])]
    rfl
  unfold statusDoc
  rw [c1, c2, c3, c4, m1, m2, m3, pair_hex2]
  exact ⟨_, rfl, rfl⟩

/-- The JSON form of a well-formed message is what its text spells. -/
theorem doc_message {m : Message} (hm : WfMessage m) :
    spell (msgText m) = (match m.serialize with
      | .ok j => some j
      | .error _ => none) := by
  cases m with
  | armRequest m =>
    have h : spell (msgText (.armRequest m)) =
        armDoc (b' (armLevelChar m.level)) ([dig m.area.val.toNat] ++ m.code.code.toList) := by
      obtain ⟨area, level, code⟩ := m
      cases level <;> rfl
    rw [h]
    have hc : cut 1 6 ([dig m.area.val.toNat] ++ m.code.code.toList) = m.code.code.toList := by
      show List.take 6 m.code.code.toList = _
      exact List.take_of_length_le (by simp)
    unfold armDoc
    rw [name_level, hc, octets_arr]
    have hd := value_dig m.area.val hm.1.2
    show some (titled "armRequest" [("area", .num (digitsValue [dig m.area.val.toNat])), _, _]) = _
    rw [hd]
    rfl
  | armingStatusRequest => rfl
  | armingStatusReport m =>
    obtain ⟨l, h1, h2⟩ := doc_status m
    show (statusDoc (msgData (.armingStatusReport m))).map (titled "armingStatusReport") = _
    rw [h1]
    show some (record [_]) = some (Json.variant _ _)
    rw [← h2]
    rfl
  | sendTimeData m =>
    show timesDoc ([dig m.area.val.toNat, b' (timeTypeChar m.ty)] ++ dec3 m.timer1 ++ dec3 m.timer2 ++
      (m.armedState.toList.map fun s => b' (armedStateChar s))) = _
    have hd := value_dig m.area.val hm.2
    have hs : Message.serialize (.sendTimeData m) = .ok (titled "sendTimeData"
      [("area", .num m.area.val.toNat), ("ty", ByteEnum.serialize m.ty), ("timer1", .num m.timer1.toNat),
        ("timer2", .num m.timer2.toNat), ("armedState", match m.armedState with
          | none => .null
          | some s => ByteEnum.serialize s)]) := rfl
    rw [hs]
    cases m.armedState with
    | none =>
      show ((nameOf ["exit", "entry"] (b' (timeTypeChar m.ty))).bind fun ty =>
        some (titled "sendTimeData" [("area", .num (digitsValue [dig m.area.val.toNat])), ("ty", ty),
          ("timer1", .num (digitsValue (dec3 m.timer1))), ("timer2", .num (digitsValue (dec3 m.timer2))),
          ("armedState", .null)])) = _
      rw [name_time, hd, value_dec3, value_dec3]
      rfl
    | some s =>
      show ((nameOf ["exit", "entry"] (b' (timeTypeChar m.ty))).bind fun ty =>
        (nameOf modeNames (b' (armedStateChar s))).bind fun mode =>
        some (titled "sendTimeData" [("area", .num (digitsValue [dig m.area.val.toNat])), ("ty", ty),
          ("timer1", .num (digitsValue (dec3 m.timer1))), ("timer2", .num (digitsValue (dec3 m.timer2))),
          ("armedState", mode)])) = _
      rw [name_time, name_armed, hd, value_dec3, value_dec3]
      rfl
  | sendCode m =>
    obtain ⟨a, b, c, d, e, f, hv⟩ : ∃ a b c d e f, m.code.toList = [a, b, c, d, e, f] := by
      have := m.code.size_toArray
      match hl : m.code.toList with
      | [a, b, c, d, e, f] => exact ⟨a, b, c, d, e, f, rfl⟩
      | [] | [_] | [_, _] | [_, _, _] | [_, _, _, _] | [_, _, _, _, _] | _ :: _ :: _ :: _ :: _ :: _ :: _ :: _ =>
        have := congrArg List.length hl
        simp at this
    have hs : Message.serialize (.sendCode m) = .ok (titled "sendCode"
      [("code", .arr (m.code.toList.map .ofU8)), ("user", .num m.user.toNat), ("keypad", .num m.keypad.val.toNat)]) := rfl
    rw [hs, hv]
    have ht : msgText (.sendCode m) = b' 'I' :: b' 'C' ::
      ([a, b, c, d, e, f].flatMap (fun b => hex2 b.toNat) ++ dec3 m.user ++ dec2 m.keypad.val) := by
      rw [← hv]; rfl
    rw [ht]
    show (([hexPair (hex2 a.toNat), hexPair (hex2 b.toNat), hexPair (hex2 c.toNat), hexPair (hex2 d.toNat),
        hexPair (hex2 e.toNat), hexPair (hex2 f.toNat)].mapM id).bind fun code =>
      some (titled "sendCode" [("code", .arr code), ("user", .num (digitsValue (dec3 m.user))),
        ("keypad", .num (digitsValue (dec2 m.keypad.val)))])) = _
    rw [value_dec3, value_dec2]
    simp only [pair_hex2]
    rfl
  | rtcRequest => rfl
  | rtcResponse r =>
    show (clockDoc (rtcText r)).map _ = _
    rw [doc_clock hm]
    rfl
  | stringDescriptionRequest m =>
    show ((nameAt textNames (digitsValue (dec2 (textTypeNum m.ty)))).bind fun ty =>
      some [("ty", ty), ("num", .num (digitsValue (dec3 m.num)))]).map _ = _
    rw [value_dec2, value_dec3, name_text]
    rfl
  | stringDescriptionResponse m =>
    have hc : cut 5 16 (dec2 (textTypeNum m.ty) ++ dec3 m.num ++ m.text.text.toList) = m.text.text.toList := by
      show List.take 16 m.text.text.toList = _
      exact List.take_of_length_le (by simp)
    show ((nameAt textNames (digitsValue (dec2 (textTypeNum m.ty)))).bind fun ty =>
      some [("ty", ty), ("num", .num (digitsValue (dec3 m.num)))]).map (fun l =>
        titled "stringDescriptionResponse" (l ++ [("text", octets (cut 5 16
          (dec2 (textTypeNum m.ty) ++ dec3 m.num ++ m.text.text.toList)))])) = _
    rw [value_dec2, value_dec3, name_text, hc, octets_arr]
    rfl
  | activateTask t =>
    show some (titled "activateTask" [("task", .num (digitsValue (dec3 t.val)))]) = _
    rw [value_dec3]
    rfl
  | taskChange t =>
    show some (titled "taskChange" [("task", .num (digitsValue (dec3 t.val)))]) = _
    rw [value_dec3]
    rfl
  | heartbeat r =>
    show (clockDoc (rtcText r)).map _ = _
    rw [doc_clock hm]
    rfl
  | zoneChange m =>
    show ((hexValue (hexDigit m.status.val.toNat)).bind fun status =>
      some (titled "zoneChange" [("zone", .num (digitsValue (dec3 m.zone.val))), ("status", .num status)])) = _
    rw [nibble_hex _ hm.2, value_dec3]
    rfl
  | zoneStatusRequest => rfl
  | zoneStatusReport m => rfl

/-! ## Events -/

/-- What is written of a step that may panic. -/
def written (r : P Json) : Option Json :=
  match r with
  | .ok j => some j
  | .error _ => none

theorem written_ok {r : P Json} {j : Json} : r = .ok j ↔ written r = some j := by
  cases r with
  | ok a => exact ⟨fun h => by cases h; rfl, fun h => by injection h with h; rw [h]⟩
  | error p => exact ⟨(fun h => nomatch h), (fun h => nomatch h)⟩

theorem written_bind {r : P Json} {f : Json → P Json} {g : Json → Option Json}
    (h : ∀ j, written (f j) = g j) : written (r.bind f) = (written r).bind g := by
  cases r with
  | ok a => exact h a
  | error p => rfl

theorem written_orNull {α : Type} {f : α → P Json} {g : α → Option Json} {o : Option α}
    (h : ∀ a, o = some a → written (f a) = g a) : written (Json.ofOption f o) = orNull g o := by
  cases o with
  | none => rfl
  | some a => exact h a rfl

theorem doc_packet (p : Packet) : packetDoc p = p.serialize := by
  cases p <;> rfl

theorem doc_change (c : Change) : changeDoc c = some c.serialize := by
  cases c with
  | zoneChange z s => rfl
  | armingStatus r =>
    obtain ⟨l, h1, h2⟩ := doc_status r
    show ((statusDoc (msgData (.armingStatusReport r))).bind fun l =>
      some (titled "armingStatus" [("prior", record l)])) = _
    rw [h1]
    show some (titled "armingStatus" [("prior", record l)]) = _
    rw [h2]
    rfl

/-- The JSON form of an event of well-formed messages. -/
theorem doc_event {e : Event} (hm : ∀ m, e.msg = some (.ok m) → WfMessage m)
    (hc : ∀ m, e.completes = some m → WfMessage m) : written e.serialize = eventDoc e := by
  refine (written_bind fun p => written_bind fun m => written_bind fun c =>
    written_bind (g := fun x => some (record [("pkt", p), ("msg", m), ("completes", c), ("change", x)]))
      fun x => rfl).trans ?_
  rw [written_orNull (f := fun p => .ok p.serialize) (g := fun p => some (packetDoc p))
        (fun p _ => by rw [doc_packet]; rfl),
    written_orNull (f := serializeResult) (g := meaningDoc) ?_,
    written_orNull (f := Message.serialize) (g := fun m => spell (msgText m))
      (fun m h => (doc_message (hc m h)).symm),
    written_orNull (f := fun c : Change => .ok c.serialize) (g := changeDoc)
      (fun c _ => by rw [doc_change]; rfl)]
  · rfl
  · intro r hr
    cases r with
    | error t => rfl
    | ok m =>
      show written (m.serialize.bind _) = (spell (msgText m)).map _
      rw [doc_message (hm m hr)]
      cases m.serialize <;> rfl

end Elk
