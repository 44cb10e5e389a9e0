import Verif.Spec.Grammar
import Verif.Props.Diagnosis
import Verif.Props.Pkt
/-!
# Property of the decoder as a whole (C117)
-/

namespace Elk.Props
open Elk.Spec

theorem waits_of_decode {src rest : Bytes} (h : Packet.decode src = .ok (none, rest)) :
    rest = src ∧ Waits src := by
  have h := decode_case_of h
  generalize hx : ((none : Option Packet), rest) = x at h
  cases h with
  | short hl => cases hx; exact ⟨rfl, .few hl⟩
  | asciiMore a b n r hs hd hl =>
    cases hx
    refine ⟨rfl, .ascii n.toNat r n.toNat_lt ?_ hl⟩
    rw [hex2_eq, dehexByte_some hd, hs]
    rfl
  | asciiBad => cases hx
  | asciiGood => cases hx
  | scanMore a b r hs hn hd hl hno =>
    cases hx
    refine ⟨rfl, .noStart (by rw [hs]; simp) (by omega) ?_ ?_⟩
    · intro hst
      have : PlausibleStart src 0 := starts_iff.mpr hst
      rw [hs] at this
      exact not_plausible_zero hn hd this
    · intro x y hxy hy hst
      refine hno x.length (by rw [hxy, List.length_append]; omega) (starts_iff.mpr ?_)
      rw [hxy, List.drop_left]
      exact hst
  | scanBad => cases hx
  | rp r x hs hc =>
    subst hx
    generalize hx : ((none : Option Packet), rest) = x at hc
    cases hc with
    | more d tail hl ht hsp =>
      cases hx
      rw [List.take_of_length_le (by omega)] at hsp
      exact ⟨rfl, .rp d tail (by rw [hsp, List.append_assoc]) ht hl⟩
    | crcMissing d x hl hsp =>
      cases hx
      refine ⟨rfl, ?_⟩
      have hsp' : src.take 1024 = ([0x10, 0x02] ++ escape d ++ [0x10, 0x03]) ++ x := by
        rw [hsp]; simp
      by_cases hlen : src.length < 1024
      · rw [List.take_of_length_le (by omega)] at hsp'
        exact .crc d x hsp' hl hlen
      · obtain ⟨_, _, h1, _⟩ := take_append_split hsp'
        refine .late d _ h1 ?_
        have := congrArg List.length hsp'
        rw [List.length_take, List.length_append, Nat.min_eq_left (by omega)] at this
        rw [List.mem_cons, List.mem_singleton]
        omega
    | noEtx => cases hx
    | badEscape => cases hx
    | badCrc => cases hx
    | good => cases hx

theorem decode_of_waits {src : Bytes} (h : Waits src) : Packet.decode src = .ok (none, src) := by
  apply decodeCase_decode
  cases h with
  | few h => exact .short h
  | ascii n r hn hr hl =>
    obtain ⟨a, b, hab⟩ : ∃ a b, hex2 n = [a, b] := ⟨_, _, rfl⟩
    exact .asciiMore a b (UInt8.ofNat n) r (by rw [hr, hab]; rfl) (dehexByte_hex2 hn hab)
      (by rw [ofNat_toNat_lt hn]; exact hl)
  | rp d tail hs ht hl =>
    refine .rp (escape d ++ tail) _ (by rw [hs]; simp) (.more d tail hl ht ?_)
    rw [List.take_of_length_le (by omega), hs, List.append_assoc]
  | crc d tail hs ht hl =>
    refine .rp (escape d ++ [0x10, 0x03] ++ tail) _ (by rw [hs]; simp) (.crcMissing d tail ht ?_)
    rw [List.take_of_length_le (by omega), hs]
    simp
  | late d tail hs hl =>
    rw [List.mem_cons, List.mem_singleton] at hl
    refine .rp (escape d ++ [0x10, 0x03] ++ tail) _ (by rw [hs]; simp)
      (.crcMissing d (tail.take (1024 - ([0x10, 0x02] ++ escape d ++ [0x10, 0x03]).length)) ?_ ?_)
    · rw [List.length_take]; omega
    · rw [hs, List.take_append, List.take_of_length_le (by omega)]
      simp
  | noStart h2 hl h0 hno =>
    match hs : src, h2 with
    | a :: b :: r, _ =>
      refine .scanMore a b r rfl ?_ ?_ (by omega) ?_
      · rintro ⟨rfl, rfl⟩
        exact h0 ⟨_, _, r, rfl, .inl ⟨rfl, rfl⟩⟩
      · cases hd : dehexByte a b with
        | none => rfl
        | some v => exact absurd ⟨a, b, r, rfl, .inr (dehexByte_hex.mp (by rw [hd]; rfl))⟩ h0
      · intro i hi hp
        refine hno ((a :: b :: r).take i) ((a :: b :: r).drop i) (List.take_append_drop _ _).symm ?_
          (starts_iff.mp hp)
        rw [List.length_drop]
        omega

/-- **C117** `Packet::decode` returns exactly what the grammar says the buffer begins with. -/
theorem C117_decode {src rest : Bytes} {r : Option Packet} :
    Packet.decode src = .ok (r, rest) ↔ Front src r rest := by
  constructor
  · intro h
    match r, h with
    | none, h =>
      obtain ⟨rfl, h⟩ := waits_of_decode h
      exact .waits h
    | some (.invalid i), h =>
      obtain ⟨h1, h2⟩ := C102_true h
      exact .invalid i.raw rest i.reason h1 h2
    | some (.ascii p), h =>
      rcases decode_some_cond h with hv | ⟨i, hi, _⟩
      · exact .packet _ _ hv (decode_some_split h)
      · cases hi
    | some (.rp p), h =>
      rcases decode_some_cond h with hv | ⟨i, hi, _⟩
      · exact .packet _ _ hv (decode_some_split h)
      · cases hi
  · intro h
    cases h with
    | packet p _ hv hs => rw [hs]; exact decode_wire hv rest
    | invalid raw _ text hs hd => rw [hs]; exact C102_told hd
    | waits h => exact decode_of_waits h

/-- **C117** The grammar is unambiguous and covers all bytes: each buffer begins with one thing only,
a packet, something that is none, or something incomplete. -/
theorem C117_one (src : Bytes) : ∃ r rest, Front src r rest ∧
    ∀ r' rest', Front src r' rest' → r' = r ∧ rest' = rest := by
  obtain ⟨⟨r, rest⟩, h⟩ := C16_decode_never_panics src
  refine ⟨r, rest, C117_decode.mp h, fun r' rest' h' => ?_⟩
  have := C117_decode.mpr h'
  rw [h] at this
  cases this
  exact ⟨rfl, rfl⟩

/-- **C117** All that comes out of a buffer is what the grammar says it consists of. -/
theorem C117_tokens {src left : Bytes} {ps : List Packet} : Drains src ps left ↔ Tokens src ps left := by
  constructor
  · intro h
    induction h with
    | stop h =>
      obtain ⟨rfl, h⟩ := waits_of_decode h
      exact .done h
    | step h _ ih => exact .next (C117_decode.mp h) ih
  · intro h
    induction h with
    | done h => exact .stop (decode_of_waits h)
    | next h _ ih => exact .step (C117_decode.mpr h) ih

/-- **C117** So all bytes can be taken apart, and in one way only. -/
theorem C117_stream (src : Bytes) : ∃ ps left, Tokens src ps left ∧
    ∀ ps' left', Tokens src ps' left' → ps' = ps ∧ left' = left := by
  have uniq : ∀ {src : Bytes} {ps left}, Tokens src ps left → ∀ ps' left', Tokens src ps' left' →
      ps' = ps ∧ left' = left := by
    intro src ps left h
    induction h with
    | done h =>
      intro ps' left' h'
      cases h' with
      | done _ => exact ⟨rfl, rfl⟩
      | next h' _ =>
        have := C117_decode.mpr h'
        rw [decode_of_waits h] at this
        cases this
    | next h _ ih =>
      intro ps' left' h'
      have h := C117_decode.mpr h
      cases h' with
      | done h' =>
        rw [decode_of_waits h'] at h
        cases h
      | next h' ht =>
        rw [C117_decode.mpr h'] at h
        cases h
        obtain ⟨rfl, rfl⟩ := ih _ _ ht
        exact ⟨rfl, rfl⟩
  obtain ⟨ps, left, h, _⟩ := C05_drain_terminates src
  have h := C117_tokens.mp h
  exact ⟨ps, left, h, uniq h⟩

/-- Non-vacuity: a packet between noise, and the beginning of another. -/
example : Tokens (bs "x?06xk0057\r\n06x")
    [.invalid ⟨bs "bytes without ASCII length or RP prefix", bs "x?"⟩, .ascii ⟨bs "xk00"⟩] (bs "06x") := by
  apply C117_tokens.mp
  exact .step rfl (.step rfl (.stop rfl))

end Elk.Props
