import Verif.Lemmas.Diagnosis
/-!
# Properties of what is said about bytes that are no packet (C102)
-/

namespace Elk.Props
open Elk.Spec

/-- **C102** What `Packet::decode` says about bytes it drops is true of those bytes. -/
theorem C102_true {src rest : Bytes} {p : InvalidPacket}
    (h : Packet.decode src = .ok (some (.invalid p), rest)) :
    src = p.raw ++ rest ∧ Diagnosis p.raw rest p.reason := by
  obtain ⟨x, h1, h2⟩ := decode_cases src
  rw [h] at h1
  cases h1
  exact decode_diagnosis h2

/-- **C102** And conversely: bytes with such a fault are dropped, exactly those, with that text. -/
theorem C102_told {raw rest text : Bytes} (h : Diagnosis raw rest text) :
    Packet.decode (raw ++ rest) = .ok (some (.invalid ⟨text, raw⟩), rest) :=
  decodeCase_decode (diagnosis_decode h)

/-- **C102** So there is never more than one fault to tell. -/
theorem C102_one {raw rest t₁ t₂ : Bytes} (h₁ : Diagnosis raw rest t₁) (h₂ : Diagnosis raw rest t₂) :
    t₁ = t₂ := by
  have := C102_told h₁
  rw [C102_told h₂] at this
  cases this
  rfl

theorem num_le : ∀ n : Nat, n < 1000 → (num n).length ≤ 3 := by decide +kernel

/-- **C102** The text is short. -/
theorem C102_short {raw rest text : Bytes} (h : Diagnosis raw rest text) : text.length ≤ 60 := by
  have hex : ∀ n, (hex2 n).length = 2 := fun _ => rfl
  cases h with
  | ascii n r _ hn hr hl hd =>
    cases hd with
    | sum d c => rw [List.length_append, hex]; decide
    | letter m body i b h1 h2 h3 h4 =>
      have hi := (List.getElem?_eq_some_iff.mp h4).1
      have := congrArg List.length h1
      simp only [List.length_append] at this
      have := num_le i (by omega)
      have e : (bs "non-printable character at index ").length = 33 := by decide
      rw [List.length_append, e]; omega
    | _ => decide
  | crc d =>
    have e : (bs "RP packet doesn't have expected CRC ").length = 36 := by decide
    have : (hexText (crc16 d)).length ≤ 4 := by
      unfold hexText
      rw [List.length_append, List.length_append, hex]
      split <;> split <;> simp
    rw [List.length_append, e]; omega
  | dle d c => rw [List.length_append, hex]; decide
  | noEnd => decide
  | noStart => decide

/-- Non-vacuity: every fault there is. -/
example : Packet.decode (bs "02XX\r\n") = .ok (some (.invalid ⟨bs "ASCII packet too short", bs "02XX\r\n"⟩), []) :=
  rfl

example : Packet.decode (bs "04XXXX\r ") =
    .ok (some (.invalid ⟨bs "ASCII packet must end with CRLF", bs "04XXXX\r "⟩), []) := rfl

example : Packet.decode (bs "06XK00G0\r\n") =
    .ok (some (.invalid ⟨bs "ASCII packet has unparseable checksum", bs "06XK00G0\r\n"⟩), []) := rfl

example : Packet.decode (bs "06XK0000\r\n") =
    .ok (some (.invalid ⟨bs "ASCII packet doesn't have expected checksum 97", bs "06XK0000\r\n"⟩), []) := rfl

example : Packet.decode (bs "06XK\t0BE\r\n") =
    .ok (some (.invalid ⟨bs "non-printable character at index 2", bs "06XK\t0BE\r\n"⟩), []) := rfl

example : Packet.decode [0x10, 0x02, 0x41, 0x10, 0x03, 0x00, 0x00] =
    .ok (some (.invalid ⟨bs "RP packet doesn't have expected CRC 58E5",
      [0x10, 0x02, 0x41, 0x10, 0x03, 0x00, 0x00]⟩), []) := rfl

example : Packet.decode [0x10, 0x02, 0x41, 0x10, 0x0a] =
    .ok (some (.invalid ⟨bs "RP packet has bad sequence DTS 0A", [0x10, 0x02, 0x41, 0x10]⟩), [0x0a]) := rfl

example : Packet.decode (bs "xyz06XK") =
    .ok (some (.invalid ⟨bs "bytes without ASCII length or RP prefix", bs "xyz"⟩), bs "06XK") := rfl

example : Diagnosis (0x10 :: 0x02 :: List.replicate 1022 0xff) []
    (bs "RP packet has no DLE EXT after 1024 bytes") :=
  .noEnd (List.replicate 1022 0xff) [] (by decide +kernel) (.inl rfl) (by decide +kernel)

end Elk.Props
