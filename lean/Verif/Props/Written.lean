import Verif.Props.Msg
/-!
# Exactly which texts are messages (C118)
-/

namespace Elk.Props
open Elk.Spec

theorem written_length {m : Message} {x y : Bytes} (h : Written m x) (hy : TailOk m y) :
    2 ≤ (x ++ y).length := by
  rw [List.length_append, (written_plus h).length]
  cases m <;> first
    | (have : 2 ≤ y.length := hy; omega)
    | (simp [msgData, rtcText, dec2, dec3, hex2, List.length_flatMap, List.map_const']; done)
    | (simp [msgData, rtcText, dec2, dec3, hex2, List.length_flatMap, List.map_const']; omega)

/-- **C118** `Message::parse` yields a message exactly for the texts that say it. -/
theorem C118_parse {body : Bytes} (hv : ValidAsciiBody body) (m : Message) :
    Message.parse (.ascii ⟨body⟩) = .ok (some m) ↔ Says body m := by
  constructor
  · intro h
    obtain ⟨hl, ha⟩ := parse_iff.mp h
    obtain ⟨h1, h2, x, y, h3, h4, h5⟩ := accepts_bwd ha
      (fun b hb => hv.2.2 b (List.mem_of_mem_drop hb)) (by simp; omega)
    refine ⟨h2, x, y, ?_, h4, h5⟩
    rw [← h1, List.append_assoc, ← h3, List.take_append_drop]
  · rintro ⟨hw, x, y, rfl, hx, hy⟩
    have hl := written_length hx hy
    refine parse_iff.mpr ⟨?_, ?_⟩
    · rw [List.append_assoc, List.length_append]
      exact Nat.add_le_add (Nat.le_refl 2) hl
    · rw [List.append_assoc]
      exact accepts_fwd (x := x) (y := y) hw hx hy

/-- No text says two messages. -/
theorem C118_unique {body : Bytes} (hv : ValidAsciiBody body) {m m' : Message} (h : Says body m)
    (h' : Says body m') : m = m' := by
  have := ((C118_parse hv m).mpr h).symm.trans ((C118_parse hv m').mpr h')
  injection this with this
  injection this

/-- **C118** `Message::parse` fails exactly for the texts that are too short, or begin with a supported
code but say no message. -/
theorem C118_error {body : Bytes} (hv : ValidAsciiBody body) :
    (∃ e, Message.parse (.ascii ⟨body⟩) = .error (.err e)) ↔
      body.length < 4 ∨ ((∃ c ∈ supportedCodes, body.take 2 = [b' c.1, b' c.2]) ∧
        ¬ ∃ m, Says body m) := by
  by_cases hl : body.length < 4
  · refine ⟨fun _ => .inl hl, fun _ => ⟨bs "malformed ASCII message: too short", ?_⟩⟩
    show Message.parseAscii ⟨body⟩ = _
    unfold Message.parseAscii
    rw [if_pos hl]
    rfl
  have hn := C22_unsupported body (by omega)
  constructor
  · rintro ⟨e, he⟩
    refine .inr ⟨?_, ?_⟩
    · refine Classical.byContradiction fun hc => ?_
      rw [hn.mpr (fun c hm hb => hc ⟨c, hm, hb⟩)] at he
      cases he
    · rintro ⟨m, hm⟩
      rw [(C118_parse hv m).mpr hm] at he
      cases he
  · rintro (h | ⟨⟨c, hc, hb⟩, hs⟩)
    · exact absurd h hl
    · cases hp : Message.parse (.ascii ⟨body⟩) with
      | error f =>
        cases f with
        | err e => exact ⟨e, rfl⟩
        | panic q => exact absurd hp (C18_parse_never_panics (.ascii ⟨body⟩) q)
      | ok o =>
        cases o with
        | some m => exact absurd ⟨m, (C118_parse hv m).mp hp⟩ hs
        | none => exact absurd hb (hn.mp hp c hc)

/-- Non-vacuity: a zone change with its number written with a sign, a longer one, and one out of
range. -/
example : Says (bs "ZC+16200") sampleMsg :=
  ⟨sampleMsg_wf, bs "+162", bs "00", rfl, ⟨bs "+16", .inr ⟨by decide, rfl⟩, rfl⟩, trivial⟩

example : Says (bs "ZC0162 and so on") sampleMsg :=
  ⟨sampleMsg_wf, bs "0162", bs " and so on", rfl, ⟨bs "016", .inl rfl, rfl⟩, trivial⟩

example : ¬ ∃ m, Says (bs "ZC209200") m := by
  have := (C118_error (body := bs "ZC209200")
    ⟨by decide, by decide, by unfold Printable; decide⟩).mp ⟨_, rfl⟩
  rcases this with h | h
  · exact absurd h (by decide)
  · exact h.2

end Elk.Props
