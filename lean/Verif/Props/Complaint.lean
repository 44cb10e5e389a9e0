import Verif.Lemmas.Complaint
import Verif.Props.Msg
/-!
# Properties of what a parse error says (C103)
-/

namespace Elk.Props
open Elk.Spec

/-- **C103** (partial) What `Message::parse` says about a packet it rejects is true of the packet.
Missing: texts (`SD`) that are too short (`C103_false`). -/
theorem C103_true_partial {p : AsciiPacket} (hv : ValidAsciiBody p.body) {e : Bytes}
    (h : Message.parse (.ascii p) = .error (.err e))
    (hs : ¬ (p.body.take 2 = bs "SD" ∧ 7 ≤ p.body.length ∧ p.body.length < 23)) :
    Complains (p.body.take 2) (p.body.drop 2) e := by
  have hl : (p.body.drop 2).length = p.body.length - 2 := List.length_drop
  unfold Message.parse Message.parseAscii at h
  dsimp only at h
  split at h
  · cases h
    refine .short ?_
    rw [hl, List.length_take]
    omega
  · refine errs_dispatch (fun b hb => hv.2.2 b (List.mem_of_mem_drop hb)) ?_ e h
    rintro ⟨h1, h2, h3⟩
    exact hs ⟨h1, by omega, by omega⟩

/-- What is said about a text that is too short. -/
theorem C103_text {p : AsciiPacket} (hc : p.body.take 2 = bs "SD") (h7 : 7 ≤ p.body.length)
    (h23 : p.body.length < 23) :
    Message.parse (.ascii p) = .error (.err (bs "expected at least 5 bytes, got " ++
      num (p.body.length - 2))) := by
  have hl : (p.body.drop 2).length = p.body.length - 2 := List.length_drop
  unfold Message.parse Message.parseAscii
  dsimp only
  rw [if_neg (by omega), hc]
  unfold Message.dispatch
  rw [if_neg (by decide), if_neg (by decide), if_neg (by decide), if_neg (by decide),
    if_neg (by decide), if_neg (by decide), if_neg (by decide), if_neg (by decide),
    if_pos (by decide)]
  unfold StringDescriptionResponse.fromAsciiData failIf
  rw [if_pos (by omega)]
  unfold expected
  rw [hl, decStr_num, decStr_num]
  rfl

theorem num_table : ∀ n : Fin 22, 6 ≤ n.val → (num n.val ++ bs " bytes, got ").take 2 ≠ [b' '5', b' ' '] := by
  decide +kernel

/-- **C103** is false of the code: of every text with fewer than 21 but at least 5 bytes of data it
is said that at least 5 bytes were expected. -/
theorem C103_false {p : AsciiPacket} (hc : p.body.take 2 = bs "SD") (h7 : 7 ≤ p.body.length)
    (h23 : p.body.length < 23) : ∃ e, Message.parse (.ascii p) = .error (.err e) ∧
      ¬ Complains (p.body.take 2) (p.body.drop 2) e := by
  refine ⟨_, C103_text hc h7 h23, ?_⟩
  have hl : (p.body.drop 2).length = p.body.length - 2 := List.length_drop
  generalize p.body.drop 2 = data at hl
  rw [hc, ← hl]
  intro h
  generalize he : bs "expected at least 5 bytes, got " ++ num data.length = e at h
  have first : ∀ {c : UInt8} {x : Bytes}, e = c :: x → c ≠ b' 'e' → False := by
    rintro c x rfl hx
    injection he with he
    exact hx he.symm
  cases h with
  | short h => simp at h; omega
  | few need n hn hle hlt =>
    have : need = 21 := by
      generalize hg : bs "SD" = c at hn
      cases hn <;> first | rfl | exact absurd hg (by decide)
    subst this
    have hd := congrArg (fun l : Bytes => (l.drop 18).take 2) he
    rw [List.append_assoc, List.append_assoc, List.drop_append_of_le_length (by decide),
      List.drop_append_of_le_length (by decide), ← List.append_assoc] at hd
    refine num_table ⟨n, by omega⟩ (by show 6 ≤ n; omega) ?_
    rw [show (bs "expected at least ").drop 18 = [] from rfl, List.nil_append, ← List.append_assoc,
      List.take_append_of_le_length (l₁ := num n ++ bs " bytes, got ") (by
        rw [List.length_append]; exact Nat.le_add_left_of_le (by decide))] at hd
    exact hd.symm
  | fewArm l h => exact absurd h (by cases l <;> decide)
  | fewReport h => exact absurd h (by decide)
  | fewClock h => exact absurd h (by unfold IsClock; decide)
  | number name i n hf =>
    generalize hg : bs "SD" = c at hf
    cases hf with
    | area l => exact absurd hg (by cases l <;> decide)
    | _ => first | exact absurd hg (by decide) | exact first rfl (by decide)
  | range i n max v hf =>
    generalize hg : bs "SD" = c at hf
    cases hf with
    | area l => exact absurd hg (by cases l <;> decide)
    | _ => exact absurd hg (by decide)
  | clock name i lo hi v h => exact absurd h (by unfold IsClock; decide)
  | letter => exact first rfl (by decide)
  | type => exact first rfl (by decide)
  | timerArea b h => exact absurd h (by decide)
  | armCode l h => exact absurd h (by cases l <;> decide)
  | hexCode h => exact absurd h (by decide)
  | hexTime h => exact absurd h (by decide)
  | zone => exact first rfl (by decide)
  | dst b h => exact absurd h (by unfold IsClock; decide)

/-- Non-vacuity: a zone out of range, and the text that is not true. -/
example : Message.parse (.ascii ⟨bs "ZC2091"⟩) =
    .error (.err (bs "209 not in expected t range of [1, 208]")) := rfl

example : Message.parse (.ascii ⟨bs "ZCx011"⟩) =
    .error (.err (bs "zone expected to be decimal in [0, 255); got [120, 48, 49]")) := rfl

example : Message.parse (.ascii ⟨bs "SD00001Front"⟩) =
    .error (.err (bs "expected at least 5 bytes, got 10")) := rfl

/-- The area of entry and exit times is reported by the code of its character, not by its value. -/
example : Message.parse (.ascii ⟨bs "EE9003000000"⟩) =
    .error (.err (bs "expected area in [1, 8], got 57")) := rfl

end Elk.Props
