import Verif.Lemmas.Objection
import Verif.Props.Written
/-!
# Properties of which fault a parse error names (C137)
-/

namespace Elk.Props
open Elk.Spec

/-- **C137** `Message::parse` rejects a packet with a text exactly if that is the text of the first
check that the packet fails. -/
theorem C137_text {p : AsciiPacket} (hv : ValidAsciiBody p.body) {t : Bytes} :
    Message.parse (.ascii p) = .error (.err t) ↔ Objects p.body t := by
  have hp : ∀ b ∈ p.body.drop 2, Printable b := fun b hb => hv.2.2 b (List.mem_of_mem_drop hb)
  show Message.parseAscii p = _ ↔ _
  unfold Message.parseAscii
  by_cases hl : p.body.length < 4
  · rw [if_pos hl]
    constructor
    · intro h; cases h; exact .short hl
    · intro h
      cases h with
      | short => rfl
      | wrong h => omega
  rw [if_neg hl]
  have one : Objects p.body t ↔ ∃ cs, Checks (p.body.take 2) cs ∧ First (p.body.drop 2) cs (some t) := by
    constructor
    · intro h
      cases h with
      | short h => exact absurd h hl
      | wrong _ a b => exact ⟨_, a, b⟩
    · rintro ⟨cs, a, b⟩
      exact .wrong (by omega) a b
  rw [one]
  rcases judges_dispatch hp (p.body.take 2) with ⟨cs, hc, hj⟩ | ⟨hn, m, hm⟩
  · rcases hj with ⟨a, ha, hf⟩ | ⟨t', ha, hf⟩
    · rw [ha]
      constructor
      · intro h; cases h
      · rintro ⟨cs', hc', hf'⟩
        cases checks_one hc hc'
        cases first_one hf hf'
    · rw [ha]
      constructor
      · intro h; cases h; exact ⟨cs, hc, hf⟩
      · rintro ⟨cs', hc', hf'⟩
        cases checks_one hc hc'
        cases first_one hf hf'
        rfl
  · rw [hm]
    constructor
    · intro h; cases h
    · rintro ⟨cs', hc', _⟩
      exact absurd hc' (hn _)

/-- **C137** No packet is rejected with two texts. -/
theorem C137_one {body t t' : Bytes} (h : Objects body t) (h' : Objects body t') : t = t' := by
  cases h with
  | short hl =>
    cases h' with
    | short => rfl
    | wrong h => omega
  | wrong hl hc hf =>
    cases h' with
    | short h => omega
    | wrong _ hc' hf' =>
      cases checks_one hc hc'
      cases first_one hf hf'
      rfl

/-- **C137** The packets that fail a check are those that are too short and those that begin with a
supported code but are not the text of a message: the checks are just what the grammar of messages
asks. -/
theorem C137_faulty {body : Bytes} (hv : ValidAsciiBody body) :
    (∃ t, Objects body t) ↔ body.length < 4 ∨
      ((∃ c ∈ supportedCodes, body.take 2 = [b' c.1, b' c.2]) ∧ ¬ ∃ m, Says body m) := by
  rw [← C118_error hv]
  constructor
  · rintro ⟨t, h⟩; exact ⟨t, (C137_text (p := ⟨body⟩) hv).mpr h⟩
  · rintro ⟨t, h⟩; exact ⟨t, (C137_text (p := ⟨body⟩) hv).mp h⟩

/-- Not vacuous: a zone change with two wrong fields is rejected for the first of them. -/
example : Objects (bs "ZC209x00") (bs "209 not in expected t range of [1, 208]") :=
  (C137_text (p := ⟨bs "ZC209x00"⟩) (by unfold ValidAsciiBody Printable; decide)).mp rfl

/-- Not vacuous: of a time with a wrong month and a wrong day, the month is named, although it comes
later. -/
example : Objects (bs "XK0030103991305100") (bs "month out of range") :=
  (C137_text (p := ⟨bs "XK0030103991305100"⟩) (by unfold ValidAsciiBody Printable; decide)).mp
    rfl

end Elk.Props
