import Verif.Spec.Complaint
/-!
# Which texts are dates (C119)

`DateTime::from_iso_8601` (msg.rs:588-639), by the places in the text, which has 19 bytes.
-/

namespace Elk.Spec

/-- The bytes from `i` on are a number in a range. -/
def NumAt (s : Bytes) (i n lo hi v : Nat) : Prop := Reads (fieldAt s i n) v ∧ lo ≤ v ∧ v ≤ hi

/-- The byte at `i` is the character. -/
def CharAt (s : Bytes) (i : Nat) (c : Char) : Prop := s[i]? = some (b' c)

/-- A character of more than one byte lies across the place `i`: the byte there continues one. -/
def Across (s : Bytes) (i : Nat) : Prop := ∃ b, s[i]? = some b ∧ 128 ≤ b.toNat ∧ b.toNat < 192

/-- The text is the date.  (`Reads` allows `+` as the first character of a number.) -/
def IsoDate (s : Bytes) (d : DateTime) : Prop :=
  s.length = 19 ∧ NumAt s 0 4 2000 2100 (2000 + d.year.toNat) ∧ CharAt s 4 '-' ∧
  NumAt s 5 2 1 12 d.month.toNat ∧ CharAt s 7 '-' ∧
  NumAt s 8 2 1 31 d.day.toNat ∧ CharAt s 10 'T' ∧
  NumAt s 11 2 0 23 d.hour.toNat ∧ CharAt s 13 ':' ∧
  NumAt s 14 2 0 59 d.minute.toNat ∧ CharAt s 16 ':' ∧
  NumAt s 17 2 0 59 d.second.toNat

/-- The text is right up to a place where it would have to be cut inside a character.  (The hour is
only a number there when the character behind it is looked at.) -/
def CutInside (s : Bytes) : Prop :=
  s.length = 19 ∧ (Across s 4 ∨ ((∃ v, NumAt s 0 4 2000 2100 v) ∧
    (Across s 5 ∨ (CharAt s 4 '-' ∧
    (Across s 7 ∨ ((∃ v, NumAt s 5 2 1 12 v) ∧
    (Across s 8 ∨ (CharAt s 7 '-' ∧
    (Across s 10 ∨ ((∃ v, NumAt s 8 2 1 31 v) ∧
    (Across s 11 ∨ (CharAt s 10 'T' ∧
    (Across s 13 ∨ ((∃ v, Reads (fieldAt s 11 2) v) ∧
    (Across s 14 ∨ (CharAt s 13 ':' ∧ (∃ v, NumAt s 11 2 0 23 v) ∧
    (Across s 16 ∨ ((∃ v, NumAt s 14 2 0 59 v) ∧ Across s 17))))))))))))))))))

end Elk.Spec
