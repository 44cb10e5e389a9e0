import Verif.Model.JsonRead
/-!
# The grammar of JSON

RFC 8259 as inductive predicates: which texts are JSON, and what they say.
-/

namespace Elk.Spec.Rfc

/-- Section 2: white space. -/
def Ws (w : Bytes) : Prop := ∀ b ∈ w, b = 0x20 ∨ b = 0x09 ∨ b = 0x0a ∨ b = 0x0d

/-- A decimal digit. -/
def Digit (b : UInt8) : Prop := 0x30 ≤ b.toNat ∧ b.toNat ≤ 0x39

/-- Some digits. -/
def Digits (l : Bytes) : Prop := l ≠ [] ∧ ∀ b ∈ l, Digit b

/-- A hexadecimal digit, and its value. -/
inductive Hex : UInt8 → Nat → Prop
  | digit (b) : 0x30 ≤ b.toNat → b.toNat ≤ 0x39 → Hex b (b.toNat - 0x30)
  | upper (b) : 0x41 ≤ b.toNat → b.toNat ≤ 0x46 → Hex b (b.toNat - 0x41 + 10)
  | lower (b) : 0x61 ≤ b.toNat → b.toNat ≤ 0x66 → Hex b (b.toNat - 0x61 + 10)

/-- Four hexadecimal digits, and their value. -/
inductive Hex4 : Bytes → Nat → Prop
  | mk {a b c d m n p q} : Hex a m → Hex b n → Hex c p → Hex d q →
      Hex4 [a, b, c, d] (((m * 16 + n) * 16 + p) * 16 + q)

/-- Section 7: the characters after a backslash, and what they stand for. -/
def escapes : List (UInt8 × UInt8) :=
  [(b' '"', 0x22), (b' '\\', 0x5c), (b' '/', 0x2f), (b' 'b', 0x08), (b' 'f', 0x0c), (b' 'n', 0x0a),
    (b' 'r', 0x0d), (b' 't', 0x09)]

/-- Section 7: what can be written between quotation marks. -/
inductive Chars : Bytes → Prop
  | nil : Chars []
  | plain {b r} : 0x20 ≤ b.toNat → b ≠ b' '"' → b ≠ b' '\\' → Chars r → Chars (b :: r)
  | escaped {c x r} : (c, x) ∈ escapes → Chars r → Chars (b' '\\' :: c :: r)
  | unicode {h n r} : Hex4 h n → Chars r → Chars (b' '\\' :: b' 'u' :: (h ++ r))

/-- Section 7: the text that is written so, in UTF-8. -/
inductive Unescaped : Bytes → Bytes → Prop
  | nil : Unescaped [] []
  | plain {b r t} : b ≠ b' '\\' → Unescaped r t → Unescaped (b :: r) (b :: t)
  | escaped {c x r t} : (c, x) ∈ escapes → Unescaped r t → Unescaped (b' '\\' :: c :: r) (x :: t)
  | unicode {h r t} (c : Char) : Hex4 h c.toNat → Unescaped r t →
      Unescaped (b' '\\' :: b' 'u' :: (h ++ r)) (String.utf8EncodeChar c ++ t)
  /-- a character beyond the basic multilingual plane is a pair of surrogates -/
  | pair {h l hi lo r t} (c : Char) : Hex4 h (0xd800 + hi) → Hex4 l (0xdc00 + lo) → hi < 1024 →
      lo < 1024 → c.toNat = 0x10000 + hi * 1024 + lo → Unescaped r t →
      Unescaped (b' '\\' :: b' 'u' :: (h ++ (b' '\\' :: b' 'u' :: (l ++ r))))
        (String.utf8EncodeChar c ++ t)

/-- What is written between quotation marks, and the text it stands for, which is UTF-8. -/
def Says (raw t : Bytes) : Prop :=
  Unescaped raw t ∧ ∃ cs : List Char, t = cs.flatMap String.utf8EncodeChar

/-- Section 6: a number.  Its integer part is written without superfluous zeros. -/
inductive Number : Doc → Bytes → Prop
  | nat (n) : Number (.nat n) (decStr n)
  | other {minus n frac exp} : (minus = [] ∨ minus = [b' '-']) →
      (frac = [] ∨ ∃ l, Digits l ∧ frac = b' '.' :: l) →
      (exp = [] ∨ ∃ e s l, (e = b' 'e' ∨ e = b' 'E') ∧ (s = [] ∨ s = [b' '+'] ∨ s = [b' '-']) ∧
        Digits l ∧ exp = e :: (s ++ l)) →
      minus ++ frac ++ exp ≠ [] → Number .other (minus ++ decStr n ++ frac ++ exp)

mutual
/-- Section 3: a value. -/
inductive Value : Doc → Bytes → Prop
  | null : Value .null (bs "null")
  | true : Value (.bool true) (bs "true")
  | false : Value (.bool false) (bs "false")
  | number {d t} : Number d t → Value d t
  | string {raw} : Chars raw → Value (.str raw) ([b' '"'] ++ raw ++ [b' '"'])
  | emptyArray {w} : Ws w → Value (.arr []) ([b' '['] ++ w ++ [b' ']'])
  | array {l t} : Elements l t → Value (.arr l) ([b' '['] ++ t ++ [b' ']'])
  | emptyObject {w} : Ws w → Value (.obj []) ([b' '{'] ++ w ++ [b' '}'])
  | object {l t} : Members l t → Value (.obj l) ([b' '{'] ++ t ++ [b' '}'])
/-- Section 5: values separated by commas, with white space around each. -/
inductive Elements : List Doc → Bytes → Prop
  | one {d v t w} : Ws v → Value d t → Ws w → Elements [d] (v ++ t ++ w)
  | cons {d v t w l t'} : Ws v → Value d t → Ws w → Elements l t' →
      Elements (d :: l) (v ++ t ++ w ++ [b' ','] ++ t')
/-- Section 4: names and values, separated by commas, with white space around each. -/
inductive Members : List (Bytes × Doc) → Bytes → Prop
  | one {k d u v x t w} : Ws u → Chars k → Ws v → Ws x → Value d t → Ws w →
      Members [(k, d)] (u ++ [b' '"'] ++ k ++ [b' '"'] ++ v ++ [b' ':'] ++ x ++ t ++ w)
  | cons {k d u v x t w l t'} : Ws u → Chars k → Ws v → Ws x → Value d t → Ws w → Members l t' →
      Members ((k, d) :: l)
        (u ++ [b' '"'] ++ k ++ [b' '"'] ++ v ++ [b' ':'] ++ x ++ t ++ w ++ [b' ','] ++ t')
end

/-- Section 2: a JSON text is one value with white space around it. -/
def Text (d : Doc) (s : Bytes) : Prop := ∃ v t w, Ws v ∧ Value d t ∧ Ws w ∧ s = v ++ t ++ w

end Elk.Spec.Rfc
