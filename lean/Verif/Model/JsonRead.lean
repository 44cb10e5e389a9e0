import Verif.Model.Msg
/-!
# JSON text as it is read

main.rs:376 reads the configuration file with `serde_json::from_slice(&cfg[..])` (serde_json 1.0.149,
Cargo.lock).  Its `Deserializer` is not in /repo; it is modelled as it is documented and known to behave,
and part of the trusted base.

serde_json reads text and fills the structs at the same time; here a tree is read first, and
Model/Main.lean looks into it.  The result is the same because a configuration is obtained only if the
whole text is read.  For the same reason errors are not told apart.  Strings stay as they are written,
because serde_json decodes only those that are used, and ignores others if they are wrong (a lone
surrogate, bytes that are not UTF-8); for the same reason numbers that are no natural numbers are not
looked at: no field takes them.
-/

namespace Elk

/-- JSON text, read. -/
inductive Doc where
  | null
  | bool (b : Bool)
  /-- a number without sign, fraction and exponent -/
  | nat (n : Nat)
  /-- any other number -/
  | other
  /-- what is written between the quotation marks -/
  | str (raw : Bytes)
  | arr (l : List Doc)
  | obj (l : List (Bytes × Doc))

namespace Doc

/-- serde_json `parse_whitespace`. -/
def skip : Bytes → Bytes
  | [] => []
  | b :: r => if b = b' ' ' ∨ b = 0x0a ∨ b = 0x09 ∨ b = 0x0d then skip r else b :: r

/-- A decimal digit. -/
def digit (b : UInt8) : Bool := b' '0' ≤ b && b ≤ b' '9'

/-- serde_json `decode_hex_val_slow`. -/
def hexDigit (b : UInt8) : Option Nat :=
  if b' '0' ≤ b ∧ b ≤ b' '9' then some (b.toNat - 48)
  else if b' 'A' ≤ b ∧ b ≤ b' 'F' then some (b.toNat - 65 + 10)
  else if b' 'a' ≤ b ∧ b ≤ b' 'f' then some (b.toNat - 97 + 10)
  else none

/-- serde_json `decode_hex_escape`. -/
def hex4 (a b c d : UInt8) : Option Nat := do
  let a ← hexDigit a
  let b ← hexDigit b
  let c ← hexDigit c
  let d ← hexDigit d
  some (a * 4096 + b * 256 + c * 16 + d)

/-- serde_json `parse_escape`: the escapes of one character. -/
def escape (c : UInt8) : Option UInt8 :=
  if c = b' '"' then some (b' '"')
  else if c = b' '\\' then some (b' '\\')
  else if c = b' '/' then some (b' '/')
  else if c = b' 'b' then some 0x08
  else if c = b' 'f' then some 0x0c
  else if c = b' 'n' then some 0x0a
  else if c = b' 'r' then some 0x0d
  else if c = b' 't' then some 0x09
  else none

/-- Something read before what is read of a string. -/
def put (w : Bytes) : Option (Bytes × Bytes) → Option (Bytes × Bytes)
  | some (s, r) => some (w ++ s, r)
  | none => none

/-- serde_json `ignore_str`: from after the quotation mark that begins a string, what is written up to
the one that ends it, and what follows. -/
def quoted : Bytes → Option (Bytes × Bytes)
  | [] => none
  | b :: r =>
    if b = b' '"' then some ([], r)
    else if b < 0x20 then none
    else if b = b' '\\' then
      match r with
      | [] => none
      | c :: r =>
        if c = b' 'u' then
          match r with
          | h1 :: h2 :: h3 :: h4 :: r =>
            if (hex4 h1 h2 h3 h4).isSome then put [b, c, h1, h2, h3, h4] (quoted r) else none
          | _ => none
        else if (escape c).isSome then put [b, c] (quoted r)
        else none
    else put [b] (quoted r)

/-- serde_json `push_wtf8_codepoint`: a character in UTF-8. -/
def utf8 (n : Nat) : Bytes :=
  if n < 0x80 then [UInt8.ofNat n]
  else if n < 0x800 then [UInt8.ofNat (0xc0 + n / 64), UInt8.ofNat (0x80 + n % 64)]
  else if n < 0x10000 then
    [UInt8.ofNat (0xe0 + n / 4096), UInt8.ofNat (0x80 + n / 64 % 64), UInt8.ofNat (0x80 + n % 64)]
  else
    [UInt8.ofNat (0xf0 + n / 262144), UInt8.ofNat (0x80 + n / 4096 % 64),
      UInt8.ofNat (0x80 + n / 64 % 64), UInt8.ofNat (0x80 + n % 64)]

/-- serde_json `parse_str_bytes` and `parse_escape`, `parse_unicode_escape`, of what is written between
quotation marks: escapes are replaced.  A surrogate must be part of a pair. -/
def unescape : Bytes → Option Bytes
  | [] => some []
  | b :: r =>
    if b = b' '\\' then
      match r with
      | [] => none
      | c :: r =>
        if c = b' 'u' then
          match r with
          | h1 :: h2 :: h3 :: h4 :: r =>
            match hex4 h1 h2 h3 h4 with
            | none => none
            | some n =>
              if 0xdc00 ≤ n ∧ n ≤ 0xdfff then none
              else if 0xd800 ≤ n ∧ n ≤ 0xdbff then
                match r with
                | e :: u :: l1 :: l2 :: l3 :: l4 :: r =>
                  if e = b' '\\' ∧ u = b' 'u' then
                    match hex4 l1 l2 l3 l4 with
                    | none => none
                    | some m =>
                      if 0xdc00 ≤ m ∧ m ≤ 0xdfff then
                        (unescape r).map (utf8 ((n - 0xd800) * 1024 + (m - 0xdc00) + 0x10000) ++ ·)
                      else none
                  else none
                | _ => none
              else (unescape r).map (utf8 n ++ ·)
          | _ => none
        else
          match escape c with
          | some x => (unescape r).map (x :: ·)
          | none => none
    else (unescape r).map (b :: ·)

/-- serde_json `parse_str` of a string in memory: the result must be UTF-8. -/
def text (raw : Bytes) : Option Bytes :=
  match unescape raw with
  | some t => if utf8Valid t then some t else none
  | none => none

/-- serde_json `parse_integer`: digits, the first of which is not zero if there are more; what follows. -/
def integer (s : Bytes) : Option (Nat × Bytes) :=
  match s.takeWhile digit with
  | [] => none
  | d :: ds =>
    if d = b' '0' ∧ ds ≠ [] then none
    else some ((d :: ds).foldl (fun n b => n * 10 + (b.toNat - 48)) 0, s.dropWhile digit)

/-- serde_json `parse_decimal`: what follows a fraction, and whether there is one. -/
def fraction : Bytes → Option (Bool × Bytes)
  | [] => some (false, [])
  | b :: r =>
    if b = b' '.' then
      if r.takeWhile digit = [] then none else some (true, r.dropWhile digit)
    else some (false, b :: r)

/-- The sign of an exponent. -/
def sign : Bytes → Bytes
  | [] => []
  | b :: r => if b = b' '+' ∨ b = b' '-' then r else b :: r

/-- serde_json `parse_exponent`: what follows an exponent, and whether there is one. -/
def exponent : Bytes → Option (Bool × Bytes)
  | [] => some (false, [])
  | b :: r =>
    if b = b' 'e' ∨ b = b' 'E' then
      if (sign r).takeWhile digit = [] then none else some (true, (sign r).dropWhile digit)
    else some (false, b :: r)

/-- serde_json `parse_any_number`, `ignore_number`, without the sign. -/
def unsigned (s : Bytes) : Option (Doc × Bytes) := do
  let (n, r) ← integer s
  let (f, r) ← fraction r
  let (e, r) ← exponent r
  some (if f || e then .other else .nat n, r)

/-- The text begins with this word: what follows it. -/
def literal (w : String) (d : Doc) (s : Bytes) : Option (Doc × Bytes) :=
  if bs w <+: s then some (d, s.drop (bs w).length) else none

/-- serde_json `ignore_value`, what is neither an array nor an object. -/
def scalar : Bytes → Option (Doc × Bytes)
  | [] => none
  | b :: r =>
    if b = b' '"' then (quoted r).map fun x => (.str x.1, x.2)
    else if b = b' 'n' then literal "null" .null (b :: r)
    else if b = b' 't' then literal "true" (.bool true) (b :: r)
    else if b = b' 'f' then literal "false" (.bool false) (b :: r)
    else if b = b' '-' then (unsigned r).map fun x => (.other, x.2)
    else unsigned (b :: r)

mutual
/-- serde_json `ignore_value`.  `fuel` bounds the nesting and the number of elements. -/
def value : Nat → Bytes → Option (Doc × Bytes)
  | 0, _ => none
  | fuel + 1, s =>
    match skip s with
    | [] => none
    | b :: r =>
      if b = b' '[' then
        match skip r with
        | [] => none
        | c :: r' =>
          if c = b' ']' then some (.arr [], r')
          else
            match elements fuel r with
            | some (l, r) => some (.arr l, r)
            | none => none
      else if b = b' '{' then
        match skip r with
        | [] => none
        | c :: r' =>
          if c = b' '}' then some (.obj [], r')
          else
            match members fuel r with
            | some (l, r) => some (.obj l, r)
            | none => none
      else scalar (b :: r)
/-- The elements of an array, up to its end. -/
def elements : Nat → Bytes → Option (List Doc × Bytes)
  | 0, _ => none
  | fuel + 1, s =>
    match value fuel s with
    | none => none
    | some (d, r) =>
      match skip r with
      | [] => none
      | b :: r =>
        if b = b' ']' then some ([d], r)
        else if b = b' ',' then
          match elements fuel r with
          | some (l, r) => some (d :: l, r)
          | none => none
        else none
/-- The members of an object, up to its end. -/
def members : Nat → Bytes → Option (List (Bytes × Doc) × Bytes)
  | 0, _ => none
  | fuel + 1, s =>
    match skip s with
    | [] => none
    | q :: r =>
      if q = b' '"' then
        match quoted r with
        | none => none
        | some (k, r) =>
          match skip r with
          | [] => none
          | c :: r =>
            if c = b' ':' then
              match value fuel r with
              | none => none
              | some (d, r) =>
                match skip r with
                | [] => none
                | b :: r =>
                  if b = b' '}' then some ([(k, d)], r)
                  else if b = b' ',' then
                    match members fuel r with
                    | some (l, r) => some ((k, d) :: l, r)
                    | none => none
                  else none
            else none
      else none
end

/-- main.rs:376 `serde_json::from_slice`: one value, and nothing but white space after it. -/
def parse (s : Bytes) : Option Doc :=
  match value s.length s with
  | some (d, r) => if skip r = [] then some d else none
  | none => none

end Doc

end Elk
