import Verif.Model.Mqtt
/-!
# The text of JSON values

main.rs:252, 274, 453 publish `serde_json::to_string_pretty(..)` (serde_json 1.0.149, Cargo.lock).
Its `PrettyFormatter` is not in /repo; it is modelled from its source and part of the trusted base.
-/

namespace Elk

/-- serde_json `format_escaped_str_contents`, one byte: quotes, backslashes and control characters
are escaped. -/
def jsonEscape (b : UInt8) : Bytes :=
  if b = b' '"' then bs "\\\""
  else if b = b' '\\' then bs "\\\\"
  else if b = 0x08 then bs "\\b"
  else if b = 0x09 then bs "\\t"
  else if b = 0x0a then bs "\\n"
  else if b = 0x0c then bs "\\f"
  else if b = 0x0d then bs "\\r"
  else if b < 0x20 then bs "\\u00" ++ [lowerHex (b >>> 4), lowerHex (b &&& 0x0f)]
  else [b]

/-- serde_json `format_escaped_str`. -/
def jsonString (s : Bytes) : Bytes := [b' '"'] ++ s.flatMap jsonEscape ++ [b' '"']

/-- serde_json `PrettyFormatter`: a new line, indented by two spaces for each level. -/
def newline (d : Nat) : Bytes := 0x0a :: List.replicate (2 * d) (b' ' ')

mutual
/-- serde_json `to_string_pretty`, at a level of nesting. -/
def Json.pretty (d : Nat) : Json → Bytes
  | .null => bs "null"
  | .bool true => bs "true"
  | .bool false => bs "false"
  | .num n => decStr n
  | .str s => jsonString s
  | .arr [] => bs "[]"
  | .arr (x :: l) =>
    [b' '['] ++ newline (d + 1) ++ x.pretty (d + 1) ++ Json.prettyElems (d + 1) l
      ++ newline d ++ [b' ']']
  | .obj [] => bs "{}"
  | .obj ((k, x) :: l) =>
    [b' '{'] ++ newline (d + 1) ++ jsonString k ++ bs ": " ++ x.pretty (d + 1)
      ++ Json.prettyFields (d + 1) l ++ newline d ++ [b' '}']
/-- The elements of an array after the first. -/
def Json.prettyElems (d : Nat) : List Json → Bytes
  | [] => []
  | x :: l => [b' ','] ++ newline d ++ x.pretty d ++ Json.prettyElems d l
/-- The fields of an object after the first. -/
def Json.prettyFields (d : Nat) : List (Bytes × Json) → Bytes
  | [] => []
  | (k, x) :: l => [b' ','] ++ newline d ++ jsonString k ++ bs ": " ++ x.pretty d
      ++ Json.prettyFields d l
end

/-- main.rs:252, 274, 453 `serde_json::to_string_pretty`. -/
def Json.toStringPretty (j : Json) : Bytes := j.pretty 0

/-- The bytes of a payload. -/
def Payload.bytes : Payload → Bytes
  | .text b => b
  | .json j => j.toStringPretty

end Elk
