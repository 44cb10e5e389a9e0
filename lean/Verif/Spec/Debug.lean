import Verif.Model.Debug
import Verif.Model.Json
import Verif.Spec.Panel
import Verif.Spec.Cli
/-!
# Vocabulary for what is logged and printed
-/

namespace Elk.Spec

/-- The messages and zone statuses in an event have their fields in the documented ranges. -/
structure WfEvent (ev : Event) : Prop where
  msg : ∀ m, ev.msg = some (.ok m) → WfMessage m
  completes : ∀ m, ev.completes = some m → WfMessage m
  prior : ∀ z s, ev.change = some (.zoneChange z s) → WfZoneStatus s

/-- The lower case of an ASCII letter. -/
def lower (b : UInt8) : UInt8 := if 65 ≤ b ∧ b ≤ 90 then b + 32 else b

/-- The upper case of an ASCII letter. -/
def upper (b : UInt8) : UInt8 := if 97 ≤ b ∧ b ≤ 122 then b - 32 else b

/-- `camelCase` of the name of a variant. -/
def camelVariant : Bytes → Bytes
  | [] => []
  | c :: l => lower c :: l

/-- `camelCase` of the name of a field. -/
def camelField : Bytes → Bytes
  | [] => []
  | [c] => [c]
  | c :: d :: l => if c = b' '_' then upper d :: camelField l else c :: camelField (d :: l)

mutual
/-- The JSON form of a value says what `{:?}` shows of it; the field `k` of the struct `name` is called
`called name k`. -/
inductive Alike (called : Bytes → Bytes → Bytes) : Dbg → Json → Prop
  /-- a number -/
  | num (n : UInt8) : Alike called (.word (decStr n.toNat)) (.ofU8 n)
  | bool (b : Bool) : Alike called (.word (if b then bs "true" else bs "false")) (.bool b)
  /-- an enum without contents -/
  | unit (w : Bytes) : Alike called (.word w) (.str (camelVariant w))
  /-- a struct without fields -/
  | empty (w : Bytes) : Alike called (.word w) (.obj [])
  | text (s : Bytes) : Alike called (.str s) (.str s)
  /-- an arm code, or a description, which has blanks at its end: as bytes -/
  | padded (s : Bytes) (n : Nat) : Alike called (.str s) (.ofBytes (s ++ List.replicate n (b' ' ')))
  | bytes (b : Bytes) : Alike called (.hex b) (.ofBytes b)
  /-- a zone status, as a number -/
  | zone (s : ZoneStatus) : WfZoneStatus s → Alike called
      (.tuple (bs "ZoneStatus")
        [.word (bs (Variants.variant (zoneOf s).1)), .word (bs (Variants.variant (zoneOf s).2))])
      (.ofU8 s.val)
  | none : Alike called (.word (bs "None")) .null
  | some (d : Dbg) (j : Json) : Alike called d j → Alike called (.tuple (bs "Some") [d]) j
  /-- a variant of an enum -/
  | variant (name : Bytes) (d : Dbg) (j : Json) : Alike called d j →
      Alike called (.tuple name [d]) (.obj [(camelVariant name, j)])
  /-- a variant with named fields -/
  | variantFields (name : Bytes) (fields : List (Bytes × Dbg)) (l : List (Bytes × Json)) :
      AlikeFields called (called name) fields l →
      Alike called (.record name fields) (.obj [(camelVariant name, .obj l)])
  /-- `Result` is not renamed -/
  | result (name : Bytes) (d : Dbg) (j : Json) : name = bs "Ok" ∨ name = bs "Err" →
      Alike called d j → Alike called (.tuple name [d]) (.obj [(name, j)])
  /-- a struct with one unnamed field is written as that field -/
  | newtype (name : Bytes) (d : Dbg) (j : Json) :
      name = bs "AsciiPacket" ∨ name = bs "RpPacket" ∨ name = bs "Error" → Alike called d j →
      Alike called (.tuple name [d]) j
  | record (name : Bytes) (fields : List (Bytes × Dbg)) (l : List (Bytes × Json)) :
      AlikeFields called (called name) fields l → Alike called (.record name fields) (.obj l)
  | seq (items : List Dbg) (l : List Json) : AlikeItems called items l →
      Alike called (.seq items) (.arr l)
/-- Fields one by one. -/
inductive AlikeFields (called : Bytes → Bytes → Bytes) :
    (Bytes → Bytes) → List (Bytes × Dbg) → List (Bytes × Json) → Prop
  | nil (f : Bytes → Bytes) : AlikeFields called f [] []
  | cons (f : Bytes → Bytes) (k : Bytes) (d : Dbg) (j : Json) (fields : List (Bytes × Dbg))
      (l : List (Bytes × Json)) : Alike called d j → AlikeFields called f fields l →
      AlikeFields called f ((k, d) :: fields) ((f k, j) :: l)
/-- Items one by one. -/
inductive AlikeItems (called : Bytes → Bytes → Bytes) : List Dbg → List Json → Prop
  | nil : AlikeItems called [] []
  | cons (d : Dbg) (j : Json) (items : List Dbg) (l : List Json) : Alike called d j →
      AlikeItems called items l → AlikeItems called (d :: items) (j :: l)
end

/-- Fields are renamed, except those of `RtcData`. -/
def usual (name : Bytes) : Bytes → Bytes := if name = bs "RtcData" then id else camelField

end Elk.Spec
