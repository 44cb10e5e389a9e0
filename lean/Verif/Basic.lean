/-!
# Bytes, panics and checked slice operations

Shared vocabulary of the model.  `usize` is `Nat`, `u8` is `UInt8`, byte buffers are lists.
Everything that can panic in the Rust code returns `P α`.
-/

namespace Elk

/-- `&[u8]`, `Vec<u8>` and `bytes::BytesMut` contents. -/
abbrev Bytes := List UInt8

/-- The ways the Rust code can panic (debug-build semantics, so arithmetic overflow counts). -/
inductive Panic where
  | index        -- `a[i]` out of range
  | slice        -- `a[i..j]` out of range (or off a `char` boundary for `str`)
  | advance      -- `bytes::Buf::advance` past the end
  | overflow     -- checked arithmetic
  | assertion    -- `assert!`, `debug_assert!`
  | expect       -- `unwrap`/`expect` on `None`/`Err`
  | unreachable  -- `unreachable!()`
  | todo         -- `todo!()`
  deriving DecidableEq, Repr

/-- A computation that may panic. -/
abbrev P (α : Type) := Except Panic α

/-- Rust `a[i]`. -/
def idx {α : Type} (l : List α) (i : Nat) : P α :=
  match l[i]? with
  | some a => .ok a
  | none => .error .index

/-- Rust `&a[i..]`. -/
def sliceFrom {α : Type} (l : List α) (i : Nat) : P (List α) :=
  if i ≤ l.length then .ok (l.drop i) else .error .slice

/-- Rust `&a[i..j]`. -/
def slice {α : Type} (l : List α) (i j : Nat) : P (List α) :=
  if i ≤ j ∧ j ≤ l.length then .ok ((l.take j).drop i) else .error .slice

/-- `bytes::Buf::advance` on a `BytesMut`: the remaining buffer. -/
def advance (l : Bytes) (n : Nat) : P Bytes :=
  if n ≤ l.length then .ok (l.drop n) else .error .advance

/-- Rust `a.get(..n)`. -/
def getTo {α : Type} (l : List α) (n : Nat) : Option (List α) :=
  if n ≤ l.length then some (l.take n) else none

/-- Rust `a.starts_with(b)` on byte slices. -/
def startsWith (l p : Bytes) : Bool := p.isPrefixOf l

/-- `memchr::memchr`: index of the first occurrence. -/
def memchr (b : UInt8) (l : Bytes) : Option Nat := l.findIdx? (· == b)

/-- ASCII code of a character literal (`b'x'`). -/
abbrev b' (c : Char) : UInt8 := c.toUInt8

/-- A byte-string literal (`b"..."`) of ASCII characters. -/
abbrev bs (s : String) : Bytes := s.toList.map Char.toUInt8

end Elk
