import Mathlib.Data.Rat.Defs

/-!
# Python run-time conventions used by the model

Exceptions are values of `PyErr`; a Python call that may raise returns `Py α`.
-/

namespace Gdspy

/-- The exceptions that the modelled code can raise. `unmodelled` marks inputs that the
model deliberately does not follow (always stated next to the use). -/
inductive PyErr where
  | valueError
  | structError
  | indexError
  | attributeError
  | typeError
  | keyError
  | unicodeError
  | assertionError
  | zeroDivision
  | recursionError
  | unboundLocal
  | unmodelled
  deriving DecidableEq, Repr

/-- A Python computation that returns a value or raises. -/
abbrev Py (α : Type _) := Except PyErr α

/-- A file or stream: the bytes still to be read. -/
abbrev Bytes := List UInt8

/-- A Python `str`: a sequence of code points. -/
abbrev Str := List Char

/-- `s.encode("ascii")` (Python built-in): `UnicodeEncodeError` on any non-ASCII character. -/
def encodeAscii (s : Str) : Py Bytes :=
  if s.all (fun c => c.toNat < 128) then .ok (s.map fun c => UInt8.ofNat c.toNat)
  else .error .unicodeError

/-- `b.decode("ascii")` (Python built-in): `UnicodeDecodeError` on any byte ≥ 128. -/
def decodeAscii (b : Bytes) : Py Str :=
  if b.all (fun x => x.toNat < 128) then .ok (b.map fun x => Char.ofNat x.toNat)
  else .error .unicodeError

/-! ## `struct.pack` / `struct.unpack`, big endian -/

/-- Two big-endian bytes of `n` (the value is reduced modulo 2^16). -/
def be16 (n : Nat) : Bytes := [UInt8.ofNat (n / 256), UInt8.ofNat n]

/-- Four big-endian bytes of `n` (the value is reduced modulo 2^32). -/
def be32 (n : Nat) : Bytes :=
  [UInt8.ofNat (n / 16777216), UInt8.ofNat (n / 65536), UInt8.ofNat (n / 256), UInt8.ofNat n]

/-- `struct.pack(">H", n)`; `struct.error` when out of range. -/
def packH (n : Int) : Py Bytes :=
  if 0 ≤ n ∧ n < 65536 then .ok (be16 n.toNat) else .error .structError

/-- `struct.pack(">h", n)`. -/
def packh (n : Int) : Py Bytes :=
  if -32768 ≤ n ∧ n < 32768 then .ok (be16 (n % 65536).toNat) else .error .structError

/-- `struct.pack(">l", n)` (standard size: 4 bytes). -/
def packl (n : Int) : Py Bytes :=
  if -2147483648 ≤ n ∧ n < 2147483648 then .ok (be32 (n % 4294967296).toNat)
  else .error .structError

/-- One `numpy` big-endian 4-byte integer (`dtype=">i4"`): out-of-range values wrap. -/
def i4 (n : Int) : Bytes := be32 (n % 4294967296).toNat

/-- Value of two big-endian bytes. -/
def rd16 (a b : UInt8) : Nat := a.toNat * 256 + b.toNat

/-- Value of four big-endian bytes. -/
def rd32 (a b c d : UInt8) : Nat := rd16 a b * 65536 + rd16 c d

/-- Two's complement reading of a 16-bit word. -/
def sgn16 (n : Nat) : Int := if n < 32768 then (n : Int) else (n : Int) - 65536

/-- Two's complement reading of a 32-bit word. -/
def sgn32 (n : Nat) : Int := if n < 2147483648 then (n : Int) else (n : Int) - 4294967296

/-- `struct.unpack(">{k}H", b)`: `struct.error` unless `len(b) == 2*k`. -/
def unpackHs : Nat → Bytes → Py (List Nat)
  | 0, [] => .ok []
  | k + 1, a :: b :: r => do
      let t ← unpackHs k r
      pure (rd16 a b :: t)
  | _, _ => .error .structError

/-- `struct.unpack(">{k}l", b)`: `struct.error` unless `len(b) == 4*k`. -/
def unpackls : Nat → Bytes → Py (List Int)
  | 0, [] => .ok []
  | k + 1, a :: b :: c :: d :: r => do
      let t ← unpackls k r
      pure (sgn32 (rd32 a b c d) :: t)
  | _, _ => .error .structError

end Gdspy
