import Verif.Model.Py
import Mathlib.Data.Int.Log
import Mathlib.Data.Rat.Floor

/-!
# The 8-byte real number format

Model of `gdspy/gdsiiformat.py`, `_eight_byte_real` (lines 127-157) and
`_eight_byte_real_to_float` (lines 160-181).

Simplification: numbers are exact rationals. For doubles every operation after the
logarithm is exact (multiplication by a power of 16 and truncation of a number below
2^56), see `Props/C01`. The logarithm is the only inexact step: `eightByteRealAt` takes
the exponent it produced as an argument.
-/

namespace Gdspy

/-- `struct.pack(">HHL", a, b, c)` (gdsiiformat.py:157). -/
def packHHL (a b c : Int) : Py Bytes := do
  let x ← packH a
  let y ← packH b
  if 0 ≤ c ∧ c < 4294967296 then
    pure (x ++ y ++ be32 c.toNat)
  else throw .structError

/-- gdsiiformat.py:143-147 and 152-157: encoding of a non-zero `value` once the base-16
`exponent` has been computed.  `int(...)` truncates, which is `⌊·⌋` on the non-negative
product. -/
def eightByteRealAt (exponent : Int) (value : ℚ) : Py Bytes :=
  let byte1 : Int := if value < 0 then 0x80 else 0x00
  let value := if value < 0 then -value else value
  let mantissa : Int := ⌊value * (16 : ℚ) ^ (14 - exponent)⌋
  let byte1 := byte1 + (exponent + 64)
  let byte2 := mantissa / 281474976710656
  let short3 := (mantissa % 281474976710656) / 4294967296
  let long4 := mantissa % 4294967296
  packHHL (byte1 * 256 + byte2) short3 long4

/-- gdsiiformat.py:148-151 in exact arithmetic: `fexp = log2(value)/4`,
`exponent = ceil(fexp)`, plus one when `fexp` is an integer; that is
`⌊log16 value⌋ + 1`. -/
def realExponent (value : ℚ) : Int := Int.log 16 value + 1

/-- gdsiiformat.py:127-157 `_eight_byte_real`. -/
def eightByteReal (value : ℚ) : Py Bytes :=
  if value = 0 then .ok [0, 0, 0, 0, 0, 0, 0, 0]
  else eightByteRealAt (realExponent (if value < 0 then -value else value)) value

/-- gdsiiformat.py:160-181 `_eight_byte_real_to_float`. Simplification: the mantissa is
not rounded to 53 bits. -/
def eightByteRealToFloat (value : Bytes) : Py ℚ :=
  match value with
  | [a, b, c, d, e, f, g, h] =>
    let short1 := rd16 a b
    let short2 := rd16 c d
    let long3 := rd32 e f g h
    let exponent : Int := (((short1 &&& 0x7F00) / 256 : Nat) : Int) - 64
    let mantissa : ℚ :=
      ((((short1 &&& 0x00FF) * 65536 + short2) * 4294967296 + long3 : Nat) : ℚ)
        / 72057594037927936
    if short1 &&& 0x8000 ≠ 0 then .ok (-mantissa * (16 : ℚ) ^ exponent)
    else .ok (mantissa * (16 : ℚ) ^ exponent)
  | _ => .error .structError

end Gdspy
