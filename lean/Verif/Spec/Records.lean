import Verif.Model.Gdsii

/-!
Specification of the GDSII record layout, written from the format description and not from
the reader.  (`Data`/`Record` are only used as the vocabulary of results.)
-/

namespace Gdspy.Spec

/-- `k`-byte big-endian representation of `n`, most significant byte first. -/
def bigEndian : Nat → Nat → Bytes
  | 0, _ => []
  | k + 1, n => bigEndian k (n / 256) ++ [UInt8.ofNat (n % 256)]

/-- Two's complement of `i` on `8*k` bits. -/
def twosComplement (k : Nat) (i : Int) : Bytes := bigEndian k (i % (256 ^ k : Nat)).toNat

/-- The number whose big-endian digits are the given bytes. -/
def beValue (b : Bytes) : Nat := b.foldl (fun acc x => acc * 256 + x.toNat) 0

/-- Value of an 8-byte GDSII real: sign bit, excess-64 base-16 exponent, 56-bit fraction. -/
def realValue : Bytes → ℚ
  | s :: m =>
    (if s.toNat ≥ 128 then (-1 : ℚ) else 1) * ((beValue m : ℚ) / 2 ^ 56)
      * (16 : ℚ) ^ ((s.toNat % 128 : ℤ) - 64)
  | [] => 0

/-- `Encodes d dt p`: the payload bytes `p` of a record with data type `dt` denote `d`. -/
inductive Encodes : Data → Nat → Bytes → Prop
  | none (dt : Nat) : Encodes .none dt []
  | words (l : List Nat) (h0 : l ≠ []) (h : ∀ n ∈ l, n < 65536) :
      Encodes (.u16 l) 1 (l.flatMap (bigEndian 2))
  | shorts (l : List Int) (h0 : l ≠ []) (h : ∀ n ∈ l, -32768 ≤ n ∧ n < 32768) :
      Encodes (.i16 l) 2 (l.flatMap (twosComplement 2))
  | longs (l : List Int) (h0 : l ≠ []) (h : ∀ n ∈ l, -2147483648 ≤ n ∧ n < 2147483648) :
      Encodes (.i32 l) 3 (l.flatMap (twosComplement 4))
  | reals (bs : List Bytes) (h0 : bs ≠ []) (h : ∀ b ∈ bs, b.length = 8) :
      Encodes (.real (bs.map realValue)) 5 bs.flatten
  | textPlain (t : Str) (x : Char) (dt : Nat) (hdt : dt ≠ 1 ∧ dt ≠ 2 ∧ dt ≠ 3 ∧ dt ≠ 5)
      (h : ∀ c ∈ t ++ [x], c.toNat < 128) (hx : x.toNat ≠ 0) :
      Encodes (.str (t ++ [x])) dt ((t ++ [x]).map fun c => UInt8.ofNat c.toNat)
  | textNul (t : Str) (dt : Nat) (hdt : dt ≠ 1 ∧ dt ≠ 2 ∧ dt ≠ 3 ∧ dt ≠ 5)
      (h : ∀ c ∈ t, c.toNat < 128) :
      Encodes (.str t) dt ((t.map fun c => UInt8.ofNat c.toNat) ++ [0])

/-- A record as it is laid out in a file: 2-byte total size, type byte, data type byte,
payload. -/
structure Frame where
  type : Nat
  dt : Nat
  payload : Bytes

def Frame.bytes (f : Frame) : Bytes :=
  bigEndian 2 (4 + f.payload.length) ++ [UInt8.ofNat f.type, UInt8.ofNat f.dt] ++ f.payload

/-- The fields fit in the record header. -/
def Frame.Fits (f : Frame) : Prop := f.type < 256 ∧ f.dt < 256 ∧ 4 + f.payload.length < 65536

end Gdspy.Spec
