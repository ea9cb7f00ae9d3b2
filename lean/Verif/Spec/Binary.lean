import Verif.Spec.Stream

/-!
Specification vocabulary for cells as they are laid out in a file.
-/

namespace Gdspy.Spec

/-- The payload of a name record: the ASCII characters, with a padding NUL or without (and then
not ending in NUL). -/
def NamePayload (name : Str) (p : Bytes) : Prop :=
  (∀ c ∈ name, c.toNat < 128) ∧
    (p = (name.map fun c => UInt8.ofNat c.toNat) ++ [0] ∨
      (p = (name.map fun c => UInt8.ofNat c.toNat) ∧ ∀ x, name.getLast? = some x → x.toNat ≠ 0))

/-- A cell in a file: BGNSTR, STRNAME, other records, ENDSTR. -/
structure CellImage where
  /-- payload of BGNSTR -/
  stamp : Bytes
  name : Str
  /-- payload of STRNAME -/
  namePayload : Bytes
  body : List Frame

/-- Not one of the records that delimit or name cells. -/
def Frame.Inner (f : Frame) : Prop := f.Fits ∧ f.type ≠ 5 ∧ f.type ≠ 6 ∧ f.type ≠ 7

def CellImage.frames (c : CellImage) : List Frame :=
  [⟨5, 2, c.stamp⟩, ⟨6, 6, c.namePayload⟩] ++ c.body ++ [⟨7, 0, []⟩]

/-- The bytes from BGNSTR to ENDSTR. -/
def CellImage.bytes (c : CellImage) : Bytes := streamBytes c.frames

def CellImage.Ok (c : CellImage) : Prop :=
  4 + c.stamp.length < 65536 ∧ 4 + c.namePayload.length < 65536 ∧
    NamePayload c.name c.namePayload ∧ ∀ f ∈ c.body, f.Inner

end Gdspy.Spec
