import Verif.Model.Read

/-!
Specification of the layout of elements and cells in a file, and of the properties of an element.
-/

namespace Gdspy.Spec

/-- A piece of an element: a property (PROPATTR followed by PROPVALUE) or another record. -/
inductive ElItem where
  | prop (attr : Int) (value : Str)
  | other (r : Record)

def ElItem.records : ElItem → List Record
  | .prop n v => [⟨0x2B, .i16 [n]⟩, ⟨0x2C, .str v⟩]
  | .other r => [r]

/-- Records that neither begin nor end an element or a cell, nor belong to a property. -/
def Quiet (r : Record) : Prop :=
  r.type ∉ [0x04, 0x06, 0x07, 0x08, 0x09, 0x0A, 0x0B, 0x0C, 0x11, 0x2B, 0x2C, 0x2D]

def ElItem.Ok : ElItem → Prop
  | .prop _ _ => True
  | .other r => Quiet r

inductive Kind where
  | polygon
  | path
  | label
  | ref
  deriving DecidableEq

/-- An element of the kinds that gdspy can import: BOUNDARY, BOX, PATH, TEXT, SREF, AREF. -/
inductive Start where
  | boundary
  | box
  | path
  | text
  | sref
  | aref

def Start.type : Start → Nat
  | .boundary => 0x08
  | .box => 0x2D
  | .path => 0x09
  | .text => 0x0C
  | .sref => 0x0A
  | .aref => 0x0B

def Start.kind : Start → Kind
  | .boundary => .polygon
  | .box => .polygon
  | .path => .path
  | .text => .label
  | .sref => .ref
  | .aref => .ref

structure Block where
  start : Start
  items : List ElItem

def Block.records (b : Block) : List Record :=
  [⟨b.start.type, .none⟩] ++ b.items.flatMap ElItem.records ++ [⟨0x11, .none⟩]

/-- The last value given to attribute `n`. -/
def lastValue (n : Int) : List ElItem → Option Str
  | [] => none
  | i :: is =>
    match lastValue n is, i with
    | some v, _ => some v
    | none, .prop k v => if k = n then some v else none
    | none, .other _ => none

/-- The dictionary holds exactly the properties of the block. -/
def HasProps (p : Properties) (b : Block) : Prop :=
  (p.map Prod.fst).Nodup ∧ ∀ n, p.lookup n = (lastValue n b.items).map some

/-- A cell in a file: the time stamp of its BGNSTR record, its name and its elements. -/
structure FileCell where
  stamp : Data
  name : Str
  blocks : List Block

def FileCell.records (c : FileCell) : List Record :=
  [⟨0x05, c.stamp⟩, ⟨0x06, .str c.name⟩] ++ c.blocks.flatMap Block.records ++ [⟨0x07, .none⟩]

def FileCell.ofKind (c : FileCell) (k : Kind) : List Block :=
  c.blocks.filter fun b => b.start.kind = k

def _root_.Gdspy.PathEl.props : PathEl → Properties
  | .gds p => p.properties
  | .outline s => s.properties

/-- The elements of each kind are those of the file, in order, each with its own properties. -/
structure CellHasProps (f : Str → Str) (c : Cell) (fc : FileCell) : Prop where
  name : c.name = f fc.name
  polygons : List.Forall₂ (fun s b => HasProps s.properties b) c.polygons (fc.ofKind .polygon)
  paths : List.Forall₂ (fun s b => HasProps s.props b) c.paths (fc.ofKind .path)
  labels : List.Forall₂ (fun s b => HasProps s.properties b) c.labels (fc.ofKind .label)
  references : List.Forall₂ (fun s b => HasProps s.properties b) c.references (fc.ofKind .ref)

end Gdspy.Spec
