import Verif.Spec.ImportLib

/-!
Specification of renaming cells and changing layers in a library.
-/

namespace Gdspy.Spec

/-- The reading arguments without any renaming or layer change. -/
def plain (a : ReadArgs) : ReadArgs :=
  ⟨a.units, id, fun _ => none, fun _ => none, fun _ => none⟩

def relabelPoly (a : ReadArgs) (p : Poly) : Poly :=
  { p with layer := mapped a.layers p.layer, datatype := mapped a.datatypes p.datatype }

def relabelSet (a : ReadArgs) (s : PolygonSet) : PolygonSet :=
  { s with polys := s.polys.map (relabelPoly a) }

def relabelSub (a : ReadArgs) (s : SubPath) : SubPath :=
  { s with layer := mapped a.layers s.layer, datatype := mapped a.datatypes s.datatype }

def relabelGds (a : ReadArgs) (p : GdsPath) : GdsPath :=
  { p with subs := p.subs.map (relabelSub a) }

def relabelPath (a : ReadArgs) : PathEl → PathEl
  | .gds p => .gds (relabelGds a p)
  | .outline s => .outline (relabelSet a s)

def relabelLabel (a : ReadArgs) (b : Label) : Label :=
  { b with layer := mapped a.layers b.layer, texttype := mapped a.texttypes b.texttype }

/-- References follow the renaming. -/
def relabelRef (a : ReadArgs) (r : Ref) : Ref :=
  { r with target := match r.target with
      | .name s => .name (a.nameMap s)
      | .cell s => .cell (a.nameMap s) }

/-- The cell with its name, its references and all its layers, datatypes and texttypes changed. -/
def relabel (a : ReadArgs) (c : Cell) : Cell :=
  { name := a.nameMap c.name
    polygons := c.polygons.map (relabelSet a)
    paths := c.paths.map (relabelPath a)
    labels := c.labels.map (relabelLabel a)
    references := c.references.map (relabelRef a) }

def relabelLib (a : ReadArgs) (lib : Lib) : Lib := { lib with cells := lib.cells.map (relabel a) }

/-- The maps keep 0, the layer, datatype and texttype that an element has when its record says
nothing. -/
def KeepsZero (a : ReadArgs) : Prop :=
  mapped a.layers 0 = 0 ∧ mapped a.datatypes 0 = 0 ∧ mapped a.texttypes 0 = 0

end Gdspy.Spec
