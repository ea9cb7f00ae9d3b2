import Verif.Model.Py

/-!
# Copies of cells and what they share

Elements and their dictionaries of properties are objects with numbers. An element is the value of its other attributes and
the number of its dictionary.

Simplified: the attributes of an element other than `properties` are one value, which is replaced as a whole. For references
this means that a mutable `origin` (an array given by the user) is not written into; all methods of gdspy assign a new one.
-/

namespace Gdspy

/-- The elements and dictionaries of properties that exist: those with numbers below `nextElem` and `nextDict`. -/
structure Store (E : Type) where
  elem : Nat → E × Nat
  dict : Nat → List (Int × Str)
  nextElem : Nat
  nextDict : Nat

/-- library.py:104-112: the lists of elements of a `Cell`. -/
structure ShCell where
  polygons : List Nat
  paths : List Nat
  labels : List Nat
  references : List Nat
  deriving DecidableEq

variable {E : Type}

/-- `copy.deepcopy` of a list of elements. With its memo an object gets one copy, here with the number of its first place in
the list; the same for dictionaries. The numbers of the other places stay unused. -/
def Store.deepCopy (s : Store E) (l : List Nat) : List Nat × Store E :=
  let ds := l.map fun n => (s.elem n).2
  (l.map fun n => s.nextElem + l.idxOf n,
   { elem := fun k => if k < s.nextElem then s.elem k else match l[k - s.nextElem]? with
       | some n => ((s.elem n).1, s.nextDict + ds.idxOf (s.elem n).2)
       | none => s.elem k
     dict := fun k => if k < s.nextDict then s.dict k else match ds[k - s.nextDict]? with
       | some d => s.dict d
       | none => s.dict k
     nextElem := s.nextElem + l.length
     nextDict := s.nextDict + l.length })

/-- library.py:237: `[libcopy.copy(ref) for ref in self.references]`: new objects with the attributes of the old ones, the
same dictionary included. -/
def Store.copyEach (s : Store E) (l : List Nat) : List Nat × Store E :=
  (List.range' s.nextElem l.length,
   { s with
     elem := fun k => if k < s.nextElem then s.elem k else match l[k - s.nextElem]? with
       | some n => s.elem n
       | none => s.elem k
     nextElem := s.nextElem + l.length })

/-- library.py:217-237 `Cell.copy` without a transformation. -/
def ShCell.copy (deep : Bool) (c : ShCell) (s : Store E) : ShCell × Store E :=
  if deep then
    let p := s.deepCopy c.polygons
    let q := p.2.deepCopy c.paths
    let l := q.2.deepCopy c.labels
    let r := l.2.copyEach c.references
    (⟨p.1, q.1, l.1, r.1⟩, r.2)
  else (c, s)

/-- What a user does with an element: change attributes, change the dictionary of properties, assign a new dictionary. -/
inductive Write (E : Type) where
  | attr (n : Nat) (v : E)
  | prop (n : Nat) (d : List (Int × Str))
  | assign (n : Nat) (d : List (Int × Str))

def Store.write (s : Store E) : Write E → Store E
  | .attr n v => { s with elem := fun k => if k = n then (v, (s.elem n).2) else s.elem k }
  | .prop n d => { s with dict := fun k => if k = (s.elem n).2 then d else s.dict k }
  | .assign n d => { s with
      elem := fun k => if k = n then ((s.elem n).1, s.nextDict) else s.elem k
      dict := fun k => if k = s.nextDict then d else s.dict k
      nextDict := s.nextDict + 1 }

end Gdspy
