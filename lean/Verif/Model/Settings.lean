import Verif.Model.Global
import Mathlib.Logic.Equiv.Basic

/-!
# Assignments to the global settings

`gdspy.current_library` (`gdspy/__init__.py:96`) and `gdspy.library.use_current_library`
(library.py:60) are variables that a program may assign at any time. The functions of
`Model/Global.lean` have the first one fixed to library 0 and the second one as parameter; here both
are part of the state.
-/

namespace Gdspy

/-- The state of a program: all libraries, the number of the one that is `gdspy.current_library`, and
`use_current_library`. -/
structure Program where
  world : World
  current : Nat
  use : Bool

/-- library.py:104-115 `Cell(name, exclude_from_current)`. -/
def Program.createCell (p : Program) (name : Str) (exclude : Bool) : Program × Py Nat :=
  let (h, c) := p.world.heap.newCell name
  let w : World := { p.world with heap := h }
  if p.use && !exclude then
    match addLoop false true (w.view p.current) [c] with
    | (st, none) => ({ p with world := w.put p.current st }, .ok c)
    | (st, some e) => ({ p with world := w.put p.current st }, .error e)
  else ({ p with world := w }, .ok c)

/-- library.py:2299-2328 `libs[k.lib].new_cell(k.name, overwrite_duplicate, update_references)`. -/
def Program.newCell (p : Program) (k : NewCall) : Program × Py Nat :=
  match p.createCell k.name false with
  | (p', .error e) => (p', .error e)
  | (p', .ok c) =>
    match addLoop k.ow k.upd (p'.world.view k.lib) [c] with
    | (st, none) => ({ p' with world := p'.world.put k.lib st }, .ok c)
    | (st, some e) => ({ p' with world := p'.world.put k.lib st }, .error e)

/-- What a program does: assignments to `use_current_library` and `gdspy.current_library`, and the
creation of cells with `Cell(name, exclude_from_current)` and `new_cell`. -/
inductive GOp where
  | setUse (b : Bool)
  | setCurrent (lib : Nat)
  | create (name : Str) (exclude : Bool)
  | new (k : NewCall)

/-- One statement. -/
def Program.step (p : Program) : GOp → Program × Option PyErr
  | .setUse b => ({ p with use := b }, none)
  | .setCurrent i => ({ p with current := i }, none)
  | .create name ex => match p.createCell name ex with
    | (p', .ok _) => (p', none)
    | (p', .error e) => (p', some e)
  | .new k => match p.newCell k with
    | (p', .ok _) => (p', none)
    | (p', .error e) => (p', some e)

/-- A program; an exception ends it. -/
def Program.run : Program → List GOp → Program × Option PyErr
  | p, [] => (p, none)
  | p, o :: l => match p.step o with
    | (p', none) => p'.run l
    | (p', some e) => (p', some e)

end Gdspy
