import Verif.Model.Save

/-!
# The deprecated `gdspy.write_gds`

`gdspy/__init__.py:75-93`. The state is `gdspy.current_library` (`gdspy/__init__.py:96`).
-/

namespace Gdspy

/-- The arguments of `gdspy.write_gds` (`gdspy/__init__.py:75-83`) but for the file. The default values
of the arguments are not modelled, nor is `timestamp=None`. -/
structure GlobalCall where
  cells : Option (List Pick)
  name : Str
  unit : ℚ
  precision : ℚ
  ts : Timestamp
  binaryCells : List Bytes

/-- `gdspy/__init__.py:75-93` `write_gds`: the global library afterwards, and what is in the file with
the exception, if any. The warning is not modelled. -/
def globalWriteGds (div : ℚ → ℚ → ℚ) (trig : ℚ → ℚ × ℚ) (cur : Lib) (g : GlobalCall) :
    Lib × (Bytes × Option PyErr) :=
  let cur1 : Lib := { cur with name := some g.name }
  let cur2 : Lib := { cur1 with unit := g.unit }
  let cur3 : Lib := { cur2 with precision := g.precision }
  (cur3, saveGds div trig cur3 g.cells g.ts g.binaryCells)

/-- A program that calls `gdspy.write_gds` again and again and goes on after exceptions: the global
library at the end, and the files. -/
def globalWrites (div : ℚ → ℚ → ℚ) (trig : ℚ → ℚ × ℚ) : Lib → List GlobalCall →
    Lib × List (Bytes × Option PyErr)
  | cur, [] => (cur, [])
  | cur, g :: r =>
      let o := globalWriteGds div trig cur g
      let p := globalWrites div trig o.1 r
      (p.1, o.2 :: p.2)

end Gdspy
