import Verif.Model.GlobalSave
import Verif.Props.C98
import Verif.Props.C10

/-!
# C99: `gdspy.write_gds` and the global library
-/

namespace Gdspy

open Spec

variable {div : ℚ → ℚ → ℚ} {trig : ℚ → ℚ × ℚ} {a : ReadArgs}

/-- The vertices of all polygons of a library in metres. -/
def Spec.metres (lib : Lib) : List (ℚ × ℚ) :=
  lib.cells.flatMap fun c => c.polygons.flatMap fun s => s.polys.flatMap fun p =>
    p.points.map fun q => (q.1 * lib.unit, q.2 * lib.unit)

/-- **C99.** However often `gdspy.write_gds` is called, and whichever of the calls raise: the cells of the
global library stay as they are, and each call leaves in its file what `write_gds` of a library with these
cells and the name and the units of that call leaves, whatever the library had before. -/
theorem C99_files (cur : Lib) (gs : List GlobalCall) :
    (globalWrites div trig cur gs).1.cells = cur.cells ∧
    (globalWrites div trig cur gs).2 = gs.map fun g =>
      saveGds div trig ⟨some g.name, g.unit, g.precision, cur.cells⟩ g.cells g.ts g.binaryCells := by
  induction gs generalizing cur with
  | nil => exact ⟨rfl, rfl⟩
  | cons g gs ih =>
    obtain ⟨h1, h2⟩ := ih (globalWriteGds div trig cur g).1
    refine ⟨h1, ?_⟩
    show _ :: (globalWrites div trig _ gs).2 = _
    rw [h2]
    rfl

/-- **C99.** The name and the units of the last call stay in the global library, also when that call
raises. -/
theorem C99_settings (cur : Lib) (gs : List GlobalCall) (g : GlobalCall) :
    (globalWrites div trig cur (gs ++ [g])).1 = ⟨some g.name, g.unit, g.precision, cur.cells⟩ := by
  induction gs generalizing cur with
  | nil => rfl
  | cons x gs ih => exact ih (globalWriteGds div trig cur x).1

/-- **C99.** The file of a call has the coordinates of the global library and the units of the call:
read with `units='import'` it gives these cells again, with the name and the units of the call. -/
theorem C99_recovered (cur : Lib) (g : GlobalCall) (hall : g.cells = none) (hb : g.binaryCells = [])
    (hn : GoodText g.name) (h1 : Storable (div g.precision g.unit)) (h2 : Storable g.precision)
    (h0 : div g.precision g.unit ≠ 0) (hex : div g.precision (div g.precision g.unit) = g.unit)
    (hts : Spec.Timestamp.Fits g.ts)
    (hgood : ∀ c ∈ cur.cells, c.Good trig (div g.unit g.precision) (div g.precision g.unit))
    (hcan : ∀ c ∈ cur.cells, Canonical (cur.cells.map Cell.name) c)
    (hnd : (cur.cells.map Cell.name).Nodup) (ha : PlainArgs a) (hu : a.units = .import_)
    (lib0 : Lib) (h0c : lib0.cells = []) :
    ∃ file, (globalWriteGds div trig cur g).2 = (file, none) ∧
      readGds div trig a lib0 file = (⟨some g.name, g.unit, g.precision, cur.cells⟩, none) ∧
      getGdsUnits div file = .ok (some (g.unit, g.precision)) := by
  obtain ⟨file, hw, hr⟩ := C19_library_recovered (div := div) (trig := trig) (a := a)
    ⟨some g.name, g.unit, g.precision, cur.cells⟩ g.name rfl hn h1 h2 h0 hex g.ts hts hgood hcan hnd ha hu
    lib0 h0c
  refine ⟨file, ?_, hr, ?_⟩
  · show saveGds div trig ⟨some g.name, g.unit, g.precision, cur.cells⟩ g.cells g.ts g.binaryCells = _
    rw [hb]
    refine (C98_complete ⟨some g.name, g.unit, g.precision, cur.cells⟩ hnd g.cells g.ts [] file).2 ?_
    exact ⟨cur.cells, by rw [hall]; rfl, hw⟩
  · exact C10_units_exact (div := div) (trig := trig) ⟨some g.name, g.unit, g.precision, cur.cells⟩ g.name
      rfl hn cur.cells g.ts hts [] h1 h2 h0 hex file hw

/-- **C99, disagreement.** The dimensions are not kept: in metres, the vertices in the file are those of
the global library multiplied by the quotient of the units. With the default argument `unit=1e-6`, a
library that was read from a file in millimetres is written a thousand times smaller. -/
theorem C99_dimensions_not_kept (cur : Lib) (g : GlobalCall) (hall : g.cells = none)
    (hb : g.binaryCells = []) (hn : GoodText g.name) (h1 : Storable (div g.precision g.unit))
    (h2 : Storable g.precision) (h0 : div g.precision g.unit ≠ 0)
    (hex : div g.precision (div g.precision g.unit) = g.unit) (hts : Spec.Timestamp.Fits g.ts)
    (hgood : ∀ c ∈ cur.cells, c.Good trig (div g.unit g.precision) (div g.precision g.unit))
    (hcan : ∀ c ∈ cur.cells, Canonical (cur.cells.map Cell.name) c)
    (hnd : (cur.cells.map Cell.name).Nodup) (ha : PlainArgs a) (hu : a.units = .import_)
    (lib0 : Lib) (h0c : lib0.cells = []) (hunit : cur.unit ≠ 0) :
    ∃ file lib1, (globalWriteGds div trig cur g).2 = (file, none) ∧
      readGds div trig a lib0 file = (lib1, none) ∧
      metres lib1 = (metres cur).map fun q => (q.1 * (g.unit / cur.unit), q.2 * (g.unit / cur.unit)) := by
  obtain ⟨file, hw, hr, -⟩ := C99_recovered cur g hall hb hn h1 h2 h0 hex hts hgood hcan hnd ha hu lib0 h0c
  refine ⟨file, _, hw, hr, ?_⟩
  unfold metres
  have e : ∀ x : ℚ, x * cur.unit * (g.unit / cur.unit) = x * g.unit := by
    intro x; field_simp
  simp only [List.map_flatMap, List.map_map, Function.comp_def, e]

/-- The library of the samples with a unit that is 1024 times as large. -/
def Sample.coarse : Lib := { Sample.lib with unit := 1 / 1024 }

/-- A call for the samples. -/
def Sample.globalCall : GlobalCall :=
  ⟨none, "library".toList, 1 / 1048576, 1 / 1073741824, Sample.saveDate, []⟩

/-- Arguments of the reader for the samples. -/
def Sample.importingArgs : ReadArgs := ⟨.import_, id, fun _ => none, fun _ => none, fun _ => none⟩

theorem Sample.lib_canonical : ∀ c ∈ Sample.lib.cells, Canonical (Sample.lib.cells.map Cell.name) c := by
  intro c hc
  simp only [Sample.lib, List.mem_cons, List.not_mem_nil, or_false] at hc
  rcases hc with rfl | rfl
  · refine ⟨?_, ?_, ?_⟩
    · intro s hs
      simp only [List.mem_singleton] at hs
      subst hs
      rfl
    · intro p hp
      simp only [List.mem_singleton] at hp
      subst hp
      exact ⟨_, _, _, rfl, by simp, by simp⟩
    · intro r hr; simp at hr
  · refine ⟨?_, ?_, ?_⟩
    · intro s hs; simp at hs
    · intro s hs; simp at hs
    · intro r hr
      simp only [List.mem_cons, List.not_mem_nil, or_false] at hr
      rcases hr with rfl | rfl <;> decide

/-- The hypotheses of `C99_dimensions_not_kept` are met by a library with polygons, a path, a label and
references: it is written 1024 times smaller than it is. -/
example : ∃ file lib1, (globalWriteGds (fun x y => x / y) (fun x => if x = 90 then (0, 1) else (1, 0))
      Sample.coarse Sample.globalCall).2 = (file, none) ∧
    readGds (fun x y => x / y) (fun x => if x = 90 then (0, 1) else (1, 0)) Sample.importingArgs
      ⟨none, 1, 1, []⟩ file = (lib1, none) ∧
    metres Sample.coarse ≠ [] ∧
    metres lib1 = (metres Sample.coarse).map fun q => (q.1 * (1 / 1024), q.2 * (1 / 1024)) := by
  have e1 : (1 / 1073741824 : ℚ) / (1 / 1048576) = 1 / 1024 := by norm_num
  have e2 : (1 / 1048576 : ℚ) / (1 / 1073741824) = 1024 := by norm_num
  have e3 : (1 / 1048576 : ℚ) / (1 / 1024) = 1 / 1024 := by norm_num
  have h1 : Storable ((1 / 1073741824 : ℚ) / (1 / 1048576)) := by
    have := Sample.storable 1 (-10) (by norm_num) (by norm_num [abs_of_pos]) (by norm_num [abs_of_pos])
    norm_num at this ⊢
    exact this
  have h2 : Storable (1 / 1073741824 : ℚ) := by
    have := Sample.storable 1 (-30) (by norm_num) (by norm_num [abs_of_pos]) (by norm_num [abs_of_pos])
    norm_num at this ⊢
    exact this
  obtain ⟨file, lib1, hw, hr, hm⟩ := C99_dimensions_not_kept (div := fun x y => x / y)
    (trig := fun x => if x = 90 then (0, 1) else (1, 0)) (a := Sample.importingArgs)
    Sample.coarse Sample.globalCall rfl rfl ⟨by decide, by decide, by decide, by decide⟩
    h1 h2 (by norm_num [Sample.globalCall]) (by norm_num [Sample.globalCall]) Sample.saveDate_fits
    (by
      intro c hc
      show Cell.Good _ ((1 / 1048576 : ℚ) / (1 / 1073741824)) ((1 / 1073741824 : ℚ) / (1 / 1048576)) c
      rw [e1, e2]
      exact Sample.lib_good c hc)
    Sample.lib_canonical (by decide) ⟨rfl, fun _ => rfl, fun _ => rfl, fun _ => rfl⟩ rfl ⟨none, 1, 1, []⟩ rfl
    (by norm_num [Sample.coarse])
  refine ⟨file, lib1, hw, hr, ?_, ?_⟩
  · decide +kernel
  · rw [hm]
    show List.map (fun q : ℚ × ℚ => (q.1 * ((1 / 1048576 : ℚ) / (1 / 1024)),
      q.2 * ((1 / 1048576 : ℚ) / (1 / 1024)))) _ = _
    rw [e3]

end Gdspy
