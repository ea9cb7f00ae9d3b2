import Verif.Props.C19
import Verif.Lemmas.Relabel

/-!
# C20: renaming and layer maps of `read_gds`
-/

namespace Gdspy

open Spec

section
variable {div : ℚ → ℚ → ℚ} {trig : ℚ → ℚ × ℚ}

/-- The cell names that occur in a file, as names of cells or of referenced cells. An empty name is
read as `None`. -/
def Spec.fileNames (file : Bytes) : Set Str :=
  {s | ∃ r ∈ (recordReader file).1, (r.type = 0x06 ∨ r.type = 0x12) ∧
    ∃ t, r.data.text = .ok t ∧ s = t.getD "None".toList}

/-- **C20.** For every byte string whatsoever, reading it with `rename`/`rename_template`, `layers`,
`datatypes` and `texttypes` into an empty library gives what reading it without them gives, with
cells and references renamed and all layers, datatypes and texttypes mapped, and raises the
same exception if any. The renaming must not send two names of the file to one; the maps must keep
0, because an element without LAYER, DATATYPE or TEXTTYPE record gets 0 unmapped. -/
theorem C20_maps_commute (a : ReadArgs) (file : Bytes)
    (hinj : Set.InjOn a.nameMap (fileNames file)) (h0 : KeepsZero a) (lib0 : Lib)
    (hempty : lib0.cells = []) :
    readGds div trig a lib0 file
      = (relabelLib a (readGds div trig (plain a) lib0 file).1,
          (readGds div trig (plain a) lib0 file).2) := by
  have hst : relabelState a { lib := lib0 } = { lib := lib0 } := by
    obtain ⟨n, u, p, c⟩ := lib0
    simp only at hempty
    subst hempty
    rfl
  have hsim := readRecords_relabel div trig a hinj h0 (recordReader file).1 { lib := lib0 }
    ⟨by simp, by simp, by simp, by simp [hempty]⟩ (by
      intro r hr ht t htext
      refine ⟨r, hr, ht, t, htext, ?_⟩
      cases t <;> rfl)
  rw [hst] at hsim
  unfold readGds
  generalize recordReader file = rr at hsim
  obtain ⟨rs, err⟩ := rr
  simp only at hsim ⊢
  rw [hsim]
  cases hres : readRecords div trig (plain a) { lib := lib0 } rs with
  | mk st e => cases e <;> rfl

/-- Not vacuous: a renaming that is injective on two names but not everywhere, and a layer map. -/
example : ∃ a : ReadArgs,
    Set.InjOn a.nameMap {"A".toList, "TOP".toList} ∧ ¬ Function.Injective a.nameMap ∧
    KeepsZero a ∧ mapped a.layers 3 = 30 := by
  refine ⟨⟨.import_, fun s => if s = "A".toList then "B".toList else s,
    fun n => if n = 3 then some 30 else none, fun _ => none, fun _ => none⟩, ?_, ?_, ?_, rfl⟩
  · intro x hx y hy
    simp only [Set.mem_insert_iff, Set.mem_singleton_iff] at hx hy
    rcases hx with rfl | rfl <;> rcases hy with rfl | rfl <;> decide
  · intro h
    have := @h "A".toList "B".toList (by decide)
    revert this; decide
  · exact ⟨rfl, rfl, rfl⟩

theorem resolved_relabel (a : ReadArgs) {S : Set Str} (hinj : Set.InjOn a.nameMap S)
    (names : List Str) (hnames : ∀ s ∈ names, s ∈ S) (c : Cell)
    (hc : ∀ r ∈ c.references, r.target.str ∈ S) :
    ((c.imported a).resolvedIn (names.map a.nameMap))
      = relabel a ((c.imported (plain a)).resolvedIn names) := by
  have hp : ∀ s : PolygonSet, s.imported a = (s.imported (plain a)).map (relabelSet a) := by
    intro s
    unfold PolygonSet.imported
    rw [List.map_map]
    rfl
  have hfm : ∀ {α β γ : Type} (l : List α) (f : α → List β) (g : β → γ) (f' : α → List γ),
      (∀ x ∈ l, f' x = (f x).map g) → l.flatMap f' = (l.flatMap f).map g := by
    intro α β γ l f g f' h
    induction l with
    | nil => rfl
    | cons x l ih =>
      rw [List.flatMap_cons, List.flatMap_cons, List.map_append, h x List.mem_cons_self,
        ih fun y hy => h y (List.mem_cons_of_mem _ hy)]
  unfold Cell.imported Cell.resolvedIn relabel
  simp only [List.map_append, List.map_map, Cell.mk.injEq]
  refine ⟨rfl, ?_, ?_, ?_, ?_⟩
  · rw [hfm c.polygons (PolygonSet.imported (plain a)) (relabelSet a) _ (fun s _ => hp s),
      hfm c.paths (PathEl.asPolygons (plain a)) (relabelSet a)]
    intro p _
    cases p with
    | gds p => rfl
    | outline s => exact hp s
  · apply hfm
    intro p _
    cases p with
    | gds p =>
      simp only [PathEl.asPaths, GdsPath.imported, List.map_map]
      rfl
    | outline s => rfl
  · apply List.map_congr_left
    intro b _
    rfl
  · apply List.map_congr_left
    intro r hr
    have hrS := hc r hr
    obtain ⟨t, ar, o, ro, ma, xr, pr⟩ := r
    simp only [Function.comp, Ref.imported, Ref.resolvedIn, plain, id]
    have hm := mem_nameMap hinj (s := t.str) hrS hnames
    by_cases h : t.str ∈ names
    · rw [if_pos (hm.2 h), if_pos h]; rfl
    · rw [if_neg (fun hc => h (hm.1 hc)), if_neg h]; rfl

/-- **C20.** For files made by `write_gds` from on-grid cells every element has its layer and type
recorded, so that the maps are arbitrary: the cells read are the plainly read cells, renamed and
mapped; references follow the renaming. -/
theorem C20_written_file (a : ReadArgs) (lib : Lib) (cells : List Cell) (name : Str)
    (hname : lib.name = some name) (hn : GoodText name)
    (h1 : Storable (div lib.precision lib.unit)) (h2 : Storable lib.precision)
    (ts : Timestamp) (hts : Spec.Timestamp.Fits ts)
    (hgood : ∀ c ∈ cells, c.Good trig (div lib.unit lib.precision) (div lib.precision lib.unit))
    (hu : a.units = .skip) (lib0 : Lib) (h0 : lib0.cells = [])
    (hnd : (cells.map Cell.name).Nodup) (S : Set Str) (hinj : Set.InjOn a.nameMap S)
    (hS : ∀ c ∈ cells, c.name ∈ S ∧ ∀ r ∈ c.references, r.target.str ∈ S) :
    ∃ file, writeGds div trig lib cells ts [] = .ok file ∧
      (readGds div trig (plain a) lib0 file).2 = none ∧
      (readGds div trig (plain a) lib0 file).1.cells.length = cells.length ∧
      readGds div trig a lib0 file = (relabelLib a (readGds div trig (plain a) lib0 file).1, none) := by
  have hmapn : (cells.map fun c => a.nameMap c.name) = (cells.map Cell.name).map a.nameMap := by
    rw [List.map_map]; rfl
  have hnS : ∀ s ∈ cells.map Cell.name, s ∈ S := by
    intro s hs
    obtain ⟨c, hc, rfl⟩ := List.mem_map.1 hs
    exact (hS c hc).1
  obtain ⟨file, hw, hr⟩ := C19_library_roundtrip (div := div) (trig := trig) (a := a) lib cells name
    hname hn h1 h2 ts hts hgood hu lib0 (by
      rw [h0, List.map_nil, List.nil_append, hmapn]
      exact List.Nodup.map_on (fun x hx y hy => hinj (hnS x hx) (hnS y hy)) hnd)
  obtain ⟨file', hw', hr'⟩ := C19_library_roundtrip (div := div) (trig := trig) (a := plain a) lib
    cells name hname hn h1 h2 ts hts hgood hu lib0 (by
      rw [h0, List.map_nil, List.nil_append]; exact hnd)
  have hff : file' = file := by rw [hw] at hw'; exact (Except.ok.inj hw').symm
  subst hff
  refine ⟨file', hw, by rw [hr'], by rw [hr', h0]; simp, ?_⟩
  rw [hr, hr', h0]
  simp only [List.map_nil, List.nil_append, relabelLib, List.map_map, hmapn]
  congr 2
  apply List.map_congr_left
  intro c hc
  have := resolved_relabel a hinj (cells.map Cell.name) hnS c (hS c hc).2
  simp only [List.map_map] at this
  exact this

end

end Gdspy
