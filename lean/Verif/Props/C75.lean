import Verif.Model.PolyPath
import Verif.Spec.Outline
import Verif.Props.C45
import Verif.Props.C47

/-!
# C75: PolyPath

First part: what the loop over the corners does to each of the parallel paths.
-/

set_option linter.unusedSectionVars false

namespace Gdspy

open Spec

variable {K : Type} [Field K] [LinearOrder K]

/-- The corners of one path: the polygons that are cut off, and the sides that are left. -/
def pathRun (bevel : Bool) (n mp ii : Nat) : List (PolyKink K) → TwoSides K → Py (List (Pgon K) × TwoSides K)
  | [], a => .ok ([], a)
  | k :: ks, a => do
    let r ← polyMayCut mp (polyStep bevel n ii k a)
    let r' ← pathRun bevel n mp ii ks r.2
    .ok (r.1.toList ++ r'.1, r'.2)

/-- A polygon with its layer and datatype. -/
abbrev TaggedPoly (K : Type) := Pgon K × Int × Int

/-- The polygons, layers and datatypes are those of a list. -/
structure Holds (T : List (TaggedPoly K)) (P : List (Pgon K)) (L D : List Int) : Prop where
  polygons : P = T.map (·.1)
  layers : L = T.map (·.2.1)
  datatypes : D = T.map (·.2.2)

theorem Holds.add {T U : List (TaggedPoly K)} {P P' : List (Pgon K)} {L D L' D' : List Int} (h : Holds T P L D) (h' : Holds U P' L' D') :
    Holds (T ++ U) (P ++ P') (L ++ L') (D ++ D') :=
  ⟨by rw [h.1, h'.1, List.map_append], by rw [h.2, h'.2, List.map_append], by rw [h.3, h'.3, List.map_append]⟩

/-- The layer or datatype of path `ii`. -/
def tagOf (l : List Int) (ii : Nat) : Int := l.getD (ii % l.length) 0

theorem idx_some {α : Type} {l : List α} {i : Nat} {a : α} (h : idx l i = .ok a) : l[i]? = some a := by
  unfold idx at h
  cases e : l[i]? with
  | none => rw [e] at h; cases h
  | some b => rw [e] at h; cases h; rfl

/-- One corner of one path. -/
theorem cornerOf_inv {bevel : Bool} {n mp : Nat} {layer datatype : List Int} {k : PolyKink K} {s s' : PolyState K} {ii : Nat}
    (h : polyCornerOf bevel n mp layer datatype k s ii = .ok s') :
    ∃ a r, s.paths[ii]? = some a ∧ polyMayCut mp (polyStep bevel n ii k a) = .ok r ∧ s'.paths = s.paths.set ii r.2 ∧
      ∀ T, Holds T s.polygons s.layers s.datatypes →
        Holds (T ++ r.1.toList.map fun g => (g, tagOf layer ii, tagOf datatype ii)) s'.polygons s'.layers s'.datatypes := by
  unfold polyCornerOf at h
  obtain ⟨a, ha, h⟩ := bind_ok_inv h
  obtain ⟨r, hr, h⟩ := bind_ok_inv h
  refine ⟨a, r, idx_some ha, hr, ?_⟩
  split at h
  · rename_i e
    cases h
    refine ⟨rfl, fun T hT => ?_⟩
    rw [e]
    simpa using hT
  · rename_i g e
    split at h
    · cases h
    · cases h
      refine ⟨rfl, fun T hT => ?_⟩
      rw [e]
      exact hT.add ⟨rfl, rfl, rfl⟩

/-- One corner of several paths. -/
theorem cornersOf_inv {bevel : Bool} {n mp : Nat} {layer datatype : List Int} {k : PolyKink K} : ∀ (l : List Nat) {s s' : PolyState K},
    l.Nodup → l.foldlM (polyCornerOf bevel n mp layer datatype k) s = .ok s' →
    ∃ cut : Nat → Option (Pgon K), (∀ ii ∈ l, ∃ a r, s.paths[ii]? = some a ∧ polyMayCut mp (polyStep bevel n ii k a) = .ok r ∧
        s'.paths[ii]? = some r.2 ∧ cut ii = r.1) ∧
      (∀ ii, ii ∉ l → s'.paths[ii]? = s.paths[ii]?) ∧ s'.paths.length = s.paths.length ∧
      ∀ T, Holds T s.polygons s.layers s.datatypes →
        Holds (T ++ l.flatMap fun ii => (cut ii).toList.map fun g => (g, tagOf layer ii, tagOf datatype ii)) s'.polygons s'.layers
          s'.datatypes
  | [], s, s', _, h => by
    cases h
    exact ⟨fun _ => none, by simp, by simp, rfl, fun T hT => by simpa using hT⟩
  | i :: l, s, s', hn, h => by
    rw [List.foldlM_cons] at h
    obtain ⟨s1, h1, h2⟩ := bind_ok_inv h
    obtain ⟨a, r, e1, e2, e3, e4⟩ := cornerOf_inv h1
    obtain ⟨cut, c1, c2, c3, c4⟩ := cornersOf_inv l (List.nodup_cons.1 hn).2 h2
    have hi : i ∉ l := (List.nodup_cons.1 hn).1
    have hlen : i < s.paths.length := by
      by_contra hx
      rw [List.getElem?_eq_none (by omega)] at e1
      cases e1
    refine ⟨fun ii => if ii = i then r.1 else cut ii, ?_, ?_, ?_, ?_⟩
    · intro ii hii
      by_cases hne : ii = i
      · subst hne
        refine ⟨a, r, e1, e2, ?_, by simp⟩
        rw [c2 _ hi, e3, List.getElem?_set_self hlen]
      · have hm : ii ∈ l := by
          rcases List.mem_cons.1 hii with h | h
          · exact absurd h hne
          · exact h
        obtain ⟨a', r', d1, d2, d3, d4⟩ := c1 ii hm
        refine ⟨a', r', ?_, d2, d3, by show (if ii = i then r.1 else cut ii) = r'.1; rw [if_neg hne, d4]⟩
        rw [← d1, e3, List.getElem?_set_ne (Ne.symm hne)]
    · intro ii hii
      have h1 : ii ≠ i := fun h => hii (by simp [h])
      have h2 : ii ∉ l := fun h => hii (by simp [h])
      rw [c2 ii h2, e3, List.getElem?_set_ne (Ne.symm h1)]
    · rw [c3, e3, List.length_set]
    · intro T hT
      have := c4 _ (e4 T hT)
      rw [List.append_assoc] at this
      have e : (i :: l).flatMap (fun ii => ((if ii = i then r.1 else cut ii).toList.map fun g => (g, tagOf layer ii, tagOf datatype ii))) =
          (r.1.toList.map fun g => (g, tagOf layer i, tagOf datatype i)) ++
            l.flatMap fun ii => (cut ii).toList.map fun g => (g, tagOf layer ii, tagOf datatype ii) := by
        rw [List.flatMap_cons, if_pos rfl]
        congr 1
        refine List.flatMap_congr fun ii hii => ?_
        have hne : ii ≠ i := fun h => hi (h ▸ hii)
        rw [if_neg hne]
      rw [e]
      exact this

/-- All corners: each path is run for itself, and the polygons are those of all paths, in some order. -/
theorem corners_inv {bevel : Bool} {n mp : Nat} {layer datatype : List Int} : ∀ (ks : List (PolyKink K)) {s s' : PolyState K},
    s.paths.length = n → polyCorners bevel n mp layer datatype s ks = .ok s' →
    ∃ gs : Nat → List (Pgon K), s'.paths.length = n ∧
      (∀ ii < n, ∃ a b, s.paths[ii]? = some a ∧ s'.paths[ii]? = some b ∧ pathRun bevel n mp ii ks a = .ok (gs ii, b)) ∧
      ∀ T, Holds T s.polygons s.layers s.datatypes → ∃ U, Holds (T ++ U) s'.polygons s'.layers s'.datatypes ∧
        U.Perm ((List.range n).flatMap fun ii => (gs ii).map fun g => (g, tagOf layer ii, tagOf datatype ii))
  | [], s, s', hlen, h => by
    cases h
    refine ⟨fun _ => [], hlen, fun ii hii => ?_, fun T hT => ⟨[], by simpa using hT, by simp⟩⟩
    obtain ⟨a, ha⟩ : ∃ a, s.paths[ii]? = some a := ⟨_, List.getElem?_eq_getElem (by omega)⟩
    exact ⟨a, a, ha, ha, rfl⟩
  | k :: ks, s, s', hlen, h => by
    unfold polyCorners at h
    rw [List.foldlM_cons] at h
    obtain ⟨s1, h1, h2⟩ := bind_ok_inv h
    obtain ⟨cut, c1, -, c3, c4⟩ := cornersOf_inv (List.range n) List.nodup_range h1
    obtain ⟨gs, g1, g2, g3⟩ := corners_inv ks (c3.trans hlen) h2
    refine ⟨fun ii => (cut ii).toList ++ gs ii, g1, fun ii hii => ?_, fun T hT => ?_⟩
    · obtain ⟨a, r, e1, e2, e3, e4⟩ := c1 ii (List.mem_range.2 hii)
      obtain ⟨a', b, f1, f2, f3⟩ := g2 ii hii
      rw [e3] at f1
      cases f1
      refine ⟨a, b, e1, f2, ?_⟩
      unfold pathRun
      rw [e2]
      simp only [bind, Except.bind]
      rw [f3]
      simp only [e4]
    · obtain ⟨U, u1, u2⟩ := g3 _ (c4 T hT)
      rw [List.append_assoc] at u1
      refine ⟨_, u1, ?_⟩
      simp only [List.map_append]
      exact (List.Perm.append_left _ u2).trans (List.flatMap_append_perm _ _ _)

end Gdspy
