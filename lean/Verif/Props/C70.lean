import Verif.Lemmas.RoundOutline
import Verif.Props.C61
import Verif.Props.C47
import Mathlib.Data.List.Destutter

/-!
# C70: the outline of a path follows its line at half its width

A `FlexPath` has a line of points, and for each parallel path an offset and a width at each point. The polygon of a path is
compared with the line, the offsets and the widths.
-/

set_option linter.unusedSectionVars false

namespace Gdspy

open Spec

section Assemble

variable {K : Type} [Field K] [LinearOrder K] [IsStrictOrderedRing K] [FloorRing K]

theorem rev_two {α : Type} (l : List α) (d : α) (h : 2 ≤ l.length) :
    ∃ r, l.reverse = l.getD (l.length - 1) d :: l.getD (l.length - 2) d :: r := by
  have h1 : 2 ≤ l.reverse.length := by simpa using h
  match hr : l.reverse, h1 with
  | a :: b :: r, _ =>
    refine ⟨r, ?_⟩
    have ha : l.reverse[0]? = some a := by rw [hr]; rfl
    have hb : l.reverse[1]? = some b := by rw [hr]; rfl
    rw [List.getElem?_reverse (by omega)] at ha hb
    have ha' : l[l.length - 1]? = some a := ha
    have hb' : l[l.length - 2]? = some b := hb
    simp only [List.getD_eq_getElem?_getD, ha', hb', Option.getD_some]

/-- The parts of the outline of a path. -/
theorem flexOutline_eq (ctx : FlexCtx K) (tol : K) (rad : Option K) (corner : FlexCorner K) (fin : FlexEnd K)
    (cs : List (Pt K)) (ws : List K) (h : ws.length = cs.length) (h2 : 2 ≤ cs.length) :
    flexOutline ctx tol rad corner fin cs ws = (do
      let rs ← (List.range (cs.length - 2)).mapM (cornersMap ctx tol rad corner (-1) cs ws)
      let ls ← (List.range (cs.length - 2)).mapM (cornersMap ctx tol rad corner 1 cs ws)
      let c0 ← flexCap ctx tol fin
        (beside ctx.num (cs.getD 0 (0, 0)) (cs.getD 1 (0, 0)) (-1 * (ws.getD 0 0 / 2)) (-1 * (ws.getD 1 0 / 2))).1
        (beside ctx.num (cs.getD 0 (0, 0)) (cs.getD 1 (0, 0)) (1 * (ws.getD 0 0 / 2)) (1 * (ws.getD 1 0 / 2))).1
        rs.flatten.head? ls.flatten.head? (cs.getD 0 (0, 0)) (psub (cs.getD 0 (0, 0)) (cs.getD 1 (0, 0))) (ws.getD 0 0) (-1)
        Prod.fst
      let c1 ← flexCap ctx tol fin
        (beside ctx.num (cs.getD (cs.length - 2) (0, 0)) (cs.getD (cs.length - 1) (0, 0))
          (-1 * (ws.getD (cs.length - 2) 0 / 2)) (-1 * (ws.getD (cs.length - 1) 0 / 2))).2
        (beside ctx.num (cs.getD (cs.length - 2) (0, 0)) (cs.getD (cs.length - 1) (0, 0))
          (1 * (ws.getD (cs.length - 2) 0 / 2)) (1 * (ws.getD (cs.length - 1) 0 / 2))).2
        rs.flatten.getLast? ls.flatten.getLast? (cs.getD (cs.length - 1) (0, 0))
        (psub (cs.getD (cs.length - 1) (0, 0)) (cs.getD (cs.length - 2) (0, 0))) (ws.getD (cs.length - 1) 0) 1 Prod.snd
      .ok (c0.reverse ++ rs.flatten ++ c1 ++ ls.flatten.reverse)) := by
  have hmapD (s : K) (i : Nat) (hi : i < cs.length) :
      (ws.map fun w => s * (w / 2)).getD i 0 = s * (ws.getD i 0 / 2) := by
    simp only [List.getD_eq_getElem?_getD, List.getElem?_map, List.getElem?_eq_getElem (h.symm ▸ hi), Option.map_some,
      Option.getD_some]
  have hhead (s : K) : (flexEdges ctx.num s (List.zip cs ws)).head? = some
      ⟨(beside ctx.num (cs.getD 0 (0, 0)) (cs.getD 1 (0, 0)) (s * (ws.getD 0 0 / 2)) (s * (ws.getD 1 0 / 2))).1,
       (beside ctx.num (cs.getD 0 (0, 0)) (cs.getD 1 (0, 0)) (s * (ws.getD 0 0 / 2)) (s * (ws.getD 1 0 / 2))).2,
       cs.getD 1 (0, 0), ws.getD 1 0 / 2⟩ := by
    rw [flexEdges_get ctx.num s cs ws h, List.head?_map, List.head?_range, if_neg (by omega)]
    simp only [Option.map_some, sideAt, Nat.zero_add]
    rw [hmapD s 0 (by omega), hmapD s 1 (by omega)]
  have hlast (s : K) : (flexEdges ctx.num s (List.zip cs ws)).getLast? = some
      ⟨(beside ctx.num (cs.getD (cs.length - 2) (0, 0)) (cs.getD (cs.length - 1) (0, 0))
          (s * (ws.getD (cs.length - 2) 0 / 2)) (s * (ws.getD (cs.length - 1) 0 / 2))).1,
       (beside ctx.num (cs.getD (cs.length - 2) (0, 0)) (cs.getD (cs.length - 1) (0, 0))
          (s * (ws.getD (cs.length - 2) 0 / 2)) (s * (ws.getD (cs.length - 1) 0 / 2))).2,
       cs.getD (cs.length - 1) (0, 0), ws.getD (cs.length - 1) 0 / 2⟩ := by
    rw [flexEdges_get ctx.num s cs ws h, List.getLast?_map, List.getLast?_range, if_neg (by omega)]
    have e : cs.length - 1 - 1 = cs.length - 2 := rfl
    have e2 : cs.length - 2 + 1 = cs.length - 1 := by omega
    simp only [Option.map_some, sideAt, e, e2]
    rw [hmapD s _ (by omega), hmapD s _ (by omega)]
  have hw0 : ws.headD 0 = ws.getD 0 0 := by cases ws <;> rfl
  have hw1 : ws.getLastD 0 = ws.getD (cs.length - 1) 0 := by
    rw [List.getLastD_eq_getLast?, List.getLast?_eq_getElem?, h, List.getD_eq_getElem?_getD]
  obtain ⟨rr, hrr⟩ := rev_two cs (0, 0) h2
  obtain ⟨s0, s1, rest, hcs⟩ : ∃ s0 s1 rest, cs = s0 :: s1 :: rest := by
    match cs, h2 with
    | a :: b :: r, _ => exact ⟨a, b, r, rfl⟩
  have hs0 : cs.getD 0 (0, 0) = s0 := by rw [hcs]; rfl
  have hs1 : cs.getD 1 (0, 0) = s1 := by rw [hcs]; rfl
  unfold flexOutline
  simp only [hhead, hlast, hrr, flexArm_get ctx tol rad corner _ cs ws h, hw0, hw1, hs0, hs1]
  generalize cs.getD (cs.length - 1) (0, 0) = z0 at *
  generalize cs.getD (cs.length - 2) (0, 0) = z1 at *
  generalize (List.range (cs.length - 2)).mapM (cornersMap ctx tol rad corner (-1) cs ws) = m0
  generalize (List.range (cs.length - 2)).mapM (cornersMap ctx tol rad corner 1 cs ws) = m1
  subst hcs
  simp only
  cases m0 with
  | error e => rfl
  | ok rs =>
    cases m1 with
    | error e => rfl
    | ok ls => rfl

/-- An outline is made of corners and ends: if these are as they should be, so is the outline. -/
theorem outline_of_parts (ctx : FlexCtx K) (tol : K) (rad : Option K) (corner : FlexCorner K) (fin : FlexEnd K)
    {cs : List (Pt K)} {ws : List K} (h : ws.length = cs.length) (h2 : 2 ≤ cs.length) {P : Pgon K}
    (hP : flexOutline ctx tol rad corner fin cs ws = .ok P)
    (hcorner : ∀ s : K, s = 1 ∨ s = -1 → ∀ i, i + 2 < cs.length → ∀ g, cornersMap ctx tol rad corner s cs ws i = .ok g →
      CornerOk ctx.num rad corner (sideAt ctx.num cs (ws.map fun w => s * (w / 2)) i)
        (sideAt ctx.num cs (ws.map fun w => s * (w / 2)) (i + 1)) (cs.getD (i + 1) (0, 0)) (ws.getD (i + 1) 0) g)
    (hbegin : ∀ (p q : Pt K) (w w1 : K) b0 b1 g, p = cs.getD 0 (0, 0) → q = cs.getD 1 (0, 0) → w = ws.getD 0 0 →
      flexCap ctx tol fin (beside ctx.num p q (-1 * (w / 2)) (-1 * (w1 / 2))).1
        (beside ctx.num p q (1 * (w / 2)) (1 * (w1 / 2))).1 b0 b1 p (psub p q) w (-1) Prod.fst = .ok g →
      EndOk fin p (beside ctx.num p q (-1 * (w / 2)) (-1 * (w1 / 2))).1 (beside ctx.num p q (1 * (w / 2)) (1 * (w1 / 2))).1
        (Side.ahead ctx.num (q, p) (0, 0) 1) w (extensions fin).1 g)
    (hend : ∀ (p q : Pt K) (w w1 : K) b0 b1 g, p = cs.getD (cs.length - 1) (0, 0) → q = cs.getD (cs.length - 2) (0, 0) →
      w = ws.getD (cs.length - 1) 0 →
      flexCap ctx tol fin (beside ctx.num q p (-1 * (w1 / 2)) (-1 * (w / 2))).2
        (beside ctx.num q p (1 * (w1 / 2)) (1 * (w / 2))).2 b0 b1 p (psub p q) w 1 Prod.snd = .ok g →
      EndOk fin p (beside ctx.num q p (-1 * (w1 / 2)) (-1 * (w / 2))).2 (beside ctx.num q p (1 * (w1 / 2)) (1 * (w / 2))).2
        (Side.ahead ctx.num (q, p) (0, 0) 1) w (extensions fin).2 g) :
    OutlineOk ctx.num rad corner fin cs ws P := by
  rw [flexOutline_eq ctx tol rad corner fin cs ws h h2] at hP
  have hmapD (s : K) (i : Nat) (hi : i < cs.length) :
      (ws.map fun w => s * (w / 2)).getD i 0 = s * (ws.getD i 0 / 2) := by
    simp only [List.getD_eq_getElem?_getD, List.getElem?_map, List.getElem?_eq_getElem (h.symm ▸ hi), Option.map_some,
      Option.getD_some]
  obtain ⟨rs, hrs, hP⟩ := bind_ok_inv hP
  obtain ⟨ls, hls, hP⟩ := bind_ok_inv hP
  obtain ⟨c0, hc0, hP⟩ := bind_ok_inv hP
  obtain ⟨c1, hc1, hP⟩ := bind_ok_inv hP
  cases hP
  have hr := mapM_range_ok _ _ hrs
  have hl := mapM_range_ok _ _ hls
  have e1 : cs.length - 1 - 1 = cs.length - 2 := rfl
  have e2 : cs.length - 2 + 1 = cs.length - 1 := by omega
  refine ⟨c0, c1, rs, ls, rfl, ⟨hr.1, fun i g hg => ?_⟩, ⟨hl.1, fun i g hg => ?_⟩, ?_, ?_⟩
  · obtain ⟨hi, hf⟩ := hr.2 i g hg
    exact hcorner (-1) (.inr rfl) i (by omega) g hf
  · obtain ⟨hi, hf⟩ := hl.2 i g hg
    exact hcorner 1 (.inl rfl) i (by omega) g hf
  · simp only [sideAt, hmapD _ 0 (by omega), hmapD _ 1 (by omega), Nat.zero_add]
    exact hbegin _ _ _ _ _ _ _ rfl rfl rfl hc0
  · simp only [sideAt, e1, e2, hmapD _ (cs.length - 2) (by omega), hmapD _ (cs.length - 1) (by omega)]
    exact hend _ _ _ _ _ _ _ rfl rfl rfl hc1

theorem mapM_range_exists {α : Type} (f : Nat → Py α) (n : Nat) (h : ∀ i, i < n → ∃ x, f i = .ok x) :
    ∃ l, (List.range n).mapM f = .ok l := by
  have gen : ∀ is : List Nat, (∀ i ∈ is, ∃ x, f i = .ok x) → ∃ l, is.mapM f = .ok l := by
    intro is
    induction is with
    | nil => exact fun _ => ⟨[], rfl⟩
    | cons i is ih =>
      intro h
      obtain ⟨x, hx⟩ := h i (by simp)
      obtain ⟨l, hl⟩ := ih fun j hj => h j (by simp [hj])
      exact ⟨x :: l, by rw [List.mapM_cons, hx, hl]; rfl⟩
  exact gen _ fun i hi => h i (List.mem_range.1 hi)

theorem getD_pos {ws : List K} (h : ∀ w ∈ ws, 0 < w) {i : Nat} (hi : i < ws.length) : 0 < ws.getD i 0 := by
  rw [List.getD_eq_getElem?_getD, List.getElem?_eq_getElem hi]
  exact h _ (List.getElem_mem hi)

/-- Corners with straight sides and ends with straight sides. -/
theorem C70_straight {ctx : FlexCtx K} (ht : Num.Polar ctx.num) (tol : K) (rad : Option K) {corner : FlexCorner K}
    {fin : FlexEnd K} {cs : List (Pt K)} {ws : List K} (h : ws.length = cs.length) (h2 : 2 ≤ cs.length)
    (hcs : cs.IsChain (· ≠ ·)) (hws : ∀ w ∈ ws, 0 < w)
    (hcorner : corner = .natural ∨ corner = .miter ∨ corner = .bevel)
    (hfin : fin = .flush ∨ fin = .extended ∨ ∃ a b, fin = .pair a b) :
    ∃ P, flexOutline ctx tol rad corner fin cs ws = .ok P ∧ OutlineOk ctx.num rad corner fin cs ws P := by
  have hc (s : K) (i : Nat) (hi : i + 2 < cs.length) : ∃ g, cornersMap ctx tol rad corner s cs ws i = .ok g ∧
      CornerOk ctx.num rad corner (sideAt ctx.num cs (ws.map fun w => s * (w / 2)) i)
        (sideAt ctx.num cs (ws.map fun w => s * (w / 2)) (i + 1)) (cs.getD (i + 1) (0, 0)) (ws.getD (i + 1) 0) g := by
    have ha := sideAt_ne ctx.num hcs (ws.map fun w => s * (w / 2)) (i := i) (by omega)
    have hb := sideAt_ne ctx.num hcs (ws.map fun w => s * (w / 2)) (i := i + 1) (by omega)
    rcases hcorner with rfl | rfl | rfl
    · exact natural_ok ctx ht tol rad ha hb _ (getD_pos hws (by omega))
    · exact miter_ok ctx tol rad ha hb _ _ _
    · exact bevel_ok ctx tol rad ha hb _ _ _
  obtain ⟨P, hP⟩ : ∃ P, flexOutline ctx tol rad corner fin cs ws = .ok P := by
    rw [flexOutline_eq ctx tol rad corner fin cs ws h h2]
    obtain ⟨rs, hrs⟩ := mapM_range_exists (cornersMap ctx tol rad corner (-1) cs ws) (cs.length - 2)
      fun i hi => (hc (-1) i (by omega)).imp fun _ h => h.1
    obtain ⟨ls, hls⟩ := mapM_range_exists (cornersMap ctx tol rad corner 1 cs ws) (cs.length - 2)
      fun i hi => (hc 1 i (by omega)).imp fun _ h => h.1
    obtain ⟨c0, hc0, -⟩ := straightCap_begin (ctx := ctx) tol (fin := fin) (p := cs.getD 0 (0, 0)) (q := cs.getD 1 (0, 0))
      (ws.getD 0 0) rs.flatten.head? ls.flatten.head? (ws.getD 1 0) hfin
    obtain ⟨c1, hc1, -⟩ := straightCap_end (ctx := ctx) tol (fin := fin) (p := cs.getD (cs.length - 1) (0, 0))
      (q := cs.getD (cs.length - 2) (0, 0)) (ws.getD (cs.length - 1) 0) rs.flatten.getLast? ls.flatten.getLast?
      (ws.getD (cs.length - 2) 0) hfin
    rw [hrs, hls]
    simp only [bind, Except.bind]
    rw [hc0, hc1]
    exact ⟨_, rfl⟩
  refine ⟨P, hP, outline_of_parts ctx tol rad corner fin h h2 hP (fun s hs i hi g hg => ?_)
    (fun p q w w1 b0 b1 g hp hq hw hg => ?_) (fun p q w w1 b0 b1 g hp hq hw hg => ?_)⟩
  · obtain ⟨g', hg', ho⟩ := hc s i hi
    rw [hg'] at hg
    cases hg
    exact ho
  · obtain ⟨g', hg', ho⟩ := straightCap_begin (ctx := ctx) tol (fin := fin) (p := p) (q := q) w b0 b1 w1 hfin
    rw [hg'] at hg
    cases hg
    exact ho
  · obtain ⟨g', hg', ho⟩ := straightCap_end (ctx := ctx) tol (fin := fin) (p := p) (q := q) w b0 b1 w1 hfin
    rw [hg'] at hg
    cases hg
    exact ho

section Rows

variable {α : Type}

theorem dedupFrom_first (x : Pt K × α) (l : List (Pt K × α)) :
    x :: dedupFrom x.1 l = l.destutter' (fun x y => x.1 ≠ y.1) x := by
  induction l generalizing x with
  | nil => rfl
  | cons y l ih =>
    rw [dedupFrom, List.destutter']
    by_cases h : y.1 = x.1
    · rw [if_pos h, if_neg (by simpa using h.symm), h]
      exact ih x
    · rw [if_neg h, if_pos fun e => h e.symm, ih y]

theorem dedupRows_first (l : List (Pt K × α)) : dedupRows l = l.destutter fun x y => x.1 ≠ y.1 := by
  cases l with
  | nil => rfl
  | cons x l => exact dedupFrom_first x l

end Rows

/-- The rows that are kept: of points that follow each other and are equal, the first. -/
theorem dedup_zip (f : Flex K) : List.zip f.dedup.points (List.zip f.dedup.widths f.dedup.offsets) =
    (List.zip f.points (List.zip f.widths f.offsets)).destutter fun x y => x.1 ≠ y.1 := by
  rw [← dedupRows_first]
  have hc := Flex.dedup_chain f
  unfold Flex.dedup at hc ⊢
  split
  · rename_i h
    rw [if_pos h] at hc
    rw [dedupRows_first]
    symm
    refine List.destutter_of_isChain _ _ ?_
    have h1 : ∀ (l : List (Pt K)) (m : List (List K × List K)), (List.zip l m).map Prod.fst <+: l := by
      intro l
      induction l with
      | nil => exact fun m => by simp
      | cons x l ih =>
        intro m
        cases m with
        | nil => simp
        | cons y m => exact List.cons_prefix_cons.2 ⟨rfl, ih m⟩
    have h2 := hc.prefix (h1 _ (List.zip f.widths f.offsets))
    rwa [List.isChain_map] at h2
  · simp only
    have hz (l : List (Pt K × List K × List K)) :
        List.zip (l.map Prod.fst) (List.zip (l.map fun x => x.2.1) (l.map fun x => x.2.2)) = l := by
      induction l with
      | nil => rfl
      | cons x l ih => simp only [List.map_cons, List.zip_cons_cons, ih]
    exact hz _

theorem lookup_addDict (d : PolyDict K) (key key' : Int × Int) (l : List (Pgon K)) :
    ((addDict d key l).lookup key').getD [] = (d.lookup key').getD [] ++ if key' = key then l else [] := by
  induction d with
  | nil =>
    simp only [addDict, List.lookup]
    split <;> rename_i h <;> simp_all
  | cons x d ih =>
    rw [addDict]
    split
    · rename_i h
      simp only [List.lookup]
      split
      · rename_i h1
        simp only [beq_iff_eq] at h1
        rw [if_pos (h1.trans h)]
        rfl
      · rename_i h1
        rw [if_neg, List.append_nil]
        rintro rfl
        simp [h] at h1
    · rename_i h
      simp only [List.lookup]
      split
      · rename_i h1
        simp only [beq_iff_eq] at h1
        rw [if_neg fun h2 => h (h1 ▸ h2)]
        simp
      · exact ih

/-- The polygons of the paths, one for each. -/
theorem forPolys_contents {ctx : FlexCtx K} {f : Flex K} (hm : f.maxPoints ≤ 4) {o : Nat → Py (Pgon K)} (is : List Nat)
    {d0 d : PolyDict K} (h : forOut (Flex.pathPolys ctx f o) d0 is = (d, none)) :
    ∃ Ps : List (Pgon K), List.Forall₂ (fun k P => o k = .ok P) is Ps ∧
      (∀ k ∈ is, (∃ l, f.layers[k]? = some l) ∧ ∃ l, f.datatypes[k]? = some l) ∧
      ∀ key : Int × Int, (d.lookup key).getD [] = (d0.lookup key).getD [] ++
        ((List.zip is Ps).filter fun x => f.layers[x.1]? = some key.1 ∧ f.datatypes[x.1]? = some key.2).map Prod.snd := by
  induction is generalizing d0 with
  | nil =>
    cases h
    exact ⟨[], .nil, by simp, by simp⟩
  | cons k is ih =>
    unfold forOut at h
    generalize hx : Flex.pathPolys ctx f o d0 k = x at h
    obtain ⟨d1, e⟩ := x
    cases e with
    | some e => cases h
    | none =>
      obtain ⟨Ps, h1, h2, h3⟩ := ih h
      unfold Flex.pathPolys at hx
      split at hx
      · cases hx
      · rename_i y hy
        cases hx
        obtain ⟨P, hP, hy⟩ := bind_ok_inv hy
        obtain ⟨polys, hp, hy⟩ := bind_ok_inv hy
        rw [flexPieces_small ctx _ hm] at hp
        cases hp
        obtain ⟨l, hl, hy⟩ := bind_ok_inv hy
        obtain ⟨dt, hd, hy⟩ := bind_ok_inv hy
        cases hy
        have hl' : f.layers[k]? = some l := by
          unfold idx at hl
          split at hl <;> simp_all
        have hd' : f.datatypes[k]? = some dt := by
          unfold idx at hd
          split at hd <;> simp_all
        refine ⟨P :: Ps, .cons hP h1, ?_, fun key => ?_⟩
        · intro j hj
          rcases List.mem_cons.1 hj with rfl | hj
          · exact ⟨⟨l, hl'⟩, dt, hd'⟩
          · exact h2 j hj
        · rw [h3 key, lookup_addDict, List.zip_cons_cons, List.filter_cons, List.append_assoc]
          congr 1
          simp only [hl', hd', Option.some.injEq]
          by_cases hk : key = (l, dt)
          · subst hk
            simp
          · rw [if_neg hk, if_neg, List.nil_append]
            simp only [decide_eq_true_eq]
            rintro ⟨rfl, rfl⟩
            exact hk rfl

end Assemble

section Round

/-- All kinds of corners and ends. Missing: round corners and circular bends of paths whose width changes
(`C70_round_hourglass`), and that the functions for smooth corners and ends and the given functions return what they
should. -/
theorem C70_outline_partial {ctx : FlexCtx ℝ} (hc : ctx.num = realNum) {tol : ℝ} {rad : Option ℝ} {corner : FlexCorner ℝ}
    {fin : FlexEnd ℝ} {cs : List (Pt ℝ)} {ws : List ℝ} (h : ws.length = cs.length) (h2 : 2 ≤ cs.length)
    (hcs : cs.IsChain (· ≠ ·)) (hws : ∀ w ∈ ws, 0 < w)
    (hcorner : corner = .round ∨ corner = .bend → ∀ v ∈ ws, ∀ w ∈ ws, v = w) {P : Pgon ℝ}
    (hP : flexOutline ctx tol rad corner fin cs ws = .ok P) : OutlineOk realNum rad corner fin cs ws P := by
  have ht : Num.Polar ctx.num := hc ▸ realNum_polar
  rw [← hc]
  have hmapD (s : ℝ) (i : Nat) (hi : i < cs.length) :
      (ws.map fun w => s * (w / 2)).getD i 0 = s * (ws.getD i 0 / 2) := by
    simp only [List.getD_eq_getElem?_getD, List.getElem?_map, List.getElem?_eq_getElem (h.symm ▸ hi), Option.map_some,
      Option.getD_some]
  have hmem (i : Nat) (hi : i < cs.length) : ws.getD i 0 ∈ ws := by
    rw [List.getD_eq_getElem?_getD, List.getElem?_eq_getElem (h.symm ▸ hi)]
    exact List.getElem_mem _
  refine outline_of_parts ctx tol rad corner fin h h2 hP (fun s hs i hi g hg => ?_)
    (fun p q w w1 b0 b1 g hp hq hw hg => ?_) (fun p q w w1 b0 b1 g hp hq hw hg => ?_)
  · have ha := sideAt_ne ctx.num hcs (ws.map fun w => s * (w / 2)) (i := i) (by omega)
    have hb := sideAt_ne ctx.num hcs (ws.map fun w => s * (w / 2)) (i := i + 1) (by omega)
    have heq (he : corner = .round ∨ corner = .bend) : ∀ j, j < cs.length → ws.getD j 0 = ws.getD (i + 1) 0 := fun j hj =>
      hcorner he _ (hmem j hj) _ (hmem (i + 1) (by omega))
    unfold cornersMap at hg
    cases corner with
    | natural =>
      obtain ⟨g', hg', ho⟩ := natural_ok ctx ht tol rad ha hb (cs.getD (i + 1) (0, 0))
        (getD_pos hws (i := i + 1) (by omega))
      rw [hg'] at hg
      cases hg
      exact ho
    | miter =>
      obtain ⟨g', hg', ho⟩ := miter_ok ctx tol rad ha hb (cs.getD (i + 1) (0, 0)) (ws.getD (i + 1) 0 / 2)
        (ws.getD (i + 1) 0)
      rw [hg'] at hg
      cases hg
      exact ho
    | bevel =>
      obtain ⟨g', hg', ho⟩ := bevel_ok ctx tol rad ha hb (cs.getD (i + 1) (0, 0)) (ws.getD (i + 1) 0 / 2)
        (ws.getD (i + 1) 0)
      rw [hg'] at hg
      cases hg
      exact ho
    | round =>
      simp only [sideAt, hmapD s i (by omega), hmapD s (i + 1) (by omega), hmapD s (i + 1 + 1) (by omega),
        heq (.inl rfl) i (by omega), heq (.inl rfl) (i + 1 + 1) (by omega)] at hg ⊢
      rw [hc] at hg ⊢
      exact round_ok ctx hc tol rad (chain_getD hcs (by omega)) (chain_getD hcs (by omega))
        (getD_pos hws (by omega)) hs hg
    | bend =>
      simp only [sideAt, hmapD s i (by omega), hmapD s (i + 1) (by omega), hmapD s (i + 1 + 1) (by omega),
        heq (.inr rfl) i (by omega), heq (.inr rfl) (i + 1 + 1) (by omega)] at hg ⊢
      rw [hc] at hg ⊢
      exact bend_ok ctx hc tol rad (chain_getD hcs (by omega)) (chain_getD hcs (by omega))
        (getD_pos hws (by omega)) hs hg
    | smooth => trivial
    | fn f => trivial
  · have hne : p ≠ q := by
      rw [hp, hq]
      exact chain_getD hcs (by omega)
    have hw0 : 0 < w := by
      rw [hw]
      exact getD_pos hws (by omega)
    cases fin with
    | round => exact roundCap_begin hc tol hne hw0 b0 b1 w1 hg _
    | smooth => trivial
    | fn f => trivial
    | flush =>
      obtain ⟨g', hg', ho⟩ := straightCap_begin (ctx := ctx) tol (fin := .flush) (p := p) (q := q) w b0 b1 w1 (.inl rfl)
      rw [hg'] at hg
      cases hg
      exact ho
    | extended =>
      obtain ⟨g', hg', ho⟩ := straightCap_begin (ctx := ctx) tol (fin := .extended) (p := p) (q := q) w b0 b1 w1 (.inr (.inl rfl))
      rw [hg'] at hg
      cases hg
      exact ho
    | pair a b =>
      obtain ⟨g', hg', ho⟩ := straightCap_begin (ctx := ctx) tol (fin := .pair a b) (p := p) (q := q) w b0 b1 w1 (.inr (.inr ⟨a, b, rfl⟩))
      rw [hg'] at hg
      cases hg
      exact ho
  · have hne : p ≠ q := by
      rw [hp, hq]
      have := chain_getD hcs (i := cs.length - 2) (by omega)
      rw [show cs.length - 2 + 1 = cs.length - 1 by omega] at this
      exact this.symm
    have hw0 : 0 < w := by
      rw [hw]
      exact getD_pos hws (by omega)
    cases fin with
    | round => exact roundCap_end hc tol hne hw0 b0 b1 w1 hg _
    | smooth => trivial
    | fn f => trivial
    | flush =>
      obtain ⟨g', hg', ho⟩ := straightCap_end (ctx := ctx) tol (fin := .flush) (p := p) (q := q) w b0 b1 w1 (.inl rfl)
      rw [hg'] at hg
      cases hg
      exact ho
    | extended =>
      obtain ⟨g', hg', ho⟩ := straightCap_end (ctx := ctx) tol (fin := .extended) (p := p) (q := q) w b0 b1 w1 (.inr (.inl rfl))
      rw [hg'] at hg
      cases hg
      exact ho
    | pair a b =>
      obtain ⟨g', hg', ho⟩ := straightCap_end (ctx := ctx) tol (fin := .pair a b) (p := p) (q := q) w b0 b1 w1 (.inr (.inr ⟨a, b, rfl⟩))
      rw [hg'] at hg
      cases hg
      exact ho

/-- The polygons of a path with any number of points but two. `g` is the path after the call. Missing: as above, and what
happens to polygons that are cut. -/
theorem C70_polygons_partial {ctx : FlexCtx ℝ} (hc : ctx.num = realNum) {f g : Flex ℝ} {d : PolyDict ℝ}
    (hget : f.getPolygons ctx = (g, .ok d)) (hn : f.cache = none) (hm : f.maxPoints ≤ 4) (h2 : f.points.length ≠ 2)
    (hpos : ∀ r ∈ f.widths, ∀ w ∈ r, 0 < w)
    (hround : ∀ (k : Nat), f.corners[k]? = some .round ∨ f.corners[k]? = some .bend →
      ∀ r ∈ f.widths, ∀ r' ∈ f.widths, r[k]? = r'[k]?) :
    -- of points that follow each other and are equal, the first is taken
    List.zip g.points (List.zip g.widths g.offsets) =
      (List.zip f.points (List.zip f.widths f.offsets)).destutter (fun x y => x.1 ≠ y.1) ∧
    ∃ Ps : List (Pgon ℝ), Ps.length = f.n ∧
      -- the polygons of a layer and datatype are those of the paths with this layer and datatype
      (∀ key : Int × Int, (d.lookup key).getD [] =
        ((List.zip (List.range f.n) Ps).filter fun x =>
          f.layers[x.1]? = some key.1 ∧ f.datatypes[x.1]? = some key.2).map Prod.snd) ∧
      -- each is the outline of its path
      ∀ (k : Nat) (P : Pgon ℝ), Ps[k]? = some P → ∃ corner fin rad offs ws cs,
        f.corners[k]? = some corner ∧ f.ends[k]? = some fin ∧ f.bendRadius[k]? = some rad ∧
        g.offsets.map (fun r => r[k]?) = offs.map some ∧ g.widths.map (fun r => r[k]?) = ws.map some ∧
        offs.length = g.points.length ∧ ws.length = g.points.length ∧
        CentreLine realNum g.points offs cs ∧
        (cs.IsChain (· ≠ ·) → OutlineOk realNum rad corner fin cs ws P) := by
  unfold Flex.getPolygons at hget
  rw [hn] at hget
  simp only at hget
  generalize hx : f.compute ctx = x at hget
  obtain ⟨g', d', e⟩ := x
  cases e with
  | some e => cases hget
  | none =>
    cases hget
    unfold Flex.compute at hx
    rw [if_neg h2] at hx
    simp only [Prod.mk.injEq] at hx
    obtain ⟨rfl, hx⟩ := hx
    have hdn : f.dedup.n = f.n := by unfold Flex.dedup; split <;> rfl
    have hdm : f.dedup.maxPoints = f.maxPoints := by unfold Flex.dedup; split <;> rfl
    have hdl : f.dedup.layers = f.layers := by unfold Flex.dedup; split <;> rfl
    have hdd : f.dedup.datatypes = f.datatypes := by unfold Flex.dedup; split <;> rfl
    have hdc : f.dedup.corners = f.corners := by unfold Flex.dedup; split <;> rfl
    have hde : f.dedup.ends = f.ends := by unfold Flex.dedup; split <;> rfl
    have hdr : f.dedup.bendRadius = f.bendRadius := by unfold Flex.dedup; split <;> rfl
    have hdw : ∀ r ∈ f.dedup.widths, r ∈ f.widths := by
      unfold Flex.dedup
      split
      · exact fun r hr => hr
      · intro r hr
        simp only [List.mem_map] at hr
        obtain ⟨y, hy, rfl⟩ := hr
        have h3 := (List.of_mem_zip ((dedupRows_sublist _).subset hy)).2
        exact (List.of_mem_zip h3).1
    refine ⟨dedup_zip f, ?_⟩
    obtain ⟨Ps, h4, h5, h6⟩ := forPolys_contents (hdm ▸ hm) _ hx
    have hlen : Ps.length = f.n := by
      rw [← h4.length_eq, List.length_range, hdn]
    refine ⟨Ps, hlen, fun key => ?_, fun k P hk => ?_⟩
    · have := h6 key
      rw [hdl, hdd, hdn] at this
      exact this
    · have hkn : k < f.dedup.n := by
        rw [hdn, ← hlen]
        exact (List.getElem?_eq_some_iff.1 hk).1
      have hP : f.dedup.manyOf ctx k = .ok P := by
        have h7 := (List.forall₂_iff_get.1 h4).2 k (by simpa using hkn) (by rw [hlen, ← hdn]; exact hkn)
        simp only [List.get_eq_getElem, List.getElem_range] at h7
        rw [h7, (List.getElem?_eq_some_iff.1 hk).2]
      have hidx : ∀ {α : Type} {l : List α} {i : Nat} {a : α}, idx l i = .ok a → l[i]? = some a := by
        intro α l i a h
        unfold idx at h
        split at h <;> simp_all
      have hcol : ∀ {rows : List (List ℝ)} {l : List ℝ}, column rows k = .ok l →
          rows.map (fun r => r[k]?) = l.map some := by
        intro rows
        unfold column
        induction rows with
        | nil => intro l h; cases h; rfl
        | cons r rows ih =>
          intro l h
          rw [List.mapM_cons] at h
          obtain ⟨a, ha, h⟩ := bind_ok_inv h
          obtain ⟨l', hl', h⟩ := bind_ok_inv h
          cases h
          rw [List.map_cons, List.map_cons, hidx ha, ih hl']
      unfold Flex.manyOf at hP
      obtain ⟨corner, hcorner, hP⟩ := bind_ok_inv hP
      obtain ⟨fin, hfin, hP⟩ := bind_ok_inv hP
      obtain ⟨rad, hrad, hP⟩ := bind_ok_inv hP
      obtain ⟨offs, hoffs, hP⟩ := bind_ok_inv hP
      obtain ⟨ws, hws, hP⟩ := bind_ok_inv hP
      have hco := hcol hoffs
      have hcw := hcol hws
      have hlo := congrArg List.length hco
      have hlw := congrArg List.length hcw
      simp only [List.length_map] at hlo hlw
      rw [hdc] at hcorner
      rw [hde] at hfin
      rw [hdr] at hrad
      split at hP
      · cases hP
      · rename_i hp2
        split at hP
        · cases hP
        · rename_i hp3
          obtain ⟨hp3, hp4⟩ := not_or.1 hp3
          rw [not_not] at hp3 hp4
          obtain ⟨cs, hcs, hline⟩ := offsetSpine_ok ctx.num (Flex.dedup_chain f) (offs := offs) (by omega) (by omega)
          rw [hcs] at hP
          rw [hc] at hline
          refine ⟨corner, fin, rad, offs, ws, cs, hidx hcorner, hidx hfin, hidx hrad, hco, hcw, hlo.symm.trans hp4, hlw.symm.trans hp3, hline,
            fun hch => C70_outline_partial hc (by rw [hline.length]; omega) (by rw [hline.length]; omega) hch ?_ ?_ hP⟩
          · intro w hw
            obtain ⟨r, hr, hwr⟩ := column_mem hws hw
            exact hpos r (hdw r hr) w hwr
          · intro hcr v hv w hw
            have hcr' : f.corners[k]? = some .round ∨ f.corners[k]? = some .bend := by
              rw [hidx hcorner]
              rcases hcr with rfl | rfl
              · exact .inl rfl
              · exact .inr rfl
            have hmem : ∀ v ∈ ws, ∃ r ∈ f.widths, r[k]? = some v := by
              intro v hv
              have : some v ∈ ws.map some := List.mem_map_of_mem hv
              rw [← hcw] at this
              obtain ⟨r, hr, h8⟩ := List.mem_map.1 this
              exact ⟨r, hdw r hr, h8⟩
            obtain ⟨r, hr, h8⟩ := hmem v hv
            obtain ⟨r', hr', h9⟩ := hmem w hw
            have := hround k hcr' r hr r' hr'
            rw [h8, h9] at this
            exact Option.some.inj this

end Round

end Gdspy
