import Verif.Lemmas.Write

/-!
The records emitted by each writer.
-/

namespace Gdspy

open Spec

/-- The writer succeeds and its output is a sequence of well-formed records that denote `rs`. -/
def Emits (w : Py Bytes) (rs : List Record) : Prop :=
  ∃ recs : List Rec, w = .ok (recsBytes recs) ∧ recsRecords recs = rs

theorem Emits.nil : Emits (.ok []) [] := ⟨[], rfl, rfl⟩

/-- Sequencing two writers. -/
theorem Emits.seq {w : Py Bytes} {rs : List Record} (h : Emits w rs) {f : Bytes → Py Bytes}
    {g : Py Bytes} {rs' : List Record} (hg : Emits g rs')
    (hf : ∀ b, f b = (do let y ← g; pure (b ++ y))) : Emits (w >>= f) (rs ++ rs') := by
  obtain ⟨r1, rfl, rfl⟩ := h
  obtain ⟨r2, rfl, rfl⟩ := hg
  refine ⟨r1 ++ r2, ?_, recsRecords_append _ _⟩
  rw [py_bind_ok, hf, py_bind_ok, py_pure, recsBytes_append]

theorem Emits.writeAll {α : Type _} {f : α → Py Bytes} {g : α → List Record} :
    ∀ {l : List α}, (∀ x ∈ l, Emits (f x) (g x)) → Emits (writeAll f l) (l.flatMap g) := by
  intro l
  induction l with
  | nil => intro _; exact Emits.nil
  | cons x l ih =>
    intro h
    obtain ⟨r1, e1, q1⟩ := h x List.mem_cons_self
    obtain ⟨r2, e2, q2⟩ := ih (fun y hy => h y (List.mem_cons_of_mem _ hy))
    refine ⟨r1 ++ r2, ?_, ?_⟩
    · unfold Gdspy.writeAll
      rw [e1, py_bind_ok, e2, py_bind_ok, py_pure, recsBytes_append]
    · rw [recsRecords_append, q1, q2, List.flatMap_cons]

/-- Range conditions of `pack`. -/
macro "flds_ok" : tactic => `(tactic|
  (simp only [fldsOk, Fld.Ok, and_true]; omega))

/-! ### properties -/

def propRecords (l : Properties) : List Record :=
  l.flatMap fun p => match p.2 with
    | some s => [⟨0x2B, .i16 [p.1]⟩, ⟨0x2C, .str s⟩]
    | none => []

theorem writeProps_emits : ∀ (l : Properties),
    (∀ p ∈ l, (0 ≤ p.1 ∧ p.1 < 32768) ∧ ∃ s, p.2 = some s ∧ GoodText s) →
    Emits (writeProps l) (propRecords l) := by
  intro l
  induction l with
  | nil => intro _; exact Emits.nil
  | cons p l ih =>
    intro h
    obtain ⟨attr, v⟩ := p
    obtain ⟨ha, s, hs, hgood⟩ := h (attr, v) List.mem_cons_self
    simp only at ha hs
    subst hs
    obtain ⟨r2, e2, q2⟩ := ih (fun q hq => h q (List.mem_cons_of_mem _ hq))
    have hlen := padEven_length_le s
    have hlen2 := hgood.2.2.1
    refine ⟨[recShort 0x2B attr (by norm_num) (by omega), recText 0x2C s (by norm_num) hgood] ++ r2,
      ?_, ?_⟩
    · simp only [writeProps]
      rw [pack_ok _ (by flds_ok), py_bind_ok,
        encodeAscii_ok (padEven_ascii hgood.2.1), py_bind_ok, e2, py_bind_ok, py_pure]
      refine congrArg Except.ok ?_
      have e1 : (attr % 65536).toNat = attr.toNat := by omega
      have e3 : (4 + ((padEven s).length : Int)).toNat = 4 + (padEven s).length := by omega
      simp [fldsBytes, Fld.bytes, recsBytes_cons, recShort, recText,
        mkFrame_bytes, twosComplement_two, e1, e3]
    · rw [recsRecords_append, q2]
      rfl

/-! ### STRANS -/

def optReal (t : Nat) : Option ℚ → List Record
  | some v => [⟨t, .real [v]⟩]
  | none => []

def stransRecords (rot mag : Option ℚ) (xr : Bool) : List Record :=
  if rot.isSome || mag.isSome || xr then
    [⟨0x1A, .u16 [if xr then 0x8000 else 0]⟩] ++ (optReal 0x1B mag ++ optReal 0x1C rot)
  else []

theorem writeOptReal_emits (t : Nat) (ht : t < 256) (x : Option ℚ) (h : GoodReal x) :
    Emits (writeOptReal (t * 256 + 5 : Nat) x) (optReal t x) := by
  cases x with
  | none => exact Emits.nil
  | some v =>
    obtain ⟨b, e1, e2, e3⟩ := real_bytes (h v rfl)
    refine ⟨[recReal t b ht e2], ?_, ?_⟩
    · simp only [writeOptReal]
      rw [pack_ok _ (by flds_ok), py_bind_ok, e1, py_bind_ok, py_pure]
      refine congrArg Except.ok ?_
      simp [fldsBytes, Fld.bytes, recsBytes_cons, recsBytes_nil, recReal, mkFrame_bytes, e2, ht]
      congr 1
    · simp [recsRecords, recReal, e3, optReal]

theorem writeStrans_emits (rot mag : Option ℚ) (xr : Bool) (h1 : GoodReal rot) (h2 : GoodReal mag) :
    Emits (writeStrans rot mag xr) (stransRecords rot mag xr) := by
  unfold writeStrans stransRecords
  split
  · have hw : (if xr = true then (0x8000 : Nat) else 0) < 65536 := by split <;> norm_num
    have hwi : (if xr = true then (0x8000 : Int) else 0).toNat
        = (if xr = true then (0x8000 : Nat) else 0) := by split <;> rfl
    have hwok : 0 ≤ (if xr = true then (0x8000 : Int) else 0) ∧
        (if xr = true then (0x8000 : Int) else 0) < 65536 := by split <;> norm_num
    obtain ⟨r1, e1, q1⟩ := writeOptReal_emits 0x1B (by norm_num) mag h2
    obtain ⟨r2, e2, q2⟩ := writeOptReal_emits 0x1C (by norm_num) rot h1
    norm_num at e1 e2
    refine ⟨[recWord 0x1A _ (by norm_num) hw] ++ (r1 ++ r2), ?_, ?_⟩
    · rw [e1, py_bind_ok, e2, py_bind_ok, pack_ok _ (by flds_ok), py_bind_ok, py_pure]
      refine congrArg Except.ok ?_
      simp [fldsBytes, Fld.bytes, recsBytes_cons, recsBytes_append, recWord, mkFrame_bytes,
        bigEndian_two, hwi]
    · rw [recsRecords_append, recsRecords_append, q1, q2]
      simp [recsRecords, recWord]
  · exact Emits.nil

/-! ### XY chunks -/

theorem writeChunks_emits (k : Nat) (hk : 0 < k) (hk2 : k ≤ 8191) : ∀ (N : Nat) (xy : List Int),
    xy.length ≤ N → (∀ n ∈ xy, -2147483648 ≤ n ∧ n < 2147483648) →
    ∃ chunks : List (List Int), chunks.flatten = xy ∧
      Emits (writeChunks k xy) (chunks.map fun c => ⟨0x10, .i32 c⟩) := by
  intro N
  induction N with
  | zero =>
    intro xy h _
    obtain rfl : xy = [] := List.eq_nil_of_length_eq_zero (by omega)
    refine ⟨[], rfl, ?_⟩
    rw [writeChunks]
    simp only [true_or, dite_true]
    exact Emits.nil
  | succ N ih =>
    intro xy h hr
    by_cases h0 : xy = []
    · subst h0
      refine ⟨[], rfl, ?_⟩
      rw [writeChunks]
      simp only [true_or, dite_true]
      exact Emits.nil
    · have hlen : 0 < xy.length := List.length_pos_of_ne_nil h0
      obtain ⟨chunks, hc, r2, e2, q2⟩ := ih (xy.drop (2 * k)) (by rw [List.length_drop]; omega)
        (fun n hn => hr n (List.mem_of_mem_drop hn))
      have htl : (xy.take (2 * k)).length ≤ 2 * k := by rw [List.length_take]; omega
      have ht0 : xy.take (2 * k) ≠ [] := by
        intro hcon
        have := congrArg List.length hcon
        rw [List.length_take, List.length_nil] at this
        omega
      refine ⟨xy.take (2 * k) :: chunks, ?_, [recLongs 0x10 (xy.take (2 * k)) (by norm_num) ht0
        (by omega) (fun n hn => hr n (List.mem_of_mem_take hn))] ++ r2, ?_, ?_⟩
      · rw [List.flatten_cons, hc, List.take_append_drop]
      · rw [writeChunks]
        rw [dif_neg (by rintro (h | h); exact h0 h; omega)]
        simp only
        rw [pack_ok _ (by flds_ok), py_bind_ok, e2, py_bind_ok, py_pure]
        refine congrArg Except.ok ?_
        have e3 : (4 + 4 * ((xy.take (2 * k)).length : Int)).toNat
            = 4 + 4 * (xy.take (2 * k)).length := by omega
        simp [-List.length_take, fldsBytes, Fld.bytes, recsBytes_cons, recLongs,
          mkFrame_bytes, i4Bytes_length, e3]
      · rw [recsRecords_append, q2]
        rfl

/-! ### grid points -/

/-- The grid indices of a list of points. -/
def GridPts (m d : ℚ) (pts : List (ℚ × ℚ)) (g : List Int) : Prop :=
  gridPoints m pts = g ∧ g.length = 2 * pts.length ∧
    (∀ n ∈ g, -2147483648 ≤ n ∧ n < 2147483648) ∧
    pairs (g.map fun n : Int => d * (n : ℚ)) = pts

theorem gridPts_exists {m d : ℚ} : ∀ {pts : List (ℚ × ℚ)}, (∀ p ∈ pts, OnGrid2 m d p) →
    ∃ g, GridPts m d pts g := by
  intro pts
  induction pts with
  | nil => intro _; exact ⟨[], rfl, rfl, by simp, rfl⟩
  | cons p pts ih =>
    intro h
    obtain ⟨g, h1, h2, h3, h4⟩ := ih (fun q hq => h q (List.mem_cons_of_mem _ hq))
    obtain ⟨⟨n1, q1⟩, ⟨n2, q2⟩⟩ := h p List.mem_cons_self
    refine ⟨n1 :: n2 :: g, ?_, ?_, ?_, ?_⟩
    · unfold gridPoints at h1 ⊢
      rw [List.flatMap_cons, h1, pyRound_grid q1, pyRound_grid q2]
      rfl
    · simp only [List.length_cons, h2]; omega
    · intro n hn
      simp only [List.mem_cons] at hn
      rcases hn with rfl | rfl | hn
      · exact q1.2.2
      · exact q2.2.2
      · exact h3 n hn
    · show (d * (n1 : ℚ), d * (n2 : ℚ)) :: pairs (g.map fun n : Int => d * (n : ℚ)) = p :: pts
      rw [h4]
      obtain ⟨x, y⟩ := p
      have e1 : x = d * n1 := q1.1
      have e2 : y = d * n2 := q2.1
      rw [e1, e2]

end Gdspy
