import Verif.Lemmas.EmitEl
import Verif.Props.C02

/-!
Whatever a writer manages to write without raising is a sequence of well-formed records.
-/

namespace Gdspy

open Spec

theorem pack_inv : ∀ {fs : List Fld} {b : Bytes}, pack fs = .ok b → fldsOk fs ∧ b = fldsBytes fs := by
  intro fs
  induction fs with
  | nil => intro b h; exact ⟨trivial, (Except.ok.inj h).symm⟩
  | cons f fs ih =>
    intro b h
    cases f with
    | H n =>
      simp only [pack] at h
      obtain ⟨x, h1, h⟩ := py_bind_eq_ok h
      obtain ⟨y, h2, h⟩ := py_bind_eq_ok h
      obtain ⟨q1, rfl⟩ := packH_eq_ok h1
      obtain ⟨q2, rfl⟩ := ih h2
      exact ⟨⟨q1, q2⟩, (Except.ok.inj h).symm⟩
    | h n =>
      simp only [pack] at h
      obtain ⟨x, h1, h⟩ := py_bind_eq_ok h
      obtain ⟨y, h2, h⟩ := py_bind_eq_ok h
      obtain ⟨q1, rfl⟩ := packh_eq_ok h1
      obtain ⟨q2, rfl⟩ := ih h2
      exact ⟨⟨q1, q2⟩, (Except.ok.inj h).symm⟩
    | l n =>
      simp only [pack] at h
      obtain ⟨x, h1, h⟩ := py_bind_eq_ok h
      obtain ⟨y, h2, h⟩ := py_bind_eq_ok h
      obtain ⟨q1, rfl⟩ := packl_eq_ok h1
      obtain ⟨q2, rfl⟩ := ih h2
      exact ⟨⟨q1, q2⟩, (Except.ok.inj h).symm⟩

theorem encodeAscii_inv {s : Str} {b : Bytes} (h : encodeAscii s = .ok b) :
    (∀ c ∈ s, c.toNat < 128) ∧ b = s.map fun c => UInt8.ofNat c.toNat := by
  unfold encodeAscii at h
  split at h
  · rename_i hc
    refine ⟨?_, (Except.ok.inj h).symm⟩
    intro c hm
    simpa using List.all_eq_true.1 hc c hm
  · cases h

theorem packTs_inv {t : Timestamp} {b : Bytes} (h : packTs t = .ok b) :
    Spec.Timestamp.Fits t ∧ b = stampBytes t := by
  unfold packTs at h
  obtain ⟨x1, h1, h'⟩ := py_bind_eq_ok h
  obtain ⟨x2, h2, h'⟩ := py_bind_eq_ok h'
  obtain ⟨x3, h3, h'⟩ := py_bind_eq_ok h'
  obtain ⟨x4, h4, h'⟩ := py_bind_eq_ok h'
  obtain ⟨x5, h5, h'⟩ := py_bind_eq_ok h'
  obtain ⟨x6, h6, h'⟩ := py_bind_eq_ok h'
  have hf : Spec.Timestamp.Fits t := by
    intro x hx
    simp only [List.mem_cons, List.not_mem_nil, or_false] at hx
    rcases hx with rfl | rfl | rfl | rfl | rfl | rfl
    · exact (packh_eq_ok h1).1
    · exact (packh_eq_ok h2).1
    · exact (packh_eq_ok h3).1
    · exact (packh_eq_ok h4).1
    · exact (packh_eq_ok h5).1
    · exact (packh_eq_ok h6).1
  refine ⟨hf, ?_⟩
  have := packTs_ok hf
  unfold packTs at this
  rw [this] at h
  exact (Except.ok.inj h).symm

/-- The bytes are well-formed records of elements (types 8 and above). -/
def Framed (b : Bytes) : Prop :=
  ∃ fs : List Frame, b = streamBytes fs ∧ ∀ f ∈ fs, f.Fits ∧ 8 ≤ f.type

theorem Framed.nil : Framed [] := ⟨[], rfl, by simp⟩

theorem Framed.append {a b : Bytes} (h1 : Framed a) (h2 : Framed b) : Framed (a ++ b) := by
  obtain ⟨f, rfl, q1⟩ := h1
  obtain ⟨g, rfl, q2⟩ := h2
  refine ⟨f ++ g, (streamBytes_append f g).symm, ?_⟩
  intro x hx
  rcases List.mem_append.1 hx with hx | hx
  · exact q1 x hx
  · exact q2 x hx

theorem Framed.one {t dt : Nat} {p : Bytes} (h1 : 8 ≤ t ∧ t < 256) (h2 : dt < 256)
    (h3 : 4 + p.length < 65536) :
    Framed (be16 (4 + p.length) ++ be16 (t * 256 + dt) ++ p) :=
  ⟨[⟨t, dt, p⟩], by rw [streamBytes_cons, streamBytes_nil, mkFrame_bytes _ _ _ h1.2 h2,
      List.append_nil], by
    intro f hf
    rw [List.mem_singleton] at hf
    subst hf
    exact ⟨⟨h1.2, h2, h3⟩, h1.1⟩⟩

theorem Framed.bare (t : Nat) (h1 : 8 ≤ t ∧ t < 256) : Framed (be16 4 ++ be16 (t * 256)) := by
  have := Framed.one (t := t) (dt := 0) (p := []) h1 (by norm_num) (by simp)
  simpa using this

theorem Framed.word (t dt n : Nat) (h1 : 8 ≤ t ∧ t < 256) (h2 : dt < 256) :
    Framed (be16 6 ++ (be16 (t * 256 + dt) ++ be16 n)) := by
  have := Framed.one (t := t) (dt := dt) (p := be16 n) h1 h2 (by simp)
  simpa using this

theorem Framed.writeAll {α : Type _} {f : α → Py Bytes} : ∀ {l : List α} {b : Bytes},
    (∀ x ∈ l, ∀ b, f x = .ok b → Framed b) → writeAll f l = .ok b → Framed b := by
  intro l
  induction l with
  | nil => intro b _ h; rw [← Except.ok.inj h]; exact Framed.nil
  | cons x l ih =>
    intro b hx h
    simp only [Gdspy.writeAll] at h
    obtain ⟨y, h1, h⟩ := py_bind_eq_ok h
    obtain ⟨z, h2, h⟩ := py_bind_eq_ok h
    rw [← Except.ok.inj h]
    exact (hx x List.mem_cons_self y h1).append
      (ih (fun w hw => hx w (List.mem_cons_of_mem _ hw)) h2)

theorem endel_framed {b : Bytes} (h : pack [.H 4, .H 0x1100] = .ok b) : Framed b := by
  obtain ⟨_, rfl⟩ := pack_inv h
  exact Framed.bare 0x11 (by norm_num)

theorem text_frame {t : Nat} (ht : 8 ≤ t ∧ t < 256) {s : Str}
    (h : 4 + (s.length : Int) < 65536) :
    Framed (be16 (4 + (s.length : Int)).toNat ++ (be16 (t * 256 + 6)
      ++ s.map fun c => UInt8.ofNat c.toNat)) := by
  have e : (4 + (s.length : Int)).toNat = 4 + (s.map fun c => UInt8.ofNat c.toNat).length := by
    rw [List.length_map]; omega
  rw [e, ← List.append_assoc]
  exact Framed.one ht (by norm_num) (by rw [List.length_map]; omega)

theorem writeProps_framed : ∀ {l : Properties} {b : Bytes}, writeProps l = .ok b → Framed b := by
  intro l
  induction l with
  | nil => intro b h; rw [← Except.ok.inj h]; exact Framed.nil
  | cons p l ih =>
    intro b h
    obtain ⟨attr, v⟩ := p
    cases v with
    | none => cases h
    | some s =>
      simp only [writeProps] at h
      obtain ⟨x, h1, h⟩ := py_bind_eq_ok h
      obtain ⟨y, h2, h⟩ := py_bind_eq_ok h
      obtain ⟨z, h3, h⟩ := py_bind_eq_ok h
      rw [← Except.ok.inj h]
      obtain ⟨q1, rfl⟩ := pack_inv h1
      obtain ⟨q2, rfl⟩ := encodeAscii_inv h2
      simp only [fldsOk, Fld.Ok] at q1
      refine Framed.append ?_ (ih h3)
      have := (Framed.word 0x2B 2 attr.toNat (by norm_num) (by norm_num)).append
        (text_frame (t := 0x2C) (by norm_num) (s := padEven s) (by omega))
      simpa [fldsBytes, Fld.bytes] using this

theorem real_frame {t : Nat} (ht : 8 ≤ t ∧ t < 256) {v : ℚ} {b : Bytes}
    (h : eightByteReal v = .ok b) : Framed (be16 12 ++ (be16 (t * 256 + 5) ++ b)) := by
  have hl := C02_real8_length h
  have := Framed.one (t := t) (dt := 5) (p := b) ht (by norm_num) (by omega)
  simpa [hl] using this

theorem writeOptReal_framed {t : Nat} (ht : 8 ≤ t ∧ t < 256) {x : Option ℚ} {b : Bytes}
    (h : writeOptReal (t * 256 + 5 : Nat) x = .ok b) : Framed b := by
  cases x with
  | none => rw [← Except.ok.inj h]; exact Framed.nil
  | some v =>
    simp only [writeOptReal] at h
    obtain ⟨y, h1, h⟩ := py_bind_eq_ok h
    obtain ⟨z, h2, h⟩ := py_bind_eq_ok h
    rw [← Except.ok.inj h]
    obtain ⟨q1, rfl⟩ := pack_inv h1
    have e : ((t * 256 + 5 : Nat) : Int).toNat = t * 256 + 5 := by omega
    have := real_frame ht h2
    simp only [fldsBytes, Fld.bytes, e, List.append_nil, List.append_assoc]
    exact this

theorem writeStrans_framed {rot mag : Option ℚ} {xr : Bool} {b : Bytes}
    (h : writeStrans rot mag xr = .ok b) : Framed b := by
  unfold writeStrans at h
  split at h
  · obtain ⟨x, h1, h⟩ := py_bind_eq_ok h
    obtain ⟨y, h2, h⟩ := py_bind_eq_ok h
    obtain ⟨z, h3, h⟩ := py_bind_eq_ok h
    rw [← Except.ok.inj h]
    obtain ⟨q1, rfl⟩ := pack_inv h3
    refine Framed.append ?_ (Framed.append (writeOptReal_framed (t := 0x1B) (by norm_num) h1)
      (writeOptReal_framed (t := 0x1C) (by norm_num) h2))
    have := Framed.word 0x1A 1 (if xr then (0x8000 : Int) else 0).toNat (by norm_num) (by norm_num)
    simpa [fldsBytes, Fld.bytes] using this
  · rw [← Except.ok.inj h]; exact Framed.nil

theorem longs_frame {t : Nat} (ht : 8 ≤ t ∧ t < 256) (l : List Int) (h : 4 + 4 * l.length < 65536) :
    Framed (be16 (4 + 4 * l.length) ++ (be16 (t * 256 + 3) ++ i4Bytes l)) := by
  have := Framed.one (t := t) (dt := 3) (p := i4Bytes l) ht (by norm_num)
    (by rw [i4Bytes_length]; exact h)
  rw [i4Bytes_length] at this
  simpa using this

theorem writeChunks_framed (k : Nat) : ∀ (N : Nat) {xy : List Int} {b : Bytes}, xy.length ≤ N →
    writeChunks k xy = .ok b → Framed b := by
  intro N
  induction N with
  | zero =>
    intro xy b hN h
    obtain rfl : xy = [] := List.eq_nil_of_length_eq_zero (by omega)
    rw [writeChunks] at h
    simp only [true_or, dite_true] at h
    rw [← Except.ok.inj h]; exact Framed.nil
  | succ N ih =>
    intro xy b hN h
    rw [writeChunks] at h
    split at h
    · rw [← Except.ok.inj h]; exact Framed.nil
    · rename_i hc
      have hlen : xy.length ≠ 0 := fun hc2 => hc (Or.inl (List.eq_nil_of_length_eq_zero hc2))
      simp only at h
      obtain ⟨x, h1, h⟩ := py_bind_eq_ok h
      obtain ⟨y, h2, h⟩ := py_bind_eq_ok h
      rw [← Except.ok.inj h]
      refine Framed.append ?_ (ih (by rw [List.length_drop]; omega) h2)
      obtain ⟨q1, rfl⟩ := pack_inv h1
      generalize xy.take (2 * k) = part at *
      simp only [fldsOk, Fld.Ok] at q1
      have e : (4 + 4 * (part.length : Int)).toNat = 4 + 4 * part.length := by omega
      have := longs_frame (t := 0x10) (by norm_num) part (by omega)
      simpa [fldsBytes, Fld.bytes, e] using this

/-- The three records at the head of a polygon or path. -/
theorem head3_framed (t a b : Nat) (h1 : 8 ≤ t ∧ t < 256) :
    Framed (be16 4 ++ (be16 (t * 256) ++ (be16 6 ++ (be16 0x0D02 ++ (be16 a ++ (be16 6
      ++ (be16 0x0E02 ++ be16 b))))))) := by
  have := (Framed.bare t h1).append ((Framed.word 0x0D 2 a (by norm_num) (by norm_num)).append
    (Framed.word 0x0E 2 b (by norm_num) (by norm_num)))
  simpa using this

theorem writePolyHead_framed {m : ℚ} {p : Poly} {b : Bytes} (h : writePolyHead m p = .ok b) :
    Framed b := by
  unfold writePolyHead at h
  split at h
  · obtain ⟨x, h1, h⟩ := py_bind_eq_ok h
    obtain ⟨y, h2, h⟩ := py_bind_eq_ok h
    rw [← Except.ok.inj h]
    obtain ⟨q1, rfl⟩ := pack_inv h1
    refine Framed.append ?_ (writeChunks_framed _ _ le_rfl h2)
    have := head3_framed 8 (p.layer % 65536).toNat (p.datatype % 65536).toNat (by norm_num)
    simpa [fldsBytes, Fld.bytes] using this
  · obtain ⟨x, h1, h⟩ := py_bind_eq_ok h
    obtain ⟨q1, rfl⟩ := pack_inv h1
    split at h
    · cases h
    · rename_i hne
      rw [← Except.ok.inj h]
      have hg := gridPoints_length m p.points
      have ht : ((gridPoints m p.points).take 2).length = 2 := by
        rw [List.length_take, hg]; omega
      generalize hz : gridPoints m p.points ++ (gridPoints m p.points).take 2 = z at *
      have hzl : z.length = 2 * p.points.length + 2 := by
        rw [← hz, List.length_append, hg, ht]
      have hi : i4Bytes (gridPoints m p.points) ++ i4Bytes ((gridPoints m p.points).take 2)
          = i4Bytes z := by rw [← hz]; simp [i4Bytes]
      rw [hi]
      simp only [fldsOk, Fld.Ok] at q1
      have e : (12 + 8 * (p.points.length : Int)).toNat = 4 + 4 * z.length := by omega
      have := (head3_framed 8 (p.layer % 65536).toNat (p.datatype % 65536).toNat
        (by norm_num)).append (longs_frame (t := 0x10) (by norm_num) z (by omega))
      simpa [fldsBytes, Fld.bytes, e] using this

theorem writePoly_framed {m : ℚ} {props : Properties} {p : Poly} {b : Bytes}
    (h : writePoly m props p = .ok b) : Framed b := by
  unfold writePoly at h
  obtain ⟨x, h1, h⟩ := py_bind_eq_ok h
  obtain ⟨y, h2, h⟩ := py_bind_eq_ok h
  obtain ⟨z, h3, h⟩ := py_bind_eq_ok h
  rw [← Except.ok.inj h]
  exact ((writePolyHead_framed h1).append (writeProps_framed h2)).append (endel_framed h3)

theorem polygonSet_framed {m : ℚ} {s : PolygonSet} {b : Bytes} (h : s.toGds m = .ok b) : Framed b :=
  Framed.writeAll (fun _ _ _ h => writePoly_framed h) h

theorem long_frame (t : Nat) (n : Int) (ht : 8 ≤ t ∧ t < 256) :
    Framed (be16 8 ++ (be16 (t * 256 + 3) ++ i4 n)) := by
  have := longs_frame ht [n] (by simp)
  simpa [i4Bytes] using this

theorem writeEnds_framed {m : ℚ} {e : Ends} {b : Bytes} (h : writeEnds m e = .ok b) :
    Framed b := by
  cases e with
  | ext x y =>
    simp only [writeEnds] at h
    obtain ⟨q1, rfl⟩ := pack_inv h
    have := (long_frame 0x30 (pyRound (x * m)) (by norm_num)).append
      (long_frame 0x31 (pyRound (y * m)) (by norm_num))
    simpa [fldsBytes, Fld.bytes] using this
  | _ => rw [← Except.ok.inj h]; exact Framed.nil

theorem writeSpine_framed {m : ℚ} {pts : List (ℚ × ℚ)} {b : Bytes} (h : writeSpine m pts = .ok b) :
    Framed b := by
  unfold writeSpine at h
  split at h
  · exact writeChunks_framed _ _ le_rfl h
  · obtain ⟨x, h1, h⟩ := py_bind_eq_ok h
    obtain ⟨q1, rfl⟩ := pack_inv h1
    rw [← Except.ok.inj h]
    have hg := gridPoints_length m pts
    simp only [fldsOk, Fld.Ok] at q1
    have e : (4 + 8 * (pts.length : Int)).toNat = 4 + 4 * (gridPoints m pts).length := by omega
    have := longs_frame (t := 0x10) (by norm_num) (gridPoints m pts) (by omega)
    simpa [fldsBytes, Fld.bytes, e] using this

theorem writeSubPath_framed {m : ℚ} {sign : Int} {props : Properties} {s : SubPath} {b : Bytes}
    (h : writeSubPath m sign props s = .ok b) : Framed b := by
  unfold writeSubPath at h
  obtain ⟨x, h1, h⟩ := py_bind_eq_ok h
  obtain ⟨y, h2, h⟩ := py_bind_eq_ok h
  obtain ⟨z, h3, h⟩ := py_bind_eq_ok h
  obtain ⟨u, h4, h⟩ := py_bind_eq_ok h
  obtain ⟨v, h5, h⟩ := py_bind_eq_ok h
  rw [← Except.ok.inj h]
  refine ((((?_ : Framed x).append (writeEnds_framed h2)).append (writeSpine_framed h3)).append
    (writeProps_framed h4)).append (endel_framed h5)
  obtain ⟨q1, rfl⟩ := pack_inv h1
  have := (head3_framed 9 (s.layer % 65536).toNat (s.datatype % 65536).toNat (by norm_num)).append
    ((Framed.word 0x21 2 (s.ends.pathtype % 65536).toNat (by norm_num) (by norm_num)).append
      (long_frame 0x0F (sign * pyRound (s.width * m)) (by norm_num)))
  simpa [fldsBytes, Fld.bytes] using this

theorem pathEl_framed {m : ℚ} {p : PathEl} {b : Bytes} (h : p.toGds m = .ok b) : Framed b := by
  cases p with
  | gds p => exact Framed.writeAll (fun _ _ _ h => writeSubPath_framed h) h
  | outline s => exact polygonSet_framed h

theorem label_framed {m : ℚ} {l : Label} {b : Bytes} (h : l.toGds m = .ok b) : Framed b := by
  unfold Label.toGds at h
  obtain ⟨x, h1, h⟩ := py_bind_eq_ok h
  obtain ⟨y, h2, h⟩ := py_bind_eq_ok h
  obtain ⟨text, h3, h⟩ := py_bind_eq_ok h
  obtain ⟨u, h4, h⟩ := py_bind_eq_ok h
  obtain ⟨v, h5, h⟩ := py_bind_eq_ok h
  obtain ⟨w, h6, h⟩ := py_bind_eq_ok h
  obtain ⟨e, h7, h⟩ := py_bind_eq_ok h
  rw [← Except.ok.inj h, List.append_assoc (x ++ y)]
  refine ((((?_ : Framed x).append (writeStrans_framed h2)).append ?_).append
    (writeProps_framed h6)).append (endel_framed h7)
  · obtain ⟨q1, rfl⟩ := pack_inv h1
    have := (Framed.bare 0x0C (by norm_num)).append
      ((Framed.word 0x0D 2 (l.layer % 65536).toNat (by norm_num) (by norm_num)).append
      ((Framed.word 0x16 2 (l.texttype % 65536).toNat (by norm_num) (by norm_num)).append
      (Framed.word 0x17 1 (l.anchor % 65536).toNat (by norm_num) (by norm_num))))
    simpa [fldsBytes, Fld.bytes] using this
  · obtain ⟨q1, rfl⟩ := pack_inv h4
    obtain ⟨q2, rfl⟩ := encodeAscii_inv h5
    simp only [fldsOk, Fld.Ok] at q1
    have := (longs_frame (t := 0x10) (by norm_num)
      [pyRound (l.position.1 * m), pyRound (l.position.2 * m)] (by simp)).append
      (text_frame (t := 0x19) (by norm_num) (s := text) (by omega))
    simpa [fldsBytes, Fld.bytes, i4Bytes] using this

theorem refXY_framed {trig : ℚ → ℚ × ℚ} {m : ℚ} {r : Ref} {b : Bytes}
    (h : writeRefXY trig m r = .ok b) : Framed b := by
  unfold writeRefXY at h
  split at h
  · obtain ⟨q1, rfl⟩ := pack_inv h
    have := longs_frame (t := 0x10) (by norm_num)
      [pyRound (r.origin.1 * m), pyRound (r.origin.2 * m)] (by simp)
    simpa [fldsBytes, Fld.bytes, i4Bytes] using this
  · rename_i columns rows spacing _
    obtain ⟨q1, rfl⟩ := pack_inv h
    generalize arrayCorners trig r columns rows spacing = c at *
    have := (Framed.one (t := 0x13) (dt := 2)
      (p := be16 (columns % 65536).toNat ++ be16 (rows % 65536).toNat)
      (by norm_num) (by norm_num) (by simp)).append (longs_frame (t := 0x10) (by norm_num)
      [pyRound (r.origin.1 * m), pyRound (r.origin.2 * m), pyRound (c.1.1 * m),
        pyRound (c.1.2 * m), pyRound (c.2.1 * m), pyRound (c.2.2 * m)] (by simp))
    simpa [fldsBytes, Fld.bytes, i4Bytes] using this

theorem ref_framed {trig : ℚ → ℚ × ℚ} {m : ℚ} {r : Ref} {b : Bytes}
    (h : r.toGds trig m = .ok b) : Framed b := by
  unfold Ref.toGds at h
  obtain ⟨x, h1, h⟩ := py_bind_eq_ok h
  obtain ⟨y, h2, h⟩ := py_bind_eq_ok h
  obtain ⟨z, h3, h⟩ := py_bind_eq_ok h
  obtain ⟨u, h4, h⟩ := py_bind_eq_ok h
  obtain ⟨v, h5, h⟩ := py_bind_eq_ok h
  obtain ⟨w, h6, h⟩ := py_bind_eq_ok h
  rw [← Except.ok.inj h]
  refine ((((?_ : Framed (x ++ y)).append (writeStrans_framed h3)).append (refXY_framed h4)).append
    (writeProps_framed h5)).append (endel_framed h6)
  obtain ⟨q1, rfl⟩ := pack_inv h1
  obtain ⟨q2, rfl⟩ := encodeAscii_inv h2
  simp only [fldsOk, Fld.Ok] at q1
  have ht := text_frame (t := 0x12) (by norm_num) (s := padEven r.target.str) (by omega)
  cases hr : r.array.isSome with
  | true =>
    have := (Framed.bare 0x0B (by norm_num)).append ht
    simpa [fldsBytes, Fld.bytes] using this
  | false =>
    have := (Framed.bare 0x0A (by norm_num)).append ht
    simpa [fldsBytes, Fld.bytes] using this

/-- A cell that could be written: the opening record with the time stamp, the name record, the
records of the elements, the closing record. -/
theorem cell_framed {trig : ℚ → ℚ × ℚ} {m : ℚ} {ts : Timestamp} {c : Cell} {b : Bytes}
    (h : c.toGds trig m ts = .ok b) :
    ∃ fs : List Frame, (∀ f ∈ fs, f.Fits ∧ 8 ≤ f.type) ∧ Spec.Timestamp.Fits ts ∧
      (∀ x ∈ c.name, x.toNat < 128) ∧ 4 + (padEven c.name).length < 65536 ∧
      b = streamBytes ([⟨5, 2, stampBytes ts⟩,
        ⟨6, 6, (padEven c.name).map fun x => UInt8.ofNat x.toNat⟩] ++ fs ++ [⟨7, 0, []⟩]) := by
  unfold Cell.toGds at h
  simp only at h
  obtain ⟨x1, h1, h⟩ := py_bind_eq_ok h
  obtain ⟨x2, h2, h⟩ := py_bind_eq_ok h
  obtain ⟨x3, h3, h⟩ := py_bind_eq_ok h
  obtain ⟨x4, h4, h⟩ := py_bind_eq_ok h
  obtain ⟨x5, h5, h⟩ := py_bind_eq_ok h
  obtain ⟨x6, h6, h⟩ := py_bind_eq_ok h
  obtain ⟨x7, h7, h⟩ := py_bind_eq_ok h
  obtain ⟨x8, h8, h⟩ := py_bind_eq_ok h
  obtain ⟨x9, h9, h⟩ := py_bind_eq_ok h
  rw [← Except.ok.inj h]
  have hbody : Framed (x5 ++ (x6 ++ (x7 ++ x8))) :=
    (Framed.writeAll (fun _ _ _ h => polygonSet_framed h) h5).append
    ((Framed.writeAll (fun _ _ _ h => pathEl_framed h) h6).append
    ((Framed.writeAll (fun _ _ _ h => label_framed h) h7).append
    (Framed.writeAll (fun _ _ _ h => ref_framed h) h8)))
  obtain ⟨fs, e, hfs⟩ := hbody
  obtain ⟨q1, rfl⟩ := pack_inv h1
  obtain ⟨q2, rfl⟩ := packTs_inv h2
  obtain ⟨q3, rfl⟩ := pack_inv h3
  obtain ⟨q4, rfl⟩ := encodeAscii_inv h4
  obtain ⟨q9, rfl⟩ := pack_inv h9
  simp only [fldsOk, Fld.Ok] at q3
  refine ⟨fs, hfs, q2, ?_, by omega, ?_⟩
  · intro x hx
    refine q4 x ?_
    unfold padEven
    split
    · exact List.mem_append_left _ hx
    · exact hx
  · have e3 : (4 + ((padEven c.name).length : Int)).toNat = 4 + (padEven c.name).length := by omega
    rw [streamBytes_append, streamBytes_append, ← e]
    simp [fldsBytes, Fld.bytes, streamBytes_cons, streamBytes_nil, mkFrame_bytes,
      stampBytes_length, e3]

/-- The head of a file. -/
theorem header_framed {div : ℚ → ℚ → ℚ} {name : Option Str} {unit precision : ℚ} {ts : Timestamp}
    {b : Bytes} (h : writeHeader div name unit precision ts = .ok b) :
    ∃ (t r : Bytes), b = streamBytes [⟨0, 2, [2, 0x58]⟩, ⟨1, 2, stampBytes ts⟩, ⟨2, 6, t⟩, ⟨3, 5, r⟩]
      ∧ r.length = 16 ∧ 4 + t.length < 65536 ∧ Spec.Timestamp.Fits ts := by
  unfold writeHeader at h
  obtain ⟨nm, h0, h⟩ := py_bind_eq_ok h
  obtain ⟨x1, h1, h⟩ := py_bind_eq_ok h
  obtain ⟨x2, h2, h⟩ := py_bind_eq_ok h
  obtain ⟨x3, h3, h⟩ := py_bind_eq_ok h
  obtain ⟨x4, h4, h⟩ := py_bind_eq_ok h
  obtain ⟨x5, h5, h⟩ := py_bind_eq_ok h
  obtain ⟨x6, h6, h⟩ := py_bind_eq_ok h
  obtain ⟨x7, h7, h⟩ := py_bind_eq_ok h
  rw [← Except.ok.inj h]
  obtain ⟨q1, rfl⟩ := pack_inv h1
  obtain ⟨q2, rfl⟩ := packTs_inv h2
  obtain ⟨q3, rfl⟩ := pack_inv h3
  obtain ⟨q4, rfl⟩ := encodeAscii_inv h4
  obtain ⟨q5, rfl⟩ := pack_inv h5
  simp only [fldsOk, Fld.Ok] at q3
  have e3 : (4 + (nm.length : Int)).toNat = 4 + nm.length := by omega
  refine ⟨nm.map fun c => UInt8.ofNat c.toNat, x6 ++ x7, ?_, ?_, ?_, q2⟩
  · have l6 := C02_real8_length h6
    have l7 := C02_real8_length h7
    simp [fldsBytes, Fld.bytes, streamBytes_cons, streamBytes_nil, mkFrame_bytes,
      stampBytes_length, e3, l6, l7]
    simp [be16]
  · rw [List.length_append, C02_real8_length h6, C02_real8_length h7]
  · rw [List.length_map]; omega

end Gdspy
