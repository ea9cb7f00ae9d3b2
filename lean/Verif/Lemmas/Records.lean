import Verif.Spec.Records
import Verif.Lemmas.Struct
import Verif.Lemmas.Real8

namespace Gdspy

open Spec

theorem bigEndian_two (n : Nat) : bigEndian 2 n = be16 n := by
  simp only [bigEndian, be16, List.nil_append, List.cons_append]
  congr 1
  · apply UInt8.toNat_inj.1; simp
  · congr 1
    apply UInt8.toNat_inj.1; simp

theorem bigEndian_four (n : Nat) : bigEndian 4 n = be32 n := by
  simp only [bigEndian, be32, List.nil_append, List.cons_append, Nat.div_div_eq_div_mul]
  congr 1
  · apply UInt8.toNat_inj.1; simp
  · congr 1
    · apply UInt8.toNat_inj.1; simp
    · congr 1
      · apply UInt8.toNat_inj.1; simp
      · congr 1
        apply UInt8.toNat_inj.1; simp

theorem twosComplement_two (i : Int) : twosComplement 2 i = be16 (i % 65536).toNat := by
  simp only [twosComplement, bigEndian_two]; norm_num

theorem twosComplement_four (i : Int) : twosComplement 4 i = i4 i := by
  simp only [twosComplement, bigEndian_four, i4]; norm_num

theorem unpackHs_be16 : ∀ (l : List Nat), (∀ n ∈ l, n < 65536) →
    unpackHs l.length (l.flatMap be16) = .ok l := by
  intro l
  induction l with
  | nil => intro _; rfl
  | cons n l ih =>
    intro h
    simp only [List.flatMap_cons, List.length_cons, be16, List.cons_append, List.nil_append,
      unpackHs]
    rw [ih (fun k hk => h k (List.mem_cons_of_mem _ hk)), py_bind_ok, py_pure,
      rd16_be16 (h n List.mem_cons_self)]

theorem unpackls_i4 : ∀ (l : List Int), (∀ n ∈ l, -2147483648 ≤ n ∧ n < 2147483648) →
    unpackls l.length (l.flatMap i4) = .ok l := by
  intro l
  induction l with
  | nil => intro _; rfl
  | cons n l ih =>
    intro h
    have hn := h n List.mem_cons_self
    simp only [List.flatMap_cons, List.length_cons, i4, be32, List.cons_append, List.nil_append,
      unpackls]
    rw [ih (fun k hk => h k (List.mem_cons_of_mem _ hk)), py_bind_ok, py_pure,
      rd32_be32 (by omega), sgn32_mod hn]

theorem flatMap_length_const {α : Type _} (l : List α) (f : α → Bytes) (k : Nat)
    (h : ∀ a ∈ l, (f a).length = k) : (l.flatMap f).length = l.length * k := by
  induction l with
  | nil => simp
  | cons a l ih =>
    rw [List.flatMap_cons, List.length_append, h a List.mem_cons_self,
      ih (fun b hb => h b (List.mem_cons_of_mem _ hb)), List.length_cons]
    ring

theorem real_decode_spec {b : Bytes} (h : b.length = 8) :
    eightByteRealToFloat b = .ok (realValue b) := by
  match b, h with
  | [a, b, c, d, e, f, g, i], _ =>
    simp only [eightByteRealToFloat, realValue, beValue, List.foldl_cons, List.foldl_nil]
    have ha := a.toNat_lt; have hb := b.toNat_lt; have hc := c.toNat_lt; have hd := d.toNat_lt
    have he := e.toNat_lt; have hf := f.toNat_lt; have hg := g.toNat_lt; have hi := i.toNat_lt
    have hlt := rd16_lt a b
    rw [and_7F00, and_FF]
    have h1 : rd16 a b / 256 % 128 = a.toNat % 128 := by simp only [rd16]; omega
    have h2 : (rd16 a b % 256 * 65536 + rd16 c d) * 4294967296 + rd32 e f g i
        = ((((((0 * 256 + b.toNat) * 256 + c.toNat) * 256 + d.toNat) * 256 + e.toNat) * 256
            + f.toNat) * 256 + g.toNat) * 256 + i.toNat := by
      simp only [rd32, rd16]; omega
    rw [h1, h2]
    generalize ((((((0 * 256 + b.toNat) * 256 + c.toNat) * 256 + d.toNat) * 256 + e.toNat) * 256
            + f.toNat) * 256 + g.toNat) * 256 + i.toNat = M
    have hS := and_8000 hlt
    have hS2 : (32768 ≤ rd16 a b) ↔ a.toNat ≥ 128 := by simp only [rd16]; omega
    have h56 : ((2 : ℚ) ^ 56) = 72057594037927936 := by norm_num
    have hcast : ((a.toNat % 128 : Nat) : Int) = (a.toNat : Int) % 128 := by norm_num
    rw [h56, ← hcast]
    by_cases h' : a.toNat ≥ 128
    · rw [if_pos (hS.2 (hS2.2 h')), if_pos h']
      congr 1; ring
    · rw [if_neg (fun x => h' (hS2.1 (hS.1 x))), if_neg h']
      congr 1; ring

theorem readReals_flatten : ∀ (bs : List Bytes) (rest : Bytes), (∀ b ∈ bs, b.length = 8) →
    readReals bs.length (bs.flatten ++ rest) = .ok (bs.map realValue, rest) := by
  intro bs rest
  induction bs with
  | nil => intro _; rfl
  | cons b bs ih =>
    intro h
    have hb := h b List.mem_cons_self
    simp only [List.flatten_cons, List.length_cons, readReals, List.append_assoc, List.map_cons]
    rw [List.take_append_of_le_length (by omega), List.take_of_length_le (by omega),
      List.drop_append_of_le_length (by omega), List.drop_of_length_le (by omega),
      real_decode_spec hb, py_bind_ok, List.nil_append,
      ih (fun c hc => h c (List.mem_cons_of_mem _ hc)), py_bind_ok]
    rfl

theorem charOfNat_roundtrip {c : Char} (h : c.toNat < 128) :
    Char.ofNat (UInt8.ofNat c.toNat).toNat = c := by
  rw [ofNat_toNat8, Nat.mod_eq_of_lt (by omega), Char.ofNat_toNat]

theorem decodeAscii_map {t : Str} (h : ∀ c ∈ t, c.toNat < 128) :
    decodeAscii (t.map fun c => UInt8.ofNat c.toNat) = .ok t := by
  unfold decodeAscii
  rw [if_pos]
  · rw [List.map_map]
    congr 1
    conv_rhs => rw [← List.map_id t]
    apply List.map_congr_left
    intro c hc
    exact charOfNat_roundtrip (h c hc)
  · rw [List.all_eq_true]
    intro x hx
    obtain ⟨c, hc, rfl⟩ := List.mem_map.1 hx
    have := h c hc
    rw [decide_eq_true_iff, ofNat_toNat8]; omega

/-- The reader understands every payload that the specification describes. -/
theorem readPayload_encodes {d : Data} {dt : Nat} {p : Bytes} (h : Encodes d dt p) (rest : Bytes) :
    readPayload (4 + p.length) dt (p ++ rest) = .ok (d, rest) := by
  have ht : (p ++ rest).take p.length = p := by simp
  have hdr : (p ++ rest).drop p.length = rest := by simp
  have hs : ∀ n : Nat, 4 + n - 4 = n := fun n => by omega
  unfold readPayload
  cases h with
  | none => simp
  | words l h0 h =>
    have hlen : (l.flatMap (bigEndian 2)).length = l.length * 2 :=
      flatMap_length_const _ _ _ (fun a _ => by rw [bigEndian_two]; rfl)
    have hpos : 0 < l.length := List.length_pos_of_ne_nil h0
    rw [if_pos (by omega)]
    simp only [hs, ht, hdr, if_true]
    rw [hlen, Nat.mul_div_cancel _ (by norm_num), show (bigEndian 2) = be16 from
      funext bigEndian_two, unpackHs_be16 l h, py_bind_ok, py_pure]
  | shorts l h0 h =>
    have hlen : (l.flatMap (twosComplement 2)).length = l.length * 2 :=
      flatMap_length_const _ _ _ (fun a _ => by rw [twosComplement_two]; rfl)
    have hpos : 0 < l.length := List.length_pos_of_ne_nil h0
    rw [if_pos (by omega)]
    simp only [hs, ht, hdr]
    rw [hlen, Nat.mul_div_cancel _ (by norm_num), if_neg (by norm_num)]
    simp only [if_true]
    have hfm : l.flatMap (twosComplement 2)
        = (l.map fun i : Int => (i % 65536).toNat).flatMap be16 := by
      rw [List.flatMap_map]; congr 1; funext i; rw [twosComplement_two]
    have hu := unpackHs_be16 (l.map fun i : Int => (i % 65536).toNat) (by
      intro n hn
      obtain ⟨i, hi, rfl⟩ := List.mem_map.1 hn
      have := h i hi
      omega)
    rw [List.length_map] at hu
    rw [hfm, hu, py_bind_ok, py_pure, List.map_map]
    congr 3
    conv_rhs => rw [← List.map_id l]
    apply List.map_congr_left
    intro i hi
    exact sgn16_mod (h i hi)
  | longs l h0 h =>
    have hlen : (l.flatMap (twosComplement 4)).length = l.length * 4 :=
      flatMap_length_const _ _ _ (fun a _ => by rw [twosComplement_four]; rfl)
    have hpos : 0 < l.length := List.length_pos_of_ne_nil h0
    rw [if_pos (by omega)]
    simp only [hs, ht, hdr]
    rw [hlen, Nat.mul_div_cancel _ (by norm_num), if_neg (by norm_num), if_neg (by norm_num)]
    simp only [if_true]
    rw [show twosComplement 4 = i4 from funext twosComplement_four, unpackls_i4 l h,
      py_bind_ok, py_pure]
  | reals bs h0 h =>
    have hlen : bs.flatten.length = bs.length * 8 := by
      rw [← List.flatMap_id]; exact flatMap_length_const bs id 8 h
    have hpos : 0 < bs.length := List.length_pos_of_ne_nil h0
    rw [if_pos (by omega)]
    simp only [hs]
    rw [hlen, Nat.mul_div_cancel _ (by norm_num), if_neg (by norm_num), if_neg (by norm_num),
      if_neg (by norm_num)]
    simp only [if_true]
    rw [readReals_flatten bs rest h, py_bind_ok]
    rfl
  | textPlain t x dt hdt h hx =>
    rw [if_pos (by simp)]
    simp only [hs, ht, hdr]
    rw [if_neg hdt.1, if_neg hdt.2.1, if_neg hdt.2.2.1, if_neg hdt.2.2.2]
    have hlast : ((t ++ [x]).map fun c => UInt8.ofNat c.toNat).getLast?
        = some (UInt8.ofNat x.toNat) := by simp
    have hx128 : x.toNat < 128 := h x (by simp)
    have hne : UInt8.ofNat x.toNat ≠ 0 := by
      intro hcon
      have := congrArg UInt8.toNat hcon
      rw [ofNat_toNat8, Nat.mod_eq_of_lt (by omega)] at this
      exact hx this
    unfold readText
    rw [hlast]
    simp only [if_neg hne]
    rw [decodeAscii_map h, py_bind_ok, py_pure]
  | textNul t dt hdt h =>
    rw [if_pos (by simp)]
    simp only [hs, ht, hdr]
    rw [if_neg hdt.1, if_neg hdt.2.1, if_neg hdt.2.2.1, if_neg hdt.2.2.2]
    unfold readText
    rw [List.getLast?_append]
    simp only [List.getLast?_singleton, Option.some_or, if_true, List.dropLast_concat]
    rw [decodeAscii_map h, py_bind_ok, py_pure]

/-- One step of the reader on a header followed by a readable payload. -/
theorem recordReader_step {size tag : Nat} (hs : size < 65536) (htag : tag < 65536) {d : Data}
    {body rest : Bytes} (h : readPayload size (tag % 256) body = .ok (d, rest)) :
    recordReader (be16 size ++ be16 tag ++ body)
      = (⟨tag / 256, d⟩ :: (recordReader rest).1, (recordReader rest).2) := by
  rw [recordReader.eq_def]
  simp only [be16, List.cons_append, List.nil_append]
  split
  · rename_i e he
    rw [rd16_be16 hs, rd16_be16 htag, and_FF, h] at he
    cases he
  · rename_i x hx
    rw [rd16_be16 hs, rd16_be16 htag, and_FF, h] at hx
    cases hx
    rw [rd16_be16 htag]

theorem frame_bytes (f : Frame) (hf : f.Fits) :
    f.bytes = be16 (4 + f.payload.length) ++ be16 (f.type * 256 + f.dt) ++ f.payload := by
  obtain ⟨h1, h2, _⟩ := hf
  unfold Frame.bytes
  rw [bigEndian_two]
  congr 2
  simp only [be16]
  congr 1
  · congr 1; omega
  · congr 1
    apply UInt8.toNat_inj.1; rw [ofNat_toNat8, ofNat_toNat8]; omega

theorem recordReader_frame (f : Frame) (hf : f.Fits) {d : Data} (h : Encodes d f.dt f.payload)
    (rest : Bytes) :
    recordReader (f.bytes ++ rest)
      = (⟨f.type, d⟩ :: (recordReader rest).1, (recordReader rest).2) := by
  obtain ⟨h1, h2, h3⟩ := hf
  rw [frame_bytes f ⟨h1, h2, h3⟩, List.append_assoc]
  have hmod : (f.type * 256 + f.dt) % 256 = f.dt := by omega
  have hdiv : (f.type * 256 + f.dt) / 256 = f.type := by omega
  rw [recordReader_step h3 (by omega) (by rw [hmod]; exact readPayload_encodes h rest), hdiv]

end Gdspy
