import Verif.Model.Color
import Verif.Lemmas.Slice
import Mathlib.Tactic.Ring
import Mathlib.Tactic.NormNum
import Mathlib.Tactic.Linarith
import Mathlib.Tactic.IntervalCases
import Mathlib.Algebra.Order.Field.Rat
/-! # Properties C34, C35: colour conversion -/

namespace Zune

/-! ### Specification -/

/-- Red, green and blue of the JFIF standard (version 1.02, page 3). -/
def Spec.jfif (y cb cr : ℚ) : ℚ × ℚ × ℚ :=
  (y + 1.402 * (cr - 128), y - 0.34414 * (cb - 128) - 0.71414 * (cr - 128),
    y + 1.772 * (cb - 128))

/-- Bring a value into the range of samples. -/
def Spec.satQ (x : ℚ) : ℚ := max 0 (min 255 x)

/-- The values are samples. -/
def Spec.Samples (l : List I16) : Prop := ∀ x ∈ l, 0 ≤ x.toInt ∧ x.toInt ≤ 255

/-- The values are samples or not far from them. In this range the arithmetic of the converters does not
overflow; the AVX2 upsampler computes values up to 287 (C54). -/
def Spec.Near (l : List I16) : Prop := ∀ x ∈ l, -160 ≤ x.toInt ∧ x.toInt ≤ 415

open Zune.Spec

/-! ### Arithmetic without overflow -/

theorem toInt_add16 {a b : I16} (h1 : -32768 ≤ a.toInt + b.toInt) (h2 : a.toInt + b.toInt < 32768) :
    (a + b).toInt = a.toInt + b.toInt := by
  rw [BitVec.toInt_add, Int.bmod_eq_of_le] <;> norm_num <;> omega

theorem toInt_sub16 {a b : I16} (h1 : -32768 ≤ a.toInt - b.toInt) (h2 : a.toInt - b.toInt < 32768) :
    (a - b).toInt = a.toInt - b.toInt := by
  rw [BitVec.toInt_sub, Int.bmod_eq_of_le] <;> norm_num <;> omega

theorem toInt_mul16 {a b : I16} (h1 : -32768 ≤ a.toInt * b.toInt) (h2 : a.toInt * b.toInt < 32768) :
    (a * b).toInt = a.toInt * b.toInt := by
  rw [BitVec.toInt_mul, Int.bmod_eq_of_le] <;> norm_num <;> omega

theorem toInt_shr16 (a : I16) (n : Nat) : (a.sshiftRight n).toInt = a.toInt / 2 ^ n := by
  rw [BitVec.toInt_sshiftRight, Int.shiftRight_eq_div_pow]
  norm_num

theorem toInt_centre {c : I16} (h : -160 ≤ c.toInt ∧ c.toInt ≤ 415) :
    (c - 128).toInt = c.toInt - 128 := by
  rw [toInt_sub16] <;> rw [show (128 : I16).toInt = 128 from rfl] <;> omega

theorem toInt_redOf {y cr : I16} (hy : -160 ≤ y.toInt ∧ y.toInt ≤ 415)
    (hr : -160 ≤ cr.toInt ∧ cr.toInt ≤ 415) :
    (redOf y cr).toInt = y.toInt + 45 * (cr.toInt - 128) / 32 := by
  unfold redOf
  have h1 : (45 * (cr - 128) : I16).toInt = 45 * (cr.toInt - 128) := by
    rw [toInt_mul16] <;> rw [toInt_centre hr, show (45 : I16).toInt = 45 from rfl] <;> omega
  have h2 : ((45 * (cr - 128) : I16).sshiftRight 5).toInt = 45 * (cr.toInt - 128) / 32 := by
    rw [toInt_shr16, h1]
    norm_num
  rw [toInt_add16] <;> rw [h2] <;> omega

theorem toInt_blueOf {y cb : I16} (hy : -160 ≤ y.toInt ∧ y.toInt ≤ 415)
    (hb : -160 ≤ cb.toInt ∧ cb.toInt ≤ 415) :
    (blueOf y cb).toInt = y.toInt + 113 * (cb.toInt - 128) / 64 := by
  unfold blueOf
  have h1 : (113 * (cb - 128) : I16).toInt = 113 * (cb.toInt - 128) := by
    rw [toInt_mul16] <;> rw [toInt_centre hb, show (113 : I16).toInt = 113 from rfl] <;> omega
  have h2 : ((113 * (cb - 128) : I16).sshiftRight 6).toInt = 113 * (cb.toInt - 128) / 64 := by
    rw [toInt_shr16, h1]
    norm_num
  rw [toInt_add16] <;> rw [h2] <;> omega

theorem toInt_greenOf {y cb cr : I16} (hy : -160 ≤ y.toInt ∧ y.toInt ≤ 415)
    (hb : -160 ≤ cb.toInt ∧ cb.toInt ≤ 415) (hr : -160 ≤ cr.toInt ∧ cr.toInt ≤ 415) :
    (greenOf y cb cr).toInt =
      y.toInt - (11 * (cb.toInt - 128) + 23 * (cr.toInt - 128)) / 32 := by
  unfold greenOf
  have h1 : (11 * (cb - 128) : I16).toInt = 11 * (cb.toInt - 128) := by
    rw [toInt_mul16] <;> rw [toInt_centre hb, show (11 : I16).toInt = 11 from rfl] <;> omega
  have h2 : (23 * (cr - 128) : I16).toInt = 23 * (cr.toInt - 128) := by
    rw [toInt_mul16] <;> rw [toInt_centre hr, show (23 : I16).toInt = 23 from rfl] <;> omega
  have h3 : (11 * (cb - 128) + 23 * (cr - 128) : I16).toInt =
      11 * (cb.toInt - 128) + 23 * (cr.toInt - 128) := by
    rw [toInt_add16] <;> rw [h1, h2] <;> omega
  have h4 : ((11 * (cb - 128) + 23 * (cr - 128) : I16).sshiftRight 5).toInt =
      (11 * (cb.toInt - 128) + 23 * (cr.toInt - 128)) / 32 := by
    rw [toInt_shr16, h3]
    norm_num
  rw [toInt_sub16] <;> rw [h4] <;> omega

theorem toNat_clampU8 (a : I16) : ((clampU8 a).toNat : Int) = max 0 (min 255 a.toInt) := by
  unfold clampU8
  split
  · rw [show min 255 a.toInt = a.toInt by omega, show max 0 a.toInt = 0 by omega]
    rfl
  · split
    · rw [show min 255 a.toInt = 255 by omega]
      rfl
    · rename_i h1 h2
      rw [show min 255 a.toInt = a.toInt by omega, show max 0 a.toInt = a.toInt by omega]
      show (((a.setWidth 8).toNat : Nat) : Int) = _
      rw [BitVec.toNat_setWidth]
      have : a.toInt = (a.toNat : Int) := by
        rw [BitVec.toInt_eq_toNat_cond] at h1 ⊢
        have := a.isLt
        split
        · rfl
        · rename_i h
          rw [if_neg h] at h1
          push_cast at h1
          omega
      omega

/-- A byte whose value before clamping is within 2 of `x` is within 2 of the clamped `x`. -/
theorem clamp_close {a : I16} {v : Int} {x : ℚ} (h : a.toInt = v) (h1 : (v : ℚ) - x ≤ 2)
    (h2 : x - (v : ℚ) ≤ 2) : |((clampU8 a).toNat : ℚ) - satQ x| ≤ 2 := by
  have e : ((clampU8 a).toNat : ℚ) = max 0 (min 255 (v : ℚ)) := by
    have := toNat_clampU8 a
    rw [h] at this
    have := congrArg (fun z : Int => (z : ℚ)) this
    push_cast at this
    exact this
  rw [e]
  unfold satQ
  rw [abs_le]
  rcases le_total 255 (v : ℚ) with ha | ha <;> rcases le_total 255 x with hb | hb <;>
    rcases le_total 0 (v : ℚ) with hc | hc <;> rcases le_total 0 x with hd | hd <;>
    simp only [min_eq_left, min_eq_right, max_eq_left, max_eq_right, ha, hb, hc, hd,
      show (0 : ℚ) ≤ 255 by norm_num] <;>
    constructor <;> linarith

theorem red_close {y cr : Int} (hr : 0 ≤ cr ∧ cr ≤ 255) :
    (((y + 45 * (cr - 128) / 32 : Int) : ℚ) - (y + 1.402 * ((cr : ℚ) - 128)) ≤ 2) ∧
      (y + 1.402 * ((cr : ℚ) - 128)) - ((y + 45 * (cr - 128) / 32 : Int) : ℚ) ≤ 2 := by
  obtain ⟨q, hq⟩ : ∃ q, q = 45 * (cr - 128) / 32 := ⟨_, rfl⟩
  rw [← hq]
  have a1 : 32 * q ≤ 45 * (cr - 128) := by omega
  have a2 : 45 * (cr - 128) ≤ 32 * q + 31 := by omega
  have b1 : (32 * q : ℚ) ≤ 45 * (cr - 128) := by exact_mod_cast a1
  have b2 : (45 * (cr - 128) : ℚ) ≤ 32 * q + 31 := by exact_mod_cast a2
  have c1 : (0 : ℚ) ≤ cr := by exact_mod_cast hr.1
  have c2 : (cr : ℚ) ≤ 255 := by exact_mod_cast hr.2
  push_cast
  constructor <;> linarith

theorem blue_close {y cb : Int} (hb : 0 ≤ cb ∧ cb ≤ 255) :
    (((y + 113 * (cb - 128) / 64 : Int) : ℚ) - (y + 1.772 * ((cb : ℚ) - 128)) ≤ 2) ∧
      (y + 1.772 * ((cb : ℚ) - 128)) - ((y + 113 * (cb - 128) / 64 : Int) : ℚ) ≤ 2 := by
  obtain ⟨q, hq⟩ : ∃ q, q = 113 * (cb - 128) / 64 := ⟨_, rfl⟩
  rw [← hq]
  have a1 : 64 * q ≤ 113 * (cb - 128) := by omega
  have a2 : 113 * (cb - 128) ≤ 64 * q + 63 := by omega
  have b1 : (64 * q : ℚ) ≤ 113 * (cb - 128) := by exact_mod_cast a1
  have b2 : (113 * (cb - 128) : ℚ) ≤ 64 * q + 63 := by exact_mod_cast a2
  have c1 : (0 : ℚ) ≤ cb := by exact_mod_cast hb.1
  have c2 : (cb : ℚ) ≤ 255 := by exact_mod_cast hb.2
  push_cast
  constructor <;> linarith

theorem green_close {y cb cr : Int} (hb : 0 ≤ cb ∧ cb ≤ 255) (hr : 0 ≤ cr ∧ cr ≤ 255) :
    (((y - (11 * (cb - 128) + 23 * (cr - 128)) / 32 : Int) : ℚ) -
        (y - 0.34414 * ((cb : ℚ) - 128) - 0.71414 * ((cr : ℚ) - 128)) ≤ 2) ∧
      (y - 0.34414 * ((cb : ℚ) - 128) - 0.71414 * ((cr : ℚ) - 128)) -
        ((y - (11 * (cb - 128) + 23 * (cr - 128)) / 32 : Int) : ℚ) ≤ 2 := by
  obtain ⟨q, hq⟩ : ∃ q, q = (11 * (cb - 128) + 23 * (cr - 128)) / 32 := ⟨_, rfl⟩
  rw [← hq]
  have a1 : 32 * q ≤ 11 * (cb - 128) + 23 * (cr - 128) := by omega
  have a2 : 11 * (cb - 128) + 23 * (cr - 128) ≤ 32 * q + 31 := by omega
  have b1 : (32 * q : ℚ) ≤ 11 * (cb - 128) + 23 * (cr - 128) := by exact_mod_cast a1
  have b2 : (11 * (cb - 128) + 23 * (cr - 128) : ℚ) ≤ 32 * q + 31 := by exact_mod_cast a2
  have c1 : (0 : ℚ) ≤ cb := by exact_mod_cast hb.1
  have c2 : (cb : ℚ) ≤ 255 := by exact_mod_cast hb.2
  have d1 : (0 : ℚ) ≤ cr := by exact_mod_cast hr.1
  have d2 : (cr : ℚ) ≤ 255 := by exact_mod_cast hr.2
  push_cast
  constructor <;> linarith

/-! ### What the scalar converters store -/

/-- Red, green and blue of a pixel as stored. -/
def pixelOf (y cb cr : I16) : List UInt8 :=
  [clampU8 (redOf y cr), clampU8 (greenOf y cb cr), clampU8 (blueOf y cb)]

theorem rgbScalar_get {y cb cr : List I16} {i : Nat} (hy : i < y.length) (hb : i < cb.length)
    (hr : i < cr.length) {c : Nat} (hc : c < 3) :
    (rgbScalar y cb cr)[3 * i + c]? = (pixelOf y[i] cb[i] cr[i])[c]? := by
  unfold rgbScalar
  rw [List.flatMap_def, Nat.mul_comm, getElem?_flatten_const (n := 3) (by
    intro x hx
    obtain ⟨w, -, rfl⟩ := List.mem_map.1 hx
    rfl) hc, List.getElem?_map]
  have : (y.zip (cb.zip cr))[i]? = some (y[i], cb[i], cr[i]) :=
    List.getElem?_zip_eq_some.2 ⟨List.getElem?_eq_getElem hy,
      List.getElem?_zip_eq_some.2 ⟨List.getElem?_eq_getElem hb, List.getElem?_eq_getElem hr⟩⟩
  rw [this]
  rfl

theorem rgbaScalar_get {y cb cr : List I16} {i : Nat} (hy : i < y.length) (hb : i < cb.length)
    (hr : i < cr.length) {c : Nat} (hc : c < 4) :
    (rgbaScalar y cb cr)[4 * i + c]? = (pixelOf y[i] cb[i] cr[i] ++ [255])[c]? := by
  unfold rgbaScalar
  rw [List.flatMap_def, Nat.mul_comm, getElem?_flatten_const (n := 4) (by
    intro x hx
    obtain ⟨w, -, rfl⟩ := List.mem_map.1 hx
    rfl) hc, List.getElem?_map]
  have : (y.zip (cb.zip cr))[i]? = some (y[i], cb[i], cr[i]) :=
    List.getElem?_zip_eq_some.2 ⟨List.getElem?_eq_getElem hy,
      List.getElem?_zip_eq_some.2 ⟨List.getElem?_eq_getElem hb, List.getElem?_eq_getElem hr⟩⟩
  rw [this]
  rfl

/-- **C34.** For all rows of samples the three bytes that the scalar converters store for a pixel are
within 2 of the JFIF conversion clamped to 0..255; the arithmetic in `i16` gives the same values as
arithmetic in integers; and `Cb = Cr = 128` gives three bytes equal to `Y`. -/
theorem c34_jfif {y cb cr : List I16} (sy : Samples y) (sb : Samples cb) (sr : Samples cr) {i : Nat}
    (hy : i < y.length) (hb : i < cb.length) (hr : i < cr.length) :
    ∃ r g b : UInt8,
      (∀ c, c < 3 → (rgbScalar y cb cr)[3 * i + c]? = [r, g, b][c]?) ∧
      (∀ c, c < 4 → (rgbaScalar y cb cr)[4 * i + c]? = [r, g, b, 255][c]?) ∧
      (|(r.toNat : ℚ) - satQ (jfif y[i].toInt cb[i].toInt cr[i].toInt).1| ≤ 2 ∧
        |(g.toNat : ℚ) - satQ (jfif y[i].toInt cb[i].toInt cr[i].toInt).2.1| ≤ 2 ∧
        |(b.toNat : ℚ) - satQ (jfif y[i].toInt cb[i].toInt cr[i].toInt).2.2| ≤ 2) ∧
      (cb[i] = 128 → cr[i] = 128 → (r.toNat : Int) = y[i].toInt ∧ g = r ∧ b = r) ∧
      (r.toNat : Int) = max 0 (min 255 (y[i].toInt + 45 * (cr[i].toInt - 128) / 32)) ∧
      (g.toNat : Int) = max 0 (min 255
        (y[i].toInt - (11 * (cb[i].toInt - 128) + 23 * (cr[i].toInt - 128)) / 32)) ∧
      (b.toNat : Int) = max 0 (min 255 (y[i].toInt + 113 * (cb[i].toInt - 128) / 64)) := by
  have ky := sy _ (List.getElem_mem hy)
  have kb := sb _ (List.getElem_mem hb)
  have kr := sr _ (List.getElem_mem hr)
  have ny : -160 ≤ y[i].toInt ∧ y[i].toInt ≤ 415 := by omega
  have nb : -160 ≤ cb[i].toInt ∧ cb[i].toInt ≤ 415 := by omega
  have nr : -160 ≤ cr[i].toInt ∧ cr[i].toInt ≤ 415 := by omega
  refine ⟨_, _, _, fun c hc => rgbScalar_get hy hb hr hc, fun c hc => rgbaScalar_get hy hb hr hc,
    ⟨clamp_close (toInt_redOf ny nr) (red_close kr).1 (red_close kr).2,
      clamp_close (toInt_greenOf ny nb nr) (green_close kb kr).1 (green_close kb kr).2,
      clamp_close (toInt_blueOf ny nb) (blue_close kb).1 (blue_close kb).2⟩, ?_, ?_, ?_, ?_⟩
  · intro e1 e2
    have er : redOf y[i] cr[i] = y[i] := by
      rw [e2]
      unfold redOf
      rw [show ((45 * (128 - 128) : I16)).sshiftRight 5 = 0 by decide]
      exact BitVec.add_zero _
    have eg : greenOf y[i] cb[i] cr[i] = y[i] := by
      rw [e1, e2]
      unfold greenOf
      rw [show ((11 * (128 - 128) + 23 * (128 - 128) : I16)).sshiftRight 5 = 0 by decide]
      exact BitVec.sub_zero _
    have eb : blueOf y[i] cb[i] = y[i] := by
      rw [e1]
      unfold blueOf
      rw [show ((113 * (128 - 128) : I16)).sshiftRight 6 = 0 by decide]
      exact BitVec.add_zero _
    rw [er, eg, eb]
    refine ⟨?_, rfl, rfl⟩
    rw [toNat_clampU8]
    omega
  · rw [toNat_clampU8, toInt_redOf ny nr]
  · rw [toNat_clampU8, toInt_greenOf ny nb nr]
  · rw [toNat_clampU8, toInt_blueOf ny nb]

/-- The same values as in integers, also for values that are not samples. -/
theorem pixel_near {y cb cr : List I16} (sy : Near y) (sb : Near cb) (sr : Near cr) {i : Nat}
    (hy : i < y.length) (hb : i < cb.length) (hr : i < cr.length) :
    ∃ r g b : UInt8,
      (∀ c, c < 3 → (rgbScalar y cb cr)[3 * i + c]? = [r, g, b][c]?) ∧
      (∀ c, c < 4 → (rgbaScalar y cb cr)[4 * i + c]? = [r, g, b, 255][c]?) ∧
      (r.toNat : Int) = max 0 (min 255 (y[i].toInt + 45 * (cr[i].toInt - 128) / 32)) ∧
      (g.toNat : Int) = max 0 (min 255
        (y[i].toInt - (11 * (cb[i].toInt - 128) + 23 * (cr[i].toInt - 128)) / 32)) ∧
      (b.toNat : Int) = max 0 (min 255 (y[i].toInt + 113 * (cb[i].toInt - 128) / 64)) := by
  have ny := sy _ (List.getElem_mem hy)
  have nb := sb _ (List.getElem_mem hb)
  have nr := sr _ (List.getElem_mem hr)
  refine ⟨_, _, _, fun c hc => rgbScalar_get hy hb hr hc, fun c hc => rgbaScalar_get hy hb hr hc, ?_, ?_, ?_⟩
  · rw [toNat_clampU8, toInt_redOf ny nr]
  · rw [toNat_clampU8, toInt_greenOf ny nb nr]
  · rw [toNat_clampU8, toInt_blueOf ny nb]

/-- Black, white and saturated red. -/
example : rgbScalar [0, 255, 76] [128, 128, 85] [128, 128, 255] = [0, 0, 0, 255, 255, 255, 254, 0, 0] := by
  decide +kernel

/-! ### C35 -/

theorem asU8_clampI16 (a : I16) : asU8 (clampI16 a) = clampU8 a := by
  unfold asU8 clampI16 clampU8
  split
  · rfl
  · split <;> rfl

theorem simdRgb_cons (a b c : I16) (y cb cr : List I16) :
    simdRgb (a :: y) (b :: cb) (c :: cr) =
      (redOf a c :: (simdRgb y cb cr).1, greenOf a b c :: (simdRgb y cb cr).2.1,
        blueOf a b :: (simdRgb y cb cr).2.2) := by
  have : blueOf a b = (113 * (b - 128)).sshiftRight 6 + a := BitVec.add_comm _ _
  rw [this]
  rfl

theorem simdRgb_nil : simdRgb [] [] [] = ([], [], []) := rfl

theorem simdStoreRgb_eq : ∀ {y cb cr : List I16}, cb.length = y.length → cr.length = y.length →
    simdStoreRgb y cb cr = rgbScalar y cb cr
  | [], [], [], _, _ => rfl
  | a :: y, b :: cb, c :: cr, h1, h2 => by
    have ih := simdStoreRgb_eq (y := y) (cb := cb) (cr := cr) (by simpa using h1) (by simpa using h2)
    unfold simdStoreRgb rgbScalar at *
    rw [simdRgb_cons]
    dsimp only at *
    rw [List.map_cons, List.map_cons, List.map_cons, List.zip_cons_cons, List.zip_cons_cons,
      List.flatMap_cons, ih, List.zip_cons_cons, List.zip_cons_cons, List.flatMap_cons,
      asU8_clampI16, asU8_clampI16, asU8_clampI16]

theorem rgbScalar_append {y y' cb cb' cr cr' : List I16} (h1 : cb.length = y.length)
    (h2 : cr.length = y.length) :
    rgbScalar (y ++ y') (cb ++ cb') (cr ++ cr') = rgbScalar y cb cr ++ rgbScalar y' cb' cr' := by
  unfold rgbScalar
  rw [List.zip_append (by omega), List.zip_append (by rw [List.length_zip]; omega),
    List.flatMap_append]

theorem rgbaScalar_append {y y' cb cb' cr cr' : List I16} (h1 : cb.length = y.length)
    (h2 : cr.length = y.length) :
    rgbaScalar (y ++ y') (cb ++ cb') (cr ++ cr') = rgbaScalar y cb cr ++ rgbaScalar y' cb' cr' := by
  unfold rgbaScalar
  rw [List.zip_append (by omega), List.zip_append (by rw [List.length_zip]; omega),
    List.flatMap_append]

/-- Three lists of eight values. -/
theorem three_eight {P : List I16 → List I16 → List I16 → Prop}
    (h : ∀ a0 a1 a2 a3 a4 a5 a6 a7 b0 b1 b2 b3 b4 b5 b6 b7 c0 c1 c2 c3 c4 c5 c6 c7,
      P [a0, a1, a2, a3, a4, a5, a6, a7] [b0, b1, b2, b3, b4, b5, b6, b7]
        [c0, c1, c2, c3, c4, c5, c6, c7]) :
    ∀ {y cb cr : List I16}, y.length = 8 → cb.length = 8 → cr.length = 8 → P y cb cr
  | [_, _, _, _, _, _, _, _], [_, _, _, _, _, _, _, _], [_, _, _, _, _, _, _, _], _, _, _ =>
    h _ _ _ _ _ _ _ _ _ _ _ _ _ _ _ _ _ _ _ _ _ _ _ _

/-- Interleaving four times eight bytes with two rounds of unpacking. -/
theorem sse_interleave (r0 r1 r2 r3 r4 r5 r6 r7 g0 g1 g2 g3 g4 g5 g6 g7 b0 b1 b2 b3 b4 b5 b6 b7 x0 x1 x2 x3 x4 x5 x6 x7 : UInt8) :
    unpacklo8 (unpacklo8 [r0, r1, r2, r3, r4, r5, r6, r7, g0, g1, g2, g3, g4, g5, g6, g7]
      [b0, b1, b2, b3, b4, b5, b6, b7, x0, x1, x2, x3, x4, x5, x6, x7])
      (unpackhi8 [r0, r1, r2, r3, r4, r5, r6, r7, g0, g1, g2, g3, g4, g5, g6, g7]
      [b0, b1, b2, b3, b4, b5, b6, b7, x0, x1, x2, x3, x4, x5, x6, x7]) ++
    unpackhi8 (unpacklo8 [r0, r1, r2, r3, r4, r5, r6, r7, g0, g1, g2, g3, g4, g5, g6, g7]
      [b0, b1, b2, b3, b4, b5, b6, b7, x0, x1, x2, x3, x4, x5, x6, x7])
      (unpackhi8 [r0, r1, r2, r3, r4, r5, r6, r7, g0, g1, g2, g3, g4, g5, g6, g7]
      [b0, b1, b2, b3, b4, b5, b6, b7, x0, x1, x2, x3, x4, x5, x6, x7]) =
    [r0, g0, b0, x0, r1, g1, b1, x1, r2, g2, b2, x2, r3, g3, b3, x3, r4, g4, b4, x4, r5, g5, b5, x5, r6, g6, b6, x6, r7, g7, b7, x7] := rfl

/-- The AVX2 reordering of sixteen pixels from packed registers. -/
def avxOrder (c d : List UInt8) : List UInt8 :=
  let e := halves unpacklo8 c d
  let f := halves unpackhi8 c d
  let g := halves unpacklo8 e f
  let h := halves unpackhi8 e f
  let i := permute2x128 (shuffleImm 3 2 1 0) g h
  let j := permute2x128 (shuffleImm 1 2 3 0) g h
  let k := permute2x128 (shuffleImm 3 2 0 1) g h
  let l := permute2x128 (shuffleImm 0 3 2 1) g h
  (i.take 16 ++ j.drop 16) ++ (k.take 16 ++ l.drop 16)

theorem avx_interleave (r0 r1 r2 r3 r4 r5 r6 r7 r8 r9 r10 r11 r12 r13 r14 r15 g0 g1 g2 g3 g4 g5 g6 g7 g8 g9 g10 g11 g12 g13 g14 g15 b0 b1 b2 b3 b4 b5 b6 b7 b8 b9 b10 b11 b12 b13 b14 b15 x0 x1 x2 x3 x4 x5 x6 x7 x8 x9 x10 x11 x12 x13 x14 x15 : UInt8) :
    avxOrder [r0, r1, r2, r3, r4, r5, r6, r7, g0, g1, g2, g3, g4, g5, g6, g7, r8, r9, r10, r11, r12, r13, r14, r15, g8, g9, g10, g11, g12, g13, g14, g15] [b0, b1, b2, b3, b4, b5, b6, b7, x0, x1, x2, x3, x4, x5, x6, x7, b8, b9, b10, b11, b12, b13, b14, b15, x8, x9, x10, x11, x12, x13, x14, x15] =
      [r0, g0, b0, x0, r1, g1, b1, x1, r2, g2, b2, x2, r3, g3, b3, x3, r4, g4, b4, x4, r5, g5, b5, x5, r6, g6, b6, x6, r7, g7, b7, x7, r8, g8, b8, x8, r9, g9, b9, x9, r10, g10, b10, x10, r11, g11, b11, x11, r12, g12, b12, x12, r13, g13, b13, x13, r14, g14, b14, x14, r15, g15, b15, x15] := rfl

theorem sseRgba8_eq {y cb cr : List I16} (hy : y.length = 8) (hb : cb.length = 8)
    (hr : cr.length = 8) : sseRgba8 y cb cr = rgbaScalar y cb cr := by
  refine three_eight (P := fun y cb cr => sseRgba8 y cb cr = rgbaScalar y cb cr) ?_ hy hb hr
  intros
  unfold sseRgba8 rgbaScalar
  simp only [simdRgb_cons, simdRgb_nil, List.map_cons, List.map_nil, List.replicate, List.cons_append,
    List.nil_append, List.zip_cons_cons, List.zip_nil_left, List.flatMap_cons, List.flatMap_nil]
  exact sse_interleave _ _ _ _ _ _ _ _ _ _ _ _ _ _ _ _ _ _ _ _ _ _ _ _ _ _ _ _ _ _ _ _

/-- The bytes of sixteen pixels with their fourth channel. -/
theorem avxStore4_eq {y cb cr y' cb' cr' : List I16} (x : I16) (hy : y.length = 8)
    (hb : cb.length = 8) (hr : cr.length = 8) (hy' : y'.length = 8)
    (hb' : cb'.length = 8) (hr' : cr'.length = 8) :
    avxStore4 (y ++ y') (cb ++ cb') (cr ++ cr') (List.replicate 16 x) =
      ((y ++ y').zip ((cb ++ cb').zip (cr ++ cr'))).flatMap fun (y, cb, cr) =>
        [clampU8 (redOf y cr), clampU8 (greenOf y cb cr), clampU8 (blueOf y cb), clampU8 x] := by
  refine three_eight (P := fun y cb cr => avxStore4 (y ++ y') (cb ++ cb') (cr ++ cr') (List.replicate 16 x) =
      ((y ++ y').zip ((cb ++ cb').zip (cr ++ cr'))).flatMap fun (y, cb, cr) =>
        [clampU8 (redOf y cr), clampU8 (greenOf y cb cr), clampU8 (blueOf y cb), clampU8 x]) ?_ hy hb hr
  intro a0 a1 a2 a3 a4 a5 a6 a7 b0 b1 b2 b3 b4 b5 b6 b7 c0 c1 c2 c3 c4 c5 c6 c7
  refine three_eight (P := fun y' cb' cr' =>
    avxStore4 ([a0, a1, a2, a3, a4, a5, a6, a7] ++ y') ([b0, b1, b2, b3, b4, b5, b6, b7] ++ cb')
      ([c0, c1, c2, c3, c4, c5, c6, c7] ++ cr') (List.replicate 16 x) =
      (([a0, a1, a2, a3, a4, a5, a6, a7] ++ y').zip (([b0, b1, b2, b3, b4, b5, b6, b7] ++ cb').zip
        ([c0, c1, c2, c3, c4, c5, c6, c7] ++ cr'))).flatMap fun (y, cb, cr) =>
        [clampU8 (redOf y cr), clampU8 (greenOf y cb cr), clampU8 (blueOf y cb), clampU8 x]) ?_
    hy' hb' hr'
  intros
  unfold avxStore4 packus256
  simp only [simdRgb_cons, simdRgb_nil, List.map_cons, List.map_nil, List.replicate, List.cons_append,
    List.nil_append, List.zip_cons_cons, List.zip_nil_left, List.flatMap_cons, List.flatMap_nil,
    List.take, List.drop]
  exact avx_interleave _ _ _ _ _ _ _ _ _ _ _ _ _ _ _ _ _ _ _ _ _ _ _ _ _ _ _ _ _ _ _ _ _ _ _ _ _ _ _ _ _ _ _ _ _ _ _ _ _ _ _ _ _ _ _ _ _ _ _ _ _ _ _ _

/-- **C35.** On registers of sixteen lanes the SSE and AVX2 converters write the same bytes as the
scalar ones, whatever the `i16` values, and the four byte converters write R, G, B, 255. -/
theorem c35_simd {y cb cr : List I16} (hy : y.length = 16) (hb : cb.length = 16)
    (hr : cr.length = 16) :
    rgbSse y cb cr = rgbScalar y cb cr ∧ rgbAvx y cb cr = rgbScalar y cb cr ∧
    rgbaSse y cb cr = rgbaScalar y cb cr ∧
    avxStore4 y cb cr (List.replicate 16 255) = rgbaScalar y cb cr ∧
    (∀ i, (h : i < 16) → ∀ c, c < 4 → (rgbaScalar y cb cr)[4 * i + c]? =
      [clampU8 (redOf y[i] cr[i]), clampU8 (greenOf y[i] cb[i] cr[i]), clampU8 (blueOf y[i] cb[i]),
        255][c]?) := by
  have ty : y.take 8 ++ y.drop 8 = y := List.take_append_drop _ _
  have tb : cb.take 8 ++ cb.drop 8 = cb := List.take_append_drop _ _
  have tr : cr.take 8 ++ cr.drop 8 = cr := List.take_append_drop _ _
  have l1 : (y.take 8).length = 8 := by rw [List.length_take]; omega
  have l2 : (cb.take 8).length = 8 := by rw [List.length_take]; omega
  have l3 : (cr.take 8).length = 8 := by rw [List.length_take]; omega
  have l4 : (y.drop 8).length = 8 := by rw [List.length_drop]; omega
  have l5 : (cb.drop 8).length = 8 := by rw [List.length_drop]; omega
  have l6 : (cr.drop 8).length = 8 := by rw [List.length_drop]; omega
  refine ⟨?_, ?_, ?_, ?_, ?_⟩
  · unfold rgbSse
    rw [simdStoreRgb_eq (by omega) (by omega), simdStoreRgb_eq (by omega) (by omega),
      ← rgbScalar_append (by omega) (by omega), ty, tb, tr]
  · exact simdStoreRgb_eq (by omega) (by omega)
  · unfold rgbaSse
    rw [sseRgba8_eq l1 l2 l3, sseRgba8_eq l4 l5 l6, ← rgbaScalar_append (by omega) (by omega), ty,
      tb, tr]
  · have := avxStore4_eq 255 l1 l2 l3 l4 l5 l6
    rw [ty, tb, tr] at this
    exact this
  · intro i h c hc
    exact rgbaScalar_get (by omega) (by omega) (by omega) hc

example : (List.replicate 16 (-5 : I16)).length = 16 := by decide

/-! ### C47, the colour converters -/

theorem length_rgbScalar {y cb cr : List I16} (hy : y.length = 16) (hb : cb.length = 16)
    (hr : cr.length = 16) : (rgbScalar y cb cr).length = 48 := by
  unfold rgbScalar
  rw [List.flatMap_def, length_flatten_const (n := 3) (by
    intro x hx
    obtain ⟨w, -, rfl⟩ := List.mem_map.1 hx
    rfl), List.length_map, List.length_zip, List.length_zip]
  omega

theorem length_rgbaScalar {y cb cr : List I16} (hy : y.length = 16) (hb : cb.length = 16)
    (hr : cr.length = 16) : (rgbaScalar y cb cr).length = 64 := by
  unfold rgbaScalar
  rw [List.flatMap_def, length_flatten_const (n := 4) (by
    intro x hx
    obtain ⟨w, -, rfl⟩ := List.mem_map.1 hx
    rfl), List.length_map, List.length_zip, List.length_zip]
  omega

/-- The number of bytes each converter writes for sixteen pixels. -/
theorem length_bytes (f : ColorFn) {y cb cr : List I16} (hy : y.length = 16) (hb : cb.length = 16)
    (hr : cr.length = 16) :
    (f.bytes y cb cr).length = match f with
      | .rgbScalar | .rgbSse | .rgbAvx => 48
      | _ => 64 := by
  obtain ⟨h1, h2, h3, h4, -⟩ := c35_simd hy hb hr
  cases f
  · exact length_rgbScalar hy hb hr
  · show (rgbSse y cb cr).length = 48
    rw [h1]
    exact length_rgbScalar hy hb hr
  · show (rgbAvx y cb cr).length = 48
    rw [h2]
    exact length_rgbScalar hy hb hr
  · exact length_rgbaScalar hy hb hr
  · show (rgbaSse y cb cr).length = 64
    rw [h3]
    exact length_rgbaScalar hy hb hr
  · show (avxStore4 y cb cr (List.replicate 16 255)).length = 64
    rw [h4]
    exact length_rgbaScalar hy hb hr
  · show (avxStore4 y cb cr (List.replicate 16 0)).length = 64
    unfold avxStore4 permute2x128
    rfl

end Zune
