import Verif.Lemmas.Idct
import Mathlib.Tactic.LinearCombination
import Mathlib.Tactic.FinCases
import Mathlib.Tactic.NormNum
import Mathlib.Algebra.Order.Ring.Abs
import Mathlib.Algebra.BigOperators.Fin
import Mathlib.Algebra.Order.BigOperators.Group.Finset
import Mathlib.Algebra.BigOperators.Ring.Finset
/-! The arithmetic of the inverse DCT over the integers. -/

namespace Zune

/-- The sums before the shift of a pass, over the integers: each is a fixed linear form. -/
def linPass (v : V8 Int) : V8 Int :=
  { a0 := 4096 * v.a0 + 5683 * v.a1 + 5352 * v.a2 + 4816 * v.a3 + 4096 * v.a4 + 3219 * v.a5 +
      2217 * v.a6 + 1131 * v.a7
    a1 := 4096 * v.a0 + 4816 * v.a1 + 2217 * v.a2 - 1129 * v.a3 - 4096 * v.a4 - 5681 * v.a5 -
      5350 * v.a6 - 3218 * v.a7
    a2 := 4096 * v.a0 + 3219 * v.a1 - 2217 * v.a2 - 5681 * v.a3 - 4096 * v.a4 + 1132 * v.a5 +
      5350 * v.a6 + 4816 * v.a7
    a3 := 4096 * v.a0 + 1131 * v.a1 - 5352 * v.a2 - 3218 * v.a3 + 4096 * v.a4 + 4816 * v.a5 -
      2217 * v.a6 - 5680 * v.a7
    a4 := 4096 * v.a0 - 1131 * v.a1 - 5352 * v.a2 + 3218 * v.a3 + 4096 * v.a4 - 4816 * v.a5 -
      2217 * v.a6 + 5680 * v.a7
    a5 := 4096 * v.a0 - 3219 * v.a1 - 2217 * v.a2 + 5681 * v.a3 - 4096 * v.a4 - 1132 * v.a5 +
      5350 * v.a6 - 4816 * v.a7
    a6 := 4096 * v.a0 - 4816 * v.a1 + 2217 * v.a2 + 1129 * v.a3 - 4096 * v.a4 + 5681 * v.a5 -
      5350 * v.a6 + 3218 * v.a7
    a7 := 4096 * v.a0 - 5683 * v.a1 + 5352 * v.a2 - 4816 * v.a3 + 4096 * v.a4 - 3219 * v.a5 +
      2217 * v.a6 - 1131 * v.a7 }

theorem shl12 (x : I32) : x <<< 12 = x * 4096 := by
  apply BitVec.eq_of_toNat_eq
  rw [BitVec.toNat_shiftLeft, BitVec.toNat_mul, Nat.shiftLeft_eq]
  rfl

theorem ofInt_toInt32 (x : I32) : BitVec.ofInt 32 x.toInt = x := BitVec.ofInt_toInt

theorem idctPass_lin (bias : Int) (shift : Nat) (v : V8 I32) :
    idctPass (BitVec.ofInt 32 bias) shift v =
      (linPass (v.map BitVec.toInt)).map fun x => (BitVec.ofInt 32 (x + bias)).sshiftRight shift := by
  obtain ⟨a0, a1, a2, a3, a4, a5, a6, a7⟩ := v
  have c : ∀ x : I32, ∃ n : Int, x = BitVec.ofInt 32 n ∧ x.toInt = n := fun x =>
    ⟨x.toInt, (ofInt_toInt32 x).symm, rfl⟩
  obtain ⟨n0, h0, e0⟩ := c a0
  obtain ⟨n1, h1, e1⟩ := c a1
  obtain ⟨n2, h2, e2⟩ := c a2
  obtain ⟨n3, h3, e3⟩ := c a3
  obtain ⟨n4, h4, e4⟩ := c a4
  obtain ⟨n5, h5, e5⟩ := c a5
  obtain ⟨n6, h6, e6⟩ := c a6
  obtain ⟨n7, h7, e7⟩ := c a7
  simp only [V8.map, linPass, e0, e1, e2, e3, e4, e5, e6, e7]
  rw [h0, h1, h2, h3, h4, h5, h6, h7]
  simp only [idctPass, shl12]
  have k1 : (2217 : I32) = BitVec.ofInt 32 2217 := rfl
  have k2 : (-7567 : I32) = BitVec.ofInt 32 (-7567) := rfl
  have k3 : (3135 : I32) = BitVec.ofInt 32 3135 := rfl
  have k4 : (4096 : I32) = BitVec.ofInt 32 4096 := rfl
  have k5 : (4816 : I32) = BitVec.ofInt 32 4816 := rfl
  have k6 : (1223 : I32) = BitVec.ofInt 32 1223 := rfl
  have k7 : (8410 : I32) = BitVec.ofInt 32 8410 := rfl
  have k8 : (12586 : I32) = BitVec.ofInt 32 12586 := rfl
  have k9 : (6149 : I32) = BitVec.ofInt 32 6149 := rfl
  have k10 : (-3685 : I32) = BitVec.ofInt 32 (-3685) := rfl
  have k11 : (-10497 : I32) = BitVec.ofInt 32 (-10497) := rfl
  have k12 : (-8034 : I32) = BitVec.ofInt 32 (-8034) := rfl
  have k13 : (-1597 : I32) = BitVec.ofInt 32 (-1597) := rfl
  rw [k1, k2, k3, k4, k5, k6, k7, k8, k9, k10, k11, k12, k13]
  have hsub : ∀ x y : Int, BitVec.ofInt 32 x - BitVec.ofInt 32 y = BitVec.ofInt 32 (x - y) := by
    intro x y
    rw [BitVec.sub_eq_add_neg, ← BitVec.ofInt_neg, ← BitVec.ofInt_add]
    rfl
  simp only [← BitVec.ofInt_add, ← BitVec.ofInt_mul, hsub]
  congr 3 <;> ring

/-! ### Entries by index -/

/-- Entry `i`. -/
def V8.get {α : Type} (v : V8 α) (i : Fin 8) : α :=
  match i with
  | 0 => v.a0
  | 1 => v.a1
  | 2 => v.a2
  | 3 => v.a3
  | 4 => v.a4
  | 5 => v.a5
  | 6 => v.a6
  | 7 => v.a7

theorem V8.get_map {α β : Type} (f : α → β) (v : V8 α) (i : Fin 8) : (v.map f).get i = f (v.get i) := by
  fin_cases i <;> rfl

theorem V8.get_transpose {α : Type} (m : V8 (V8 α)) (i j : Fin 8) :
    (m.transpose.get i).get j = (m.get j).get i := by
  fin_cases i <;> fin_cases j <;> rfl

theorem V8.getElem?_toList {α : Type} (v : V8 α) (i : Fin 8) : v.toList[i.val]? = some (v.get i) := by
  fin_cases i <;> rfl

theorem V8.ext_get {α : Type} {v w : V8 α} (h : ∀ i, v.get i = w.get i) : v = w := by
  obtain ⟨a0, a1, a2, a3, a4, a5, a6, a7⟩ := v
  obtain ⟨b0, b1, b2, b3, b4, b5, b6, b7⟩ := w
  have h0 := h 0
  have h1 := h 1
  have h2 := h 2
  have h3 := h 3
  have h4 := h 4
  have h5 := h 5
  have h6 := h 6
  have h7 := h 7
  simp only [V8.get] at h0 h1 h2 h3 h4 h5 h6 h7
  rw [h0, h1, h2, h3, h4, h5, h6, h7]

/-- The matrix of a pass. -/
def coefs : Fin 8 → Fin 8 → Int := fun k j =>
  ((([[4096, 5683, 5352, 4816, 4096, 3219, 2217, 1131],
    [4096, 4816, 2217, -1129, -4096, -5681, -5350, -3218],
    [4096, 3219, -2217, -5681, -4096, 1132, 5350, 4816],
    [4096, 1131, -5352, -3218, 4096, 4816, -2217, -5680],
    [4096, -1131, -5352, 3218, 4096, -4816, -2217, 5680],
    [4096, -3219, -2217, 5681, -4096, -1132, 5350, -4816],
    [4096, -4816, 2217, 1129, -4096, 5681, -5350, 3218],
    [4096, -5683, 5352, -4816, 4096, -3219, 2217, -1131]] : List (List Int)).getD k []).getD j 0)

/-- The value of a linear form. -/
def dot (c v : Fin 8 → Int) : Int := ∑ j, c j * v j

theorem linPass_get (v : V8 Int) (k : Fin 8) : (linPass v).get k = dot (coefs k) v.get := by
  unfold dot
  rw [Fin.sum_univ_eight]
  fin_cases k <;> simp [linPass, V8.get, coefs] <;> ring

theorem coefs_sum (k : Fin 8) : ∑ j, |coefs k j| ≤ 30616 := by
  fin_cases k <;> decide

theorem dot_le {c v : Fin 8 → Int} {S B : Int} (hc : ∑ j, |c j| ≤ S) (hv : ∀ j, |v j| ≤ B)
    (hB : 0 ≤ B) : |dot c v| ≤ S * B := by
  unfold dot
  refine (Finset.abs_sum_le_sum_abs _ _).trans ?_
  have : ∑ j, |c j * v j| ≤ ∑ j, |c j| * B := by
    refine Finset.sum_le_sum fun j _ => ?_
    rw [abs_mul]
    exact mul_le_mul_of_nonneg_left (hv j) (abs_nonneg _)
  refine this.trans ?_
  rw [← Finset.sum_mul]
  exact mul_le_mul_of_nonneg_right hc hB

/-- A pass whose sums do not overflow. -/
theorem idctPass_get {bias : Int} {shift : Nat} {v : V8 I32} {k : Fin 8}
    (h : |dot (coefs k) (fun j => (v.get j).toInt) + bias| < 2 ^ 31) :
    ((idctPass (BitVec.ofInt 32 bias) shift v).get k).toInt =
      (dot (coefs k) (fun j => (v.get j).toInt) + bias) / 2 ^ shift := by
  rw [idctPass_lin, V8.get_map, linPass_get, BitVec.toInt_sshiftRight, Int.shiftRight_eq_div_pow]
  have e : (V8.map BitVec.toInt v).get = fun j => (v.get j).toInt := by
    funext j
    rw [V8.get_map]
  rw [e]
  rw [abs_lt] at h
  rw [BitVec.toInt_ofInt_eq_self (by decide) (by have := h.1; norm_num at this ⊢; omega)
    (by have := h.2; norm_num at this ⊢; omega)]
  norm_num

/-! ### The AVX2 code -/

theorem avxTranspose_eq {α : Type} (m : V8 (V8 α)) : avxTranspose m = m.transpose := rfl

theorem transpose_transpose {α : Type} (m : V8 (V8 α)) : m.transpose.transpose = m := rfl

theorem avxPass_eq (bias : I32) (shift : Nat) (m : V8 (V8 I32)) :
    avxPass bias shift m = (m.transpose.map (idctPass bias shift)).transpose := rfl

theorem clamp_packs (a : I32) : clampI16 (packs32 a) = clamp32 a := by
  unfold packs32
  split
  · rename_i h
    unfold clamp32
    rw [if_pos (by omega)]
    rfl
  · split
    · rename_i h1 h2
      unfold clamp32
      rw [if_neg (by omega), if_pos (by omega)]
      rfl
    · rename_i h1 h2
      unfold clampI16 clamp32
      have e : (a.setWidth 16 : I16).toInt = a.toInt := by
        rw [BitVec.toInt_setWidth]
        have h := @BitVec.toNat_lt_twoPow_of_le
        have : a.toInt = (a.toInt).bmod (2 ^ 16) := by
          rw [Int.bmod_eq_of_le] <;> norm_num <;> omega
        rw [this]
        rw [BitVec.toInt_eq_toNat_bmod, Int.bmod_bmod_of_dvd]
        norm_num
      rw [e]

theorem avxStore_eq (x y : V8 I32) :
    avxPermuteStore x y = ((x.map clamp32).toList, (y.map clamp32).toList) := by
  have h : ∀ l : List I32, (l.map packs32).map clampI16 = l.map clamp32 := by
    intro l
    rw [List.map_map]
    exact List.map_congr_left fun a _ => clamp_packs a
  unfold avxPermuteStore
  simp only [h]
  rfl

/-- The general algorithm, scalar: columns first. -/
def fullScalar (block : List I16) (qt : List Nat) : V8 (V8 I16) :=
  (((dequantize block qt).transpose.map (idctPass 512 10)).transpose).map
    fun r => (idctPass SCALE_BITS 17 r).map clamp32

/-- The general algorithm, AVX2: rows first. -/
def fullAvx (block : List I16) (qt : List Nat) : V8 (V8 I16) :=
  ((((dequantize block qt).map (idctPass 512 10)).transpose.map
    (idctPass SCALE_BITS 17)).transpose).map fun r => r.map clamp32

theorem idctBlockScalar_eq (block : List I16) (qt : List Nat) : idctBlockScalar block qt =
    if acZero block then List.replicate 8 (List.replicate 8 (dcValue block qt))
    else ((fullScalar block qt).map V8.toList).toList := rfl

theorem idctBlockAvx_eq (block : List I16) (qt : List Nat) : idctBlockAvx block qt =
    if acZero block then List.replicate 8 (List.replicate 8 (clampI16 (dcValue block qt)))
    else ((fullAvx block qt).map V8.toList).toList := by
  unfold idctBlockAvx
  split
  · rfl
  · have e : fullAvx block qt = (avxPass SCALE_BITS 17 (avxTranspose (avxPass 512 10
        (avxTranspose (dequantize block qt))))).map fun r => r.map clamp32 := by
      unfold fullAvx
      rw [avxPass_eq, avxPass_eq, avxTranspose_eq, avxTranspose_eq]
      rw [transpose_transpose, transpose_transpose]
    rw [e]
    have key : ∀ r : V8 (V8 I32),
        (let (s0, s1) := avxPermuteStore r.a0 r.a1
          let (s2, s3) := avxPermuteStore r.a2 r.a3
          let (s4, s5) := avxPermuteStore r.a4 r.a5
          let (s6, s7) := avxPermuteStore r.a6 r.a7
          [s0, s1, s2, s3, s4, s5, s6, s7]) =
        ((r.map fun r => r.map clamp32).map V8.toList).toList := by
      intro r
      simp only [avxStore_eq]
      rfl
    exact key _

end Zune
