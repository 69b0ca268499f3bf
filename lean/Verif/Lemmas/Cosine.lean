import Verif.Props.Idct
import Mathlib.Analysis.SpecialFunctions.Trigonometric.Basic
import Mathlib.Algebra.Order.Chebyshev
import Mathlib.Algebra.BigOperators.Field
/-!
# The matrix of the inverse DCT against the cosines of T.81 A.3.3
-/

namespace Zune

/-- `cos (n pi / 16)` in the unit of the matrix `coefs`. -/
noncomputable def kcos (n : Nat) : ℝ := 4096 * √2 * Real.cos (n * Real.pi / 16)

theorem between {x a b : ℝ} (hx : 0 ≤ x) (ha : 0 ≤ a) (hb : 0 ≤ b) (h1 : a ^ 2 ≤ x ^ 2)
    (h2 : x ^ 2 ≤ b ^ 2) : a ≤ x ∧ x ≤ b :=
  ⟨(pow_le_pow_iff_left₀ ha hx (by norm_num)).1 h1, (pow_le_pow_iff_left₀ hx hb (by norm_num)).1 h2⟩

theorem kcos_sq (n : Nat) : kcos n ^ 2 = 16777216 * (1 + Real.cos (2 * (n * Real.pi / 16))) := by
  unfold kcos
  rw [mul_pow, mul_pow, Real.sq_sqrt (by norm_num), Real.cos_sq]
  ring

theorem cos_n_nonneg {x : ℝ} (h0 : 0 ≤ x) (h1 : x ≤ Real.pi / 2) : 0 ≤ Real.cos x :=
  Real.cos_nonneg_of_mem_Icc ⟨by linarith [Real.pi_pos], h1⟩

theorem kcos_nonneg {n : Nat} (h : n ≤ 8) : 0 ≤ kcos n := by
  unfold kcos
  have hn : (n : ℝ) ≤ 8 := by exact_mod_cast h
  refine mul_nonneg (by positivity) (cos_n_nonneg (by positivity) ?_)
  nlinarith [Real.pi_pos]

theorem cos_quarter : (7071067811 : ℝ) / 10000000000 ≤ Real.cos (Real.pi / 4) ∧
    Real.cos (Real.pi / 4) ≤ 7071067812 / 10000000000 := by
  have h := Real.cos_sq (Real.pi / 4)
  rw [show 2 * (Real.pi / 4) = Real.pi / 2 by ring, Real.cos_pi_div_two] at h
  apply between (cos_n_nonneg (by positivity) (by linarith [Real.pi_pos]))
  · norm_num
  · norm_num
  · rw [h]; norm_num
  · rw [h]; norm_num

theorem cos_eighth : (923879532 : ℝ) / 1000000000 ≤ Real.cos (Real.pi / 8) ∧
    Real.cos (Real.pi / 8) ≤ 923879533 / 1000000000 := by
  have h := Real.cos_sq (Real.pi / 8)
  rw [show 2 * (Real.pi / 8) = Real.pi / 4 by ring] at h
  have hq := cos_quarter
  apply between (cos_n_nonneg (by positivity) (by linarith [Real.pi_pos]))
  · norm_num
  · norm_num
  · rw [h]; linarith
  · rw [h]; linarith

theorem cos_three_eighths : (382683432 : ℝ) / 1000000000 ≤ Real.cos (3 * Real.pi / 8) ∧
    Real.cos (3 * Real.pi / 8) ≤ 382683433 / 1000000000 := by
  have h := Real.cos_sq (3 * Real.pi / 8)
  rw [show 2 * (3 * Real.pi / 8) = Real.pi - Real.pi / 4 by ring, Real.cos_pi_sub] at h
  have hq := cos_quarter
  apply between (cos_n_nonneg (by positivity) (by linarith [Real.pi_pos]))
  · norm_num
  · norm_num
  · rw [h]; linarith
  · rw [h]; linarith

theorem kcos_1 : 568131 / 100 ≤ kcos 1 ∧ kcos 1 ≤ 568132 / 100 := by
  have h := kcos_sq 1
  rw [show 2 * ((1 : Nat) * Real.pi / 16) = Real.pi / 8 by push_cast; ring] at h
  have hq := cos_eighth
  apply between (kcos_nonneg (by norm_num)) <;> norm_num <;> rw [h] <;> linarith

theorem kcos_2 : 535168 / 100 ≤ kcos 2 ∧ kcos 2 ≤ 535169 / 100 := by
  have h := kcos_sq 2
  rw [show 2 * ((2 : Nat) * Real.pi / 16) = Real.pi / 4 by push_cast; ring] at h
  have hq := cos_quarter
  apply between (kcos_nonneg (by norm_num)) <;> norm_num <;> rw [h] <;> linarith

theorem kcos_3 : 481638 / 100 ≤ kcos 3 ∧ kcos 3 ≤ 481639 / 100 := by
  have h := kcos_sq 3
  rw [show 2 * ((3 : Nat) * Real.pi / 16) = 3 * Real.pi / 8 by push_cast; ring] at h
  have hq := cos_three_eighths
  apply between (kcos_nonneg (by norm_num)) <;> norm_num <;> rw [h] <;> linarith

theorem kcos_4 : kcos 4 = 4096 := by
  unfold kcos
  rw [show ((4 : Nat) * Real.pi / 16 : ℝ) = Real.pi / 4 by push_cast; ring, Real.cos_pi_div_four]
  rw [show 4096 * √2 * (√2 / 2) = 2048 * (√2 * √2) by ring, Real.mul_self_sqrt (by norm_num)]
  norm_num

theorem kcos_5 : 321820 / 100 ≤ kcos 5 ∧ kcos 5 ≤ 321821 / 100 := by
  have h := kcos_sq 5
  rw [show 2 * ((5 : Nat) * Real.pi / 16) = Real.pi - 3 * Real.pi / 8 by push_cast; ring,
    Real.cos_pi_sub] at h
  have hq := cos_three_eighths
  apply between (kcos_nonneg (by norm_num)) <;> norm_num <;> rw [h] <;> linarith

theorem kcos_6 : 221673 / 100 ≤ kcos 6 ∧ kcos 6 ≤ 221674 / 100 := by
  have h := kcos_sq 6
  rw [show 2 * ((6 : Nat) * Real.pi / 16) = Real.pi - Real.pi / 4 by push_cast; ring,
    Real.cos_pi_sub] at h
  have hq := cos_quarter
  apply between (kcos_nonneg (by norm_num)) <;> norm_num <;> rw [h] <;> linarith

theorem kcos_7 : 113008 / 100 ≤ kcos 7 ∧ kcos 7 ≤ 113009 / 100 := by
  have h := kcos_sq 7
  rw [show 2 * ((7 : Nat) * Real.pi / 16) = Real.pi - Real.pi / 8 by push_cast; ring,
    Real.cos_pi_sub] at h
  have hq := cos_eighth
  apply between (kcos_nonneg (by norm_num)) <;> norm_num <;> rw [h] <;> linarith

theorem kcos_8 : kcos 8 = 0 := by
  unfold kcos
  rw [show ((8 : Nat) * Real.pi / 16 : ℝ) = Real.pi / 2 by push_cast; ring, Real.cos_pi_div_two]
  ring

theorem kcos_0 : kcos 0 = 4096 * √2 := by
  unfold kcos
  simp

theorem kcos_add (n : Nat) : kcos (16 + n) = - kcos n := by
  unfold kcos
  rw [show ((16 + n : Nat) * Real.pi / 16 : ℝ) = n * Real.pi / 16 + Real.pi by push_cast; ring,
    Real.cos_add_pi]
  ring

theorem kcos_sub {n : Nat} (h : n ≤ 16) : kcos (16 - n) = - kcos n := by
  unfold kcos
  rw [show ((16 - n : Nat) * Real.pi / 16 : ℝ) = Real.pi - n * Real.pi / 16 by
    rw [Nat.cast_sub h]; push_cast; ring, Real.cos_pi_sub]
  ring

theorem kcos_red (k n : Nat) : kcos (16 * (2 * k) + n) = kcos n := by
  induction k with
  | zero => simp
  | succ k ih =>
    rw [show 16 * (2 * (k + 1)) + n = 16 + (16 + (16 * (2 * k) + n)) by ring, kcos_add, kcos_add, ih,
      neg_neg]

/-- Every multiple of `pi / 16` by one below `pi`. -/
theorem kcos_mod (n : Nat) :
    kcos n = if n / 16 % 2 = 0 then kcos (n % 16) else - kcos (n % 16) := by
  split
  · rename_i h
    conv_lhs => rw [show n = 16 * (2 * (n / 32)) + n % 16 by omega]
    rw [kcos_red]
  · rename_i h
    conv_lhs => rw [show n = 16 * (2 * (n / 32)) + (16 + n % 16) by omega]
    rw [kcos_red, kcos_add]

theorem kcos_9 : kcos 9 = - kcos 7 := kcos_sub (n := 7) (by norm_num)
theorem kcos_10 : kcos 10 = - kcos 6 := kcos_sub (n := 6) (by norm_num)
theorem kcos_11 : kcos 11 = - kcos 5 := kcos_sub (n := 5) (by norm_num)
theorem kcos_12 : kcos 12 = - kcos 4 := kcos_sub (n := 4) (by norm_num)
theorem kcos_13 : kcos 13 = - kcos 3 := kcos_sub (n := 3) (by norm_num)
theorem kcos_14 : kcos 14 = - kcos 2 := kcos_sub (n := 2) (by norm_num)
theorem kcos_15 : kcos 15 = - kcos 1 := kcos_sub (n := 1) (by norm_num)

/-- The exact matrix. -/
noncomputable def kap (i l : Fin 8) : ℝ := if l = 0 then 4096 else kcos ((2 * i + 1) * l)

/-- Bounds, in hundredths, of the errors of `coefs`. -/
def kerr : Fin 8 → Fin 8 → Nat := fun k j =>
  (([[0, 169, 33, 40, 0, 80, 27, 93], [0, 40, 27, 109, 0, 33, 169, 22],
     [0, 80, 27, 33, 0, 193, 169, 40], [0, 93, 33, 22, 0, 40, 27, 133],
     [0, 93, 33, 22, 0, 40, 27, 133], [0, 80, 27, 33, 0, 193, 169, 40],
     [0, 40, 27, 109, 0, 33, 169, 22], [0, 169, 33, 40, 0, 80, 27, 93]] : List (List Nat)).getD k
    []).getD j 0

theorem coefs_close (i : Fin 8) (l : Fin 8) : |(coefs i l : ℝ) - kap i l| ≤ kerr i l / 100 := by
  have h1 := kcos_1
  have h2 := kcos_2
  have h3 := kcos_3
  have h4 := kcos_4
  have h5 := kcos_5
  have h6 := kcos_6
  have h7 := kcos_7
  unfold kap
  rw [kcos_mod, abs_le]
  fin_cases i <;> fin_cases l <;>
     simp only [coefs, kerr, List.getD_eq_getElem?_getD] <;>
     norm_num [kcos_9, kcos_10, kcos_11, kcos_12, kcos_13, kcos_14, kcos_15, h4] <;>
     try constructor <;> linarith

theorem row_err (i : Fin 8) : ∑ l, ((coefs i l : ℝ) - kap i l) ^ 2 ≤ 79 / 10 := by
  have h : ∑ l, ((coefs i l : ℝ) - kap i l) ^ 2 ≤ ∑ l, ((kerr i l : ℝ) / 100) ^ 2 :=
    Finset.sum_le_sum fun l _ => by
      rw [← sq_abs]
      exact pow_le_pow_left₀ (abs_nonneg _) (coefs_close i l) 2
  refine h.trans ?_
  have e : ∑ l, ((kerr i l : ℝ) / 100) ^ 2 = ((∑ l, kerr i l ^ 2 : Nat) : ℝ) / 10000 := by
    push_cast
    rw [Finset.sum_div]
    exact Finset.sum_congr rfl fun l _ => by ring
  rw [e]
  have h2 : ∑ l, kerr i l ^ 2 ≤ 79000 := by
    fin_cases i <;> decide
  have h3 : ((∑ l, kerr i l ^ 2 : Nat) : ℝ) ≤ 79000 := by exact_mod_cast h2
  linarith

theorem row_sq (i : Fin 8) : ∑ l, (coefs i l : ℝ) ^ 2 ≤ 134244892 := by
  have h : ∑ l, coefs i l ^ 2 ≤ 134244892 := by fin_cases i <;> decide
  exact_mod_cast h

/-! ### The rows of the exact matrix are orthogonal -/

theorem kcos_mul (a b : Nat) : kcos (a + b) * kcos a = 2048 * √2 * (kcos (2 * a + b) + kcos b) := by
  unfold kcos
  have h := Real.two_mul_cos_mul_cos ((a + b : Nat) * Real.pi / 16) (a * Real.pi / 16)
  rw [show ((a + b : Nat) * Real.pi / 16 - a * Real.pi / 16 : ℝ) = b * Real.pi / 16 by push_cast; ring,
    show ((a + b : Nat) * Real.pi / 16 + a * Real.pi / 16 : ℝ) = (2 * a + b : Nat) * Real.pi / 16 by
      push_cast; ring] at h
  linear_combination (4096 * √2) ^ 2 / 2 * h

/-- The sum of the cosines of the multiples of `m pi / 8`. -/
theorem kcos_sum (m : Fin 16) (h0 : m ≠ 0) :
    kcos (2 * m * 1) + kcos (2 * m * 2) + kcos (2 * m * 3) + kcos (2 * m * 4) + kcos (2 * m * 5) +
      kcos (2 * m * 6) + kcos (2 * m * 7) = if (m : Nat) % 2 = 1 then 0 else - kcos 0 := by
  rw [kcos_mod (2 * m * 1), kcos_mod (2 * m * 2), kcos_mod (2 * m * 3), kcos_mod (2 * m * 4),
    kcos_mod (2 * m * 5), kcos_mod (2 * m * 6), kcos_mod (2 * m * 7)]
  fin_cases m
  · exact absurd rfl h0
  all_goals
    norm_num [kcos_10, kcos_12, kcos_14, kcos_8]
    try ring

theorem kap_row {i j : Fin 8} (h : i ≤ j) :
    ∑ l, kap j l * kap i l = if i = j then 134217728 else 0 := by
  have hp : ∀ l : Fin 8, l ≠ 0 → kap j l * kap i l = 2048 * √2 *
      (kcos (2 * (i + j + 1) * l) + kcos (2 * (j - i) * l)) := by
    intro l hl
    unfold kap
    rw [if_neg hl, if_neg hl]
    have hij : (i : Nat) ≤ j := h
    have e1 : (2 * (j : Nat) + 1) * l = (2 * i + 1) * l + 2 * (j - i) * l := by
      rw [← Nat.add_mul]
      congr 1
      omega
    have e2 : 2 * ((2 * (i : Nat) + 1) * l) + 2 * (j - i) * l = 2 * (i + j + 1) * l := by
      rw [← Nat.mul_assoc, ← Nat.add_mul]
      congr 1
      omega
    rw [e1, kcos_mul, e2]
  rw [Fin.sum_univ_eight, hp 1 (by decide), hp 2 (by decide), hp 3 (by decide), hp 4 (by decide),
    hp 5 (by decide), hp 6 (by decide), hp 7 (by decide)]
  rw [show kap j 0 = 4096 from if_pos rfl, show kap i 0 = 4096 from if_pos rfl]
  have hs1 := kcos_sum ⟨i + j + 1, by omega⟩ (by intro e; have := congrArg Fin.val e; simp at this)
  have hz := kcos_0
  have hr : √2 * √2 = (2 : ℝ) := Real.mul_self_sqrt (by norm_num)
  dsimp only at hs1
  simp only [show ((1 : Fin 8) : Nat) = 1 from rfl, show ((2 : Fin 8) : Nat) = 2 from rfl,
    show ((3 : Fin 8) : Nat) = 3 from rfl, show ((4 : Fin 8) : Nat) = 4 from rfl,
    show ((5 : Fin 8) : Nat) = 5 from rfl, show ((6 : Fin 8) : Nat) = 6 from rfl,
    show ((7 : Fin 8) : Nat) = 7 from rfl]
  by_cases e : i = j
  · subst e
    rw [if_pos rfl]
    rw [if_pos (by omega)] at hs1
    simp only [Nat.sub_self, Nat.mul_zero, Nat.zero_mul]
    rw [hz]
    linear_combination 2048 * √2 * hs1 + 2048 * 7 * 4096 * hr
  · rw [if_neg e]
    have hlt : (i : Nat) < j := lt_of_le_of_ne h fun e' => e (Fin.ext e')
    have hs2 := kcos_sum ⟨j - i, by omega⟩ (by
      intro e'
      have := congrArg Fin.val e'
      simp at this
      omega)
    dsimp only at hs2
    by_cases hpar : ((i : Nat) + j + 1) % 2 = 1
    · rw [if_pos hpar] at hs1
      rw [if_neg (by omega), hz] at hs2
      linear_combination 2048 * √2 * hs1 + 2048 * √2 * hs2 - 2048 * 4096 * hr
    · rw [if_neg hpar, hz] at hs1
      rw [if_pos (by omega)] at hs2
      linear_combination 2048 * √2 * hs1 + 2048 * √2 * hs2 - 2048 * 4096 * hr

theorem kap_rows (i j : Fin 8) :
    ∑ l, kap i l * kap j l = if i = j then 134217728 else 0 := by
  rcases le_total i j with h | h
  · rw [← kap_row h]
    exact Finset.sum_congr rfl fun l _ => mul_comm _ _
  · rw [kap_row h]
    simp only [eq_comm]

theorem kap_sq (i : Fin 8) : ∑ l, kap i l ^ 2 = 134217728 := by
  have := kap_rows i i
  rw [if_pos rfl] at this
  rw [← this]
  exact Finset.sum_congr rfl fun l _ => sq _

end Zune
