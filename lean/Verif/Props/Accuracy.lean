import Verif.Lemmas.Cosine
import Verif.Props.Gray
/-!
# How accurate the inverse DCT is

C56 and C57: the samples against the transforms that T.81 A.3.3 defines with real cosines.
-/

namespace Zune
open Spec

/-! ### Specification -/

/-- The factor `C` of T.81 A.3.3. -/
noncomputable def Spec.dctC (u : Fin 8) : ℝ := if u = 0 then 1 / √2 else 1

/-- The cosine of T.81 A.3.3. -/
noncomputable def Spec.dctCos (x u : Fin 8) : ℝ := Real.cos ((2 * (x : Nat) + 1) * (u : Nat) * Real.pi / 16)

/-- The inverse DCT of T.81 A.3.3, `S v u` being the coefficient in row `v` and column `u`. -/
noncomputable def Spec.idealIdct (S : Fin 8 → Fin 8 → ℝ) (y x : Fin 8) : ℝ :=
  1 / 4 * ∑ u, ∑ v, dctC u * dctC v * S v u * dctCos x u * dctCos y v

/-- The forward DCT of T.81 A.3.3. -/
noncomputable def Spec.idealFdct (s : Fin 8 → Fin 8 → ℝ) (v u : Fin 8) : ℝ :=
  1 / 4 * dctC u * dctC v * ∑ x, ∑ y, s y x * dctCos x u * dctCos y v

/-- Bring a real value into the range of samples. -/
noncomputable def Spec.satR (x : ℝ) : ℝ := max 0 (min 255 x)

/-- The sum of the squares of a matrix. -/
noncomputable def Spec.energy (m : Fin 8 → Fin 8 → ℝ) : ℝ := ∑ i, ∑ j, m i j ^ 2

/-! ### Lemmas -/

theorem kap_eq (x u : Fin 8) : kap x u = 4096 * √2 * (dctC u * dctCos x u) := by
  unfold kap dctC dctCos
  split
  · rename_i h
    subst h
    have h2 : √2 ≠ 0 := by positivity
    simp
  · unfold kcos
    push_cast
    ring

theorem kap_mul (x u y v : Fin 8) :
    kap x u * kap y v = 134217728 * (1 / 4 * (dctC u * dctCos x u * (dctC v * dctCos y v))) := by
  rw [kap_eq, kap_eq]
  have hr : √2 * √2 = (2 : ℝ) := Real.mul_self_sqrt (by norm_num)
  linear_combination 16777216 * (dctC u * dctCos x u * (dctC v * dctCos y v)) * hr

theorem idct_kap (S : Fin 8 → Fin 8 → ℝ) (y x : Fin 8) :
    134217728 * idealIdct S y x = ∑ v, ∑ u, kap y v * kap x u * S v u := by
  unfold idealIdct
  rw [Finset.sum_comm, Finset.mul_sum, Finset.mul_sum]
  refine Finset.sum_congr rfl fun v _ => ?_
  rw [Finset.mul_sum, Finset.mul_sum]
  refine Finset.sum_congr rfl fun u _ => ?_
  rw [kap_mul]
  ring

theorem fdct_kap (s : Fin 8 → Fin 8 → ℝ) (v u : Fin 8) :
    134217728 * idealFdct s v u = ∑ y, ∑ x, kap y v * kap x u * s y x := by
  unfold idealFdct
  rw [Finset.sum_comm, Finset.mul_sum, Finset.mul_sum]
  refine Finset.sum_congr rfl fun y _ => ?_
  rw [Finset.mul_sum, Finset.mul_sum]
  refine Finset.sum_congr rfl fun x _ => ?_
  rw [kap_mul]
  ring

/-- Cauchy-Schwarz for a separable weight. -/
theorem sep_le {a b : Fin 8 → ℝ} {m : Fin 8 → Fin 8 → ℝ} {A B E : ℝ} (ha : ∑ i, a i ^ 2 ≤ A)
    (hb : ∑ i, b i ^ 2 ≤ B) (hm : energy m ≤ E) {K : ℝ} (hK : 0 ≤ K) (h : A * B * E ≤ K ^ 2) :
    |∑ i, ∑ j, a i * b j * m i j| ≤ K := by
  have h1 : (∑ p : Fin 8 × Fin 8, (a p.1 * b p.2) * m p.1 p.2) ^ 2 ≤
      (∑ p : Fin 8 × Fin 8, (a p.1 * b p.2) ^ 2) * ∑ p : Fin 8 × Fin 8, m p.1 p.2 ^ 2 :=
    Finset.sum_mul_sq_le_sq_mul_sq _ _ _
  rw [Fintype.sum_prod_type, Fintype.sum_prod_type, Fintype.sum_prod_type] at h1
  have h2 : ∑ i, ∑ j, (a i * b j) ^ 2 = (∑ i, a i ^ 2) * ∑ j, b j ^ 2 := by
    rw [Finset.sum_mul]
    refine Finset.sum_congr rfl fun i _ => ?_
    rw [Finset.mul_sum]
    exact Finset.sum_congr rfl fun j _ => by ring
  dsimp only at h1
  rw [h2] at h1
  have pa : 0 ≤ ∑ i, a i ^ 2 := Finset.sum_nonneg fun i _ => sq_nonneg _
  have pb : 0 ≤ ∑ i, b i ^ 2 := Finset.sum_nonneg fun i _ => sq_nonneg _
  have pm : 0 ≤ energy m := Finset.sum_nonneg fun i _ => Finset.sum_nonneg fun j _ => sq_nonneg _
  have h3 : (∑ i, a i ^ 2) * (∑ j, b j ^ 2) * energy m ≤ A * B * E :=
    mul_le_mul (mul_le_mul ha hb pb (pa.trans ha)) hm pm
      (mul_nonneg (pa.trans ha) (pb.trans hb))
  exact abs_le_of_sq_le_sq (h1.trans (h3.trans h)) hK

/-- The matrix of the code against the exact one. -/
theorem transform_close {m : Fin 8 → Fin 8 → Int} {E : ℝ} (hE : 0 ≤ E)
    (hm : energy (fun i j => (m i j : ℝ)) ≤ E ^ 2) (i j : Fin 8) :
    |(transform m i j : ℝ) - 134217728 * idealIdct (fun i j => (m i j : ℝ)) i j| ≤ 65536 * E := by
  have e : (transform m i j : ℝ) - 134217728 * idealIdct (fun i j => (m i j : ℝ)) i j =
      (∑ l, ∑ k, ((coefs i l : ℝ) - kap i l) * (coefs j k : ℝ) * m l k) +
      ∑ l, ∑ k, kap i l * ((coefs j k : ℝ) - kap j k) * m l k := by
    rw [idct_kap]
    unfold transform
    push_cast
    rw [Finset.sum_comm, ← Finset.sum_sub_distrib, ← Finset.sum_add_distrib]
    refine Finset.sum_congr rfl fun l _ => ?_
    rw [← Finset.sum_sub_distrib, ← Finset.sum_add_distrib]
    refine Finset.sum_congr rfl fun k _ => ?_
    ring
  have h1 : |∑ l, ∑ k, ((coefs i l : ℝ) - kap i l) * (coefs j k : ℝ) * m l k| ≤ 32768 * E :=
    sep_le (row_err i) (row_sq j) hm (by positivity) (by nlinarith [sq_nonneg E])
  have h2 : |∑ l, ∑ k, kap i l * ((coefs j k : ℝ) - kap j k) * m l k| ≤ 32768 * E :=
    sep_le (kap_sq i).le (row_err j) hm (by positivity) (by nlinarith [sq_nonneg E])
  rw [e]
  refine (abs_add_le _ _).trans ?_
  linarith

theorem satR_close {v : Int} {x d : ℝ} (h : |(v : ℝ) - x| ≤ d) : |((sat v : Int) : ℝ) - satR x| ≤ d := by
  unfold sat satR
  push_cast
  refine (abs_max_sub_max_le_max _ _ _ _).trans ?_
  refine max_le ?_ ((abs_min_sub_min_le_max _ _ _ _).trans (max_le ?_ h))
  · simpa using (abs_nonneg _).trans h
  · simpa using (abs_nonneg _).trans h

theorem idct_flat {S : Fin 8 → Fin 8 → ℝ} {d : ℝ} (h : ∀ i j, S i j = if i = 0 ∧ j = 0 then d else 0)
    (y x : Fin 8) : idealIdct S y x = d / 8 := by
  have e := idct_kap S y x
  have h2 : ∑ v, ∑ u, kap y v * kap x u * S v u = 4096 * 4096 * d := by
    rw [Finset.sum_eq_single 0, Finset.sum_eq_single 0]
    · rw [h, if_pos ⟨rfl, rfl⟩]
      simp [kap]
    · intro u _ hu
      rw [h, if_neg (fun e => hu e.2), mul_zero]
    · simp
    · intro v _ hv
      refine Finset.sum_eq_zero fun u _ => ?_
      rw [h, if_neg (fun e => hv e.1), mul_zero]
    · simp
  rw [h2] at e
  linarith

/-! ### C56 -/

/-- The dequantised coefficients as real numbers. -/
noncomputable def Spec.coefR (block : List I16) (qt : List Nat) (i j : Fin 8) : ℝ := (coef block qt i j : ℝ)

/-- **C56.** For all coefficients and quantisation tables whose products are at most 2048 in absolute
value, both implementations give samples close to those of the inverse DCT of T.81 with exact cosines,
level shift and clamping: within `0.63 + E / 2048`, where `E` is the Euclidean norm of the dequantised
coefficients (at most 1024 for those of any block of 8-bit samples, see `c57_energy`), and within 7/8 for
flat blocks. A flat block that overflows the range of samples is not clamped by the scalar
implementation (C26), which is what the condition excludes. -/
theorem c56_accuracy_partial (f : IdctFn) {block : List I16} {qt : List Nat} (hb : InRange block qt)
    (hd : f = .scalar → Flat block → DcFits block qt) {E : ℝ} (hE : 0 ≤ E)
    (hm : energy (coefR block qt) ≤ E ^ 2) (i j : Fin 8) :
    ∃ s : I16, sample (f.block block qt) i j = some s ∧ IsSample s ∧
      (¬ Flat block → |(s.toInt : ℝ) - satR (128 + idealIdct (coefR block qt) i j)| ≤ 63 / 100 + E / 2048) ∧
      (Flat block → |(s.toInt : ℝ) - satR (128 + idealIdct (coefR block qt) i j)| ≤ 7 / 8) := by
  by_cases hf : Flat block
  · have hx : Fits16 (dcOf block qt) := by
      have : |dcOf block qt| ≤ 2048 := hb 0 0
      rw [abs_le] at this
      unfold Fits16
      omega
    obtain ⟨s, a, h1, h2, h3, h4, -⟩ := c27_flat_partial hf hx i j
    have hI : idealIdct (coefR block qt) i j = (dcOf block qt : ℝ) / 8 := by
      apply idct_flat
      intro i j
      unfold coefR
      rw [flat_coef qt hf]
      split <;> simp
    have hc : |((128 + dcOf block qt / 8 : Int) : ℝ) - (128 + idealIdct (coefR block qt) i j)| ≤ 7 / 8 := by
      rw [hI]
      have q1 : 8 * (dcOf block qt / 8) ≤ dcOf block qt := by omega
      have q2 : dcOf block qt ≤ 8 * (dcOf block qt / 8) + 7 := by omega
      have q1' : (8 : ℝ) * ((dcOf block qt / 8 : Int) : ℝ) ≤ dcOf block qt := by exact_mod_cast q1
      have q2' : (dcOf block qt : ℝ) ≤ 8 * ((dcOf block qt / 8 : Int) : ℝ) + 7 := by exact_mod_cast q2
      push_cast
      rw [abs_le]
      constructor <;> linarith
    have hs := satR_close hc
    cases f with
    | scalar =>
      have hfit := hd rfl hf
      have hS : IsSample s := by
        unfold IsSample
        unfold DcFits at hfit
        unfold Fits16 at hx
        rw [Int.bmod_eq_of_le (by norm_num; omega) (by norm_num; omega)] at hfit
        omega
      refine ⟨s, h1, hS, fun h => absurd hf h, fun _ => ?_⟩
      have : sat (128 + dcOf block qt / 8) = s.toInt := by
        rw [← h3]
        unfold IsSample at hS
        unfold sat
        omega
      rw [← this]
      exact hs
    | avx2 =>
      refine ⟨a, h2, ?_, fun h => absurd hf h, fun _ => ?_⟩
      · unfold IsSample
        rw [h4]
        unfold sat
        omega
      · rw [h4, h3]
        exact hs
  · obtain ⟨s, v, h1, h2, h3⟩ := general_close f hb hf i j
    refine ⟨s, h1, ?_, fun _ => ?_, fun h => absurd h hf⟩
    · unfold IsSample
      rw [h2]
      unfold sat
      omega
    · rw [h2]
      apply satR_close
      have h4 := transform_close hE hm i j
      have h3' : |(2 : ℝ) ^ 27 * (v - 128) - transform (coef block qt) i j| ≤ 83308544 := by
        exact_mod_cast h3
      have e : idealIdct (fun i j => (coef block qt i j : ℝ)) = idealIdct (coefR block qt) := rfl
      rw [e] at h4
      rw [abs_le] at h3' h4 ⊢
      norm_num at h3'
      constructor <;> linarith

/-- `wildBlock` meets the conditions with `E = 61`. -/
example : InRange wildBlock (List.replicate 64 1) ∧ ¬ Flat wildBlock ∧
    energy (coefR wildBlock (List.replicate 64 1)) ≤ 61 ^ 2 := by
  refine ⟨by unfold InRange; decide +kernel, ?_, ?_⟩
  · intro h
    exact absurd (h 11 (-30) (by decide)) (by decide)
  · have h : ∑ i : Fin 8, ∑ j : Fin 8, coef wildBlock (List.replicate 64 1) i j ^ 2 ≤ 61 ^ 2 := by
      decide +kernel
    unfold energy coefR
    exact_mod_cast h

/-! ### C57 -/

theorem sum_delta {i : Fin 8} {g : Fin 8 → ℝ} {c : ℝ} :
    ∑ y, (if i = y then c else 0) * g y = c * g i := by
  rw [Finset.sum_eq_single i]
  · rw [if_pos rfl]
  · intro b _ hb
    rw [if_neg (Ne.symm hb), zero_mul]
  · simp

/-- Exchanging the sums of a double matrix product with its transpose. -/
theorem kap_round (s : Fin 8 → Fin 8 → ℝ) (i j : Fin 8) :
    ∑ v, ∑ u, kap i v * kap j u * ∑ y, ∑ x, kap y v * kap x u * s y x =
      134217728 * 134217728 * s i j := by
  have e : ∀ v u, kap i v * kap j u * ∑ y, ∑ x, kap y v * kap x u * s y x =
      ∑ y, ∑ x, (kap i v * kap y v) * ((kap j u * kap x u) * s y x) := by
    intro v u
    rw [Finset.mul_sum]
    refine Finset.sum_congr rfl fun y _ => ?_
    rw [Finset.mul_sum]
    exact Finset.sum_congr rfl fun x _ => by ring
  have e2 : ∑ v, ∑ u, kap i v * kap j u * ∑ y, ∑ x, kap y v * kap x u * s y x =
      ∑ y, (∑ v, kap i v * kap y v) * ∑ x, (∑ u, kap j u * kap x u) * s y x := by
    simp only [e]
    rw [Finset.sum_congr rfl fun v _ => Finset.sum_comm]
    rw [Finset.sum_comm]
    refine Finset.sum_congr rfl fun y _ => ?_
    rw [Finset.sum_mul]
    refine Finset.sum_congr rfl fun v _ => ?_
    rw [Finset.mul_sum, Finset.sum_comm]
    refine Finset.sum_congr rfl fun x _ => ?_
    rw [Finset.sum_mul, Finset.mul_sum]
  rw [e2]
  simp only [kap_rows]
  rw [sum_delta, sum_delta]
  ring

/-- The inverse DCT undoes the forward DCT. -/
theorem idct_fdct (s : Fin 8 → Fin 8 → ℝ) (i j : Fin 8) :
    idealIdct (idealFdct s) i j = s i j := by
  have h := idct_kap (idealFdct s) i j
  have h2 : 134217728 * ∑ v, ∑ u, kap i v * kap j u * idealFdct s v u =
      134217728 * 134217728 * s i j := by
    rw [← kap_round s i j, Finset.mul_sum]
    refine Finset.sum_congr rfl fun v _ => ?_
    rw [Finset.mul_sum]
    refine Finset.sum_congr rfl fun u _ => ?_
    rw [← fdct_kap]
    ring
  rw [← h] at h2
  linarith

/-- The forward DCT keeps the energy. -/
theorem c57_energy (s : Fin 8 → Fin 8 → ℝ) : energy (idealFdct s) = energy s := by
  -- both are the scalar product of `s` with the inverse of its transform
  have h1 : 134217728 * energy (idealFdct s) =
      ∑ v, ∑ u, (∑ y, ∑ x, kap y v * kap x u * s y x) * idealFdct s v u := by
    unfold energy
    rw [Finset.mul_sum]
    refine Finset.sum_congr rfl fun v _ => ?_
    rw [Finset.mul_sum]
    refine Finset.sum_congr rfl fun u _ => ?_
    rw [← fdct_kap]
    ring
  have h2 : 134217728 * energy s =
      ∑ y, ∑ x, (∑ v, ∑ u, kap y v * kap x u * idealFdct s v u) * s y x := by
    unfold energy
    rw [Finset.mul_sum]
    refine Finset.sum_congr rfl fun y _ => ?_
    rw [Finset.mul_sum]
    refine Finset.sum_congr rfl fun x _ => ?_
    rw [← idct_kap, idct_fdct]
    ring
  have h3 : ∑ v, ∑ u, (∑ y, ∑ x, kap y v * kap x u * s y x) * idealFdct s v u =
      ∑ y, ∑ x, (∑ v, ∑ u, kap y v * kap x u * idealFdct s v u) * s y x := by
    simp only [Finset.sum_mul]
    rw [Finset.sum_congr rfl fun v _ => Finset.sum_comm]
    rw [Finset.sum_comm]
    refine Finset.sum_congr rfl fun y _ => ?_
    rw [Finset.sum_congr rfl fun v _ => (Finset.sum_congr rfl fun u _ => rfl : _ = ∑ u, _)]
    rw [Finset.sum_congr rfl fun v _ => Finset.sum_comm, Finset.sum_comm]
    refine Finset.sum_congr rfl fun x _ => ?_
    refine Finset.sum_congr rfl fun v _ => ?_
    exact Finset.sum_congr rfl fun u _ => by ring
  linarith

/-- The quantiser of the coefficient in row `i`, column `j`. -/
noncomputable def Spec.quantR (qt : List Nat) (i j : Fin 8) : ℝ := ((qt.getD (8 * i + j) 0 : Nat) : ℝ)

/-- The coefficients are those of the samples `s`, divided by the quantisers and rounded to one of the
nearest integers. -/
def Spec.Quantised (block : List I16) (qt : List Nat) (s : Fin 8 → Fin 8 → ℝ) : Prop :=
  ∀ i j, |coefR block qt i j - idealFdct (fun i j => s i j - 128) i j| ≤ quantR qt i j / 2

/-- Half the Euclidean norm of the quantisation table. -/
noncomputable def Spec.quantNorm (qt : List Nat) : ℝ := √(energy (quantR qt)) / 2

theorem satR_lip (a b : ℝ) : |satR a - satR b| ≤ |a - b| := by
  unfold satR
  refine (abs_max_sub_max_le_max _ _ _ _).trans ?_
  refine max_le (by simp) ((abs_min_sub_min_le_max _ _ _ _).trans (max_le (by simp) le_rfl))

theorem satR_id {x : ℝ} (h : 0 ≤ x ∧ x ≤ 255) : satR x = x := by
  unfold satR
  rw [min_eq_right h.2, max_eq_right h.1]

theorem idct_le {m : Fin 8 → Fin 8 → ℝ} {E : ℝ} (hE : 0 ≤ E) (hm : energy m ≤ E ^ 2) (i j : Fin 8) :
    |idealIdct m i j| ≤ E := by
  have h := sep_le (kap_sq i).le (kap_sq j).le hm (K := 134217728 * E) (by positivity)
    (by nlinarith [sq_nonneg E])
  rw [← idct_kap, abs_mul, abs_of_pos (by norm_num : (0 : ℝ) < 134217728)] at h
  linarith

theorem idct_sub (a b : Fin 8 → Fin 8 → ℝ) (i j : Fin 8) :
    idealIdct (fun i j => a i j - b i j) i j = idealIdct a i j - idealIdct b i j := by
  unfold idealIdct
  rw [← mul_sub, ← Finset.sum_sub_distrib]
  congr 1
  refine Finset.sum_congr rfl fun u _ => ?_
  rw [← Finset.sum_sub_distrib]
  exact Finset.sum_congr rfl fun v _ => by ring

theorem energy_nonneg (m : Fin 8 → Fin 8 → ℝ) : 0 ≤ energy m :=
  Finset.sum_nonneg fun _ _ => Finset.sum_nonneg fun _ _ => sq_nonneg _

theorem energy_le_of {m n : Fin 8 → Fin 8 → ℝ} (h : ∀ i j, |m i j| ≤ n i j) : energy m ≤ energy n :=
  Finset.sum_le_sum fun i _ => Finset.sum_le_sum fun j _ => by
    rw [← sq_abs]
    exact pow_le_pow_left₀ (abs_nonneg _) (h i j) 2

theorem le_energy (m : Fin 8 → Fin 8 → ℝ) (i j : Fin 8) : m i j ^ 2 ≤ energy m :=
  (Finset.single_le_sum (f := fun j => m i j ^ 2) (fun _ _ => sq_nonneg _) (Finset.mem_univ j)).trans
    (Finset.single_le_sum (f := fun i => ∑ j, m i j ^ 2)
      (fun _ _ => Finset.sum_nonneg fun _ _ => sq_nonneg _) (Finset.mem_univ i))

/-- The triangle inequality. -/
theorem energy_add {a b c : Fin 8 → Fin 8 → ℝ} {A B : ℝ} (hA : 0 ≤ A) (hB : 0 ≤ B)
    (ha : energy a ≤ A ^ 2) (hb : energy b ≤ B ^ 2) (hc : ∀ i j, c i j = a i j + b i j) :
    energy c ≤ (A + B) ^ 2 := by
  have h1 : (∑ p : Fin 8 × Fin 8, a p.1 p.2 * b p.1 p.2) ^ 2 ≤
      (∑ p : Fin 8 × Fin 8, a p.1 p.2 ^ 2) * ∑ p : Fin 8 × Fin 8, b p.1 p.2 ^ 2 :=
    Finset.sum_mul_sq_le_sq_mul_sq _ _ _
  rw [Fintype.sum_prod_type, Fintype.sum_prod_type, Fintype.sum_prod_type] at h1
  have h2 : |∑ i, ∑ j, a i j * b i j| ≤ A * B := by
    apply abs_le_of_sq_le_sq _ (mul_nonneg hA hB)
    refine h1.trans ?_
    rw [mul_pow]
    exact mul_le_mul ha hb (energy_nonneg b) (sq_nonneg A)
  have h3 : energy c = energy a + 2 * (∑ i, ∑ j, a i j * b i j) + energy b := by
    unfold energy
    rw [Finset.mul_sum, ← Finset.sum_add_distrib, ← Finset.sum_add_distrib]
    refine Finset.sum_congr rfl fun i _ => ?_
    rw [Finset.mul_sum, ← Finset.sum_add_distrib, ← Finset.sum_add_distrib]
    refine Finset.sum_congr rfl fun j _ => ?_
    rw [hc]
    ring
  rw [abs_le] at h2
  rw [h3]
  nlinarith

theorem energy_samples {s : Fin 8 → Fin 8 → ℝ} (hs : ∀ i j, 0 ≤ s i j ∧ s i j ≤ 255) :
    energy (idealFdct fun i j => s i j - 128) ≤ 1024 ^ 2 := by
  rw [c57_energy]
  have h : energy (fun i j => s i j - 128) ≤ energy fun _ _ => 128 := energy_le_of fun i j => by
    rw [abs_le]
    constructor <;> linarith [(hs i j).1, (hs i j).2]
  refine h.trans ?_
  unfold energy
  norm_num

/-- **C57.** Compression loses no more than the quantisation does: for every block of samples and every
quantisation table, decode the transform of the samples, divided by the quantisers and rounded. Both
implementations give back every sample up to `1.13 + 1.0005 Q`, `Q` being half the Euclidean norm of the
quantisation table. The condition excludes flat blocks that overflow in the scalar implementation, for
which the property is false: see `c57_false`. -/
theorem c57_round_trip_partial (f : IdctFn) {block : List I16} {qt : List Nat} {s : Fin 8 → Fin 8 → ℝ}
    (hs : ∀ i j, 0 ≤ s i j ∧ s i j ≤ 255) (hq : ∀ q ∈ qt, q ≤ 255) (h : Quantised block qt s)
    (hd : f = .scalar → Flat block → DcFits block qt) (i j : Fin 8) :
    ∃ v : I16, sample (f.block block qt) i j = some v ∧ IsSample v ∧
      |(v.toInt : ℝ) - s i j| ≤ 113 / 100 + 2049 / 2048 * quantNorm qt := by
  have hQ : 0 ≤ quantNorm qt := by unfold quantNorm; positivity
  have hF := energy_samples hs
  have hδ : energy (fun i j => coefR block qt i j - idealFdct (fun i j => s i j - 128) i j) ≤
      quantNorm qt ^ 2 := by
    have : energy (fun i j => coefR block qt i j - idealFdct (fun i j => s i j - 128) i j) ≤
      energy (fun i j => quantR qt i j / 2) := energy_le_of h
    refine this.trans (le_of_eq ?_)
    unfold quantNorm
    rw [div_pow, Real.sq_sqrt (energy_nonneg _)]
    unfold energy
    rw [Finset.sum_div]
    refine Finset.sum_congr rfl fun i _ => ?_
    rw [Finset.sum_div]
    exact Finset.sum_congr rfl fun j _ => by ring
  have hE := energy_add (c := coefR block qt) (by norm_num) hQ hF hδ (fun i j => by ring)
  have hb : InRange block qt := by
    intro i j
    have h1 : |idealFdct (fun i j => s i j - 128) i j| ≤ 1024 :=
      abs_le_of_sq_le_sq ((le_energy _ i j).trans hF) (by norm_num)
    have h2 : quantR qt i j ≤ 255 := by
      unfold quantR
      have : qt.getD (8 * i + j) 0 ≤ 255 := by
        rw [List.getD_eq_getElem?_getD]
        cases hx : qt[8 * (i : Nat) + j]? with
        | none => simp
        | some q => exact hq q (List.mem_of_getElem? hx)
      exact_mod_cast this
    have h3 := h i j
    have h4 : |coefR block qt i j| ≤ 2048 := by
      rw [abs_le] at *
      constructor <;> linarith
    unfold coefR at h4
    exact_mod_cast h4
  obtain ⟨v, v1, v2, v3, v4⟩ := c56_accuracy_partial f hb hd (E := 1024 + quantNorm qt) (by linarith) hE i j
  refine ⟨v, v1, v2, ?_⟩
  have hv : |(v.toInt : ℝ) - satR (128 + idealIdct (coefR block qt) i j)| ≤
      113 / 100 + quantNorm qt / 2048 := by
    by_cases hf : Flat block
    · refine (v4 hf).trans ?_
      linarith
    · refine (v3 hf).trans ?_
      linarith
  have hi := idct_le hQ hδ i j
  rw [idct_sub, idct_fdct] at hi
  have hsat := satR_lip (128 + idealIdct (coefR block qt) i j) (s i j)
  rw [satR_id (hs i j), show 128 + idealIdct (coefR block qt) i j - s i j =
    idealIdct (coefR block qt) i j - (s i j - 128) by ring] at hsat
  have := abs_sub_le (v.toInt : ℝ) (satR (128 + idealIdct (coefR block qt) i j)) (s i j)
  linarith

theorem kap_column {v : Fin 8} (hv : v ≠ 0) : ∑ y, kap y v = 0 := by
  have e : ∀ y, kap y v = kcos ((2 * y + 1) * v) := fun y => if_neg hv
  simp only [e]
  rw [Fin.sum_univ_eight]
  rw [kcos_mod ((2 * (0 : Fin 8) + 1) * v), kcos_mod ((2 * (1 : Fin 8) + 1) * v),
    kcos_mod ((2 * (2 : Fin 8) + 1) * v), kcos_mod ((2 * (3 : Fin 8) + 1) * v),
    kcos_mod ((2 * (4 : Fin 8) + 1) * v), kcos_mod ((2 * (5 : Fin 8) + 1) * v),
    kcos_mod ((2 * (6 : Fin 8) + 1) * v), kcos_mod ((2 * (7 : Fin 8) + 1) * v)]
  fin_cases v
  · exact absurd rfl hv
  all_goals
    norm_num [kcos_9, kcos_10, kcos_11, kcos_12, kcos_13, kcos_14, kcos_15]
    try ring

theorem fdct_const (c : ℝ) (v u : Fin 8) :
    idealFdct (fun _ _ => c) v u = if v = 0 ∧ u = 0 then 8 * c else 0 := by
  have h := fdct_kap (fun _ _ => c) v u
  have e : ∑ y, ∑ x, kap y v * kap x u * c = (∑ y, kap y v) * (∑ x, kap x u) * c := by
    rw [Finset.sum_mul, Finset.sum_mul]
    refine Finset.sum_congr rfl fun y _ => ?_
    rw [Finset.mul_sum, Finset.sum_mul]
  rw [e] at h
  by_cases hv : v = 0
  · by_cases hu : u = 0
    · subst hv hu
      rw [if_pos ⟨rfl, rfl⟩]
      have k0 : ∑ y : Fin 8, kap y 0 = 32768 := by
        simp [kap]
        norm_num
      rw [k0] at h
      linarith
    · rw [kap_column hu, mul_zero, zero_mul] at h
      rw [if_neg fun e => hu e.2]
      linarith
  · rw [kap_column hv, zero_mul, zero_mul] at h
    rw [if_neg fun e => hv e.1]
    linarith

/-- A grayscale file of 8 x 8 samples with quantiser 32 for all coefficients, one data unit with DC
coefficient 32 and AC coefficients 0. -/
def whiteFile : List UInt8 :=
  [0xFF, 0xD8] ++
  [0xFF, 0xDB, 0x00, 0x43, 0x00] ++ List.replicate 64 32 ++
  [0xFF, 0xC0, 0x00, 0x0B, 8, 0, 8, 0, 8, 1, 1, 0x11, 0] ++
  ([0xFF, 0xC4, 0x00, 0x14, 0x00, 1] ++ List.replicate 15 0 ++ [6]) ++
  ([0xFF, 0xC4, 0x00, 0x14, 0x10, 1] ++ List.replicate 15 0 ++ [0]) ++
  [0xFF, 0xDA, 0x00, 0x08, 1, 1, 0x00, 0, 63, 0] ++ [0x40, 0xFF, 0xD9]

/-- **C57 is false** of the scalar implementation: a white block, quantised with 32, becomes DC
coefficient 32 and nothing else. It comes back as 256, and the file that holds it decodes to black;
with AVX2 it decodes to white. -/
theorem c57_false :
    Quantised (flatBlock 32) (List.replicate 64 32) (fun _ _ => 255) ∧
    (∀ i j : Fin 8, sample (idctBlockScalar (flatBlock 32) (List.replicate 64 32)) i j = some 256) ∧
    ((Decoder.new ⟨false, false⟩).decodeBuffer whiteFile).1 = .ok (List.replicate 64 0) ∧
    ((Decoder.new ⟨true, true⟩).decodeBuffer whiteFile).1 = .ok (List.replicate 64 255) := by
  refine ⟨?_, by decide +kernel, by decide +kernel, by decide +kernel⟩
  intro i j
  have hq : quantR (List.replicate 64 32) i j = 32 := by
    unfold quantR
    have : (List.replicate 64 32).getD (8 * i + j) 0 = 32 := by
      revert i j
      decide
    rw [this]
    norm_num
  have hc : coefR (flatBlock 32) (List.replicate 64 32) i j = if i = 0 ∧ j = 0 then 1024 else 0 := by
    unfold coefR
    have : coef (flatBlock 32) (List.replicate 64 32) i j = if i = 0 ∧ j = 0 then 1024 else 0 := by
      clear hq
      revert i j
      decide +kernel
    rw [this]
    split <;> norm_num
  rw [fdct_const, hq, hc]
  split <;> norm_num

/-! ### Whole files -/

/-- The description `g` is that of the samples `img`: every data unit holds the quantised transform of
its 64 samples, of which those outside the image may be chosen freely. -/
def Spec.GrayJpeg.Encodes (g : GrayJpeg) (img : Nat → Nat → ℝ) : Prop :=
  ∀ by' bx, by' < (g.height + 7) / 8 → bx < (g.width + 7) / 8 →
    Quantised (coded (g.intervals.flatten.getD (by' * ((g.width + 7) / 8) + bx) []))
      (naturalQuant g.quant) fun i j => img (8 * by' + i) (8 * bx + j)

theorem lowByte_sample {v : I16} (h : IsSample v) : ((lowByte v).toNat : Int) = v.toInt := by
  unfold IsSample at h
  unfold lowByte
  rw [UInt8.toNat_ofNat']
  omega

theorem naturalQuant_le (q : List UInt8) : ∀ x ∈ naturalQuant q, x ≤ 255 := by
  intro x hx
  unfold naturalQuant at hx
  obtain ⟨z, -, rfl⟩ := List.mem_map.1 hx
  have := (q.getD (zigzag.idxOf z) 0).toNat_lt
  omega

/-- **C57, whole files.** Encode a grayscale image, of samples between 0 and 255, with any tables and
restart intervals, and decode the file: every sample comes back up to `1.13 + 1.0005 Q`. Excluded are
the widths for which the decoder panics (C53), and for the scalar implementation blocks whose only
coefficient overflows the range of samples (`c57_false`). -/
theorem c57_gray_partial {g : GrayJpeg} (V : g.Valid) (cpu : Cpu) (o : Options)
    (hw : g.width ≤ o.getMaxWidth) (hh : g.height ≤ o.getMaxHeight)
    (hwide : 64 * ((g.width + 7) / 8) < 9 * g.width) {img : Nat → Nat → ℝ}
    (himg : ∀ y x, 0 ≤ img y x ∧ img y x ≤ 255) (henc : g.Encodes img)
    (hd : chooseIdct cpu o.getUseUnsafe = .scalar → ∀ b ∈ g.intervals.flatten, Flat (coded b) →
      DcFits (coded b) (naturalQuant g.quant)) :
    ∃ bytes, ((Decoder.newWithOptions cpu o).decodeBuffer g.bytes).1 = .ok bytes ∧
      bytes.length = g.height * g.width ∧
      ∀ y x, y < g.height → x < g.width → ∃ b, bytes[y * g.width + x]? = some b ∧
        |(b.toNat : ℝ) - img y x| ≤ 113 / 100 + 2049 / 2048 * quantNorm (naturalQuant g.quant) := by
  refine ⟨_, by rw [c53_gray_partial V cpu o hw hh, if_pos hwide], grayBytes_length _ _ _ _ _, ?_⟩
  intro y x hy hx
  have hp : y * g.width + x < g.height * g.width := by
    calc y * g.width + x < y * g.width + g.width := by omega
      _ = (y + 1) * g.width := by ring
      _ ≤ g.height * g.width := Nat.mul_le_mul_right _ hy
  have hmw : x / 8 < (g.width + 7) / 8 := by omega
  have hmh : y / 8 < (g.height + 7) / 8 := by omega
  have hidx : y / 8 * ((g.width + 7) / 8) + x / 8 < g.intervals.flatten.length := by
    rw [V.count]
    calc y / 8 * ((g.width + 7) / 8) + x / 8 < y / 8 * ((g.width + 7) / 8) + (g.width + 7) / 8 := by omega
      _ = (y / 8 + 1) * ((g.width + 7) / 8) := by ring
      _ ≤ _ := Nat.mul_le_mul_right _ hmh
  obtain ⟨v, v1, v2, v3⟩ := c57_round_trip_partial (chooseIdct cpu o.getUseUnsafe)
    (fun i j => himg _ _) (naturalQuant_le g.quant) (henc (y / 8) (x / 8) hmh hmw)
    (fun hsc hfl => hd hsc _ (by
      rw [List.getD_eq_getElem?_getD, List.getElem?_eq_getElem hidx]
      exact List.getElem_mem _) hfl)
    ⟨y % 8, Nat.mod_lt _ (by decide)⟩ ⟨x % 8, Nat.mod_lt _ (by decide)⟩
  refine ⟨lowByte v, ?_, ?_⟩
  · unfold grayBytes
    rw [List.getElem?_map, List.getElem?_range hp]
    simp only [Option.map_some]
    rw [show (y * g.width + x) / g.width = y by
        rw [Nat.mul_comm, Nat.mul_add_div (by omega), Nat.div_eq_of_lt hx, Nat.add_zero],
      show (y * g.width + x) % g.width = x by
        rw [Nat.mul_comm, Nat.mul_add_mod, Nat.mod_eq_of_lt hx]]
    unfold planeSample
    dsimp only at v1
    rw [v1]
    rfl
  · dsimp only at v3
    rw [Nat.div_add_mod, Nat.div_add_mod] at v3
    have : ((lowByte v).toNat : ℝ) = (v.toInt : ℝ) := by exact_mod_cast lowByte_sample v2
    rw [this]
    exact v3

end Zune
