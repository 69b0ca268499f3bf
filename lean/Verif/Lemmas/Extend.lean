import Verif.Model.Bitstream
import Verif.Spec.Extend
import Mathlib.Tactic.Ring
import Mathlib.Tactic.Linarith
import Mathlib.Tactic.IntervalCases
/-! Sign extension of magnitude bits. -/

namespace Zune
open Spec

theorem huffExtend_toInt (s v : Nat) (h1 : 1 ≤ s) (h2 : s ≤ 15) (hv : v < 2 ^ s) :
    (huffExtend (BitVec.ofNat 32 v) s).toInt = extend s v := by
  unfold huffExtend extend
  have hs : (1#32 <<< (s - 1)).toNat = 2 ^ (s - 1) := by interval_cases s <;> rfl
  have hpow : 2 ^ s = 2 * 2 ^ (s - 1) := by rw [← Nat.pow_succ']; congr 1; omega
  have hle : 2 ^ (s - 1) ≤ 2 ^ 14 := Nat.pow_le_pow_right (by norm_num) (by omega)
  have hx : ((-1#32) <<< s + 1#32).toNat = 2 ^ 32 - 2 ^ s + 1 := by interval_cases s <;> rfl
  by_cases hc : v < 2 ^ (s - 1)
  · rw [if_pos hc]
    have hy : (BitVec.ofNat 32 v - 1#32 <<< (s - 1)).sshiftRight 31 = BitVec.allOnes 32 := by
      apply BitVec.eq_of_toInt_eq
      rw [BitVec.toInt_sshiftRight, BitVec.toInt_allOnes, Int.shiftRight_eq_div_pow,
        BitVec.toInt_eq_toNat_cond, BitVec.toNat_sub, hs, BitVec.toNat_ofNat]
      simp only [show (0 < 32) = True from by simp, if_true]
      split <;> omega
    rw [hy, BitVec.allOnes_and]
    rw [BitVec.toInt_eq_toNat_cond, BitVec.toNat_add, hx, BitVec.toNat_ofNat]
    have hpi : (2 : Int) ^ s = ((2 ^ s : Nat) : Int) := by push_cast; rfl
    rw [hpi]
    split <;> omega
  · rw [if_neg hc]
    have hy : (BitVec.ofNat 32 v - 1#32 <<< (s - 1)).sshiftRight 31 = 0#32 := by
      apply BitVec.eq_of_toInt_eq
      rw [BitVec.toInt_sshiftRight, Int.shiftRight_eq_div_pow,
        BitVec.toInt_eq_toNat_cond, BitVec.toNat_sub, hs, BitVec.toNat_ofNat]
      simp only [BitVec.toInt_zero]
      split <;> omega
    rw [hy, BitVec.zero_and, BitVec.add_zero, BitVec.toInt_eq_toNat_cond, BitVec.toNat_ofNat]
    split <;> omega

/-- Additional bits and extension are inverse to each other. -/
theorem extend_additional (s : Nat) (d : Int) (h1 : 1 ≤ s) (h : inCategory s d) :
    additional s d < 2 ^ s ∧ extend s (additional s d) = d := by
  obtain ⟨ha, hb⟩ := h
  have hpow : 2 ^ s = 2 * 2 ^ (s - 1) := by rw [← Nat.pow_succ']; congr 1; omega
  have hpi : (2 : Int) ^ s = ((2 ^ s : Nat) : Int) := by push_cast; rfl
  unfold additional extend
  rw [hpi]
  generalize 2 ^ (s - 1) = q at *
  rw [hpow] at hb ⊢
  have hq : 0 < q := by
    rcases Nat.eq_zero_or_pos q with rfl | h
    · omega
    · exact h
  by_cases hd : 0 < d
  · rw [if_pos hd, Int.emod_eq_of_lt (by omega) (by omega)]
    constructor
    · omega
    · rw [if_neg (by omega)]; omega
  · rw [if_neg hd]
    have : (d - 1) % ((2 * q : Nat) : Int) = d - 1 + ((2 * q : Nat) : Int) := by
      rw [← Int.add_emod_right, Int.emod_eq_of_lt (by omega) (by omega)]
    rw [this]
    constructor
    · omega
    · rw [if_pos (by omega)]; omega

theorem extend_inCategory (s v : Nat) (h1 : 1 ≤ s) (hv : v < 2 ^ s) :
    inCategory s (extend s v) ∧ additional s (extend s v) = v := by
  have hpow : 2 ^ s = 2 * 2 ^ (s - 1) := by rw [← Nat.pow_succ']; congr 1; omega
  have hpi : (2 : Int) ^ s = ((2 ^ s : Nat) : Int) := by push_cast; rfl
  have hq : 0 < 2 ^ (s - 1) := by positivity
  unfold inCategory additional extend
  rw [hpi]
  generalize 2 ^ (s - 1) = q at *
  rw [hpow] at hv ⊢
  by_cases hc : v < q
  · rw [if_pos hc]
    refine ⟨by omega, ?_⟩
    rw [if_neg (by omega), ← Int.add_emod_right, Int.emod_eq_of_lt (by omega) (by omega)]
    omega
  · rw [if_neg hc]
    refine ⟨by omega, ?_⟩
    rw [if_pos (by omega), Int.emod_eq_of_lt (by omega) (by omega)]
    omega

end Zune
