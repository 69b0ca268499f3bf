import Verif.Spec.Bits
import Mathlib.Tactic.Ring
import Mathlib.Tactic.Linarith
import Mathlib.Data.Nat.Bitwise
/-! Lemmas about bit strings. -/

namespace Zune
open Spec

@[simp] theorem natBits_length (n v : Nat) : (natBits n v).length = n := by
  induction n with
  | zero => rfl
  | succ n ih => simp [natBits, ih]

theorem natBits_add (a b v : Nat) : natBits (a + b) v = natBits a (v / 2 ^ b) ++ natBits b v := by
  induction a with
  | zero => simp [natBits]
  | succ a ih =>
    rw [show a + 1 + b = (a + b) + 1 by omega]
    simp [natBits, ih, Nat.testBit_div_two_pow]

theorem natBits_mod (n v : Nat) : natBits n (v % 2 ^ n) = natBits n v := by
  suffices h : ∀ m, n ≤ m → natBits n (v % 2 ^ m) = natBits n v from h n (Nat.le_refl _)
  induction n with
  | zero => intros; rfl
  | succ n ih =>
    intro m hm
    have : n < m := by omega
    simp [natBits, ih m (by omega), Nat.testBit_mod_two_pow, this]

theorem natBits_zero (n : Nat) : natBits n 0 = List.replicate n false := by
  induction n with
  | zero => rfl
  | succ n ih => simp [natBits, ih, List.replicate_succ]

theorem bitsNat_foldl (l : List Bool) (a : Nat) :
    List.foldl (fun a b => 2 * a + b.toNat) a l = a * 2 ^ l.length + bitsNat l := by
  induction l generalizing a with
  | nil => simp [bitsNat]
  | cons b l ih =>
    simp only [List.foldl_cons, List.length_cons, bitsNat]
    rw [ih, ih (2 * 0 + b.toNat)]
    simp only [Nat.pow_succ]
    ring

theorem bitsNat_cons (b : Bool) (l : List Bool) :
    bitsNat (b :: l) = b.toNat * 2 ^ l.length + bitsNat l := by
  show List.foldl _ _ _ = _
  rw [List.foldl_cons, bitsNat_foldl]; simp

theorem bitsNat_append (l m : List Bool) :
    bitsNat (l ++ m) = bitsNat l * 2 ^ m.length + bitsNat m := by
  show List.foldl _ _ _ = _
  rw [List.foldl_append, bitsNat_foldl]; rfl

theorem bitsNat_lt (l : List Bool) : bitsNat l < 2 ^ l.length := by
  induction l with
  | nil => simp [bitsNat]
  | cons b l ih =>
    rw [bitsNat_cons, List.length_cons, Nat.pow_succ]
    cases b <;> simp <;> omega

theorem bitsNat_natBits (n v : Nat) : bitsNat (natBits n v) = v % 2 ^ n := by
  induction n with
  | zero => simp [natBits, bitsNat, Nat.mod_one]
  | succ n ih =>
    rw [natBits, bitsNat_cons, ih, natBits_length, Nat.toNat_testBit, Nat.mod_pow_succ]
    ring

theorem natBits_bitsNat (l : List Bool) : natBits l.length (bitsNat l) = l := by
  induction l with
  | nil => rfl
  | cons b l ih =>
    have hlt := bitsNat_lt l
    rw [List.length_cons, natBits, bitsNat_cons]
    congr 1
    · rw [Nat.mul_comm, Nat.testBit_two_pow_mul_add _ hlt]
      cases b <;> simp
    · rw [← natBits_mod, Nat.add_mod, Nat.mul_mod_left, Nat.zero_add, Nat.mod_mod, natBits_mod, ih]

theorem natBits_inj {n a b : Nat} (ha : a < 2 ^ n) (hb : b < 2 ^ n)
    (h : natBits n a = natBits n b) : a = b := by
  have := congrArg bitsNat h
  rwa [bitsNat_natBits, bitsNat_natBits, Nat.mod_eq_of_lt ha, Nat.mod_eq_of_lt hb] at this

theorem natBits_take {n v k : Nat} (h : k ≤ n) :
    (natBits n v).take k = natBits k (v / 2 ^ (n - k)) := by
  obtain ⟨d, rfl⟩ := Nat.exists_eq_add_of_le h
  rw [natBits_add, List.take_append_of_le_length (by simp), List.take_of_length_le (by simp)]
  simp

theorem natBits_drop {n v k : Nat} (h : k ≤ n) : (natBits n v).drop k = natBits (n - k) v := by
  obtain ⟨d, rfl⟩ := Nat.exists_eq_add_of_le h
  rw [natBits_add, List.drop_append_of_le_length (by simp), List.drop_of_length_le (by simp)]
  simp

/-- A bit string is a prefix of the `n` bits of `v` exactly when it spells the top of `v`. -/
theorem natBits_prefix {n v l c : Nat} (h : l ≤ n) (hv : v < 2 ^ n) (hc : c < 2 ^ l) :
    natBits l c <+: natBits n v ↔ v / 2 ^ (n - l) = c := by
  have hq : v / 2 ^ (n - l) < 2 ^ l := by
    rw [Nat.div_lt_iff_lt_mul (by positivity), ← Nat.pow_add]; convert hv using 2; omega
  rw [List.prefix_iff_eq_take, natBits_length, natBits_take h]
  constructor
  · intro e; exact (natBits_inj hc hq e).symm
  · intro e; rw [e]

end Zune
