import Verif.Lemmas.Huffman
import Verif.Spec.Extend
/-! The combined AC table. -/

namespace Zune
open Spec

theorem genFast_spec {ls values : List Nat} (hp : ls.Pairwise (· ≤ ·))
    (hK : kr ls < 2 ^ 16) (hv : ls.length ≤ values.length) (w : Nat) (hw : w < 2 ^ 16) :
    (genFast (entriesOf ls values)).length = 512 ∧
    (∀ k (hk : k < ls.length), ls[k] ≤ 9 → Covers ls w k →
      (genFast (entriesOf ls values))[w / 128]? = some k) ∧
    ((∀ k (hk : k < ls.length), ls[k] ≤ 9 → ¬ Covers ls w k) →
      (genFast (entriesOf ls values))[w / 128]? = some 255) := by
  have hform : genFast (entriesOf ls values) =
      ((entriesOf ls values).zipIdx.filter (fun e => e.1.1 ≤ 9)).foldl
        (fun t e => fillRange t (e.1.2.1 <<< (9 - e.1.1)) (1 <<< (9 - e.1.1)) e.2)
        (List.replicate 512 255) := rfl
  have hmem : ∀ e ∈ (entriesOf ls values).zipIdx.filter (fun e => e.1.1 ≤ 9),
      ∃ k, ∃ hk : k < ls.length, ls[k] ≤ 9 ∧
        e = ((ls[k], kr (ls.take k) / 2 ^ (16 - ls[k]), values[k]), k) := by
    intro e he
    obtain ⟨he1, he2⟩ := List.mem_filter.1 he
    obtain ⟨e, k⟩ := e
    have := List.mem_zipIdx_iff_getElem?.1 he1
    have hk : k < ls.length := by
      have := (List.getElem?_eq_some_iff.1 this).1
      rwa [entriesOf_length _ _ hv] at this
    rw [show ((e, k).1, (e, k).2) = (e, k) from rfl] at *
    simp only at this
    rw [entriesOf_getElem ls values k hk (by omega)] at this
    have := Option.some.inj this
    subst this
    exact ⟨k, hk, by simpa using he2, rfl⟩
  have hbd : ∀ e ∈ (entriesOf ls values).zipIdx.filter (fun e => e.1.1 ≤ 9),
      e.1.2.1 <<< (9 - e.1.1) + 1 <<< (9 - e.1.1) ≤ (List.replicate 512 255).length := by
    intro e he
    obtain ⟨k, hk, h9, rfl⟩ := hmem e he
    rw [List.length_replicate]; exact bound9 hp hK hk h9
  rw [hform]
  refine ⟨?_, ?_, ?_⟩
  · rw [foldl_fill_length (fun e : (Nat × Nat × Nat) × Nat => e.1.2.1 <<< (9 - e.1.1))
      (fun e => 1 <<< (9 - e.1.1)) (fun e => e.2) _ _ hbd, List.length_replicate]
  · intro k hk h9 hc
    apply foldl_fill_some (fun e : (Nat × Nat × Nat) × Nat => e.1.2.1 <<< (9 - e.1.1))
      (fun e => 1 <<< (9 - e.1.1)) (fun e => e.2) _ _ hbd
    · intro e he hcov
      obtain ⟨j, hj, hj9, rfl⟩ := hmem e he
      exact ((cover9 hp hj hj9 w).1 hcov).unique hc
    · refine ⟨((ls[k], kr (ls.take k) / 2 ^ (16 - ls[k]), values[k]), k), ?_,
        (cover9 hp hk h9 w).2 hc⟩
      rw [List.mem_filter]
      exact ⟨List.mem_zipIdx_iff_getElem?.2 (entriesOf_getElem ls values k hk (by omega)),
        by simpa using h9⟩
  · intro hno
    rw [foldl_fill_none (fun e : (Nat × Nat × Nat) × Nat => e.1.2.1 <<< (9 - e.1.1))
      (fun e => 1 <<< (9 - e.1.1)) (fun e => e.2) _ _ hbd]
    · rw [List.getElem?_replicate, if_pos (by omega)]
    · intro e he hcov
      obtain ⟨j, hj, hj9, rfl⟩ := hmem e he
      exact hno j hj hj9 ((cover9 hp hj hj9 w).1 hcov)

/-- Contents of the combined table. -/
theorem genFastAc_spec {ls values : List Nat} (hp : ls.Pairwise (· ≤ ·))
    (hK : kr ls < 2 ^ 16) (hv : ls.length ≤ values.length) (prog : Bool) (w : Nat)
    (hw : w < 2 ^ 16) :
    (genFastAc (entriesOf ls values) prog).length = 512 ∧
    (∀ k (hk : k < ls.length), ls[k] ≤ 9 → Covers ls w k → k < 255 →
      (genFastAc (entriesOf ls values) prog)[w / 128]? =
        some (fastAcEntry (w / 128) values[k] ls[k] prog)) ∧
    ((∀ k (hk : k < ls.length), ls[k] ≤ 9 → k < 255 → ¬ Covers ls w k) →
      (genFastAc (entriesOf ls values) prog)[w / 128]? = some 0) := by
  obtain ⟨g0, g1, g2⟩ := genFast_spec hp hK hv w hw
  refine ⟨by simp [genFastAc, g0], ?_, ?_⟩
  · intro k hk h9 hc h255
    rw [genFastAc, List.getElem?_map, List.getElem?_zipIdx, g1 k hk h9 hc]
    simp only [Option.map_some, Nat.zero_add, if_pos h255,
      entriesOf_getElem ls values k hk (by omega)]
  · intro hno
    by_cases hex : ∃ k, ∃ hk : k < ls.length, ls[k] ≤ 9 ∧ Covers ls w k
    · obtain ⟨k, hk, h9, hc⟩ := hex
      rw [genFastAc, List.getElem?_map, List.getElem?_zipIdx, g1 k hk h9 hc]
      have : ¬ k < 255 := fun h => hno k hk h9 h hc
      simp [this]
    · rw [genFastAc, List.getElem?_map, List.getElem?_zipIdx,
        g2 (fun k hk h9 hc => hex ⟨k, hk, h9, hc⟩)]
      simp

/-- The packing of a value, a run and a length into 16 bits can be undone as long as the value has
six bits. -/
theorem fastPack (k : Int) (run n : Nat) (hk : -32 ≤ k) (hk' : k ≤ 31) (hr : run < 16)
    (hn : n < 16) :
    let e : I16 := (BitVec.ofInt 16 k <<< 10) + BitVec.ofNat 16 (run <<< 4) + BitVec.ofNat 16 n
    ((e >>> 4) &&& 63).toNat = run ∧ (e.sshiftRight 10).toInt = k ∧ (e &&& 15).toNat = n ∧
      (0 < n → e ≠ 0) := by
  intro e
  have he : e.toNat = (k % 64).toNat * 1024 + run * 16 + n := by
    simp only [e, BitVec.toNat_add, BitVec.toNat_shiftLeft, BitVec.toNat_ofNat, BitVec.toNat_ofInt,
      Nat.shiftLeft_eq]
    omega
  have h63 : (63 : I16) = 63#16 := rfl
  have h15 : (15 : I16) = 15#16 := rfl
  refine ⟨?_, ?_, ?_, ?_⟩
  · rw [BitVec.toNat_and, BitVec.toNat_ushiftRight, he, show (63 : I16).toNat = 2 ^ 6 - 1 from rfl,
      Nat.and_two_pow_sub_one_eq_mod, Nat.shiftRight_eq_div_pow]
    omega
  · rw [BitVec.toInt_sshiftRight, Int.shiftRight_eq_div_pow, BitVec.toInt_eq_toNat_cond, he]
    split <;> omega
  · rw [BitVec.toNat_and, he, show (15 : I16).toNat = 2 ^ 4 - 1 from rfl,
      Nat.and_two_pow_sub_one_eq_mod]
    omega
  · intro hn0 h0
    rw [h0] at he
    simp at he
    omega

theorem extend_model (m v : Nat) :
    (if (v : Int) < ((2 ^ (m - 1) : Nat) : Int) then (v : Int) + (((1 : Nat) : Int) - ((2 ^ m : Nat) : Int))
      else (v : Int)) = Spec.extend m v := by
  unfold Spec.extend
  by_cases h : v < 2 ^ (m - 1)
  · rw [if_pos (by exact_mod_cast h), if_pos h]; push_cast; ring
  · rw [if_neg (by exact_mod_cast h), if_neg h]

/-- Entry for a symbol with a small magnitude. -/
theorem fastAcEntry_small (i rs len : Nat) (prog : Bool) (_hi : i < 512) (hrs : rs < 256)
    (hlen : 1 ≤ len) (hm : 1 ≤ rs % 16) (hm5 : rs % 16 ≤ 5) (h9 : len + rs % 16 ≤ 9) :
    let e := fastAcEntry i rs len prog
    let v := i / 2 ^ (9 - len - rs % 16) % 2 ^ (rs % 16)
    e ≠ 0 ∧ ((e >>> 4) &&& 63).toNat = rs / 16 ∧
      (e.sshiftRight 10).toInt = Spec.extend (rs % 16) v ∧ (e &&& 15).toNat = len + rs % 16 := by
  intro e v
  have e1 : rs &&& 15 = rs % 16 := Nat.and_two_pow_sub_one_eq_mod rs 4
  have e2 : rs >>> 4 &&& 15 = rs / 16 := by
    rw [show (15 : Nat) = 2 ^ 4 - 1 from rfl, Nat.and_two_pow_sub_one_eq_mod,
      Nat.shiftRight_eq_div_pow]; omega
  have e3 : ((i <<< len) &&& 511) >>> (HUFF_LOOKAHEAD - rs % 16) = v := by
    rw [show (511 : Nat) = 2 ^ 9 - 1 from rfl, Nat.and_two_pow_sub_one_eq_mod,
      Nat.shiftRight_eq_div_pow, Nat.shiftLeft_eq, HUFF_LOOKAHEAD]
    show _ = i / 2 ^ (9 - len - rs % 16) % 2 ^ (rs % 16)
    generalize rs % 16 = m at *
    obtain ⟨d, hd⟩ : ∃ d, 9 = len + m + d := ⟨9 - (len + m), by omega⟩
    rw [show 9 - len - m = d by omega, show 9 - m = len + d by omega, hd,
      show 2 ^ (len + m + d) = (2 ^ m * 2 ^ d) * 2 ^ len by ring, Nat.mul_mod_mul_right,
      show 2 ^ (len + d) = 2 ^ len * 2 ^ d by ring, ← Nat.div_div_eq_div_mul,
      Nat.mul_div_cancel _ (by positivity), Nat.mul_comm (2 ^ m), Nat.mod_mul_right_div_self]
  have hv : v < 2 ^ (rs % 16) := Nat.mod_lt _ (by positivity)
  have hb : -32 ≤ Spec.extend (rs % 16) v ∧ Spec.extend (rs % 16) v ≤ 31 := by
    clear_value v
    unfold Spec.extend
    generalize rs % 16 = m at *
    have : m = 1 ∨ m = 2 ∨ m = 3 ∨ m = 4 ∨ m = 5 := by omega
    rcases this with rfl | rfl | rfl | rfl | rfl <;> norm_num at hv ⊢ <;> split <;> omega
  have key : e = (BitVec.ofInt 16 (Spec.extend (rs % 16) v) <<< 10) +
      BitVec.ofNat 16 ((rs / 16) <<< 4) + BitVec.ofNat 16 (len + rs % 16) := by
    show fastAcEntry i rs len prog = _
    unfold fastAcEntry
    simp only [e1, e2, e3, Nat.one_shiftLeft, extend_model]
    rw [if_neg (by omega), if_pos ⟨by omega, by rw [HUFF_LOOKAHEAD]; omega⟩,
      if_pos ⟨by omega, by omega⟩]
  obtain ⟨p1, p2, p3, p4⟩ := fastPack (Spec.extend (rs % 16) v) (rs / 16) (len + rs % 16) hb.1 hb.2
    (by omega) (by omega)
  rw [← key] at p1 p2 p3 p4
  exact ⟨p4 (by omega), p1, p2, p3⟩

end Zune
