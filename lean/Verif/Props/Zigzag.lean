import Verif.Lemmas.AcLoop
import Verif.Model.Headers
/-!
# Property C49: zig-zag order
-/

namespace Zune
open Spec

/-- **C49.** The table of the decoder is the zig-zag path of T.81 figure A.6. -/
theorem c49_table : UN_ZIGZAG.take 64 = zigzag := zigzag_eq

/-- **C49.** It is a permutation of the 64 positions. -/
theorem c49_permutation : zigzag.length = 64 ∧ zigzag.Nodup ∧ ∀ n, n < 64 ↔ n ∈ zigzag := by
  refine ⟨zigzag_length, zigzag_nodup, fun n => ⟨fun h => ?_, zigzag_lt n⟩⟩
  have : ∀ n < 64, n ∈ zigzag := by decide +kernel
  exact this n h

theorem fold_set_other {α} (ps : List (Nat × α)) (out : List α) (z : Nat)
    (h : ∀ p ∈ ps, p.1 ≠ z) : (ps.foldl (fun out p => out.set p.1 p.2) out)[z]? = out[z]? := by
  induction ps generalizing out with
  | nil => rfl
  | cons p ps ih =>
    rw [List.foldl_cons, ih _ (fun q hq => h q (by simp [hq]))]
    rw [List.getElem?_set, if_neg (h p (by simp))]

theorem fold_set_length {α} (ps : List (Nat × α)) (out : List α) :
    (ps.foldl (fun out p => out.set p.1 p.2) out).length = out.length := by
  induction ps generalizing out with
  | nil => rfl
  | cons p ps ih => rw [List.foldl_cons, ih]; simp

theorem fold_set_spec {α} (zs : List Nat) (vs : List α) (out : List α) (hn : zs.Nodup)
    (hb : ∀ z ∈ zs, z < out.length) (k z : Nat) (v : α) (hz : zs[k]? = some z)
    (hv : vs[k]? = some v) :
    ((zs.zip vs).foldl (fun out p => out.set p.1 p.2) out)[z]? = some v := by
  induction zs generalizing vs out k with
  | nil => simp at hz
  | cons y zs ih =>
    cases vs with
    | nil => simp at hv
    | cons u vs =>
      rw [List.zip_cons_cons, List.foldl_cons]
      rw [List.nodup_cons] at hn
      cases k with
      | zero =>
        simp only [List.getElem?_cons_zero, Option.some.injEq] at hz hv
        subst hz hv
        rw [fold_set_other, List.getElem?_set, if_pos rfl, if_pos (hb y (by simp))]
        intro p hp
        have := (List.of_mem_zip hp).1
        rintro rfl
        exact hn.1 this
      | succ k =>
        exact ih vs _ hn.2 (fun z hz => by simpa using hb z (by simp [hz])) k
          (by simpa using hz) (by simpa using hv)

/-- **C49.** A quantisation table is stored in natural order: its `k`-th value in the file goes to
the `k`-th cell of the zig-zag path. -/
theorem c49_quant_table (a : List Nat) (ha : a.length = 64) :
    (unZigZag a).length = 64 ∧
    ∀ k z : Nat, zigzag[k]? = some z → (unZigZag a)[z]? = a[k]? := by
  have hlen : (List.replicate 64 0 : List Nat).length = 64 := List.length_replicate
  constructor
  · show (((UN_ZIGZAG.take 64).zip a).foldl (fun (out : List Nat) p => out.set p.1 p.2) _).length = 64
    rw [fold_set_length]; exact hlen
  · intro k z hz
    have hk : k < a.length := by
      have := (List.getElem?_eq_some_iff.1 hz).1
      rw [zigzag_length] at this; omega
    show (((UN_ZIGZAG.take 64).zip a).foldl (fun (out : List Nat) p => out.set p.1 p.2) _)[z]? = _
    rw [zigzag_eq, List.getElem?_eq_getElem hk]
    exact fold_set_spec zigzag a _ zigzag_nodup (fun z hz => by rw [hlen]; exact zigzag_lt z hz) k z _
      hz (List.getElem?_eq_getElem hk)

/-- The values 1, 2, .., 64 in file order. -/
example : (unZigZag ((List.range 64).map (· + 1))).take 9 = [1, 2, 6, 7, 15, 16, 28, 29, 3] := by
  decide +kernel

end Zune
