import Verif.Lemmas.IdctArith
/-! # Properties C26 - C29: the inverse DCT -/

namespace Zune

/-! ### Specification -/

/-- Bring a value into the range of samples. -/
def Spec.sat (x : Int) : Int := max 0 (min 255 x)

/-- The dequantised coefficient in row `i`, column `j`. -/
def Spec.coef (block : List I16) (qt : List Nat) (i j : Fin 8) : Int :=
  (block.getD (8 * i + j) 0).toInt * ((qt.getD (8 * i + j) 0 : Nat) : Int)

/-- The two-dimensional transform with the matrix `coefs`, exactly and without any rounding. Its unit
is `2 ^ -27` of a sample. -/
def Spec.transform (m : Fin 8 → Fin 8 → Int) (i j : Fin 8) : Int :=
  ∑ k, ∑ l, coefs i l * coefs j k * m l k

/-- All coefficients but the first are zero. -/
def Spec.Flat (block : List I16) : Prop := ∀ k c, block[k + 1]? = some c → c = 0

open Zune.Spec

theorem acZero_iff (block : List I16) : acZero block = true ↔ Flat block := by
  unfold acZero Flat
  rw [List.all_eq_true]
  constructor
  · intro h k c hk
    have : c ∈ block.drop 1 := by
      rw [List.mem_iff_getElem?]
      exact ⟨k, by rw [List.getElem?_drop, Nat.add_comm]; exact hk⟩
    simpa using h c this
  · intro h c hc
    rw [List.mem_iff_getElem?] at hc
    obtain ⟨k, hk⟩ := hc
    rw [List.getElem?_drop, Nat.add_comm] at hk
    simpa using h k c hk

/-! ### Values -/

theorem toInt_clamp32 (a : I32) : (clamp32 a).toInt = sat a.toInt := by
  unfold clamp32 sat
  split
  · rename_i h
    rw [show min 255 a.toInt = a.toInt by omega, show max 0 a.toInt = 0 by omega]
    rfl
  · split
    · rename_i h1 h2
      rw [show min 255 a.toInt = 255 by omega]
      rfl
    · rename_i h1 h2
      rw [show min 255 a.toInt = a.toInt by omega, show max 0 a.toInt = a.toInt by omega]
      rw [BitVec.toInt_setWidth]
      have : a.toInt = (a.toInt).bmod (2 ^ 16) := by
        rw [Int.bmod_eq_of_le] <;> norm_num <;> omega
      rw [this]
      rw [BitVec.toInt_eq_toNat_bmod, Int.bmod_bmod_of_dvd]
      norm_num

theorem rows_get {α : Type} (z : α) (l : List α) (i j : Fin 8) :
    ((V8.rows z l).get i).get j = l.getD (8 * i + j) z := by
  fin_cases i <;> fin_cases j <;> rfl

theorem dequantize_get {block : List I16} {qt : List Nat} {i j : Fin 8}
    (h : |coef block qt i j| ≤ 2 ^ 20) :
    (((dequantize block qt).get i).get j).toInt = coef block qt i j := by
  unfold dequantize
  rw [rows_get]
  unfold coef at *
  generalize (8 * (i : Nat) + (j : Nat)) = n at *
  rw [List.getD_eq_getElem?_getD, List.getElem?_zipWith]
  rw [List.getD_eq_getElem?_getD, List.getD_eq_getElem?_getD] at *
  cases hb : block[n]? with
  | none => simp
  | some c =>
    cases hq : qt[n]? with
    | none => simp
    | some q =>
      rw [hb, hq] at h
      simp only [Option.getD_some] at h ⊢
      have e : c.signExtend 32 * BitVec.ofNat 32 q = BitVec.ofInt 32 (c.toInt * (q : Int)) := by
        rw [BitVec.ofInt_mul]
        rfl
      rw [e]
      rw [abs_le] at h
      norm_num at h
      rw [BitVec.toInt_ofInt_eq_self (by decide)] <;> norm_num <;> omega

/-- One sample of the general algorithm on the matrix `m`: columns first, then the row. -/
def twoPass (m : Fin 8 → Fin 8 → Int) (i j : Fin 8) : Int :=
  (dot (coefs j) (fun k => (dot (coefs i) (fun l => m l k) + 512) / 1024) + 16843264) / 2 ^ 17

theorem twoPass_of {m : V8 (V8 I32)} {M : Fin 8 → Fin 8 → Int}
    (hM : ∀ i j, ((m.get i).get j).toInt = M i j)
    (h1 : ∀ i k, |dot (coefs i) (fun l => M l k)| ≤ 2 ^ 30)
    (h2 : ∀ i j, |dot (coefs j) (fun k => (dot (coefs i) (fun l => M l k) + 512) / 1024)| ≤ 2 ^ 31 - 2 ^ 25)
    (i j : Fin 8) :
    ((((m.transpose.map (idctPass 512 10)).transpose.map fun r =>
      (idctPass SCALE_BITS 17 r)).get i).get j).toInt = twoPass M i j := by
  have b1 : (512 : I32) = BitVec.ofInt 32 512 := rfl
  have b2 : SCALE_BITS = BitVec.ofInt 32 16843264 := by decide
  have first : ∀ i k, (((m.transpose.map (idctPass 512 10)).transpose.get i).get k).toInt =
      (dot (coefs i) (fun l => M l k) + 512) / 1024 := by
    intro i k
    rw [V8.get_transpose, V8.get_map, b1]
    have e : (fun l => ((m.transpose.get k).get l).toInt) = fun l => M l k := by
      funext l
      rw [V8.get_transpose, hM]
    have hd := h1 i k
    rw [idctPass_get]
    · rw [e]
      norm_num
    · rw [e]
      rw [abs_le] at hd
      rw [abs_lt]
      constructor <;> norm_num at hd ⊢ <;> omega
  have e : (fun k => (((m.transpose.map (idctPass 512 10)).transpose.get i).get k).toInt) =
      fun k => (dot (coefs i) (fun l => M l k) + 512) / 1024 := by
    funext k
    exact first i k
  rw [V8.get_map, b2]
  have hd := h2 i j
  rw [idctPass_get]
  · rw [e]
    rfl
  · rw [e]
    rw [abs_le] at hd
    rw [abs_lt]
    constructor <;> norm_num at hd ⊢ <;> omega

theorem small_first {M : Fin 8 → Fin 8 → Int} (hb : ∀ i j, |M i j| ≤ 2048) (i k : Fin 8) :
    |dot (coefs i) (fun l => M l k)| ≤ 2 ^ 30 :=
  (dot_le (coefs_sum i) (fun l => hb l k) (by norm_num)).trans (by norm_num)

theorem small_second {M : Fin 8 → Fin 8 → Int} (hb : ∀ i j, |M i j| ≤ 2048) (i j : Fin 8) :
    |dot (coefs j) (fun k => (dot (coefs i) (fun l => M l k) + 512) / 1024)| ≤ 2 ^ 31 - 2 ^ 25 := by
  have hT : ∀ k, |(dot (coefs i) (fun l => M l k) + 512) / 1024| ≤ 61233 := by
    intro k
    have hd : |dot (coefs i) (fun l => M l k)| ≤ 30616 * 2048 :=
      dot_le (coefs_sum i) (fun l => hb l k) (by norm_num)
    rw [abs_le] at hd ⊢
    constructor <;> norm_num at hd ⊢ <;> omega
  exact (dot_le (coefs_sum j) hT (by norm_num)).trans (by norm_num)

/-- The two passes with their roundings are close to the exact transform. -/
theorem twoPass_close (m : Fin 8 → Fin 8 → Int) (i j : Fin 8) :
    |2 ^ 27 * (twoPass m i j - 128) - transform m i j| ≤ 83308544 := by
  -- the rounding errors of the first pass
  have h1 : ∀ k, ∃ e : Int, |e| ≤ 512 ∧ 1024 * ((dot (coefs i) (fun l => m l k) + 512) / 1024) =
      dot (coefs i) (fun l => m l k) + e := by
    intro k
    refine ⟨1024 * ((dot (coefs i) (fun l => m l k) + 512) / 1024) - dot (coefs i) (fun l => m l k),
      ?_, by ring⟩
    rw [abs_le]
    constructor <;> omega
  obtain ⟨e, he⟩ := Classical.axiomOfChoice h1
  have h2 : 1024 * dot (coefs j) (fun k => (dot (coefs i) (fun l => m l k) + 512) / 1024) =
      transform m i j + dot (coefs j) e := by
    unfold transform
    rw [show dot (coefs j) (fun k => (dot (coefs i) (fun l => m l k) + 512) / 1024) =
      ∑ k, coefs j k * ((dot (coefs i) (fun l => m l k) + 512) / 1024) from rfl]
    rw [show dot (coefs j) e = ∑ k, coefs j k * e k from rfl, Finset.mul_sum,
      ← Finset.sum_add_distrib]
    refine Finset.sum_congr rfl fun k _ => ?_
    rw [mul_left_comm, (he k).2, mul_add]
    congr 1
    rw [show dot (coefs i) (fun l => m l k) = ∑ l, coefs i l * m l k from rfl, Finset.mul_sum]
    refine Finset.sum_congr rfl fun l _ => ?_
    ring
  have h3 : |dot (coefs j) e| ≤ 30616 * 512 :=
    dot_le (coefs_sum j) (fun k => (he k).1) (by norm_num)
  unfold twoPass
  generalize dot (coefs j) (fun k => (dot (coefs i) (fun l => m l k) + 512) / 1024) = D at *
  generalize transform m i j = E at *
  generalize dot (coefs j) e = F at *
  rw [abs_le] at h3 ⊢
  norm_num at h3 ⊢
  constructor <;> omega

theorem transform_transpose (m : Fin 8 → Fin 8 → Int) (i j : Fin 8) :
    transform (fun a b => m b a) j i = transform m i j := by
  unfold transform
  rw [Finset.sum_comm]
  refine Finset.sum_congr rfl fun k _ => Finset.sum_congr rfl fun l _ => ?_
  ring

theorem scalar_get {block : List I16} {qt : List Nat} (hb : ∀ i j, |coef block qt i j| ≤ 2048)
    (i j : Fin 8) : (((fullScalar block qt).get i).get j).toInt =
      sat (twoPass (coef block qt) i j) := by
  have := twoPass_of (m := dequantize block qt) (M := coef block qt)
    (fun i j => dequantize_get ((hb i j).trans (by norm_num))) (small_first hb) (small_second hb) i j
  rw [V8.get_map] at this
  unfold fullScalar
  rw [V8.get_map, V8.get_map, toInt_clamp32, this]

theorem avx_get {block : List I16} {qt : List Nat} (hb : ∀ i j, |coef block qt i j| ≤ 2048)
    (i j : Fin 8) : (((fullAvx block qt).get i).get j).toInt =
      sat (twoPass (fun a b => coef block qt b a) j i) := by
  have := twoPass_of (m := (dequantize block qt).transpose) (M := fun a b => coef block qt b a)
    (fun i j => by
      rw [V8.get_transpose]
      exact dequantize_get ((hb j i).trans (by norm_num)))
    (small_first fun i j => hb j i) (small_second fun i j => hb j i) j i
  rw [V8.get_map, transpose_transpose] at this
  unfold fullAvx
  rw [V8.get_map, V8.get_map, toInt_clamp32, V8.get_transpose, V8.get_map, this]

theorem sample_toList (m : V8 (V8 I16)) (i j : Fin 8) :
    sample (m.map V8.toList).toList i j = some ((m.get i).get j) := by
  unfold sample
  rw [V8.getElem?_toList, V8.get_map]
  show (m.get i).toList[(j : Nat)]? = _
  rw [V8.getElem?_toList]

theorem sample_replicate (v : I16) (i j : Fin 8) :
    sample (List.replicate 8 (List.replicate 8 v)) i j = some v := by
  fin_cases i <;> fin_cases j <;> rfl

/-! ### C26 -/

/-- A value in the range of samples. -/
def Spec.IsSample (x : I16) : Prop := 0 ≤ x.toInt ∧ x.toInt ≤ 255

theorem isSample_clamp32 (a : I32) : IsSample (clamp32 a) := by
  unfold IsSample
  rw [toInt_clamp32]
  unfold sat
  omega

theorem isSample_clampI16 (a : I16) : IsSample (clampI16 a) := by
  unfold clampI16 IsSample
  split
  · exact ⟨by decide, by decide⟩
  · split
    · exact ⟨by decide, by decide⟩
    · constructor <;> omega

theorem isSample_rows {m : V8 (V8 I16)} (h : ∀ i j, IsSample ((m.get i).get j)) :
    ∀ r ∈ (m.map V8.toList).toList, ∀ x ∈ r, IsSample x := by
  intro r hr x hx
  obtain ⟨i, hi, rfl⟩ := List.mem_iff_getElem.1 hr
  have hi8 : i < 8 := hi
  have e := V8.getElem?_toList (m.map V8.toList) ⟨i, hi8⟩
  rw [V8.get_map, List.getElem?_eq_getElem hi] at e
  rw [Option.some.inj e] at hx
  obtain ⟨j, hj, rfl⟩ := List.mem_iff_getElem.1 hx
  have hj8 : j < 8 := hj
  have e := V8.getElem?_toList (m.get ⟨i, hi8⟩) ⟨j, hj8⟩
  rw [List.getElem?_eq_getElem hj] at e
  rw [Option.some.inj e]
  exact h _ _

/-- The blocks of a component's coefficients. -/
def Spec.blockAt (vector : List I16) (k : Nat) : List I16 := (vector.drop (64 * k)).take 64

/-- The dequantised DC coefficient. -/
def Spec.dcOf (block : List I16) (qt : List Nat) : Int :=
  (block.getD 0 0).toInt * ((qt.getD 0 0 : Nat) : Int)

theorem toInt_dcValue (block : List I16) (qt : List Nat) :
    (dcValue block qt).toInt = (dcOf block qt).bmod 65536 / 8 + 128 := by
  unfold dcValue dcOf
  have e : block.getD 0 0 * BitVec.ofNat 16 (qt.getD 0 0) =
      BitVec.ofInt 16 ((block.getD 0 0).toInt * ((qt.getD 0 0 : Nat) : Int)) := by
    rw [BitVec.ofInt_mul, BitVec.ofInt_toInt]
    rfl
  rw [e]
  generalize (block.getD 0 0).toInt * ((qt.getD 0 0 : Nat) : Int) = x
  have hs : ((BitVec.ofInt 16 x).sshiftRight 3).toInt = x.bmod 65536 / 8 := by
    rw [BitVec.toInt_sshiftRight, BitVec.toInt_ofInt, Int.shiftRight_eq_div_pow]
    rfl
  have h1 := Int.bmod_lt (x := x) (m := 65536) (by norm_num)
  have h2 := Int.le_bmod (x := x) (m := 65536) (by norm_num)
  rw [BitVec.toInt_add, hs]
  rw [show (128 : I16).toInt = 128 from rfl]
  norm_num at h1 h2
  rw [Int.bmod_eq_of_le] <;> norm_num <;> omega

/-- Whether the scalar shortcut stays in the range of samples. -/
def Spec.DcFits (block : List I16) (qt : List Nat) : Prop :=
  -1024 ≤ (dcOf block qt).bmod 65536 ∧ (dcOf block qt).bmod 65536 ≤ 1023

theorem isSample_dcValue (block : List I16) (qt : List Nat) :
    IsSample (dcValue block qt) ↔ DcFits block qt := by
  unfold IsSample DcFits
  rw [toInt_dcValue]
  omega

theorem isSample_avx (block : List I16) (qt : List Nat) :
    ∀ r ∈ idctBlockAvx block qt, ∀ x ∈ r, IsSample x := by
  rw [idctBlockAvx_eq]
  split
  · intro r hr x hx
    rw [List.eq_of_mem_replicate hr] at hx
    rw [List.eq_of_mem_replicate hx]
    exact isSample_clampI16 _
  · apply isSample_rows
    intro i j
    unfold fullAvx
    rw [V8.get_map, V8.get_map]
    exact isSample_clamp32 _

theorem isSample_scalar (block : List I16) (qt : List Nat) :
    (∀ r ∈ idctBlockScalar block qt, ∀ x ∈ r, IsSample x) ↔ (Flat block → DcFits block qt) := by
  rw [idctBlockScalar_eq]
  split
  · rename_i h
    rw [acZero_iff] at h
    rw [← isSample_dcValue]
    constructor
    · intro hs _
      exact hs _ (List.mem_replicate.2 ⟨by decide, rfl⟩) _ (List.mem_replicate.2 ⟨by decide, rfl⟩)
    · intro hd r hr x hx
      rw [List.eq_of_mem_replicate hr] at hx
      rw [List.eq_of_mem_replicate hx]
      exact hd h
  · rename_i h
    rw [acZero_iff] at h
    refine ⟨fun _ h' => absurd h' h, fun _ => ?_⟩
    apply isSample_rows
    intro i j
    unfold fullScalar
    rw [V8.get_map, V8.get_map]
    exact isSample_clamp32 _

/-- Every position of a plane of `n` rows of `b` blocks belongs to one sample of one block. -/
theorem plane_position {n b p : Nat} (h : p < n * (64 * b)) :
    ∃ m k r c, m < n ∧ k < b ∧ r < 8 ∧ c < 8 ∧
      p = m * (64 * b) + (r * (8 * b) + (8 * k + c)) := by
  have hb : 0 < b := by
    rcases Nat.eq_zero_or_pos b with rfl | h'
    · simp at h
    · exact h'
  have h1 := Nat.div_add_mod p (64 * b)
  have h2 := Nat.div_add_mod (p % (64 * b)) (8 * b)
  have h3 := Nat.div_add_mod (p % (64 * b) % (8 * b)) 8
  have l1 : p % (64 * b) < 64 * b := Nat.mod_lt _ (by omega)
  have l2 : p % (64 * b) % (8 * b) < 8 * b := Nat.mod_lt _ (by omega)
  refine ⟨p / (64 * b), p % (64 * b) % (8 * b) / 8, p % (64 * b) / (8 * b),
    p % (64 * b) % (8 * b) % 8, ?_, by omega, ?_, Nat.mod_lt _ (by norm_num), ?_⟩
  · exact Nat.div_lt_of_lt_mul (by rw [Nat.mul_comm]; exact h)
  · exact Nat.div_lt_of_lt_mul (by omega)
  · rw [Nat.mul_comm (p / (64 * b)), Nat.mul_comm (p % (64 * b) / (8 * b))]
    omega

theorem plane_position_unique {n b m k r c m' k' r' c' : Nat} (_ : m < n) (hk : k < b) (hr : r < 8)
    (hc : c < 8) (_ : m' < n) (hk' : k' < b) (hr' : r' < 8) (hc' : c' < 8)
    (h : m * (64 * b) + (r * (8 * b) + (8 * k + c)) =
      m' * (64 * b) + (r' * (8 * b) + (8 * k' + c'))) : m = m' ∧ k = k' ∧ r = r' ∧ c = c' := by
  have hl : ∀ {r k c : Nat}, r < 8 → k < b → c < 8 → r * (8 * b) + (8 * k + c) < 64 * b := by
    intro r k c hr hk hc
    have : r * (8 * b) ≤ 7 * (8 * b) := Nat.mul_le_mul_right _ (by omega)
    omega
  obtain ⟨rfl, h0⟩ := row_col (hl hr hk hc) (hl hr' hk' hc') h
  obtain ⟨rfl, h1⟩ := row_col (n := 8 * b) (c := 8 * k + c) (c' := 8 * k' + c') (by omega) (by omega) h0
  omega

/-- The geometry of a strip of one component: `n` rows of `b` blocks. -/
structure Spec.StripShape (vector : List I16) (n b samp vSamp : Nat) : Prop where
  blocks : 0 < b
  samp_pos : samp ≠ 0
  length : vector.length = n * (64 * b)
  chunk : vector.length * vSamp / samp = 64 * b

/-- **C29.** The inverse DCT of a strip of `n` rows of `b` blocks succeeds, sample `(r, c)` of block
`m * b + k` is found in row `8 * m + r` and column `8 * k + c` of a plane of width `8 * b`, and every
position of the plane is one of these, for exactly one choice of block, row and column. -/
theorem c29_layout (f : IdctFn) {vector : List I16} {qt : List Nat} {n b samp vSamp : Nat}
    (h : StripShape vector n b samp vSamp) :
    ∃ out, idctStrip f.block vector qt (8 * b) samp vSamp = .ok out ∧
      out.length = 8 * n * (8 * b) ∧
      (∀ m k r c, m < n → k < b → r < 8 → c < 8 →
        ∃ row, (f.block (blockAt vector (m * b + k)) qt)[r]? = some row ∧
          ∃ x, row[c]? = some x ∧ out[(8 * m + r) * (8 * b) + (8 * k + c)]? = some x) ∧
      ∀ p, p < out.length → ∃ m k r c, (m < n ∧ k < b ∧ r < 8 ∧ c < 8 ∧
        p = (8 * m + r) * (8 * b) + (8 * k + c)) ∧
        ∀ m' k' r' c', m' < n → k' < b → r' < 8 → c' < 8 →
          p = (8 * m' + r') * (8 * b) + (8 * k' + c') → m' = m ∧ k' = k ∧ r' = r ∧ c' = c := by
  obtain ⟨out, h1, h2, h3⟩ := idctStrip_spec (f := f.block) (qt := qt) (fun b => isRows_block f b qt)
    h.blocks h.samp_pos h.length h.chunk
  have e : ∀ m r x : Nat, (8 * m + r) * (8 * b) + x = m * (64 * b) + (r * (8 * b) + x) := by
    intro m r x
    ring
  have hl : out.length = 8 * n * (8 * b) := by
    rw [h2]
    ring
  refine ⟨out, h1, hl, ?_, ?_⟩
  · intro m k r c hm hk hr hc
    rw [e, h3 m k r c hm hk hr hc]
    obtain ⟨hn, hrow⟩ := isRows_block f ((vector.drop (64 * (m * b + k))).take 64) qt
    unfold sample blockAt
    have hr' : r < (f.block ((vector.drop (64 * (m * b + k))).take 64) qt).length := by omega
    refine ⟨_, List.getElem?_eq_getElem hr', ?_⟩
    have hc' := hrow _ (List.getElem_mem hr')
    refine ⟨_, List.getElem?_eq_getElem (by omega), ?_⟩
    rw [List.getElem?_eq_getElem hr']
    exact List.getElem?_eq_getElem _
  · intro p hp
    rw [h2] at hp
    obtain ⟨m, k, r, c, hm, hk, hr, hc, hpe⟩ := plane_position hp
    refine ⟨m, k, r, c, ⟨hm, hk, hr, hc, by rw [e]; exact hpe⟩, ?_⟩
    intro m' k' r' c' hm' hk' hr' hc' hpe'
    rw [e, hpe] at hpe'
    obtain ⟨a1, a2, a3, a4⟩ := plane_position_unique hm hk hr hc hm' hk' hr' hc' hpe'
    exact ⟨a1.symm, a2.symm, a3.symm, a4.symm⟩

/-- Two rows of three blocks, the shape of a luma strip with vertical subsampling. -/
example : StripShape (List.replicate 384 7) 2 3 2 1 :=
  ⟨by decide, by decide, by rw [List.length_replicate], by rw [List.length_replicate]⟩

theorem strip_mem (f : IdctFn) {vector out : List I16} {qt : List Nat} {n b samp vSamp : Nat}
    (h : StripShape vector n b samp vSamp)
    (ho : idctStrip f.block vector qt (8 * b) samp vSamp = .ok out) :
    (∀ x ∈ out, IsSample x) ↔
      ∀ k, k < n * b → ∀ r ∈ f.block (blockAt vector k) qt, ∀ x ∈ r, IsSample x := by
  obtain ⟨out', h1, h2, h3⟩ := idctStrip_spec (f := f.block) (qt := qt) (fun b => isRows_block f b qt)
    h.blocks h.samp_pos h.length h.chunk
  rw [ho] at h1
  cases h1
  constructor
  · intro hs k hk row hrow x hx
    obtain ⟨r, hr, rfl⟩ := List.mem_iff_getElem.1 hrow
    obtain ⟨c, hc, rfl⟩ := List.mem_iff_getElem.1 hx
    obtain ⟨hn, hrow'⟩ := isRows_block f (blockAt vector k) qt
    have hc' := hrow' _ hrow
    have hkb : k / b < n := Nat.div_lt_of_lt_mul (by rw [Nat.mul_comm]; exact hk)
    have := h3 (k / b) (k % b) r c hkb (Nat.mod_lt _ h.blocks) (by omega) (by omega)
    rw [show k / b * b + k % b = k by rw [Nat.mul_comm]; exact Nat.div_add_mod k b] at this
    unfold sample at this
    rw [show (vector.drop (64 * k)).take 64 = blockAt vector k from rfl,
      List.getElem?_eq_getElem hr] at this
    rw [Option.bind_some, List.getElem?_eq_getElem hc] at this
    exact hs _ (List.mem_of_getElem? this)
  · intro hs x hx
    obtain ⟨p, hp, rfl⟩ := List.mem_iff_getElem.1 hx
    obtain ⟨m, k, r, c, hm, hk, hr, hc, hpe⟩ := plane_position (by rw [← h2]; exact hp)
    have := h3 m k r c hm hk hr hc
    rw [← hpe, List.getElem?_eq_getElem hp] at this
    unfold sample at this
    cases hrow : (f.block ((vector.drop (64 * (m * b + k))).take 64) qt)[r]? with
    | none => rw [hrow] at this; cases this
    | some row =>
      rw [hrow, Option.bind_some] at this
      refine hs (m * b + k) ?_ row (List.mem_of_getElem? hrow) _ (List.mem_of_getElem? this.symm)
      have : (m + 1) * b ≤ n * b := Nat.mul_le_mul_right _ hm
      rw [Nat.add_mul] at this
      omega

/-- **C26**, what holds: a strip decoded by the AVX2 code consists of samples; one decoded by the
scalar code does exactly if the DC coefficient of each of its flat blocks, as computed in `i16`, is
between -1024 and 1023. -/
theorem c26_range_partial {vector out : List I16} {qt : List Nat} {n b samp vSamp : Nat}
    (h : StripShape vector n b samp vSamp) :
    (idctStrip IdctFn.avx2.block vector qt (8 * b) samp vSamp = .ok out → ∀ x ∈ out, IsSample x) ∧
    (idctStrip IdctFn.scalar.block vector qt (8 * b) samp vSamp = .ok out →
      ((∀ x ∈ out, IsSample x) ↔
        ∀ k, k < n * b → Flat (blockAt vector k) → DcFits (blockAt vector k) qt)) := by
  constructor
  · intro ho
    rw [strip_mem .avx2 h ho]
    intro k _
    exact isSample_avx _ _
  · intro ho
    rw [strip_mem .scalar h ho]
    exact ⟨fun hs k hk => (isSample_scalar _ _).1 (hs k hk),
      fun hs k hk => (isSample_scalar _ _).2 (hs k hk)⟩

/-- A flat block with DC coefficient `dc`. -/
def flatBlock (dc : I16) : List I16 := dc :: List.replicate 63 0

theorem flat_flatBlock (dc : I16) : Flat (flatBlock dc) := by
  intro k c h
  unfold flatBlock at h
  rw [List.getElem?_cons_succ] at h
  exact List.eq_of_mem_replicate (List.mem_of_getElem? h)

/-- **C26 is false of the scalar code:** the shortcut for flat blocks does not clamp. -/
theorem c26_false : ¬ ∀ (block : List I16) (qt : List Nat), block.length = 64 → qt.length = 64 →
    ∀ r ∈ idctBlockScalar block qt, ∀ x ∈ r, IsSample x := by
  intro h
  have := (isSample_scalar (flatBlock 1024) (List.replicate 64 1)).1
    (h _ _ (by decide) (by rw [List.length_replicate])) (flat_flatBlock _)
  exact absurd this.2 (by decide)

/-- Ok results with samples only, and a block that is not flat. -/
example : ∃ out, idctStrip IdctFn.scalar.block (flatBlock 1000 ++ List.replicate 64 3)
    (List.replicate 64 1) 16 1 1 = .ok out ∧ ∀ x ∈ out, IsSample x := by
  have hs : StripShape (flatBlock 1000 ++ List.replicate 64 3) 1 2 1 1 :=
    ⟨by decide, by decide, by decide +kernel, by decide +kernel⟩
  obtain ⟨out, ho, -⟩ := c29_layout .scalar (qt := List.replicate 64 1) hs
  refine ⟨out, ho, ((c26_range_partial hs).2 ho).2 ?_⟩
  intro k hk hf
  have : k = 0 ∨ k = 1 := by omega
  rcases this with rfl | rfl
  · unfold DcFits
    decide
  · have := hf 0 3 (by decide)
    exact absurd this (by decide)

/-! ### C27 -/

theorem flat_coef {block : List I16} (qt : List Nat) (h : Flat block) (i j : Fin 8) :
    coef block qt i j = if i = 0 ∧ j = 0 then dcOf block qt else 0 := by
  unfold coef dcOf
  split
  · rename_i e
    obtain ⟨rfl, rfl⟩ := e
    rfl
  · rename_i e
    have hp : 0 < 8 * (i : Nat) + (j : Nat) := by
      by_contra hc
      exact e ⟨Fin.ext (by simp; omega), Fin.ext (by simp; omega)⟩
    generalize 8 * (i : Nat) + (j : Nat) = n at *
    obtain ⟨k, rfl⟩ : ∃ k, n = k + 1 := ⟨n - 1, by omega⟩
    have : block.getD (k + 1) 0 = 0 := by
      rw [List.getD_eq_getElem?_getD]
      cases hb : block[k + 1]? with
      | none => rfl
      | some c => rw [h k c hb]; rfl
    rw [this]
    simp

theorem dot_first (c : Fin 8 → Int) (x : Int) :
    dot c (fun l => if l = 0 then x else 0) = c 0 * x := by
  unfold dot
  rw [Finset.sum_eq_single 0]
  · simp
  · intro b _ hb
    simp [hb]
  · simp

theorem coefs_zero (i : Fin 8) : coefs i 0 = 4096 := by
  fin_cases i <;> rfl

/-- The matrix of a flat block in the general algorithm. -/
theorem flat_two {M : Fin 8 → Fin 8 → Int} {x : Int} (h : ∀ i j, M i j = if i = 0 ∧ j = 0 then x else 0)
    (hx : |x| ≤ 32768) :
    (∀ i k, |dot (coefs i) (fun l => M l k)| ≤ 2 ^ 30) ∧
    (∀ i j, |dot (coefs j) (fun k => (dot (coefs i) (fun l => M l k) + 512) / 1024)| ≤
      2 ^ 31 - 2 ^ 25) ∧
    ∀ i j, twoPass M i j = 128 + (x + 4) / 8 := by
  have h1 : ∀ i k, dot (coefs i) (fun l => M l k) = if k = 0 then 4096 * x else 0 := by
    intro i k
    by_cases hk : k = 0
    · subst hk
      rw [if_pos rfl, ← coefs_zero i, ← dot_first]
      congr 1
      funext l
      rw [h]
      simp
    · rw [if_neg hk]
      unfold dot
      apply Finset.sum_eq_zero
      intro l _
      show coefs i l * M l k = 0
      rw [h, if_neg (fun e => hk e.2)]
      simp
  have h2 : ∀ i j, dot (coefs j) (fun k => (dot (coefs i) (fun l => M l k) + 512) / 1024) =
      16384 * x := by
    intro i j
    have : (fun k => (dot (coefs i) (fun l => M l k) + 512) / 1024) =
        fun k => if k = 0 then 4 * x else 0 := by
      funext k
      rw [h1]
      split <;> omega
    rw [this, dot_first, coefs_zero]
    ring
  rw [abs_le] at hx
  refine ⟨?_, ?_, ?_⟩
  · intro i k
    rw [h1]
    rw [abs_le]
    split
    · norm_num
      omega
    · norm_num
  · intro i j
    rw [h2, abs_le]
    norm_num
    omega
  · intro i j
    unfold twoPass
    rw [h2]
    norm_num
    omega

/-- The dequantised DC coefficient fits in an `i16`. -/
def Spec.Fits16 (x : Int) : Prop := -32768 ≤ x ∧ x ≤ 32767

theorem full_flat {block : List I16} {qt : List Nat} (hf : Flat block)
    (hx : Fits16 (dcOf block qt)) (i j : Fin 8) :
    (((fullScalar block qt).get i).get j).toInt = sat (128 + (dcOf block qt + 4) / 8) ∧
    (((fullAvx block qt).get i).get j).toInt = sat (128 + (dcOf block qt + 4) / 8) := by
  have hx' : |dcOf block qt| ≤ 32768 := by
    rw [abs_le]
    unfold Fits16 at hx
    omega
  have hb : ∀ i j, |coef block qt i j| ≤ 2 ^ 20 := by
    intro i j
    rw [flat_coef qt hf]
    split
    · exact hx'.trans (by norm_num)
    · simp
  constructor
  · obtain ⟨h1, h2, h3⟩ := flat_two (flat_coef qt hf) hx'
    have := twoPass_of (m := dequantize block qt) (M := coef block qt)
      (fun i j => dequantize_get (hb i j)) h1 h2 i j
    rw [V8.get_map] at this
    unfold fullScalar
    rw [V8.get_map, V8.get_map, toInt_clamp32, this, h3]
  · obtain ⟨h1, h2, h3⟩ := flat_two (M := fun a b => coef block qt b a) (x := dcOf block qt)
      (fun i j => by rw [flat_coef qt hf]; simp only [and_comm]) hx'
    have := twoPass_of (m := (dequantize block qt).transpose) (M := fun a b => coef block qt b a)
      (fun i j => by
        rw [V8.get_transpose]
        exact dequantize_get (hb j i)) h1 h2 j i
    rw [V8.get_map, transpose_transpose] at this
    unfold fullAvx
    rw [V8.get_map, V8.get_map, toInt_clamp32, V8.get_transpose, V8.get_map, this, h3]

theorem toInt_clampI16 (a : I16) : (clampI16 a).toInt = sat a.toInt := by
  unfold clampI16 sat
  split
  · rename_i h
    rw [show min 255 a.toInt = a.toInt by omega, show max 0 a.toInt = 0 by omega]
    rfl
  · split
    · rename_i h1 h2
      rw [show min 255 a.toInt = 255 by omega]
      rfl
    · omega

/-- **C27**, what holds: for a flat block whose dequantised DC coefficient `x` fits in an `i16`, the
general algorithm (`fullScalar`, `fullAvx`: the code after the shortcut) gives `x / 8 + 128` rounded
to nearest and clamped, while both shortcuts round down, so they are at most one below it; the scalar
shortcut does not clamp. -/
theorem c27_flat_partial {block : List I16} {qt : List Nat} (hf : Flat block)
    (hx : Fits16 (dcOf block qt)) (i j : Fin 8) :
    ∃ s a : I16, sample (idctBlockScalar block qt) i j = some s ∧
      sample (idctBlockAvx block qt) i j = some a ∧
      s.toInt = 128 + dcOf block qt / 8 ∧ a.toInt = sat s.toInt ∧
      (((fullScalar block qt).get i).get j).toInt = sat (128 + (dcOf block qt + 4) / 8) ∧
      (((fullAvx block qt).get i).get j).toInt = sat (128 + (dcOf block qt + 4) / 8) ∧
      0 ≤ (((fullAvx block qt).get i).get j).toInt - a.toInt ∧
      (((fullAvx block qt).get i).get j).toInt - a.toInt ≤ 1 := by
  have hz := (acZero_iff block).2 hf
  rw [idctBlockScalar_eq, idctBlockAvx_eq, if_pos hz, if_pos hz]
  have hd : (dcValue block qt).toInt = 128 + dcOf block qt / 8 := by
    rw [toInt_dcValue, Int.bmod_eq_of_le, add_comm] <;> norm_num <;> unfold Fits16 at hx <;> omega
  obtain ⟨f1, f2⟩ := full_flat hf hx i j
  refine ⟨_, _, sample_replicate _ i j, sample_replicate _ i j, hd, toInt_clampI16 _, f1, f2, ?_⟩
  rw [f2, toInt_clampI16, hd]
  unfold sat
  omega

example : Flat (flatBlock (-37)) ∧ Fits16 (dcOf (flatBlock (-37)) (List.replicate 64 16)) :=
  ⟨flat_flatBlock _, by unfold Fits16; decide⟩

/-- **C27 is false:** with DC coefficient 4 and quantiser 1 the shortcut gives 128 and the general
algorithm 129; with DC coefficient 200 and quantiser 255 the product wraps around, and the AVX2
shortcut paints the block black where the general algorithm paints it white. -/
theorem c27_false :
    (sample (idctBlockScalar (flatBlock 4) (List.replicate 64 1)) 0 0 = some 128 ∧
      ((fullScalar (flatBlock 4) (List.replicate 64 1)).get 0).get 0 = 129) ∧
    sample (idctBlockAvx (flatBlock 200) (List.replicate 64 255)) 0 0 = some 0 ∧
      ((fullAvx (flatBlock 200) (List.replicate 64 255)).get 0).get 0 = 255 := by
  decide +kernel

/-! ### C28 -/

/-- The coefficients are those of a block of 8-bit samples. -/
def Spec.InRange (block : List I16) (qt : List Nat) : Prop := ∀ i j, |coef block qt i j| ≤ 2048

/-- The value of a sample computed by `f` in the general case is within 0.63 of the exact transform,
before both are clamped. -/
theorem general_close (f : IdctFn) {block : List I16} {qt : List Nat} (hb : InRange block qt)
    (hf : ¬ Flat block) (i j : Fin 8) :
    ∃ (s : I16) (v : Int), sample (f.block block qt) i j = some s ∧ s.toInt = sat v ∧
      |2 ^ 27 * (v - 128) - transform (coef block qt) i j| ≤ 83308544 := by
  have hz : ¬ acZero block = true := fun h => hf ((acZero_iff block).1 h)
  cases f with
  | scalar =>
    refine ⟨_, _, ?_, scalar_get hb i j, twoPass_close _ i j⟩
    show sample (idctBlockScalar block qt) i j = _
    rw [idctBlockScalar_eq, if_neg hz, sample_toList]
  | avx2 =>
    refine ⟨_, _, ?_, avx_get hb i j, ?_⟩
    · show sample (idctBlockAvx block qt) i j = _
      rw [idctBlockAvx_eq, if_neg hz, sample_toList]
    · rw [← transform_transpose]
      exact twoPass_close _ j i

/-- **C28**, what holds. For blocks that are not flat and whose dequantised coefficients are at most
2048 in absolute value the two implementations differ by at most one in every sample; for flat blocks
the AVX2 samples are the scalar ones, clamped. -/
theorem c28_agree_partial {block : List I16} {qt : List Nat} (i j : Fin 8) :
    ∃ s a : I16, sample (idctBlockScalar block qt) i j = some s ∧
      sample (idctBlockAvx block qt) i j = some a ∧
      (Flat block → a.toInt = sat s.toInt) ∧
      (¬ Flat block → InRange block qt → |s.toInt - a.toInt| ≤ 1) := by
  by_cases hf : Flat block
  · have hz := (acZero_iff block).2 hf
    rw [idctBlockScalar_eq, idctBlockAvx_eq, if_pos hz, if_pos hz]
    exact ⟨_, _, sample_replicate _ i j, sample_replicate _ i j, fun _ => toInt_clampI16 _,
      fun h => absurd hf h⟩
  · have hz : ¬ acZero block = true := fun h => hf ((acZero_iff block).1 h)
    refine ⟨((fullScalar block qt).get i).get j, ((fullAvx block qt).get i).get j, ?_, ?_,
      fun h => absurd h hf, fun _ hb => ?_⟩
    · rw [idctBlockScalar_eq, if_neg hz, sample_toList]
    · rw [idctBlockAvx_eq, if_neg hz, sample_toList]
    · rw [scalar_get hb, avx_get hb]
      have h1 := twoPass_close (coef block qt) i j
      have h2 := twoPass_close (fun a b => coef block qt b a) j i
      rw [transform_transpose] at h2
      generalize twoPass (coef block qt) i j = v at *
      generalize twoPass (fun a b => coef block qt b a) j i = w at *
      generalize transform (coef block qt) i j = E at *
      rw [abs_le] at *
      unfold sat
      norm_num at h1 h2
      omega

/-- The block with -30 at position 12 and 53 at position 22. -/
def wildBlock : List I16 :=
  List.replicate 12 0 ++ (-30) :: List.replicate 9 0 ++ 53 :: List.replicate 41 0

example : ¬ Flat wildBlock ∧ InRange wildBlock (List.replicate 64 1) := by
  constructor
  · intro h
    exact absurd (h 11 (-30) (by decide)) (by decide)
  · unfold InRange
    decide +kernel

/-- **C28 is false:** already on coefficients well within the range the two implementations differ. -/
theorem c28_false : ¬ ∀ (block : List I16) (qt : List Nat), block.length = 64 → qt.length = 64 →
    idctBlockAvx block qt = idctBlockScalar block qt := by
  intro h
  have := h wildBlock (List.replicate 64 1) (by decide) (by rw [List.length_replicate])
  revert this
  decide +kernel

end Zune
