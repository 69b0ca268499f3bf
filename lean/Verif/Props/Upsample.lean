import Verif.Lemmas.UpsampleAvx
import Mathlib.Tactic.NormNum
/-! # Properties C31 - C33, C54: chroma upsampling -/

namespace Zune

/-! ### Specification -/

/-- Three parts of the near sample and one of the far sample, rounded. -/
def Spec.mix (near far : Int) : Int := (3 * near + far + 2) / 4

/-- Sample `k` of a row. -/
def Spec.val (l : List I16) (k : Nat) : Int := (l.getD k 0).toInt

/-- All values of a row are between `lo` and `hi`. -/
def Spec.Within (lo hi : Int) (l : List I16) : Prop := ∀ x ∈ l, lo ≤ x.toInt ∧ x.toInt ≤ hi

/-- Values for which the sums of four samples fit in an `i16`; samples are in 0..255. -/
abbrev Spec.Small (l : List I16) : Prop := Spec.Within (-8192) 8191 l

open Zune.Spec

theorem mix_between (a b : Int) : min a b ≤ mix a b ∧ mix a b ≤ max a b := by
  unfold mix
  omega

theorem tri_toInt {a b : I16} (ha : -8192 ≤ a.toInt ∧ a.toInt ≤ 8191)
    (hb : -8192 ≤ b.toInt ∧ b.toInt ≤ 8191) : (tri a b).toInt = mix a.toInt b.toInt := by
  unfold tri mix
  have e : a * 3 + b + 2 = BitVec.ofInt 16 (3 * a.toInt + b.toInt + 2) := by
    rw [BitVec.ofInt_add, BitVec.ofInt_add, BitVec.ofInt_mul, BitVec.ofInt_toInt, BitVec.ofInt_toInt,
      BitVec.mul_comm]
    rfl
  rw [e, BitVec.toInt_sshiftRight, Int.shiftRight_eq_div_pow, BitVec.toInt_ofInt,
    Int.bmod_eq_of_le]
  · rfl
  · norm_num
    omega
  · norm_num
    omega

theorem at0_within {lo hi : Int} {l : List I16} {k : Nat} (h : Within lo hi l) (hk : k < l.length) :
    lo ≤ (at0 l k).toInt ∧ (at0 l k).toInt ≤ hi := h _ (at0_mem hk)

theorem tri_within {lo hi : Int} {a b : I16} (ha : lo ≤ a.toInt ∧ a.toInt ≤ hi)
    (hb : lo ≤ b.toInt ∧ b.toInt ≤ hi) (h1 : -8192 ≤ lo) (h2 : hi ≤ 8191) :
    lo ≤ (tri a b).toInt ∧ (tri a b).toInt ≤ hi := by
  rw [tri_toInt ⟨by omega, by omega⟩ ⟨by omega, by omega⟩]
  unfold mix
  omega

theorem within_of_get {lo hi : Int} {out : List I16} {n : Nat} {f : Nat → I16} (hl : out.length = n)
    (hg : ∀ p, p < n → out[p]? = some (f p))
    (hf : ∀ p, p < n → lo ≤ (f p).toInt ∧ (f p).toInt ≤ hi) : Within lo hi out := by
  intro x hx
  obtain ⟨p, hp, rfl⟩ := List.mem_iff_getElem.1 hx
  have := hg p (by omega)
  rw [List.getElem?_eq_getElem hp] at this
  rw [Option.some.inj this]
  exact hf p (by omega)

theorem horizontalAt_within {lo hi : Int} {input : List I16} (h : 3 ≤ input.length)
    (hw : Within lo hi input) (h1 : -8192 ≤ lo) (h2 : hi ≤ 8191) {p : Nat}
    (hp : p < 2 * input.length) :
    lo ≤ (horizontalAt input p).toInt ∧ (horizontalAt input p).toInt ≤ hi := by
  unfold horizontalAt
  split
  · exact at0_within hw (by omega)
  split
  · exact at0_within hw (by omega)
  split
  · exact tri_within (at0_within hw (by omega)) (at0_within hw (by omega)) h1 h2
  split
  · exact tri_within (at0_within hw (by omega)) (at0_within hw (by omega)) h1 h2
  · exact tri_within (at0_within hw (by omega)) (at0_within hw (by omega)) h1 h2

theorem val_of_get {out : List I16} {p : Nat} {x : I16} (h : out[p]? = some x) :
    val out p = x.toInt := by
  unfold val
  rw [List.getD_eq_getElem?_getD, h]
  rfl

theorem tri_val {input : List I16} (hs : Small input) {a b : Nat} (ha : a < input.length)
    (hb : b < input.length) : (tri (at0 input a) (at0 input b)).toInt =
      mix (val input a) (val input b) :=
  tri_toInt (at0_within hs ha) (at0_within hs hb)

/-! ### C31 -/

/-- **C31**, what holds: scalar horizontal upsampling of `n ≥ 3` samples gives `2 * n` samples. All but
the one at `2 * n - 2` are those of the triangle filter: the ends are copied, `2 * i` mixes sample
`i` with its left neighbour, `2 * i + 1` with its right neighbour. Position `2 * n - 2` has the weights
of its two samples exchanged. Bounds on the input are bounds on the output, so a constant row stays
constant. -/
theorem c31_horizontal_partial {input : List I16} (h : 3 ≤ input.length) (hs : Small input) :
    ∃ out, upsampleHorizontal input (2 * input.length) = .ok out ∧ out.length = 2 * input.length ∧
      val out 0 = val input 0 ∧
      val out (2 * input.length - 1) = val input (input.length - 1) ∧
      (∀ i, 0 < i → i + 1 < input.length → val out (2 * i) = mix (val input i) (val input (i - 1))) ∧
      (∀ i, i + 1 < input.length → val out (2 * i + 1) = mix (val input i) (val input (i + 1))) ∧
      val out (2 * input.length - 2) =
        mix (val input (input.length - 2)) (val input (input.length - 1)) ∧
      ∀ lo hi, -8192 ≤ lo → hi ≤ 8191 → Within lo hi input → Within lo hi out := by
  obtain ⟨out, e, hl, hg⟩ := horizontal_get h
  refine ⟨out, e, hl, ?_, ?_, ?_, ?_, ?_, ?_⟩
  · rw [val_of_get (hg 0 (by omega))]
    rfl
  · rw [val_of_get (hg _ (by omega))]
    unfold horizontalAt
    rw [if_neg (by omega), if_pos rfl]
    rfl
  · intro i h0 hi
    rw [val_of_get (hg _ (by omega)), horizontalAt_even (by omega) (by omega) (by omega),
      show 2 * i / 2 = i by omega, tri_val hs (by omega) (by omega)]
  · intro i hi
    rw [val_of_get (hg _ (by omega)), horizontalAt_odd (by omega) (by omega),
      show (2 * i + 1) / 2 = i by omega, tri_val hs (by omega) (by omega)]
  · rw [val_of_get (hg _ (by omega))]
    unfold horizontalAt
    rw [if_neg (by omega), if_neg (by omega), if_pos rfl, tri_val hs (by omega) (by omega)]
  · intro lo hi h1 h2 hw
    exact within_of_get hl hg fun p hp => horizontalAt_within h hw h1 h2 hp

example : 3 ≤ [(10 : I16), 20, 30, 90].length ∧ Small [(10 : I16), 20, 30, 90] := by
  constructor
  · decide
  · intro x hx
    simp only [List.mem_cons, List.not_mem_nil, or_false] at hx
    rcases hx with rfl | rfl | rfl | rfl <;> decide +kernel

/-- **C31 is false** of the last but one sample: the code gives the larger weight to the wrong one of
its two samples. -/
theorem c31_false : ¬ ∀ input : List I16, 3 ≤ input.length → Small input →
    ∃ out, upsampleHorizontal input (2 * input.length) = .ok out ∧
      val out (2 * input.length - 2) =
        mix (val input (input.length - 1)) (val input (input.length - 2)) := by
  intro h
  obtain ⟨out, e, hv⟩ := h [0, 0, 200] (by decide) (by
    intro x hx
    simp only [List.mem_cons, List.not_mem_nil, or_false] at hx
    rcases hx with rfl | rfl | rfl <;> decide +kernel)
  have e' : upsampleHorizontal [0, 0, 200] (2 * [(0 : I16), 0, 200].length) =
      .ok [0, 0, 0, 50, 50, 200] := by decide +kernel
  rw [e'] at e
  rw [← Out.ok.inj e] at hv
  revert hv
  decide +kernel

/-! ### C32 -/

/-- **C32**, what holds. For rows whose length is a multiple of four (the decoder's are) the SSE code
stores the same samples as the scalar code except at the positions `2 * n - 5`, `2 * n - 4` and
`2 * n - 3`. There it copies sample `n - 3`, copies sample `n - 2`, and mixes sample `n - 2` with its
left instead of its right neighbour. -/
theorem c32_sse_partial {input : List I16} (h4 : input.length % 4 = 0) (h : 8 ≤ input.length) :
    ∃ sse scalar, upsampleHorizontalSse input (2 * input.length) = .ok sse ∧
      upsampleHorizontal input (2 * input.length) = .ok scalar ∧
      sse.length = 2 * input.length ∧ scalar.length = 2 * input.length ∧
      (∀ p, p ≠ 2 * input.length - 5 → p ≠ 2 * input.length - 4 → p ≠ 2 * input.length - 3 →
        sse[p]? = scalar[p]?) ∧
      (Small input →
        val sse (2 * input.length - 5) = val input (input.length - 3) ∧
        val sse (2 * input.length - 4) = val input (input.length - 2) ∧
        val sse (2 * input.length - 3) =
          mix (val input (input.length - 2)) (val input (input.length - 3))) := by
  obtain ⟨sse, e1, l1, g1⟩ := sse_get h4 h
  obtain ⟨scalar, e2, l2, g2⟩ := horizontal_get (input := input) (by omega)
  refine ⟨sse, scalar, e1, e2, l1, l2, ?_, ?_⟩
  · intro p h5 h4 h3
    by_cases hp : p < 2 * input.length
    · rw [g1 p hp, g2 p hp]
      unfold sseAt
      dsimp only
      rw [if_neg h5, if_neg h4, if_neg h3]
    · rw [List.getElem?_eq_none (by omega), List.getElem?_eq_none (by omega)]
  · intro hs
    have mm : ∀ x, mix x x = x := by
      intro x
      unfold mix
      omega
    refine ⟨?_, ?_, ?_⟩
    · rw [val_of_get (g1 _ (by omega))]
      unfold sseAt
      dsimp only
      rw [if_pos rfl, tri_val hs (by omega) (by omega), mm]
    · rw [val_of_get (g1 _ (by omega))]
      unfold sseAt
      dsimp only
      rw [if_neg (by omega), if_pos rfl, tri_val hs (by omega) (by omega), mm]
    · rw [val_of_get (g1 _ (by omega))]
      unfold sseAt
      dsimp only
      rw [if_neg (by omega), if_neg (by omega), if_pos rfl, tri_val hs (by omega) (by omega)]

/-- The two agree on `0, 0, 0, 0, 0, 0, 0, 200` only up to position 12. -/
theorem c32_false : ¬ ∀ input : List I16, input.length % 4 = 0 → 8 ≤ input.length →
    upsampleHorizontalSse input (2 * input.length) = upsampleHorizontal input (2 * input.length) := by
  intro h
  have := h [0, 0, 0, 0, 0, 0, 0, 200] (by decide) (by decide)
  have hh := congrArg (fun o => match o with | .ok l => l.getD 13 0 | _ => 0) this
  revert hh
  decide +kernel

/-! ### C33 -/

/-- The two input rows that are mixed in round `k`: rows 0 and 7 stand alone. -/
def Spec.partner (k : Nat) : Nat := if k = 0 then 0 else if k = 7 then 7 else k + 1

theorem farRow_eq {k : Nat} (h : k < 8) : farRow k = partner k := by
  unfold farRow partner
  split
  · rfl
  · split <;> omega

theorem row_lt {s k c : Nat} (hk : k < 8) (hc : c < s) : k * s + c < 8 * s := by
  have : (k + 1) * s ≤ 8 * s := Nat.mul_le_mul_right _ (by omega)
  rw [Nat.add_mul] at this
  omega

theorem verticalAt_within {lo hi : Int} {input : List I16} {s : Nat} (h : input.length = 8 * s)
    (hw : Within lo hi input) (h1 : -8192 ≤ lo) (h2 : hi ≤ 8191) {k e c : Nat} (hk : k < 8)
    (hc : c < s) : lo ≤ (verticalAt input s k e c).toInt ∧ (verticalAt input s k e c).toInt ≤ hi := by
  have l1 := row_lt hk hc
  have l2 := row_lt (farRow_lt (k := k)) hc
  unfold verticalAt
  split
  · exact tri_within (at0_within hw (by omega)) (at0_within hw (by omega)) h1 h2
  · exact tri_within (at0_within hw (by omega)) (at0_within hw (by omega)) h1 h2

theorem vertical_within {input out : List I16} {s : Nat} (hs : 0 < s) (h : input.length = 8 * s)
    (hl : out.length = 2 * input.length)
    (hg : ∀ k e c, k < 8 → e < 2 → c < s →
        out[(2 * k + e) * s + c]? = some (verticalAt input s k e c)) {lo hi : Int} (h1 : -8192 ≤ lo)
    (h2 : hi ≤ 8191) (hw : Within lo hi input) : Within lo hi out := by
  intro x hx
  obtain ⟨p, hp, rfl⟩ := List.mem_iff_getElem.1 hx
  have h3 := Nat.div_add_mod p s
  have h4 : p / s < 16 := Nat.div_lt_of_lt_mul (by rw [Nat.mul_comm]; omega)
  have := hg (p / s / 2) (p / s % 2) (p % s) (by omega) (Nat.mod_lt _ (by omega)) (Nat.mod_lt _ hs)
  rw [show 2 * (p / s / 2) + p / s % 2 = p / s by omega, Nat.mul_comm (p / s), h3,
    List.getElem?_eq_getElem hp] at this
  rw [Option.some.inj this]
  exact verticalAt_within h hw h1 h2 (by omega) (Nat.mod_lt _ hs)

/-- **C33.** Vertical upsampling of 8 rows of `s` samples gives 16 rows. Rows `2 * k` and `2 * k + 1`
are three to one mixes of row `k` and its partner, which is the next row, except that rows 0 and 7
are their own partners; so a sample is between the two it mixes, and bounds on the input are bounds on
the output. The same bounds and the length hold for the scalar two-dimensional upsampling. -/
theorem c33_vertical {input : List I16} {s : Nat} (hs : 0 < s) (h : input.length = 8 * s)
    (hsm : Small input) :
    (∃ out, upsampleVertical input (2 * input.length) = .ok out ∧ out.length = 16 * s ∧
      (∀ k c, k < 8 → c < s →
        val out (2 * k * s + c) = mix (val input (k * s + c)) (val input (partner k * s + c)) ∧
        val out ((2 * k + 1) * s + c) = mix (val input (partner k * s + c)) (val input (k * s + c))) ∧
      ∀ lo hi, -8192 ≤ lo → hi ≤ 8191 → Within lo hi input → Within lo hi out) ∧
    ∃ out, upsampleHv input (4 * input.length) = .ok out ∧ out.length = 32 * s ∧
      ∀ lo hi, -8192 ≤ lo → hi ≤ 8191 → Within lo hi input → Within lo hi out := by
  obtain ⟨out, e, hl, hg⟩ := vertical_get hs h
  refine ⟨⟨out, e, by omega, ?_, ?_⟩, ?_⟩
  · intro k c hk hc
    have l1 := row_lt hk hc
    have l2 := row_lt (farRow_lt (k := k)) hc
    rw [← farRow_eq hk]
    constructor
    · have := hg k 0 c hk (by omega) hc
      rw [Nat.add_zero] at this
      rw [val_of_get this]
      exact tri_val hsm (by omega) (by omega)
    · have := hg k 1 c hk (by omega) hc
      rw [val_of_get this]
      exact tri_val hsm (by omega) (by omega)
  · intro lo hi h1 h2 hw
    exact vertical_within hs h hl hg h1 h2 hw
  · obtain ⟨out2, e2, hl2, hg2⟩ := horizontal_get (input := out) (by omega)
    refine ⟨out2, ?_, by omega, ?_⟩
    · unfold upsampleHv
      rw [Nat.mul_comm input.length 2, e]
      show upsampleHorizontal out (4 * input.length) = _
      rw [← e2]
      congr 1
      omega
    · intro lo hi h1 h2 hw
      have hw' := vertical_within hs h hl hg h1 h2 hw
      exact within_of_get hl2 hg2 fun p hp => horizontalAt_within (by omega) hw' h1 h2 hp

example : (0 : Nat) < 3 ∧ (List.replicate 24 (7 : I16)).length = 8 * 3 ∧
    Small (List.replicate 24 (7 : I16)) := by
  refine ⟨by decide, by decide, ?_⟩
  intro x hx
  rw [List.eq_of_mem_replicate hx]
  decide +kernel

/-! ### C54 -/

theorem hvScalar_get {input : List I16} {s : Nat} (hs : 0 < s) (h : input.length = 8 * s) :
    ∃ out, upsampleHv input (4 * input.length) = .ok out ∧ out.length = 4 * input.length ∧
      ∀ j e x, j < 8 → e < 2 → 1 ≤ x → x + 2 < 2 * s →
        out[(2 * j + e) * (2 * s) + x]? = some (hvAt input s j e x) := by
  obtain ⟨v, e1, hl, hg⟩ := vertical_get hs h
  obtain ⟨out, e2, hl2, hg2⟩ := horizontal_get (input := v) (by omega)
  refine ⟨out, ?_, by omega, ?_⟩
  · unfold upsampleHv
    rw [Nat.mul_comm input.length 2, e1]
    show upsampleHorizontal v (4 * input.length) = _
    rw [← e2]
    congr 1
    omega
  · intro j e x hj he hx hx2
    have hr : (2 * j + e + 1) * (2 * s) ≤ 16 * (2 * s) := Nat.mul_le_mul_right _ (by omega)
    have hr2 : (2 * j + e + 1) * (2 * s) = (2 * j + e) * (2 * s) + 2 * s := by ring
    have hr3 : (2 * j + e) * (2 * s) = 2 * ((2 * j + e) * s) := by ring
    have hv : ∀ c, c < s → at0 v ((2 * j + e) * s + c) = verticalAt input s j e c := by
      intro c hc
      have := hg j e c hj he hc
      unfold at0
      rw [List.getD_eq_getElem?_getD, this]
      rfl
    rw [hg2 _ (by omega)]
    congr 1
    unfold hvAt
    by_cases hp : x % 2 = 0
    · rw [horizontalAt_even (by omega) (by omega) (by omega), if_pos hp, ← hv _ (by omega),
        ← hv _ (by omega)]
      congr 2 <;> omega
    · rw [horizontalAt_odd (by omega) (by omega), if_neg hp, ← hv _ (by omega), ← hv _ (by omega)]
      congr 2 <;> omega

/-- **C54**, what holds: on 8 rows of `16 * q` samples, `q ≥ 4` (from this length on the SIMD function
uses AVX2 code; below it calls the scalar one), the AVX2 and the scalar 2x2 upsampling both succeed,
and agree in every output column that is not in the last 32 of its row and is neither the first nor
the last of a group of 32. -/
theorem c54_hv_partial {input : List I16} {q : Nat} (h : input.length = 128 * q) :
    (q < 4 → upsampleHvSimd input (4 * input.length) = upsampleHv input (4 * input.length)) ∧
    (4 ≤ q → ∃ simd scalar, upsampleHvSimd input (4 * input.length) = .ok simd ∧
      upsampleHv input (4 * input.length) = .ok scalar ∧
      simd.length = 4 * input.length ∧ scalar.length = 4 * input.length ∧
      ∀ r x, r < 16 → x + 32 < 32 * q → x % 32 ≠ 0 → x % 32 ≠ 31 →
        simd[r * (32 * q) + x]? = scalar[r * (32 * q) + x]?) := by
  unfold upsampleHvSimd
  constructor
  · intro hq
    rw [if_pos (by omega)]
  · intro hq
    rw [if_neg (by omega)]
    obtain ⟨simd, e1, l1, g1⟩ := hvAvx_get h (by omega)
    obtain ⟨scalar, e2, l2, g2⟩ := hvScalar_get (input := input) (s := 16 * q) (by omega) (by omega)
    refine ⟨simd, scalar, e1, e2, l1, l2, ?_⟩
    intro r x hr hx h0 h31
    have a := g1 (r / 2) (r % 2) x (by omega) (by omega) ⟨by omega, by omega, by omega⟩
    have b := g2 (r / 2) (r % 2) x (by omega) (by omega) (by omega) (by omega)
    rw [show 2 * (r / 2) + r % 2 = r by omega, show 2 * (16 * q) = 32 * q by omega] at a b
    rw [a, b]

example : (List.replicate 640 (7 : I16)).length = 128 * 5 := by rw [List.length_replicate]

/-- The number that the AVX2 code takes instead of a neighbouring interpolated value. -/
def Spec.carry (a b : Int) : Int := 3 * (a + b + 2) / 4

/-- What the AVX2 code computes from the 8 rows of `16 * q` samples `v`, for output row `2 * j + e` and
column `x`. Twice 16 columns are computed at once. The neighbours of these across the joints are not the
interpolated values but other numbers, at the left joint even of the wrong column; those of the first group
of a row are left over from the row before. The last 32 columns are interpolated only horizontally, from
samples 17 columns to the left of the right place. Then the first value of the second row and the last two
of both are replaced by others. -/
def Spec.avxValue (v : Nat → Nat → Int) (q j e x : Nat) : Int :=
  let far := partner j
  let w (c : Nat) : Int := if e = 0 then mix (v j c) (v far c) else mix (v far c) (v j c)
  let left (k : Nat) : Int :=
    if 0 < k then carry (v j (16 * k)) (v far (16 * k)) else if j = 0 then v 0 0
    else carry (v (j - 1) (16 * (q - 1))) (v (partner (j - 1)) (16 * (q - 1)))
  let right (k : Nat) : Int :=
    if 0 < k then carry (v j (16 * k + 16)) (v far (16 * k + 16)) else if j = 0 then v 0 16
    else carry (v j 0) (if j = 1 then v 1 0 else if j = 7 then 0 else v (j + 1) 0)
  let x := if e = 1 ∧ x = 0 then 1 else if 32 * q - 2 ≤ x then x - 2 else x
  if x < 32 * (q - 1) then
    mix (w (x / 2)) (if x % 32 = 0 then left (x / 32) else if x % 32 = 31 then right (x / 32)
      else if x % 2 = 0 then w (x / 2 - 1) else w (x / 2 + 1))
  else
    let r := if e = 0 then j else far
    mix (v r (x / 2 - 17)) (v r (if x % 2 = 0 then x / 2 - 18 else x / 2 - 16))

/-- Two samples that are far from the limits of 16-bit numbers. -/
theorem carry_toInt {a b : I16} (ha : -2048 ≤ a.toInt ∧ a.toInt ≤ 2047) (hb : -2048 ≤ b.toInt ∧ b.toInt ≤ 2047) :
    ((3 * (a + b + 2)).sshiftRight 2).toInt = carry a.toInt b.toInt := by
  rw [BitVec.toInt_sshiftRight, Int.shiftRight_eq_div_pow, BitVec.toInt_mul, BitVec.toInt_add,
    BitVec.toInt_add]
  rw [show (3 : I16).toInt = 3 from rfl, show (2 : I16).toInt = 2 from rfl]
  unfold carry
  have h0 : (a.toInt + b.toInt).bmod (2 ^ 16) = a.toInt + b.toInt :=
    Int.bmod_eq_of_le (by omega) (by omega)
  have h1 : ((a.toInt + b.toInt).bmod (2 ^ 16) + 2).bmod (2 ^ 16) = a.toInt + b.toInt + 2 := by
    rw [h0]
    exact Int.bmod_eq_of_le (by omega) (by omega)
  rw [h1, Int.bmod_eq_of_le (by omega) (by omega)]
  norm_num

/-- **C54**, what the AVX2 code computes instead, in every column: its output is `avxValue` of the rows. -/
theorem c54_avx_partial {input : List I16} {q : Nat} (h : input.length = 128 * q) (hq : 4 ≤ q)
    (hs : Within (-2048) 2047 input) :
    ∃ out, upsampleHvSimd input (4 * input.length) = .ok out ∧ out.length = 4 * input.length ∧
      ∀ j e x, j < 8 → e < 2 → x < 32 * q → val out ((2 * j + e) * (32 * q) + x) =
        avxValue (fun k c => val input (k * (16 * q) + c)) q j e x := by
  obtain ⟨out, h1, h2, h3⟩ := hvAvx_exact h (by omega)
  refine ⟨out, ?_, h2, fun j e x hj he hx => ?_⟩
  · unfold upsampleHvSimd
    rw [if_neg (by omega), h1]
  have hget := h3 j e x hj he hx
  rw [show 2 * (16 * q) = 32 * q by ring] at hget
  rw [val_of_get hget]
  have hv : ∀ k c, (at0 input (k * (16 * q) + c)).toInt = val input (k * (16 * q) + c) := fun _ _ => rfl
  have hb : ∀ p, -2048 ≤ (at0 input p).toInt ∧ (at0 input p).toInt ≤ 2047 := by
    intro p
    by_cases hp : p < input.length
    · exact at0_within hs hp
    · unfold at0
      rw [List.getD_eq_getElem?_getD, List.getElem?_eq_none (by omega)]
      decide
  have hb' : ∀ p, -2048 ≤ val input p ∧ val input p ≤ 2047 := hb
  have htri : ∀ {a b : I16}, (-8192 ≤ a.toInt ∧ a.toInt ≤ 8191) → (-8192 ≤ b.toInt ∧ b.toInt ≤ 8191) →
      (tri a b).toInt = mix a.toInt b.toInt := fun ha hb => tri_toInt ha hb
  have hbig : ∀ p, -8192 ≤ (at0 input p).toInt ∧ (at0 input p).toInt ≤ 8191 := fun p => by
    have := hb p
    omega
  have hvert : ∀ c, (verticalAt input (16 * q) j e c).toInt =
      (if e = 0 then mix (val input (j * (16 * q) + c)) (val input (partner j * (16 * q) + c))
        else mix (val input (partner j * (16 * q) + c)) (val input (j * (16 * q) + c))) := by
    intro c
    unfold verticalAt
    rw [farRow_eq hj]
    split <;> exact htri (hbig _) (hbig _)
  have hvb : ∀ c, -8192 ≤ (verticalAt input (16 * q) j e c).toInt ∧
      (verticalAt input (16 * q) j e c).toInt ≤ 8191 := by
    intro c
    rw [hvert]
    have a1 := hb' (j * (16 * q) + c)
    have a2 := hb' (partner j * (16 * q) + c)
    unfold mix
    split <;> omega
  have hcarry : ∀ p st, (hvCarry input p st).toInt = carry (val input p) (val input (p + st)) :=
    fun p st => carry_toInt (hb p) (hb (p + st))
  have hcb : ∀ p st, -8192 ≤ (hvCarry input p st).toInt ∧ (hvCarry input p st).toInt ≤ 8191 := by
    intro p st
    rw [hcarry]
    have a1 := hb' p
    have a2 := hb' (p + st)
    unfold carry
    omega
  have htb : ∀ p, -8192 ≤ (tri (at0 input p) (at0 input p)).toInt ∧
      (tri (at0 input p) (at0 input p)).toInt ≤ 8191 := by
    intro p
    rw [htri (hbig _) (hbig _)]
    have := hb p
    unfold mix
    omega
  have htself : ∀ p, (tri (at0 input p) (at0 input p)).toInt = val input p := by
    intro p
    rw [htri (hbig _) (hbig _)]
    show mix (val input p) (val input p) = _
    unfold mix
    omega
  have hpart : ∀ k c, k < 8 → k * (16 * q) + c + hvStride (16 * q) k = partner k * (16 * q) + c := by
    intro k c hk
    have := hvStride_far (s := 16 * q) hk
    rw [farRow_eq hk] at this
    omega
  unfold hvExact
  show (hvRaw input q j e (hvMoved q e x)).toInt = _
  have hmoved : hvMoved q e x < 32 * q ∧ hvMoved q e x = (if e = 1 ∧ x = 0 then 1 else
      if 32 * q - 2 ≤ x then x - 2 else x) := by
    refine ⟨?_, rfl⟩
    unfold hvMoved
    split
    · omega
    · split <;> omega
  obtain ⟨hm1, hm2⟩ := hmoved
  unfold avxValue
  dsimp only
  rw [← hm2]
  generalize hvMoved q e x = z at hm1 ⊢
  clear hm2 hget
  unfold hvRaw
  by_cases hz : z < 32 * (q - 1)
  · rw [if_pos hz, if_pos hz]
    by_cases h0 : z % 32 = 0
    · have hp : -8192 ≤ (hvPrev input q j (z / 32)).toInt ∧ (hvPrev input q j (z / 32)).toInt ≤ 8191 := by
        unfold hvPrev
        split
        · exact hcb _ _
        · split
          · exact htb _
          · exact hcb _ _
      rw [if_pos h0, if_pos h0, htri (hvb _) hp, hvert]
      refine congrArg (mix _) ?_
      unfold hvPrev
      split
      · rw [hcarry, hpart _ _ hj]
      · split
        · rw [htself, Nat.zero_mul]
        · rw [hcarry, hpart _ _ (by omega)]
    · rw [if_neg h0, if_neg h0]
      by_cases h31 : z % 32 = 31
      · have hp : -8192 ≤ (hvFar input q j (z / 32)).toInt ∧ (hvFar input q j (z / 32)).toInt ≤ 8191 := by
          unfold hvFar
          split
          · exact hcb _ _
          · split
            · exact htb _
            · exact hcb _ _
        rw [if_pos h31, if_pos h31, htri (hvb _) hp, hvert]
        refine congrArg (mix _) ?_
        unfold hvFar
        split
        · rw [hcarry, Nat.add_assoc, hpart _ _ hj]
        · split
          · rw [htself, Nat.zero_mul, Nat.zero_add]
          · rw [hcarry, Nat.add_zero]
            refine congrArg (carry _) ?_
            have hcase : j = 1 ∨ j = 7 ∨ (j ≠ 1 ∧ j ≠ 7 ∧ 1 < j) := by omega
            rcases hcase with rfl | rfl | ⟨n1, n7, n0⟩
            · rw [if_pos rfl]
              rfl
            · rw [if_neg (by omega), if_pos rfl]
              unfold val
              rw [List.getD_eq_getElem?_getD, List.getElem?_eq_none (by
                show _ ≤ 7 * (16 * q) + 16 * q
                omega)]
              rfl
            · rw [if_neg n1, if_neg n7]
              unfold hvStride
              rw [if_neg (by omega), Nat.add_zero, Nat.add_mul, Nat.one_mul]
      · rw [if_neg h31, if_neg h31]
        unfold hvAt
        by_cases hpar : z % 2 = 0
        · rw [if_pos hpar, if_pos hpar, htri (hvb _) (hvb _), hvert, hvert]
        · rw [if_neg hpar, if_neg hpar, htri (hvb _) (hvb _), hvert, hvert]
  · rw [if_neg hz, if_neg hz]
    dsimp only
    rw [farRow_eq hj]
    generalize (if e = 0 then j else partner j) = r
    have c1 : r * (16 * q) + z / 2 - 17 = r * (16 * q) + (z / 2 - 17) := by omega
    have c2 : r * (16 * q) + z / 2 - 18 = r * (16 * q) + (z / 2 - 18) := by omega
    have c3 : r * (16 * q) + z / 2 - 16 = r * (16 * q) + (z / 2 - 16) := by omega
    rw [c1, c2, c3]
    by_cases hpar : z % 2 = 0
    · rw [if_pos hpar, if_pos hpar, htri (hbig _) (hbig _)]
      rfl
    · rw [if_neg hpar, if_neg hpar, htri (hbig _) (hbig _)]
      rfl

example : (List.replicate 640 (7 : I16)).length = 128 * 5 ∧ Within (-2048) 2047 (List.replicate 640 (7 : I16)) := by
  refine ⟨by rw [List.length_replicate], fun x hx => ?_⟩
  rw [List.eq_of_mem_replicate hx]
  decide +kernel

/-- Entry `k` of a result. -/
def Out.entry (k : Nat) (o : Out (List I16)) : I16 := match o with | .ok l => l.getD k 0 | _ => 0

theorem hvAvx_joint : (upsampleHvAvx (List.replicate 512 200) 2048).entry 32 = 225 := by
  decide +kernel

/-- **C54 is false:** a plane that is 200 everywhere does not stay so. At each joint between two
groups the AVX2 code computes `3 * (a + b + 2) >> 2` from two vertically neighbouring samples instead
of their mix. -/
theorem c54_false : ¬ ∀ (input : List I16) (q : Nat), input.length = 128 * q → 4 ≤ q →
    upsampleHvSimd input (4 * input.length) = upsampleHv input (4 * input.length) := by
  intro h
  have hl : (List.replicate 512 (200 : I16)).length = 128 * 4 := by rw [List.length_replicate]
  have h8 : (List.replicate 512 (200 : I16)).length = 8 * 64 := by rw [List.length_replicate]
  have hw : Within 200 200 (List.replicate 512 (200 : I16)) := by
    intro x hx
    rw [List.eq_of_mem_replicate hx]
    decide +kernel
  obtain ⟨-, out, e, hlo, hb⟩ := c33_vertical (by decide) h8
    (fun x hx => ⟨by have := (hw x hx).1; omega, by have := (hw x hx).2; omega⟩)
  have := h (List.replicate 512 200) 4 hl (by decide)
  rw [e, List.length_replicate] at this
  have hsimd : upsampleHvSimd (List.replicate 512 200) (4 * 512) =
      upsampleHvAvx (List.replicate 512 200) 2048 := by
    unfold upsampleHvSimd
    rw [if_neg (by rw [List.length_replicate]; decide)]
  have hj := hvAvx_joint
  rw [← hsimd, this] at hj
  have h32 := hb 200 200 (by decide) (by decide) hw (at0 out 32) (at0_mem (by omega))
  rw [show at0 out 32 = 225 from hj] at h32
  exact absurd h32.2 (by decide)

end Zune
