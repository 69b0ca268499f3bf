import Verif.Props.ProgExact
import Verif.Props.Between
/-!
# A pixel depends on the blocks around it

C80.
-/

namespace Zune
open Spec

variable {g g' : ColourJpeg}

/-- Two images of the same size, factors and quantization. -/
structure Spec.SameFrame (g g' : ColourJpeg) : Prop where
  width : g.width = g'.width
  height : g.height = g'.height
  fh : g.fh = g'.fh
  fv : g.fv = g'.fv
  quant : ∀ i, g.quantOf i = g'.quantOf i

/-- The two images have the same coefficients of component `i` in all MCUs that touch the MCU of pixel `y`, `x`
(the MCUs are counted row by row). -/
def Spec.AgreeAround (g g' : ColourJpeg) (i y x : Nat) : Prop :=
  ∀ r c, r ≤ y / (8 * g.fv) + 1 → y / (8 * g.fv) ≤ r + 1 → c ≤ x / (8 * g.fh) + 1 → x / (8 * g.fh) ≤ c + 1 →
    c < mcuCols g.width g.fh → ∀ a b,
      g.blocks (r * mcuCols g.width g.fh + c) i a b = g'.blocks (r * mcuCols g.width g.fh + c) i a b

/-- **C80 (full statement).** A component of a pixel of the YCbCr output depends only on the coefficients of that
component in the MCU of the pixel and the MCUs around it. -/
def Spec.OnlyAround : Prop :=
  ∀ (cpu : Cpu) (o : Options) (g g' : ColourJpeg), g.Valid → g'.Valid → SameFrame g g' →
    g.width ≤ o.getMaxWidth → g.height ≤ o.getMaxHeight → o.getOutColorspace = .ycbcr →
    ∀ y x i, y < g.height → x < g.width → i < 3 → AgreeAround g g' i y x →
      ∃ out out' v, ((Decoder.newWithOptions cpu o).decodeBuffer g.bytes).1 = .ok out ∧
        ((Decoder.newWithOptions cpu o).decodeBuffer g'.bytes).1 = .ok out' ∧
        out[3 * (y * g.width + x) + i]? = some v ∧ out'[3 * (y * g.width + x) + i]? = some v

/-- Two images with the same value in a plane have the same byte there. -/
theorem same_byte (V : g.Valid) (V' : g'.Valid) (S : SameFrame g g') (cpu : Cpu) (o : Options)
    (hw : g.width ≤ o.getMaxWidth) (hh : g.height ≤ o.getMaxHeight) (hout : o.getOutColorspace = .ycbcr) {y x i : Nat}
    (hy : y < g.height) (hx : x < g.width) (hi : i < 3)
    (hp : g.plane cpu o.getUseUnsafe i y x = g'.plane cpu o.getUseUnsafe i y x) :
    ∃ out out' v, ((Decoder.newWithOptions cpu o).decodeBuffer g.bytes).1 = .ok out ∧
        ((Decoder.newWithOptions cpu o).decodeBuffer g'.bytes).1 = .ok out' ∧
        out[3 * (y * g.width + x) + i]? = some v ∧ out'[3 * (y * g.width + x) + i]? = some v := by
  obtain ⟨out, h1, h2, h3⟩ := c55_planes_partial V cpu o hw hh hout
  obtain ⟨out', k1, k2, k3⟩ := c55_planes_partial V' cpu o (S.width ▸ hw) (S.height ▸ hh) hout
  obtain ⟨b, hb, hv⟩ := h3 y x i hy hx hi
  obtain ⟨b', hb', hv'⟩ := k3 y x i (S.height ▸ hy) (S.width ▸ hx) hi
  refine ⟨out, out', b, h1, k1, hb, ?_⟩
  have e : b = b' := by
    apply UInt8.toNat_inj.1
    have hr : g'.Row y ↔ g.Row y := by
      unfold ColourJpeg.Row
      rw [S.height, S.fh, S.fv]
    have : (b.toNat : Int) = b'.toNat := by
      rw [hv, hv', hp]
      simp only [hr]
    omega
  rw [S.width, hb', e]

/-- The sample in row `y` and column `x` of a component comes from one block. -/
theorem sample_own (S : SameFrame g g') (f : IdctFn) {i y x : Nat}
    (h : g.blocks (y / 8 / (colourShape g.fh g.fv i).1 * mcuCols g.width g.fh + x / 8 / (colourShape g.fh g.fv i).2) i
        (y / 8 % (colourShape g.fh g.fv i).1) (x / 8 % (colourShape g.fh g.fv i).2) =
      g'.blocks (y / 8 / (colourShape g.fh g.fv i).1 * mcuCols g.width g.fh + x / 8 / (colourShape g.fh g.fv i).2) i
        (y / 8 % (colourShape g.fh g.fv i).1) (x / 8 % (colourShape g.fh g.fv i).2)) :
    g.value f i y x = g'.value f i y x := by
  unfold ColourJpeg.value ColourJpeg.sample
  rw [← S.quant, ← S.width, ← S.fh, ← S.fv]
  rw [unitSample_congr (m := fun k => g.blocks k i) (m' := fun k => g'.blocks k i) h]

theorem plane_luma_own (S : SameFrame g g') (cpu : Cpu) (un : Bool) {y x : Nat}
    (h : g.blocks (y / 8 / g.fv * mcuCols g.width g.fh + x / 8 / g.fh) 0 (y / 8 % g.fv) (x / 8 % g.fh) =
      g'.blocks (y / 8 / g.fv * mcuCols g.width g.fh + x / 8 / g.fh) 0 (y / 8 % g.fv) (x / 8 % g.fh)) :
    g.plane cpu un 0 y x = g'.plane cpu un 0 y x := by
  unfold ColourJpeg.plane
  dsimp only
  rw [if_pos (Or.inl rfl), if_pos (Or.inl rfl)]
  exact sample_own S _ h

theorem plane_chroma_own (V : g.Shape) (S : SameFrame g g') (e1 : g.fh = 1) (cpu : Cpu) (un : Bool) {y x i : Nat}
    (h0 : i ≠ 0)
    (h : g.blocks (y / (8 * g.fv) * mcuCols g.width g.fh + x / 8) i 0 0 =
      g'.blocks (y / (8 * g.fv) * mcuCols g.width g.fh + x / 8) i 0 0) :
    g.plane cpu un i y x = g'.plane cpu un i y x := by
  have own : ∀ f r, r / 8 = y / (8 * g.fv) → g.value f i r x = g'.value f i r x := by
    intro f r hr
    refine sample_own S f ?_
    unfold colourShape
    rw [if_neg h0]
    dsimp only
    rw [Nat.div_one, Nat.div_one, Nat.mod_one, Nat.mod_one, hr]
    exact h
  have hfv := V.fv
  unfold ColourJpeg.plane
  dsimp only
  rw [← S.fh, ← S.fv]
  rcases (by omega : g.fv = 1 ∨ g.fv = 2) with e2 | e2
  · rw [if_pos (Or.inr ⟨e1, e2⟩), if_pos (Or.inr ⟨e1, e2⟩)]
    exact own _ _ (by rw [e2])
  · have hne : ¬ (i = 0 ∨ g.fh = 1 ∧ g.fv = 1) := by omega
    have hm : mate (y / 2) / 8 = y / (8 * g.fv) := by
      unfold mate
      rw [e2]
      split <;> omega
    rw [if_neg hne, if_neg hne, if_pos e1, if_pos e1, own _ (y / 2) (by rw [e2]; omega), own _ _ hm]

/-- **C80 (luma).** The luma byte of a pixel depends only on the coefficients of the block that covers it. -/
theorem c80_luma_partial (V : g.Valid) (V' : g'.Valid) (S : SameFrame g g') (cpu : Cpu) (o : Options)
    (hw : g.width ≤ o.getMaxWidth) (hh : g.height ≤ o.getMaxHeight) (hout : o.getOutColorspace = .ycbcr) {y x : Nat}
    (hy : y < g.height) (hx : x < g.width)
    (h : g.blocks (y / 8 / g.fv * mcuCols g.width g.fh + x / 8 / g.fh) 0 (y / 8 % g.fv) (x / 8 % g.fh) =
      g'.blocks (y / 8 / g.fv * mcuCols g.width g.fh + x / 8 / g.fh) 0 (y / 8 % g.fv) (x / 8 % g.fh)) :
    ∃ out out' v, ((Decoder.newWithOptions cpu o).decodeBuffer g.bytes).1 = .ok out ∧
        ((Decoder.newWithOptions cpu o).decodeBuffer g'.bytes).1 = .ok out' ∧
        out[3 * (y * g.width + x)]? = some v ∧ out'[3 * (y * g.width + x)]? = some v :=
  same_byte V V' S cpu o hw hh hout hy hx (i := 0) (by omega) (plane_luma_own S cpu _ h)

/-- **C80 (without horizontal subsampling).** A chroma byte of a pixel depends only on the coefficients of the
block that covers it. -/
theorem c80_chroma_partial (V : g.Valid) (V' : g'.Valid) (S : SameFrame g g') (e1 : g.fh = 1) (cpu : Cpu) (o : Options)
    (hw : g.width ≤ o.getMaxWidth) (hh : g.height ≤ o.getMaxHeight) (hout : o.getOutColorspace = .ycbcr) {y x i : Nat}
    (hy : y < g.height) (hx : x < g.width) (hi : i = 1 ∨ i = 2)
    (h : g.blocks (y / (8 * g.fv) * mcuCols g.width g.fh + x / 8) i 0 0 =
      g'.blocks (y / (8 * g.fv) * mcuCols g.width g.fh + x / 8) i 0 0) :
    ∃ out out' v, ((Decoder.newWithOptions cpu o).decodeBuffer g.bytes).1 = .ok out ∧
        ((Decoder.newWithOptions cpu o).decodeBuffer g'.bytes).1 = .ok out' ∧
        out[3 * (y * g.width + x) + i]? = some v ∧ out'[3 * (y * g.width + x) + i]? = some v :=
  same_byte V V' S cpu o hw hh hout hy hx (by omega) (plane_chroma_own V.shape S e1 cpu _ (by omega) h)

theorem lineValue_congr {n p : Nat} {w w' : Nat → Int} (hn : 3 ≤ n) (hp : p < 2 * n)
    (h : ∀ j, j ≤ p / 2 + 1 → p / 2 ≤ j + 1 → w j = w' j) : lineValue n w p = lineValue n w' p := by
  unfold lineValue
  split
  · exact h _ (by omega) (by omega)
  split
  · exact h _ (by omega) (by omega)
  split
  · rw [h (n - 2) (by omega) (by omega), h (n - 1) (by omega) (by omega)]
  · rw [h (p / 2) (by omega) (by omega), h (if p % 2 = 0 then p / 2 - 1 else p / 2 + 1) (by split <;> omega)
      (by split <;> omega)]

theorem lineValueSse_congr {n p : Nat} {w w' : Nat → Int} (hn : 3 ≤ n) (hp : p < 2 * n)
    (h : ∀ j, j ≤ p / 2 + 1 → p / 2 ≤ j + 1 → w j = w' j) : lineValueSse n w p = lineValueSse n w' p := by
  unfold lineValueSse
  split
  · exact h _ (by omega) (by omega)
  split
  · exact h _ (by omega) (by omega)
  split
  · rw [h (n - 2) (by omega) (by omega), h (n - 3) (by omega) (by omega)]
  · exact lineValue_congr hn hp h

theorem plane_line_own (V : g.Shape) (S : SameFrame g g') (e1 : g.fh = 2) (e2 : g.fv = 1) (cpu : Cpu) (un : Bool)
    {y x i : Nat} (h0 : i ≠ 0) (hx2 : 2 ≤ x) (hx3 : x + 2 < 16 * mcuCols g.width g.fh) (h : AgreeAround g g' i y x) :
    g.plane cpu un i y x = g'.plane cpu un i y x := by
  have hX := V.cols.1
  have hne : ¬ (i = 0 ∨ g.fh = 1 ∧ g.fv = 1) := by omega
  have hf : g.fh ≠ 1 := by omega
  unfold ColourJpeg.plane
  dsimp only
  rw [← S.fh, ← S.fv, ← S.width, if_neg hne, if_neg hne, if_neg hf, if_neg hf, if_pos e2, if_pos e2]
  generalize hXX : mcuCols g.width g.fh = X at *
  have hval : ∀ f j, j ≤ (y % 16 * (16 * X) + x) / 2 + 1 → (y % 16 * (16 * X) + x) / 2 ≤ j + 1 →
      g.value f i (16 * (y / 16) + j / (8 * X)) (j % (8 * X)) =
        g'.value f i (16 * (y / 16) + j / (8 * X)) (j % (8 * X)) := by
    intro f j hj1 hj2
    have hh : y % 16 * (16 * X) = 2 * (8 * X * (y % 16)) := by ring
    rw [hh] at hj1 hj2
    obtain ⟨c, rfl, hc1, hc2⟩ : ∃ c, j = 8 * X * (y % 16) + c ∧ c ≤ x / 2 + 1 ∧ x / 2 ≤ c + 1 :=
      ⟨j - 8 * X * (y % 16), by omega, by omega, by omega⟩
    have hc : c < 8 * X := by omega
    rw [Nat.mul_add_div (by omega), Nat.div_eq_of_lt hc, Nat.mul_add_mod, Nat.mod_eq_of_lt hc, Nat.add_zero,
      show 16 * (y / 16) + y % 16 = y by omega]
    refine sample_own S f ?_
    unfold colourShape
    rw [if_neg h0, hXX]
    dsimp only
    rw [Nat.div_one, Nat.div_one]
    have := h (y / 8) (c / 8) (by rw [e2]; omega) (by rw [e2]; omega) (by rw [e1]; omega) (by rw [e1]; omega)
      (by rw [hXX]; omega)
    rw [hXX] at this
    exact this _ _
  have hp : y % 16 * (16 * X) + x < 2 * (128 * X) := by
    calc y % 16 * (16 * X) + x < y % 16 * (16 * X) + 16 * X := by omega
      _ = (y % 16 + 1) * (16 * X) := by ring
      _ ≤ 16 * (16 * X) := Nat.mul_le_mul_right _ (by omega)
      _ = _ := by ring
  split
  · exact lineValueSse_congr (by omega) hp (hval _)
  · exact lineValue_congr (by omega) hp (hval _)

theorem plane_both_own (V : g.Shape) (S : SameFrame g g') (e1 : g.fh = 2) (e2 : g.fv = 2) (cpu : Cpu) (un : Bool)
    (hs : (un && cpu.avx2 && decide (4 ≤ mcuCols g.width g.fh)) = false)
    {y x i : Nat} (h0 : i ≠ 0) (hx2 : 2 ≤ x) (hx3 : x + 2 < 16 * mcuCols g.width g.fh) (h : AgreeAround g g' i y x) :
    g.plane cpu un i y x = g'.plane cpu un i y x := by
  have hX := V.cols.1
  have hne : ¬ (i = 0 ∨ g.fh = 1 ∧ g.fv = 1) := by omega
  have hf : g.fh ≠ 1 := by omega
  have hg : g.fv ≠ 1 := by omega
  unfold ColourJpeg.plane
  dsimp only
  rw [← S.fh, ← S.fv, ← S.width, if_neg hne, if_neg hne, if_neg hf, if_neg hf, if_neg hg, if_neg hg, hs,
    if_neg (by decide), if_neg (by decide)]
  have hX2 : mcuCols g.width 2 = mcuCols g.width g.fh := by rw [e1]
  have hX3 : mcuCols g'.width 2 = mcuCols g.width g.fh := by rw [e1, S.width]
  generalize hXX : mcuCols g.width g.fh = X at *
  have own : ∀ f k c, 2 * (8 * (y / 32) + k) / 8 ≤ y / 16 + 1 → y / 16 ≤ 2 * (8 * (y / 32) + k) / 8 + 1 →
      c < 8 * X → c ≤ x / 2 + 1 → x / 2 ≤ c + 1 →
      g.double f i (y / 32) k (y % 2 * (8 * X) + c) = g'.double f i (y / 32) k (y % 2 * (8 * X) + c) := by
    intro f k c hk1 hk2 hc hc1 hc2
    unfold ColourJpeg.double
    rw [hX2, hX3, Nat.mul_comm (y % 2), Nat.mul_add_div (by omega), Nat.div_eq_of_lt hc, Nat.mul_add_mod,
      Nat.mod_eq_of_lt hc, Nat.add_zero]
    refine sample_own S f ?_
    unfold colourShape
    rw [if_neg h0, hXX]
    dsimp only
    rw [Nat.div_one, Nat.div_one]
    have := h ((2 * (8 * (y / 32) + k) + y % 2) / 8) (c / 8) (by rw [e2]; omega) (by rw [e2]; omega)
      (by rw [e1]; omega) (by rw [e1]; omega) (by rw [hXX]; omega)
    rw [hXX] at this
    exact this _ _
  have hp : y % 32 * (16 * X) + x < 2 * (256 * X) := by
    calc y % 32 * (16 * X) + x < y % 32 * (16 * X) + 16 * X := by omega
      _ = (y % 32 + 1) * (16 * X) := by ring
      _ ≤ 32 * (16 * X) := Nat.mul_le_mul_right _ (by omega)
      _ = _ := by ring
  refine lineValue_congr (by omega) hp fun j hj1 hj2 => ?_
  have hh : y % 32 * (16 * X) = 2 * (16 * X * (y % 32 / 2) + y % 2 * (8 * X)) := by
    have : y % 32 = 2 * (y % 32 / 2) + y % 2 := by omega
    calc y % 32 * (16 * X) = (2 * (y % 32 / 2) + y % 2) * (16 * X) := by rw [← this]
      _ = _ := by ring
  rw [hh] at hj1 hj2
  generalize hA : y % 2 * (8 * X) = A at *
  generalize hB : 16 * X * (y % 32 / 2) = B at *
  obtain ⟨c, rfl, hc1, hc2⟩ : ∃ c, j = B + A + c ∧ c ≤ x / 2 + 1 ∧ x / 2 ≤ c + 1 :=
    ⟨j - (B + A), by omega, by omega, by omega⟩
  have hc : c < 8 * X := by omega
  have hA' : A ≤ 8 * X := by
    rw [← hA]
    calc y % 2 * (8 * X) ≤ 1 * (8 * X) := Nat.mul_le_mul_right _ (by omega)
      _ = 8 * X := by ring
  have hAc : A + c < 16 * X := by omega
  have hd : (B + A + c) / (16 * X) = y % 32 / 2 := by
    rw [← hB, Nat.add_assoc, Nat.mul_add_div (by omega), Nat.div_eq_of_lt hAc, Nat.add_zero]
  have hm : (B + A + c) % (16 * X) = A + c := by
    rw [← hB, Nat.add_assoc, Nat.mul_add_mod, Nat.mod_eq_of_lt hAc]
  have hpt : ∀ k, k ≤ partner k ∧ partner k ≤ k + 1 := by
    intro k
    unfold partner
    by_cases k0 : k = 0
    · rw [if_pos k0]; omega
    · by_cases k7 : k = 7
      · rw [if_neg k0, if_pos k7]; omega
      · rw [if_neg k0, if_neg k7]; omega
  have hpt := hpt (y % 32 / 2 / 2)
  generalize hP : partner (y % 32 / 2 / 2) = P at *
  unfold vertLine
  dsimp only
  rw [hd, hm, hP, own _ (y % 32 / 2 / 2) c (by omega) (by omega) hc hc1 hc2, own _ P c (by omega) (by omega) hc hc1 hc2]

/-- **C80 (half horizontal resolution).** But for the first two columns and those at the end of the last MCU, a
chroma byte depends only on the coefficients of the MCU of the pixel and those around it. With half resolution in
both directions this is shown for the code that does not use AVX2. -/
theorem c80_line_partial (V : g.Valid) (V' : g'.Valid) (S : SameFrame g g') (e1 : g.fh = 2) (cpu : Cpu)
    (o : Options) (hs : g.fv = 1 ∨ (o.getUseUnsafe && cpu.avx2 && decide (4 ≤ mcuCols g.width g.fh)) = false)
    (hw : g.width ≤ o.getMaxWidth) (hh : g.height ≤ o.getMaxHeight)
    (hout : o.getOutColorspace = .ycbcr) {y x i : Nat}
    (hy : y < g.height) (hx : x < g.width) (hi : i = 1 ∨ i = 2) (hx2 : 2 ≤ x)
    (hx3 : x + 2 < 16 * mcuCols g.width g.fh) (h : AgreeAround g g' i y x) :
    ∃ out out' v, ((Decoder.newWithOptions cpu o).decodeBuffer g.bytes).1 = .ok out ∧
        ((Decoder.newWithOptions cpu o).decodeBuffer g'.bytes).1 = .ok out' ∧
        out[3 * (y * g.width + x) + i]? = some v ∧ out'[3 * (y * g.width + x) + i]? = some v := by
  refine same_byte V V' S cpu o hw hh hout hy hx (by omega) ?_
  have hfv := V.fv
  by_cases e2 : g.fv = 1
  · exact plane_line_own V.shape S e1 e2 cpu _ (by omega) hx2 hx3 h
  · exact plane_both_own V.shape S e1 (by omega) cpu _ (hs.resolve_left e2) (by omega) hx2 hx3 h

theorem plane_around (V : g.Shape) (S : SameFrame g g') (cpu : Cpu) (un : Bool) {y x i : Nat} (hx : x < g.width)
    (hs : i ≠ 0 → g.fh = 2 → 2 ≤ x ∧ x + 2 < 16 * mcuCols g.width g.fh ∧
      (g.fv = 1 ∨ (un && cpu.avx2 && decide (4 ≤ mcuCols g.width g.fh)) = false)) (h : AgreeAround g g' i y x) :
    g.plane cpu un i y x = g'.plane cpu un i y x := by
  have hfh := V.fh
  have hfv := V.fv
  have hX := V.cols.2
  have hcol : x / (8 * g.fh) < mcuCols g.width g.fh := by
    rw [Nat.div_lt_iff_lt_mul (by omega), show mcuCols g.width g.fh * (8 * g.fh) = 8 * (g.fh * mcuCols g.width g.fh) by ring]
    omega
  have own := h (y / (8 * g.fv)) (x / (8 * g.fh)) (by omega) (by omega) (by omega) (by omega) hcol
  by_cases h0 : i = 0
  · subst h0
    refine plane_luma_own S cpu un ?_
    rw [Nat.div_div_eq_div_mul, Nat.div_div_eq_div_mul]
    exact own _ _
  · rcases (by omega : g.fh = 1 ∨ g.fh = 2) with e1 | e1
    · refine plane_chroma_own V S e1 cpu un h0 ?_
      have := own 0 0
      rw [show x / (8 * g.fh) = x / 8 by rw [e1]] at this
      exact this
    · obtain ⟨h2, h3, h4⟩ := hs h0 e1
      by_cases e2 : g.fv = 1
      · exact plane_line_own V S e1 e2 cpu un h0 h2 h3 h
      · exact plane_both_own V S e1 (by omega) cpu un (h4.resolve_left e2) h0 h2 h3 h

/-- **C80 (RGB output).** A pixel of the RGB output depends only on the coefficients of the MCU of the pixel and
those around it, but for the last 31 columns of images of more than 16 columns (C38) and the cases excluded in
`c80_line_partial`. The samples of both images must be bytes (C26). -/
theorem c80_rgb_partial (V : g.Valid) (V' : g'.Valid) (S : SameFrame g g') (cpu : Cpu) (o : Options)
    (hw : g.width ≤ o.getMaxWidth) (hh : g.height ≤ o.getMaxHeight) (hout : o.getOutColorspace = .rgb)
    (hb : ∀ i, i < 3 → g.Bytes (chooseIdct cpu o.getUseUnsafe) i)
    (hb' : ∀ i, i < 3 → g'.Bytes (chooseIdct cpu o.getUseUnsafe) i)
    (hsse : o.getUseUnsafe = true → cpu.avx2 = false → cpu.sse41 = true →
      22 ≤ g.width ∧ 16 * (8 * (g.fh * mcuCols g.width g.fh) / 16 - 1) + 6 ≤ g.width) {y x : Nat}
    (hy : y < g.height) (hx : x < g.width) (hx31 : 16 < g.width → x + 31 < g.width)
    (hs : g.fh = 2 → 2 ≤ x ∧ x + 2 < 16 * mcuCols g.width g.fh ∧
      (g.fv = 1 ∨ (o.getUseUnsafe && cpu.avx2 && decide (4 ≤ mcuCols g.width g.fh)) = false))
    (h : ∀ i, i < 3 → AgreeAround g g' i y x) :
    ∃ out out', ((Decoder.newWithOptions cpu o).decodeBuffer g.bytes).1 = .ok out ∧
        ((Decoder.newWithOptions cpu o).decodeBuffer g'.bytes).1 = .ok out' ∧
        ∀ c, c < 3 → ∃ v, out[3 * (y * g.width + x) + c]? = some v ∧ out'[3 * (y * g.width + x) + c]? = some v := by
  obtain ⟨out, h1, -, h3⟩ := c55_pixel_partial V cpu o hw hh hout hb hsse
  obtain ⟨out', k1, -, k3⟩ := c55_pixel_partial V' cpu o (S.width ▸ hw) (S.height ▸ hh) hout hb'
    (by rw [← S.width, ← S.fh]; exact hsse)
  refine ⟨out, out', h1, k1, fun c hc => ?_⟩
  obtain ⟨b, hb1, hb2⟩ := h3 y (3 * x + c) hy (by omega)
  obtain ⟨b', hb1', hb2'⟩ := k3 y (3 * x + c) (S.height ▸ hy) (by rw [← S.width]; omega)
  have hpl : ∀ i, i < 3 → g.plane cpu o.getUseUnsafe i y x = g'.plane cpu o.getUseUnsafe i y x :=
    fun i hi => plane_around V.shape S cpu _ hx (fun _ => hs) (h i hi)
  have hcols := (cols_pos V).2
  have hpw : 8 * (g.fh * mcuCols g.width g.fh) ≤ g.width + 15 := by
    have := V.fh
    rcases (by omega : g.fh = 1 ∨ g.fh = 2) with e | e <;> rw [e] <;> unfold mcuCols <;> omega
  have hr : g'.Row y ↔ g.Row y := by
    unfold ColourJpeg.Row
    rw [S.height, S.fh, S.fv]
  have e : b = b' := by
    apply UInt8.toNat_inj.1
    have : (b.toNat : Int) = b'.toNat := by
      rw [hb2, hb2']
      unfold ColourJpeg.rgbByte
      rw [← S.width, ← S.fh, rowSource_same (by omega) hpw hx hx31 hc]
      simp only [hr]
      rw [hpl 0 (by omega), hpl 1 (by omega), hpl 2 (by omega)]
    omega
  rw [show 3 * (y * g.width + x) + c = y * (g.width * 3) + (3 * x + c) by ring]
  refine ⟨b, hb1, ?_⟩
  rw [S.width, hb1', e]

theorem grayBytes_own {f : IdctFn} {qt : List Nat} {w h y x : Nat} {bs bs' : List (List Int)} (hy : y < h) (hx : x < w)
    (hb : bs.getD (y / 8 * ((w + 7) / 8) + x / 8) [] = bs'.getD (y / 8 * ((w + 7) / 8) + x / 8) []) :
    ∃ v, (grayBytes f qt w h bs)[y * w + x]? = some v ∧ (grayBytes f qt w h bs')[y * w + x]? = some v := by
  have hp : y * w + x < h * w := by
    calc y * w + x < y * w + w := by omega
      _ = (y + 1) * w := by ring
      _ ≤ h * w := Nat.mul_le_mul_right _ hy
  have h1 : (y * w + x) / w = y := by
    rw [Nat.mul_comm, Nat.mul_add_div (by omega), Nat.div_eq_of_lt hx, Nat.add_zero]
  have h2 : (y * w + x) % w = x := by
    rw [Nat.mul_comm, Nat.mul_add_mod, Nat.mod_eq_of_lt hx]
  unfold grayBytes
  rw [List.getElem?_map, List.getElem?_map, List.getElem?_range hp]
  refine ⟨_, rfl, ?_⟩
  dsimp only [Option.map_some]
  rw [h1, h2]
  unfold planeSample
  rw [hb]

/-- **C80 (one component).** A pixel of a grayscale file depends only on the coefficients of its block. (Files of
other widths are not decoded, C53.) -/
theorem c80_gray_partial {g g' : GrayJpeg} (V : g.Valid) (V' : g'.Valid) (ew : g'.width = g.width)
    (eh : g'.height = g.height) (eq : g'.quant = g.quant) (cpu : Cpu) (o : Options)
    (hw : g.width ≤ o.getMaxWidth) (hh : g.height ≤ o.getMaxHeight) (hwd : 64 * ((g.width + 7) / 8) < 9 * g.width)
    {y x : Nat} (hy : y < g.height) (hx : x < g.width)
    (hb : g.intervals.flatten.getD (y / 8 * ((g.width + 7) / 8) + x / 8) [] =
      g'.intervals.flatten.getD (y / 8 * ((g.width + 7) / 8) + x / 8) []) :
    ∃ out out' v, ((Decoder.newWithOptions cpu o).decodeBuffer g.bytes).1 = .ok out ∧
      ((Decoder.newWithOptions cpu o).decodeBuffer g'.bytes).1 = .ok out' ∧
      out[y * g.width + x]? = some v ∧ out'[y * g.width + x]? = some v := by
  obtain ⟨v, h1, h2⟩ := grayBytes_own (f := chooseIdct cpu o.getUseUnsafe) (qt := naturalQuant g.quant) hy hx hb
  refine ⟨_, _, v, ?_, ?_, h1, h2⟩
  · rw [c53_gray_partial V cpu o hw hh, if_pos hwd]
  · rw [c53_gray_partial V' cpu o (by rw [ew]; exact hw) (by rw [eh]; exact hh), ew, eh, eq, if_pos hwd]

/-- **C80 (one component, progressive).** The same for progressive files and what their scans tell of the block. -/
theorem c80_gray_progressive_partial {g g' : ProgJpeg} {lev lev' : Nat → Option Nat} (V : g.Valid lev) (L : g.Fits)
    (V' : g'.Valid lev') (L' : g'.Fits) (ew : g'.width = g.width) (eh : g'.height = g.height)
    (eq : g'.quant = g.quant) (cpu : Cpu) (o : Options) (hw : g.width ≤ o.getMaxWidth)
    (hh : g.height ≤ o.getMaxHeight) (hs : 1 + g.rest.length ≤ o.getMaxScans)
    (hs' : 1 + g'.rest.length ≤ o.getMaxScans) (hwd : 64 * ((g.width + 7) / 8) < 9 * g.width)
    {y x : Nat} (hy : y < g.height) (hx : x < g.width)
    (hb : (g.blocks[y / 8 * ((g.width + 7) / 8) + x / 8]?).map (approxBlock lev) =
      (g'.blocks[y / 8 * ((g.width + 7) / 8) + x / 8]?).map (approxBlock lev')) :
    ∃ out out' v, ((Decoder.newWithOptions cpu o).decodeBuffer g.bytes).1 = .ok out ∧
      ((Decoder.newWithOptions cpu o).decodeBuffer g'.bytes).1 = .ok out' ∧
      out[y * g.width + x]? = some v ∧ out'[y * g.width + x]? = some v := by
  obtain ⟨v, h1, h2⟩ := grayBytes_own (f := chooseIdct cpu o.getUseUnsafe) (qt := naturalQuant g.quant) hy hx
    (bs := g.blocks.map (approxBlock lev)) (bs' := g'.blocks.map (approxBlock lev')) (by
      rw [List.getD_eq_getElem?_getD, List.getD_eq_getElem?_getD, List.getElem?_map, List.getElem?_map, hb])
  refine ⟨_, _, v, ?_, ?_, h1, h2⟩
  · rw [c58_gray_partial V L cpu o hw hh hs, if_pos hwd]
  · rw [c58_gray_partial V' L' cpu o (by rw [ew]; exact hw) (by rw [eh]; exact hh) hs', ew, eh, eq, if_pos hwd]

/-- The hypotheses of `c80_gray_partial` hold for the images of any two lists of blocks with the same first one. -/
example {a b c : List Int} (ha : Codable a) (hb : Codable b) (hc : Codable c) :
    let g := encodeGray 16 8 0 (List.replicate 64 1) [a, b]
    let g' := encodeGray 16 8 1 (List.replicate 64 1) [a, c]
    g.Valid ∧ g'.Valid ∧ g'.width = g.width ∧ g'.height = g.height ∧ g'.quant = g.quant ∧
      64 * ((g.width + 7) / 8) < 9 * g.width ∧
      g.intervals.flatten.getD (3 / 8 * ((g.width + 7) / 8) + 5 / 8) [] =
        g'.intervals.flatten.getD (3 / 8 * ((g.width + 7) / 8) + 5 / 8) [] := by
  refine ⟨encodeGray_valid (by decide) (by decide) (by decide) (by decide) (by decide) (by decide) ?_ rfl,
    encodeGray_valid (by decide) (by decide) (by decide) (by decide) (by decide) (by decide) ?_ rfl, rfl, rfl, rfl,
    (by decide : 64 * ((16 + 7) / 8) < 9 * 16), ?_⟩
  · intro x hx
    rcases List.mem_cons.1 hx with rfl | hx
    · exact ha
    · exact List.mem_singleton.1 hx ▸ hb
  · intro x hx
    rcases List.mem_cons.1 hx with rfl | hx
    · exact ha
    · exact List.mem_singleton.1 hx ▸ hc
  · show ((chunks 0 [a, b]).flatten).getD (3 / 8 * ((16 + 7) / 8) + 5 / 8) [] =
      ((chunks 1 [a, c]).flatten).getD (3 / 8 * ((16 + 7) / 8) + 5 / 8) []
    rw [chunks_flatten, chunks_flatten]
    rfl

/-- The first scan of `sampleProg`, with another third block. -/
def editProg : ProgJpeg :=
  { sampleProg with
    blocks := [3 :: 5 :: List.replicate 62 0, 1 :: 0 :: -1 :: List.replicate 61 0, 2 :: List.replicate 63 0]
    first := { sampleProg.first with bits := dcFirstBits sampleDcWord [1, -1, 1] }
    rest := [] }

theorem editProg_valid : ∃ lev, editProg.Valid lev := by
  refine ⟨_, ⟨by decide, by decide, by decide, by decide, by decide, by decide, ?_, by decide,
    ⟨⟨?_, by decide, by decide, by decide, by decide, ?_⟩, rfl⟩, by decide⟩⟩
  · intro b hb
    have h : ∀ b ∈ editProg.blocks, b.length = 64 ∧ ∀ x ∈ b, x.natAbs < 2 ^ 15 := by decide +kernel
    exact ⟨(h b hb).1, (h b hb).2⟩
  · intro t ht
    rw [List.mem_singleton.1 ht]
    exact sampleDc_valid 1 (by decide)
  · exact ScanData.dcFirst (tab := sampleDc) rfl (by decide +kernel)

/-- The hypotheses of `c80_gray_progressive_partial` hold for the first scan of `sampleProg` and the edited image,
for the pixels of the first two blocks. -/
example : (∃ lev, cutProg.Valid lev) ∧ cutProg.Fits ∧ (∃ lev, editProg.Valid lev) ∧ editProg.Fits ∧
    64 * ((cutProg.width + 7) / 8) < 9 * cutProg.width ∧
    (∀ k, k < 2 → cutProg.blocks[k]? = editProg.blocks[k]?) ∧ cutProg.blocks[2]? ≠ editProg.blocks[2]? :=
  ⟨cutProg_valid, cutProg_fits, editProg_valid, ⟨by decide +kernel, by decide⟩, by decide, by decide,
    by decide⟩

/-- **C80 (progressive files).** The luma byte of a pixel of a progressive file, and without horizontal
subsampling the chroma bytes too, depend only on what the scans tell of the block that covers the pixel. -/
theorem c80_progressive_partial {p p' : ProgColourJpeg} {lev lev' : Nat → Nat → Option Nat} {i : Nat}
    (V : p.Valid lev) (L : p.Fits) (V' : p'.Valid lev') (L' : p'.Fits) (hw1 : p.width = p'.width)
    (hh1 : p.height = p'.height) (hf1 : p.fh = p'.fh) (hf2 : p.fv = p'.fv) (hq : ∀ i, p.quantOf i = p'.quantOf i)
    (hi : i < 3) (hi1 : i = 0 ∨ p.fh = 1) (cpu : Cpu) (o : Options)
    (hw : p.width ≤ o.getMaxWidth) (hh : p.height ≤ o.getMaxHeight) (hs : 1 + p.rest.length ≤ o.getMaxScans)
    (hs' : 1 + p'.rest.length ≤ o.getMaxScans) (hout : o.getOutColorspace = .ycbcr) {y x : Nat}
    (hy : y < p.height) (hx : x < p.width)
    (hbl : approxBlock (lev i) (p.blocks i (if i = 0 then y / 8 else y / (8 * p.fv)) (x / 8)) =
      approxBlock (lev' i) (p'.blocks i (if i = 0 then y / 8 else y / (8 * p.fv)) (x / 8))) :
    ∃ out out' v, ((Decoder.newWithOptions cpu o).decodeBuffer p.bytes).1 = .ok out ∧
      ((Decoder.newWithOptions cpu o).decodeBuffer p'.bytes).1 = .ok out' ∧
      out[3 * (y * p.width + x) + i]? = some v ∧ out'[3 * (y * p.width + x) + i]? = some v := by
  obtain ⟨out, h1, h2, h3⟩ := c61_exact_partial V L (twin_same V) cpu o hw hh hs hout
  obtain ⟨out', k1, k2, k3⟩ := c61_exact_partial V' L' (twin_same V') cpu o (hw1 ▸ hw) (hh1 ▸ hh) hs' hout
  have S : SameFrame (p.twin lev) (p'.twin lev') := ⟨hw1, hh1, hf1, hf2, hq⟩
  have T : (p.twin lev).Shape := ⟨V.w0, V.fh, V.fv⟩
  have hX := T.cols
  have hX1 : 0 < mcuCols p.width p.fh := hX.1
  have hX2 : p.width ≤ 8 * (p.fh * mcuCols p.width p.fh) := hX.2
  have hpl : (p.twin lev).plane cpu o.getUseUnsafe i y x = (p'.twin lev').plane cpu o.getUseUnsafe i y x := by
    by_cases h0 : i = 0
    · subst h0
      refine plane_luma_own S cpu _ ?_
      show approxBlock (lev 0) (p.blocks 0 ((y / 8 / p.fv * mcuCols p.width p.fh + x / 8 / p.fh) / mcuCols p.width p.fh *
            p.fv + y / 8 % p.fv) ((y / 8 / p.fv * mcuCols p.width p.fh + x / 8 / p.fh) % mcuCols p.width p.fh *
            p.fh + x / 8 % p.fh)) =
        approxBlock (lev' 0) (p'.blocks 0 ((y / 8 / p.fv * mcuCols p.width p.fh + x / 8 / p.fh) /
            mcuCols p'.width p'.fh * p'.fv + y / 8 % p.fv)
            ((y / 8 / p.fv * mcuCols p.width p.fh + x / 8 / p.fh) % mcuCols p'.width p'.fh * p'.fh + x / 8 % p.fh))
      rw [← hw1, ← hf1, ← hf2]
      have hc : x / 8 / p.fh < mcuCols p.width p.fh := by
        rw [Nat.div_lt_iff_lt_mul V.fh.1, Nat.mul_comm]
        omega
      rw [Nat.mul_comm (y / 8 / p.fv), Nat.mul_add_div hX1, Nat.div_eq_of_lt hc, Nat.mul_add_mod, Nat.mod_eq_of_lt hc,
        Nat.add_zero, Nat.div_add_mod', Nat.div_add_mod']
      exact hbl
    · have e1 := hi1.resolve_left h0
      refine plane_chroma_own T S e1 cpu _ h0 ?_
      show approxBlock (lev i) (p.blocks i ((y / (8 * p.fv) * mcuCols p.width p.fh + x / 8) / mcuCols p.width p.fh *
            (if i = 0 then p.fv else 1) + 0) ((y / (8 * p.fv) * mcuCols p.width p.fh + x / 8) % mcuCols p.width p.fh *
            (if i = 0 then p.fh else 1) + 0)) =
        approxBlock (lev' i) (p'.blocks i ((y / (8 * p.fv) * mcuCols p.width p.fh + x / 8) / mcuCols p'.width p'.fh *
            (if i = 0 then p'.fv else 1) + 0) ((y / (8 * p.fv) * mcuCols p.width p.fh + x / 8) % mcuCols p'.width p'.fh *
            (if i = 0 then p'.fh else 1) + 0))
      rw [← hw1, ← hf1, if_neg h0, if_neg h0, if_neg h0]
      rw [if_neg h0] at hbl
      have hc : x / 8 < mcuCols p.width p.fh := by
        rw [e1] at hX2 ⊢
        omega
      rw [Nat.mul_comm (y / (8 * p.fv)), Nat.mul_add_div hX1, Nat.div_eq_of_lt hc, Nat.mul_add_mod, Nat.mod_eq_of_lt hc,
        Nat.add_zero, Nat.add_zero, Nat.mul_one, Nat.mul_one, Nat.add_zero]
      exact hbl
  obtain ⟨b, hb, hv⟩ := h3 y x i hy hx hi
  obtain ⟨b', hb', hv'⟩ := k3 y x i (hh1 ▸ hy) (hw1 ▸ hx) hi
  refine ⟨out, out', b, h1, k1, hb, ?_⟩
  have e : b = b' := by
    apply UInt8.toNat_inj.1
    have hr : (p'.twin lev').Row y ↔ (p.twin lev).Row y := by
      unfold ColourJpeg.Row
      rw [S.height, S.fh, S.fv]
    have : (b.toNat : Int) = b'.toNat := by
      rw [hv, hv', hpl]
      simp only [hr]
    omega
  rw [hw1, hb', e]

/-- An image of three MCUs and two rows of them with half horizontal resolution; the third MCU of the first row
has the Cb coefficient `v`. -/
def wrapImage (v : List Int) : ColourJpeg :=
  sampleColour 2 1 48 16 fun k i _ _ => if k = 2 ∧ i = 1 then v else List.replicate 64 0

theorem wrapImage_valid {v : List Int} (hv : v ∈ goodBlocks) : (wrapImage v).Valid :=
  sampleColour_valid (by decide) (by decide) (by decide) (by decide) (by decide) fun k i _ _ => by
    by_cases h : k = 2 ∧ i = 1
    · rw [if_pos h]
      exact hv
    · rw [if_neg h]
      decide

/-- **C80 is false of the code.** With half horizontal resolution the first chroma value of a row is mixed with the
last one of the row above, at the other end of the image. -/
theorem c80_false : ¬ OnlyAround := by
  intro h
  have hv : (1 :: List.replicate 63 (0 : Int)) ∈ goodBlocks := by decide
  have hz : List.replicate 64 (0 : Int) ∈ goodBlocks := by decide
  obtain ⟨out, out', v, h1, h2, h3, h4⟩ := h ⟨false, false⟩ (Options.new.setOutColorspace .ycbcr) (wrapImage (1 :: List.replicate 63 0))
    (wrapImage (List.replicate 64 0)) (wrapImage_valid hv) (wrapImage_valid hz) ⟨rfl, rfl, rfl, rfl, fun _ => rfl⟩
    (by decide) (by decide) rfl 1 0 1 (by decide) (by decide) (by decide) (by
      intro r c hr _ hc _ _ a b
      have hr' : r ≤ 1 := hr
      have hc' : c ≤ 1 := hc
      have hk : ¬ (r * 3 + c = 2 ∧ (1 : Nat) = 1) := by omega
      show (if r * 3 + c = 2 ∧ (1 : Nat) = 1 then _ else _) = (if r * 3 + c = 2 ∧ (1 : Nat) = 1 then _ else _)
      rw [if_neg hk, if_neg hk])
  have key : (((Decoder.newWithOptions ⟨false, false⟩ (Options.new.setOutColorspace .ycbcr)).decodeBuffer
      (wrapImage (1 :: List.replicate 63 0)).bytes).1.map fun l => l[3 * (1 * 48 + 0) + 1]?) ≠
    (((Decoder.newWithOptions ⟨false, false⟩ (Options.new.setOutColorspace .ycbcr)).decodeBuffer
      (wrapImage (List.replicate 64 0)).bytes).1.map fun l => l[3 * (1 * 48 + 0) + 1]?) := by
    decide +kernel
  apply key
  rw [h1, h2]
  show Out.ok (out[3 * (1 * 48 + 0) + 1]?) = Out.ok (out'[3 * (1 * 48 + 0) + 1]?)
  exact congrArg Out.ok (h3.trans h4.symm)

/-- The hypotheses of the theorems above hold for the two images of `c80_false` and pixels elsewhere. -/
example : let g := wrapImage (1 :: List.replicate 63 0)
    let g' := wrapImage (List.replicate 64 0)
    g.Valid ∧ g'.Valid ∧ SameFrame g g' ∧ 2 + 2 < 16 * mcuCols g.width g.fh ∧ AgreeAround g g' 1 3 2 := by
  refine ⟨wrapImage_valid (by decide), wrapImage_valid (by decide), ⟨rfl, rfl, rfl, rfl, fun _ => rfl⟩, by decide, ?_⟩
  intro r c hr _ hc _ _ a b
  have hr' : r ≤ 1 := hr
  have hc' : c ≤ 1 := hc
  have hk : ¬ (r * 3 + c = 2 ∧ (1 : Nat) = 1) := by omega
  show (if r * 3 + c = 2 ∧ (1 : Nat) = 1 then _ else _) = (if r * 3 + c = 2 ∧ (1 : Nat) = 1 then _ else _)
  rw [if_neg hk, if_neg hk]

/-- The samples of the images above are bytes. -/
theorem wrapImage_bytes {v : List Int} (hv : v = 1 :: List.replicate 63 0 ∨ v = List.replicate 64 0) (f : IdctFn)
    (i : Nat) : (wrapImage v).Bytes f i := by
  have key : ∀ f ∈ [IdctFn.scalar, .avx2], ∀ m ∈ [1 :: List.replicate 63 (0 : Int), List.replicate 64 0],
      ∀ q ∈ [List.replicate 64 (16 : UInt8), List.replicate 64 255], ∀ a < 8, ∀ b < 8,
      0 ≤ (((f.block (coded m) (naturalQuant q))[a]?.bind (·[b]?)).getD 0).toInt ∧
        (((f.block (coded m) (naturalQuant q))[a]?.bind (·[b]?)).getD 0).toInt ≤ 255 := by decide +kernel
  intro y x
  refine key f (idctFn_mem f) _ ?_ _ ?_ (y % 8) (by omega) (x % 8) (by omega)
  · show (if _ ∧ i = 1 then v else List.replicate 64 0) ∈ _
    by_cases h : i = 1
    · split
      · rcases hv with e | e <;> rw [e] <;> decide
      · decide
    · rw [if_neg (fun e => h e.2)]
      decide
  · unfold ColourJpeg.quantOf
    split
    · exact List.mem_cons_self
    · exact List.mem_cons_of_mem _ List.mem_cons_self

/-- The hypotheses of `c80_rgb_partial` hold for the same images and the pixel in row 3 and column 2. -/
example : let g := wrapImage (1 :: List.replicate 63 0)
    let g' := wrapImage (List.replicate 64 0)
    (∀ f i, g.Bytes f i) ∧ (∀ f i, g'.Bytes f i) ∧
      (22 ≤ g.width ∧ 16 * (8 * (g.fh * mcuCols g.width g.fh) / 16 - 1) + 6 ≤ g.width) ∧ 2 + 31 < g.width ∧
      ∀ i, i < 3 → AgreeAround g g' i 3 2 := by
  refine ⟨wrapImage_bytes (Or.inl rfl), wrapImage_bytes (Or.inr rfl), by decide, by decide, ?_⟩
  intro i _ r c hr _ hc _ _ a b
  have hr' : r ≤ 1 := hr
  have hc' : c ≤ 1 := hc
  have hk : ¬ (r * 3 + c = 2 ∧ i = 1) := by omega
  show (if r * 3 + c = 2 ∧ i = 1 then _ else _) = (if r * 3 + c = 2 ∧ i = 1 then _ else _)
  rw [if_neg hk, if_neg hk]

/-- The hypotheses of `c80_chroma_partial` hold for two images that differ in a block elsewhere. -/
example : let g (v : List Int) : ColourJpeg := sampleColour 1 2 16 32 fun k i _ _ =>
        if k = 1 ∧ i = 1 then v else List.replicate 64 0
    let a := g (1 :: List.replicate 63 0)
    let b := g (List.replicate 64 0)
    a.Valid ∧ b.Valid ∧ SameFrame a b ∧ a.fh = 1 ∧
      a.blocks (17 / (8 * a.fv) * mcuCols a.width a.fh + 9 / 8) 1 0 0 =
        b.blocks (17 / (8 * a.fv) * mcuCols a.width a.fh + 9 / 8) 1 0 0 ∧ a.blocks 1 1 0 0 ≠ b.blocks 1 1 0 0 := by
  refine ⟨sampleColour_valid (by decide) (by decide) (by decide) (by decide) (by decide) fun k i _ _ => ?_,
    sampleColour_valid (by decide) (by decide) (by decide) (by decide) (by decide) fun k i _ _ => ?_,
    ⟨rfl, rfl, rfl, rfl, fun _ => rfl⟩, rfl, by decide, by decide⟩ <;>
  · by_cases h : k = 1 ∧ i = 1
    · rw [if_pos h]; decide
    · rw [if_neg h]; decide

/-- The image `grayCProg` with other blocks in the second column of luma blocks. -/
def halfCProg : ProgColourJpeg :=
  { grayCProg with
    blocks := fun i _ k => if i = 0 ∧ k ≠ 1 then 1 :: List.replicate 63 0 else List.replicate 64 0
    first := { grayCProg.first with
      bits := cellBits (fun _ => sampleDcWord)
        [(0, 1), (0, -1), (1, 0), (2, 0), (0, 1), (0, -1), (1, 0), (2, 0)] } }

theorem halfCProg_valid : ∃ lev, halfCProg.Valid lev := by
  refine ⟨_, ⟨by decide, by decide, by decide, by decide, by decide, by decide, by decide, by decide, ?_,
    ⟨⟨?_, by decide, by decide, by decide, ?_⟩, rfl⟩, by decide⟩⟩
  · intro i r k hi hr hk
    have h1 : BlockOk (1 :: List.replicate 63 (0 : Int)) := ⟨by decide +kernel, by decide +kernel⟩
    have h2 : BlockOk (List.replicate 64 (0 : Int)) := ⟨by decide +kernel, by decide +kernel⟩
    show BlockOk (if i = 0 ∧ k ≠ 1 then 1 :: List.replicate 63 (0 : Int) else List.replicate 64 0)
    by_cases h : i = 0 ∧ k ≠ 1
    · rw [if_pos h]; exact h1
    · rw [if_neg h]; exact h2
  · intro t ht
    rw [List.mem_singleton.1 ht]
    exact sampleDc_valid 1 (by decide)
  · refine Or.inr ⟨by decide, by decide, by decide, by decide, by decide, ?_⟩
    refine InterData.first (al := 0) (fun i hi => ⟨sampleDc, rfl⟩) ?_
    intro x hx t ht
    have : t = sampleDc := (Option.some.inj ht).symm
    subst this
    clear ht
    revert x
    decide +kernel

/-- The hypotheses of `c80_progressive_partial` hold for `grayCProg` and `halfCProg`, for the pixels in the first
column of blocks. -/
example : (∃ lev, grayCProg.Valid lev) ∧ grayCProg.Fits ∧ (∃ lev, halfCProg.Valid lev) ∧ halfCProg.Fits ∧
    (∀ r, grayCProg.blocks 0 r 0 = halfCProg.blocks 0 r 0) ∧ grayCProg.blocks 0 0 1 ≠ halfCProg.blocks 0 0 1 :=
  ⟨grayCProg_valid, grayCProg_fits, halfCProg_valid, ⟨by decide +kernel, by decide +kernel, by decide⟩, fun _ => rfl,
    by decide⟩

end Zune
