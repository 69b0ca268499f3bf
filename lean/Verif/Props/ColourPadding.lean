import Verif.Props.ColourRestart
import Verif.Props.ColourPixel
/-!
# Blocks that are only padding

C62.
-/

namespace Zune
open Spec

/-- Two files for the same image but for the blocks that lie outside of it, which an encoder may choose
freely: same size, factors, quantisation tables and blocks. (Only luma has such blocks: an MCU always holds a
pixel.) -/
structure Spec.SameVisible (g g' : ColourJpeg) : Prop where
  width : g'.width = g.width
  height : g'.height = g.height
  fh : g'.fh = g.fh
  fv : g'.fv = g.fv
  quantY : g'.quantY = g.quantY
  quantC : g'.quantC = g.quantC
  luma : ∀ r k, 8 * r < g.height → 8 * k < g.width →
    g'.blocks (r / g.fv * mcuCols g.width g.fh + k / g.fh) 0 (r % g.fv) (k % g.fh) =
      g.blocks (r / g.fv * mcuCols g.width g.fh + k / g.fh) 0 (r % g.fv) (k % g.fh)
  chroma : ∀ i k, 0 < i → i < 3 → k < mcuRows g.height g.fv * mcuCols g.width g.fh →
    g'.blocks k i 0 0 = g.blocks k i 0 0

theorem Spec.SameVisible.agree {g g' : ColourJpeg} (S : SameVisible g g') :
    BlocksAgree g.width g.height g.fh g.fv g'.blocks g.blocks := by
  intro i r k hi hr hk
  unfold ownRows at hr
  unfold ownCols at hk
  by_cases h0 : i = 0
  · rw [if_pos h0] at hr hk
    subst h0
    exact S.luma r k (by omega) (by omega)
  · rw [if_neg h0] at hr hk
    unfold colourShape
    rw [if_neg h0, Nat.div_one, Nat.div_one, Nat.mod_one, Nat.mod_one]
    refine S.chroma i _ (by omega) hi ?_
    calc _ < r * mcuCols g.width g.fh + mcuCols g.width g.fh := by omega
      _ = (r + 1) * mcuCols g.width g.fh := by ring
      _ ≤ _ := Nat.mul_le_mul_right _ hr

/-- **C62 (partial).** YCbCr output does not depend on the blocks outside of the image (nor on codes, restart
intervals and trailing bytes). Missing: RGB output, for which the property is false (`c62_false`). -/
theorem c62_ycbcr_partial {g g' : ColourJpeg} (V : g.Valid) (V' : g'.Valid) (S : SameVisible g g') (cpu : Cpu)
    (o : Options) (hw : g.width ≤ o.getMaxWidth) (hh : g.height ≤ o.getMaxHeight)
    (hout : o.getOutColorspace = .ycbcr) :
    ((Decoder.newWithOptions cpu o).decodeBuffer g'.bytes).1 =
      ((Decoder.newWithOptions cpu o).decodeBuffer g.bytes).1 := by
  obtain ⟨d, c0, c1, c2, full, R, hq, K, hj⟩ := baseline_jobs V cpu o hw hh hout
  obtain ⟨d', e0, e1, e2, full', R', hq', K', hj'⟩ := baseline_jobs V' cpu o (by rw [S.width]; exact hw)
    (by rw [S.height]; exact hh) hout
  rw [S.width, S.height, S.fh, S.fv] at R' hj'
  have hqe : ∀ i, naturalQuant (g'.quantOf i) = naturalQuant (g.quantOf i) := by
    intro i
    unfold ColourJpeg.quantOf
    rw [S.quantY, S.quantC]
  exact ycbcr_unique R' R K' K hout (fun i c e => (hq' i c e).trans (hqe i)) hq S.agree hj' hj

/-- **C62 (partial).** Neither does grayscale output, if the conversion can handle the width (C37). -/
theorem c62_gray_partial {g g' : ColourJpeg} (V : g.Valid) (V' : g'.Valid) (S : SameVisible g g') (cpu : Cpu)
    (o : Options) (hw : g.width ≤ o.getMaxWidth) (hh : g.height ≤ o.getMaxHeight)
    (hout : o.getOutColorspace = .grayscale)
    (hwide : 8 * (g.fh * g.fv) * (8 * (g.fh * mcuCols g.width g.fh)) < (8 * (g.fh * g.fv) + 1) * g.width) :
    ((Decoder.newWithOptions cpu o).decodeBuffer g'.bytes).1 =
      ((Decoder.newWithOptions cpu o).decodeBuffer g.bytes).1 := by
  obtain ⟨d, c0, c1, c2, full, R, hq, K, hj⟩ := baseline_jobs V cpu o hw hh hout
  obtain ⟨d', e0, e1, e2, full', R', hq', K', hj'⟩ := baseline_jobs V' cpu o (by rw [S.width]; exact hw)
    (by rw [S.height]; exact hh) hout
  rw [S.width, S.height, S.fh, S.fv] at R' hj'
  have hqe : ∀ i, naturalQuant (g'.quantOf i) = naturalQuant (g.quantOf i) := by
    intro i
    unfold ColourJpeg.quantOf
    rw [S.quantY, S.quantC]
  exact gray_unique R' R K' K hout hwide (fun i c e => (hq' i c e).trans (hqe i)) hq S.agree hj' hj

/-! ### RGB output -/

/-- The blocks of `paddedColour`. -/
def paddedBlocks (v : Int) (k i b : Nat) : List Int :=
  if i = 0 ∧ k % 2 = 1 ∧ b = 1 then v :: List.replicate 63 0 else List.replicate 64 0

/-- An image of 24 x 16 pixels with chroma at half horizontal resolution: all coefficients are zero, but for
the DC coefficient `v` of the luma blocks in the columns 24 to 31, which are outside of the image. -/
def paddedColour (v : Int) : ColourJpeg := sampleColour 2 1 24 16 fun k i _ b => paddedBlocks v k i b

theorem paddedColour_valid {v : Int} (hv : v = 0 ∨ v = 1) : (paddedColour v).Valid :=
  sampleColour_valid (by decide) (by decide) (by decide) (by decide) (by decide) fun k i a b => by
    unfold paddedBlocks
    split
    · rcases hv with rfl | rfl <;> decide
    · decide

theorem paddedColour_same : SameVisible (paddedColour 0) (paddedColour 1) where
  width := rfl
  height := rfl
  fh := rfl
  fv := rfl
  quantY := rfl
  quantC := rfl
  luma := by
    intro r k hr hk
    have h1 : 8 * k < 24 := hk
    show paddedBlocks 1 (r / 1 * 2 + k / 2) 0 (k % 2) = paddedBlocks 0 (r / 1 * 2 + k / 2) 0 (k % 2)
    unfold paddedBlocks
    rw [if_neg (by omega), if_neg (by omega)]
  chroma := by
    intro i k h0 h3 hk
    show paddedBlocks 1 k i 0 = paddedBlocks 0 k i 0
    unfold paddedBlocks
    rw [if_neg (by omega), if_neg (by omega)]

theorem paddedColour_cols (v : Int) : mcuCols (paddedColour v).width (paddedColour v).fh = 2 := by
  show mcuCols 24 2 = 2
  decide

theorem paddedColour_value {v : Int} (hv : v = 0 ∨ v = 1) (f : IdctFn) (i y x : Nat) :
    (paddedColour v).value f i y x =
      if i = 0 ∧ (y / 8 * 2 + x / 8 / 2) % 2 = 1 ∧ x / 8 % 2 = 1 then 128 + 2 * v else 128 := by
  have key : ∀ v ∈ ([0, 1] : List Int), ∀ q ∈ ([16, 255] : List UInt8), ∀ f ∈ [IdctFn.scalar, .avx2],
      ∀ a < 8, ∀ b < 8, (q = 16 ∨ v = 0) →
      (((f.block (coded (v :: List.replicate 63 0)) (naturalQuant (List.replicate 64 q)))[a]?.bind
        (·[b]?)).getD 0).toInt = 128 + 2 * v := by decide +kernel
  have k0 : ∀ q ∈ ([16, 255] : List UInt8), (((f.block (coded (List.replicate 64 0))
      (naturalQuant (List.replicate 64 q)))[y % 8]?.bind (·[x % 8]?)).getD 0).toInt = 128 := fun q hq =>
    key 0 (by decide) q hq f (idctFn_mem f) (y % 8) (by omega) (x % 8) (by omega) (Or.inr rfl)
  have hval : (paddedColour v).value f i y x = (((f.block (coded (paddedBlocks v
      (y / 8 / (colourShape 2 1 i).1 * 2 + x / 8 / (colourShape 2 1 i).2) i (x / 8 % (colourShape 2 1 i).2)))
      (naturalQuant ((paddedColour v).quantOf i)))[y % 8]?.bind (·[x % 8]?)).getD (0 : I16)).toInt := by
    unfold ColourJpeg.value ColourJpeg.sample unitSample
    rw [paddedColour_cols]
    rfl
  rw [hval]
  unfold paddedBlocks
  by_cases hi : i = 0
  · subst hi
    have hs : (paddedColour v).quantOf 0 = List.replicate 64 16 := rfl
    have hc' : colourShape 2 1 0 = (1, 2) := rfl
    rw [hs, hc']
    dsimp only
    rw [Nat.div_one]
    by_cases hc : 0 = 0 ∧ (y / 8 * 2 + x / 8 / 2) % 2 = 1 ∧ x / 8 % 2 = 1
    · rw [if_pos hc, if_pos hc]
      exact key v (by rcases hv with rfl | rfl <;> decide) 16 (by decide) f (idctFn_mem f) (y % 8) (by omega)
        (x % 8) (by omega) (Or.inl rfl)
    · rw [if_neg hc, if_neg hc]
      exact k0 16 (by decide)
  · have hs : (paddedColour v).quantOf i = List.replicate 64 255 := if_neg hi
    rw [if_neg (by omega), if_neg (by omega), hs]
    exact k0 255 (by decide)

theorem paddedColour_bytes {v : Int} (hv : v = 0 ∨ v = 1) (f : IdctFn) (i : Nat) :
    (paddedColour v).Bytes f i := by
  intro y x
  rw [paddedColour_value hv]
  split <;> omega

/-- **C62 is false of RGB output**, with all options and on all CPUs: two files whose blocks differ outside of
the image only have different bytes in the first row of the output. -/
theorem c62_false : (paddedColour 0).Valid ∧ (paddedColour 1).Valid ∧
    SameVisible (paddedColour 0) (paddedColour 1) ∧
    ∀ cpu o, 24 ≤ Options.getMaxWidth o → 16 ≤ o.getMaxHeight → o.getOutColorspace = .rgb →
    ∃ out out', ((Decoder.newWithOptions cpu o).decodeBuffer (paddedColour 0).bytes).1 = .ok out ∧
      ((Decoder.newWithOptions cpu o).decodeBuffer (paddedColour 1).bytes).1 = .ok out' ∧
      out[3 * (0 * 24 + 10) + 2]? = some 128 ∧ out'[3 * (0 * 24 + 10) + 2]? = some 130 := by
  refine ⟨paddedColour_valid (Or.inl rfl), paddedColour_valid (Or.inr rfl), paddedColour_same,
    fun cpu o hw hh hout => ?_⟩
  have key : ∀ v : Int, v = 0 ∨ v = 1 → ∃ out b,
      ((Decoder.newWithOptions cpu o).decodeBuffer (paddedColour v).bytes).1 = .ok out ∧
      out[32]? = some b ∧ (b.toNat : Int) = 128 + 2 * v := by
    intro v hv
    obtain ⟨out, h1, -, h2⟩ := c55_pixel_partial (paddedColour_valid hv) cpu o hw hh hout
      (fun i _ => paddedColour_bytes hv _ i) (fun _ _ _ => ⟨by show 22 ≤ 24; omega, by
        rw [paddedColour_cols]; show 16 * (8 * (2 * 2) / 16 - 1) + 6 ≤ 24; omega⟩)
    obtain ⟨b, hb1, hb2⟩ := h2 0 32 (by show 0 < 16; omega) (by show 32 < 24 * 3; omega)
    refine ⟨out, b, h1, by rw [← hb1]; congr 1, ?_⟩
    rw [hb2]
    unfold ColourJpeg.rgbByte
    rw [if_pos (show (paddedColour v).Row 0 by show 0 / (8 * (2 * 1)) < mcuRows 16 1 / 2; decide)]
    have hs : rowSource (paddedColour v).width
        (8 * ((paddedColour v).fh * mcuCols (paddedColour v).width (paddedColour v).fh)) 32 = some (24, 0) := by
      show rowSource 24 (8 * (2 * mcuCols 24 2)) 32 = _
      decide
    rw [hs]
    have hp0 : (paddedColour v).plane cpu o.getUseUnsafe 0 0 24 = 128 + 2 * v := by
      unfold ColourJpeg.plane
      dsimp only
      rw [if_pos (Or.inl rfl), paddedColour_value hv]
      rfl
    have hp : ∀ i, i ≠ 0 → (paddedColour v).plane cpu o.getUseUnsafe i 0 24 = 128 := by
      intro i hi
      have hx : ∀ f y x, (paddedColour v).value f i y x = 128 := fun f y x => by
        rw [paddedColour_value hv, if_neg (by omega)]
      have e1 : (paddedColour v).fh = 2 := rfl
      have e2 : (paddedColour v).fv = 1 := rfl
      unfold ColourJpeg.plane
      rw [e1, e2]
      dsimp only
      rw [if_neg (show ¬ (i = 0 ∨ 2 = 1 ∧ 1 = 1) by omega), if_neg (show ¬ 2 = 1 by decide), if_pos rfl]
      simp only [hx]
      show (if o.getUseUnsafe && cpu.sse41 then lineValueSse else lineValue) (128 * mcuCols 24 2) (fun _ => 128)
          (0 % 16 * (16 * mcuCols 24 2) + 24) = _
      cases o.getUseUnsafe && cpu.sse41 <;> decide
    dsimp only
    rw [hp0, hp 1 (by decide), hp 2 (by decide)]
    rcases hv with rfl | rfl <;> decide
  obtain ⟨out, b, k1, k2, k3⟩ := key 0 (Or.inl rfl)
  obtain ⟨out', b', k1', k2', k3'⟩ := key 1 (Or.inr rfl)
  refine ⟨out, out', k1, k1', ?_, ?_⟩
  · show out[32]? = _
    rw [k2]
    exact congrArg some (UInt8.toNat_inj.1 (by show b.toNat = 128; omega))
  · show out'[32]? = _
    rw [k2']
    exact congrArg some (UInt8.toNat_inj.1 (by show b'.toNat = 130; omega))

/-- The other theorems apply to this pair too. -/
example (cpu : Cpu) (o : Options) (hw : 24 ≤ o.getMaxWidth) (hh : 16 ≤ o.getMaxHeight)
    (hout : o.getOutColorspace = .ycbcr) :
    ((Decoder.newWithOptions cpu o).decodeBuffer (paddedColour 1).bytes).1 =
      ((Decoder.newWithOptions cpu o).decodeBuffer (paddedColour 0).bytes).1 :=
  c62_ycbcr_partial (paddedColour_valid (Or.inl rfl)) (paddedColour_valid (Or.inr rfl)) paddedColour_same cpu o
    hw hh hout

end Zune
