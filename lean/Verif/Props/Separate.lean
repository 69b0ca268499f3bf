import Verif.Props.ColourPixel
import Verif.Props.Gray
import Verif.Props.ProgColour
/-! C77: the components of an image do not influence each other. C78: without chroma the image is gray. -/

namespace Zune

open Spec

section
variable {g g' : ColourJpeg}

/-- Two files have images of the same size and the same sampling factors, and the same coefficients and
quantisation table for component `i`. The Huffman codes, restart intervals, fill bits, bytes after the image
and the other components may differ. -/
structure Spec.SameComponent (g g' : ColourJpeg) (i : Nat) : Prop where
  width : g.width = g'.width
  height : g.height = g'.height
  fh : g.fh = g'.fh
  fv : g.fv = g'.fv
  quant : g.quantOf i = g'.quantOf i
  blocks : ∀ k a b, g.blocks k i a b = g'.blocks k i a b

theorem Spec.SameComponent.sample {i : Nat} (S : SameComponent g g' i) (f : IdctFn) (y x : Nat) :
    g.sample f i y x = g'.sample f i y x := by
  have hb : (fun k => g.blocks k i) = fun k => g'.blocks k i :=
    funext fun k => funext fun a => funext fun b => S.blocks k a b
  unfold ColourJpeg.sample
  rw [S.quant, S.width, S.fh, S.fv, hb]

theorem Spec.SameComponent.value {i : Nat} (S : SameComponent g g' i) (f : IdctFn) (y x : Nat) :
    g.value f i y x = g'.value f i y x := by
  unfold ColourJpeg.value
  rw [S.sample]

theorem Spec.SameComponent.plane {i : Nat} (S : SameComponent g g' i) (cpu : Cpu) (un : Bool) (y x : Nat) :
    g.plane cpu un i y x = g'.plane cpu un i y x := by
  have hd : ∀ f t, g.double f i t = g'.double f i t := fun f t => funext fun k => funext fun c => by
    unfold ColourJpeg.double
    rw [S.value, S.width]
  unfold ColourJpeg.plane
  simp only [S.value, S.width, S.fh, S.fv, hd]

theorem Spec.SameComponent.row {i : Nat} (S : SameComponent g g' i) (y : Nat) : g.Row y ↔ g'.Row y := by
  unfold ColourJpeg.Row
  rw [S.height, S.fh, S.fv]

/-- **C77** (YCbCr output). When two colour files have the same coefficients and quantisation table for a
component, that component is the same in every pixel of the two outputs, whatever the other components are,
and however the files are coded. -/
theorem c77_planes_partial {i : Nat} (V : g.Valid) (V' : g'.Valid) (S : SameComponent g g' i) (hi : i < 3)
    (cpu : Cpu) (o : Options) (hw : g.width ≤ o.getMaxWidth) (hh : g.height ≤ o.getMaxHeight)
    (hout : o.getOutColorspace = .ycbcr) :
    ∃ out out', ((Decoder.newWithOptions cpu o).decodeBuffer g.bytes).1 = .ok out ∧
      ((Decoder.newWithOptions cpu o).decodeBuffer g'.bytes).1 = .ok out' ∧ out.length = out'.length ∧
      ∀ y x, y < g.height → x < g.width → ∃ b, out[3 * (y * g.width + x) + i]? = some b ∧
        out'[3 * (y * g.width + x) + i]? = some b := by
  obtain ⟨out, h1, h2, h3⟩ := c55_planes_partial V cpu o hw hh hout
  obtain ⟨out', k1, k2, k3⟩ := c55_planes_partial V' cpu o (S.width ▸ hw) (S.height ▸ hh) hout
  refine ⟨out, out', h1, k1, by rw [h2, k2, S.width, S.height], fun y x hy hx => ?_⟩
  obtain ⟨b, hb, hv⟩ := h3 y x i hy hx hi
  obtain ⟨b', hb', hv'⟩ := k3 y x i (S.height ▸ hy) (S.width ▸ hx) hi
  refine ⟨b, hb, ?_⟩
  have e : b = b' := by
    apply UInt8.toNat_inj.1
    have : (b.toNat : Int) = b'.toNat := by
      rw [hv, hv', S.plane]
      simp only [S.row]
    omega
  rw [S.width, hb', e]

/-- **C77** (grayscale output). The grayscale output of a colour file depends only on its luma component. -/
theorem c77_gray_partial (V : g.Valid) (V' : g'.Valid) (S : SameComponent g g' 0) (cpu : Cpu) (o : Options)
    (hw : g.width ≤ o.getMaxWidth) (hh : g.height ≤ o.getMaxHeight) (hout : o.getOutColorspace = .grayscale)
    (hwide : 8 * (g.fh * g.fv) * (8 * (g.fh * mcuCols g.width g.fh)) < (8 * (g.fh * g.fv) + 1) * g.width) :
    ∃ out, ((Decoder.newWithOptions cpu o).decodeBuffer g.bytes).1 = .ok out ∧
      ((Decoder.newWithOptions cpu o).decodeBuffer g'.bytes).1 = .ok out := by
  obtain ⟨out, h1, h2, h3⟩ := c55_gray_partial V cpu o hw hh hout hwide
  obtain ⟨out', k1, k2, k3⟩ := c55_gray_partial V' cpu o (S.width ▸ hw) (S.height ▸ hh) hout
    (by rw [← S.width, ← S.fh, ← S.fv]; exact hwide)
  refine ⟨out, h1, ?_⟩
  rw [k1]
  congr 1
  symm
  apply List.ext_getElem?
  intro p
  by_cases hp : p < g.height * g.width
  · have hw0 : 0 < g.width := by
      rcases Nat.eq_zero_or_pos g.width with e | e
      · rw [e, Nat.mul_zero] at hp
        omega
      · exact e
    have hy : p / g.width < g.height := (Nat.div_lt_iff_lt_mul hw0).2 hp
    have hx := Nat.mod_lt p hw0
    have a := h3 _ _ hy hx
    have b := k3 (p / g.width) (p % g.width) (S.height ▸ hy) (S.width ▸ hx)
    rw [← S.width, Nat.div_add_mod'] at b
    rw [Nat.div_add_mod'] at a
    rw [a, b, S.sample]
    simp only [S.row]
  · rw [List.getElem?_eq_none (by omega), List.getElem?_eq_none (by rw [k2, ← S.width, ← S.height]; omega)]

/-- **C77** (the image without its colour). The grayscale output of a colour file without subsampling is the
image of the grayscale file with the coefficients of its luma component. -/
theorem c77_mono_partial {m : GrayJpeg} (V : g.Valid) (V' : m.Valid) (e1 : g.fh = 1) (e2 : g.fv = 1)
    (hw1 : g.width = m.width) (hh1 : g.height = m.height) (hq : g.quantY = m.quant)
    (hbl : ∀ k, k < (m.height + 7) / 8 * ((m.width + 7) / 8) → g.blocks k 0 0 0 = m.intervals.flatten.getD k [])
    (cpu : Cpu) (o : Options) (o' : Options)
    (hw : g.width ≤ o.getMaxWidth) (hh : g.height ≤ o.getMaxHeight) (hout : o.getOutColorspace = .grayscale)
    (hw' : g.width ≤ o'.getMaxWidth) (hh' : g.height ≤ o'.getMaxHeight)
    (hun : o'.getUseUnsafe = o.getUseUnsafe)
    (hwide : 64 * ((m.width + 7) / 8) < 9 * m.width) :
    ∃ out, ((Decoder.newWithOptions cpu o).decodeBuffer g.bytes).1 = .ok out ∧
      ((Decoder.newWithOptions cpu o').decodeBuffer m.bytes).1 = .ok out := by
  have hcols : mcuCols g.width g.fh = (m.width + 7) / 8 := by rw [e1, hw1]; unfold mcuCols; omega
  obtain ⟨out, h1, h2, h3⟩ := c55_gray_partial V cpu o hw hh hout (by rw [hcols, e1, e2, hw1]; omega)
  refine ⟨out, h1, ?_⟩
  rw [c53_gray_partial V' cpu o' (hw1 ▸ hw') (hh1 ▸ hh'), if_pos hwide, hun]
  congr 1
  symm
  apply List.ext_getElem?
  intro p
  by_cases hp : p < g.height * g.width
  · have hw0 : 0 < g.width := by
      rcases Nat.eq_zero_or_pos g.width with e | e
      · rw [e, Nat.mul_zero] at hp
        omega
      · exact e
    have hy : p / g.width < g.height := (Nat.div_lt_iff_lt_mul hw0).2 hp
    have hx := Nat.mod_lt p hw0
    have a := h3 _ _ hy hx
    rw [Nat.div_add_mod', if_pos (row_all V e1 hy)] at a
    rw [a]
    unfold grayBytes
    rw [List.getElem?_map, List.getElem?_range (by rw [← hw1, ← hh1]; exact hp), Option.map_some]
    congr 2
    unfold ColourJpeg.sample unitSample planeSample
    rw [hcols, e1, e2, show g.quantOf 0 = g.quantY from rfl, hq]
    simp only [colourShape, if_true, Nat.div_one, Nat.mod_one]
    rw [← hw1] at hbl ⊢
    rw [← hh1] at hbl
    rw [hbl]
    have hx8 : p % g.width / 8 < (g.width + 7) / 8 := by omega
    calc _ < p / g.width / 8 * ((g.width + 7) / 8) + (g.width + 7) / 8 := by omega
      _ = (p / g.width / 8 + 1) * ((g.width + 7) / 8) := by ring
      _ ≤ _ := Nat.mul_le_mul_right _ (by omega)
  · rw [List.getElem?_eq_none (by omega), List.getElem?_eq_none (by rw [grayBytes_length, ← hw1, ← hh1]; omega)]

/-- All coefficients of component `i` are zero. -/
def Spec.ColourJpeg.Empty (g : ColourJpeg) (i : Nat) : Prop := ∀ k a b, ∀ v ∈ g.blocks k i a b, v = 0

theorem coded_zero {b : List Int} (h : ∀ v ∈ b, v = 0) : coded b = List.replicate 64 0 := by
  have hz : ∀ k, b.getD k 0 = 0 := by
    intro k
    rw [List.getD_eq_getElem?_getD]
    rcases hk : b[k]? with _ | v
    · rfl
    · exact h v (List.mem_of_getElem? hk)
  rw [List.eq_replicate_iff]
  refine ⟨coded_length b, fun v hv => ?_⟩
  unfold coded naturalOrder at hv
  simp only [List.mem_map, hz] at hv
  obtain ⟨_, ⟨_, _, rfl⟩, rfl⟩ := hv
  rfl

theorem zero_block (f : IdctFn) (qt : List Nat) :
    f.block (List.replicate 64 0) qt = List.replicate 8 (List.replicate 8 128) := by
  have hd : dcValue (List.replicate 64 0) qt = 128 := by
    unfold dcValue
    simp
  have ha : acZero (List.replicate 64 0) = true := by decide
  cases f with
  | scalar => 
    show idctBlockScalar _ _ = _
    rw [idctBlockScalar, if_pos ha, hd]
  | avx2 =>
    show idctBlockAvx _ _ = _
    rw [idctBlockAvx, if_pos ha, hd]
    rfl

theorem empty_value {i : Nat} (h : g.Empty i) (f : IdctFn) (y x : Nat) : g.value f i y x = 128 := by
  unfold ColourJpeg.value ColourJpeg.sample unitSample
  rw [coded_zero (h _ _ _), zero_block]
  have key : ∀ a < 8, ∀ b < 8, ((sample (List.replicate 8 (List.replicate 8 (128 : I16))) a b).getD 0).toInt = 128 := by
    decide
  exact key _ (Nat.mod_lt _ (by decide)) _ (Nat.mod_lt _ (by decide))

theorem mix_128 : mix 128 128 = 128 := by decide

theorem lineValue_128 (n p : Nat) : lineValue n (fun _ => 128) p = 128 := by
  unfold lineValue
  simp only [mix_128, ite_self]

theorem lineValueSse_128 (n p : Nat) : lineValueSse n (fun _ => 128) p = 128 := by
  unfold lineValueSse
  simp only [mix_128, lineValue_128, ite_self]

theorem vertLine_128 (s : Nat) : vertLine (fun _ _ => 128) s = fun _ => 128 := by
  funext k
  unfold vertLine
  simp only [mix_128, ite_self]

theorem avxValue_128 {q j e x : Nat} (hx : x % 16 ≠ 0 ∧ x % 16 ≠ 15) : avxValue (fun _ _ => 128) q j e x = 128 := by
  unfold avxValue
  dsimp only
  simp only [mix_128, ite_self]
  have h1 : ¬ (e = 1 ∧ x = 0) := by omega
  rw [if_neg h1]
  by_cases h2 : 32 * q - 2 ≤ x
  · rw [if_pos h2, if_neg (by omega)]
  · rw [if_neg h2, if_neg (show ¬ x % 32 = 0 by omega), if_neg (show ¬ x % 32 = 31 by omega)]
    split
    · exact mix_128
    · rfl

/-- The columns at which the AVX2 upsampler takes wrong neighbours. -/
def Spec.ColourJpeg.AtJoint (g : ColourJpeg) (cpu : Cpu) (un : Bool) (x : Nat) : Prop :=
  g.Joints cpu un ∧ (x % 16 = 0 ∨ x % 16 = 15)

theorem empty_plane {i : Nat} (V : g.Shape) (h : g.Empty i) {cpu : Cpu} {un : Bool} {y x : Nat}
    (hj : ¬ g.AtJoint cpu un x) : g.plane cpu un i y x = 128 := by
  have hd : ∀ f t, g.double f i t = fun _ _ => 128 := fun f t => funext fun k => funext fun c => by
    unfold ColourJpeg.double
    rw [empty_value h]
  unfold ColourJpeg.plane
  simp only [empty_value h, hd, mix_128, ite_self]
  split
  · rfl
  split
  · rfl
  split
  · split
    · exact lineValueSse_128 _ _
    · exact lineValue_128 _ _
  split
  next h1 h2 h3 h4 =>
    have hfac := V.fh
    have hfac' := V.fv
    simp only [Bool.and_eq_true, decide_eq_true_eq] at h4
    refine avxValue_128 ?_
    have hJ : g.Joints cpu un := by
      refine ⟨by omega, by omega, h4.1.1, h4.1.2, ?_⟩
      have := h4.2
      rwa [show g.fh = 2 by omega] at this
    have : ¬ (x % 16 = 0 ∨ x % 16 = 15) := fun e => hj ⟨hJ, e⟩
    have e : (y % 2 * (16 * mcuCols g.width g.fh) + x) % 16 = x % 16 := by
      rw [show y % 2 * (16 * mcuCols g.width g.fh) = 16 * (y % 2 * mcuCols g.width g.fh) by ring, Nat.mul_add_mod]
    omega
  · rw [vertLine_128]
    exact lineValue_128 _ _

/-- **C78** (YCbCr output). When all coefficients of a chroma component are zero, that component is 128 in
every pixel of the decoded rows, but for the columns at the joints of the AVX2 upsampler (`c78_false`). -/
theorem c78_planes_partial {i : Nat} (V : g.Valid) (h : g.Empty i) (hi : i < 3) (cpu : Cpu) (o : Options)
    (hw : g.width ≤ o.getMaxWidth) (hh : g.height ≤ o.getMaxHeight) (hout : o.getOutColorspace = .ycbcr) :
    ∃ out, ((Decoder.newWithOptions cpu o).decodeBuffer g.bytes).1 = .ok out ∧
      ∀ y x, y < g.height → x < g.width → g.Row y → ¬ g.AtJoint cpu o.getUseUnsafe x →
        out[3 * (y * g.width + x) + i]? = some 128 := by
  obtain ⟨out, h1, -, h3⟩ := c55_planes_partial V cpu o hw hh hout
  refine ⟨out, h1, fun y x hy hx hr hj => ?_⟩
  obtain ⟨b, hb, hv⟩ := h3 y x i hy hx hi
  rw [if_pos hr, empty_plane V.shape h hj] at hv
  rw [hb]
  congr 1
  apply UInt8.toNat_inj.1
  show b.toNat = 128
  omega

theorem rgbValue_gray {y : Int} (h0 : 0 ≤ y) (h1 : y ≤ 255) : rgbValue y 128 128 = [y, y, y] := by
  unfold rgbValue
  simp only [Int.sub_self, Int.mul_zero, Int.zero_ediv, Int.add_zero, Int.sub_zero]
  rw [show max 0 (min 255 y) = y by omega]

/-- **C78** (RGB output). When all coefficients of both chroma components are zero, the pixels are gray: red,
green and blue are the luma sample. Missing: the last 31 columns of images of more than 16 (C38), the rows
that are not decoded (C44), the joints of the AVX2 upsampler, and the widths for which the SSE converter
panics. -/
theorem c78_rgb_partial (V : g.Valid) (hb : g.Empty 1) (hr : g.Empty 2) (cpu : Cpu) (o : Options)
    (hw : g.width ≤ o.getMaxWidth) (hh : g.height ≤ o.getMaxHeight) (hout : o.getOutColorspace = .rgb)
    (hy : g.Bytes (chooseIdct cpu o.getUseUnsafe) 0)
    (hsse : o.getUseUnsafe = true → cpu.avx2 = false → cpu.sse41 = true →
      22 ≤ g.width ∧ 16 * (8 * (g.fh * mcuCols g.width g.fh) / 16 - 1) + 6 ≤ g.width) :
    ∃ out, ((Decoder.newWithOptions cpu o).decodeBuffer g.bytes).1 = .ok out ∧
      ∀ y x, y < g.height → x < g.width → (16 < g.width → x + 31 < g.width) → g.Row y →
        ¬ g.AtJoint cpu o.getUseUnsafe x →
        ∀ c, c < 3 → out[3 * (y * g.width + x) + c]? =
          some (lowByte (g.sample (chooseIdct cpu o.getUseUnsafe) 0 y x)) := by
  obtain ⟨out, h1, -, h3⟩ := c55_pixel_partial V cpu o hw hh hout (by
    intro i hi
    rcases (by omega : i = 0 ∨ i = 1 ∨ i = 2) with rfl | rfl | rfl
    · exact hy
    · intro y x
      rw [empty_value hb]
      decide
    · intro y x
      rw [empty_value hr]
      decide) hsse
  refine ⟨out, h1, fun y x hy' hx hx31 hrow hj c hc => ?_⟩
  obtain ⟨b, hb1, hb2⟩ := h3 y (3 * x + c) hy' (by omega)
  have hcols := (cols_pos V).2
  have hpw : 8 * (g.fh * mcuCols g.width g.fh) ≤ g.width + 15 := by
    have := V.fh
    rcases (by omega : g.fh = 1 ∨ g.fh = 2) with e | e <;> rw [e] <;> unfold mcuCols <;> omega
  unfold ColourJpeg.rgbByte at hb2
  rw [if_pos hrow, rowSource_same (by omega) hpw hx hx31 hc] at hb2
  dsimp only at hb2
  have h0 : g.plane cpu o.getUseUnsafe 0 y x = g.value (chooseIdct cpu o.getUseUnsafe) 0 y x := by
    unfold ColourJpeg.plane
    simp
  obtain ⟨l1, l2⟩ := hy y x
  rw [empty_plane V.shape hb hj, empty_plane V.shape hr hj, h0, rgbValue_gray l1 l2] at hb2
  rw [show 3 * (y * g.width + x) + c = y * (g.width * 3) + (3 * x + c) by ring, hb1]
  congr 1
  apply UInt8.toNat_inj.1
  have hl := lowByte_toNat (g.sample (chooseIdct cpu o.getUseUnsafe) 0 y x)
  have : (b.toNat : Int) = g.value (chooseIdct cpu o.getUseUnsafe) 0 y x := by
    rcases (by omega : c = 0 ∨ c = 1 ∨ c = 2) with rfl | rfl | rfl <;> exact hb2
  unfold ColourJpeg.value at this l1 l2
  omega

/-- An image of one gray, with half resolution of the chroma components in both directions. -/
def plainGray : ColourJpeg :=
  sampleColour 2 2 64 32 fun _ i _ _ => if i = 0 then 1 :: List.replicate 63 0 else List.replicate 64 0

theorem plainGray_valid : plainGray.Valid :=
  sampleColour_valid (by decide) (by decide) (by decide) (by decide) (by decide) fun _ i _ _ => by
    by_cases h : i = 0 <;> simp [goodBlocks, h]

theorem plainGray_empty {i : Nat} (hi : i ≠ 0) : plainGray.Empty i := fun k a b v hv => by
  have : plainGray.blocks k i a b = List.replicate 64 0 := if_neg hi
  rw [this] at hv
  exact List.eq_of_mem_replicate hv

theorem plainGray_luma (f : IdctFn) (y x : Nat) : plainGray.value f 0 y x = 130 := by
  have key : ∀ f ∈ [IdctFn.scalar, .avx2], ∀ a < 8, ∀ b < 8,
      (((f.block (coded (1 :: List.replicate 63 0)) (naturalQuant (List.replicate 64 (16 : UInt8))))[a]?.bind
        (·[b]?)).getD 0).toInt = 130 := by decide +kernel
  exact key f (idctFn_mem f) (y % 8) (by omega) (x % 8) (by omega)

/-- **C78 is false with AVX2**: all chroma coefficients of `plainGray` are zero and its luma samples are all
130, but the pixel in column 32 of the first row is purple: red 152, green 113, blue 158. -/
theorem c78_false : plainGray.Valid ∧ plainGray.Empty 1 ∧ plainGray.Empty 2 ∧
    (∀ f y x, plainGray.value f 0 y x = 130) ∧
    ∀ cpu o, cpu.avx2 = true → Options.getUseUnsafe o = true → 64 ≤ o.getMaxWidth → 32 ≤ o.getMaxHeight →
    o.getOutColorspace = .rgb →
    ∃ out, ((Decoder.newWithOptions cpu o).decodeBuffer plainGray.bytes).1 = .ok out ∧
      out[3 * 32]? = some 152 ∧ out[3 * 32 + 1]? = some 113 ∧ out[3 * 32 + 2]? = some 158 := by
  refine ⟨plainGray_valid, plainGray_empty (by decide), plainGray_empty (by decide), plainGray_luma,
    fun cpu o ha hu hw hh hout => ?_⟩
  have hval : ∀ f i, i ≠ 0 → ∀ y x, plainGray.value f i y x = 128 := fun f i hi y x =>
    empty_value (plainGray_empty hi) f y x
  obtain ⟨out, h1, -, h3⟩ := c55_pixel_partial plainGray_valid cpu o hw hh hout (by
    intro i _ y x
    by_cases h : i = 0
    · subst h
      rw [plainGray_luma]
      decide
    · rw [hval _ _ h]
      decide) (fun _ e => by rw [ha] at e; cases e)
  have hpl : ∀ i, i ≠ 0 → plainGray.plane cpu o.getUseUnsafe i 0 32 = 144 := by
    intro i hi
    unfold ColourJpeg.plane
    dsimp only
    rw [if_neg (by rintro (h | h); exact hi h; exact absurd h.1 (by decide)), if_neg (by decide),
      if_neg (by decide), if_pos (by rw [ha, hu]; decide)]
    unfold avxValue ColourJpeg.double
    simp only [hval _ _ hi]
    decide
  have hl : plainGray.plane cpu o.getUseUnsafe 0 0 32 = 130 := by
    unfold ColourJpeg.plane
    simp only [true_or, if_true]
    exact plainGray_luma _ _ _
  have key : ∀ c, c < 3 → ∃ b : UInt8, out[3 * 32 + c]? = some b ∧
      (b.toNat : Int) = ([152, 113, 158] : List Int).getD c 0 := by
    intro c hc
    obtain ⟨b, hb1, hb2⟩ := h3 0 (3 * 32 + c) (by decide) (by show 3 * 32 + c < 64 * 3; omega)
    refine ⟨b, by rw [← hb1, Nat.zero_mul, Nat.zero_add], ?_⟩
    unfold ColourJpeg.rgbByte at hb2
    have hr : rowSource plainGray.width (8 * (plainGray.fh * mcuCols plainGray.width plainGray.fh)) (3 * 32 + c) =
        some (32, c) := rowSource_same (by decide) (by decide) (by decide) (by decide) hc
    rw [if_pos (by decide), hr] at hb2
    dsimp only at hb2
    rw [hl, hpl 1 (by decide), hpl 2 (by decide)] at hb2
    exact hb2
  obtain ⟨b0, p0, q0⟩ := key 0 (by decide)
  obtain ⟨b1, p1, q1⟩ := key 1 (by decide)
  obtain ⟨b2, p2, q2⟩ := key 2 (by decide)
  refine ⟨out, h1, ?_, ?_, ?_⟩
  · rw [show 3 * 32 = 3 * 32 + 0 from rfl, p0]
    exact congrArg some (UInt8.toNat_inj.1 (by show b0.toNat = 152; exact Int.ofNat_inj.1 q0))
  · rw [p1]
    exact congrArg some (UInt8.toNat_inj.1 (by show b1.toNat = 113; exact Int.ofNat_inj.1 q1))
  · rw [p2]
    exact congrArg some (UInt8.toNat_inj.1 (by show b2.toNat = 158; exact Int.ofNat_inj.1 q2))

/-- The hypotheses of `c78_rgb_partial` hold for `plainGray`, and those of `c77_planes_partial` and
`c77_gray_partial` for `plainGray` and `flatChroma`, which have the same luma and different chroma. -/
example : plainGray.Valid ∧ flatChroma.Valid ∧ SameComponent plainGray flatChroma 0 ∧
    ¬ SameComponent plainGray flatChroma 1 ∧ (∀ f, plainGray.Bytes f 0) ∧ plainGray.Row 31 ∧
    8 * (plainGray.fh * plainGray.fv) * (8 * (plainGray.fh * mcuCols plainGray.width plainGray.fh)) <
      (8 * (plainGray.fh * plainGray.fv) + 1) * plainGray.width := by
  refine ⟨plainGray_valid, flatChroma_valid, ⟨rfl, rfl, rfl, rfl, rfl, fun _ _ _ => rfl⟩, fun S => ?_,
    fun f y x => ?_, by decide, by decide⟩
  · exact absurd (S.blocks 0 0 0) (by decide)
  · rw [plainGray_luma]
    decide

/-- The hypotheses of `c77_mono_partial` hold for the grayscale file `sampleJpeg` and a colour file with the
same luma. -/
example : let m := sampleJpeg 0 fun l => [l]
    let g := sampleColour 1 1 8 20 fun k i _ _ =>
      if i = 0 then (m.intervals.flatten ++ [List.replicate 64 0]).getD (min k 3) [] else 1 :: List.replicate 63 0
    g.Valid ∧ m.Valid ∧ g.fh = 1 ∧ g.fv = 1 ∧ g.width = m.width ∧ g.height = m.height ∧ g.quantY = m.quant ∧
    (∀ k, k < (m.height + 7) / 8 * ((m.width + 7) / 8) →
      g.blocks k 0 0 0 = m.intervals.flatten.getD k []) ∧ 64 * ((m.width + 7) / 8) < 9 * m.width := by
  refine ⟨sampleColour_valid (by decide) (by decide) (by decide) (by decide) (by decide) fun k i _ _ => ?_,
    sampleJpeg_whole, rfl, rfl, rfl, rfl, rfl, by decide, by decide⟩
  by_cases h : i = 0
  · rw [if_pos h]
    have key : ∀ n, n < 4 → (((sampleJpeg 0 fun l => [l]).intervals.flatten ++
      [List.replicate 64 0]).getD n []) ∈ goodBlocks := by decide
    exact key _ (by omega)
  · rw [if_neg h]
    simp [goodBlocks]

end

end Zune
