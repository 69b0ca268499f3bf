import Verif.Props.RoundTrip
import Verif.Props.ColourRgb
/-!
# An encoder for all colour images

C55 for every coefficient data, and C60.
-/

namespace Zune
open Spec

/-! ### Coefficients -/

/-- The file for the blocks `m k i a b` (MCU, component, row and column in the MCU), with the codes of the
grayscale encoder for all components. -/
def Spec.encodeColour (w h fh fv : Nat) (quantY quantC : List UInt8)
    (m : Nat → Nat → Nat → Nat → List Int) : ColourJpeg where
  width := w
  height := h
  fh := fh
  fv := fv
  quantY := quantY
  quantC := quantC
  dcY := ⟨[0, 0, 0, 13] ++ List.replicate 12 0, allDc⟩
  acY := ⟨List.replicate 7 0 ++ [242] ++ List.replicate 8 0, allAc⟩
  dcC := ⟨[0, 0, 0, 13] ++ List.replicate 12 0, allDc⟩
  acC := ⟨List.replicate 7 0 ++ [242] ++ List.replicate 8 0, allAc⟩
  dcWord := fun _ s => natBits 4 s
  acWord := fun _ s => natBits 8 ((allAc.map (·.toNat)).idxOf s)
  blocks := m
  fill := List.replicate 8 0
  trailer := []

section
variable {w h fh fv : Nat} {quantY quantC : List UInt8} {m : Nat → Nat → Nat → Nat → List Int}

theorem encodeColour_codes (i : Nat) : (encodeColour w h fh fv quantY quantC m).codes i =
    (encodeGray 1 1 0 [] []).codes := by
  cases i with
  | zero => rfl
  | succ n => rfl

theorem encodeColour_units (us : List DataUnit) (p : Nat → Int) (hp : ∀ i, (p i).natAbs ≤ 2047)
    (hu : ∀ u ∈ us, Codable u.2) : UnitsOk (encodeColour w h fh fv quantY quantC m).codes p us := by
  induction us generalizing p with
  | nil => trivial
  | cons u us ih =>
    have hb := hu u List.mem_cons_self
    have hp' : ∀ i, (putPred p u.1 (dcOfBlock u.2) i).natAbs ≤ 2047 := by
      intro i
      unfold putPred
      split
      · exact hb.dc
      · exact hp i
    refine ⟨by rw [encodeColour_codes]; exact codable_block (hp u.1) hb, fun u' hu' => Or.inl ?_,
      ih _ hp' fun v hv => hu v (List.mem_cons_of_mem _ hv)⟩
    unfold dcBits
    rw [encodeColour_codes]
    show (natBits 4 _ ++ magnitudeBits _).length ≤ 16
    rw [List.length_append, natBits_length, magnitudeBits_length]
    have h2 := (hu u' (List.mem_cons_of_mem _ (List.mem_of_head? hu'))).dc
    have h1 := hp' u'.1
    have : category (dcOfBlock u'.2 - putPred p u.1 (dcOfBlock u.2) u'.1) ≤ 12 := category_le (by omega)
    omega

/-- All coefficient data can be coded. -/
theorem encodeColour_valid
    (h1 : 0 < w ∧ w ≤ 65527) (h2 : 0 < h ∧ h ≤ 65527) (h3 : 0 < fh ∧ fh ≤ 2) (h4 : 0 < fv ∧ fv ≤ 2)
    (h5 : fv = 1 ∨ 7 * w ≤ 136 * h + 64) (hY : quantY.length = 64) (hC : quantC.length = 64)
    (hm : ∀ k i a b, Codable (m k i a b)) : (encodeColour w h fh fv quantY quantC m).Valid := by
  have hd : (⟨[0, 0, 0, 13] ++ List.replicate 12 0, allDc⟩ : HuffSpec).Valid true :=
    ⟨by decide, by decide, by decide, by unfold CodeExists; decide +kernel, fun _ => by decide⟩
  have ha : (⟨List.replicate 7 0 ++ [242] ++ List.replicate 8 0, allAc⟩ : HuffSpec).Valid false :=
    ⟨by decide, by decide +kernel, by decide +kernel, by unfold CodeExists; decide +kernel,
      fun e => nomatch e⟩
  exact
  { w0 := h1.1
    h0 := h2.1
    wLe := h1.2
    hLe := h2.2
    fh := h3
    fv := h4
    fit := h5
    quantY := hY
    quantC := hC
    dcY := hd
    acY := ha
    dcC := hd
    acC := ha
    restart := by show 0 < 65536; omega
    data := by
      refine intervalsOk_all (r := 0) (fun k c => encodeColour_units _ _ (fun i => by decide) fun u hu => ?_)
        (fun k c => enough_of_fill (by show 8 ≤ (List.replicate 8 _).length; simp)) (by simp) _ _
        (intervalCounts_reg _ _)
      obtain ⟨k, i, a, b, rfl⟩ := mem_mcusUnits hu
      exact hm k i a b }

end

/-- **C55 for all coefficient data** (part). Any quantised coefficients of a colour image with any of the
four kinds of sampling and any quantisation tables are coded by the encoder, and the luma samples come back
as those of the inverse transforms, as do the chroma samples of images without subsampling. Missing: as in
`c55_ycbcr_partial`. -/
theorem c55_encoder_partial {w h fh fv : Nat} {quantY quantC : List UInt8}
    {m : Nat → Nat → Nat → Nat → List Int}
    (h1 : 0 < w ∧ w ≤ 65527) (h2 : 0 < h ∧ h ≤ 65527) (h3 : 0 < fh ∧ fh ≤ 2) (h4 : 0 < fv ∧ fv ≤ 2)
    (h5 : fv = 1 ∨ 7 * w ≤ 136 * h + 64) (hY : quantY.length = 64) (hC : quantC.length = 64)
    (hm : ∀ k i a b, Codable (m k i a b)) (cpu : Cpu) (o : Options) (hw : w ≤ o.getMaxWidth)
    (hh : h ≤ o.getMaxHeight) (hout : o.getOutColorspace = .ycbcr) :
    ∃ out, ((Decoder.newWithOptions cpu o).decodeBuffer
        (encodeColour w h fh fv quantY quantC m).bytes).1 = .ok out ∧
      out.length = h * (w * 3) ∧
      ∀ y x c, y < h → x < w → c < 3 → y / (8 * (fh * fv)) < mcuRows h fv / fh →
        (c = 0 ∨ (fh = 1 ∧ fv = 1)) →
        out[3 * (y * w + x) + c]? = some (lowByte
          (unitSample (chooseIdct cpu o.getUseUnsafe) (naturalQuant (if c = 0 then quantY else quantC))
            (mcuCols w fh) (if c = 0 then fv else 1) (if c = 0 then fh else 1) (fun k => m k c) y x)) := by
  obtain ⟨out, k1, k2, k3⟩ := c55_ycbcr_partial
    (encodeColour_valid h1 h2 h3 h4 h5 hY hC hm) cpu o hw hh hout
  refine ⟨out, k1, k2, fun y x c hy hx hc hrow hcase => ?_⟩
  have := k3 y x c hy hx hc (hcase.elim Or.inl fun e => Or.inr (Or.inl e))
  refine this.trans ?_
  rw [if_pos (show (encodeColour w h fh fv quantY quantC m).Row y from hrow)]
  by_cases h0 : c = 0
  · subst h0; rfl
  · congr 2
    unfold ColourJpeg.sample ColourJpeg.quantOf colourShape
    rw [if_neg h0, if_neg h0, if_neg h0, if_neg h0, if_neg h0]
    rfl

/-! ### Images -/

/-- Component `i` of the description `g` is that of the samples `img`: every data unit holds the quantised
transform of its 64 samples, of which those outside the image may be chosen freely. -/
def Spec.ColourJpeg.Encodes (g : ColourJpeg) (i : Nat) (img : Nat → Nat → ℝ) : Prop :=
  ∀ by' bx, by' / (colourShape g.fh g.fv i).1 < mcuRows g.height g.fv →
    bx / (colourShape g.fh g.fv i).2 < mcuCols g.width g.fh → Quantised (coded (g.blocks
      (by' / (colourShape g.fh g.fv i).1 * mcuCols g.width g.fh + bx / (colourShape g.fh g.fv i).2) i
      (by' % (colourShape g.fh g.fv i).1) (bx % (colourShape g.fh g.fv i).2)))
    (naturalQuant (g.quantOf i)) fun a b => img (8 * by' + a) (8 * bx + b)

/-- The samples of component `i` are close to those of the image. -/
theorem encodes_sample {g : ColourJpeg} {i : Nat} {img : Nat → Nat → ℝ} (f : IdctFn)
    (himg : ∀ y x, 0 ≤ img y x ∧ img y x ≤ 255) (henc : g.Encodes i img)
    (hd : f = .scalar → ∀ k a b, Flat (coded (g.blocks k i a b)) →
      DcFits (coded (g.blocks k i a b)) (naturalQuant (g.quantOf i))) {y x : Nat}
    (hy : y / 8 / (colourShape g.fh g.fv i).1 < mcuRows g.height g.fv)
    (hx : x / 8 / (colourShape g.fh g.fv i).2 < mcuCols g.width g.fh) :
    IsSample (g.sample f i y x) ∧
      |((g.sample f i y x).toInt : ℝ) - img y x| ≤
        113 / 100 + 2049 / 2048 * quantNorm (naturalQuant (g.quantOf i)) := by
  obtain ⟨v, v1, v2, v3⟩ := c57_round_trip_partial f (fun i j => himg _ _) (naturalQuant_le _)
    (henc (y / 8) (x / 8) hy hx) (fun hsc => hd hsc _ _ _)
    ⟨y % 8, Nat.mod_lt _ (by decide)⟩ ⟨x % 8, Nat.mod_lt _ (by decide)⟩
  dsimp only at v1 v3
  rw [Nat.div_add_mod, Nat.div_add_mod] at v3
  have e : g.sample f i y x = v := by
    unfold ColourJpeg.sample unitSample
    rw [v1]
    rfl
  rw [e]
  exact ⟨v2, v3⟩

theorem pixel_unit {g : ColourJpeg} (V : g.Valid) {y x c : Nat} (hy : y < g.height) (hx : x < g.width)
    (hcase : c = 0 ∨ (g.fh = 1 ∧ g.fv = 1)) :
    y / 8 / (colourShape g.fh g.fv c).1 < mcuRows g.height g.fv ∧
      x / 8 / (colourShape g.fh g.fv c).2 < mcuCols g.width g.fh := by
  have hs : colourShape g.fh g.fv c = (g.fv, g.fh) := by
    unfold colourShape
    rcases hcase with e | ⟨e1, e2⟩
    · rw [if_pos e]
    · rw [e1, e2]; split <;> rfl
  rw [hs]
  have hfh := V.fh
  have hfv := V.fv
  unfold mcuRows mcuCols
  have a : g.fh = 1 ∨ g.fh = 2 := by omega
  have b : g.fv = 1 ∨ g.fv = 2 := by omega
  rcases a with a | a <;> rcases b with b | b <;> rw [a, b] <;> constructor <;> dsimp only <;> omega

/-- **C60, planes** (part). Encode a colour image and decode it to YCbCr: every luma sample of the
decoded rows comes back up to `1.13 + 1.0005 Q`, and so does every chroma sample of an image without
subsampling, `Q` being half the norm of the quantisation table of the component. Missing: as in
`c57_gray_partial` and `c55_ycbcr_partial`. -/
theorem c60_planes_partial {g : ColourJpeg} (V : g.Valid) (cpu : Cpu) (o : Options)
    (hw : g.width ≤ o.getMaxWidth) (hh : g.height ≤ o.getMaxHeight) (hout : o.getOutColorspace = .ycbcr)
    {img : Nat → Nat → Nat → ℝ} (himg : ∀ i y x, 0 ≤ img i y x ∧ img i y x ≤ 255)
    (henc : ∀ i, i < 3 → g.Encodes i (img i))
    (hd : chooseIdct cpu o.getUseUnsafe = .scalar → ∀ k i a b, Flat (coded (g.blocks k i a b)) →
      DcFits (coded (g.blocks k i a b)) (naturalQuant (g.quantOf i))) :
    ∃ out, ((Decoder.newWithOptions cpu o).decodeBuffer g.bytes).1 = .ok out ∧
      out.length = g.height * (g.width * 3) ∧
      ∀ y x c, y < g.height → x < g.width → c < 3 → g.Row y → (c = 0 ∨ (g.fh = 1 ∧ g.fv = 1)) →
        ∃ b, out[3 * (y * g.width + x) + c]? = some b ∧
          |(b.toNat : ℝ) - img c y x| ≤ 113 / 100 + 2049 / 2048 * quantNorm (naturalQuant (g.quantOf c)) := by
  obtain ⟨out, k1, k2, k3⟩ := c55_ycbcr_partial V cpu o hw hh hout
  refine ⟨out, k1, k2, fun y x c hy hx hc hrow hcase => ⟨_, (k3 y x c hy hx hc
    (hcase.elim Or.inl fun e => Or.inr (Or.inl e))).trans (by rw [if_pos hrow]), ?_⟩⟩
  obtain ⟨i1, i2⟩ := pixel_unit V hy hx hcase
  obtain ⟨v2, v3⟩ := encodes_sample (chooseIdct cpu o.getUseUnsafe) (himg c) (henc c hc)
    (fun e k a b => hd e k c a b) i1 i2
  have : ((lowByte (g.sample (chooseIdct cpu o.getUseUnsafe) c y x)).toNat : ℝ) =
    ((g.sample (chooseIdct cpu o.getUseUnsafe) c y x).toInt : ℝ) := by exact_mod_cast lowByte_sample v2
  rw [this]
  exact v3

/-- The file for an image without subsampling, `img i` being the samples of component `i`. -/
noncomputable def Spec.encodePlanes (w h : Nat) (quantY quantC : List UInt8) (img : Nat → Nat → Nat → ℝ) :
    ColourJpeg :=
  encodeColour w h 1 1 quantY quantC fun k i _ _ =>
    quantise (if i = 0 then quantY else quantC) fun a b =>
      img i (8 * (k / mcuCols w 1) + a) (8 * (k % mcuCols w 1) + b)

section
variable {w h : Nat} {quantY quantC : List UInt8} {img : Nat → Nat → Nat → ℝ}

theorem encodePlanes_valid (h1 : 0 < w ∧ w ≤ 65527) (h2 : 0 < h ∧ h ≤ 65527) (hY : quantY.length = 64)
    (hC : quantC.length = 64) (pY : ∀ q ∈ quantY, 0 < q.toNat) (pC : ∀ q ∈ quantC, 0 < q.toNat)
    (himg : ∀ i y x, 0 ≤ img i y x ∧ img i y x ≤ 255) : (encodePlanes w h quantY quantC img).Valid := by
  refine encodeColour_valid h1 h2 (by decide) (by decide) (Or.inl rfl) hY hC fun k i a b => ?_
  split
  · exact quantise_codable hY pY fun i j => himg _ _ _
  · exact quantise_codable hC pC fun i j => himg _ _ _

theorem encodePlanes_encodes (hY : quantY.length = 64) (hC : quantC.length = 64)
    (pY : ∀ q ∈ quantY, 0 < q.toNat) (pC : ∀ q ∈ quantC, 0 < q.toNat)
    (himg : ∀ i y x, 0 ≤ img i y x ∧ img i y x ≤ 255) (i : Nat) :
    (encodePlanes w h quantY quantC img).Encodes i (img i) := by
  have hs : colourShape 1 1 i = (1, 1) := by unfold colourShape; split <;> rfl
  intro by' bx hby hbx
  have hbx' : bx / (colourShape 1 1 i).2 < mcuCols w 1 := hbx
  show Quantised (coded (quantise (if i = 0 then quantY else quantC) fun a b =>
    img i (8 * ((by' / (colourShape 1 1 i).1 * mcuCols w 1 + bx / (colourShape 1 1 i).2) / mcuCols w 1) + a)
      (8 * ((by' / (colourShape 1 1 i).1 * mcuCols w 1 + bx / (colourShape 1 1 i).2) % mcuCols w 1) + b)))
    (naturalQuant (if i = 0 then quantY else quantC)) _
  rw [hs] at hbx' ⊢
  dsimp only at hbx' ⊢
  rw [Nat.div_one] at hbx'
  rw [Nat.div_one, Nat.div_one,
    show (by' * mcuCols w 1 + bx) / mcuCols w 1 = by' by
      rw [Nat.mul_comm, Nat.mul_add_div (by omega), Nat.div_eq_of_lt hbx', Nat.add_zero],
    show (by' * mcuCols w 1 + bx) % mcuCols w 1 = bx by
      rw [Nat.mul_comm, Nat.mul_add_mod, Nat.mod_eq_of_lt hbx']]
  split
  · exact quantise_quantised hY pY fun i j => himg _ _ _
  · exact quantise_quantised hC pC fun i j => himg _ _ _

/-- The AVX2 transform gives bytes. -/
theorem bytes_avx (g : ColourJpeg) (i : Nat) : g.Bytes .avx2 i := by
  intro y x
  unfold ColourJpeg.value ColourJpeg.sample unitSample
  obtain ⟨blk, hblk⟩ : ∃ blk, coded (g.blocks
    (y / 8 / (colourShape g.fh g.fv i).1 * mcuCols g.width g.fh + x / 8 / (colourShape g.fh g.fv i).2) i
      (y / 8 % (colourShape g.fh g.fv i).1) (x / 8 % (colourShape g.fh g.fv i).2)) = blk := ⟨_, rfl⟩
  rw [hblk]
  cases hs : sample (IdctFn.avx2.block blk (naturalQuant (g.quantOf i))) (y % 8) (x % 8) with
  | none => exact ⟨by decide, by decide⟩
  | some v =>
    unfold sample at hs
    obtain ⟨r, hr, hv⟩ := Option.bind_eq_some_iff.1 hs
    exact isSample_avx _ _ r (List.mem_of_getElem? hr) v (List.mem_of_getElem? hv)

end

/-! ### RGB images -/

/-- Luma and chroma of a pixel by JFIF (version 1.02, page 3), the chroma values limited to 255 (they get up
to 255.5). -/
noncomputable def Spec.jfifPlanes (rgb : Nat → Nat → Nat → ℝ) (i y x : Nat) : ℝ :=
  let l := 0.299 * rgb 0 y x + 0.587 * rgb 1 y x + 0.114 * rgb 2 y x
  if i = 0 then l
  else if i = 1 then min 255 (128 + (rgb 2 y x - l) / 1.772)
  else min 255 (128 + (rgb 0 y x - l) / 1.402)

theorem jfifPlanes_range {rgb : Nat → Nat → Nat → ℝ} (hrgb : ∀ c y x, 0 ≤ rgb c y x ∧ rgb c y x ≤ 255)
    (i y x : Nat) : 0 ≤ jfifPlanes rgb i y x ∧ jfifPlanes rgb i y x ≤ 255 := by
  obtain ⟨r0, r1⟩ := hrgb 0 y x
  obtain ⟨g0, g1⟩ := hrgb 1 y x
  obtain ⟨b0, b1⟩ := hrgb 2 y x
  unfold jfifPlanes
  dsimp only
  split
  · constructor <;> linarith
  · split
    · refine ⟨le_min (by norm_num) ?_, min_le_left _ _⟩
      rw [← sub_le_iff_le_add', le_div_iff₀ (by norm_num)]
      linarith
    · refine ⟨le_min (by norm_num) ?_, min_le_left _ _⟩
      rw [← sub_le_iff_le_add', le_div_iff₀ (by norm_num)]
      linarith

theorem clamp_near {v : Int} {r D : ℝ} (hr : 0 ≤ r ∧ r ≤ 255) (h : |(v : ℝ) - r| ≤ D) :
    |((max 0 (min 255 v) : Int) : ℝ) - r| ≤ D := by
  rw [abs_le] at *
  rcases le_total v 0 with h0 | h0
  · rw [min_eq_right (by omega), max_eq_left h0]
    have : (v : ℝ) ≤ 0 := by exact_mod_cast h0
    push_cast
    constructor <;> linarith
  · rcases le_total v 255 with h1 | h1
    · rw [min_eq_right h1, max_eq_right h0]
      exact h
    · rw [min_eq_left h1, max_eq_right (by decide)]
      have : (255 : ℝ) ≤ v := by exact_mod_cast h1
      push_cast
      constructor <;> linarith

theorem ediv_near (a : Int) {n : Int} (hn : 0 < n) : (a : ℝ) / n - 1 ≤ ((a / n : Int) : ℝ) ∧
    ((a / n : Int) : ℝ) ≤ (a : ℝ) / n := by
  have hn' : (0 : ℝ) < n := by exact_mod_cast hn
  have h1 : a / n * n ≤ a := Int.ediv_mul_le a (by omega)
  have h2 : a < (a / n + 1) * n := Int.lt_ediv_add_one_mul_self a hn
  have h1' : ((a / n : Int) : ℝ) * n ≤ a := by exact_mod_cast h1
  have h2' : (a : ℝ) < (((a / n : Int) : ℝ) + 1) * n := by exact_mod_cast h2
  constructor
  · rw [sub_le_iff_le_add, div_le_iff₀ hn']
    exact h2'.le
  · rw [le_div_iff₀ hn']
    exact h1'

/-- A pixel converted to luma and chroma, disturbed by at most `EY` and `EC`, and converted back by the
decoder. -/
theorem rgb_near {rgb : Nat → Nat → Nat → ℝ} (hrgb : ∀ c y x, 0 ≤ rgb c y x ∧ rgb c y x ≤ 255) {y x : Nat}
    {b0 b1 b2 : Int} {EY EC : ℝ} (h0 : |(b0 : ℝ) - jfifPlanes rgb 0 y x| ≤ EY)
    (h1 : |(b1 : ℝ) - jfifPlanes rgb 1 y x| ≤ EC) (h2 : |(b2 : ℝ) - jfifPlanes rgb 2 y x| ≤ EC)
    (k1 : 0 ≤ b1 ∧ b1 ≤ 255) (k2 : 0 ≤ b2 ∧ b2 ≤ 255) {c : Nat} {v : Int}
    (hv : (rgbValue b0 b1 b2)[c]? = some v) : |(v : ℝ) - rgb c y x| ≤ 3 + EY + 1.772 * EC := by
  have hEC : 0 ≤ EC := (abs_nonneg _).trans h1
  obtain ⟨r0, r1⟩ := hrgb 0 y x
  obtain ⟨g0, g1⟩ := hrgb 1 y x
  obtain ⟨bb0, bb1⟩ := hrgb 2 y x
  have k1a : (0 : ℝ) ≤ b1 := by exact_mod_cast k1.1
  have k1b : (b1 : ℝ) ≤ 255 := by exact_mod_cast k1.2
  have k2a : (0 : ℝ) ≤ b2 := by exact_mod_cast k2.1
  have k2b : (b2 : ℝ) ≤ 255 := by exact_mod_cast k2.2
  unfold jfifPlanes at h0 h1 h2
  dsimp only at h0 h1 h2
  rw [if_pos rfl] at h0
  rw [if_neg (by decide), if_pos rfl] at h1
  rw [if_neg (by decide), if_neg (by decide)] at h2
  obtain ⟨l, hl⟩ : ∃ l, l = 0.299 * rgb 0 y x + 0.587 * rgb 1 y x + 0.114 * rgb 2 y x := ⟨_, rfl⟩
  rw [← hl] at h0 h1 h2
  obtain ⟨cb, hcb⟩ : ∃ cb, cb = (rgb 2 y x - l) / 1.772 := ⟨_, rfl⟩
  obtain ⟨cr, hcr⟩ : ∃ cr, cr = (rgb 0 y x - l) / 1.402 := ⟨_, rfl⟩
  rw [← hcb] at h1
  rw [← hcr] at h2
  rw [eq_div_iff (by norm_num)] at hcb hcr
  have m1 : min 255 (128 + cb) ≤ 128 + cb ∧ 128 + cb - 1 / 2 ≤ min 255 (128 + cb) := by
    refine ⟨min_le_right _ _, le_min ?_ (by linarith)⟩
    linarith
  have m2 : min 255 (128 + cr) ≤ 128 + cr ∧ 128 + cr - 1 / 2 ≤ min 255 (128 + cr) := by
    refine ⟨min_le_right _ _, le_min ?_ (by linarith)⟩
    linarith
  rw [abs_le] at h0 h1 h2
  have hc3 : c < 3 := (List.getElem?_eq_some_iff.1 hv).1
  have hcs : c = 0 ∨ c = 1 ∨ c = 2 := by omega
  rcases hcs with rfl | rfl | rfl
  · cases hv
    refine clamp_near ⟨r0, r1⟩ ?_
    obtain ⟨d1, d2⟩ := ediv_near (45 * (b2 - 128)) (n := 32) (by decide)
    push_cast at d1 d2 ⊢
    rw [abs_le]
    constructor <;> linarith
  · cases hv
    refine clamp_near ⟨g0, g1⟩ ?_
    obtain ⟨d1, d2⟩ := ediv_near (11 * (b1 - 128) + 23 * (b2 - 128)) (n := 32) (by decide)
    push_cast at d1 d2 ⊢
    rw [abs_le]
    constructor <;> linarith
  · cases hv
    refine clamp_near ⟨bb0, bb1⟩ ?_
    obtain ⟨d1, d2⟩ := ediv_near (113 * (b1 - 128)) (n := 64) (by decide)
    push_cast at d1 d2 ⊢
    rw [abs_le]
    constructor <;> linarith

/-- **C60** (part). Convert any RGB image to YCbCr as JFIF says, encode it without subsampling
with any quantisation tables without zeros, and decode it, asking for RGB, on a processor with AVX2: every
channel of every pixel comes back up to `3 + E_Y + 1.772 E_C`, where `E` is the bound of C57 for the
quantisation table. Excluded are the last 31 columns of images of more than 16 columns, which
the colour converter does not write as it should (C38). Missing: subsampling, the scalar transform
(`c57_false`), short restart intervals. -/
theorem c60_rgb_partial {w h : Nat} {quantY quantC : List UInt8} {rgb : Nat → Nat → Nat → ℝ}
    (h1 : 0 < w ∧ w ≤ 65527) (h2 : 0 < h ∧ h ≤ 65527) (hY : quantY.length = 64)
    (hC : quantC.length = 64) (pY : ∀ q ∈ quantY, 0 < q.toNat) (pC : ∀ q ∈ quantC, 0 < q.toNat)
    (hrgb : ∀ c y x, 0 ≤ rgb c y x ∧ rgb c y x ≤ 255) (cpu : Cpu) (o : Options)
    (hw : w ≤ o.getMaxWidth) (hh : h ≤ o.getMaxHeight) (hout : o.getOutColorspace = .rgb)
    (hun : o.getUseUnsafe = true) (havx : cpu.avx2 = true) :
    ∃ out, ((Decoder.newWithOptions cpu o).decodeBuffer
        (encodePlanes w h quantY quantC (jfifPlanes rgb)).bytes).1 = .ok out ∧
      out.length = h * (w * 3) ∧
      ∀ y x c, y < h → x < w → (16 < w → x + 31 < w) → c < 3 →
        ∃ b, out[3 * (y * w + x) + c]? = some b ∧ |(b.toNat : ℝ) - rgb c y x| ≤
          3 + (113 / 100 + 2049 / 2048 * quantNorm (naturalQuant quantY)) +
            1.772 * (113 / 100 + 2049 / 2048 * quantNorm (naturalQuant quantC)) := by
  have hr := jfifPlanes_range hrgb
  have V := encodePlanes_valid h1 h2 hY hC pY pC hr
  have E := encodePlanes_encodes (w := w) (h := h) hY hC pY pC hr
  have hf : chooseIdct cpu o.getUseUnsafe = .avx2 := by unfold chooseIdct; rw [hun, havx]; rfl
  obtain ⟨o1, ho1⟩ : ∃ o1 : Options, o1 = { o with outColorspace := .ycbcr } := ⟨_, rfl⟩
  have e1 : o1.getUseUnsafe = o.getUseUnsafe := by rw [ho1]; rfl
  have e2 : o1.getMaxWidth = o.getMaxWidth := by rw [ho1]; rfl
  have e3 : o1.getMaxHeight = o.getMaxHeight := by rw [ho1]; rfl
  have e4 : o1.getOutColorspace = .ycbcr := by rw [ho1]; rfl
  have hw1 : w ≤ o1.getMaxWidth := by rw [e2]; exact hw
  have hh1 : h ≤ o1.getMaxHeight := by rw [e3]; exact hh
  obtain ⟨out, out', k1, k2, k3, k4⟩ := c55_rgb_partial V cpu o1 o hw1 hh1 e4 hw hh hout e1.symm
    (fun i _ => by rw [e1, hf]; exact bytes_avx _ i) (fun hj => absurd hj.1 (by show ¬ (1 = 2); decide))
    (fun _ h' => by rw [havx] at h'; cases h')
  obtain ⟨out2, l1, -, l3⟩ := c60_planes_partial V cpu o1 hw1 hh1 e4 hr (fun i _ => E i)
    (fun e => by rw [e1, hf] at e; cases e)
  rw [k1] at l1
  cases Out.ok.inj l1
  refine ⟨out', k2, k3, fun y x c hy hx hx2 hc => ?_⟩
  have hrow : (encodePlanes w h quantY quantC (jfifPlanes rgb)).Row y := row_all V rfl hy
  obtain ⟨b0, b1, b2, g0, g1, g2, hb⟩ := k4 y x hy hx hx2 hrow
  obtain ⟨b, hb1, hb2⟩ := hb c hc
  refine ⟨b, hb1, ?_⟩
  have key : ∀ c b', c < 3 → out[3 * (y * w + x) + c]? = some b' →
      |((b'.toNat : Int) : ℝ) - jfifPlanes rgb c y x| ≤ 113 / 100 + 2049 / 2048 * quantNorm
        (naturalQuant ((encodePlanes w h quantY quantC (jfifPlanes rgb)).quantOf c)) := by
    intro c b' hc hb'
    obtain ⟨b'', q1, q2⟩ := l3 y x c hy hx hc hrow (Or.inr ⟨rfl, rfl⟩)
    have q1' : out[3 * (y * w + x) + c]? = some b'' := q1
    rw [hb'] at q1'
    cases q1'
    exact_mod_cast q2
  have := rgb_near hrgb (key 0 b0 (by decide) g0) (key 1 b1 (by decide) g1) (key 2 b2 (by decide) g2)
    ⟨by omega, by have := b1.toNat_lt; omega⟩ ⟨by omega, by have := b2.toNat_lt; omega⟩ hb2
  exact_mod_cast this

/-- A gradient of 100 x 50 pixels, with the default options and the quantisers 1 to 64. -/
example : ∃ out, ((Decoder.new ⟨true, true⟩).decodeBuffer (encodePlanes 100 50
      ((List.range 64).map fun k => UInt8.ofNat (k + 1)) (List.replicate 64 1)
      (jfifPlanes fun c y x => ((2 * x + y + 50 * c) % 256 : Nat))).bytes).1 = .ok out ∧
    out.length = 50 * (100 * 3) :=
  (c60_rgb_partial (by decide) (by decide) (by simp) (by simp) (by decide) (by decide)
    (fun c y x => ⟨by positivity, by
      have : (2 * x + y + 50 * c) % 256 ≤ 255 := by omega
      exact_mod_cast this⟩) ⟨true, true⟩ Options.new (by decide) (by decide) rfl rfl rfl).imp
    fun _ h => ⟨h.1, h.2.1⟩

end Zune
