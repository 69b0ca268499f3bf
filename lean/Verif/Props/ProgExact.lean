import Verif.Props.Separate
/-!
# The exact image of a progressive colour file

C61, C77 and C78 for progressive files, with every sampling.
-/

namespace Zune
open Spec

/-- What the scans tell of the image of a progressive file, arranged as the blocks of a baseline file. Only the
size, the factors, the quantization and the blocks matter; there are no codes. -/
def Spec.ProgColourJpeg.twin (g : ProgColourJpeg) (lev : Nat → Nat → Option Nat) : ColourJpeg where
  width := g.width
  height := g.height
  fh := g.fh
  fv := g.fv
  quantY := g.quantY
  quantC := g.quantC
  dcY := ⟨[], []⟩
  acY := ⟨[], []⟩
  dcC := ⟨[], []⟩
  acC := ⟨[], []⟩
  dcWord := fun _ _ => []
  acWord := fun _ _ => []
  blocks := fun n i a b => approxBlock (lev i)
    (g.blocks i (n / mcuCols g.width g.fh * (if i = 0 then g.fv else 1) + a)
      (n % mcuCols g.width g.fh * (if i = 0 then g.fh else 1) + b))
  fill := []
  trailer := []

variable {g : ProgColourJpeg} {lev : Nat → Nat → Option Nat}

theorem twin_same (V : g.Valid lev) : SameColour g lev (g.twin lev) where
  width := rfl
  height := rfl
  fh := rfl
  fv := rfl
  quantY := rfl
  quantC := rfl
  blocks := by
    intro i r k hi hr hk
    have hk' : k / (if i = 0 then g.fh else 1) < mcuCols g.width g.fh := by
      unfold ownCols at hk
      by_cases h0 : i = 0
      · rw [if_pos h0] at hk ⊢
        unfold mcuCols
        have := V.fh
        rcases (by omega : g.fh = 1 ∨ g.fh = 2) with e | e <;> rw [e] <;> omega
      · rw [if_neg h0] at hk ⊢
        omega
    show approxBlock (lev i) (g.blocks i _ _) = _
    rw [Nat.mul_comm _ (mcuCols g.width g.fh), Nat.mul_add_div (Nat.zero_lt_of_lt hk'), Nat.div_eq_of_lt hk', Nat.mul_add_mod,
      Nat.mod_eq_of_lt hk', Nat.add_zero, Nat.div_add_mod', Nat.div_add_mod']

/-- The planes of a progressive file are those of the image `b` with the same coefficients: chroma always, luma
where there are no blocks that are only padding. -/
theorem prog_full (V : g.Valid lev) {b : ColourJpeg} (S : SameColour g lev b) {cpu : Cpu} {o : Options} {d : Decoder}
    {c0 c1 c2 : Component} {m : Nat → Nat → Nat → Nat → List Int} {full : Nat → Nat → List I16} {oc : ColorSpace}
    {nc : Nat} {res : Out (List UInt8)} (R : ColourFrame d c0 c1 c2 g.width g.height g.fh g.fv)
    (hq : ∀ i c, [c0, c1, c2][i]? = some c → c.quantTable = naturalQuant (g.quantOf i)) {cf : ColorFn}
    (K : DecKeep d (chooseIdct cpu o.getUseUnsafe) cf cpu o)
    (hj : ColourJobs d c0 c1 c2 g.width g.height g.fh g.fv m oc nc full res)
    (hm : ∀ i r k, i < 3 → r < ownRows g.height g.fv i → k < ownCols g.width g.fh i →
        m (r / (colourShape g.fh g.fv i).1 * mcuCols g.width g.fh + k / (colourShape g.fh g.fv i).2) i
          (r % (colourShape g.fh g.fv i).1) (k % (colourShape g.fh g.fv i).2) =
            approxBlock (lev i) (g.blocks i r k)) :
    b.Shape ∧ ∃ full', FullPlanes cpu o.getUseUnsafe b.fh b.fv (8 * (b.fh * b.fv) * (8 * (b.fh * mcuCols b.width b.fh)))
        (stripPlane (chooseIdct cpu o.getUseUnsafe) (fun i => naturalQuant (b.quantOf i)) b.width b.fh b.fv b.blocks)
        full' ∧
      (∀ t i, t < stripCount g.height g.fh g.fv → i < 3 →
        (i = 0 → (g.height + 7) / 8 = g.fv * mcuRows g.height g.fv ∧
          (g.width + 7) / 8 = g.fh * mcuCols g.width g.fh) → full t i = full' t i) ∧
      ∀ y x, y < g.height → x < g.width →
        at0 (full (y / (8 * (g.fh * g.fv))) 0)
          (y % (8 * (g.fh * g.fv)) * (8 * (g.fh * mcuCols g.width g.fh)) + x) =
        at0 (full' (y / (8 * (g.fh * g.fv))) 0)
          (y % (8 * (g.fh * g.fv)) * (8 * (g.fh * mcuCols g.width g.fh)) + x) := by
  have hfh : 0 < g.fh ∧ g.fh ≤ 2 := V.fh
  have hfv : 0 < g.fv ∧ g.fv ≤ 2 := V.fv
  have hpl := hj.planes
  obtain ⟨full', hf'⟩ : ∃ full', FullPlanes d.cpu d.options.useUnsafe g.fh g.fv
      (8 * (g.fh * g.fv) * (8 * (g.fh * mcuCols g.width g.fh)))
      (stripPlane d.idctFn (fun i => naturalQuant (b.quantOf i)) g.width g.fh g.fv b.blocks) full' := by
    rcases ((hpl 0).2 1 (Or.inl rfl)).2 with ⟨e1, e2, -⟩ | ⟨r, u, hsam, -⟩
    · exact exists_full R _ _ _ (r := .hv) (u := .vertical) (Or.inl ⟨e1, e2⟩)
    · exact exists_full R _ _ _ (Or.inr hsam)
  have hqe : ∀ i, naturalQuant (b.quantOf i) = naturalQuant (g.quantOf i) := by
    intro i
    unfold ColourJpeg.quantOf ProgColourJpeg.quantOf
    rw [S.quantY, S.quantC]
  refine ⟨⟨by rw [S.width]; exact V.w0, by rw [S.fh]; exact hfh, by rw [S.fv]; exact hfv⟩, full', ?_, ?_, ?_⟩
  · rw [S.width, S.fh, S.fv]
    rw [K.cpu, K.options, K.idct] at hf'
    exact hf'
  · intro t i ht hi hpad
    refine fullPlanes_congr hpl hf' hi (stripPlane_congr hfh.1 ht (by rw [quant_elim hq hi, hqe]) ?_)
    intro r k hr hk
    refine S.shaped hm i r k hi ?_ ?_
    · unfold ownRows
      unfold colourShape at hr
      by_cases h0 : i = 0
      · rw [if_pos h0] at hr ⊢
        rw [(hpad h0).1]
        exact hr
      · rw [if_neg h0] at hr ⊢
        omega
    · unfold ownCols
      unfold colourShape at hk
      by_cases h0 : i = 0
      · rw [if_pos h0] at hk ⊢
        rw [(hpad h0).2]
        exact hk
      · rw [if_neg h0] at hk ⊢
        omega
  · intro y x hy hx
    have hx' := (padded_width R).1
    have hxx' : x < 8 * (g.fh * mcuCols g.width g.fh) := by omega
    rw [fullPlane_luma hpl (by omega) (Or.inl rfl), fullPlane_luma hf' (by omega) (Or.inl rfl),
      luma_index (Nat.mul_pos hfh.1 hfv.1) hxx' _ _ _ _ (Or.inl rfl),
      luma_index (Nat.mul_pos hfh.1 hfv.1) hxx' _ _ _ _ (Or.inl rfl), quant_elim hq (by omega), hqe]
    obtain ⟨o1, o2⟩ := pixel_own hfh hfv hy hx (Or.inl rfl)
    exact unitSample_congr (m := fun k => m k 0) (m' := fun k => b.blocks k 0) (S.shaped hm 0 _ _ (by omega) o1 o2)

/-- **C61 (all bytes of the YCbCr output).** Every byte of a decoded row of a progressive file is the low byte of
the value of the plane of any image with the coefficients that the scans tell (there is one: `twin_same`), also for
the chroma of subsampled images; the other rows are zero. Missing: images that are refused (`c58_false`), restart
intervals. -/
theorem c61_exact_partial (V : g.Valid lev) (L : g.Fits) {b : ColourJpeg} (S : SameColour g lev b) (cpu : Cpu)
    (o : Options) (hw : g.width ≤ o.getMaxWidth) (hh : g.height ≤ o.getMaxHeight)
    (hs : 1 + g.rest.length ≤ o.getMaxScans) (hout : o.getOutColorspace = .ycbcr) :
    ∃ out, ((Decoder.newWithOptions cpu o).decodeBuffer g.bytes).1 = .ok out ∧
      out.length = g.height * (g.width * 3) ∧
      ∀ y x i, y < g.height → x < g.width → i < 3 → ∃ v, out[3 * (y * g.width + x) + i]? = some v ∧
        (v.toNat : Int) = if b.Row y then b.plane cpu o.getUseUnsafe i y x % 256 else 0 := by
  obtain ⟨d, c0, c1, c2, m, full, R, hq, K, hj, hm⟩ := progColour_jobs V L cpu o hw hh hs hout
  obtain ⟨out, h1, h2, h3⟩ := ycbcr_image R hj (by rw [K.options]; exact hout)
  obtain ⟨hsh, full', hf', hsame, hluma⟩ := prog_full V S R hq K hj hm
  refine ⟨out, h1, h2, fun y x i hy hx hi => ⟨_, h3 y x i hy hx hi, ?_⟩⟩
  have hrw : b.Row y ↔ y / (8 * (g.fh * g.fv)) < stripCount g.height g.fh g.fv := by
    unfold ColourJpeg.Row stripCount
    rw [S.height, S.fh, S.fv]
  by_cases hrow : y / (8 * (g.fh * g.fv)) < stripCount g.height g.fh g.fv
  · rw [if_pos hrow, if_pos (hrw.2 hrow), lowByte_toNat]
    have hx' := (padded_width R).1
    have pf := plane_full (un := o.getUseUnsafe) hsh hf' (i := i) (y := y) (x := x) hi (by rw [S.width, S.fh]; omega)
    rw [S.width, S.fh, S.fv] at pf
    rw [← pf]
    by_cases h0 : i = 0
    · subst h0
      rw [← hluma y x hy hx]
    · rw [← hsame _ i hrow hi (fun e => absurd e h0)]
  · rw [if_neg hrow, if_neg (fun h => hrow (hrw.1 h))]
    rfl

/-- **C61 (all bytes of the RGB output).** The same for RGB, for images without blocks that are only padding, of
which the RGB output depends (`c62_false`); the samples must be bytes, see C26. -/
theorem c61_rgb_partial (V : g.Valid lev) (L : g.Fits) {b : ColourJpeg} (S : SameColour g lev b)
    (hr : (g.height + 7) / 8 = g.fv * mcuRows g.height g.fv)
    (hc : (g.width + 7) / 8 = g.fh * mcuCols g.width g.fh) (cpu : Cpu)
    (o : Options) (hw : g.width ≤ o.getMaxWidth) (hh : g.height ≤ o.getMaxHeight)
    (hs : 1 + g.rest.length ≤ o.getMaxScans) (hout : o.getOutColorspace = .rgb)
    (hb : ∀ i, i < 3 → b.Bytes (chooseIdct cpu o.getUseUnsafe) i)
    (hsse : o.getUseUnsafe = true → cpu.avx2 = false → cpu.sse41 = true →
      22 ≤ g.width ∧ 16 * (8 * (g.fh * mcuCols g.width g.fh) / 16 - 1) + 6 ≤ g.width) :
    ∃ out, ((Decoder.newWithOptions cpu o).decodeBuffer g.bytes).1 = .ok out ∧
      out.length = g.height * (g.width * 3) ∧
      ∀ y j, y < g.height → j < g.width * 3 → ∃ v, out[y * (g.width * 3) + j]? = some v ∧
        (v.toNat : Int) = b.rgbByte cpu o.getUseUnsafe y j := by
  obtain ⟨d, c0, c1, c2, m, full, R, hq, K, hj, hm⟩ := progColour_jobs V L cpu o hw hh hs hout
  obtain ⟨hsh, full', hf', hsame, -⟩ := prog_full V S R hq K hj hm
  have hsame' : ∀ t i, t < stripCount g.height g.fh g.fv → i < 3 → full t i = full' t i :=
    fun t i ht hi => hsame t i ht hi fun _ => ⟨hr, hc⟩
  obtain ⟨c3, csse⟩ := colorFn_three cpu o
  obtain ⟨out, h1, h2, h3⟩ := rgb_bytes R hj (by rw [K.options]; exact hout) (by rw [K.color]; exact c3)
    (by
      intro e
      rw [K.color] at e
      obtain ⟨a, b, c⟩ := csse e
      exact hsse a b c)
    (fun t i ht hi => by rw [hsame' t i ht hi]; exact full_near hsh hb hf' t i hi)
  have hwx := (padded_width R).1
  refine ⟨out, h1, h2, fun y j hy hjw => ?_⟩
  obtain ⟨m1, m2⟩ := h3 y j hy hjw
  have hrw : b.Row y ↔ y / (8 * (g.fh * g.fv)) < stripCount g.height g.fh g.fv := by
    unfold ColourJpeg.Row stripCount
    rw [S.height, S.fh, S.fv]
  unfold ColourJpeg.rgbByte
  by_cases hrow : y / (8 * (g.fh * g.fv)) < stripCount g.height g.fh g.fv
  · have hk : ∀ {i x s}, i < 3 → x < 8 * (g.fh * mcuCols g.width g.fh) →
        (full (y / (8 * (g.fh * g.fv))) i)[y % (8 * (g.fh * g.fv)) * (8 * (g.fh * mcuCols g.width g.fh)) + x]? =
          some s → s.toInt = b.plane cpu o.getUseUnsafe i y x := by
      intro i x s hi3 hx hs
      have pf := plane_full (un := o.getUseUnsafe) hsh hf' (i := i) (y := y) (x := x) hi3
        (by rw [S.width, S.fh]; exact hx)
      rw [S.width, S.fh, S.fv, ← hsame' _ i hrow hi3] at pf
      rw [← at0_of_get hs]
      exact pf
    rw [if_pos (hrw.2 hrow), S.width, S.fh]
    cases hsr : rowSource g.width (8 * (g.fh * mcuCols g.width g.fh)) j with
    | none => exact ⟨0, m2 (Or.inr hsr), rfl⟩
    | some xc =>
      obtain ⟨x, c⟩ := xc
      obtain ⟨hx, hc⟩ := rowSource_bound hwx hjw hsr
      obtain ⟨v, hb1, s0, s1, s2, e0, e1, e2, hval⟩ := m1 hrow x c hsr
      refine ⟨v, hb1, ?_⟩
      rw [List.getElem?_append_left (by show c < 3; exact hc), hk (by omega) hx e0, hk (by omega) hx e1,
        hk (by omega) hx e2] at hval
      dsimp only
      rw [List.getD_eq_getElem?_getD, hval]
      rfl
  · rw [if_neg (fun h => hrow (hrw.1 h))]
    exact ⟨0, m2 (Or.inl hrow), rfl⟩

/-- **C77** (progressive files, all components and samplings, YCbCr output). A component of a progressive colour
file depends only on what the scans tell of that component: not on the other components, nor on how the
coefficients are divided into scans. -/
theorem c77_progressive_partial {p p' : ProgColourJpeg} {lev lev' : Nat → Nat → Option Nat} {i : Nat}
    (V : p.Valid lev) (L : p.Fits) (V' : p'.Valid lev') (L' : p'.Fits) (hw1 : p.width = p'.width)
    (hh1 : p.height = p'.height) (hf1 : p.fh = p'.fh) (hf2 : p.fv = p'.fv) (hq : p.quantOf i = p'.quantOf i)
    (hbl : ∀ r k, approxBlock (lev i) (p.blocks i r k) = approxBlock (lev' i) (p'.blocks i r k))
    (hi : i < 3) (cpu : Cpu) (o : Options)
    (hw : p.width ≤ o.getMaxWidth) (hh : p.height ≤ o.getMaxHeight) (hs : 1 + p.rest.length ≤ o.getMaxScans)
    (hs' : 1 + p'.rest.length ≤ o.getMaxScans) (hout : o.getOutColorspace = .ycbcr) :
    ∃ out out', ((Decoder.newWithOptions cpu o).decodeBuffer p.bytes).1 = .ok out ∧
      ((Decoder.newWithOptions cpu o).decodeBuffer p'.bytes).1 = .ok out' ∧ out.length = out'.length ∧
      ∀ y x, y < p.height → x < p.width → ∃ b, out[3 * (y * p.width + x) + i]? = some b ∧
        out'[3 * (y * p.width + x) + i]? = some b := by
  obtain ⟨out, h1, h2, h3⟩ := c61_exact_partial V L (twin_same V) cpu o hw hh hs hout
  obtain ⟨out', k1, k2, k3⟩ := c61_exact_partial V' L' (twin_same V') cpu o (hw1 ▸ hw) (hh1 ▸ hh) hs' hout
  have S : SameComponent (p.twin lev) (p'.twin lev') i :=
    ⟨hw1, hh1, hf1, hf2, hq, fun k a b => by
      show approxBlock (lev i) (p.blocks i _ _) = approxBlock (lev' i) (p'.blocks i _ _)
      rw [hw1, hf1, hf2, hbl]⟩
  refine ⟨out, out', h1, k1, by rw [h2, k2, hw1, hh1], fun y x hy hx => ?_⟩
  obtain ⟨b, hb, hv⟩ := h3 y x i hy hx hi
  obtain ⟨b', hb', hv'⟩ := k3 y x i (hh1 ▸ hy) (hw1 ▸ hx) hi
  refine ⟨b, hb, ?_⟩
  have e : b = b' := by
    apply UInt8.toNat_inj.1
    have : (b.toNat : Int) = b'.toNat := by
      rw [hv, hv', S.plane]
      simp only [S.row]
    omega
  rw [hw1, hb', e]

theorem approx_zero (lev : Option Nat) (k : Nat) : approx lev k 0 = 0 := by
  unfold approx pointDc pointAc
  cases lev <;> simp

theorem approxBlock_allZero {lev : Nat → Option Nat} {b : List Int} (h : ∀ v ∈ b, v = 0) :
    ∀ v ∈ approxBlock lev b, v = 0 := by
  intro v hv
  unfold approxBlock at hv
  obtain ⟨k, hk, rfl⟩ := List.mem_iff_getElem.1 hv
  rw [List.getElem_mapIdx, h _ (List.getElem_mem _), approx_zero]

/-- **C78** (progressive files, YCbCr output). When all coefficients of a chroma component are zero, that component
is 128 in every pixel of the decoded rows, but for the columns at the joints of the AVX2 upsampler. -/
theorem c78_progressive_partial {i : Nat} (V : g.Valid lev) (L : g.Fits) (h : ∀ r k, ∀ v ∈ g.blocks i r k, v = 0)
    (hi : i < 3) (cpu : Cpu) (o : Options) (hw : g.width ≤ o.getMaxWidth) (hh : g.height ≤ o.getMaxHeight)
    (hs : 1 + g.rest.length ≤ o.getMaxScans) (hout : o.getOutColorspace = .ycbcr) :
    ∃ out, ((Decoder.newWithOptions cpu o).decodeBuffer g.bytes).1 = .ok out ∧
      ∀ y x, y < g.height → x < g.width → g.Row y → ¬ (g.twin lev).AtJoint cpu o.getUseUnsafe x →
        out[3 * (y * g.width + x) + i]? = some 128 := by
  obtain ⟨out, h1, -, h3⟩ := c61_exact_partial V L (twin_same V) cpu o hw hh hs hout
  refine ⟨out, h1, fun y x hy hx hr hj => ?_⟩
  obtain ⟨b, hb, hv⟩ := h3 y x i hy hx hi
  have hE : (g.twin lev).Empty i := fun k a b v hv => approxBlock_allZero (h _ _) v hv
  have hr' : (g.twin lev).Row y := hr
  rw [if_pos hr', empty_plane ⟨V.w0, V.fh, V.fv⟩ hE hj] at hv
  rw [hb]
  congr 1
  apply UInt8.toNat_inj.1
  show b.toNat = 128
  omega

/-- **C78** (progressive files, RGB output). When all coefficients of both chroma components are zero, the pixels
are gray. Missing: what is missing in `c78_rgb_partial`, and images with blocks that are only padding. -/
theorem c78_progressive_rgb_partial (V : g.Valid lev) (L : g.Fits)
    (h : ∀ i, i = 1 ∨ i = 2 → ∀ r k, ∀ v ∈ g.blocks i r k, v = 0)
    (hr : (g.height + 7) / 8 = g.fv * mcuRows g.height g.fv)
    (hc : (g.width + 7) / 8 = g.fh * mcuCols g.width g.fh) (cpu : Cpu) (o : Options)
    (hw : g.width ≤ o.getMaxWidth) (hh : g.height ≤ o.getMaxHeight)
    (hs : 1 + g.rest.length ≤ o.getMaxScans) (hout : o.getOutColorspace = .rgb)
    (hy : (g.twin lev).Bytes (chooseIdct cpu o.getUseUnsafe) 0)
    (hsse : o.getUseUnsafe = true → cpu.avx2 = false → cpu.sse41 = true →
      22 ≤ g.width ∧ 16 * (8 * (g.fh * mcuCols g.width g.fh) / 16 - 1) + 6 ≤ g.width) :
    ∃ out, ((Decoder.newWithOptions cpu o).decodeBuffer g.bytes).1 = .ok out ∧
      ∀ y x, y < g.height → x < g.width → (16 < g.width → x + 31 < g.width) → g.Row y →
        ¬ (g.twin lev).AtJoint cpu o.getUseUnsafe x →
        ∀ c, c < 3 → out[3 * (y * g.width + x) + c]? =
          some (lowByte ((g.twin lev).sample (chooseIdct cpu o.getUseUnsafe) 0 y x)) := by
  have hE : ∀ i, i = 1 ∨ i = 2 → (g.twin lev).Empty i := fun i hi k a b v hv => approxBlock_allZero (h i hi _ _) v hv
  have sh : (g.twin lev).Shape := ⟨V.w0, V.fh, V.fv⟩
  obtain ⟨out, h1, -, h3⟩ := c61_rgb_partial V L (twin_same V) hr hc cpu o hw hh hs hout (by
    intro i hi
    by_cases h0 : i = 0
    · rw [h0]
      exact hy
    · intro y x
      rw [empty_value (hE i (by omega))]
      decide) hsse
  refine ⟨out, h1, fun y x hy' hx hx31 hrow hj c hc => ?_⟩
  obtain ⟨b, hb1, hb2⟩ := h3 y (3 * x + c) hy' (by omega)
  have hcols := sh.cols.2
  have hpw : 8 * ((g.twin lev).fh * mcuCols (g.twin lev).width (g.twin lev).fh) ≤ (g.twin lev).width + 15 := by
    have := sh.fh
    rcases (by omega : (g.twin lev).fh = 1 ∨ (g.twin lev).fh = 2) with e | e <;> rw [e] <;> unfold mcuCols <;> omega
  have hrow' : (g.twin lev).Row y := hrow
  unfold ColourJpeg.rgbByte at hb2
  rw [if_pos hrow', rowSource_same (w := (g.twin lev).width) hcols hpw hx hx31 hc] at hb2
  dsimp only at hb2
  have h0 : (g.twin lev).plane cpu o.getUseUnsafe 0 y x = (g.twin lev).value (chooseIdct cpu o.getUseUnsafe) 0 y x := by
    unfold ColourJpeg.plane
    simp
  obtain ⟨l1, l2⟩ := hy y x
  rw [empty_plane sh (hE 1 (Or.inl rfl)) hj, empty_plane sh (hE 2 (Or.inr rfl)) hj, h0, rgbValue_gray l1 l2] at hb2
  rw [show 3 * (y * g.width + x) + c = y * (g.width * 3) + (3 * x + c) by ring, hb1]
  congr 1
  apply UInt8.toNat_inj.1
  have hl := lowByte_toNat ((g.twin lev).sample (chooseIdct cpu o.getUseUnsafe) 0 y x)
  have : (b.toNat : Int) = (g.twin lev).value (chooseIdct cpu o.getUseUnsafe) 0 y x := by
    rcases (by omega : c = 0 ∨ c = 1 ∨ c = 2) with rfl | rfl | rfl <;> exact hb2
  unfold ColourJpeg.value at this l1 l2
  omega

/-! ### A sample -/

/-- An image of 16 x 16 pixels with horizontal subsampling and without chroma, in one scan of DC coefficients. -/
def grayCProg : ProgColourJpeg where
  width := 16
  height := 16
  fh := 2
  fv := 1
  quantY := List.replicate 64 16
  quantC := List.replicate 64 255
  blocks := fun i _ _ => if i = 0 then 1 :: List.replicate 63 0 else List.replicate 64 0
  first := {
    tables := [⟨true, 1, sampleDc⟩], comps := [0, 1, 2], dcDest := fun _ => 1, acDest := fun _ => 0
    ss := 0, se := 0, ah := 0, al := 0, word := fun _ => sampleDcWord
    bits := cellBits (fun _ => sampleDcWord)
      [(0, 1), (0, 0), (1, 0), (2, 0), (0, 0), (0, 0), (1, 0), (2, 0)] }
  rest := []
  trailer := [1, 2, 3]

theorem grayCProg_valid : ∃ lev, grayCProg.Valid lev := by
  refine ⟨_, ⟨by decide, by decide, by decide, by decide, by decide, by decide, by decide, by decide, ?_,
    ⟨⟨?_, by decide, by decide, by decide, ?_⟩, rfl⟩, by decide⟩⟩
  · intro i r k hi hr hk
    have h : ∀ i, i < 3 → (grayCProg.blocks i 0 0).length = 64 ∧
        ∀ x ∈ grayCProg.blocks i 0 0, x.natAbs < 2 ^ 15 := by decide +kernel
    exact ⟨(h i hi).1, (h i hi).2⟩
  · intro t ht
    rw [List.mem_singleton.1 ht]
    exact sampleDc_valid 1 (by decide)
  · refine Or.inr ⟨by decide, by decide, by decide, by decide, by decide, ?_⟩
    refine InterData.first (al := 0) (fun i hi => ⟨sampleDc, rfl⟩) ?_
    intro x hx t ht
    have : t = sampleDc := (Option.some.inj ht).symm
    subst this
    clear ht
    revert x
    decide +kernel

theorem grayCProg_fits : grayCProg.Fits := ⟨by decide +kernel, by decide +kernel, by decide⟩

/-- The hypotheses of `c78_progressive_partial` and the conditions on the size of `c61_rgb_partial` and
`c78_progressive_rgb_partial` hold for this image; `sampleCProg_valid` is another one, with chroma. -/
example : (∃ lev, grayCProg.Valid lev) ∧ grayCProg.Fits ∧
    (∀ i, i = 1 ∨ i = 2 → ∀ r k, ∀ v ∈ grayCProg.blocks i r k, v = 0) ∧
    (grayCProg.height + 7) / 8 = grayCProg.fv * mcuRows grayCProg.height grayCProg.fv ∧
    (grayCProg.width + 7) / 8 = grayCProg.fh * mcuCols grayCProg.width grayCProg.fh ∧ grayCProg.Row 15 := by
  refine ⟨grayCProg_valid, grayCProg_fits, ?_, by decide, by decide, ?_⟩
  · rintro i (rfl | rfl) r k v hv <;> exact List.eq_of_mem_replicate hv
  · unfold ProgColourJpeg.Row
    decide

end Zune
