import Verif.Props.Colour
/-!
# Colour images: grayscale and RGB output

What holds of C55 for the other formats of the output.
-/

namespace Zune
open Spec

section
variable {g : ColourJpeg} {cpu : Cpu} {o : Options}

theorem decode_colour {d : Decoder} {rd : List UInt8} {r : Out (List UInt8)} {h' : H} {b : List UInt8}
    (h1 : decodeHeaders ⟨Decoder.newWithOptions cpu o, b⟩ = (.ok (), ⟨d, rd⟩)) (hp : d.isProgressive = false)
    (h2 : decodeBaseline ⟨d, rd⟩ = (r, h')) :
    ((Decoder.newWithOptions cpu o).decodeBuffer b).1 = r := by
  unfold Decoder.decodeBuffer decodeInternal
  rw [M.bind_ok h1, M.bind_ok (getDec_apply _ _), hp]
  rw [if_neg (by decide)]
  show (decodeBaseline ⟨d, rd⟩).1 = _
  rw [h2]

/-- **C55** (part, grayscale output). The output has the luma samples of all rows that are decoded. Missing:
short restart intervals, and images that are too narrow, for which the conversion panics (C37). -/
theorem c55_gray_partial (V : g.Valid) (cpu : Cpu) (o : Options)
    (hw : g.width ≤ o.getMaxWidth) (hh : g.height ≤ o.getMaxHeight)
    (hout : o.getOutColorspace = .grayscale)
    (hwide : 8 * (g.fh * g.fv) * (8 * (g.fh * mcuCols g.width g.fh)) < (8 * (g.fh * g.fv) + 1) * g.width) :
    ∃ out, ((Decoder.newWithOptions cpu o).decodeBuffer g.bytes).1 = .ok out ∧
      out.length = g.height * g.width ∧
      ∀ y x, y < g.height → x < g.width → out[y * g.width + x]? =
        some (if g.Row y then lowByte (g.sample (chooseIdct cpu o.getUseUnsafe) 0 y x) else 0) := by
  obtain ⟨d, c0, c1, c2, h1, R, ht, hrs, hp, hi, -, hcpu, ho, hq⟩ := colour_headers V cpu o hw hh
  obtain ⟨out, h', h2, h3, h4⟩ := gray_out (trailer := g.trailer) R ht V.fit hrs V.data
    (by rw [ho]; exact hout) hwide
  refine ⟨out, decode_colour h1 hp h2, h3, fun y x hy hx => ?_⟩
  rw [h4 y x hy hx]
  congr 1
  by_cases hrow : g.Row y
  · have hrow' : y / (8 * (g.fh * g.fv)) < stripCount g.height g.fh g.fv := hrow
    rw [if_pos hrow, if_pos hrow']
    congr 1
    have hc := cols_pos V
    have hR : 0 < 8 * (g.fh * g.fv) := by
      have := Nat.mul_pos V.fh.1 V.fv.1
      omega
    obtain ⟨a1, a2, a3, a4⟩ := row_index (y := y) hR
      (show x < 8 * (g.fh * mcuCols g.width g.fh) by omega)
    have e := stripPlane_at (f := d.idctFn) (qt := fun i => [c0, c1, c2][i]?.elim [] (·.quantTable))
      (w := g.width) (fh := g.fh) (fv := g.fv) (m := g.blocks) (t := y / (8 * (g.fh * g.fv))) (i := 0) a1
    unfold at0 at e
    rw [e]
    unfold ColourJpeg.sample
    rw [hi]
    have e0 : [c0, c1, c2][0]?.elim [] (·.quantTable) = naturalQuant (g.quantOf 0) := hq 0 c0 rfl
    rw [e0]
    show unitSample _ _ _ _ _ _ (y / (8 * (g.fh * g.fv)) * (8 * (g.fh * g.fv)) + _ / (8 * (g.fh * _)))
      (_ % (8 * (g.fh * _))) = _
    rw [a4, a3]
  · have hrow' : ¬ y / (8 * (g.fh * g.fv)) < stripCount g.height g.fh g.fv := hrow
    rw [if_neg hrow, if_neg hrow']

/-! ### Bounds -/

theorem sseAt_within {lo hi : Int} {input : List I16} (h : 8 ≤ input.length)
    (hw : Within lo hi input) (h1 : -8192 ≤ lo) (h2 : hi ≤ 8191) {p : Nat}
    (hp : p < 2 * input.length) :
    lo ≤ (sseAt input p).toInt ∧ (sseAt input p).toInt ≤ hi := by
  unfold sseAt
  dsimp only
  split
  · exact tri_within (at0_within hw (by omega)) (at0_within hw (by omega)) h1 h2
  split
  · exact tri_within (at0_within hw (by omega)) (at0_within hw (by omega)) h1 h2
  split
  · exact tri_within (at0_within hw (by omega)) (at0_within hw (by omega)) h1 h2
  · exact horizontalAt_within (by omega) hw h1 h2 hp

/-- The upsampling that can exceed the range of the samples: that of AVX2 for wide images with half
resolution in both directions. -/
def Spec.ColourJpeg.Joints (g : ColourJpeg) (cpu : Cpu) (un : Bool) : Prop :=
  g.fh = 2 ∧ g.fv = 2 ∧ un = true ∧ cpu.avx2 = true ∧ 4 ≤ mcuCols g.width 2

theorem sampling_within {un : Bool} {fh fv X : Nat} {r : SubSampRatios} {u : UpSampler} {p q : List I16}
    {n : Nat} (hs : Sampling cpu un fh fv r u)
    (hj : ¬ (fh = 2 ∧ fv = 2 ∧ un = true ∧ cpu.avx2 = true ∧ 4 ≤ X)) (hX : 0 < X)
    (hl : p.length = 8 * fh * (8 * X)) (hn : n = 8 * (fh * fv) * (8 * (fh * X))) (hp : Samples p)
    (hrun : u.run p n = .ok q) : Samples q := by
  have hsm : Small p := fun x hx => by have := hp x hx; omega
  rcases hs with ⟨rfl, rfl, -, rfl⟩ | ⟨rfl, rfl, -, rfl⟩ | ⟨rfl, rfl, -, rfl⟩
  · have e : n = 2 * p.length := by rw [hn, hl]; ring
    rw [e] at hrun
    unfold chooseHorizontal at hrun
    split at hrun
    · obtain ⟨v, hv1, hv2, hv3⟩ := sse_get (input := p) (by omega) (by omega)
      have : Out.ok v = Out.ok q := hv1.symm.trans hrun
      cases this
      exact within_of_get hv2 hv3 fun k hk => sseAt_within (by omega) hp (by decide) (by decide) hk
    · obtain ⟨v, hv1, hv2, hv3⟩ := horizontal_get (input := p) (by omega)
      have : Out.ok v = Out.ok q := hv1.symm.trans hrun
      cases this
      exact within_of_get hv2 hv3 fun k hk => horizontalAt_within (by omega) hp (by decide) (by decide) hk
  · have e : n = 2 * p.length := by rw [hn, hl]; ring
    rw [e] at hrun
    obtain ⟨⟨v, hv1, -, -, hv4⟩, -⟩ := c33_vertical (input := p) (s := 8 * X) (by omega) (by omega) hsm
    have : Out.ok v = Out.ok q := hv1.symm.trans hrun
    cases this
    exact hv4 0 255 (by decide) (by decide) hp
  · have e : n = 4 * p.length := by rw [hn, hl]; ring
    rw [e] at hrun
    obtain ⟨-, v, hv1, -, hv4⟩ := c33_vertical (input := p) (s := 16 * X) (by omega) (by omega) hsm
    have hsc : upsampleHv p (4 * p.length) = .ok q := by
      unfold chooseHv at hrun
      split at hrun
      next hav =>
        rw [Bool.and_eq_true] at hav
        have h4 : X < 4 := by
          by_contra hc
          exact hj ⟨rfl, rfl, hav.1, hav.2, by omega⟩
        rw [← hrun]
        exact ((c54_hv_partial (input := p) (q := X) (by omega)).1 h4).symm
      next => exact hrun
    have : Out.ok v = Out.ok q := hv1.symm.trans hsc
    cases this
    exact hv4 0 255 (by decide) (by decide) hp

theorem stripPlane_samples {f : IdctFn} {t i : Nat} (hb : g.Bytes f i) :
    Samples (stripPlane f (fun i => naturalQuant (g.quantOf i)) g.width g.fh g.fv g.blocks t i) := by
  intro x hx
  unfold stripPlane unitRows at hx
  obtain ⟨p, -, rfl⟩ := List.mem_map.1 hx
  exact hb _ _

theorem fullPlanes_samples (V : g.Valid) {un : Bool} {f : IdctFn} {full : Nat → Nat → List I16}
    (hj : ¬ g.Joints cpu un) (hb : ∀ i, i < 3 → g.Bytes f i)
    (hf : FullPlanes cpu un g.fh g.fv (8 * (g.fh * g.fv) * (8 * (g.fh * mcuCols g.width g.fh)))
      (stripPlane f (fun i => naturalQuant (g.quantOf i)) g.width g.fh g.fv g.blocks) full) (t i : Nat)
    (hi : i < 3) : Samples (full t i) := by
  obtain ⟨f0, fi⟩ := hf t
  by_cases h0 : i = 0
  · rw [h0, f0]
    exact stripPlane_samples (hb 0 (by omega))
  · rcases (fi i (by omega)).2 with ⟨-, -, e⟩ | ⟨r, u, hs, e⟩
    · rw [e]
      exact stripPlane_samples (hb i hi)
    · refine sampling_within hs ?_ (cols_pos V).1 ?_ rfl (stripPlane_samples (hb i hi)) e
      · rintro ⟨a, b, c, d, e⟩
        exact hj ⟨a, b, c, d, by rw [a] at e; exact e⟩
      · rw [stripPlane_length]
        unfold stripRows colourShape
        rw [if_neg h0]
        ring

theorem fullPlanes_unique {un : Bool} {fh fv n : Nat} {part full full' : Nat → Nat → List I16}
    (h1 : FullPlanes cpu un fh fv n part full) (h2 : FullPlanes cpu un fh fv n part full') (t i : Nat)
    (hi : i < 3) : full t i = full' t i := by
  obtain ⟨a0, ai⟩ := h1 t
  obtain ⟨b0, bi⟩ := h2 t
  by_cases h0 : i = 0
  · rw [h0, a0, b0]
  · have hn : ∀ {r u}, Sampling cpu un fh fv r u → ¬ (fh = 1 ∧ fv = 1) := by
      intro r u hs
      rcases hs with ⟨a, b, -⟩ | ⟨a, b, -⟩ | ⟨a, b, -⟩ <;> omega
    rcases (ai i (by omega)).2 with ⟨a, b, e⟩ | ⟨r, u, hs, e⟩
    · rcases (bi i (by omega)).2 with ⟨-, -, e'⟩ | ⟨r', u', hs', e'⟩
      · rw [e, e']
      · exact absurd ⟨a, b⟩ (hn hs')
    · rcases (bi i (by omega)).2 with ⟨a', b', e'⟩ | ⟨r', u', hs', e'⟩
      · exact absurd ⟨a', b'⟩ (hn hs)
      · rw [sampling_unique hs hs', e'] at e
        exact (Out.ok.inj e).symm

theorem colorFn_three (cpu : Cpu) (o : Options) : (Decoder.newWithOptions cpu o).colorFn.Three ∧
    ((Decoder.newWithOptions cpu o).colorFn = .rgbSse →
      o.getUseUnsafe = true ∧ cpu.avx2 = false ∧ cpu.sse41 = true) := by
  show ((chooseColor cpu .rgb o.getUseUnsafe).getD .rgbScalar).Three ∧
    ((chooseColor cpu .rgb o.getUseUnsafe).getD .rgbScalar = .rgbSse → _)
  unfold chooseColor ColorFn.Three
  cases o.getUseUnsafe <;> cases cpu.avx2 <;> cases cpu.sse41 <;> simp

/-- **C55** (part, RGB output). A pixel of the RGB output is the converted pixel of the YCbCr output (of
which `c55_ycbcr_partial` and C59 say what it is), for all decoded rows and, in images of more than 16
columns, all but the last 31 columns (C38). The samples must be bytes (see C26). Missing: the upsampler
that can exceed the range of bytes, short restart intervals, and the sizes for which the SSE converter panics
(C38). -/
theorem c55_rgb_partial (V : g.Valid) (cpu : Cpu) (o o' : Options)
    (hw : g.width ≤ o.getMaxWidth) (hh : g.height ≤ o.getMaxHeight) (hout : o.getOutColorspace = .ycbcr)
    (hw' : g.width ≤ o'.getMaxWidth) (hh' : g.height ≤ o'.getMaxHeight) (hout' : o'.getOutColorspace = .rgb)
    (hun : o'.getUseUnsafe = o.getUseUnsafe)
    (hb : ∀ i, i < 3 → g.Bytes (chooseIdct cpu o.getUseUnsafe) i) (hj : ¬ g.Joints cpu o.getUseUnsafe)
    (hsse : o.getUseUnsafe = true → cpu.avx2 = false → cpu.sse41 = true →
      22 ≤ g.width ∧ 16 * (8 * (g.fh * mcuCols g.width g.fh) / 16 - 1) + 6 ≤ g.width) :
    ∃ out out', ((Decoder.newWithOptions cpu o).decodeBuffer g.bytes).1 = .ok out ∧
      ((Decoder.newWithOptions cpu o').decodeBuffer g.bytes).1 = .ok out' ∧
      out'.length = g.height * (g.width * 3) ∧
      ∀ y x, y < g.height → x < g.width → (16 < g.width → x + 31 < g.width) → g.Row y →
        ∃ b0 b1 b2 : UInt8, out[3 * (y * g.width + x)]? = some b0 ∧
          out[3 * (y * g.width + x) + 1]? = some b1 ∧ out[3 * (y * g.width + x) + 2]? = some b2 ∧
          ∀ c, c < 3 → ∃ b : UInt8, out'[3 * (y * g.width + x) + c]? = some b ∧
            (rgbValue b0.toNat b1.toNat b2.toNat)[c]? = some (b.toNat : Int) := by
  obtain ⟨out, full, h1, -, h3, h4⟩ := colour_file V cpu o hw hh hout
  obtain ⟨d, c0, c1, c2, k1, R, ht, hrs, hp, hi, hcf, hcpu, ho, hq⟩ := colour_headers V cpu o' hw' hh'
  have hpl : ∀ t i, i < 3 → stripPlane d.idctFn (fun i => [c0, c1, c2][i]?.elim [] (·.quantTable)) g.width
      g.fh g.fv g.blocks t i = stripPlane (chooseIdct cpu o.getUseUnsafe)
        (fun i => naturalQuant (g.quantOf i)) g.width g.fh g.fv g.blocks t i := by
    intro t i hi3
    unfold stripPlane
    rw [hi, hun]
    have : [c0, c1, c2][i]?.elim [] (·.quantTable) = naturalQuant (g.quantOf i) := by
      have hlt : i < [c0, c1, c2].length := hi3
      rw [List.getElem?_eq_getElem hlt]
      exact hq i _ (List.getElem?_eq_getElem hlt)
    dsimp only
    rw [this]
  have conv : ∀ full', FullPlanes d.cpu d.options.useUnsafe g.fh g.fv
        (8 * (g.fh * g.fv) * (8 * (g.fh * mcuCols g.width g.fh)))
        (stripPlane d.idctFn (fun i => [c0, c1, c2][i]?.elim [] (·.quantTable)) g.width g.fh g.fv g.blocks)
        full' →
      FullPlanes cpu o.useUnsafe g.fh g.fv (8 * (g.fh * g.fv) * (8 * (g.fh * mcuCols g.width g.fh)))
        (stripPlane (chooseIdct cpu o.getUseUnsafe) (fun i => naturalQuant (g.quantOf i)) g.width g.fh
          g.fv g.blocks) full' := by
    intro full' hf t
    obtain ⟨a, b⟩ := hf t
    refine ⟨a.trans (hpl t 0 (by omega)), fun i hi' => ?_⟩
    have := b i hi'
    rw [hpl t i (by omega), hcpu, ho, show o'.useUnsafe = o.useUnsafe from hun] at this
    exact this
  obtain ⟨c3, csse⟩ := colorFn_three cpu o'
  obtain ⟨out', h', full', k2, k3, k4, k5⟩ := rgb_out (trailer := g.trailer) R ht V.fit hrs V.data
    (by rw [ho]; exact hout') (by rw [hcf]; exact c3)
    (by
      intro e
      rw [hcf] at e
      obtain ⟨a, b, c⟩ := csse e
      exact hsse (hun ▸ a) b c)
    (fun full' hf t i hi3 => samples_near (fullPlanes_samples V hj hb (conv full' hf) t i hi3))
  refine ⟨out, out', h1, decode_colour k1 hp k2, k3, fun y x hy hx hx2 hrow => ?_⟩
  have hfu : ∀ t i, i < 3 → full t i = full' t i := fullPlanes_unique h3 (conv full' k4)
  have hsam : ∀ t i, i < 3 → Samples (full t i) := fullPlanes_samples V hj hb h3
  obtain ⟨t, htt⟩ : ∃ t, t = y / (8 * (g.fh * g.fv)) := ⟨_, rfl⟩
  obtain ⟨p, hpp⟩ : ∃ p, p = y % (8 * (g.fh * g.fv)) * (8 * (g.fh * mcuCols g.width g.fh)) + x := ⟨_, rfl⟩
  have hget : ∀ c, c < 3 → out[3 * (y * g.width + x) + c]? = some (lowByte (at0 (full t c) p)) := by
    intro c hc
    rw [h4 y x c hy hx hc, if_pos hrow, htt, hpp]
  refine ⟨_, _, _, hget 0 (by omega), hget 1 (by omega), hget 2 (by omega), fun c hc => ?_⟩
  obtain ⟨b, hb1, s0, s1, s2, e0, e1, e2, hval⟩ := k5 y x c hy hx hx2 hc hrow
  refine ⟨b, hb1, ?_⟩
  rw [← htt, ← hpp] at e0 e1 e2
  rw [← hfu t 0 (by omega)] at e0
  rw [← hfu t 1 (by omega)] at e1
  rw [← hfu t 2 (by omega)] at e2
  have hv : ∀ i s, i < 3 → (full t i)[p]? = some s → ((lowByte (at0 (full t i) p)).toNat : Int) = s.toInt := by
    intro i s hi3 e
    rw [at0_of_get e, lowByte_toNat]
    have := hsam t i hi3 s (List.mem_of_getElem? e)
    omega
  rw [hv 0 s0 (by omega) e0, hv 1 s1 (by omega) e1, hv 2 s2 (by omega) e2]
  rw [List.getElem?_append_left (by show c < 3; exact hc)] at hval
  exact hval

/-- The samples of `slopeX` are bytes. -/
theorem slopeX_bytes (f : IdctFn) (i : Nat) (hi : i < 3) : slopeX.Bytes f i := by
  by_cases h1 : i = 1
  · subst h1
    intro y x
    rw [slopeX_value]
    exact slope_bytes
  · have key : ∀ f ∈ [IdctFn.scalar, .avx2], ∀ q ∈ [List.replicate 64 (16 : UInt8), List.replicate 64 255],
        ∀ a < 8, ∀ b < 8, 0 ≤ (((f.block (coded (1 :: List.replicate 63 0)) (naturalQuant q))[a]?.bind
          (·[b]?)).getD 0).toInt ∧ (((f.block (coded (1 :: List.replicate 63 0)) (naturalQuant q))[a]?.bind
          (·[b]?)).getD 0).toInt ≤ 255 := by decide +kernel
    intro y x
    have hi' : i = 0 ∨ i = 2 := by omega
    rcases hi' with rfl | rfl
    · exact key f (idctFn_mem f) _ List.mem_cons_self (y % 8) (by omega) (x % 8) (by omega)
    · exact key f (idctFn_mem f) _ (List.mem_cons_of_mem _ List.mem_cons_self) (y % 8) (by omega) (x % 8) (by omega)

/-- The hypotheses of `c55_rgb_partial` and `c55_gray_partial` hold for `slopeX`. -/
example : slopeX.Valid ∧ (∀ f i, i < 3 → slopeX.Bytes f i) ∧ (∀ cpu un, ¬ slopeX.Joints cpu un) ∧
    8 * (slopeX.fh * slopeX.fv) * (8 * (slopeX.fh * mcuCols slopeX.width slopeX.fh)) <
      (8 * (slopeX.fh * slopeX.fv) + 1) * slopeX.width :=
  ⟨slopeX_valid, slopeX_bytes, fun _ _ h => absurd h.2.1 (by decide), by decide⟩

/-- The default options ask for RGB. -/
example : Options.new.getOutColorspace = .rgb := rfl

end

end Zune
