import Verif.Props.ColourTrip
/-!
# Round trips with the scalar transform

C60 for both transforms, and what the transforms do with products beyond the bound of C56.
-/

namespace Zune
open Spec

/-! ### Images that keep clear of black and white -/

/-- The constant coefficient of a block is eight times the mean of its samples. -/
theorem fdct_dc (s : Fin 8 → Fin 8 → ℝ) : idealFdct s 0 0 = 1 / 8 * ∑ x, ∑ y, s y x := by
  have h2 : √2 * √2 = (2 : ℝ) := Real.mul_self_sqrt (by norm_num)
  have h0 : √2 ≠ 0 := by positivity
  have hc : ∀ x : Fin 8, dctCos x 0 = 1 := by
    intro x
    unfold dctCos
    simp
  unfold idealFdct dctC
  simp only [hc, mul_one, if_true]
  have : (1 : ℝ) / √2 * (1 / √2) = 1 / 2 := by
    rw [div_mul_div_comm, h2, one_mul]
  rw [mul_assoc (1 / 4 : ℝ), this]
  norm_num

/-- No flat block of an image overflows the samples if the image keeps clear of black and white by a
sixteenth of the step of the constant coefficient. -/
theorem dcFits_of_margin {block : List I16} {qt : List Nat} {s : Fin 8 → Fin 8 → ℝ} (h : Quantised block qt s)
    (hs : ∀ i j, quantR qt 0 0 / 16 ≤ s i j ∧ s i j < 256 - quantR qt 0 0 / 16) : DcFits block qt := by
  have h0 := h 0 0
  rw [fdct_dc, abs_le] at h0
  have hlo : (64 : ℝ) * (quantR qt 0 0 / 16 - 128) ≤ ∑ x : Fin 8, ∑ y : Fin 8, (s y x - 128) := by
    have : ∑ x : Fin 8, ∑ y : Fin 8, (quantR qt 0 0 / 16 - 128) ≤ ∑ x : Fin 8, ∑ y : Fin 8, (s y x - 128) :=
      Finset.sum_le_sum fun x _ => Finset.sum_le_sum fun y _ => by linarith [(hs y x).1]
    refine le_trans (le_of_eq ?_) this
    simp
    ring
  have hhi : ∑ x : Fin 8, ∑ y : Fin 8, (s y x - 128) < 64 * (128 - quantR qt 0 0 / 16) := by
    have : ∑ x : Fin 8, ∑ y : Fin 8, (s y x - 128) < ∑ x : Fin 8, ∑ y : Fin 8, (128 - quantR qt 0 0 / 16) :=
      Finset.sum_lt_sum_of_nonempty ⟨0, Finset.mem_univ _⟩ fun x _ =>
        Finset.sum_lt_sum_of_nonempty ⟨0, Finset.mem_univ _⟩ fun y _ => by linarith [(hs y x).2]
    refine lt_of_lt_of_eq this ?_
    simp
    ring
  have e : coefR block qt 0 0 = (dcOf block qt : ℝ) := rfl
  rw [e] at h0
  have a : (-1024 : ℝ) ≤ (dcOf block qt : ℝ) := by linarith
  have b : (dcOf block qt : ℝ) < 1024 := by linarith
  have a' : -1024 ≤ dcOf block qt := by exact_mod_cast a
  have b' : dcOf block qt < 1024 := by exact_mod_cast b
  unfold DcFits
  rw [Int.bmod_eq_of_le (by omega) (by omega)]
  omega

/-- The samples are bytes if no flat block overflows. -/
theorem bytes_of_fits {g : ColourJpeg} (f : IdctFn) (i : Nat)
    (hd : f = .scalar → ∀ k a b, Flat (coded (g.blocks k i a b)) →
      DcFits (coded (g.blocks k i a b)) (naturalQuant (g.quantOf i))) : g.Bytes f i := by
  cases f with
  | avx2 => exact bytes_avx g i
  | scalar =>
    intro y x
    unfold ColourJpeg.value ColourJpeg.sample unitSample
    have hd' := hd rfl (y / 8 / (colourShape g.fh g.fv i).1 * mcuCols g.width g.fh +
      x / 8 / (colourShape g.fh g.fv i).2) (y / 8 % (colourShape g.fh g.fv i).1)
        (x / 8 % (colourShape g.fh g.fv i).2)
    obtain ⟨blk, hblk⟩ : ∃ blk, coded (g.blocks
      (y / 8 / (colourShape g.fh g.fv i).1 * mcuCols g.width g.fh + x / 8 / (colourShape g.fh g.fv i).2) i
        (y / 8 % (colourShape g.fh g.fv i).1) (x / 8 % (colourShape g.fh g.fv i).2)) = blk := ⟨_, rfl⟩
    rw [hblk] at hd' ⊢
    cases hs : sample (IdctFn.scalar.block blk (naturalQuant (g.quantOf i))) (y % 8) (x % 8) with
    | none => exact ⟨by decide, by decide⟩
    | some v =>
      unfold sample at hs
      obtain ⟨r, hr, hv⟩ := Option.bind_eq_some_iff.1 hs
      exact (isSample_scalar _ _).2 hd' r (List.mem_of_getElem? hr) v (List.mem_of_getElem? hv)

/-- **C60, both transforms** (part). As `c60_rgb_partial`, but on any processor and with unsafe code allowed
or not, if the planes of the image keep clear of black and white by a sixteenth of the step of the constant
coefficient wherever the scalar transform is used (`c57_false` shows that they must). With the SSE converter
the width must not be one for which it panics (C38). -/
theorem c60_scalar_partial {w h : Nat} {quantY quantC : List UInt8} {rgb : Nat → Nat → Nat → ℝ}
    (h1 : 0 < w ∧ w ≤ 65527) (h2 : 0 < h ∧ h ≤ 65527) (hY : quantY.length = 64)
    (hC : quantC.length = 64) (pY : ∀ q ∈ quantY, 0 < q.toNat) (pC : ∀ q ∈ quantC, 0 < q.toNat)
    (hrgb : ∀ c y x, 0 ≤ rgb c y x ∧ rgb c y x ≤ 255) (cpu : Cpu) (o : Options)
    (hw : w ≤ o.getMaxWidth) (hh : h ≤ o.getMaxHeight) (hout : o.getOutColorspace = .rgb)
    (hsc : chooseIdct cpu o.getUseUnsafe = .scalar → ∀ i y x,
      let q : ℝ := ((if i = 0 then quantY else quantC).getD 0 0).toNat
      q / 16 ≤ jfifPlanes rgb i y x ∧ jfifPlanes rgb i y x < 256 - q / 16)
    (hsse : o.getUseUnsafe = true → cpu.avx2 = false → cpu.sse41 = true →
      22 ≤ w ∧ 16 * (8 * ((w + 7) / 8) / 16 - 1) + 6 ≤ w) :
    ∃ out, ((Decoder.newWithOptions cpu o).decodeBuffer
        (encodePlanes w h quantY quantC (jfifPlanes rgb)).bytes).1 = .ok out ∧
      out.length = h * (w * 3) ∧
      ∀ y x c, y < h → x < w → (16 < w → x + 31 < w) → c < 3 →
        ∃ b, out[3 * (y * w + x) + c]? = some b ∧ |(b.toNat : ℝ) - rgb c y x| ≤
          3 + (113 / 100 + 2049 / 2048 * quantNorm (naturalQuant quantY)) +
            1.772 * (113 / 100 + 2049 / 2048 * quantNorm (naturalQuant quantC)) := by
  have hr := jfifPlanes_range hrgb
  have V := encodePlanes_valid h1 h2 hY hC pY pC hr
  have E := encodePlanes_encodes (w := w) (h := h) hY hC pY pC hr
  have hd : chooseIdct cpu o.getUseUnsafe = .scalar → ∀ k i a b,
      Flat (coded ((encodePlanes w h quantY quantC (jfifPlanes rgb)).blocks k i a b)) →
      DcFits (coded ((encodePlanes w h quantY quantC (jfifPlanes rgb)).blocks k i a b))
        (naturalQuant ((encodePlanes w h quantY quantC (jfifPlanes rgb)).quantOf i)) := by
    intro e k i a b _
    show DcFits (coded (quantise (if i = 0 then quantY else quantC) fun a b =>
      jfifPlanes rgb i (8 * (k / mcuCols w 1) + a) (8 * (k % mcuCols w 1) + b)))
      (naturalQuant (if i = 0 then quantY else quantC))
    have hm := hsc e i
    have hq0 : ∀ q : List UInt8, quantR (naturalQuant q) 0 0 = ((q.getD 0 0).toNat : ℝ) := by
      intro q
      rfl
    split
    · rename_i hi
      rw [if_pos hi] at hm
      refine dcFits_of_margin (quantise_quantised hY pY fun _ _ => hr _ _ _) fun a b => ?_
      rw [hq0]
      exact hm _ _
    · rename_i hi
      rw [if_neg hi] at hm
      refine dcFits_of_margin (quantise_quantised hC pC fun _ _ => hr _ _ _) fun a b => ?_
      rw [hq0]
      exact hm _ _
  obtain ⟨o1, ho1⟩ : ∃ o1 : Options, o1 = { o with outColorspace := .ycbcr } := ⟨_, rfl⟩
  have e1 : o1.getUseUnsafe = o.getUseUnsafe := by rw [ho1]; rfl
  have e2 : o1.getMaxWidth = o.getMaxWidth := by rw [ho1]; rfl
  have e3 : o1.getMaxHeight = o.getMaxHeight := by rw [ho1]; rfl
  have e4 : o1.getOutColorspace = .ycbcr := by rw [ho1]; rfl
  have hw1 : w ≤ o1.getMaxWidth := by rw [e2]; exact hw
  have hh1 : h ≤ o1.getMaxHeight := by rw [e3]; exact hh
  obtain ⟨out, out', k1, k2, k3, k4⟩ := c55_rgb_partial V cpu o1 o hw1 hh1 e4 hw hh hout e1.symm
    (fun i _ => by rw [e1]; exact bytes_of_fits _ i fun e k a b => hd e k i a b)
    (fun hj => absurd hj.1 (by show ¬ (1 = 2); decide))
    (fun a b c => by
      rw [e1] at a
      have := hsse a b c
      show 22 ≤ w ∧ 16 * (8 * (1 * mcuCols w 1) / 16 - 1) + 6 ≤ w
      unfold mcuCols
      rw [Nat.one_mul]
      exact this)
  obtain ⟨out2, l1, -, l3⟩ := c60_planes_partial V cpu o1 hw1 hh1 e4 hr (fun i _ => E i)
    (fun e => by rw [e1] at e; exact hd e)
  rw [k1] at l1
  cases Out.ok.inj l1
  refine ⟨out', k2, k3, fun y x c hy hx hx2 hc => ?_⟩
  have hrow : (encodePlanes w h quantY quantC (jfifPlanes rgb)).Row y := row_all V rfl hy
  obtain ⟨b0, b1, b2, g0, g1, g2, hb⟩ := k4 y x hy hx hx2 hrow
  obtain ⟨b, hb1, hb2⟩ := hb c hc
  refine ⟨b, hb1, ?_⟩
  have key : ∀ c b', c < 3 → out[3 * (y * w + x) + c]? = some b' →
      |((b'.toNat : Int) : ℝ) - jfifPlanes rgb c y x| ≤ 113 / 100 + 2049 / 2048 * quantNorm
        (naturalQuant ((encodePlanes w h quantY quantC (jfifPlanes rgb)).quantOf c)) := by
    intro c b' hc hb'
    obtain ⟨b'', q1, q2⟩ := l3 y x c hy hx hc hrow (Or.inr ⟨rfl, rfl⟩)
    have q1' : out[3 * (y * w + x) + c]? = some b'' := q1
    rw [hb'] at q1'
    cases q1'
    exact_mod_cast q2
  have := rgb_near hrgb (key 0 b0 (by decide) g0) (key 1 b1 (by decide) g1) (key 2 b2 (by decide) g2)
    ⟨by omega, by have := b1.toNat_lt; omega⟩ ⟨by omega, by have := b2.toNat_lt; omega⟩ hb2
  exact_mod_cast this

/-- A gray ramp of 100 x 50 pixels without SIMD code. -/
example : ∃ out, ((Decoder.new ⟨false, false⟩).decodeBuffer (encodePlanes 100 50
      (List.replicate 64 16) (List.replicate 64 16)
      (jfifPlanes fun _ y x => ((x + y) % 200 + 20 : Nat))).bytes).1 = .ok out ∧
    out.length = 50 * (100 * 3) := by
  refine (c60_scalar_partial (by decide) (by decide) (by simp) (by simp) (by decide) (by decide)
    (fun c y x => ⟨by positivity, by
      have : (x + y) % 200 + 20 ≤ 255 := by omega
      exact_mod_cast this⟩) ⟨false, false⟩ Options.new (by decide) (by decide) rfl ?_
      (fun _ _ h => by cases h)).imp fun _ h => ⟨h.1, h.2.1⟩
  intro _ i y x
  have hq : (if i = 0 then List.replicate 64 (16 : UInt8) else List.replicate 64 16).getD 0 0 = 16 := by
    split <;> rfl
  rw [hq]
  have h1 : (20 : ℝ) ≤ ((x + y) % 200 + 20 : Nat) := by
    have : 20 ≤ (x + y) % 200 + 20 := by omega
    exact_mod_cast this
  have h2 : (((x + y) % 200 + 20 : Nat) : ℝ) ≤ 219 := by
    have : (x + y) % 200 + 20 ≤ 219 := by omega
    exact_mod_cast this
  have e16 : (((16 : UInt8).toNat : Nat) : ℝ) = 16 := by
    rw [show (16 : UInt8).toNat = 16 from rfl]
    norm_num
  rw [e16]
  unfold jfifPlanes
  dsimp only
  obtain ⟨v, hv⟩ : ∃ v : ℝ, v = ((x + y) % 200 + 20 : Nat) := ⟨_, rfl⟩
  rw [← hv] at h1 h2 ⊢
  have hl : 0.299 * v + 0.587 * v + 0.114 * v = v := by ring
  rw [hl, sub_self, zero_div, zero_div]
  split
  · constructor <;> linarith
  · split <;> norm_num

/-! ### Large products -/

/-- A constant coefficient of 2047 and a small one beside it. -/
def Spec.brightBlock : List I16 := 2047 :: 1 :: List.replicate 62 0

theorem bright_coef (i j : Fin 8) : coef brightBlock (List.replicate 64 255) i j =
    if i = 0 ∧ j = 0 then 521985 else if i = 0 ∧ j = 1 then 255 else 0 := by
  revert i j
  decide +kernel

/-- **C56, large products.** The bound on the products is needed: of a block of coefficients that a file can
hold, which is whiter than white everywhere, both implementations make black, as their 32 bit sums
overflow. -/
theorem c56_large_false (i j : Fin 8) :
    satR (128 + idealIdct (coefR brightBlock (List.replicate 64 255)) i j) = 255 ∧
    ∀ f : IdctFn, sample (f.block brightBlock (List.replicate 64 255)) i j = some 0 := by
  constructor
  · have hc : coefR brightBlock (List.replicate 64 255) = fun i j =>
        if i = 0 ∧ j = 0 then 521985 else if i = 0 ∧ j = 1 then 255 else 0 := by
      funext i j
      unfold coefR
      rw [bright_coef]
      split
      · norm_num
      · split <;> norm_num
    have h2 : √2 * √2 = (2 : ℝ) := Real.mul_self_sqrt (by norm_num)
    have h0 : √2 ≠ 0 := by positivity
    have hs1 : 1 ≤ √2 := by
      rw [show (1 : ℝ) = √1 by simp]
      exact Real.sqrt_le_sqrt (by norm_num)
    have hc0 : ∀ x : Fin 8, dctCos x 0 = 1 := by
      intro x
      unfold dctCos
      simp
    have hd0 : dctC 0 * dctC 0 = 1 / 2 := by
      unfold dctC
      rw [if_pos rfl, div_mul_div_comm, h2, one_mul]
    have hd0' : 0 ≤ dctC 0 ∧ dctC 0 ≤ 1 := by
      unfold dctC
      rw [if_pos rfl]
      refine ⟨by positivity, ?_⟩
      rw [div_le_one (by positivity)]
      exact hs1
    have hd1 : dctC 1 = 1 := by
      unfold dctC
      rw [if_neg (by decide)]
    have e : idealIdct (coefR brightBlock (List.replicate 64 255)) i j =
        521985 / 8 + 255 / 4 * (dctC 0 * dctCos j 1) := by
      unfold idealIdct
      rw [hc]
      simp only [Fin.sum_univ_eight]
      simp [hc0, hd1]
      linear_combination 521985 / 4 * hd0
    have hcos : |dctCos j 1| ≤ 1 := Real.abs_cos_le_one _
    have hp : |dctC 0 * dctCos j 1| ≤ 1 := by
      rw [abs_mul, abs_of_nonneg hd0'.1]
      exact mul_le_one₀ hd0'.2 (abs_nonneg _) hcos
    rw [abs_le] at hp
    rw [e]
    unfold satR
    rw [min_eq_left (by linarith), max_eq_right (by norm_num)]
  · have : ∀ i j : Fin 8, sample (IdctFn.scalar.block brightBlock (List.replicate 64 255)) i j = some 0 ∧
        sample (IdctFn.avx2.block brightBlock (List.replicate 64 255)) i j = some 0 := by
      decide +kernel
    intro f
    cases f
    · exact (this i j).1
    · exact (this i j).2

end Zune
