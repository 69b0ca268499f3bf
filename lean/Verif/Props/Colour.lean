import Verif.Lemmas.ColourHead
import Verif.Lemmas.ColourOut
/-!
# Colour images from the first byte to the last sample

What holds of C55, and C59.
-/

namespace Zune
open Spec

/-- The sample in row `y` and column `x` of component `i`: that of the inverse transform of the block it
lies in. The component has `fv` x `fh` blocks in each MCU if it is the first one, else one block. -/
def Spec.ColourJpeg.sample (g : ColourJpeg) (f : IdctFn) (i y x : Nat) : I16 :=
  unitSample f (naturalQuant (g.quantOf i)) (mcuCols g.width g.fh) (colourShape g.fh g.fv i).1
    (colourShape g.fh g.fv i).2 (fun k => g.blocks k i) y x

/-- A row of output that is decoded: the rows of MCUs are decoded `fh` at a time, and those left over at
the end are lost (`c44_false`). -/
def Spec.ColourJpeg.Row (g : ColourJpeg) (y : Nat) : Prop :=
  y / (8 * (g.fh * g.fv)) < mcuRows g.height g.fv / g.fh

instance (g : ColourJpeg) (y : Nat) : Decidable (g.Row y) := by unfold ColourJpeg.Row; infer_instance

/-- With sampling factors 1x1, 1x2 all rows are decoded. -/
theorem row_all {g : ColourJpeg} (V : g.Valid) (h : g.fh = 1) {y : Nat} (hy : y < g.height) :
    g.Row y := by
  unfold ColourJpeg.Row mcuRows
  have := V.fv
  have hv : g.fv = 1 ∨ g.fv = 2 := by omega
  rw [h]
  rcases hv with e | e <;> rw [e] <;> omega

theorem stripPlane_at {f : IdctFn} {qt : Nat → List Nat} {w fh fv : Nat}
    {m : Nat → Nat → Nat → Nat → List Int} {t i p : Nat}
    (hp : p < stripRows fh fv i * (8 * ((colourShape fh fv i).2 * mcuCols w fh))) :
    at0 (stripPlane f qt w fh fv m t i) p =
      unitSample f (qt i) (mcuCols w fh) (colourShape fh fv i).1 (colourShape fh fv i).2 (fun k => m k i)
        (t * stripRows fh fv i + p / (8 * ((colourShape fh fv i).2 * mcuCols w fh)))
        (p % (8 * ((colourShape fh fv i).2 * mcuCols w fh))) := by
  unfold at0 stripPlane unitRows
  rw [List.getD_eq_getElem?_getD, List.getElem?_map, List.getElem?_range hp]
  rfl

/-- The output of the file. -/
theorem colour_file {g : ColourJpeg} (V : g.Valid) (cpu : Cpu) (o : Options)
    (hw : g.width ≤ o.getMaxWidth) (hh : g.height ≤ o.getMaxHeight)
    (hout : o.getOutColorspace = .ycbcr) :
    ∃ out full, ((Decoder.newWithOptions cpu o).decodeBuffer g.bytes).1 = .ok out ∧
      out.length = g.height * (g.width * 3) ∧
      FullPlanes cpu o.useUnsafe g.fh g.fv (8 * (g.fh * g.fv) * (8 * (g.fh * mcuCols g.width g.fh)))
        (stripPlane (chooseIdct cpu o.getUseUnsafe) (fun i => naturalQuant (g.quantOf i)) g.width g.fh
          g.fv g.blocks) full ∧
      ∀ y x c, y < g.height → x < g.width → c < 3 → out[3 * (y * g.width + x) + c]? =
        some (if g.Row y then
          lowByte (at0 (full (y / (8 * (g.fh * g.fv))) c)
            (y % (8 * (g.fh * g.fv)) * (8 * (g.fh * mcuCols g.width g.fh)) + x)) else 0) := by
  obtain ⟨d, c0, c1, c2, h1, R, ht, hrs, hp, hi, -, hcpu, ho, hq⟩ := colour_headers V cpu o hw hh
  obtain ⟨out, h', full, h2, h3, h4, h5⟩ := ycbcr_out (trailer := g.trailer) R ht V.fit hrs V.data
    (by rw [ho]; exact hout)
  refine ⟨out, full, ?_, h3, ?_, ?_⟩
  · unfold Decoder.decodeBuffer decodeInternal
    rw [M.bind_ok h1, M.bind_ok (getDec_apply _ _), hp]
    rw [if_neg (by decide)]
    exact congrArg Prod.fst h2
  · rw [hcpu, ho] at h4
    intro t
    obtain ⟨a, b⟩ := h4 t
    have e : ∀ i, i < 3 → stripPlane d.idctFn (fun i => [c0, c1, c2][i]?.elim [] (·.quantTable)) g.width g.fh
        g.fv g.blocks t i = stripPlane (chooseIdct cpu o.getUseUnsafe)
          (fun i => naturalQuant (g.quantOf i)) g.width g.fh g.fv g.blocks t i := by
      intro i hi3
      unfold stripPlane
      rw [hi]
      have : [c0, c1, c2][i]?.elim [] (·.quantTable) = naturalQuant (g.quantOf i) := by
        have hlt : i < [c0, c1, c2].length := hi3
        rw [List.getElem?_eq_getElem hlt]
        exact hq i _ (List.getElem?_eq_getElem hlt)
      dsimp only
      rw [this]
    refine ⟨a.trans (e 0 (by omega)), fun i hi' => ?_⟩
    rw [← e i (by omega)]
    exact b i hi'
  · intro y x c hy hx hc
    exact h5 y x c hy hx hc

section
variable {g : ColourJpeg} {cpu : Cpu} {o : Options}

/-- The size and the factors are possible. -/
structure Spec.ColourJpeg.Shape (g : ColourJpeg) : Prop where
  w0 : 0 < g.width
  fh : 0 < g.fh ∧ g.fh ≤ 2
  fv : 0 < g.fv ∧ g.fv ≤ 2

theorem Spec.ColourJpeg.Valid.shape (V : g.Valid) : g.Shape := ⟨V.w0, V.fh, V.fv⟩

theorem Spec.ColourJpeg.Shape.cols (V : g.Shape) :
    0 < mcuCols g.width g.fh ∧ g.width ≤ 8 * (g.fh * mcuCols g.width g.fh) := by
  unfold mcuCols
  have := V.w0
  have := V.fh
  have hf : g.fh = 1 ∨ g.fh = 2 := by omega
  rcases hf with e | e <;> rw [e] <;> omega

theorem cols_pos (V : g.Valid) : 0 < mcuCols g.width g.fh ∧ g.width ≤ 8 * (g.fh * mcuCols g.width g.fh) :=
  V.shape.cols

theorem row_index {R W y x : Nat} (hR : 0 < R) (hx : x < W) :
    y % R * W + x < R * W ∧ (y % R * W + x) / W = y % R ∧ (y % R * W + x) % W = x ∧
      y / R * R + (y % R * W + x) / W = y := by
  have h1 : (y % R * W + x) / W = y % R := by
    rw [Nat.mul_comm, Nat.mul_add_div (by omega), Nat.div_eq_of_lt hx, Nat.add_zero]
  refine ⟨?_, h1, ?_, ?_⟩
  · calc y % R * W + x < y % R * W + W := by omega
      _ = (y % R + 1) * W := by ring
      _ ≤ R * W := Nat.mul_le_mul_right _ (Nat.mod_lt _ hR)
  · rw [Nat.mul_comm, Nat.mul_add_mod, Nat.mod_eq_of_lt hx]
  · rw [h1]
    exact Nat.div_add_mod' y R

/-- **C55 (partial).** For every valid description of a colour image, decoded to YCbCr: the luma byte of
each pixel of the decoded rows is the sample of the inverse transform of its data unit, and so are the
chroma bytes if the image is not subsampled. So every data unit is decoded and put where it belongs.
The other rows are zero. `Valid` asks for 64 bits from the last data unit to the end of the image; without
them the property is false (`c55_false`). Missing: chroma of subsampled images (see C59), other output
colour spaces (see below), short restart intervals (see `c22_colour_partial`), several scans. -/
theorem c55_ycbcr_partial (V : g.Valid) (cpu : Cpu) (o : Options) (hw : g.width ≤ o.getMaxWidth)
    (hh : g.height ≤ o.getMaxHeight) (hout : o.getOutColorspace = .ycbcr) :
    ∃ out, ((Decoder.newWithOptions cpu o).decodeBuffer g.bytes).1 = .ok out ∧
      out.length = g.height * (g.width * 3) ∧
      ∀ y x c, y < g.height → x < g.width → c < 3 → (c = 0 ∨ (g.fh = 1 ∧ g.fv = 1) ∨ ¬ g.Row y) →
        out[3 * (y * g.width + x) + c]? = some (if g.Row y then
          lowByte (g.sample (chooseIdct cpu o.getUseUnsafe) c y x) else 0) := by
  obtain ⟨out, full, h1, h2, h3, h4⟩ := colour_file V cpu o hw hh hout
  refine ⟨out, h1, h2, fun y x c hy hx hc hcase => ?_⟩
  rw [h4 y x c hy hx hc]
  by_cases hrow : g.Row y
  · rw [if_pos hrow, if_pos hrow]
    obtain ⟨f0, fi⟩ := h3 (y / (8 * (g.fh * g.fv)))
    have hc' := cols_pos V
    have hR : 0 < 8 * (g.fh * g.fv) := by
      have := Nat.mul_pos V.fh.1 V.fv.1
      omega
    have hfull : full (y / (8 * (g.fh * g.fv))) c = stripPlane (chooseIdct cpu o.getUseUnsafe)
        (fun i => naturalQuant (g.quantOf i)) g.width g.fh g.fv g.blocks (y / (8 * (g.fh * g.fv))) c := by
      rcases hcase with e | e | e
      · rw [e]; exact f0
      · by_cases hc0 : c = 0
        · rw [hc0]; exact f0
        · rcases (fi c (by omega)).2 with ⟨-, -, e'⟩ | ⟨r, u, hs, -⟩
          · exact e'
          · rcases hs with ⟨a, b, -⟩ | ⟨a, b, -⟩ | ⟨a, b, -⟩ <;> omega
      · exact absurd hrow e
    have hs1 : stripRows g.fh g.fv c = 8 * (g.fh * g.fv) := by
      unfold stripRows colourShape
      rcases hcase with e | e | e
      · rw [if_pos e]
      · split
        · rfl
        · rw [e.1, e.2]
      · exact absurd hrow e
    have hs2 : (colourShape g.fh g.fv c).2 = g.fh := by
      unfold colourShape
      rcases hcase with e | e | e
      · rw [if_pos e]
      · split
        · rfl
        · rw [e.1]
      · exact absurd hrow e
    obtain ⟨a1, a2, a3, a4⟩ := row_index (y := y) hR
      (show x < 8 * (g.fh * mcuCols g.width g.fh) by omega)
    rw [hfull, stripPlane_at (by rw [hs1, hs2]; exact a1), hs1, hs2, a4, a3]
    unfold ColourJpeg.sample
    rw [hs2]
  · rw [if_neg hrow, if_neg hrow]

/-! ### C59 -/

/-- The samples of a component as numbers. -/
def Spec.ColourJpeg.value (g : ColourJpeg) (f : IdctFn) (i y x : Nat) : Int := (g.sample f i y x).toInt

/-- A byte of component `i` in row `y` and column `x` of the output lies between two samples of the
component that are at most one row and one column away from the sample that covers the pixel. -/
def Spec.ColourJpeg.InPlace (g : ColourJpeg) (f : IdctFn) (i y x : Nat) (b : UInt8) : Prop :=
  ∃ y1 x1 y2 x2, (y1 ≤ y / g.fv + 1 ∧ y / g.fv ≤ y1 + 1) ∧ (x1 ≤ x / g.fh + 1 ∧ x / g.fh ≤ x1 + 1) ∧
    (y2 ≤ y / g.fv + 1 ∧ y / g.fv ≤ y2 + 1) ∧ (x2 ≤ x / g.fh + 1 ∧ x / g.fh ≤ x2 + 1) ∧
    g.value f i y1 x1 ≤ b.toNat ∧ (b.toNat : Int) ≤ g.value f i y2 x2

theorem block_small (f : IdctFn) (block : List I16) (qt : List Nat) :
    ∀ r ∈ f.block block qt, ∀ x ∈ r, -8192 ≤ x.toInt ∧ x.toInt ≤ 8191 := by
  have hs : ∀ x : I16, IsSample x → -8192 ≤ x.toInt ∧ x.toInt ≤ 8191 := by
    intro x hx
    unfold IsSample at hx
    omega
  cases f with
  | avx2 => exact fun r hr x hx => hs x (isSample_avx block qt r hr x hx)
  | scalar =>
    show ∀ r ∈ idctBlockScalar block qt, _
    by_cases hf : Flat block
    · rw [idctBlockScalar_eq, if_pos ((acZero_iff block).2 hf)]
      intro r hr x hx
      rw [List.eq_of_mem_replicate hr] at hx
      rw [List.eq_of_mem_replicate hx, toInt_dcValue]
      have h1 := Int.le_bmod (x := dcOf block qt) (m := 65536) (by decide)
      have h2 := Int.bmod_lt (x := dcOf block qt) (m := 65536) (by decide)
      omega
    · exact fun r hr x hx => hs x ((isSample_scalar block qt).2 (fun h => absurd h hf) r hr x hx)

theorem value_small (g : ColourJpeg) (f : IdctFn) (i y x : Nat) :
    -8192 ≤ g.value f i y x ∧ g.value f i y x ≤ 8191 := by
  unfold ColourJpeg.value ColourJpeg.sample unitSample
  have h := block_small f (coded (g.blocks (y / 8 / (colourShape g.fh g.fv i).1 * mcuCols g.width g.fh +
    x / 8 / (colourShape g.fh g.fv i).2) i (y / 8 % (colourShape g.fh g.fv i).1)
      (x / 8 % (colourShape g.fh g.fv i).2))) (naturalQuant (g.quantOf i))
  generalize f.block _ _ = rows at h ⊢
  unfold Zune.sample
  cases h1 : rows[y % 8]? with
  | none => rw [Option.bind_none]; decide
  | some r =>
    cases h2 : r[x % 8]? with
    | none => rw [Option.bind_some, h2]; decide
    | some v =>
      rw [Option.bind_some, h2]
      exact h r (List.mem_of_getElem? h1) v (List.mem_of_getElem? h2)

theorem lowByte_toNat (s : I16) : ((lowByte s).toNat : Int) = s.toInt % 256 := by
  unfold lowByte
  rw [UInt8.toNat_ofNat']
  omega

/-- Entry `p` of chroma strip `t`. -/
theorem chroma_at {f : IdctFn} {t i p : Nat} (hi : i ≠ 0)
    (hp : p < 8 * g.fh * (8 * mcuCols g.width g.fh)) :
    at0 (stripPlane f (fun i => naturalQuant (g.quantOf i)) g.width g.fh g.fv g.blocks t i) p =
      g.sample f i (t * (8 * g.fh) + p / (8 * mcuCols g.width g.fh)) (p % (8 * mcuCols g.width g.fh)) := by
  have e1 : colourShape g.fh g.fv i = (1, 1) := if_neg hi
  have e2 : stripRows g.fh g.fv i = 8 * g.fh := by
    unfold stripRows
    rw [e1]
    show 8 * (g.fh * 1) = _
    rw [Nat.mul_one]
  rw [stripPlane_at (by rw [e1, e2]; show p < _ * (8 * (1 * _)); rw [Nat.one_mul]; exact hp), e2]
  unfold ColourJpeg.sample
  rw [e1]
  show unitSample _ _ _ _ _ _ (_ + p / (8 * (1 * _))) (p % (8 * (1 * _))) = _
  rw [Nat.one_mul]

theorem tri_value {f : IdctFn} {i y1 x1 y2 x2 : Nat} :
    (tri (g.sample f i y1 x1) (g.sample f i y2 x2)).toInt = mix (g.value f i y1 x1) (g.value f i y2 x2) :=
  tri_toInt (value_small g f i y1 x1) (value_small g f i y2 x2)


/-- What the output holds of a chroma component with fewer samples than pixels: the upsampled strips. -/
theorem chroma_file (V : g.Valid) (hsub : ¬ (g.fh = 1 ∧ g.fv = 1)) (cpu : Cpu) (o : Options)
    (hw : g.width ≤ o.getMaxWidth) (hh : g.height ≤ o.getMaxHeight) (hout : o.getOutColorspace = .ycbcr) :
    ∃ out, ((Decoder.newWithOptions cpu o).decodeBuffer g.bytes).1 = .ok out ∧
      ∀ y x i f, f = chooseIdct cpu o.getUseUnsafe → y < g.height → x < g.width → g.Row y → i = 1 ∨ i = 2 →
        ∃ b p q r u, out[3 * (y * g.width + x) + i]? = some b ∧
          Sampling cpu o.useUnsafe g.fh g.fv r u ∧ p.length = 8 * g.fh * (8 * mcuCols g.width g.fh) ∧
          u.run p (8 * (g.fh * g.fv) * (8 * (g.fh * mcuCols g.width g.fh))) = .ok q ∧
          (b.toNat : Int) = (at0 q (y % (8 * (g.fh * g.fv)) * (8 * (g.fh * mcuCols g.width g.fh)) + x)).toInt
            % 256 ∧
          ∀ k c, k < 8 * g.fh → c < 8 * mcuCols g.width g.fh → at0 p (k * (8 * mcuCols g.width g.fh) + c) =
            g.sample f i (y / (8 * (g.fh * g.fv)) * (8 * g.fh) + k) c := by
  obtain ⟨out, full, h1, h2, h3, h4⟩ := colour_file V cpu o hw hh hout
  refine ⟨out, h1, fun y x i f hf hy hx hrow hi => ?_⟩
  obtain ⟨-, fi⟩ := h3 (y / (8 * (g.fh * g.fv)))
  rcases (fi i hi).2 with ⟨a, b, -⟩ | ⟨r, u, hs, hrun⟩
  · exact absurd ⟨a, b⟩ hsub
  rw [← hf] at hrun
  refine ⟨_, _, _, r, u, h4 y x i hy hx (by omega), hs, ?_, hrun, ?_, ?_⟩
  · rw [stripPlane_length]
    unfold stripRows colourShape
    rw [if_neg (by omega)]
    ring
  · rw [if_pos hrow, lowByte_toNat]
  · intro k c hk hc
    have hlt : k * (8 * mcuCols g.width g.fh) + c < 8 * g.fh * (8 * mcuCols g.width g.fh) := by
      calc _ < k * (8 * mcuCols g.width g.fh) + 8 * mcuCols g.width g.fh := by omega
        _ = (k + 1) * (8 * mcuCols g.width g.fh) := by ring
        _ ≤ _ := Nat.mul_le_mul_right _ hk
    rw [chroma_at (by omega) hlt, Nat.mul_comm k, Nat.mul_add_div (by omega), Nat.div_eq_of_lt hc,
      Nat.mul_add_mod, Nat.mod_eq_of_lt hc, Nat.add_zero]

theorem at0_of_get {l : List I16} {p : Nat} {v : I16} (h : l[p]? = some v) : at0 l p = v := by
  unfold at0
  rw [List.getD_eq_getElem?_getD, h]
  rfl

/-- The chroma row with which row `k` is mixed: the next one, but the first and the last of each eight
rows are only copied. -/
def Spec.mate (k : Nat) : Nat := if k % 8 = 0 ∨ k % 8 = 7 then k else k + 1

theorem mate_eq {t k : Nat} (hk : k < 8) : 8 * t + farRow k = mate (8 * t + k) := by
  unfold farRow mate
  rw [show (8 * t + k) % 8 = k by omega]
  by_cases h0 : k = 0
  · rw [if_pos h0, if_pos (Or.inl h0)]; omega
  · by_cases h7 : k = 7
    · rw [if_neg h0, if_pos (Or.inr h7), h7]; omega
    · rw [if_neg h0, if_neg (by omega)]; omega

/-- **C59, half vertical resolution.** Chroma row `k` and its mate give the output rows `2k` and
`2k + 1`: three parts of the one and one part of the other. -/
theorem c59_vertical_partial (V : g.Valid) (e1 : g.fh = 1) (e2 : g.fv = 2) (cpu : Cpu) (o : Options)
    (hw : g.width ≤ o.getMaxWidth) (hh : g.height ≤ o.getMaxHeight) (hout : o.getOutColorspace = .ycbcr) :
    ∃ out, ((Decoder.newWithOptions cpu o).decodeBuffer g.bytes).1 = .ok out ∧
      ∀ y x i f, f = chooseIdct cpu o.getUseUnsafe → y < g.height → x < g.width → i = 1 ∨ i = 2 →
        ∃ b, out[3 * (y * g.width + x) + i]? = some b ∧
          (b.toNat : Int) = (if y % 2 = 0 then mix (g.value f i (y / 2) x) (g.value f i (mate (y / 2)) x)
            else mix (g.value f i (mate (y / 2)) x) (g.value f i (y / 2) x)) % 256 := by
  obtain ⟨out, h1, h2⟩ := chroma_file V (by omega) cpu o hw hh hout
  refine ⟨out, h1, fun y x i f hf hy hx hi => ?_⟩
  obtain ⟨b, p, q, r, u, hb, hs, hlen, hrun, hval, hrow⟩ := h2 y x i f hf hy hx (row_all V e1 hy) hi
  refine ⟨b, hb, ?_⟩
  have hc := cols_pos V
  have hX : 0 < mcuCols g.width g.fh := hc.1
  have hu : u = .vertical := by
    rcases hs with ⟨a, b, -⟩ | ⟨a, b, -, rfl⟩ | ⟨a, b, -⟩
    · omega
    · rfl
    · omega
  subst hu
  rw [e1, Nat.mul_one] at hlen
  obtain ⟨v, hv1, hv2, hv3⟩ := vertical_get (input := p) (s := 8 * mcuCols g.width 1) (by rw [e1] at hX; omega) hlen
  have hn : 8 * (g.fh * g.fv) * (8 * (g.fh * mcuCols g.width g.fh)) = 2 * p.length := by
    rw [hlen, e1, e2]; ring
  rw [hn] at hrun
  have hvf : v = q := by
    have : Out.ok v = Out.ok q := hv1.symm.trans hrun
    cases this
    rfl
  subst hvf
  have hwx : x < 8 * mcuCols g.width 1 := by
    have := hc.2
    rw [e1] at this
    omega
  have hget := at0_of_get (hv3 (y % 16 / 2) (y % 2) x (by omega) (by omega) hwx)
  rw [hval, e1, e2]
  rw [show y % (8 * (1 * 2)) * (8 * (1 * mcuCols g.width 1)) + x =
      (2 * (y % 16 / 2) + y % 2) * (8 * mcuCols g.width 1) + x by
    rw [show 2 * (y % 16 / 2) + y % 2 = y % (8 * (1 * 2)) by omega, Nat.one_mul (mcuCols g.width 1)], hget]
  rw [e1, e2] at hrow
  have hr : ∀ k, k < 8 → at0 p (k * (8 * mcuCols g.width 1) + x) = g.sample f i (8 * (y / 16) + k) x := by
    intro k hk
    rw [hrow k x (by omega) hwx]
    congr 1
    omega
  unfold verticalAt
  rw [hr _ (by omega), hr _ farRow_lt, mate_eq (by omega), show 8 * (y / 16) + y % 16 / 2 = y / 2 by omega]
  split
  · rw [tri_value]
  · rw [tri_value]

/-- **C59, half horizontal resolution.** Away from the ends of a row, chroma column `k` gives the output
columns `2k` and `2k + 1`: three parts of it and one part of the column to the left or to the right of it,
of the same row. -/
theorem c59_horizontal_partial (V : g.Valid) (e1 : g.fh = 2) (e2 : g.fv = 1) (cpu : Cpu) (o : Options)
    (hw : g.width ≤ o.getMaxWidth) (hh : g.height ≤ o.getMaxHeight) (hout : o.getOutColorspace = .ycbcr) :
    ∃ out, ((Decoder.newWithOptions cpu o).decodeBuffer g.bytes).1 = .ok out ∧
      ∀ y x i f, f = chooseIdct cpu o.getUseUnsafe → y < g.height → x < g.width → i = 1 ∨ i = 2 →
        g.Row y → 0 < x → x + 5 < 16 * mcuCols g.width 2 →
        ∃ b, out[3 * (y * g.width + x) + i]? = some b ∧
          (b.toNat : Int) = mix (g.value f i y (x / 2))
            (g.value f i y (if x % 2 = 0 then x / 2 - 1 else x / 2 + 1)) % 256 := by
  obtain ⟨out, h1, h2⟩ := chroma_file V (by omega) cpu o hw hh hout
  refine ⟨out, h1, fun y x i f hf hy hx hi hry h0 h5 => ?_⟩
  obtain ⟨b, p, q, r, u, hb, hs, hlen, hrun, hval, hrow⟩ := h2 y x i f hf hy hx hry hi
  refine ⟨b, hb, ?_⟩
  have hc := cols_pos V
  have hX : 0 < mcuCols g.width g.fh := hc.1
  rw [e1] at hlen hX
  rw [e1, e2] at hrow hrun
  obtain ⟨X, hXe⟩ : ∃ X, X = mcuCols g.width 2 := ⟨_, rfl⟩
  rw [← hXe] at hlen hX hrow hrun h5
  have hlt : y % 16 * (16 * X) + 16 * X ≤ 16 * (16 * X) := by
    calc _ = (y % 16 + 1) * (16 * X) := by ring
      _ ≤ _ := Nat.mul_le_mul_right _ (by omega)
  have hn : 8 * (2 * 1) * (8 * (2 * X)) = 2 * p.length := by rw [hlen]; ring
  rw [hn] at hrun
  have hidx : y % (8 * (2 * 1)) * (8 * (2 * X)) + x = y % 16 * (16 * X) + x := by
    rw [show 8 * (2 * X) = 16 * X by ring]
  have hget : at0 q (y % 16 * (16 * X) + x) = horizontalAt p (y % 16 * (16 * X) + x) := by
    rcases hs with ⟨-, -, -, rfl⟩ | ⟨a, b, -⟩ | ⟨a, b, -⟩
    · unfold chooseHorizontal at hrun
      split at hrun
      · obtain ⟨v, hv1, hv2, hv3⟩ := sse_get (input := p) (by omega) (by omega)
        have : Out.ok v = Out.ok q := hv1.symm.trans hrun
        cases this
        rw [at0_of_get (hv3 _ (by omega))]
        unfold sseAt
        dsimp only
        rw [if_neg (by omega), if_neg (by omega), if_neg (by omega)]
      · obtain ⟨v, hv1, hv2, hv3⟩ := horizontal_get (input := p) (by omega)
        have : Out.ok v = Out.ok q := hv1.symm.trans hrun
        cases this
        exact at0_of_get (hv3 _ (by omega))
    · omega
    · omega
  rw [hval, e1, e2, ← hXe, hidx, hget]
  have hr : ∀ c, c < 8 * X → at0 p (y % 16 * (8 * X) + c) = g.sample f i y c := by
    intro c hc
    rw [hrow (y % 16) c (by omega) hc]
    congr 1
    omega
  have hd : (y % 16 * (16 * X) + x) / 2 = y % 16 * (8 * X) + x / 2 := by
    rw [show y % 16 * (16 * X) = 2 * (y % 16 * (8 * X)) by ring]
    omega
  have hm : (y % 16 * (16 * X) + x) % 2 = x % 2 := by
    rw [show y % 16 * (16 * X) = 2 * (y % 16 * (8 * X)) by ring]
    omega
  by_cases hpar : x % 2 = 0
  · rw [if_pos hpar, horizontalAt_even (by omega) (by omega) (by omega), hd,
      show y % 16 * (8 * X) + x / 2 - 1 = y % 16 * (8 * X) + (x / 2 - 1) by omega, hr _ (by omega),
      hr _ (by omega), tri_value]
  · rw [if_neg hpar, horizontalAt_odd (by omega) (by omega), hd, Nat.add_assoc, hr _ (by omega),
      hr _ (by omega), tri_value]

/-- **C59, the first column.** With half horizontal resolution the first pixel of a row, unless it is the
first row of 16, is mixed with the last chroma sample of the row before. -/
theorem c59_first_column_partial (V : g.Valid) (e1 : g.fh = 2) (e2 : g.fv = 1) (cpu : Cpu) (o : Options)
    (hw : g.width ≤ o.getMaxWidth) (hh : g.height ≤ o.getMaxHeight) (hout : o.getOutColorspace = .ycbcr) :
    ∃ out, ((Decoder.newWithOptions cpu o).decodeBuffer g.bytes).1 = .ok out ∧
      ∀ y i f, f = chooseIdct cpu o.getUseUnsafe → y < g.height → i = 1 ∨ i = 2 → g.Row y →
        ∃ b, out[3 * (y * g.width) + i]? = some b ∧
          (b.toNat : Int) = (if y % 16 = 0 then g.value f i y 0
            else mix (g.value f i y 0) (g.value f i (y - 1) (8 * mcuCols g.width 2 - 1))) % 256 := by
  obtain ⟨out, h1, h2⟩ := chroma_file V (by omega) cpu o hw hh hout
  refine ⟨out, h1, fun y i f hf hy hi hry => ?_⟩
  obtain ⟨b, p, q, r, u, hb, hs, hlen, hrun, hval, hrow⟩ := h2 y 0 i f hf hy V.w0 hry hi
  refine ⟨b, hb, ?_⟩
  have hc := cols_pos V
  have hX : 0 < mcuCols g.width g.fh := hc.1
  rw [e1] at hlen hX
  rw [e1, e2] at hrow hrun
  obtain ⟨X, hXe⟩ : ∃ X, X = mcuCols g.width 2 := ⟨_, rfl⟩
  rw [← hXe] at hlen hX hrow hrun ⊢
  have hlt : y % 16 * (16 * X) + 16 * X ≤ 16 * (16 * X) := by
    calc _ = (y % 16 + 1) * (16 * X) := by ring
      _ ≤ _ := Nat.mul_le_mul_right _ (by omega)
  have hn : 8 * (2 * 1) * (8 * (2 * X)) = 2 * p.length := by rw [hlen]; ring
  rw [hn] at hrun
  have hidx : y % (8 * (2 * 1)) * (8 * (2 * X)) + 0 = y % 16 * (16 * X) := by
    rw [show 8 * (2 * X) = 16 * X by ring]
    rfl
  have hget : at0 q (y % 16 * (16 * X)) = horizontalAt p (y % 16 * (16 * X)) := by
    rcases hs with ⟨-, -, -, rfl⟩ | ⟨a, b, -⟩ | ⟨a, b, -⟩
    · unfold chooseHorizontal at hrun
      split at hrun
      · obtain ⟨v, hv1, hv2, hv3⟩ := sse_get (input := p) (by omega) (by omega)
        have : Out.ok v = Out.ok q := hv1.symm.trans hrun
        cases this
        rw [at0_of_get (hv3 _ (by omega))]
        unfold sseAt
        dsimp only
        rw [if_neg (by omega), if_neg (by omega), if_neg (by omega)]
      · obtain ⟨v, hv1, hv2, hv3⟩ := horizontal_get (input := p) (by omega)
        have : Out.ok v = Out.ok q := hv1.symm.trans hrun
        cases this
        exact at0_of_get (hv3 _ (by omega))
    · omega
    · omega
  rw [hval, e1, e2, ← hXe, hidx, hget]
  by_cases h0 : y % 16 = 0
  · rw [if_pos h0, h0, Nat.zero_mul]
    unfold horizontalAt
    rw [if_pos rfl]
    have := hrow 0 0 (by omega) (by omega)
    rw [Nat.zero_mul] at this
    rw [this]
    unfold ColourJpeg.value
    rw [show y / (8 * (2 * 1)) * (8 * 2) + 0 = y by omega]
  · have hd : y % 16 * (16 * X) / 2 = y % 16 * (8 * X) + 0 := by
      rw [show y % 16 * (16 * X) = 2 * (y % 16 * (8 * X)) by ring]
      omega
    have hm : y % 16 * (16 * X) % 2 = 0 := by
      rw [show y % 16 * (16 * X) = 2 * (y % 16 * (8 * X)) by ring]
      omega
    have hpos : 0 < y % 16 * (16 * X) := Nat.mul_pos (by omega) (by omega)
    have hprev : y % 16 * (8 * X) + 0 - 1 = (y % 16 - 1) * (8 * X) + (8 * X - 1) := by
      obtain ⟨k, hk⟩ : ∃ k, y % 16 = k + 1 := ⟨y % 16 - 1, by omega⟩
      rw [hk, Nat.add_sub_cancel, Nat.add_mul]
      omega
    rw [if_neg h0, horizontalAt_even hpos (by omega) hm, hd, hprev, hrow _ _ (by omega) (by omega),
      hrow _ _ (by omega) (by omega), tri_value,
      show y / (8 * (2 * 1)) * (8 * 2) + y % 16 = y by omega,
      show y / (8 * (2 * 1)) * (8 * 2) + (y % 16 - 1) = y - 1 by omega]

/-- The pixels of an image with half resolution in both directions whose chroma values
`c59_both_partial` describes: those away from the ends of the row, and, if the row has at least four MCUs
and AVX2 is used, away from the joints of the vectors. -/
def Spec.InsideRow (avx : Bool) (cols y x : Nat) : Prop :=
  0 < x ∧ x + 2 < 16 * cols ∧
    (avx = true → 4 ≤ cols → Interior (32 * cols) (y % 2 * (16 * cols) + x))

/-- Vertical interpolation of the images with half resolution in both directions, for output row `y` and
chroma column `c`. The two rows that are mixed are two rows apart, and belong to output rows around
`y - y % 4 + 2 * (y % 2)`, not around `y`. -/
def Spec.ColourJpeg.vert (g : ColourJpeg) (f : IdctFn) (i y c : Nat) : Int :=
  if y / 2 % 2 = 0 then mix (g.value f i (2 * (y / 4) + y % 2) c) (g.value f i (2 * mate (y / 4) + y % 2) c)
  else mix (g.value f i (2 * mate (y / 4) + y % 2) c) (g.value f i (2 * (y / 4) + y % 2) c)

/-- **C59, half resolution in both directions.** Away from the ends of a row, three parts of the vertical
interpolation in column `x / 2` and one part of that in the column to the left or to the right of it. -/
theorem c59_both_partial (V : g.Valid) (e1 : g.fh = 2) (e2 : g.fv = 2) (cpu : Cpu) (o : Options)
    (hw : g.width ≤ o.getMaxWidth) (hh : g.height ≤ o.getMaxHeight) (hout : o.getOutColorspace = .ycbcr) :
    ∃ out, ((Decoder.newWithOptions cpu o).decodeBuffer g.bytes).1 = .ok out ∧
      ∀ y x i f, f = chooseIdct cpu o.getUseUnsafe → y < g.height → x < g.width → i = 1 ∨ i = 2 →
        g.Row y → InsideRow (o.getUseUnsafe && cpu.avx2) (mcuCols g.width 2) y x →
        ∃ b, out[3 * (y * g.width + x) + i]? = some b ∧
          (b.toNat : Int) = mix (g.vert f i y (x / 2))
            (g.vert f i y (if x % 2 = 0 then x / 2 - 1 else x / 2 + 1)) % 256 := by
  obtain ⟨out, h1, h2⟩ := chroma_file V (by omega) cpu o hw hh hout
  refine ⟨out, h1, fun y x i f hf hy hx hi hry hin => ?_⟩
  obtain ⟨b, p, q, r, u, hb, hs, hlen, hrun, hval, hrow⟩ := h2 y x i f hf hy hx hry hi
  refine ⟨b, hb, ?_⟩
  have hc := cols_pos V
  have hX : 0 < mcuCols g.width g.fh := hc.1
  rw [e1] at hlen hX
  rw [e1, e2] at hrow hrun
  obtain ⟨X, hXe⟩ : ∃ X, X = mcuCols g.width 2 := ⟨_, rfl⟩
  rw [← hXe] at hlen hX hrow hrun hin
  have hn : 8 * (2 * 2) * (8 * (2 * X)) = 4 * p.length := by rw [hlen]; ring
  rw [hn] at hrun
  obtain ⟨j, hj⟩ : ∃ j, j = y % 32 / 4 := ⟨_, rfl⟩
  obtain ⟨e, he⟩ : ∃ e, e = y / 2 % 2 := ⟨_, rfl⟩
  obtain ⟨x', hx'⟩ : ∃ x', x' = y % 2 * (16 * X) + x := ⟨_, rfl⟩
  have hhalf : y % 2 * (16 * X) = 0 ∨ y % 2 * (16 * X) = 16 * X := by
    have : y % 2 = 0 ∨ y % 2 = 1 := by omega
    rcases this with a | a <;> rw [a] <;> omega
  have hidx : y % (8 * (2 * 2)) * (8 * (2 * X)) + x = (2 * j + e) * (2 * (16 * X)) + x' := by
    rw [hx', show y % (8 * (2 * 2)) = 2 * (2 * j + e) + y % 2 by omega]
    ring
  have hget : at0 q ((2 * j + e) * (2 * (16 * X)) + x') = hvAt p (16 * X) j e x' := by
    have hsc : ∀ q, upsampleHv p (4 * p.length) = .ok q →
        at0 q ((2 * j + e) * (2 * (16 * X)) + x') = hvAt p (16 * X) j e x' := by
      intro q hq
      obtain ⟨v, hv1, hv2, hv3⟩ := hvScalar_get (input := p) (s := 16 * X) (by omega) (by omega)
      have : Out.ok v = Out.ok q := hv1.symm.trans hq
      cases this
      exact at0_of_get (hv3 j e x' (by omega) (by omega) (by have := hin.1; omega) (by have := hin.2.1; omega))
    rcases hs with ⟨a, b, -⟩ | ⟨a, b, -⟩ | ⟨-, -, -, rfl⟩
    · omega
    · omega
    · unfold chooseHv at hrun
      split at hrun
      next hav =>
        by_cases h4 : X < 4
        · refine hsc q ?_
          rw [← hrun]
          exact ((c54_hv_partial (input := p) (q := X) (by omega)).1 h4).symm
        · obtain ⟨v, hv1, hv2, hv3⟩ := hvAvx_get (input := p) (q := X) (by omega) (by omega)
          have e' : upsampleHvSimd p (4 * p.length) = .ok q := hrun
          unfold upsampleHvSimd at e'
          rw [if_neg (by omega)] at e'
          have : Out.ok v = Out.ok q := hv1.symm.trans e'
          cases this
          refine at0_of_get (hv3 j e x' (by omega) (by omega) ?_)
          rw [show 2 * (16 * X) = 32 * X by ring, hx']
          exact hin.2.2 hav (by omega)
      next => exact hsc q hrun
  rw [hval, e1, e2, ← hXe, hidx, hget]
  have hr : ∀ k c, k < 8 → c < 8 * X → at0 p (k * (16 * X) + (y % 2 * (8 * X) + c)) =
      g.sample f i (2 * (8 * (y / 32) + k) + y % 2) c := by
    intro k c hk hc
    rw [show k * (16 * X) + (y % 2 * (8 * X) + c) = (2 * k + y % 2) * (8 * X) + c by ring,
      hrow (2 * k + y % 2) c (by omega) hc]
    congr 1
    omega
  have hvt : ∀ c, c < 8 * X → (verticalAt p (16 * X) j e (y % 2 * (8 * X) + c)).toInt = g.vert f i y c := by
    intro c hc
    unfold verticalAt ColourJpeg.vert
    rw [hr _ _ (by omega) hc, hr _ _ farRow_lt hc, mate_eq (by omega), ← he,
      show 8 * (y / 32) + j = y / 4 by omega]
    split
    · rw [tri_value]
    · rw [tri_value]
  have hsm : ∀ c, -8192 ≤ g.vert f i y c ∧ g.vert f i y c ≤ 8191 := by
    intro c
    unfold ColourJpeg.vert
    have a1 := value_small g f i (2 * (y / 4) + y % 2) c
    have a2 := value_small g f i (2 * mate (y / 4) + y % 2) c
    unfold mix
    split <;> omega
  have hd : x' / 2 = y % 2 * (8 * X) + x / 2 := by
    rw [hx', show y % 2 * (16 * X) = 2 * (y % 2 * (8 * X)) by ring]
    omega
  have hm : x' % 2 = x % 2 := by
    rw [hx', show y % 2 * (16 * X) = 2 * (y % 2 * (8 * X)) by ring]
    omega
  obtain ⟨in1, in2, -⟩ := hin
  have htri : ∀ c1 c2, c1 < 8 * X → c2 < 8 * X →
      (tri (verticalAt p (16 * X) j e (y % 2 * (8 * X) + c1))
        (verticalAt p (16 * X) j e (y % 2 * (8 * X) + c2))).toInt = mix (g.vert f i y c1) (g.vert f i y c2) := by
    intro c1 c2 hc1 hc2
    rw [tri_toInt, hvt _ hc1, hvt _ hc2]
    · rw [hvt _ hc1]; exact hsm _
    · rw [hvt _ hc2]; exact hsm _
  unfold hvAt
  rw [hm, hd]
  by_cases hpar : x % 2 = 0
  · rw [if_pos hpar, if_pos hpar, show y % 2 * (8 * X) + x / 2 - 1 = y % 2 * (8 * X) + (x / 2 - 1) by omega,
      htri _ _ (by omega) (by omega)]
  · rw [if_neg hpar, if_neg hpar, Nat.add_assoc, htri _ _ (by omega) (by omega)]

/-- The samples of a component are bytes. -/
def Spec.ColourJpeg.Bytes (g : ColourJpeg) (f : IdctFn) (i : Nat) : Prop :=
  ∀ y x, 0 ≤ g.value f i y x ∧ g.value f i y x ≤ 255

theorem mix_in_place {f : IdctFn} {i y x y1 x1 y2 x2 : Nat} {b : UInt8} (hb : g.Bytes f i)
    (h1 : (y1 ≤ y / g.fv + 1 ∧ y / g.fv ≤ y1 + 1) ∧ (x1 ≤ x / g.fh + 1 ∧ x / g.fh ≤ x1 + 1))
    (h2 : (y2 ≤ y / g.fv + 1 ∧ y / g.fv ≤ y2 + 1) ∧ (x2 ≤ x / g.fh + 1 ∧ x / g.fh ≤ x2 + 1))
    (h : (b.toNat : Int) = mix (g.value f i y1 x1) (g.value f i y2 x2) % 256) : g.InPlace f i y x b := by
  have a1 := hb y1 x1
  have a2 := hb y2 x2
  have e : (b.toNat : Int) = mix (g.value f i y1 x1) (g.value f i y2 x2) := by
    rw [h]
    unfold mix
    omega
  have hm := mix_between (g.value f i y1 x1) (g.value f i y2 x2)
  rw [← e] at hm
  by_cases hle : g.value f i y1 x1 ≤ g.value f i y2 x2
  · exact ⟨y1, x1, y2, x2, h1.1, h1.2, h2.1, h2.2, by omega, by omega⟩
  · exact ⟨y2, x2, y1, x1, h2.1, h2.2, h1.1, h1.2, by omega, by omega⟩

/-- **C59**, for images with half vertical or half horizontal resolution: the chroma values of a pixel lie
between two samples at most one row and one column away from the one that covers the pixel. Missing: the
ends of the rows with half horizontal resolution and the images with half resolution in both directions,
of which it is false (`c59_false_start`, `c59_false_rows`). -/
theorem c59_in_place_partial (V : g.Valid) (hs : (g.fh = 1 ∧ g.fv = 2) ∨ (g.fh = 2 ∧ g.fv = 1)) (cpu : Cpu)
    (o : Options) (hw : g.width ≤ o.getMaxWidth) (hh : g.height ≤ o.getMaxHeight)
    (hout : o.getOutColorspace = .ycbcr) :
    ∃ out, ((Decoder.newWithOptions cpu o).decodeBuffer g.bytes).1 = .ok out ∧
      ∀ y x i f, f = chooseIdct cpu o.getUseUnsafe → y < g.height → x < g.width → i = 1 ∨ i = 2 →
        g.Bytes f i → g.Row y → (g.fh = 2 → 0 < x ∧ x + 5 < 16 * mcuCols g.width 2) →
        ∃ b, out[3 * (y * g.width + x) + i]? = some b ∧ g.InPlace f i y x b := by
  rcases hs with ⟨e1, e2⟩ | ⟨e1, e2⟩
  · obtain ⟨out, h1, h2⟩ := c59_vertical_partial V e1 e2 cpu o hw hh hout
    refine ⟨out, h1, fun y x i f hf hy hx hi hb _ _ => ?_⟩
    obtain ⟨b, hb1, hb2⟩ := h2 y x i f hf hy hx hi
    refine ⟨b, hb1, ?_⟩
    have hm : mate (y / 2) = y / 2 ∨ mate (y / 2) = y / 2 + 1 := by
      unfold mate
      split
      · exact Or.inl rfl
      · exact Or.inr rfl
    split at hb2
    · refine mix_in_place hb ?_ ?_ hb2 <;> rw [e1, e2] <;> omega
    · refine mix_in_place hb ?_ ?_ hb2 <;> rw [e1, e2] <;> omega
  · obtain ⟨out, h1, h2⟩ := c59_horizontal_partial V e1 e2 cpu o hw hh hout
    refine ⟨out, h1, fun y x i f hf hy hx hi hb hr hx2 => ?_⟩
    obtain ⟨h0, h5⟩ := hx2 e1
    obtain ⟨b, hb1, hb2⟩ := h2 y x i f hf hy hx hi hr h0 h5
    refine ⟨b, hb1, mix_in_place hb ?_ ?_ hb2⟩
    · rw [e1, e2]
      omega
    · rw [e1, e2]
      split <;> omega

/-! ### Examples -/

/-- Blocks with DC coefficients between 0 and 3 and at most one other coefficient. -/
def goodBlocks : List (List Int) :=
  [List.replicate 64 0, 1 :: List.replicate 63 0, 3 :: 1 :: List.replicate 62 0,
   1 :: 0 :: -1 :: List.replicate 61 0, 0 :: 1 :: List.replicate 62 0, 0 :: 0 :: 1 :: List.replicate 61 0]

/-- Tables of the examples. -/
def colourDc (luma : Bool) : HuffSpec :=
  ⟨[0, 3] ++ List.replicate 14 0, if luma then [0, 1, 2] else [2, 1, 0]⟩

@[inherit_doc colourDc]
def colourAc (luma : Bool) : HuffSpec :=
  if luma then ⟨[0, 3] ++ List.replicate 14 0, [0, 0x01, 0x11]⟩
  else ⟨[0, 2, 1] ++ List.replicate 13 0, [0x11, 0, 0x01]⟩

/-- Code words of the examples. -/
def colourDcWord (luma : Bool) (s : Nat) : List Bool :=
  if s = 1 then [false, true] else if (s == 0) = luma then [false, false] else [true, false]

@[inherit_doc colourDcWord]
def colourAcWord (luma : Bool) (s : Nat) : List Bool :=
  if luma then (if s = 0 then [false, false] else if s = 1 then [false, true] else [true, false])
  else if s = 0 then [false, true] else if s = 1 then [true, false, false] else [false, false]

@[inherit_doc colourDc]
def sampleCodes (luma : Bool) : Codes :=
  ⟨(colourDc luma).counts.map (·.toNat), (colourDc luma).symbols.map (·.toNat),
    (colourAc luma).counts.map (·.toNat), (colourAc luma).symbols.map (·.toNat), colourDcWord luma,
    colourAcWord luma⟩

/-- An image with different tables for luma and chroma. -/
def sampleColour (fh fv w h : Nat) (m : Nat → Nat → Nat → Nat → List Int) : ColourJpeg where
  width := w
  height := h
  fh := fh
  fv := fv
  quantY := List.replicate 64 16
  quantC := List.replicate 64 255
  dcY := colourDc true
  acY := colourAc true
  dcC := colourDc false
  acC := colourAc false
  dcWord := fun i => colourDcWord (i == 0)
  acWord := fun i => colourAcWord (i == 0)
  blocks := m
  fill := List.replicate 8 0
  trailer := [1, 2, 3]

theorem sampleColour_codes {fh fv w h : Nat} {m : Nat → Nat → Nat → Nat → List Int} (i : Nat) :
    (sampleColour fh fv w h m).codes i = sampleCodes (i == 0) := by
  cases i with
  | zero => rfl
  | succ n => rfl

theorem sampleCodes_block {luma : Bool} {pred : Int} {b : List Int} (hp : 0 ≤ pred ∧ pred ≤ 3)
    (hb : b ∈ goodBlocks) : (sampleCodes luma).Block pred b ∧
      (dcCode (sampleCodes luma).dcWord (dcOfBlock b - pred)).length ≤ 16 ∧
      0 ≤ dcOfBlock b ∧ dcOfBlock b ≤ 3 := by
  have key : ∀ l ∈ [true, false], ∀ b ∈ goodBlocks, ∀ q ∈ ([0, 1, 2, 3] : List Int),
      (b.length = 64 ∧ (∀ x ∈ b.tail, category x ≤ 15) ∧
      ((sampleCodes l).dcWord (category (dcOfBlock b - q)), category (dcOfBlock b - q)) ∈
        codeBook (sampleCodes l).dcCounts (sampleCodes l).dcValues ∧
      (∀ p ∈ acSymbols 0 b.tail, ((sampleCodes l).acWord p.1, p.1) ∈
        codeBook (sampleCodes l).acCounts (sampleCodes l).acValues) ∧
      ∀ p ∈ acSymbols 0 b.tail, 6 ≤ p.1 % 16 → 9 < ((sampleCodes l).acWord p.1).length + p.1 % 16) ∧
      (dcCode (sampleCodes l).dcWord (dcOfBlock b - q)).length ≤ 16 ∧
      0 ≤ dcOfBlock b ∧ dcOfBlock b ≤ 3 := by decide +kernel
  obtain ⟨⟨h1, h2, h3, h4, h5⟩, h6⟩ := key luma (by cases luma <;> simp) b hb pred (by
    simp only [List.mem_cons, List.not_mem_nil, or_false]
    omega)
  exact ⟨⟨h1, h2, h3, h4, h5⟩, h6⟩

theorem sampleColour_units {fh fv w h : Nat} {m : Nat → Nat → Nat → Nat → List Int} (us : List DataUnit)
    (p : Nat → Int) (hp : ∀ i, 0 ≤ p i ∧ p i ≤ 3) (hu : ∀ u ∈ us, u.2 ∈ goodBlocks) :
    UnitsOk (sampleColour fh fv w h m).codes p us := by
  induction us generalizing p with
  | nil => trivial
  | cons u us ih =>
    obtain ⟨h1, -, h2⟩ := sampleCodes_block (luma := u.1 == 0) (hp u.1) (hu u List.mem_cons_self)
    have hp' : ∀ i, 0 ≤ putPred p u.1 (dcOfBlock u.2) i ∧ putPred p u.1 (dcOfBlock u.2) i ≤ 3 := by
      intro i
      unfold putPred
      split
      · exact h2
      · exact hp i
    refine ⟨by rw [sampleColour_codes]; exact h1, fun u' hu' => Or.inl ?_,
      ih _ hp' fun v hv => hu v (List.mem_cons_of_mem _ hv)⟩
    unfold dcBits
    rw [sampleColour_codes]
    exact (sampleCodes_block (hp' u'.1) (hu u' (List.mem_cons_of_mem _ (List.mem_of_head? hu')))).2.1

theorem sampleColour_valid {fh fv w h : Nat} {m : Nat → Nat → Nat → Nat → List Int}
    (h1 : 0 < w ∧ w ≤ 65527) (h2 : 0 < h ∧ h ≤ 65527) (h3 : 0 < fh ∧ fh ≤ 2) (h4 : 0 < fv ∧ fv ≤ 2)
    (h5 : fv = 1 ∨ 7 * w ≤ 136 * h + 64) (hm : ∀ k i a b, m k i a b ∈ goodBlocks) :
    (sampleColour fh fv w h m).Valid := by
  have hd : ∀ l : Bool, (colourDc l).Valid true := by
    intro l
    cases l
    · exact ⟨by decide, by decide, by decide, by unfold CodeExists; decide +kernel, fun _ => by decide⟩
    · exact ⟨by decide, by decide, by decide, by unfold CodeExists; decide +kernel, fun _ => by decide⟩
  have ha : ∀ l : Bool, (colourAc l).Valid false := by
    intro l
    cases l
    · exact ⟨by decide, by decide, by decide, by unfold CodeExists; decide +kernel, fun e => nomatch e⟩
    · exact ⟨by decide, by decide, by decide, by unfold CodeExists; decide +kernel, fun e => nomatch e⟩
  exact
  { w0 := h1.1
    h0 := h2.1
    wLe := h1.2
    hLe := h2.2
    fh := h3
    fv := h4
    fit := h5
    quantY := List.length_replicate
    quantC := List.length_replicate
    dcY := hd true
    acY := ha true
    dcC := hd false
    acC := ha false
    restart := by show 0 < 65536; omega
    data := by
      refine intervalsOk_all (r := 0) (fun k c => sampleColour_units _ _ (fun i => by decide) fun u hu => ?_)
        (fun k c => enough_of_fill (by show 8 ≤ (List.replicate 8 _).length; simp)) (by simp) _ _
        (intervalCounts_reg _ _)
      obtain ⟨k, i, a, b, rfl⟩ := mem_mcusUnits hu
      exact hm k i a b }

/-- An image with half horizontal resolution whose Cb samples get smaller from left to right. -/
def slopeX : ColourJpeg := sampleColour 2 1 16 16 fun _ i _ _ =>
  if i = 1 then 0 :: 1 :: List.replicate 62 0 else 1 :: List.replicate 63 0

/-- An image with half resolution in both directions whose Cb samples get smaller from top to bottom. -/
def slopeY : ColourJpeg := sampleColour 2 2 16 32 fun _ i _ _ =>
  if i = 1 then 0 :: 0 :: 1 :: List.replicate 61 0 else 1 :: List.replicate 63 0

theorem slopeX_valid : slopeX.Valid := by
  refine sampleColour_valid (by decide) (by decide) (by decide) (by decide) (by decide) fun _ i _ _ => ?_
  split <;> simp [goodBlocks]

theorem slopeY_valid : slopeY.Valid := by
  refine sampleColour_valid (by decide) (by decide) (by decide) (by decide) (by decide) fun _ i _ _ => ?_
  split <;> simp [goodBlocks]

theorem idctFn_mem (f : IdctFn) : f ∈ [IdctFn.scalar, .avx2] := by cases f <;> simp

theorem slopeX_value (f : IdctFn) (y x : Nat) :
    slopeX.value f 1 y x = [172, 165, 153, 137, 119, 103, 91, 84].getD (x % 8) 0 := by
  have key : ∀ f ∈ [IdctFn.scalar, .avx2], ∀ a < 8, ∀ b < 8,
      (((f.block (coded (0 :: 1 :: List.replicate 62 0)) (naturalQuant (List.replicate 64 255)))[a]?.bind
        (·[b]?)).getD 0).toInt = [172, 165, 153, 137, 119, 103, 91, 84].getD b 0 := by decide +kernel
  exact key f (idctFn_mem f) (y % 8) (by omega) (x % 8) (by omega)

theorem slopeY_value (f : IdctFn) (y x : Nat) :
    slopeY.value f 1 y x = [172, 165, 153, 137, 119, 103, 91, 84].getD (y % 8) 0 := by
  have key : ∀ f ∈ [IdctFn.scalar, .avx2], ∀ a < 8, ∀ b < 8,
      (((f.block (coded (0 :: 0 :: 1 :: List.replicate 61 0)) (naturalQuant (List.replicate 64 255)))[a]?.bind
        (·[b]?)).getD 0).toInt = [172, 165, 153, 137, 119, 103, 91, 84].getD a 0 := by decide +kernel
  exact key f (idctFn_mem f) (y % 8) (by omega) (x % 8) (by omega)

theorem slope_bytes {k : Nat} :
    0 ≤ ([172, 165, 153, 137, 119, 103, 91, 84] : List Int).getD (k % 8) 0 ∧
      ([172, 165, 153, 137, 119, 103, 91, 84] : List Int).getD (k % 8) 0 ≤ 255 := by
  have : ∀ j < 8, 0 ≤ ([172, 165, 153, 137, 119, 103, 91, 84] : List Int).getD j 0 ∧
      ([172, 165, 153, 137, 119, 103, 91, 84] : List Int).getD j 0 ≤ 255 := by decide
  exact this _ (by omega)

/-- **C59 is false at the start of rows** with half horizontal resolution: in `slopeX` the first pixel of
the second row is darker than all chroma samples around it, because the sample at the other end of the row
before is mixed in. -/
theorem c59_false_start : slopeX.Valid ∧ (∀ f, slopeX.Bytes f 1) ∧ ∀ cpu o, 16 ≤ Options.getMaxWidth o →
    16 ≤ o.getMaxHeight → o.getOutColorspace = .ycbcr →
    ∃ out b, ((Decoder.newWithOptions cpu o).decodeBuffer slopeX.bytes).1 = .ok out ∧
      out[3 * (1 * slopeX.width + 0) + 1]? = some b ∧ b = 150 ∧
      ¬ slopeX.InPlace (chooseIdct cpu o.getUseUnsafe) 1 1 0 b := by
  refine ⟨slopeX_valid, fun f y x => ?_, fun cpu o hw hh hout => ?_⟩
  · rw [slopeX_value]
    exact slope_bytes
  obtain ⟨out, h1, h2⟩ := c59_first_column_partial slopeX_valid rfl rfl cpu o hw hh hout
  obtain ⟨b, hb1, hb2⟩ := h2 1 1 _ rfl (by decide) (Or.inl rfl) (by decide)
  rw [slopeX_value, slopeX_value] at hb2
  have e : (b.toNat : Int) = 150 := hb2.trans (by decide)
  refine ⟨out, b, h1, hb1, UInt8.toNat_inj.1 (by show b.toNat = 150; omega), ?_⟩
  rintro ⟨y1, x1, y2, x2, -, hx1, -, -, hle, -⟩
  rw [slopeX_value, e] at hle
  have hx : x1 = 0 ∨ x1 = 1 := by
    have : x1 ≤ 0 / 2 + 1 := hx1.1
    omega
  rcases hx with rfl | rfl <;> revert hle <;> decide

/-- **C59 is false with half resolution in both directions**: in `slopeY` row 5 is darker than the chroma
rows 1, 2 and 3, because it is mixed from the rows 3 and 5. -/
theorem c59_false_rows : slopeY.Valid ∧ (∀ f, slopeY.Bytes f 1) ∧ ∀ cpu o, 16 ≤ Options.getMaxWidth o →
    32 ≤ o.getMaxHeight → o.getOutColorspace = .ycbcr →
    ∃ out b, ((Decoder.newWithOptions cpu o).decodeBuffer slopeY.bytes).1 = .ok out ∧
      out[3 * (5 * slopeY.width + 4) + 1]? = some b ∧ b = 129 ∧
      ¬ slopeY.InPlace (chooseIdct cpu o.getUseUnsafe) 1 5 4 b := by
  refine ⟨slopeY_valid, fun f y x => ?_, fun cpu o hw hh hout => ?_⟩
  · rw [slopeY_value]
    exact slope_bytes
  obtain ⟨out, h1, h2⟩ := c59_both_partial slopeY_valid rfl rfl cpu o hw hh hout
  obtain ⟨b, hb1, hb2⟩ := h2 5 4 1 _ rfl (by decide) (by decide) (Or.inl rfl) (by decide)
    ⟨by decide, by decide, fun _ h => absurd h (by decide)⟩
  unfold ColourJpeg.vert at hb2
  simp only [slopeY_value] at hb2
  have e : (b.toNat : Int) = 129 := hb2.trans (by decide)
  refine ⟨out, b, h1, hb1, UInt8.toNat_inj.1 (by show b.toNat = 129; omega), ?_⟩
  rintro ⟨y1, x1, y2, x2, hy1, -, -, -, hle, -⟩
  rw [slopeY_value, e] at hle
  have hy : y1 = 1 ∨ y1 = 2 ∨ y1 = 3 := by
    have : y1 ≤ 5 / 2 + 1 ∧ 5 / 2 ≤ y1 + 1 := hy1
    omega
  rcases hy with rfl | rfl | rfl <;> revert hle <;> decide

/-- The hypotheses of `c55_ycbcr_partial` and of the theorems of C59 hold for images of 40 x 24 pixels with
any of the four kinds of sampling. -/
example (fh fv : Nat) (h3 : 0 < fh ∧ fh ≤ 2) (h4 : 0 < fv ∧ fv ≤ 2) :
    (sampleColour fh fv 40 24 fun k i _ _ => goodBlocks.getD ((k + i) % 6) []).Valid :=
  sampleColour_valid (by decide) (by decide) h3 h4 (by omega) fun k i _ _ => by
    have hl : (k + i) % 6 < goodBlocks.length := by show _ < 6; omega
    rw [List.getD_eq_getElem?_getD, List.getElem?_eq_getElem hl]
    exact List.getElem_mem hl

end

end Zune
