import Verif.Props.RoundTrip
import Verif.Props.Locality
/-!
# Raising the DC coefficient does not make samples darker

C81.
-/

namespace Zune
open Spec

/-! ### Specification -/

/-- The data unit `b'` is `b` with a larger DC coefficient, of 16 bits. -/
structure Spec.Raised (b b' : List Int) : Prop where
  low : -32768 ≤ b.getD 0 0
  dc : b.getD 0 0 ≤ b'.getD 0 0
  high : b'.getD 0 0 ≤ 32767
  ac : ∀ k, k ≠ 0 → b.getD k 0 = b'.getD k 0

/-- The file `g'` is `g` with larger DC coefficients, coded in any way. -/
structure Spec.AllRaised (g g' : GrayJpeg) : Prop where
  width : g'.width = g.width
  height : g'.height = g.height
  quant : g'.quant = g.quant
  blocks : ∀ n, n < (g.height + 7) / 8 * ((g.width + 7) / 8) →
    Raised (g.intervals.flatten.getD n []) (g'.intervals.flatten.getD n [])

/-- **C81 (full statement).** If the DC coefficients of a grayscale file are raised, no pixel gets darker. -/
def Spec.NotDarker : Prop :=
  ∀ (cpu : Cpu) (o : Options) (g g' : GrayJpeg), g.Valid → g'.Valid → AllRaised g g' →
    g.width ≤ o.getMaxWidth → g.height ≤ o.getMaxHeight → 64 * ((g.width + 7) / 8) < 9 * g.width →
    ∃ out out', ((Decoder.newWithOptions cpu o).decodeBuffer g.bytes).1 = .ok out ∧
      ((Decoder.newWithOptions cpu o).decodeBuffer g'.bytes).1 = .ok out' ∧ out.length = out'.length ∧
      ∀ (p : Nat) (v v' : UInt8), out[p]? = some v → out'[p]? = some v' → v.toNat ≤ v'.toNat

/-! ### Blocks -/

theorem coefs_dc (k : Fin 8) : coefs k 0 = 4096 := by
  fin_cases k <;> rfl

theorem dot_mono {k : Fin 8} {v v' : Fin 8 → Int} (h0 : v 0 ≤ v' 0) (h : ∀ j, j ≠ 0 → v j = v' j) :
    dot (coefs k) v ≤ dot (coefs k) v' := by
  unfold dot
  refine Finset.sum_le_sum fun j _ => ?_
  by_cases hj : j = 0
  · rw [hj, coefs_dc]
    omega
  · rw [h j hj]

theorem twoPass_mono {m m' : Fin 8 → Fin 8 → Int} (h0 : m 0 0 ≤ m' 0 0)
    (h : ∀ i j, ¬ (i = 0 ∧ j = 0) → m i j = m' i j) (i j : Fin 8) : twoPass m i j ≤ twoPass m' i j := by
  unfold twoPass
  refine Int.ediv_le_ediv (by norm_num) ?_
  have := dot_mono (k := j) (v := fun k => (dot (coefs i) (fun l => m l k) + 512) / 1024)
    (v' := fun k => (dot (coefs i) (fun l => m' l k) + 512) / 1024)
    (Int.ediv_le_ediv (by norm_num) (by
      have := dot_mono (k := i) (v := fun l => m l 0) (v' := fun l => m' l 0) h0
        (fun l hl => h l 0 fun e => hl e.1)
      omega))
    (fun k hk => by
      have : (fun l => m l k) = fun l => m' l k := funext fun l => h l k fun e => hk e.2
      show (dot (coefs i) (fun l => m l k) + 512) / 1024 = _
      rw [this])
  omega

theorem sat_mono {a b : Int} (h : a ≤ b) : sat a ≤ sat b := by
  unfold sat
  omega

/-- The array `b'` is `b` with a larger first coefficient. -/
structure RaisedArray (b b' : List I16) : Prop where
  len : b.length = b'.length
  dc : (b.getD 0 0).toInt ≤ (b'.getD 0 0).toInt
  ac : ∀ k, k ≠ 0 → b.getD k 0 = b'.getD k 0

theorem Spec.Raised.coded {b b' : List Int} (h : Raised b b') : RaisedArray (coded b) (coded b') := by
  have get : ∀ (b : List Int) z, z < 64 → (Zune.coded b).getD z 0 = BitVec.ofInt 16 (b.getD (zigzag.idxOf z) 0) := by
    intro b z hz
    unfold Zune.coded naturalOrder
    rw [List.getD_eq_getElem?_getD, List.getElem?_map, List.getElem?_map, List.getElem?_range hz]
    rfl
  have hz0 : zigzag.idxOf 0 = 0 := by decide
  have hz : ∀ z, z < 64 → z ≠ 0 → zigzag.idxOf z ≠ 0 := by decide
  refine ⟨by rw [coded_length, coded_length], ?_, fun k hk => ?_⟩
  · rw [get _ _ (by decide), get _ _ (by decide), hz0]
    have h1 := h.low
    have h2 := h.dc
    have h3 := h.high
    generalize b.getD 0 0 = x at *
    generalize b'.getD 0 0 = x' at *
    rw [BitVec.toInt_ofInt_eq_self (by decide) (by norm_num; omega) (by norm_num; omega),
      BitVec.toInt_ofInt_eq_self (by decide) (by norm_num; omega) (by norm_num; omega)]
    exact h2
  · by_cases hk64 : k < 64
    · rw [get _ _ hk64, get _ _ hk64, h.ac _ (hz k hk64 hk)]
    · rw [List.getD_eq_getElem?_getD, List.getD_eq_getElem?_getD, List.getElem?_eq_none (by rw [coded_length]; omega),
        List.getElem?_eq_none (by rw [coded_length]; omega)]

theorem flat_getD {b : List I16} : Flat b ↔ ∀ k, k ≠ 0 → b.getD k 0 = 0 := by
  constructor
  · intro h k hk
    obtain ⟨j, rfl⟩ := Nat.exists_eq_succ_of_ne_zero hk
    rw [List.getD_eq_getElem?_getD]
    cases e : b[j.succ]? with
    | none => rfl
    | some c => exact h j c e
  · intro h k c e
    have := h (k + 1) (by omega)
    rw [List.getD_eq_getElem?_getD, e] at this
    exact this

theorem RaisedArray.flat {b b' : List I16} (h : RaisedArray b b') : Flat b ↔ Flat b' := by
  rw [flat_getD, flat_getD]
  exact forall_congr' fun k => forall_congr' fun hk => by rw [h.ac k hk]

/-- **C81 (blocks).** Both implementations of the inverse transform: raising the first coefficient lowers no sample
(before it is cut to a byte), for products up to 2048. -/
theorem c81_block_partial (f : IdctFn) {b b' : List Int} {qt : List Nat} (hb : InRange (coded b) qt)
    (hb' : InRange (coded b') qt) (h : Raised b b') (i j : Fin 8) :
    ∃ v v', sample (f.block (coded b) qt) i j = some v ∧ sample (f.block (coded b') qt) i j = some v' ∧
      v.toInt ≤ v'.toInt := by
  have R := h.coded
  have hdc : dcOf (coded b) qt ≤ dcOf (coded b') qt := by
    unfold dcOf
    exact mul_le_mul_of_nonneg_right R.dc (by positivity)
  have hdv : (dcValue (coded b) qt).toInt ≤ (dcValue (coded b') qt).toInt := by
    have l1 : |dcOf (coded b) qt| ≤ 2048 := hb 0 0
    have l2 : |dcOf (coded b') qt| ≤ 2048 := hb' 0 0
    rw [abs_le] at l1 l2
    rw [toInt_dcValue, toInt_dcValue, Int.bmod_eq_of_le (by omega) (by omega), Int.bmod_eq_of_le (by omega) (by omega)]
    omega
  have hcoef : ∀ i j : Fin 8, ¬ (i = 0 ∧ j = 0) → coef (coded b) qt i j = coef (coded b') qt i j := by
    intro i j hij
    unfold coef
    rw [R.ac _ (by
      intro e
      apply hij
      constructor <;> apply Fin.ext <;> show _ = 0 <;> omega)]
  have h00 : coef (coded b) qt 0 0 ≤ coef (coded b') qt 0 0 := hdc
  have hz : acZero (coded b) = acZero (coded b') := by
    rw [Bool.eq_iff_iff, acZero_iff, acZero_iff]
    exact R.flat
  cases f with
  | scalar =>
    show ∃ v v', sample (idctBlockScalar _ _) i j = some v ∧ sample (idctBlockScalar _ _) i j = some v' ∧ _
    rw [idctBlockScalar_eq, idctBlockScalar_eq, ← hz]
    split
    · exact ⟨_, _, sample_replicate _ i j, sample_replicate _ i j, hdv⟩
    · refine ⟨_, _, sample_toList _ i j, sample_toList _ i j, ?_⟩
      rw [scalar_get hb, scalar_get hb']
      exact sat_mono (twoPass_mono h00 hcoef i j)
  | avx2 =>
    show ∃ v v', sample (idctBlockAvx _ _) i j = some v ∧ sample (idctBlockAvx _ _) i j = some v' ∧ _
    rw [idctBlockAvx_eq, idctBlockAvx_eq, ← hz]
    split
    · refine ⟨_, _, sample_replicate _ i j, sample_replicate _ i j, ?_⟩
      rw [toInt_clampI16, toInt_clampI16]
      exact sat_mono hdv
    · refine ⟨_, _, sample_toList _ i j, sample_toList _ i j, ?_⟩
      rw [avx_get hb, avx_get hb']
      exact sat_mono (twoPass_mono (m := fun a c => coef (coded b) qt c a) (m' := fun a c => coef (coded b') qt c a) h00
        (fun a c hac => hcoef c a fun e => hac ⟨e.2, e.1⟩) j i)

/-! ### Files -/

/-- Two images of which the second has larger DC coefficients. -/
theorem grayBytes_raised {f : IdctFn} {q : List UInt8} {w h : Nat} {bs bs' : List (List Int)} (hw0 : 0 < w)
    (hc : bs.length = (h + 7) / 8 * ((w + 7) / 8)) (hc' : bs'.length = (h + 7) / 8 * ((w + 7) / 8))
    (A : ∀ n, n < (h + 7) / 8 * ((w + 7) / 8) → Raised (bs.getD n []) (bs'.getD n []))
    (hr : ∀ b ∈ bs, InRange (coded b) (naturalQuant q)) (hr' : ∀ b ∈ bs', InRange (coded b) (naturalQuant q))
    (hd : f = .scalar → ∀ b, b ∈ bs ∨ b ∈ bs' → Flat (coded b) → DcFits (coded b) (naturalQuant q))
    (p : Nat) (v v' : UInt8) (hv : (grayBytes f (naturalQuant q) w h bs)[p]? = some v)
    (hv' : (grayBytes f (naturalQuant q) w h bs')[p]? = some v') : v.toNat ≤ v'.toNat := by
  have hp : p < h * w := by
    have := (List.getElem?_eq_some_iff.1 hv).1
    rwa [grayBytes_length] at this
  unfold grayBytes at hv hv'
  rw [List.getElem?_map, List.getElem?_range hp] at hv hv'
  simp only [Option.map_some, Option.some.injEq] at hv hv'
  have hy : p / w < h := Nat.div_lt_of_lt_mul (by rw [Nat.mul_comm]; exact hp)
  have hx : p % w < w := Nat.mod_lt _ hw0
  generalize p / w = y at *
  generalize p % w = x at *
  have hidx : y / 8 * ((w + 7) / 8) + x / 8 < (h + 7) / 8 * ((w + 7) / 8) := by
    calc y / 8 * ((w + 7) / 8) + x / 8 < y / 8 * ((w + 7) / 8) + (w + 7) / 8 := by omega
      _ = (y / 8 + 1) * ((w + 7) / 8) := by ring
      _ ≤ _ := Nat.mul_le_mul_right _ (by omega)
  have hm : ∀ l : List (List Int), l.length = (h + 7) / 8 * ((w + 7) / 8) →
      l.getD (y / 8 * ((w + 7) / 8) + x / 8) [] ∈ l := by
    intro l hl
    rw [List.getD_eq_getElem?_getD, List.getElem?_eq_getElem (by rw [hl]; exact hidx)]
    exact List.getElem_mem _
  have hs : ∀ b, b ∈ bs ∨ b ∈ bs' → ∀ r ∈ f.block (coded b) (naturalQuant q), ∀ x ∈ r, IsSample x := by
    intro b hb
    cases f with
    | scalar => exact (isSample_scalar _ _).2 (hd rfl b hb)
    | avx2 => exact isSample_avx _ _
  obtain ⟨s, s', e1, e2, hle⟩ := c81_block_partial f (hr _ (hm _ hc)) (hr' _ (hm _ hc'))
    (A _ hidx) ⟨y % 8, Nat.mod_lt _ (by decide)⟩ ⟨x % 8, Nat.mod_lt _ (by decide)⟩
  have isS : ∀ {rows : List (List I16)} {i j : Nat} {s : I16}, sample rows i j = some s →
      (∀ r ∈ rows, ∀ x ∈ r, IsSample x) → IsSample s := by
    intro rows i j s h hall
    unfold sample at h
    cases e : rows[i]? with
    | none => rw [e] at h; cases h
    | some r =>
      rw [e] at h
      exact hall r (List.mem_of_getElem? e) s (List.mem_of_getElem? h)
  have t1 := lowByte_sample (isS e1 (hs _ (Or.inl (hm _ hc))))
  have t2 := lowByte_sample (isS e2 (hs _ (Or.inr (hm _ hc'))))
  dsimp only at e1 e2
  unfold planeSample at hv hv'
  rw [e1] at hv
  rw [e2] at hv'
  simp only [Option.getD_some] at hv hv'
  subst hv hv'
  omega

/-- **C81 (grayscale files).** Raising DC coefficients makes no pixel darker, for products up to 2048 and, with the
scalar implementation, no flat block that leaves the range of samples. -/
theorem c81_gray_partial {g g' : GrayJpeg} (V : g.Valid) (V' : g'.Valid) (A : AllRaised g g') (cpu : Cpu) (o : Options)
    (hw : g.width ≤ o.getMaxWidth) (hh : g.height ≤ o.getMaxHeight) (hwide : 64 * ((g.width + 7) / 8) < 9 * g.width)
    (hr : ∀ b ∈ g.intervals.flatten, InRange (coded b) (naturalQuant g.quant))
    (hr' : ∀ b ∈ g'.intervals.flatten, InRange (coded b) (naturalQuant g.quant))
    (hd : chooseIdct cpu o.getUseUnsafe = .scalar → ∀ b, b ∈ g.intervals.flatten ∨ b ∈ g'.intervals.flatten →
      Flat (coded b) → DcFits (coded b) (naturalQuant g.quant)) :
    ∃ out out', ((Decoder.newWithOptions cpu o).decodeBuffer g.bytes).1 = .ok out ∧
      ((Decoder.newWithOptions cpu o).decodeBuffer g'.bytes).1 = .ok out' ∧ out.length = out'.length ∧
      ∀ (p : Nat) (v v' : UInt8), out[p]? = some v → out'[p]? = some v' → v.toNat ≤ v'.toNat := by
  refine ⟨_, _, by rw [c53_gray_partial V cpu o hw hh, if_pos hwide],
    by rw [c53_gray_partial V' cpu o (by rw [A.width]; exact hw) (by rw [A.height]; exact hh), A.width, A.height, A.quant,
      if_pos hwide], by rw [grayBytes_length, grayBytes_length], ?_⟩
  have hc' := V'.count
  rw [A.width, A.height] at hc'
  exact grayBytes_raised V.w0 V.count hc' A.blocks hr hr' hd

/-- **C81 (progressive grayscale files).** The same for what the scans of two progressive files tell of their blocks. -/
theorem c81_progressive_partial {g g' : ProgJpeg} {lev lev' : Nat → Option Nat} (V : g.Valid lev) (L : g.Fits)
    (V' : g'.Valid lev') (L' : g'.Fits) (ew : g'.width = g.width) (eh : g'.height = g.height)
    (eq : g'.quant = g.quant) (cpu : Cpu) (o : Options) (hw : g.width ≤ o.getMaxWidth)
    (hh : g.height ≤ o.getMaxHeight) (hs : 1 + g.rest.length ≤ o.getMaxScans)
    (hs' : 1 + g'.rest.length ≤ o.getMaxScans) (hwide : 64 * ((g.width + 7) / 8) < 9 * g.width)
    (A : ∀ n, n < (g.height + 7) / 8 * ((g.width + 7) / 8) →
      Raised ((g.blocks.map (approxBlock lev)).getD n []) ((g'.blocks.map (approxBlock lev')).getD n []))
    (hr : ∀ b ∈ g.blocks.map (approxBlock lev), InRange (coded b) (naturalQuant g.quant))
    (hr' : ∀ b ∈ g'.blocks.map (approxBlock lev'), InRange (coded b) (naturalQuant g.quant))
    (hd : chooseIdct cpu o.getUseUnsafe = .scalar →
      ∀ b, b ∈ g.blocks.map (approxBlock lev) ∨ b ∈ g'.blocks.map (approxBlock lev') →
        Flat (coded b) → DcFits (coded b) (naturalQuant g.quant)) :
    ∃ out out', ((Decoder.newWithOptions cpu o).decodeBuffer g.bytes).1 = .ok out ∧
      ((Decoder.newWithOptions cpu o).decodeBuffer g'.bytes).1 = .ok out' ∧ out.length = out'.length ∧
      ∀ (p : Nat) (v v' : UInt8), out[p]? = some v → out'[p]? = some v' → v.toNat ≤ v'.toNat := by
  refine ⟨_, _, by rw [c58_gray_partial V L cpu o hw hh hs, if_pos hwide],
    by rw [c58_gray_partial V' L' cpu o (by rw [ew]; exact hw) (by rw [eh]; exact hh) hs', ew, eh, eq, if_pos hwide],
    by rw [grayBytes_length, grayBytes_length], ?_⟩
  have hc' := V'.count
  rw [ew, eh] at hc'
  exact grayBytes_raised V.w0 (by rw [List.length_map]; exact V.count) (by rw [List.length_map]; exact hc') A hr hr' hd

/-- **C81 (luma of colour files).** Raising the DC coefficient of the luma block of a pixel does not make the luma
byte of the pixel darker, whatever happens to other blocks and to chroma, under the same conditions. -/
theorem c81_luma_partial {g g' : ColourJpeg} (V : g.Valid) (V' : g'.Valid) (S : SameFrame g g') (cpu : Cpu) (o : Options)
    (hw : g.width ≤ o.getMaxWidth) (hh : g.height ≤ o.getMaxHeight) (hout : o.getOutColorspace = .ycbcr) {y x : Nat}
    (hy : y < g.height) (hx : x < g.width) {b b' : List Int}
    (eb : b = g.blocks (y / 8 / g.fv * mcuCols g.width g.fh + x / 8 / g.fh) 0 (y / 8 % g.fv) (x / 8 % g.fh))
    (eb' : b' = g'.blocks (y / 8 / g.fv * mcuCols g.width g.fh + x / 8 / g.fh) 0 (y / 8 % g.fv) (x / 8 % g.fh))
    (h : Raised b b') (hr : InRange (coded b) (naturalQuant g.quantY)) (hr' : InRange (coded b') (naturalQuant g.quantY))
    (hd : chooseIdct cpu o.getUseUnsafe = .scalar → Flat (coded b) →
      DcFits (coded b) (naturalQuant g.quantY) ∧ DcFits (coded b') (naturalQuant g.quantY)) :
    ∃ out out' v v', ((Decoder.newWithOptions cpu o).decodeBuffer g.bytes).1 = .ok out ∧
        ((Decoder.newWithOptions cpu o).decodeBuffer g'.bytes).1 = .ok out' ∧
        out[3 * (y * g.width + x)]? = some v ∧ out'[3 * (y * g.width + x)]? = some v' ∧ v.toNat ≤ v'.toNat := by
  obtain ⟨out, h1, h2, h3⟩ := c55_planes_partial V cpu o hw hh hout
  obtain ⟨out', k1, k2, k3⟩ := c55_planes_partial V' cpu o (S.width ▸ hw) (S.height ▸ hh) hout
  obtain ⟨v, hb, hv⟩ := h3 y x 0 hy hx (by omega)
  obtain ⟨v', hb', hv'⟩ := k3 y x 0 (S.height ▸ hy) (S.width ▸ hx) (by omega)
  refine ⟨out, out', v, v', h1, k1, hb, by rw [S.width]; exact hb', ?_⟩
  have hrow : g'.Row y ↔ g.Row y := by
    unfold ColourJpeg.Row
    rw [S.height, S.fh, S.fv]
  obtain ⟨s, s', e1, e2, hle⟩ := c81_block_partial (chooseIdct cpu o.getUseUnsafe) hr hr' h
    ⟨y % 8, Nat.mod_lt _ (by decide)⟩ ⟨x % 8, Nat.mod_lt _ (by decide)⟩
  dsimp only at e1 e2
  have hs : IsSample s ∧ IsSample s' := by
    have isS : ∀ {rows : List (List I16)} {i j : Nat} {s : I16}, sample rows i j = some s →
        (∀ r ∈ rows, ∀ x ∈ r, IsSample x) → IsSample s := by
      intro rows i j s h hall
      unfold sample at h
      cases e : rows[i]? with
      | none => rw [e] at h; cases h
      | some r =>
        rw [e] at h
        exact hall r (List.mem_of_getElem? e) s (List.mem_of_getElem? h)
    refine ⟨isS e1 ?_, isS e2 ?_⟩
    · cases e : chooseIdct cpu o.getUseUnsafe with
      | scalar => exact (isSample_scalar _ _).2 fun hf => (hd e hf).1
      | avx2 => exact isSample_avx _ _
    · cases e : chooseIdct cpu o.getUseUnsafe with
      | scalar => exact (isSample_scalar _ _).2 fun hf => (hd e (h.coded.flat.2 hf)).2
      | avx2 => exact isSample_avx _ _
  have p1 : g.plane cpu o.getUseUnsafe 0 y x = s.toInt := by
    unfold ColourJpeg.plane
    dsimp only
    rw [if_pos (Or.inl rfl)]
    show ((sample ((chooseIdct cpu o.getUseUnsafe).block (coded (g.blocks (y / 8 / g.fv * mcuCols g.width g.fh +
      x / 8 / g.fh) 0 (y / 8 % g.fv) (x / 8 % g.fh))) (naturalQuant g.quantY)) (y % 8) (x % 8)).getD 0).toInt = _
    rw [← eb, e1]
    rfl
  have p2 : g'.plane cpu o.getUseUnsafe 0 y x = s'.toInt := by
    have hq : g'.quantY = g.quantY := (S.quant 0).symm
    unfold ColourJpeg.plane
    dsimp only
    rw [if_pos (Or.inl rfl)]
    show ((sample ((chooseIdct cpu o.getUseUnsafe).block (coded (g'.blocks (y / 8 / g'.fv * mcuCols g'.width g'.fh +
      x / 8 / g'.fh) 0 (y / 8 % g'.fv) (x / 8 % g'.fh))) (naturalQuant g'.quantY)) (y % 8) (x % 8)).getD 0).toInt = _
    rw [← S.width, ← S.fh, ← S.fv, hq, ← eb', e2]
    rfl
  obtain ⟨⟨l1, l2⟩, l3, l4⟩ := hs
  rw [p1] at hv
  rw [p2] at hv'
  simp only [hrow] at hv'
  by_cases hR : g.Row y
  · rw [if_pos hR] at hv hv'
    omega
  · rw [if_neg hR] at hv hv'
    omega

/-- A flat image of 8 x 8 pixels. -/
def flatJpeg (dc : Int) : GrayJpeg := encodeGray 8 8 0 (List.replicate 64 32) [dc :: List.replicate 63 0]

theorem flatJpeg_valid {dc : Int} (h : dc.natAbs ≤ 2047) : (flatJpeg dc).Valid :=
  encodeGray_valid (by decide) (by decide) (by decide) (by decide) (by decide) (by decide) (by
    intro b hb
    rw [List.mem_singleton.1 hb]
    refine ⟨rfl, h, fun x hx => ?_⟩
    rw [List.eq_of_mem_replicate hx]
    decide) rfl

theorem flatJpeg_raised {a b : Int} (h1 : -32768 ≤ a) (h2 : a ≤ b) (h3 : b ≤ 32767) :
    AllRaised (flatJpeg a) (flatJpeg b) := by
  refine ⟨rfl, rfl, rfl, fun n hn => ?_⟩
  have hn' : n < (8 + 7) / 8 * ((8 + 7) / 8) := hn
  obtain rfl : n = 0 := by omega
  show Raised ((chunks 0 [a :: List.replicate 63 0]).flatten.getD 0 [])
    ((chunks 0 [b :: List.replicate 63 0]).flatten.getD 0 [])
  rw [chunks_flatten, chunks_flatten]
  refine ⟨h1, h2, h3, fun k hk => ?_⟩
  obtain ⟨j, rfl⟩ := Nat.exists_eq_succ_of_ne_zero hk
  rfl

/-- **C81 is false** of the scalar implementation: raising the DC coefficient of a white image makes it black. -/
theorem c81_false : ¬ NotDarker := by
  intro h
  obtain ⟨out, out', h1, h2, -, h3⟩ := h ⟨false, false⟩ Options.new (flatJpeg 31) (flatJpeg 32)
    (flatJpeg_valid (by decide)) (flatJpeg_valid (by decide)) (flatJpeg_raised (by decide) (by decide) (by decide))
    (by decide) (by decide) (by decide)
  have k1 : ((Decoder.newWithOptions ⟨false, false⟩ Options.new).decodeBuffer (flatJpeg 31).bytes).1 =
      .ok (List.replicate 64 252) := by decide +kernel
  have k2 : ((Decoder.newWithOptions ⟨false, false⟩ Options.new).decodeBuffer (flatJpeg 32).bytes).1 =
      .ok (List.replicate 64 0) := by decide +kernel
  rw [k1] at h1
  rw [k2] at h2
  cases h1
  cases h2
  exact absurd (h3 0 252 0 rfl rfl) (by decide)

/-- The hypotheses of `c81_gray_partial` hold for flat images of DC 3 and 5. -/
example : (flatJpeg 3).Valid ∧ (flatJpeg 5).Valid ∧ AllRaised (flatJpeg 3) (flatJpeg 5) ∧
    ∀ dc, dc = 3 ∨ dc = 5 → ∀ b ∈ (flatJpeg dc).intervals.flatten,
      InRange (coded b) (naturalQuant (flatJpeg 3).quant) ∧ DcFits (coded b) (naturalQuant (flatJpeg 3).quant) := by
  refine ⟨flatJpeg_valid (by decide), flatJpeg_valid (by decide), flatJpeg_raised (by decide) (by decide) (by decide), ?_⟩
  have key : ∀ dc ∈ [(3 : Int), 5], (∀ i j : Fin 8, |coef (coded (dc :: List.replicate 63 0)) (naturalQuant (List.replicate 64 32)) i j| ≤ 2048) ∧
      -1024 ≤ (dcOf (coded (dc :: List.replicate 63 0)) (naturalQuant (List.replicate 64 32))).bmod 65536 ∧
        (dcOf (coded (dc :: List.replicate 63 0)) (naturalQuant (List.replicate 64 32))).bmod 65536 ≤ 1023 := by
    decide +kernel
  intro dc hdc b hb
  have : (flatJpeg dc).intervals.flatten = [dc :: List.replicate 63 0] := chunks_flatten _ _
  rw [this] at hb
  rw [List.mem_singleton.1 hb]
  exact key dc (by rcases hdc with rfl | rfl <;> decide)

/-- Blocks of DC coefficients as `c81_progressive_partial` needs them: the first scans of `sampleProg` and `editProg`
(of C80), of which the second has a larger DC coefficient in its third block. -/
example : (∃ lev, cutProg.Valid lev) ∧ cutProg.Fits ∧ (∃ lev, editProg.Valid lev) ∧ editProg.Fits ∧
    ∀ n, n < 3 → Raised (cutProg.blocks.getD n []) (editProg.blocks.getD n []) := by
  refine ⟨cutProg_valid, cutProg_fits, editProg_valid, ⟨by decide +kernel, by decide⟩, fun n hn => ?_⟩
  have key : ∀ n < 3, (-32768 ≤ (cutProg.blocks.getD n []).getD 0 0 ∧
      (cutProg.blocks.getD n []).getD 0 0 ≤ (editProg.blocks.getD n []).getD 0 0 ∧
      (editProg.blocks.getD n []).getD 0 0 ≤ 32767) ∧
      (cutProg.blocks.getD n []).tail = (editProg.blocks.getD n []).tail := by decide +kernel
  obtain ⟨⟨h1, h2, h3⟩, h4⟩ := key n hn
  refine ⟨h1, h2, h3, fun k hk => ?_⟩
  obtain ⟨j, rfl⟩ := Nat.exists_eq_succ_of_ne_zero hk
  have := congrArg (fun l => l.getD j 0) h4
  simpa [List.getD_eq_getElem?_getD, List.getElem?_tail] using this

/-- The hypotheses of `c81_luma_partial` hold for images without chroma whose luma blocks are flat. -/
example : let g (dc : Int) : ColourJpeg := sampleColour 2 2 64 32 fun _ i _ _ =>
        if i = 0 then dc :: List.replicate 63 0 else List.replicate 64 0
    (g 0).Valid ∧ (g 1).Valid ∧ SameFrame (g 0) (g 1) ∧ (∀ n a b, Raised ((g 0).blocks n 0 a b) ((g 1).blocks n 0 a b)) ∧
      ∀ dc ∈ [(0 : Int), 1], ∀ n a b, InRange (coded ((g dc).blocks n 0 a b)) (naturalQuant (g 0).quantY) ∧
        DcFits (coded ((g dc).blocks n 0 a b)) (naturalQuant (g 0).quantY) := by
  have key : ∀ dc ∈ [(0 : Int), 1], (∀ i j : Fin 8, |coef (coded (dc :: List.replicate 63 0))
        (naturalQuant (List.replicate 64 16)) i j| ≤ 2048) ∧
      -1024 ≤ (dcOf (coded (dc :: List.replicate 63 0)) (naturalQuant (List.replicate 64 16))).bmod 65536 ∧
        (dcOf (coded (dc :: List.replicate 63 0)) (naturalQuant (List.replicate 64 16))).bmod 65536 ≤ 1023 := by
    decide +kernel
  refine ⟨sampleColour_valid (by decide) (by decide) (by decide) (by decide) (by decide) fun k i _ _ => ?_,
    sampleColour_valid (by decide) (by decide) (by decide) (by decide) (by decide) fun k i _ _ => ?_,
    ⟨rfl, rfl, rfl, rfl, fun _ => rfl⟩, fun n a b => ⟨(by decide : (-32768 : Int) ≤ 0), (by decide : (0 : Int) ≤ 1), (by decide : (1 : Int) ≤ 32767),
      fun k hk => ?_⟩,
    fun dc hdc n a b => key dc hdc⟩
  · by_cases h : i = 0
    · rw [if_pos h]; decide
    · rw [if_neg h]; decide
  · by_cases h : i = 0
    · rw [if_pos h]; decide
    · rw [if_neg h]; decide
  · obtain ⟨j, rfl⟩ := Nat.exists_eq_succ_of_ne_zero hk
    rfl

end Zune
