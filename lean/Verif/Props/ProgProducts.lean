import Verif.Props.Products
/-!
# Coefficients and quantisation in progressive files

C69 for files with several scans.
-/

namespace Zune
open Spec

/-- Images of one component depend on the products only. -/
theorem grayBytes_products {f : IdctFn} {q q' : List UInt8} {w h : Nat} {bs bs' : List (List Int)} (w0 : 0 < w)
    (hb : ∀ n, n < (h + 7) / 8 * ((w + 7) / 8) → SameProducts q q' (bs.getD n []) (bs'.getD n [])) :
    grayBytes f (naturalQuant q) w h bs = grayBytes f (naturalQuant q') w h bs' := by
  unfold grayBytes
  refine List.map_congr_left fun p hp => ?_
  have hp' := List.mem_range.1 hp
  have h1 : p / w < h := Nat.div_lt_of_lt_mul (by rw [Nat.mul_comm]; exact hp')
  have h2 : p % w < w := Nat.mod_lt _ w0
  unfold planeSample
  rw [SameProducts.block (hb _ ?_)]
  have h3 : p / w / 8 + 1 ≤ (h + 7) / 8 := by omega
  have h4 : p % w / 8 < (w + 7) / 8 := by omega
  calc p / w / 8 * ((w + 7) / 8) + p % w / 8
      < (p / w / 8 + 1) * ((w + 7) / 8) := by rw [Nat.succ_mul]; omega
    _ ≤ _ := Nat.mul_le_mul_right _ h3

/-- **C69 (partial).** Two progressive grayscale files decode to the same image (or both panic) if what their
scans tell of the coefficients has the same products with the quantisation steps, whatever the scans are. -/
theorem c69_progressive_partial {g g' : ProgJpeg} {lev lev' : Nat → Option Nat} (V : g.Valid lev) (L : g.Fits)
    (V' : g'.Valid lev') (L' : g'.Fits) (ew : g'.width = g.width) (eh : g'.height = g.height)
    (hb : ∀ n, n < (g.height + 7) / 8 * ((g.width + 7) / 8) →
      SameProducts g.quant g'.quant (approxBlock lev (g.blocks.getD n [])) (approxBlock lev' (g'.blocks.getD n [])))
    (cpu : Cpu) (o : Options) (hw : g.width ≤ o.getMaxWidth) (hh : g.height ≤ o.getMaxHeight)
    (hs : 1 + g.rest.length ≤ o.getMaxScans) (hs' : 1 + g'.rest.length ≤ o.getMaxScans) :
    ((Decoder.newWithOptions cpu o).decodeBuffer g.bytes).1 =
      ((Decoder.newWithOptions cpu o).decodeBuffer g'.bytes).1 := by
  rw [c58_gray_partial V L cpu o hw hh hs,
    c58_gray_partial V' L' cpu o (by rw [ew]; exact hw) (by rw [eh]; exact hh) hs', ew, eh]
  have e : ∀ (l : Nat → Option Nat) (bs : List (List Int)) n,
      (bs.map (approxBlock l)).getD n [] = approxBlock l (bs.getD n []) := by
    intro l bs n
    rw [List.getD_eq_getElem?_getD, List.getElem?_map, List.getD_eq_getElem?_getD]
    cases bs[n]? <;> rfl
  rw [grayBytes_products (q' := g'.quant) (bs' := g'.blocks.map (approxBlock lev')) V.w0 fun n hn => by
    rw [e, e]; exact hb n hn]

/-- **C69 (partial).** A progressive and a baseline grayscale file. -/
theorem c69_modes_partial {g : ProgJpeg} {lev : Nat → Option Nat} (V : g.Valid lev) (L : g.Fits) {b : GrayJpeg}
    (Vb : b.Valid) (ew : b.width = g.width) (eh : b.height = g.height)
    (hb : ∀ n, n < (g.height + 7) / 8 * ((g.width + 7) / 8) →
      SameProducts g.quant b.quant (approxBlock lev (g.blocks.getD n [])) (b.intervals.flatten.getD n []))
    (cpu : Cpu) (o : Options) (hw : g.width ≤ o.getMaxWidth) (hh : g.height ≤ o.getMaxHeight)
    (hs : 1 + g.rest.length ≤ o.getMaxScans) :
    ((Decoder.newWithOptions cpu o).decodeBuffer g.bytes).1 =
      ((Decoder.newWithOptions cpu o).decodeBuffer b.bytes).1 := by
  rw [c58_gray_partial V L cpu o hw hh hs, c53_gray_partial Vb cpu o (by rw [ew]; exact hw)
    (by rw [eh]; exact hh), ew, eh]
  have e : ∀ n, (g.blocks.map (approxBlock lev)).getD n [] = approxBlock lev (g.blocks.getD n []) := by
    intro n
    rw [List.getD_eq_getElem?_getD, List.getElem?_map, List.getD_eq_getElem?_getD]
    cases g.blocks[n]? <;> rfl
  rw [grayBytes_products (q' := b.quant) (bs' := b.intervals.flatten) V.w0 fun n hn => by rw [e]; exact hb n hn]

/-- Two progressive colour images of the same size and sampling with the same products. Blocks that are only
padding may differ. -/
structure Spec.SameProductScans (g : ProgColourJpeg) (lev : Nat → Nat → Option Nat) (g' : ProgColourJpeg)
    (lev' : Nat → Nat → Option Nat) : Prop where
  width : g'.width = g.width
  height : g'.height = g.height
  fh : g'.fh = g.fh
  fv : g'.fv = g.fv
  products : ∀ i r k, i < 3 → r < ownRows g.height g.fv i → k < ownCols g.width g.fh i →
    SameProducts (g.quantOf i) (g'.quantOf i) (approxBlock (lev i) (g.blocks i r k))
      (approxBlock (lev' i) (g'.blocks i r k))

/-- The blocks have the same transforms, but for those that are only padding. -/
def TransformsAgree (f : IdctFn) (w h fh fv : Nat) (qt qt' : Nat → List Nat) (m m' : Nat → Nat → Nat → Nat → List Int) :
    Prop :=
  ∀ i r k, i < 3 → r < ownRows h fv i → k < ownCols w fh i →
    f.block (coded (m (r / (colourShape fh fv i).1 * mcuCols w fh + k / (colourShape fh fv i).2) i
        (r % (colourShape fh fv i).1) (k % (colourShape fh fv i).2))) (qt i) =
      f.block (coded (m' (r / (colourShape fh fv i).1 * mcuCols w fh + k / (colourShape fh fv i).2) i
        (r % (colourShape fh fv i).1) (k % (colourShape fh fv i).2))) (qt' i)

theorem stripPlane_transforms {f : IdctFn} {qt qt' : Nat → List Nat} {w h fh fv t i : Nat}
    {m m' : Nat → Nat → Nat → Nat → List Int} (hf : 0 < fh) (ht : t < stripCount h fh fv)
    (hm : ∀ r k, r < (colourShape fh fv i).1 * mcuRows h fv → k < (colourShape fh fv i).2 * mcuCols w fh →
      f.block (coded (m (r / (colourShape fh fv i).1 * mcuCols w fh + k / (colourShape fh fv i).2) i
          (r % (colourShape fh fv i).1) (k % (colourShape fh fv i).2))) (qt i) =
        f.block (coded (m' (r / (colourShape fh fv i).1 * mcuCols w fh + k / (colourShape fh fv i).2) i
          (r % (colourShape fh fv i).1) (k % (colourShape fh fv i).2))) (qt' i)) :
    stripPlane f qt w fh fv m t i = stripPlane f qt' w fh fv m' t i := by
  unfold stripPlane unitRows
  refine List.map_congr_left fun p hp => ?_
  have hp' := List.mem_range.1 hp
  have hW : 0 < 8 * ((colourShape fh fv i).2 * mcuCols w fh) := by
    rcases Nat.eq_zero_or_pos (8 * ((colourShape fh fv i).2 * mcuCols w fh)) with e | e
    · rw [e] at hp'; omega
    · exact e
  unfold unitSample
  dsimp only
  rw [hm _ _ (strip_row ht hf ((Nat.div_lt_iff_lt_mul hW).2 hp')) ?_]
  have := Nat.mod_lt p hW
  omega

/-- The YCbCr image does not depend on the blocks that are only padding, and on the others only through their
transforms. -/
theorem ycbcr_products {d d' : Decoder} {c0 c1 c2 e0 e1 e2 : Component} {w h fh fv : Nat}
    {m m' : Nat → Nat → Nat → Nat → List Int} {full full' : Nat → Nat → List I16}
    {res res' : Out (List UInt8)}
    (R : ColourFrame d c0 c1 c2 w h fh fv) (R' : ColourFrame d' e0 e1 e2 w h fh fv)
    {f : IdctFn} {cf : ColorFn} {cpu : Cpu} {o : Options}
    (K : DecKeep d f cf cpu o) (K' : DecKeep d' f cf cpu o) (hout : o.getOutColorspace = .ycbcr)
    {qt qt' : Nat → List Nat} (hq : ∀ i c, [c0, c1, c2][i]? = some c → c.quantTable = qt i)
    (hq' : ∀ i c, [e0, e1, e2][i]? = some c → c.quantTable = qt' i)
    (hblk : TransformsAgree f w h fh fv qt qt' m m')
    (hj : ColourJobs d c0 c1 c2 w h fh fv m .ycbcr 3 full res)
    (hj' : ColourJobs d' e0 e1 e2 w h fh fv m' .ycbcr 3 full' res') : res = res' := by
  have hfh : 0 < fh ∧ fh ≤ 2 := ⟨R.frame.fpos.1, R.fh2⟩
  have hfv : 0 < fv ∧ fv ≤ 2 := ⟨R.frame.fpos.2, R.fv2⟩
  obtain ⟨out, p1, p2, p3⟩ := ycbcr_image R hj (by rw [K.options]; exact hout)
  obtain ⟨out', p1', p2', p3'⟩ := ycbcr_image R' hj' (by rw [K'.options]; exact hout)
  rw [p1, p1']
  congr 1
  refine List.ext_getElem? fun n => ?_
  by_cases hn : n < h * (w * 3)
  · have w0 := R.frame.wpos
    have hn3 : n / 3 < h * w := by
      rw [Nat.div_lt_iff_lt_mul (by decide)]
      calc n < h * (w * 3) := hn
        _ = h * w * 3 := by ring
    have hy : n / 3 / w < h := (Nat.div_lt_iff_lt_mul w0).2 hn3
    have hx := Nat.mod_lt (n / 3) w0
    have en : 3 * (n / 3 / w * w + n / 3 % w) + n % 3 = n := by
      rw [Nat.div_add_mod']
      omega
    obtain ⟨y, hyy⟩ : ∃ y, n / 3 / w = y := ⟨_, rfl⟩
    obtain ⟨x, hxx⟩ : ∃ x, n / 3 % w = x := ⟨_, rfl⟩
    obtain ⟨c, hcc⟩ : ∃ c, n % 3 = c := ⟨_, rfl⟩
    have hc : c < 3 := by omega
    rw [hyy, hxx, hcc] at en
    rw [hyy] at hy
    rw [hxx] at hx
    rw [← en, p3 y x c hy hx hc, p3' y x c hy hx hc]
    by_cases hrow : y / (8 * (fh * fv)) < stripCount h fh fv
    · rw [if_pos hrow, if_pos hrow]
      congr 2
      have hpl := hj.planes
      have hpl' := hj'.planes
      rw [K.idct, K.cpu, K.options] at hpl
      rw [K'.idct, K'.cpu, K'.options] at hpl'
      by_cases hc0 : c = 0
      · have hx' := (padded_width R).1
        have hxx' : x < 8 * (fh * mcuCols w fh) := by omega
        rw [fullPlane_luma hpl hc (Or.inl hc0), fullPlane_luma hpl' hc (Or.inl hc0)]
        have a1 := luma_index (y := y) (Nat.mul_pos hfh.1 hfv.1) hxx' f
          (fun i => [c0, c1, c2][i]?.elim [] (·.quantTable)) m c (Or.inl hc0)
        have a2 := luma_index (y := y) (Nat.mul_pos hfh.1 hfv.1) hxx' f
          (fun i => [e0, e1, e2][i]?.elim [] (·.quantTable)) m' c (Or.inl hc0)
        unfold at0 at a1 a2
        rw [a1, a2]
        rw [quant_elim hq hc, quant_elim hq' hc]
        obtain ⟨o1, o2⟩ := pixel_own hfh hfv hy hx (Or.inl hc0)
        unfold unitSample
        dsimp only
        rw [hblk c _ _ hc o1 o2]
      · rw [fullPlanes_congr hpl hpl' hc (stripPlane_transforms hfh.1 hrow ?_)]
        intro r k hr hk
        have eo : ownRows h fv c = (colourShape fh fv c).1 * mcuRows h fv ∧
            ownCols w fh c = (colourShape fh fv c).2 * mcuCols w fh := by
          unfold ownRows ownCols colourShape
          rw [if_neg hc0, if_neg hc0, if_neg hc0]
          exact ⟨(Nat.one_mul _).symm, (Nat.one_mul _).symm⟩
        rw [quant_elim hq hc, quant_elim hq' hc]
        exact hblk c r k hc (by rw [eo.1]; exact hr) (by rw [eo.2]; exact hk)
    · rw [if_neg hrow, if_neg hrow]
  · rw [List.getElem?_eq_none (by omega), List.getElem?_eq_none (by omega)]

/-- The same for grayscale output. -/
theorem gray_products {d d' : Decoder} {c0 c1 c2 e0 e1 e2 : Component} {w h fh fv : Nat}
    {m m' : Nat → Nat → Nat → Nat → List Int} {full full' : Nat → Nat → List I16}
    {res res' : Out (List UInt8)}
    (R : ColourFrame d c0 c1 c2 w h fh fv) (R' : ColourFrame d' e0 e1 e2 w h fh fv)
    {f : IdctFn} {cf : ColorFn} {cpu : Cpu} {o : Options}
    (K : DecKeep d f cf cpu o) (K' : DecKeep d' f cf cpu o) (hout : o.getOutColorspace = .grayscale)
    (hwide : 8 * (fh * fv) * (8 * (fh * mcuCols w fh)) < (8 * (fh * fv) + 1) * w)
    {qt qt' : Nat → List Nat} (hq : ∀ i c, [c0, c1, c2][i]? = some c → c.quantTable = qt i)
    (hq' : ∀ i c, [e0, e1, e2][i]? = some c → c.quantTable = qt' i)
    (hblk : TransformsAgree f w h fh fv qt qt' m m')
    (hj : ColourJobs d c0 c1 c2 w h fh fv m .grayscale 1 full res)
    (hj' : ColourJobs d' e0 e1 e2 w h fh fv m' .grayscale 1 full' res') : res = res' := by
  have hfh : 0 < fh ∧ fh ≤ 2 := ⟨R.frame.fpos.1, R.fh2⟩
  have hfv : 0 < fv ∧ fv ≤ 2 := ⟨R.frame.fpos.2, R.fv2⟩
  obtain ⟨out, p1, p2, p3⟩ := gray_image R hj (by rw [K.options]; exact hout) hwide
  obtain ⟨out', p1', p2', p3'⟩ := gray_image R' hj' (by rw [K'.options]; exact hout) hwide
  rw [p1, p1']
  congr 1
  refine List.ext_getElem? fun n => ?_
  by_cases hn : n < h * w
  · have w0 := R.frame.wpos
    have hy : n / w < h := (Nat.div_lt_iff_lt_mul w0).2 hn
    have hx := Nat.mod_lt n w0
    have en : n / w * w + n % w = n := Nat.div_add_mod' n w
    obtain ⟨y, hyy⟩ : ∃ y, n / w = y := ⟨_, rfl⟩
    obtain ⟨x, hxx⟩ : ∃ x, n % w = x := ⟨_, rfl⟩
    rw [hyy, hxx] at en
    rw [hyy] at hy
    rw [hxx] at hx
    rw [← en, p3 y x hy hx, p3' y x hy hx]
    by_cases hrow : y / (8 * (fh * fv)) < stripCount h fh fv
    · rw [if_pos hrow, if_pos hrow]
      congr 2
      have hx' := (padded_width R).1
      have hxx' : x < 8 * (fh * mcuCols w fh) := by omega
      have a1 := luma_index (y := y) (Nat.mul_pos hfh.1 hfv.1) hxx' f
        (fun i => [c0, c1, c2][i]?.elim [] (·.quantTable)) m 0 (Or.inl rfl)
      have a2 := luma_index (y := y) (Nat.mul_pos hfh.1 hfv.1) hxx' f
        (fun i => [e0, e1, e2][i]?.elim [] (·.quantTable)) m' 0 (Or.inl rfl)
      unfold at0 at a1 a2
      rw [K.idct, K'.idct, a1, a2]
      rw [quant_elim hq (show 0 < 3 by omega), quant_elim hq' (show 0 < 3 by omega)]
      obtain ⟨o1, o2⟩ := pixel_own hfh hfv hy hx (Or.inl rfl)
      unfold unitSample
      dsimp only
      rw [hblk 0 _ _ (by omega) o1 o2]
    · rw [if_neg hrow, if_neg hrow]
  · rw [List.getElem?_eq_none (by omega), List.getElem?_eq_none (by omega)]

theorem Spec.SameProductScans.agree {g g' : ProgColourJpeg} {lev lev' : Nat → Nat → Option Nat}
    (S : SameProductScans g lev g' lev') {m m' : Nat → Nat → Nat → Nat → List Int}
    (hm : ∀ i r k, i < 3 → r < ownRows g.height g.fv i → k < ownCols g.width g.fh i →
        m (r / (colourShape g.fh g.fv i).1 * mcuCols g.width g.fh + k / (colourShape g.fh g.fv i).2) i
          (r % (colourShape g.fh g.fv i).1) (k % (colourShape g.fh g.fv i).2) =
            approxBlock (lev i) (g.blocks i r k))
    (hm' : ∀ i r k, i < 3 → r < ownRows g.height g.fv i → k < ownCols g.width g.fh i →
        m' (r / (colourShape g.fh g.fv i).1 * mcuCols g.width g.fh + k / (colourShape g.fh g.fv i).2) i
          (r % (colourShape g.fh g.fv i).1) (k % (colourShape g.fh g.fv i).2) =
            approxBlock (lev' i) (g'.blocks i r k)) (f : IdctFn) :
    TransformsAgree f g.width g.height g.fh g.fv (fun i => naturalQuant (g.quantOf i))
      (fun i => naturalQuant (g'.quantOf i)) m m' := by
  intro i r k hi hr hk
  rw [hm i r k hi hr hk, hm' i r k hi hr hk]
  exact (S.products i r k hi hr hk).block f

/-- **C69 (partial).** Two progressive colour files, decoded to YCbCr, with any scans and any sampling. -/
theorem c69_progressive_colour_partial {g g' : ProgColourJpeg} {lev lev' : Nat → Nat → Option Nat}
    (V : g.Valid lev) (L : g.Fits) (V' : g'.Valid lev') (L' : g'.Fits) (S : SameProductScans g lev g' lev')
    (cpu : Cpu) (o : Options) (hw : g.width ≤ o.getMaxWidth) (hh : g.height ≤ o.getMaxHeight)
    (hs : 1 + g.rest.length ≤ o.getMaxScans) (hs' : 1 + g'.rest.length ≤ o.getMaxScans)
    (hout : o.getOutColorspace = .ycbcr) :
    ((Decoder.newWithOptions cpu o).decodeBuffer g.bytes).1 =
      ((Decoder.newWithOptions cpu o).decodeBuffer g'.bytes).1 := by
  obtain ⟨d, c0, c1, c2, m, full, R, hq, K, hj, hm⟩ := progColour_jobs V L cpu o hw hh hs hout
  obtain ⟨d', e0, e1, e2, m', full', R', hq', K', hj', hm'⟩ := progColour_jobs V' L' cpu o
    (by rw [S.width]; exact hw) (by rw [S.height]; exact hh) hs' hout
  rw [S.width, S.height, S.fh, S.fv] at R' hj' hm'
  exact ycbcr_products R R' K K' hout hq hq' (S.agree hm hm' _) hj hj'

/-- **C69 (partial).** The same for grayscale output of colour files, if the conversion can handle the width. -/
theorem c69_progressive_luma_partial {g g' : ProgColourJpeg} {lev lev' : Nat → Nat → Option Nat}
    (V : g.Valid lev) (L : g.Fits) (V' : g'.Valid lev') (L' : g'.Fits) (S : SameProductScans g lev g' lev')
    (cpu : Cpu) (o : Options) (hw : g.width ≤ o.getMaxWidth) (hh : g.height ≤ o.getMaxHeight)
    (hs : 1 + g.rest.length ≤ o.getMaxScans) (hs' : 1 + g'.rest.length ≤ o.getMaxScans)
    (hout : o.getOutColorspace = .grayscale)
    (hwide : 8 * (g.fh * g.fv) * (8 * (g.fh * mcuCols g.width g.fh)) < (8 * (g.fh * g.fv) + 1) * g.width) :
    ((Decoder.newWithOptions cpu o).decodeBuffer g.bytes).1 =
      ((Decoder.newWithOptions cpu o).decodeBuffer g'.bytes).1 := by
  obtain ⟨d, c0, c1, c2, m, full, R, hq, K, hj, hm⟩ := progColour_jobs V L cpu o hw hh hs hout
  obtain ⟨d', e0, e1, e2, m', full', R', hq', K', hj', hm'⟩ := progColour_jobs V' L' cpu o
    (by rw [S.width]; exact hw) (by rw [S.height]; exact hh) hs' hout
  rw [S.width, S.height, S.fh, S.fv] at R' hj' hm'
  exact gray_products R R' K K' hout hwide hq hq' (S.agree hm hm' _) hj hj'

/-- **C69 (partial).** And for every format of the output, if no block is only padding. -/
theorem c69_progressive_formats_partial {g g' : ProgColourJpeg} {lev lev' : Nat → Nat → Option Nat}
    (V : g.Valid lev) (L : g.Fits) (V' : g'.Valid lev') (L' : g'.Fits) (S : SameProductScans g lev g' lev')
    (hr : (g.height + 7) / 8 = g.fv * mcuRows g.height g.fv) (hc : (g.width + 7) / 8 = g.fh * mcuCols g.width g.fh)
    (cpu : Cpu) (o : Options) (hw : g.width ≤ o.getMaxWidth) (hh : g.height ≤ o.getMaxHeight)
    (hs : 1 + g.rest.length ≤ o.getMaxScans) (hs' : 1 + g'.rest.length ≤ o.getMaxScans) :
    ((Decoder.newWithOptions cpu o).decodeBuffer g.bytes).1 =
      ((Decoder.newWithOptions cpu o).decodeBuffer g'.bytes).1 := by
  obtain ⟨oc, hoc⟩ : ∃ oc, o.getOutColorspace = oc := ⟨_, rfl⟩
  obtain ⟨d, c0, c1, c2, m, full, R, hq, K, hj, hm⟩ := progColour_jobs V L cpu o hw hh hs hoc
  obtain ⟨d', e0, e1, e2, m', full', R', hq', K', hj', hm'⟩ := progColour_jobs V' L' cpu o
    (by rw [S.width]; exact hw) (by rw [S.height]; exact hh) hs' hoc
  rw [S.width, S.height, S.fh, S.fv] at R' hj' hm'
  refine colourJobs_planes R R' K K' rfl ?_ (fun t i ht hi => stripPlane_transforms R.frame.fpos.1 ht ?_) hj hj'
  · cases oc <;> decide
  intro r k h1 h2
  rw [quant_elim hq hi, quant_elim hq' hi]
  refine S.agree hm hm' _ i r k hi ?_ ?_
  · unfold ownRows
    unfold colourShape at h1
    by_cases h0 : i = 0
    · rw [if_pos h0] at h1 ⊢
      rw [hr]; exact h1
    · rw [if_neg h0] at h1 ⊢
      rw [← Nat.one_mul (mcuRows _ _)]; exact h1
  · unfold ownCols
    unfold colourShape at h2
    by_cases h0 : i = 0
    · rw [if_pos h0] at h2 ⊢
      rw [hc]; exact h2
    · rw [if_neg h0] at h2 ⊢
      rw [← Nat.one_mul (mcuCols _ _)]; exact h2

/-! ## Examples -/

/-- An image of 8 x 20 samples with one scan of DC coefficients without their last `al` bits. -/
def dcOnly (step : UInt8) (al : Nat) (blocks : List (List Int)) : ProgJpeg where
  width := 8
  height := 20
  quant := List.replicate 64 step
  quantDest := 0
  blocks := blocks
  first := {
    tables := [⟨true, 1, sampleDc⟩], dcDest := 1, acDest := 0, ss := 0, se := 0, ah := 0, al := al
    word := sampleDcWord, bits := dcFirstBits sampleDcWord [1, -1, 0] }
  rest := []
  trailer := []

theorem dcOnly_valid {step : UInt8} {al : Nat} {blocks : List (List Int)} (ha : al ≤ 13)
    (hb : ∀ b ∈ blocks, BlockOk b) (hn : blocks.length = 3) (hd : dcDiffs al 0 blocks = [1, -1, 0]) :
    (dcOnly step al blocks).Valid (setLevel (fun _ => none) 0 0 al) ∧ (dcOnly step al blocks).Fits := by
  refine ⟨⟨(by decide : 0 < 8), (by decide : 0 < 20), (by decide : 8 ≤ 65527), (by decide : 20 ≤ 65527),
    List.length_replicate, (by decide : 0 < 4), hb, (show blocks.length = (20 + 7) / 8 * ((8 + 7) / 8) from hn),
    ⟨⟨?_, (by decide : 1 < 4), (by decide : 0 < 4), (by decide : 0 ≤ 13), ?_, ?_⟩, rfl⟩, rfl⟩, ?_, ?_⟩
  · intro t ht
    rw [List.mem_singleton.1 ht]
    exact sampleDc_valid 1 (by decide)
  · exact ha
  · show ScanData _ _ _ blocks sampleDcWord 0 0 0 al (dcFirstBits sampleDcWord [1, -1, 0])
    rw [← hd]
    exact ScanData.dcFirst (tab := sampleDc) rfl (by rw [hd]; decide +kernel)
  · intro x hx
    have e : dcDiffs (dcOnly step al blocks).first.al 0 (dcOnly step al blocks).blocks = [1, -1, 0] := hd
    rw [e] at hx
    have h : ∀ x ∈ [1, -1, (0 : Int)].getLast?, (dcCode sampleDcWord x).length +
        padCount (dcFirstBits sampleDcWord [1, -1, 0]).length < 16 := by decide +kernel
    exact h x hx
  · show (0 + 1) * blocks.length < _
    rw [hn]
    decide

/-- A scan without the last bits and a scan with all bits of halved coefficients and a doubled step: both files
have the same coded data, and the same image. -/
example (cpu : Cpu) :
    ((Decoder.new cpu).decodeBuffer
      (dcOnly 16 1 [3 :: 5 :: List.replicate 62 0, 1 :: List.replicate 63 0, 0 :: List.replicate 63 0]).bytes).1 =
    ((Decoder.new cpu).decodeBuffer
      (dcOnly 32 0 [1 :: List.replicate 63 0, 0 :: List.replicate 63 0, 0 :: 7 :: List.replicate 62 0]).bytes).1 := by
  have hk : ∀ bs ∈ [[3 :: 5 :: List.replicate 62 0, 1 :: List.replicate 63 0, 0 :: List.replicate 63 (0 : Int)],
      [1 :: List.replicate 63 0, 0 :: List.replicate 63 0, 0 :: 7 :: List.replicate 62 (0 : Int)]],
      ∀ b ∈ bs, b.length = 64 ∧ ∀ x ∈ b, x.natAbs < 2 ^ 15 := by decide +kernel
  obtain ⟨V, L⟩ := dcOnly_valid (step := 16) (al := 1)
    (blocks := [3 :: 5 :: List.replicate 62 0, 1 :: List.replicate 63 0, 0 :: List.replicate 63 0]) (by decide)
    (fun b hb => ⟨(hk _ (by simp) b hb).1, (hk _ (by simp) b hb).2⟩) rfl (by decide)
  obtain ⟨V', L'⟩ := dcOnly_valid (step := 32) (al := 0)
    (blocks := [1 :: List.replicate 63 0, 0 :: List.replicate 63 0, 0 :: 7 :: List.replicate 62 0]) (by decide)
    (fun b hb => ⟨(hk _ (by simp) b hb).1, (hk _ (by simp) b hb).2⟩) rfl (by decide)
  refine c69_progressive_partial V L V' L' rfl rfl (fun n hn => ?_) cpu _ (show 8 ≤ _ by decide)
    (show 20 ≤ _ by decide) (by decide) (by decide)
  have hn : n < 3 := hn
  have : n = 0 ∨ n = 1 ∨ n = 2 := by omega
  rcases this with rfl | rfl | rfl <;> exact ⟨by decide +kernel, by decide +kernel, by decide +kernel⟩

/-- The progressive sample of C58 and a baseline file with doubled coefficients and halved steps. -/
example (cpu : Cpu) :
    ((Decoder.new cpu).decodeBuffer sampleProg.bytes).1 =
    ((Decoder.new cpu).decodeBuffer (encodeGray 8 20 0 (List.replicate 64 8)
      [6 :: 10 :: List.replicate 62 0, 2 :: 0 :: -2 :: List.replicate 61 0, 2 :: List.replicate 63 0]).bytes).1 := by
  obtain ⟨lev, V, hl⟩ := sampleProg_valid
  refine c69_modes_partial V sampleProg_fits (b := encodeGray 8 20 0 _ _)
    (encodeGray_valid (by decide) (by decide) (by decide) (by decide) (by decide) (by decide) (fun b hb => ?_) rfl)
    rfl rfl (fun n hn => ?_) cpu _ (show 8 ≤ _ by decide) (show 20 ≤ _ by decide) (by decide)
  · have h : ∀ b ∈ [6 :: 10 :: List.replicate 62 (0 : Int), 2 :: 0 :: -2 :: List.replicate 61 0, 2 :: List.replicate 63 0],
        b.length = 64 ∧ (dcOfBlock b).natAbs ≤ 2047 ∧ ∀ x ∈ b.tail, x.natAbs ≤ 32767 := by decide +kernel
    exact ⟨(h b hb).1, (h b hb).2.1, (h b hb).2.2⟩
  · have hn : n < 3 := hn
    show SameProducts _ _ _ ((chunks 0 _).flatten.getD n [])
    rw [chunks_flatten, approxBlock_complete hl]
    · have : n = 0 ∨ n = 1 ∨ n = 2 := by omega
      rcases this with rfl | rfl | rfl <;> exact ⟨by decide +kernel, by decide +kernel, by decide +kernel⟩
    · have : n = 0 ∨ n = 1 ∨ n = 2 := by omega
      rcases this with rfl | rfl | rfl <;> rfl

/-- The blocks of the sample of C61 without the last bits. -/
def halfBlocks : Nat → Nat → Nat → List Int := fun i r k =>
  if i = 0 then (if r = 0 ∧ k = 0 then 1 else 0) :: List.replicate 63 0
  else if i = 1 then (if r = 0 then 1 else 2) :: List.replicate 63 0 else -1 :: List.replicate 63 0

/-- An image of 16 x 16 pixels with horizontal subsampling and one scan of DC coefficients. -/
def dcOnlyColour (qy qc : UInt8) (al : Nat) (blocks : Nat → Nat → Nat → List Int) : ProgColourJpeg where
  width := 16
  height := 16
  fh := 2
  fv := 1
  quantY := List.replicate 64 qy
  quantC := List.replicate 64 qc
  blocks := blocks
  first := {
    tables := [⟨true, 1, sampleDc⟩], comps := [0, 1, 2], dcDest := fun _ => 1, acDest := fun _ => 0
    ss := 0, se := 0, ah := 0, al := al, word := fun _ => sampleDcWord
    bits := cellBits (fun _ => sampleDcWord)
      [(0, 1), (0, -1), (1, 1), (2, -1), (0, 0), (0, 0), (1, 1), (2, 0)] }
  rest := []
  trailer := []

theorem dcOnlyColour_full : (dcOnlyColour 16 100 1 cprogBlocks).Valid
    ((dcOnlyColour 16 100 1 cprogBlocks).first.level fun _ _ => none) := by
  refine ⟨by decide, by decide, by decide, by decide, by decide, by decide, by decide, by decide, ?_,
    ⟨⟨?_, by decide, by decide, by decide, ?_⟩, rfl⟩, by decide⟩
  · intro i r k hi hr hk
    have h : ∀ i, i < 3 → ∀ r, r < 2 → ∀ k, k < 2 → (cprogBlocks i r k).length = 64 ∧
        ∀ x ∈ cprogBlocks i r k, x.natAbs < 2 ^ 15 := by decide +kernel
    have e : ∀ i, i < 3 → ownRows 16 1 i ≤ 2 ∧ ownCols 16 2 i ≤ 2 := by decide
    obtain ⟨a, b⟩ := h i hi r (lt_of_lt_of_le hr (e i hi).1) k (lt_of_lt_of_le hk (e i hi).2)
    exact ⟨a, b⟩
  · intro t ht
    rw [List.mem_singleton.1 ht]
    exact sampleDc_valid 1 (by decide)
  · refine Or.inr ⟨by decide, by decide, by decide, by decide, by decide, ?_⟩
    refine InterData.first (al := 1) (fun i hi => ⟨sampleDc, rfl⟩) ?_
    intro x hx t ht
    have : t = sampleDc := (Option.some.inj ht).symm
    subst this
    clear ht
    revert x
    decide +kernel

theorem dcOnlyColour_half : (dcOnlyColour 32 200 0 halfBlocks).Valid
    ((dcOnlyColour 32 200 0 halfBlocks).first.level fun _ _ => none) := by
  refine ⟨by decide, by decide, by decide, by decide, by decide, by decide, by decide, by decide, ?_,
    ⟨⟨?_, by decide, by decide, by decide, ?_⟩, rfl⟩, by decide⟩
  · intro i r k hi hr hk
    have h : ∀ i, i < 3 → ∀ r, r < 2 → ∀ k, k < 2 → (halfBlocks i r k).length = 64 ∧
        ∀ x ∈ halfBlocks i r k, x.natAbs < 2 ^ 15 := by decide +kernel
    have e : ∀ i, i < 3 → ownRows 16 1 i ≤ 2 ∧ ownCols 16 2 i ≤ 2 := by decide
    obtain ⟨a, b⟩ := h i hi r (lt_of_lt_of_le hr (e i hi).1) k (lt_of_lt_of_le hk (e i hi).2)
    exact ⟨a, b⟩
  · intro t ht
    rw [List.mem_singleton.1 ht]
    exact sampleDc_valid 1 (by decide)
  · refine Or.inr ⟨by decide, by decide, by decide, by decide, by decide, ?_⟩
    refine InterData.first (al := 0) (fun i hi => ⟨sampleDc, rfl⟩) ?_
    intro x hx t ht
    have : t = sampleDc := (Option.some.inj ht).symm
    subst this
    clear ht
    revert x
    decide +kernel

theorem dcOnlyColour_same : SameProductScans (dcOnlyColour 16 100 1 cprogBlocks)
    ((dcOnlyColour 16 100 1 cprogBlocks).first.level fun _ _ => none) (dcOnlyColour 32 200 0 halfBlocks)
    ((dcOnlyColour 32 200 0 halfBlocks).first.level fun _ _ => none) := by
  refine ⟨rfl, rfl, rfl, rfl, fun i r k hi hr hk => ?_⟩
  have e : ∀ i, i < 3 → ownRows 16 1 i ≤ 2 ∧ ownCols 16 2 i ≤ 2 := by decide
  have h1 : r < 2 := lt_of_lt_of_le hr (e i hi).1
  have h2 : k < 2 := lt_of_lt_of_le hk (e i hi).2
  have hi' : i = 0 ∨ i = 1 ∨ i = 2 := by omega
  have hr' : r = 0 ∨ r = 1 := by omega
  have hk' : k = 0 ∨ k = 1 := by omega
  rcases hi' with rfl | rfl | rfl <;> rcases hr' with rfl | rfl <;> rcases hk' with rfl | rfl <;>
    exact ⟨by decide +kernel, by decide +kernel, by decide +kernel⟩

/-- Colour files with the same coded data, of which one leaves out the last bits and the other has doubled steps:
the images are the same in every format. -/
example (cpu : Cpu) (o : Options) (hw : 16 ≤ o.getMaxWidth) (hh : 16 ≤ o.getMaxHeight) (hs : 1 ≤ o.getMaxScans) :
    ((Decoder.newWithOptions cpu o).decodeBuffer (dcOnlyColour 16 100 1 cprogBlocks).bytes).1 =
      ((Decoder.newWithOptions cpu o).decodeBuffer (dcOnlyColour 32 200 0 halfBlocks).bytes).1 :=
  c69_progressive_formats_partial dcOnlyColour_full ⟨by decide +kernel, by decide +kernel, by decide⟩
    dcOnlyColour_half ⟨by decide +kernel, by decide +kernel, by decide⟩ dcOnlyColour_same (by decide) (by decide)
    cpu o hw hh hs hs

end Zune
