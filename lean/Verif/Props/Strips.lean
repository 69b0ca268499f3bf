import Verif.Lemmas.Rows
import Verif.Props.Safety
import Verif.Props.Decode
/-!
# The bytes of an output strip

C36, C37, C38, C39.
-/

namespace Zune

namespace Spec

/-- The byte `b` is the sample `s` (modulo 256; the same number for samples in 0..255). -/
def IsByteOf (b : UInt8) (s : I16) : Prop := (b.toNat : Int) = s.toInt % 256

/-- The plane `p'` is the plane `p` of component `c` at full resolution `n`: unchanged if the first
component `c0` has sampling factors 1x1, else the result of the upsampler of `c`. -/
def Upsampled (c0 c : Component) (n : Nat) (p p' : List I16) : Prop :=
  if c0.horizontalSample = 1 ∧ c0.verticalSample = 1 then p' = p
  else c.upSampler.run p n = .ok p'

end Spec
open Spec

theorem isByteOf_asU8 (a : I16) : IsByteOf (asU8 a) a := by
  unfold IsByteOf asU8
  have h1 : ((⟨a.setWidth 8⟩ : UInt8).toNat : Int) = (a.toNat % 2 ^ 8 : Nat) := by
    show (((a.setWidth 8).toNat : Nat) : Int) = _
    rw [BitVec.toNat_setWidth]
  have h2 := BitVec.toInt_eq_toNat_cond a
  have h3 := a.isLt
  rw [h1, h2]
  split <;> omega

/-- The planes given to the colour conversion. -/
theorem postProcessInner_planes {f : ColorFn} {c0 c1 c2 : Component} {cs : List Component}
    {w : Nat} {y cb cr cb' cr' : List I16} {out : List UInt8}
    (h1 : Upsampled c0 c1 y.length cb cb') (h2 : Upsampled c0 c2 y.length cr cr') :
    postProcessInner f (c0 :: c1 :: c2 :: cs) .ycbcr .ycbcr w [y, cb, cr] out =
      ycbcrToYcbcr y cb' cr' w c0.horizontalSample c0.verticalSample out ∧
    postProcessInner f (c0 :: c1 :: c2 :: cs) .ycbcr .rgb w [y, cb, cr] out =
      colorConvertYcbcr f 3 y cb' cr' w c0.horizontalSample c0.verticalSample out ∧
    postProcessInner f (c0 :: c1 :: c2 :: cs) .ycbcr .rgba w [y, cb, cr] out =
      colorConvertYcbcr f 4 y cb' cr' w c0.horizontalSample c0.verticalSample out ∧
    postProcessInner f (c0 :: c1 :: c2 :: cs) .ycbcr .rgbx w [y, cb, cr] out =
      colorConvertYcbcr f 4 y cb' cr' w c0.horizontalSample c0.verticalSample out := by
  unfold Upsampled at h1 h2
  by_cases hc : c0.horizontalSample = 1 ∧ c0.verticalSample = 1
  · rw [if_pos hc] at h1 h2
    subst h1 h2
    have hn : ¬ (c0.horizontalSample ≠ 1 ∨ c0.verticalSample ≠ 1) := by omega
    refine ⟨?_, ?_, ?_, ?_⟩ <;>
    · unfold postProcessInner
      simp only [List.getElem?_cons_zero, hn, and_false, if_false, Out.bind, List.getD_cons_zero,
        List.getD_cons_succ]
  · rw [if_neg hc] at h1 h2
    have hn : (c0.horizontalSample ≠ 1 ∨ c0.verticalSample ≠ 1) := by omega
    refine ⟨?_, ?_, ?_, ?_⟩ <;>
    · unfold postProcessInner
      simp [ColorSpace.numComponents, hn, h1, h2, Out.bind]

/-! ### YCbCr -/

theorem ycbcr_row_get {y cb cr : List I16} {n : Nat} (hy : y.length = n) (hb : cb.length = n)
    (hr : cr.length = n) {x c : Nat} (hx : x < n) (hc : c < 3) :
    ((y.zip (cb.zip cr)).flatMap fun (y, cb, cr) => [asU8 y, asU8 cb, asU8 cr])[3 * x + c]? =
      ([y, cb, cr][c]?.bind (·[x]?)).map asU8 := by
  rw [List.flatMap_def, Nat.mul_comm, getElem?_flatten_const (n := 3) (by
    intro x hx
    obtain ⟨w, -, rfl⟩ := List.mem_map.1 hx
    rfl) hc, List.getElem?_map]
  have : (y.zip (cb.zip cr))[x]? = some (y[x], cb[x], cr[x]) :=
    List.getElem?_zip_eq_some.2 ⟨List.getElem?_eq_getElem _,
      List.getElem?_zip_eq_some.2 ⟨List.getElem?_eq_getElem _, List.getElem?_eq_getElem _⟩⟩
  rw [this]
  have hc' : c = 0 ∨ c = 1 ∨ c = 2 := by omega
  rcases hc' with rfl | rfl | rfl
  · show _ = Option.map asU8 (y[x]?)
    rw [List.getElem?_eq_getElem (by omega)]; rfl
  · show _ = Option.map asU8 (cb[x]?)
    rw [List.getElem?_eq_getElem (by omega)]; rfl
  · show _ = Option.map asU8 (cr[x]?)
    rw [List.getElem?_eq_getElem (by omega)]; rfl

theorem ycbcr_row_length {y cb cr : List I16} {n : Nat} (hy : y.length = n) (hb : cb.length = n)
    (hr : cr.length = n) :
    ((y.zip (cb.zip cr)).flatMap fun (y, cb, cr) => [asU8 y, asU8 cb, asU8 cr]).length = n * 3 := by
  rw [List.flatMap_def, length_flatten_const (n := 3) (by
    intro x hx
    obtain ⟨w, -, rfl⟩ := List.mem_map.1 hx
    rfl), List.length_map, List.length_zip, List.length_zip, hy, hb, hr]
  simp

theorem ycbcrToYcbcr_spec {y cb cr : List I16} {w pw h v : Nat} (hw : w ≤ pw) (hp : 0 < pw)
    (hhv : 0 < h * v) (hy : y.length = 8 * (h * v) * pw) (hb : cb.length = y.length)
    (hr : cr.length = y.length) {out : List UInt8} (ho : 8 * (h * v) * (w * 3) ≤ out.length) :
    ∃ r, ycbcrToYcbcr y cb cr w h v out = .ok r ∧ r.length = out.length ∧
      (∀ row x c, row < 8 * (h * v) → x < w → c < 3 → r[3 * (row * w + x) + c]? =
        ([y, cb, cr][c]?.bind (·[row * pw + x]?)).map asU8) ∧
      ∀ k, 8 * (h * v) * (w * 3) ≤ k → r[k]? = out[k]? := by
  have e : y.length / (h * v) / 8 = pw := by
    rw [hy, show 8 * (h * v) * pw = (8 * pw) * (h * v) by ring, Nat.mul_div_cancel _ hhv,
      Nat.mul_div_cancel_left _ (by decide)]
  rw [hy] at hb hr
  obtain ⟨hz1, hz2⟩ := getElem?_zip3_chunks hp hy hb hr
  unfold ycbcrToYcbcr
  rw [if_neg (by omega)]
  dsimp only
  rw [e, if_neg (by omega)]
  obtain ⟨r, h1, h2, h3, h4⟩ := fold_rows (w := w * 3) (out := out)
    (f := fun out ((y, cb, cr), i) =>
      let row := (y.zip (cb.zip cr)).flatMap fun (y, cb, cr) => [asU8 y, asU8 cb, asU8 cr]
      if out.length < (i + 1) * (w * 3) then .panic .index
      else if row.length < w * 3 then .panic .index
      else .ok (writeAt out (i * (w * 3)) (row.take (w * 3))))
    (items := (chunksExact pw y).zip ((chunksExact pw cb).zip (chunksExact pw cr)))
    (row := fun g _ => ((g.1.zip (g.2.1.zip g.2.2)).flatMap fun (y, cb, cr) =>
      [asU8 y, asU8 cb, asU8 cr]).take (w * 3))
    (by rw [hz1]; exact ho)
    (by
      rintro ⟨a, b, c⟩ hg old -
      obtain ⟨i, hi⟩ := List.mem_iff_getElem?.1 hg
      have hi' : i < 8 * (h * v) := by
        have := (List.getElem?_eq_some_iff.1 hi).1
        omega
      rw [hz2 i hi'] at hi
      cases hi
      rw [List.length_take, ycbcr_row_length (length_rowOf hy hi') (length_rowOf hb hi')
        (length_rowOf hr hi')]
      omega)
    (by
      rintro i ⟨a, b, c⟩ o hi hl -
      have hi' : i < 8 * (h * v) := by
        have := (List.getElem?_eq_some_iff.1 hi).1
        omega
      rw [hz2 i hi'] at hi
      cases hi
      dsimp only
      have hm : (i + 1) * (w * 3) ≤ 8 * (h * v) * (w * 3) := Nat.mul_le_mul_right _ hi'
      rw [if_neg (by omega), if_neg (by
        rw [ycbcr_row_length (length_rowOf hy hi') (length_rowOf hb hi') (length_rowOf hr hi')]
        omega)])
  refine ⟨r, h1, h2, ?_, ?_⟩
  · intro row x c hrow hx hc
    have := h3 row _ (3 * x + c) (hz2 row hrow) (by omega)
    rw [show 3 * (row * w + x) + c = row * (w * 3) + (3 * x + c) by ring, this,
      List.getElem?_take_of_lt (by omega), ycbcr_row_get (length_rowOf hy hrow) (length_rowOf hb hrow)
        (length_rowOf hr hrow) (by omega) hc]
    have hc' : c = 0 ∨ c = 1 ∨ c = 2 := by omega
    rcases hc' with rfl | rfl | rfl
    all_goals
      simp only [List.getElem?_cons_zero, List.getElem?_cons_succ, Option.bind_some]
      rw [getElem?_rowOf (by omega)]
  · intro k hk
    exact h4 k (by rw [hz1]; exact hk)

/-- **C36.** With YCbCr output, for every width `w` up to the padded width `pw`, all sampling factors
and all planes of `8·h·v` rows: byte `3·(row·w+x)+c` of the strip is the sample in column `x` of row
`row` of component `c` (after upsampling), and the rest of the buffer is not changed. -/
theorem c36_ycbcr {f : ColorFn} {c0 c1 c2 : Component} {cs : List Component} {w pw rows : Nat}
    {y cb cr cb' cr' : List I16} {out : List UInt8}
    (h1 : Upsampled c0 c1 y.length cb cb') (h2 : Upsampled c0 c2 y.length cr cr')
    (hw : w ≤ pw) (hp : 0 < pw) (hr : 0 < rows)
    (hrows : rows = 8 * (c0.horizontalSample * c0.verticalSample))
    (ly : y.length = rows * pw) (lb : cb'.length = rows * pw) (lr : cr'.length = rows * pw)
    (lo : rows * (w * 3) ≤ out.length) :
    ∃ r, postProcessInner f (c0 :: c1 :: c2 :: cs) .ycbcr .ycbcr w [y, cb, cr] out = .ok r ∧
      r.length = out.length ∧
      (∀ row x c, row < rows → x < w → c < 3 → ∃ b p s, r[3 * (row * w + x) + c]? = some b ∧
        [y, cb', cr'][c]? = some p ∧ p[row * pw + x]? = some s ∧ IsByteOf b s) ∧
      ∀ k, rows * (w * 3) ≤ k → r[k]? = out[k]? := by
  rw [(postProcessInner_planes h1 h2).1]
  subst hrows
  obtain ⟨r, e1, e2, e3, e4⟩ := ycbcrToYcbcr_spec (y := y) (cb := cb') (cr := cr')
    (h := c0.horizontalSample) (v := c0.verticalSample) hw hp (by omega) ly (by omega) (by omega) lo
  refine ⟨r, e1, e2, fun row x c hrow hx hc => ?_, e4⟩
  have hin : row * pw + x < 8 * (c0.horizontalSample * c0.verticalSample) * pw := by
    have := Nat.mul_le_mul_right pw (show row + 1 ≤ _ from hrow)
    rw [Nat.add_one_mul row] at this
    omega
  have hget := e3 row x c hrow hx hc
  have hc' : c = 0 ∨ c = 1 ∨ c = 2 := by omega
  rcases hc' with rfl | rfl | rfl
  · refine ⟨_, y, y[row * pw + x]'(by omega), ?_, rfl, List.getElem?_eq_getElem _, isByteOf_asU8 _⟩
    rw [hget]
    show Option.map asU8 (y[row * pw + x]?) = _
    rw [List.getElem?_eq_getElem (by omega)]
    rfl
  · refine ⟨_, cb', cb'[row * pw + x]'(by omega), ?_, rfl, List.getElem?_eq_getElem _,
      isByteOf_asU8 _⟩
    rw [hget]
    show Option.map asU8 (cb'[row * pw + x]?) = _
    rw [List.getElem?_eq_getElem (by omega)]
    rfl
  · refine ⟨_, cr', cr'[row * pw + x]'(by omega), ?_, rfl, List.getElem?_eq_getElem _,
      isByteOf_asU8 _⟩
    rw [hget]
    show Option.map asU8 (cr'[row * pw + x]?) = _
    rw [List.getElem?_eq_getElem (by omega)]
    rfl

/-! ### Grayscale -/

theorem ycbcrToGrayscale_spec {y : List I16} {w pw rows : Nat} (hw : w ≤ pw) (h0 : 0 < w)
    (hr : 0 < rows) (hy : y.length = rows * pw) {out : List UInt8} (ho : out.length = rows * w) :
    (rows * pw < (rows + 1) * w → ∃ r, ycbcrToGrayscale y w out = .ok r ∧ r.length = rows * w ∧
      ∀ row x, row < rows → x < w → r[row * w + x]? = (y[row * pw + x]?).map asU8) ∧
    ((rows + 1) * w ≤ rows * pw → ycbcrToGrayscale y w out = .panic .index) := by
  have hpos : 0 < rows * w := Nat.mul_pos hr h0
  have hle : rows * w ≤ rows * pw := Nat.mul_le_mul_left _ hw
  have hdiv : rows ≤ y.length / w := by
    rw [hy, Nat.le_div_iff_mul_le h0]; exact hle
  constructor
  · intro hlt
    have e1 : y.length / w = rows := by
      refine Nat.le_antisymm (Nat.le_of_lt_succ ?_) hdiv
      rw [hy, Nat.div_lt_iff_lt_mul h0]
      exact hlt
    have e2 : y.length / rows = pw := by rw [hy, Nat.mul_div_cancel_left _ hr]
    have ec : (chunksExact pw (y.map asU8)).length = rows := by
      rw [length_chunksExact, List.length_map, hy, Nat.mul_div_cancel _ (by omega)]
    have hm : (y.map asU8).length = rows * pw := by rw [List.length_map, hy]
    have eg : ∀ i, i < rows → (chunksExact pw (y.map asU8))[i]? =
        some (((y.map asU8).drop (i * pw)).take pw) := fun i hi =>
      getElem?_chunksExact (by rw [hm, Nat.mul_div_cancel _ (by omega)]; exact hi)
    unfold ycbcrToGrayscale
    rw [if_neg (by omega)]
    dsimp only
    rw [e1, if_neg (by omega), e2, if_neg (by omega)]
    obtain ⟨r, h1, h2, h3, -⟩ := fold_rows (w := w) (out := out)
      (f := fun out (chunk, i) =>
        if out.length < (i + 1) * w then .panic .index
        else if chunk.length < w then .panic .index
        else .ok (writeAt out (i * w) (chunk.take w)))
      (items := chunksExact pw (y.map asU8)) (row := fun g _ => g.take w)
      (by rw [ec, ho])
      (by
        intro g hg old _
        rw [List.length_take, chunk_length hg]
        omega)
      (by
        intro i g o hi hl _
        have hi' : i < rows := by
          have := (List.getElem?_eq_some_iff.1 hi).1
          omega
        have hm : (i + 1) * w ≤ rows * w := Nat.mul_le_mul_right _ hi'
        dsimp only
        rw [if_neg (by omega), if_neg (by
          rw [chunk_length (List.mem_of_getElem? hi)]
          omega)])
    refine ⟨r, h1, by rw [h2, ho], fun row x hrow hx => ?_⟩
    rw [h3 row _ x (eg row hrow) hx, List.getElem?_take_of_lt hx, getElem?_rowOf (by omega),
      List.getElem?_map]
  · intro hge
    have hd1 : rows + 1 ≤ y.length / w := by
      rw [hy, Nat.le_div_iff_mul_le h0]; exact hge
    generalize hn : y.length / w = n at *
    have hnw : n * w ≤ y.length := by rw [← hn]; exact Nat.div_mul_le_self _ _
    have hc1 : w ≤ y.length / n := by
      rw [Nat.le_div_iff_mul_le (by omega), Nat.mul_comm]; exact hnw
    generalize hk : y.length / n = k at *
    have hkn : n * k ≤ y.length := by rw [← hk]; exact Nat.mul_div_le _ _
    have hcn : n ≤ (chunksExact k (y.map asU8)).length := by
      rw [length_chunksExact, List.length_map, Nat.le_div_iff_mul_le (by omega)]
      exact hkn
    unfold ycbcrToGrayscale
    rw [if_neg (by omega)]
    dsimp only
    rw [hn, if_neg (by omega), hk, if_neg (by omega)]
    have step : ∀ (l : List (List UInt8)) (i : Nat) (o : List UInt8), o.length = rows * w →
        (∀ c ∈ l, w ≤ c.length) → rows < i + l.length → i ≤ rows →
        Out.fold (fun out (x : List UInt8 × Nat) =>
          if out.length < (x.2 + 1) * w then Out.panic .index
          else if x.1.length < w then .panic .index
          else .ok (writeAt out (x.2 * w) (x.1.take w))) o (l.zipIdx i) = .panic .index := by
      intro l
      induction l with
      | nil => intro i o _ _ h1 h2; simp at h1; omega
      | cons c l ih =>
        intro i o ho hc h1 h2
        rw [List.zipIdx_cons]
        unfold Out.fold
        by_cases hi : i = rows
        · subst hi
          dsimp only
          rw [if_pos (by rw [ho, Nat.add_one_mul i]; omega)]
          rfl
        · have hm : (i + 1) * w ≤ rows * w := Nat.mul_le_mul_right _ (by omega)
          have hm' := hm
          rw [Nat.add_one_mul i] at hm'
          have hcl : w ≤ c.length := hc c List.mem_cons_self
          dsimp only
          rw [if_neg (by omega), if_neg (by omega)]
          refine ih (i + 1) _ ?_ (fun c' h => hc c' (List.mem_cons_of_mem _ h)) ?_ (by omega)
          · rw [length_writeAt (by rw [List.length_take]; omega), ho]
          · rw [List.length_cons] at h1
            omega
    exact step _ 0 out ho (fun c hc => by rw [chunk_length hc]; exact hc1) (by omega) (by omega)

/-- The grayscale conversion is called with the luma plane. -/
theorem postProcessInner_gray {f : ColorFn} {c0 : Component} {cs : List Component}
    {inCs : ColorSpace} (hin : inCs = .ycbcr ∨ inCs = .grayscale) {w : Nat} {y : List I16}
    {ps : List (List I16)} {out : List UInt8} :
    postProcessInner f (c0 :: cs) inCs .grayscale w (y :: ps) out = ycbcrToGrayscale y w out := by
  rcases hin with rfl | rfl <;>
  · unfold postProcessInner
    simp [ColorSpace.numComponents, Out.bind]

/-- **C37** (part). With grayscale output, for every width `w` and padded width `pw`, all planes of
`rows` rows and an output strip of the same number of rows: if `rows·pw < (rows+1)·w` then byte
`row·w+x` of the strip is the luma sample in column `x` of row `row`. In all other cases the
conversion panics. What is missing from the property are these other widths (e.g. `w < 8`). -/
theorem c37_gray_partial {f : ColorFn} {c0 : Component} {cs : List Component} {inCs : ColorSpace}
    (hin : inCs = .ycbcr ∨ inCs = .grayscale) {w pw rows : Nat} {y : List I16}
    {ps : List (List I16)} {out : List UInt8} (hw : w ≤ pw) (h0 : 0 < w) (hr : 0 < rows)
    (ly : y.length = rows * pw) (lo : out.length = rows * w) :
    (rows * pw < (rows + 1) * w →
      ∃ r, postProcessInner f (c0 :: cs) inCs .grayscale w (y :: ps) out = .ok r ∧
        r.length = rows * w ∧ ∀ row x, row < rows → x < w → ∃ b s, r[row * w + x]? = some b ∧
          y[row * pw + x]? = some s ∧ IsByteOf b s) ∧
    ((rows + 1) * w ≤ rows * pw →
      postProcessInner f (c0 :: cs) inCs .grayscale w (y :: ps) out = .panic .index) := by
  rw [postProcessInner_gray hin]
  obtain ⟨h1, h2⟩ := ycbcrToGrayscale_spec hw h0 hr ly lo
  refine ⟨fun h => ?_, h2⟩
  obtain ⟨r, e1, e2, e3⟩ := h1 h
  refine ⟨r, e1, e2, fun row x hrow hx => ?_⟩
  have hin : row * pw + x < y.length := by
    have := Nat.mul_le_mul_right pw (show row + 1 ≤ _ from hrow)
    rw [Nat.add_one_mul row] at this
    omega
  refine ⟨_, y[row * pw + x], ?_, List.getElem?_eq_getElem _, isByteOf_asU8 _⟩
  rw [e3 row x hrow hx, List.getElem?_eq_getElem hin]
  rfl

/-! ### RGB -/

namespace Spec

/-- Red, green and blue of a pixel in the integer arithmetic of the converters. -/
def rgbValue (y cb cr : Int) : List Int :=
  [max 0 (min 255 (y + 45 * (cr - 128) / 32)),
   max 0 (min 255 (y - (11 * (cb - 128) + 23 * (cr - 128)) / 32)),
   max 0 (min 255 (y + 113 * (cb - 128) / 64))]

/-- Byte `b` is channel `c` of the pixel at index `i` of the planes; the channels are red, green,
blue and 255. -/
def IsPixel (y cb cr : List I16) (i c : Nat) (b : UInt8) : Prop :=
  ∃ sy sb sr, y[i]? = some sy ∧ cb[i]? = some sb ∧ cr[i]? = some sr ∧
    (rgbValue sy.toInt sb.toInt sr.toInt ++ [255])[c]? = some (b.toNat : Int)

end Spec

/-- The converter stores `k` bytes per pixel, those of `g`, and looks for room for them. -/
structure Packs (f : ColorFn) (k : Nat) (g : List I16 → List I16 → List I16 → List UInt8) : Prop where
  bytes : ∀ {y cb cr : List I16}, y.length = 16 → cb.length = 16 → cr.length = 16 →
    f.bytes y cb cr = g y cb cr
  append : ∀ {y y' cb cb' cr cr' : List I16}, cb.length = y.length → cr.length = y.length →
    g (y ++ y') (cb ++ cb') (cr ++ cr') = g y cb cr ++ g y' cb' cr'
  length : ∀ {y cb cr : List I16} {n : Nat}, y.length = n → cb.length = n → cr.length = n →
    (g y cb cr).length = k * n
  need : k * 16 ≤ f.need

/-- Converters that store three bytes per pixel. -/
def ColorFn.Three (f : ColorFn) : Prop := f = .rgbScalar ∨ f = .rgbSse ∨ f = .rgbAvx
/-- Converters that store four bytes per pixel, the last one 255. -/
def ColorFn.Four (f : ColorFn) : Prop := f = .rgbaScalar ∨ f = .rgbaSse ∨ f = .rgbaAvx

theorem length_flat {y cb cr : List I16} {n k : Nat} (g : I16 × I16 × I16 → List UInt8)
    (hg : ∀ p, (g p).length = k) (hy : y.length = n) (hb : cb.length = n) (hr : cr.length = n) :
    ((y.zip (cb.zip cr)).flatMap g).length = k * n := by
  rw [List.flatMap_def, length_flatten_const (n := k) (by
    intro x hx
    obtain ⟨w, -, rfl⟩ := List.mem_map.1 hx
    exact hg _), List.length_map, List.length_zip, List.length_zip, hy, hb, hr, Nat.min_self,
    Nat.min_self, Nat.mul_comm]

theorem packs_three {f : ColorFn} (h : f.Three) : Packs f 3 rgbScalar where
  bytes hy hb hr := by
    obtain ⟨h1, h2, -⟩ := c35_simd hy hb hr
    rcases h with rfl | rfl | rfl
    · rfl
    · exact h1
    · exact h2
  append := rgbScalar_append
  length := length_flat _ fun _ => rfl
  need := by rcases h with rfl | rfl | rfl <;> decide

theorem packs_four {f : ColorFn} (h : f.Four) : Packs f 4 rgbaScalar where
  bytes hy hb hr := by
    obtain ⟨-, -, h1, h2, -⟩ := c35_simd hy hb hr
    rcases h with rfl | rfl | rfl
    · rfl
    · exact h1
    · exact h2
  append := rgbaScalar_append
  length := length_flat _ fun _ => rfl
  need := by rcases h with rfl | rfl | rfl <;> decide

section
variable {f : ColorFn} {k : Nat} {g : List I16 → List I16 → List I16 → List UInt8}

theorem Packs.run (h : Packs f k g) {y cb cr : List I16} (hy : y.length = 16)
    (hb : cb.length = 16) (hr : cr.length = 16) (out : List UInt8) (pos : Nat) :
    f.run y cb cr out pos = if pos + f.need ≤ out.length then
      .ok (writeAt out pos (g y cb cr), pos + k * 16) else .panic .unwrap := by
  unfold ColorFn.run
  rw [h.bytes hy hb hr]
  dsimp only
  rw [h.length hy hb hr]
  have := h.need
  split
  · rw [if_pos (by omega)]
  · rfl

theorem chunksExact_cons {α : Type} {n : Nat} {l : List α} (hn : 0 < n) (h : n ≤ l.length) :
    chunksExact n l = l.take n :: chunksExact n (l.drop n) := by
  apply List.ext_getElem?
  intro i
  rcases i with _ | i
  · rw [getElem?_chunksExact (by exact Nat.div_pos h hn)]
    simp
  · rw [List.getElem?_cons_succ]
    have hd : l.length / n = (l.drop n).length / n + 1 := by
      rw [List.length_drop]
      have : l.length = (l.length - n) + n := by omega
      conv_lhs => rw [this]
      rw [Nat.add_div_right _ hn]
    by_cases hi : i < (l.drop n).length / n
    · rw [getElem?_chunksExact (by omega), getElem?_chunksExact hi, List.drop_drop]
      congr 3
      ring
    · rw [List.getElem?_eq_none (by rw [length_chunksExact]; omega),
        List.getElem?_eq_none (by rw [length_chunksExact]; omega)]

theorem length_take16 {l : List I16} {n : Nat} (h : n ≤ l.length) : (l.take n).length = n := by
  rw [List.length_take]; omega

theorem take_split16 (l : List I16) (E : Nat) :
    l.take (16 * (E + 1)) = l.take 16 ++ (l.drop 16).take (16 * E) := by
  rw [show 16 * (E + 1) = 16 + 16 * E by omega, List.take_add]

/-- The main loop of a row: `E` groups of sixteen pixels. It panics exactly if the last one has no
room. -/
theorem Packs.groups (h : Packs f k g) : ∀ (E : Nat) {y cb cr : List I16} {p : Nat}
    {out : List UInt8}, 16 * E ≤ y.length → cb.length = y.length → cr.length = y.length →
    convertGroups f (((chunksExact 16 y).zip ((chunksExact 16 cb).zip (chunksExact 16 cr))).take E)
      out p =
      if E = 0 ∨ p + k * 16 * E + (f.need - k * 16) ≤ out.length then
        .ok (writeAt out p (g (y.take (16 * E)) (cb.take (16 * E)) (cr.take (16 * E))),
          p + k * 16 * E)
      else .panic .unwrap
  | 0, y, cb, cr, p, out, _, _, _ => by
    rw [if_pos (Or.inl rfl)]
    simp only [List.take_zero, convertGroups, Nat.mul_zero, Nat.add_zero]
    have : g [] [] [] = [] := List.length_eq_zero_iff.1 (h.length (n := 0) rfl rfl rfl)
    rw [this]
    unfold writeAt
    simp
  | E + 1, y, cb, cr, p, out, hy, hb, hr => by
    have hneed := h.need
    rw [chunksExact_cons (by decide) (show 16 ≤ y.length by omega),
      chunksExact_cons (by decide) (show 16 ≤ cb.length by omega),
      chunksExact_cons (by decide) (show 16 ≤ cr.length by omega), List.zip_cons_cons,
      List.zip_cons_cons, List.take_succ_cons, convertGroups]
    have ty : (y.take 16).length = 16 := length_take16 (by omega)
    have tb : (cb.take 16).length = 16 := length_take16 (by omega)
    have tr : (cr.take 16).length = 16 := length_take16 (by omega)
    rw [h.run ty tb tr]
    have l48 := h.length ty tb tr
    have em : k * 16 * (E + 1) = k * 16 + k * 16 * E := by ring
    generalize hk : k * 16 = K at *
    by_cases h1 : p + f.need ≤ out.length
    · rw [if_pos h1]
      show convertGroups f _ (writeAt out p _) (p + K) = _
      have ih := Packs.groups h E (y := y.drop 16) (cb := cb.drop 16) (cr := cr.drop 16)
        (p := p + K) (out := writeAt out p (g (y.take 16) (cb.take 16) (cr.take 16)))
        (by rw [List.length_drop]; omega) (by rw [List.length_drop, List.length_drop]; omega)
        (by rw [List.length_drop, List.length_drop]; omega)
      rw [ih, length_writeAt (by rw [l48]; omega), hk]
      by_cases h2 : E = 0 ∨ p + K + K * E + (f.need - K) ≤ out.length
      · rw [if_pos h2, if_pos (by
          right
          rcases h2 with rfl | h2
          · rw [Nat.mul_zero] at em; omega
          · omega)]
        congr 2
        · rw [take_split16, take_split16, take_split16, h.append (by omega) (by omega)]
          have hl : (g ((y.drop 16).take (16 * E)) ((cb.drop 16).take (16 * E))
              ((cr.drop 16).take (16 * E))).length = k * (16 * E) :=
            h.length (length_take16 (by rw [List.length_drop]; omega))
              (length_take16 (by rw [List.length_drop]; omega))
              (length_take16 (by rw [List.length_drop]; omega))
          rw [← Nat.mul_assoc, hk] at hl
          conv_lhs => rw [← l48]
          refine writeAt_writeAt ?_
          rw [hl, l48]
          rcases h2 with rfl | h2
          · rw [Nat.mul_zero]; omega
          · omega
        · omega
      · rw [if_neg h2, if_neg (by omega)]
    · rw [if_neg h1, if_neg (by omega)]
      rfl

/-- Where the last sixteen pixels of a row of `nc` bytes per pixel go (`worker.rs:216-221`), if `k`
bytes are stored per pixel. -/
def lastPos (k nc w E : Nat) : Nat := k * 16 * E - (64 - (w * nc - k * 16 * E))

/-- The new contents of a row of at least sixteen pixels. -/
def rowBytes (g : List I16 → List I16 → List I16 → List UInt8) (k nc w : Nat) (y cb cr : List I16)
    (old : List UInt8) : List UInt8 :=
  let E := y.length / 16 - 1
  let n := y.length - 16
  writeAt (writeAt old 0 (g (y.take (16 * E)) (cb.take (16 * E)) (cr.take (16 * E))))
    (lastPos k nc w E) (g (y.drop n) (cb.drop n) (cr.drop n))

theorem Packs.row_wide (h : Packs f k g) {nc w : Nat} (hw : 16 ≤ w) {y cb cr : List I16}
    (hy : 16 ≤ y.length) (hb : cb.length = y.length) (hr : cr.length = y.length) {out : List UInt8}
    (hE : k * 16 * (y.length / 16 - 1) ≤ out.length) :
    convertRow f nc w y cb cr out =
      if (y.length / 16 - 1 = 0 ∨
          k * 16 * (y.length / 16 - 1) + (f.need - k * 16) ≤ out.length) ∧
        lastPos k nc w (y.length / 16 - 1) + f.need ≤ out.length
      then .ok (rowBytes g k nc w y cb cr out) else .panic .unwrap := by
  unfold convertRow rowBytes
  have h16 : 16 * (y.length / 16 - 1) ≤ y.length := by omega
  generalize y.length / 16 - 1 = E at *
  dsimp only
  rw [if_neg (by omega), h.groups _ h16 hb hr, Nat.zero_add]
  by_cases h1 : E = 0 ∨ k * 16 * E + (f.need - k * 16) ≤ out.length
  · rw [if_pos h1]
    show (lastGroup y).bind _ = _
    have lg : ∀ l : List I16, l.length = y.length → lastGroup l = .ok (l.drop (y.length - 16)) := by
      intro l hl
      unfold lastGroup
      rw [if_neg (by omega), hl]
    rw [lg y rfl, lg cb hb, lg cr hr]
    have hrun := h.run (y := y.drop (y.length - 16)) (cb := cb.drop (y.length - 16))
      (cr := cr.drop (y.length - 16)) (by rw [List.length_drop]; omega)
      (by rw [List.length_drop]; omega) (by rw [List.length_drop]; omega)
      (writeAt out 0 (g (y.take (16 * E)) (cb.take (16 * E)) (cr.take (16 * E))))
      (lastPos k nc w E)
    simp only [Out.bind]
    have hl := h.length (y := y.take (16 * E)) (cb := cb.take (16 * E)) (cr := cr.take (16 * E))
      (length_take16 (by omega)) (length_take16 (by omega)) (length_take16 (by omega))
    rw [← Nat.mul_assoc] at hl
    unfold lastPos at hrun ⊢
    rw [hrun, length_writeAt (by rw [hl]; omega)]
    by_cases h2 : k * 16 * E - (64 - (w * nc - k * 16 * E)) + f.need ≤ out.length
    · rw [if_pos h2, if_pos ⟨h1, h2⟩]
    · rw [if_neg h2, if_neg (fun h => h2 h.2)]
  · rw [if_neg h1, if_neg (fun h => h1 h.1)]
    rfl

/-- Sixteen samples, padded with zeros. -/
def pad16 (l : List I16) : List I16 := l ++ List.replicate (16 - l.length) 0

theorem length_pad16 {l : List I16} (h : l.length ≤ 16) : (pad16 l).length = 16 := by
  unfold pad16
  rw [List.length_append, List.length_replicate]
  omega

/-- The new contents of a row of less than sixteen pixels. -/
def rowSmall (g : List I16 → List I16 → List I16 → List UInt8) (nc w : Nat) (y cb cr : List I16) :
    List UInt8 :=
  (writeAt (List.replicate (16 * nc) 0) 0 (g (pad16 y) (pad16 cb) (pad16 cr))).take (w * nc)

theorem Packs.row_small (h : Packs f k g) {nc w : Nat} (hw : w < 16) {y cb cr : List I16}
    (hy : y.length ≤ 16) (hb : cb.length ≤ 16) (hr : cr.length ≤ 16) {out : List UInt8}
    (hl : out.length = w * nc) : convertRow f nc w y cb cr out =
      if f.need ≤ 16 * nc then .ok (rowSmall g nc w y cb cr) else .panic .unwrap := by
  unfold convertRow
  dsimp only
  rw [if_pos hw, if_neg (by omega)]
  have := h.run (length_pad16 hy) (length_pad16 hb) (length_pad16 hr)
    (List.replicate (16 * nc) (0 : UInt8)) 0
  unfold pad16 at this
  rw [this, Nat.zero_add, List.length_replicate]
  have hneed := h.need
  split
  · rename_i hn
    show Out.ok (writeAt out 0 _) = _
    have hg := h.length (length_pad16 hy) (length_pad16 hb) (length_pad16 hr)
    have hlen : (rowSmall g nc w y cb cr).length = w * nc := by
      unfold rowSmall
      rw [List.length_take, length_writeAt (by rw [hg, List.length_replicate]; omega),
        List.length_replicate]
      have := Nat.mul_le_mul_right nc (show w ≤ 16 by omega)
      omega
    congr 1
    show writeAt out 0 (rowSmall g nc w y cb cr) = _
    unfold writeAt
    rw [hlen, List.take_zero, List.nil_append, Nat.zero_add, ← hl, List.drop_length, List.append_nil]
  · rfl

end

/-- A strip, given the result for each of its rows. -/
theorem colorConvert_rows {f : ColorFn} {nc w h v pw : Nat} (hp : 0 < pw) (hhv : 0 < h * v)
    {y cb cr : List I16} (hy : y.length = 8 * (h * v) * pw) (hb : cb.length = y.length)
    (hr : cr.length = y.length) {out : List UInt8} (ho : 8 * (h * v) * (w * nc) ≤ out.length)
    {R : List I16 → List I16 → List I16 → List UInt8 → List UInt8}
    (hR : ∀ a b c old, a.length = pw → b.length = pw → c.length = pw → old.length = w * nc →
      convertRow f nc w a b c old = .ok (R a b c old) ∧ (R a b c old).length = w * nc) :
    ∃ r, colorConvertYcbcr f nc y cb cr w h v out = .ok r ∧ r.length = out.length ∧
      (∀ row j, row < 8 * (h * v) → j < w * nc → r[row * (w * nc) + j]? =
        (R ((y.drop (row * pw)).take pw) ((cb.drop (row * pw)).take pw)
          ((cr.drop (row * pw)).take pw) ((out.drop (row * (w * nc))).take (w * nc)))[j]?) ∧
      ∀ x, 8 * (h * v) * (w * nc) ≤ x → r[x]? = out[x]? := by
  have e : y.length / (h * v) / 8 = pw := by
    rw [hy, show 8 * (h * v) * pw = (8 * pw) * (h * v) by ring, Nat.mul_div_cancel _ hhv,
      Nat.mul_div_cancel_left _ (by decide)]
  rw [hy] at hb hr
  obtain ⟨hz1, hz2⟩ := getElem?_zip3_chunks hp hy hb hr
  unfold colorConvertYcbcr
  rw [if_neg (by omega)]
  dsimp only
  rw [e, if_neg (by omega)]
  obtain ⟨r, h1, h2, h3, h4⟩ := fold_rows (w := w * nc) (out := out)
    (f := fun out ((y, cb, cr), i) =>
          if out.length < (i + 1) * (w * nc) then .panic .index
          else
            (convertRow f nc w y cb cr ((out.drop (i * (w * nc))).take (w * nc))).bind fun row =>
              .ok (writeAt out (i * (w * nc)) row))
    (items := (chunksExact pw y).zip ((chunksExact pw cb).zip (chunksExact pw cr)))
    (row := fun g old => R g.1 g.2.1 g.2.2 old)
    (by rw [hz1]; exact ho)
    (by
      rintro ⟨a, b, c⟩ hg old hold
      obtain ⟨i, hi⟩ := List.mem_iff_getElem?.1 hg
      have hi' : i < 8 * (h * v) := by
        have := (List.getElem?_eq_some_iff.1 hi).1
        omega
      rw [hz2 i hi'] at hi
      cases hi
      exact (hR _ _ _ _ (length_rowOf hy hi') (length_rowOf hb hi') (length_rowOf hr hi') hold).2)
    (by
      rintro i ⟨a, b, c⟩ o hi hl hd
      have hi' : i < 8 * (h * v) := by
        have := (List.getElem?_eq_some_iff.1 hi).1
        omega
      rw [hz2 i hi'] at hi
      cases hi
      dsimp only
      have hm : (i + 1) * (w * nc) ≤ 8 * (h * v) * (w * nc) := Nat.mul_le_mul_right _ hi'
      have hm' := hm
      rw [Nat.add_one_mul i] at hm'
      rw [if_neg (by omega), hd, (hR _ _ _ _ (length_rowOf hy hi') (length_rowOf hb hi')
        (length_rowOf hr hi') (by rw [List.length_take, List.length_drop]; omega)).1]
      rfl)
  exact ⟨r, h1, h2, fun row j hrow hj => h3 row _ j (hz2 row hrow) hj,
    fun x hx => h4 x (by rw [hz1]; exact hx)⟩

/-! ### Pixels of a row -/

/-- `g` packs `k` bytes per pixel as `Spec.IsPixel` says. -/
def Shows (g : List I16 → List I16 → List I16 → List UInt8) (k : Nat) : Prop :=
  ∀ {y cb cr : List I16}, Near y → Near cb → Near cr → ∀ {i c : Nat}, i < y.length →
    i < cb.length → i < cr.length → c < k → ∃ b, (g y cb cr)[k * i + c]? = some b ∧
      IsPixel y cb cr i c b

theorem shows_three : Shows rgbScalar 3 := by
  intro y cb cr sy sb sr i c hy hb hr hc
  obtain ⟨r, g, b, h1, -, e1, e2, e3⟩ := pixel_near sy sb sr hy hb hr
  have hget := h1 c hc
  have hc' : c = 0 ∨ c = 1 ∨ c = 2 := by omega
  rcases hc' with rfl | rfl | rfl
  · exact ⟨r, hget, _, _, _, List.getElem?_eq_getElem hy, List.getElem?_eq_getElem hb,
      List.getElem?_eq_getElem hr, congrArg some e1.symm⟩
  · exact ⟨g, hget, _, _, _, List.getElem?_eq_getElem hy, List.getElem?_eq_getElem hb,
      List.getElem?_eq_getElem hr, congrArg some e2.symm⟩
  · exact ⟨b, hget, _, _, _, List.getElem?_eq_getElem hy, List.getElem?_eq_getElem hb,
      List.getElem?_eq_getElem hr, congrArg some e3.symm⟩

theorem shows_four : Shows rgbaScalar 4 := by
  intro y cb cr sy sb sr i c hy hb hr hc
  obtain ⟨r, g, b, -, h1, e1, e2, e3⟩ := pixel_near sy sb sr hy hb hr
  have hget := h1 c hc
  have hc' : c = 0 ∨ c = 1 ∨ c = 2 ∨ c = 3 := by omega
  rcases hc' with rfl | rfl | rfl | rfl
  · exact ⟨r, hget, _, _, _, List.getElem?_eq_getElem hy, List.getElem?_eq_getElem hb,
      List.getElem?_eq_getElem hr, congrArg some e1.symm⟩
  · exact ⟨g, hget, _, _, _, List.getElem?_eq_getElem hy, List.getElem?_eq_getElem hb,
      List.getElem?_eq_getElem hr, congrArg some e2.symm⟩
  · exact ⟨b, hget, _, _, _, List.getElem?_eq_getElem hy, List.getElem?_eq_getElem hb,
      List.getElem?_eq_getElem hr, congrArg some e3.symm⟩
  · exact ⟨255, hget, _, _, _, List.getElem?_eq_getElem hy, List.getElem?_eq_getElem hb,
      List.getElem?_eq_getElem hr, rfl⟩

theorem isPixel_of_eq {y cb cr y' cb' cr' : List I16} {i i' c : Nat} {b : UInt8}
    (h : IsPixel y cb cr i c b) (hy : y[i]? = y'[i']?) (hb : cb[i]? = cb'[i']?)
    (hr : cr[i]? = cr'[i']?) : IsPixel y' cb' cr' i' c b := by
  obtain ⟨a1, a2, a3, e1, e2, e3, e⟩ := h
  exact ⟨a1, a2, a3, hy ▸ e1, hb ▸ e2, hr ▸ e3, e⟩

theorem samples_take {l : List I16} (h : Near l) (n : Nat) : Near (l.take n) :=
  fun x hx => h x (List.mem_of_mem_take hx)

theorem samples_drop {l : List I16} (h : Near l) (n : Nat) : Near (l.drop n) :=
  fun x hx => h x (List.mem_of_mem_drop hx)

theorem samples_pad16 {l : List I16} (h : Near l) : Near (pad16 l) := by
  intro x hx
  rcases List.mem_append.1 hx with hx | hx
  · exact h x hx
  · rw [List.eq_of_mem_replicate hx]
    decide

theorem getElem?_pad16 {l : List I16} {i : Nat} (h : i < l.length) : (pad16 l)[i]? = l[i]? :=
  List.getElem?_append_left h

section
variable {f : ColorFn} {k : Nat} {g : List I16 → List I16 → List I16 → List UInt8}

theorem rowSmall_length (h : Packs f k g) {nc w : Nat} (hw : w ≤ 16) (hk : k ≤ nc)
    {y cb cr : List I16} (hy : y.length ≤ 16) (hb : cb.length ≤ 16) (hr : cr.length ≤ 16) :
    (rowSmall g nc w y cb cr).length = w * nc := by
  unfold rowSmall
  have := Nat.mul_le_mul_right 16 hk
  rw [List.length_take, length_writeAt (by
    rw [h.length (length_pad16 hy) (length_pad16 hb) (length_pad16 hr), List.length_replicate]
    omega), List.length_replicate]
  have := Nat.mul_le_mul_right nc hw
  omega

theorem rowSmall_pixel (h : Packs f k g) (hs : Shows g k) {w : Nat}
    {y cb cr : List I16} (hy : y.length ≤ 16) (hb : cb.length = y.length)
    (hr : cr.length = y.length) (sy : Near y) (sb : Near cb) (sr : Near cr) {x c : Nat}
    (hx : x < w) (hx' : x < y.length) (hc : c < k) :
    ∃ b, (rowSmall g k w y cb cr)[k * x + c]? = some b ∧ IsPixel y cb cr x c b := by
  have ly := length_pad16 hy
  have lb := length_pad16 (l := cb) (by omega)
  have lr := length_pad16 (l := cr) (by omega)
  obtain ⟨b, e, hp⟩ := hs (samples_pad16 sy) (samples_pad16 sb) (samples_pad16 sr) (i := x) (c := c)
    (by omega) (by omega) (by omega) hc
  refine ⟨b, ?_, isPixel_of_eq hp (getElem?_pad16 hx') (getElem?_pad16 (by omega))
    (getElem?_pad16 (by omega))⟩
  have hlt : k * x + c < w * k := by
    have := Nat.mul_le_mul_left k (show x + 1 ≤ w from hx)
    rw [Nat.mul_add, Nat.mul_one] at this
    rw [Nat.mul_comm w]
    omega
  unfold rowSmall
  rw [List.getElem?_take_of_lt hlt, getElem?_writeAt (by
    rw [h.length ly lb lr, List.length_replicate]; omega), h.length ly lb lr, if_pos, Nat.sub_zero, e]
  have := Nat.mul_le_mul_left k (show x + 1 ≤ 16 by omega)
  rw [Nat.mul_add, Nat.mul_one] at this
  omega

theorem lastPos_le (k nc w E : Nat) : lastPos k nc w E ≤ k * 16 * E := Nat.sub_le _ _

/-- What a row of at least sixteen pixels contains afterwards. -/
theorem rowBytes_spec (h : Packs f k g) (hs : Shows g k) {nc w E : Nat} {y cb cr : List I16}
    {old : List UInt8} (hy : 16 ≤ y.length) (hb : cb.length = y.length) (hr : cr.length = y.length)
    (sy : Near y) (sb : Near cb) (sr : Near cr) (hE : E = y.length / 16 - 1)
    (l1 : k * 16 * E ≤ old.length) (l2 : lastPos k nc w E + k * 16 ≤ old.length) :
    (rowBytes g k nc w y cb cr old).length = old.length ∧
    (∀ x c, c < k → k * x + c < lastPos k nc w E ∨
        lastPos k nc w E + k * 16 ≤ k * x + c ∧ k * x + c < k * 16 * E →
      ∃ b, (rowBytes g k nc w y cb cr old)[k * x + c]? = some b ∧ IsPixel y cb cr x c b) ∧
    (∀ x c, c < k → x < 16 →
      ∃ b, (rowBytes g k nc w y cb cr old)[lastPos k nc w E + (k * x + c)]? = some b ∧
        IsPixel y cb cr (y.length - 16 + x) c b) ∧
    ∀ j, k * 16 * E ≤ j → lastPos k nc w E + k * 16 ≤ j →
      (rowBytes g k nc w y cb cr old)[j]? = old[j]? := by
  have h16 : 16 * E ≤ y.length := by omega
  have lp := lastPos_le k nc w E
  have lg := h.length (y := y.take (16 * E)) (cb := cb.take (16 * E)) (cr := cr.take (16 * E))
    (length_take16 (by omega)) (length_take16 (by omega)) (length_take16 (by omega))
  have lg' := h.length (y := y.drop (y.length - 16)) (cb := cb.drop (y.length - 16))
    (cr := cr.drop (y.length - 16)) (n := 16) (by rw [List.length_drop]; omega)
    (by rw [List.length_drop]; omega) (by rw [List.length_drop]; omega)
  rw [← Nat.mul_assoc] at lg
  unfold rowBytes
  dsimp only
  rw [← hE]
  have w1 : 0 + (g (y.take (16 * E)) (cb.take (16 * E)) (cr.take (16 * E))).length ≤ old.length := by
    omega
  have w2 : lastPos k nc w E + (g (y.drop (y.length - 16)) (cb.drop (y.length - 16))
      (cr.drop (y.length - 16))).length ≤
      (writeAt old 0 (g (y.take (16 * E)) (cb.take (16 * E)) (cr.take (16 * E)))).length := by
    rw [length_writeAt w1]; omega
  refine ⟨?_, ?_, ?_, ?_⟩
  · rw [length_writeAt w2, length_writeAt w1]
  · intro x c hc hj
    have hx : x < 16 * E := by
      by_contra hh
      have := Nat.mul_le_mul_left k (Nat.le_of_not_lt hh)
      rw [← Nat.mul_assoc] at this
      omega
    obtain ⟨b, e, hp⟩ := hs (samples_take sy (16 * E)) (samples_take sb (16 * E))
      (samples_take sr (16 * E)) (i := x) (c := c) (by rw [List.length_take]; omega)
      (by rw [List.length_take]; omega) (by rw [List.length_take]; omega) hc
    refine ⟨b, ?_, isPixel_of_eq hp (List.getElem?_take_of_lt hx) (List.getElem?_take_of_lt hx)
      (List.getElem?_take_of_lt hx)⟩
    rw [getElem?_writeAt w2, if_neg (by omega), getElem?_writeAt w1, if_pos (by omega), Nat.sub_zero,
      e]
  · intro x c hc hx
    obtain ⟨b, e, hp⟩ := hs (samples_drop sy (y.length - 16)) (samples_drop sb (y.length - 16))
      (samples_drop sr (y.length - 16)) (i := x) (c := c) (by rw [List.length_drop]; omega)
      (by rw [List.length_drop]; omega) (by rw [List.length_drop]; omega) hc
    refine ⟨b, ?_, isPixel_of_eq hp List.getElem?_drop List.getElem?_drop List.getElem?_drop⟩
    have := Nat.mul_le_mul_left k (show x + 1 ≤ 16 by omega)
    rw [Nat.mul_add, Nat.mul_one] at this
    rw [getElem?_writeAt w2, if_pos (by omega), Nat.add_sub_cancel_left, e]
  · intro j h1 h2
    rw [getElem?_writeAt w2, if_neg (by omega), getElem?_writeAt w1, if_neg (by omega)]

end

/-- Values of a row of a plane. -/
theorem samples_row {l : List I16} (h : Near l) (a b : Nat) : Near ((l.drop a).take b) :=
  samples_take (samples_drop h a) b

theorem isPixel_of_row {y cb cr : List I16} {pw row x c : Nat} {b : UInt8} (hx : x < pw)
    (h : IsPixel ((y.drop (row * pw)).take pw) ((cb.drop (row * pw)).take pw)
      ((cr.drop (row * pw)).take pw) x c b) : IsPixel y cb cr (row * pw + x) c b := by
  have e : ∀ l : List I16, ((l.drop (row * pw)).take pw)[x]? = l[row * pw + x]? := by
    intro l
    rw [List.getElem?_take_of_lt hx, List.getElem?_drop]
  exact isPixel_of_eq h (e y) (e cb) (e cr)

/-! ### C38 -/

/-- **C38** (part, narrow images). With RGB output and the scalar or the AVX converter, for every
width `w` up to 16, padded width `pw` up to 16 (equal to 16 if `w` is), all sampling factors and all
planes of samples: byte `3·(row·w+x)+c` of the strip is channel `c` of the pixel in column `x` of row
`row`, and the rest of the buffer is not changed. -/
theorem c38_narrow_partial {f : ColorFn} (hf : f = .rgbScalar ∨ f = .rgbAvx)
    {c0 c1 c2 : Component} {cs : List Component} {w pw rows : Nat}
    {y cb cr cb' cr' : List I16} {out : List UInt8}
    (h1 : Upsampled c0 c1 y.length cb cb') (h2 : Upsampled c0 c2 y.length cr cr')
    (h0 : 0 < w) (hw : w ≤ pw) (hpw : pw ≤ 16) (hr : 0 < rows)
    (hrows : rows = 8 * (c0.horizontalSample * c0.verticalSample))
    (ly : y.length = rows * pw) (lb : cb'.length = rows * pw) (lr : cr'.length = rows * pw)
    (sy : Near y) (sb : Near cb') (sr : Near cr')
    (lo : rows * (w * 3) ≤ out.length) :
    ∃ r, postProcessInner f (c0 :: c1 :: c2 :: cs) .ycbcr .rgb w [y, cb, cr] out = .ok r ∧
      r.length = out.length ∧
      (∀ row x c, row < rows → x < w → c < 3 → ∃ b, r[3 * (row * w + x) + c]? = some b ∧
        IsPixel y cb' cr' (row * pw + x) c b) ∧
      ∀ k, rows * (w * 3) ≤ k → r[k]? = out[k]? := by
  rw [(postProcessInner_planes h1 h2).2.1]
  subst hrows
  have ht : f.Three := hf.imp id Or.inr
  have hn : f.need = 48 := by rcases hf with rfl | rfl <;> rfl
  have hp := packs_three ht
  by_cases hw16 : w < 16
  · obtain ⟨r, e1, e2, e3, e4⟩ := colorConvert_rows (f := f) (nc := 3) (w := w) (pw := pw)
      (h := c0.horizontalSample) (v := c0.verticalSample) (by omega) (by omega) ly (cb := cb')
      (cr := cr') (by omega) (by omega) (out := out) lo
      (R := fun a b c _ => rowSmall rgbScalar 3 w a b c)
      (by
        intro a b c old la lb lc lo
        rw [hp.row_small hw16 (by omega) (by omega) (by omega) lo, if_pos (by omega)]
        exact ⟨rfl, rowSmall_length hp (by omega) (le_refl 3) (by omega) (by omega) (by omega)⟩)
    refine ⟨r, e1, e2, fun row x c hrow hx hc => ?_, e4⟩
    have hj : 3 * x + c < w * 3 := by omega
    have la := length_rowOf ly hrow
    have lb' := length_rowOf lb hrow
    have lc' := length_rowOf lr hrow
    obtain ⟨b, g1, g2⟩ := rowSmall_pixel hp shows_three (w := w) (by omega) (by omega) (by omega)
      (samples_row sy (row * pw) pw) (samples_row sb (row * pw) pw) (samples_row sr (row * pw) pw) hx
      (by omega) hc
    refine ⟨b, ?_, isPixel_of_row (by omega) g2⟩
    rw [show 3 * (row * w + x) + c = row * (w * 3) + (3 * x + c) by ring, e3 row _ hrow hj, g1]
  · have hw' : w = 16 := by omega
    have hpw' : pw = 16 := by omega
    subst hw' hpw'
    have hrow16 : ∀ a b c : List I16, ∀ old : List UInt8, a.length = 16 → b.length = 16 →
        c.length = 16 → old.length = 16 * 3 → Near a → Near b → Near c →
        (rowBytes rgbScalar 3 3 16 a b c old).length = old.length ∧
        ∀ x ch, ch < 3 → x < 16 →
          ∃ t, (rowBytes rgbScalar 3 3 16 a b c old)[3 * x + ch]? = some t ∧
            IsPixel a b c x ch t := by
      intro a b c old la lb lc lo sa sb sc
      obtain ⟨q1, -, q2, -⟩ := rowBytes_spec hp shows_three (nc := 3) (w := 16) (E := 0)
        (y := a) (cb := b) (cr := c) (old := old) (by omega) (by omega) (by omega) sa sb sc
        (by omega) (by omega) (by unfold lastPos; omega)
      refine ⟨q1, fun x ch hch hx => ?_⟩
      have := q2 x ch hch hx
      rw [la] at this
      unfold lastPos at this
      simpa using this
    obtain ⟨r, e1, e2, e3, e4⟩ := colorConvert_rows (f := f) (nc := 3) (w := 16) (pw := 16)
      (h := c0.horizontalSample) (v := c0.verticalSample) (by omega) (by omega) ly (cb := cb')
      (cr := cr') (by omega) (by omega) (out := out) lo
      (R := fun a b c old => rowBytes rgbScalar 3 3 16 a b c old)
      (by
        intro a b c old la lb lc lo
        rw [hp.row_wide (by omega) (by omega) (by omega) (by omega) (by omega), if_pos ⟨Or.inl (by
          omega), by unfold lastPos; omega⟩]
        refine ⟨rfl, ?_⟩
        unfold rowBytes
        have g1 : (rgbScalar (a.take (16 * (a.length / 16 - 1))) (b.take (16 * (a.length / 16 - 1)))
            (c.take (16 * (a.length / 16 - 1)))).length = 3 * 0 :=
          hp.length (by rw [la]; rfl) (by rw [la]; rfl) (by rw [la]; rfl)
        have g2 : (rgbScalar (a.drop (a.length - 16)) (b.drop (a.length - 16))
            (c.drop (a.length - 16))).length = 3 * 16 :=
          hp.length (by rw [List.length_drop]; omega) (by rw [List.length_drop]; omega)
            (by rw [List.length_drop]; omega)
        have e0 : lastPos 3 3 16 (a.length / 16 - 1) = 0 := by unfold lastPos; omega
        dsimp only
        rw [length_writeAt, length_writeAt (by omega), lo]
        rw [length_writeAt (by omega), e0]
        omega)
    refine ⟨r, e1, e2, fun row x c hrow hx hc => ?_, e4⟩
    obtain ⟨-, hq⟩ := hrow16 _ _ _ ((out.drop (row * (16 * 3))).take (16 * 3)) (length_rowOf ly hrow)
      (length_rowOf lb hrow) (length_rowOf lr hrow) (by
        rw [List.length_take, List.length_drop]
        have := Nat.mul_le_mul_right (16 * 3) (show row + 1 ≤ _ from hrow)
        rw [Nat.add_one_mul row] at this
        omega)
      (samples_row sy _ _) (samples_row sb _ _) (samples_row sr _ _)
    obtain ⟨b, g1, g2⟩ := hq x c hc hx
    refine ⟨b, ?_, isPixel_of_row (by omega) g2⟩
    rw [show 3 * (row * 16 + x) + c = row * (16 * 3) + (3 * x + c) by ring,
      e3 row _ hrow (by omega), g1]

/-- Room for the last sixteen pixels and for the groups before them. -/
theorem row_room {w pw E : Nat} (h16 : 16 ≤ w) (hE : E = pw / 16 - 1) (hpw : pw ≤ w + 15) :
    3 * 16 * E + 3 ≤ w * 3 ∧ lastPos 3 3 w E + 3 * 16 ≤ w * 3 := by
  unfold lastPos
  omega

theorem rowBytes_length {f : ColorFn} {k : Nat} {g : List I16 → List I16 → List I16 → List UInt8}
    (h : Packs f k g) {nc w E : Nat} {y cb cr : List I16} {old : List UInt8} (hy : 16 ≤ y.length)
    (hb : cb.length = y.length) (hr : cr.length = y.length) (hE : E = y.length / 16 - 1)
    (l1 : k * 16 * E ≤ old.length) (l2 : lastPos k nc w E + k * 16 ≤ old.length) :
    (rowBytes g k nc w y cb cr old).length = old.length := by
  have lg := h.length (y := y.take (16 * E)) (cb := cb.take (16 * E)) (cr := cr.take (16 * E))
    (length_take16 (by omega)) (length_take16 (by omega)) (length_take16 (by omega))
  have lg' := h.length (y := y.drop (y.length - 16)) (cb := cb.drop (y.length - 16))
    (cr := cr.drop (y.length - 16)) (n := 16) (by rw [List.length_drop]; omega)
    (by rw [List.length_drop]; omega) (by rw [List.length_drop]; omega)
  rw [← Nat.mul_assoc] at lg
  unfold rowBytes
  dsimp only
  rw [← hE, length_writeAt, length_writeAt (by omega)]
  rw [length_writeAt (by omega)]
  omega

/-- If the first row panics, the strip does. -/
theorem colorConvert_panic {f : ColorFn} {nc w h v pw : Nat} (hp : 0 < pw) (hhv : 0 < h * v)
    {y cb cr : List I16} (hy : y.length = 8 * (h * v) * pw) (hb : cb.length = y.length)
    (hr : cr.length = y.length) {out : List UInt8} (ho : 8 * (h * v) * (w * nc) ≤ out.length)
    {s : Site} (hR : ∀ a b c old, a.length = pw → b.length = pw → c.length = pw →
      old.length = w * nc → convertRow f nc w a b c old = .panic s) :
    colorConvertYcbcr f nc y cb cr w h v out = .panic s := by
  have e : y.length / (h * v) / 8 = pw := by
    rw [hy, show 8 * (h * v) * pw = (8 * pw) * (h * v) by ring, Nat.mul_div_cancel _ hhv,
      Nat.mul_div_cancel_left _ (by decide)]
  rw [hy] at hb hr
  obtain ⟨hz1, hz2⟩ := getElem?_zip3_chunks hp hy hb hr
  unfold colorConvertYcbcr
  rw [if_neg (by omega)]
  dsimp only
  rw [e, if_neg (by omega)]
  have h0 := hz2 0 (by omega)
  generalize (chunksExact pw y).zip ((chunksExact pw cb).zip (chunksExact pw cr)) = items at *
  have hi : 0 < 8 * (h * v) := by omega
  match items, h0 with
  | x :: xs, h0 =>
    injection h0 with h0
    subst h0
    rw [List.zipIdx_cons]
    unfold Out.fold
    dsimp only
    have : w * nc ≤ out.length := le_trans (Nat.le_mul_of_pos_left _ hi) ho
    rw [if_neg (by omega), hR _ _ _ _ (length_rowOf hy hi) (length_rowOf hb hi) (length_rowOf hr hi) (by
      rw [List.length_take, List.length_drop]; omega)]
    rfl

/-- Column and channel of the pixel whose value is stored in byte `j` of a row of an image `w` pixels wide
whose padded rows have `pw` columns: the groups of 16 except for the last one, then the last 16 columns at
a position that is computed from the width. -/
def Spec.rowSource (w pw j : Nat) : Option (Nat × Nat) :=
  let E := pw / 16 - 1
  let p := 48 * E - (64 - (3 * w - 48 * E))
  if w ≤ 16 then some (j / 3, j % 3)
  else if p ≤ j ∧ j < p + 48 then some (pw - 16 + (j - p) / 3, (j - p) % 3)
  else if j < 48 * E then some (j / 3, j % 3) else none

/-- **C38** (what is true, all bytes of the strip). With RGB output, for every width, all padded widths
`pw` less than 16 above it, all sampling factors and all planes of values near the range of samples, unless
the converter is the SSE one and (`w < 22` or less than 6 columns remain after the groups of 16): byte `j`
of a row has the value of the pixel that `rowSource` says, or is not written if that is none. -/
theorem c38_exact_partial {f : ColorFn} (hf : f.Three) {c0 c1 c2 : Component} {cs : List Component}
    {w pw rows : Nat} {y cb cr cb' cr' : List I16} {out : List UInt8}
    (hs : f = .rgbSse → 22 ≤ w ∧ 16 * (pw / 16 - 1) + 6 ≤ w)
    (h1 : Upsampled c0 c1 y.length cb cb') (h2 : Upsampled c0 c2 y.length cr cr')
    (h0 : 0 < w) (hw : w ≤ pw) (hpw : pw ≤ w + 15) (hpw' : w ≤ 16 → pw ≤ 16) (hr : 0 < rows)
    (hrows : rows = 8 * (c0.horizontalSample * c0.verticalSample))
    (ly : y.length = rows * pw) (lb : cb'.length = rows * pw) (lr : cr'.length = rows * pw)
    (sy : Near y) (sb : Near cb') (sr : Near cr')
    (lo : rows * (w * 3) ≤ out.length) :
    ∃ r, postProcessInner f (c0 :: c1 :: c2 :: cs) .ycbcr .rgb w [y, cb, cr] out = .ok r ∧
      r.length = out.length ∧
      (∀ row j, row < rows → j < w * 3 →
        (∀ x c, rowSource w pw j = some (x, c) → ∃ b, r[row * (w * 3) + j]? = some b ∧
          IsPixel y cb' cr' (row * pw + x) c b) ∧
        (rowSource w pw j = none → r[row * (w * 3) + j]? = out[row * (w * 3) + j]?)) ∧
      ∀ k, rows * (w * 3) ≤ k → r[k]? = out[k]? := by
  by_cases h16 : w ≤ 16
  · obtain ⟨r, e1, e2, e3, e4⟩ := c38_narrow_partial (f := f) (cs := cs) (by
        rcases hf with e | e | e
        · exact Or.inl e
        · have := hs e; omega
        · exact Or.inr e) h1 h2 h0 hw (hpw' h16) hr hrows ly lb lr sy sb sr lo
    refine ⟨r, e1, e2, fun row j hrow hj => ?_, e4⟩
    unfold rowSource
    dsimp only
    rw [if_pos h16]
    refine ⟨fun x c h => ?_, fun h => by cases h⟩
    cases h
    obtain ⟨b, g1, g2⟩ := e3 row (j / 3) (j % 3) hrow (by omega) (by omega)
    refine ⟨b, ?_, g2⟩
    rw [← g1]
    congr 1
    have := Nat.div_add_mod j 3
    calc row * (w * 3) + j = row * (w * 3) + (3 * (j / 3) + j % 3) := by rw [this]
      _ = _ := by ring
  rw [(postProcessInner_planes h1 h2).2.1]
  subst hrows
  have hp := packs_three hf
  obtain ⟨hr1, hr2⟩ := row_room (w := w) (pw := pw) (by omega) rfl hpw
  have hneed : f.need = 48 ∨ f = .rgbSse ∧ f.need = 64 := by
    rcases hf with rfl | rfl | rfl
    · exact Or.inl rfl
    · exact Or.inr ⟨rfl, rfl⟩
    · exact Or.inl rfl
  obtain ⟨r, e1, e2, e3, e4⟩ := colorConvert_rows (f := f) (nc := 3) (w := w) (pw := pw)
    (h := c0.horizontalSample) (v := c0.verticalSample) (by omega) (by omega) ly (cb := cb')
    (cr := cr') (by omega) (by omega) (out := out) lo
    (R := fun a b c old => rowBytes rgbScalar 3 3 w a b c old)
    (by
      intro a b c old la lb lc lo
      refine ⟨?_, ?_⟩
      · rw [hp.row_wide (by omega) (by omega) (by omega) (by omega) (by rw [la]; omega), la, lo,
          if_pos]
        rcases hneed with hn | ⟨hn, hn'⟩
        · rw [hn]
          omega
        · obtain ⟨k1, k2⟩ := hs hn
          rw [hn']
          unfold lastPos
          omega
      · rw [rowBytes_length hp (E := pw / 16 - 1) (by omega) (by omega) (by omega) (by rw [la])
          (by omega) (by omega), lo])
  have key : ∀ row, row < 8 * (c0.horizontalSample * c0.verticalSample) → _ := fun row hrow =>
    rowBytes_spec hp shows_three (nc := 3) (w := w) (E := pw / 16 - 1)
      (y := (y.drop (row * pw)).take pw) (cb := (cb'.drop (row * pw)).take pw)
      (cr := (cr'.drop (row * pw)).take pw) (old := (out.drop (row * (w * 3))).take (w * 3))
      (by rw [length_rowOf ly hrow]; omega) (by rw [length_rowOf ly hrow, length_rowOf lb hrow])
      (by rw [length_rowOf ly hrow, length_rowOf lr hrow]) (samples_row sy _ _) (samples_row sb _ _)
      (samples_row sr _ _) (by rw [length_rowOf ly hrow])
  have lout : ∀ row, row < 8 * (c0.horizontalSample * c0.verticalSample) →
      ((out.drop (row * (w * 3))).take (w * 3)).length = w * 3 := by
    intro row hrow
    rw [List.length_take, List.length_drop]
    have := Nat.mul_le_mul_right (w * 3) (show row + 1 ≤ _ from hrow)
    rw [Nat.add_one_mul row] at this
    omega
  refine ⟨r, e1, e2, fun row j hrow hj => ?_, e4⟩
  obtain ⟨-, qa, qb, qc⟩ := key row hrow (by rw [lout row hrow]; omega) (by rw [lout row hrow]; omega)
  have hlp : 48 * (pw / 16 - 1) - (64 - (3 * w - 48 * (pw / 16 - 1))) = lastPos 3 3 w (pw / 16 - 1) := by
    unfold lastPos
    omega
  unfold rowSource
  dsimp only
  rw [if_neg h16, hlp]
  rw [length_rowOf ly hrow] at qb
  have hle := lastPos_le 3 3 w (pw / 16 - 1)
  generalize lastPos 3 3 w (pw / 16 - 1) = p at *
  by_cases hin : p ≤ j ∧ j < p + 48
  · rw [if_pos hin]
    refine ⟨fun x c h => ?_, fun h => by cases h⟩
    cases h
    obtain ⟨b, g1, g2⟩ := qb ((j - p) / 3) ((j - p) % 3) (by omega) (by omega)
    refine ⟨b, ?_, isPixel_of_row (by omega) g2⟩
    rw [e3 row _ hrow hj, ← g1, Nat.div_add_mod, Nat.add_sub_cancel' hin.1]
  · rw [if_neg hin]
    by_cases hlt : j < 48 * (pw / 16 - 1)
    · rw [if_pos hlt]
      refine ⟨fun x c h => ?_, fun h => by cases h⟩
      cases h
      obtain ⟨b, g1, g2⟩ := qa (j / 3) (j % 3) (by omega) (by omega)
      refine ⟨b, ?_, isPixel_of_row (by omega) g2⟩
      rw [e3 row _ hrow hj, ← g1, Nat.div_add_mod]
    · rw [if_neg hlt]
      refine ⟨fun x c h => (by cases h), fun _ => ?_⟩
      rw [e3 row _ hrow hj, qc _ (by omega) (by omega), List.getElem?_take_of_lt hj, List.getElem?_drop]

/-- **C38** (part, other images). With RGB output, for every width `w ≥ 17`, all padded widths `pw`
less than 16 above it, all sampling factors and all planes of samples, unless the converter is the
SSE one and (`w < 22` or less than 6 columns remain after the groups of 16): all pixels except for the
last 31 columns are right, and nothing is written outside of the strip. The right edge is not what
the property says: the last 16 columns of the padded row are stored at a fixed place, and the last
byte of each row is not written. -/
theorem c38_wide_partial {f : ColorFn} (hf : f.Three) {c0 c1 c2 : Component} {cs : List Component}
    {w pw rows : Nat} {y cb cr cb' cr' : List I16} {out : List UInt8}
    (hs : f = .rgbSse → 22 ≤ w ∧ 16 * (pw / 16 - 1) + 6 ≤ w)
    (h1 : Upsampled c0 c1 y.length cb cb') (h2 : Upsampled c0 c2 y.length cr cr')
    (h17 : 17 ≤ w) (hw : w ≤ pw) (hpw : pw ≤ w + 15) (hr : 0 < rows)
    (hrows : rows = 8 * (c0.horizontalSample * c0.verticalSample))
    (ly : y.length = rows * pw) (lb : cb'.length = rows * pw) (lr : cr'.length = rows * pw)
    (sy : Near y) (sb : Near cb') (sr : Near cr')
    (lo : rows * (w * 3) ≤ out.length) :
    ∃ r, postProcessInner f (c0 :: c1 :: c2 :: cs) .ycbcr .rgb w [y, cb, cr] out = .ok r ∧
      r.length = out.length ∧
      (∀ row x c, row < rows → x + 31 < w → c < 3 → ∃ b, r[3 * (row * w + x) + c]? = some b ∧
        IsPixel y cb' cr' (row * pw + x) c b) ∧
      (∀ E p, E = pw / 16 - 1 → p = 48 * E - (64 - (3 * w - 48 * E)) →
        ∀ row x c, row < rows → x < 16 → c < 3 →
          ∃ b, r[3 * (row * w) + p + (3 * x + c)]? = some b ∧
            IsPixel y cb' cr' (row * pw + (pw - 16 + x)) c b) ∧
      (∀ row, row < rows → r[3 * (row * w + (w - 1)) + 2]? = out[3 * (row * w + (w - 1)) + 2]?) ∧
      ∀ k, rows * (w * 3) ≤ k → r[k]? = out[k]? := by
  obtain ⟨r, e1, e2, e3, e4⟩ := c38_exact_partial (cs := cs) hf hs h1 h2 (by omega) hw hpw (by omega) hr
    hrows ly lb lr sy sb sr lo
  refine ⟨r, e1, e2, fun row x c hrow hx hc => ?_, fun E p hE hp row x c hrow hx hc => ?_, fun row hrow => ?_,
    e4⟩
  · have := (e3 row (3 * x + c) hrow (by omega)).1 x c (by
      unfold rowSource
      dsimp only
      rw [if_neg (by omega), if_neg (by omega), if_pos (by omega), show (3 * x + c) / 3 = x by omega,
        show (3 * x + c) % 3 = c by omega])
    rwa [show row * (w * 3) + (3 * x + c) = 3 * (row * w + x) + c by ring] at this
  · have := (e3 row (p + (3 * x + c)) hrow (by omega)).1 (pw - 16 + x) c (by
      unfold rowSource
      dsimp only
      rw [← hE, ← hp, if_neg (by omega), if_pos (by omega), show (p + (3 * x + c) - p) / 3 = x by omega,
        show (p + (3 * x + c) - p) % 3 = c by omega])
    rwa [show row * (w * 3) + (p + (3 * x + c)) = 3 * (row * w) + p + (3 * x + c) by ring] at this
  · have := (e3 row (3 * (w - 1) + 2) hrow (by omega)).2 (by
      unfold rowSource
      dsimp only
      rw [if_neg (by omega), if_neg (by omega), if_neg (by omega)])
    rwa [show row * (w * 3) + (3 * (w - 1) + 2) = 3 * (row * w + (w - 1)) + 2 by ring] at this

/-- **C38** (SSE converter). With RGB output the SSE converter panics for every other width. -/
theorem c38_sse_false {c0 c1 c2 : Component} {cs : List Component}
    {w pw rows : Nat} {y cb cr cb' cr' : List I16} {out : List UInt8}
    (hs : w < 22 ∨ w < 16 * (pw / 16 - 1) + 6)
    (h1 : Upsampled c0 c1 y.length cb cb') (h2 : Upsampled c0 c2 y.length cr cr')
    (h0 : 0 < w) (hw : w ≤ pw) (hpw : pw ≤ w + 15) (hpw' : w < 16 → pw ≤ 16) (hr : 0 < rows)
    (hrows : rows = 8 * (c0.horizontalSample * c0.verticalSample))
    (ly : y.length = rows * pw) (lb : cb'.length = rows * pw) (lr : cr'.length = rows * pw)
    (lo : rows * (w * 3) ≤ out.length) :
    postProcessInner .rgbSse (c0 :: c1 :: c2 :: cs) .ycbcr .rgb w [y, cb, cr] out =
      .panic .unwrap := by
  rw [(postProcessInner_planes h1 h2).2.1]
  subst hrows
  have hp := packs_three (f := .rgbSse) (Or.inr (Or.inl rfl))
  refine colorConvert_panic (pw := pw) (by omega) (by omega) ly (by omega) (by omega) lo ?_
  intro a b c old la lb lc lo
  by_cases h16 : w < 16
  · have := hpw' h16
    rw [hp.row_small h16 (by omega) (by omega) (by omega) lo, if_neg (by decide)]
  · obtain ⟨hr1, hr2⟩ := row_room (w := w) (pw := pw) (by omega) rfl hpw
    rw [hp.row_wide (by omega) (by omega) (by omega) (by omega) (by rw [la]; omega), la, lo,
      if_neg]
    show ¬ ((_ ∨ _ + (64 - 48) ≤ _) ∧ _ + 64 ≤ _)
    unfold lastPos
    omega

/-- **C38** is false for every width `w ≥ 17` and every converter that a decoder uses: the last
pixel of the first row of a white image is not white. -/
theorem c38_false {f : ColorFn} (hf : f.Three) {c0 c1 c2 : Component} {cs : List Component}
    {w pw rows n : Nat} {y cb cr cb' cr' : List I16} {out : List UInt8}
    (h1 : Upsampled c0 c1 y.length cb cb') (h2 : Upsampled c0 c2 y.length cr cr')
    (h17 : 17 ≤ w) (hw : w ≤ pw) (hpw : pw ≤ w + 15) (hr : 0 < rows)
    (hrows : rows = 8 * (c0.horizontalSample * c0.verticalSample))
    (ly : y = List.replicate (rows * pw) 255) (lb : cb' = List.replicate (rows * pw) 128)
    (lr : cr' = List.replicate (rows * pw) 128) (lo : out = List.replicate n 0)
    (hn : rows * (w * 3) ≤ n) :
    ¬ ∃ r, postProcessInner f (c0 :: c1 :: c2 :: cs) .ycbcr .rgb w [y, cb, cr] out = .ok r ∧
      ∀ row x c, row < rows → x < w → c < 3 → ∃ b, r[3 * (row * w + x) + c]? = some b ∧
        IsPixel y cb' cr' (row * pw + x) c b := by
  rintro ⟨r, hok, hall⟩
  have ly' : y.length = rows * pw := by rw [ly, List.length_replicate]
  have lb' : cb'.length = rows * pw := by rw [lb, List.length_replicate]
  have lr' : cr'.length = rows * pw := by rw [lr, List.length_replicate]
  have lo' : rows * (w * 3) ≤ out.length := by rw [lo, List.length_replicate]; exact hn
  have sy : Near y := by rw [ly]; intro x hx; rw [List.eq_of_mem_replicate hx]; decide
  have s128 : ∀ n, Near (List.replicate n (128 : I16)) := by
    intro n x hx; rw [List.eq_of_mem_replicate hx]; decide
  by_cases hs : f = .rgbSse → 22 ≤ w ∧ 16 * (pw / 16 - 1) + 6 ≤ w
  · obtain ⟨r', e1, -, -, -, e5, -⟩ := c38_wide_partial (cs := cs) hf hs h1 h2 h17 hw hpw hr hrows
      ly' lb' lr' sy (lb ▸ s128 _) (lr ▸ s128 _) lo'
    rw [hok] at e1
    injection e1 with e1
    subst e1
    obtain ⟨b, g1, a1, a2, a3, g2, g3, g4, g5⟩ := hall 0 (w - 1) 2 hr (by omega) (by omega)
    have := e5 0 hr
    rw [g1, lo, List.getElem?_replicate] at this
    have hb : b = 0 := by
      split at this
      · injection this
      · cases this
    have v : ∀ {l : List I16} {i : Nat} {a x : I16} {n : Nat}, l = List.replicate n x →
        l[i]? = some a → a = x := by
      intro l i a x n hl h
      rw [hl] at h
      exact List.eq_of_mem_replicate (List.mem_of_getElem? h)
    rw [v ly g2, v lb g3, v lr g4, hb] at g5
    exact absurd g5 (by decide)
  · have hf' : f = .rgbSse := by by_contra hne; exact hs fun h => absurd h hne
    subst hf'
    have := c38_sse_false (cs := cs) (w := w) (pw := pw) (by
      by_contra hh
      exact hs fun _ => by omega) h1 h2 (by omega) hw hpw (by omega) hr hrows ly' lb' lr' lo'
    rw [hok] at this
    cases this

/-! ### C39 -/

/-- Every decoder object uses a converter that stores three bytes per pixel. -/
theorem reachable_three {d : Decoder} (h : Reachable d) : d.colorFn.Three := by
  obtain ⟨cpu, o, hf, -⟩ := reachable_good h
  have e : d.colorFn = (Decoder.newWithOptions cpu o).colorFn := congrArg (·.2.2) hf
  rw [e]
  unfold Decoder.newWithOptions chooseColor
  dsimp only
  split
  · exact Or.inr (Or.inr rfl)
  · split
    · exact Or.inr (Or.inl rfl)
    · exact Or.inl rfl

theorem black_not_255 {a b c : I16} {ch : Nat} (ha : a = 0) (hb : b = 128 ∨ b = 0)
    (hc : c = 128 ∨ c = 0) (h : ch < 3) :
    (rgbValue a.toInt b.toInt c.toInt ++ [255])[ch]? ≠ some 255 := by
  have h' : ch = 0 ∨ ch = 1 ∨ ch = 2 := by omega
  subst ha
  rcases hb with rfl | rfl <;> rcases hc with rfl | rfl <;> rcases h' with rfl | rfl | rfl <;> decide

theorem mem_pad16 {l : List I16} {v : I16} (h : ∀ x ∈ l, x = v) {i : Nat} {a : I16}
    (hi : (pad16 l)[i]? = some a) : a = v ∨ a = 0 := by
  rcases List.mem_append.1 (List.mem_of_getElem? hi) with hm | hm
  · exact Or.inl (h _ hm)
  · exact Or.inr (List.eq_of_mem_replicate hm)

theorem replicate_row {l : List I16} {n a b : Nat} {v : I16} (h : l = List.replicate n v) :
    ∀ x ∈ (l.drop a).take b, x = v := by
  intro x hx
  rw [h] at hx
  exact List.eq_of_mem_replicate (List.mem_of_mem_drop (List.mem_of_mem_take hx))

/-- **C39** is false for every decoder object, every width and all sampling factors: the last byte
of the first row of a black image is not 255 with RGBA output. (It is also false for RGBX, which is
the same function.) -/
theorem c39_false {d : Decoder} (hd : Reachable d) {c0 c1 c2 : Component} {cs : List Component}
    {outCs : ColorSpace} (hcs : outCs = .rgba ∨ outCs = .rgbx)
    {w pw rows n : Nat} {y cb cr cb' cr' : List I16} {out : List UInt8}
    (h1 : Upsampled c0 c1 y.length cb cb') (h2 : Upsampled c0 c2 y.length cr cr')
    (h0 : 0 < w) (hw : w ≤ pw) (hpw : pw ≤ w + 15) (hpw' : w < 16 → pw ≤ 16) (hr : 0 < rows)
    (hrows : rows = 8 * (c0.horizontalSample * c0.verticalSample))
    (ly : y = List.replicate (rows * pw) 0) (lb : cb' = List.replicate (rows * pw) 128)
    (lr : cr' = List.replicate (rows * pw) 128) (lo : out = List.replicate n 0)
    (hn : rows * (w * 4) ≤ n) :
    ∃ r b, postProcessInner d.colorFn (c0 :: c1 :: c2 :: cs) .ycbcr outCs w [y, cb, cr] out = .ok r ∧
      r[4 * (w - 1) + 3]? = some b ∧ b ≠ 255 := by
  have hf := reachable_three hd
  generalize d.colorFn = f at hf ⊢
  have hp := packs_three hf
  have hneed : f.need ≤ 64 := by rcases hf with rfl | rfl | rfl <;> decide
  have ly' : y.length = rows * pw := by rw [ly, List.length_replicate]
  have lb' : cb'.length = rows * pw := by rw [lb, List.length_replicate]
  have lr' : cr'.length = rows * pw := by rw [lr, List.length_replicate]
  have lo' : rows * (w * 4) ≤ out.length := by rw [lo, List.length_replicate]; exact hn
  have sy : Near y := by rw [ly]; intro x hx; rw [List.eq_of_mem_replicate hx]; decide
  have s128 : ∀ n, Near (List.replicate n (128 : I16)) := by
    intro n x hx; rw [List.eq_of_mem_replicate hx]; decide
  have sb : Near cb' := lb ▸ s128 _
  have sr : Near cr' := lr ▸ s128 _
  have e0 : postProcessInner f (c0 :: c1 :: c2 :: cs) .ycbcr outCs w [y, cb, cr] out =
      colorConvertYcbcr f 4 y cb' cr' w c0.horizontalSample c0.verticalSample out := by
    rcases hcs with rfl | rfl
    · exact (postProcessInner_planes h1 h2).2.2.1
    · exact (postProcessInner_planes h1 h2).2.2.2
  rw [e0]
  subst hrows
  by_cases hw16 : w < 16
  · have hpw16 := hpw' hw16
    obtain ⟨r, e1, e2, e3, e4⟩ := colorConvert_rows (f := f) (nc := 4) (w := w) (pw := pw)
      (h := c0.horizontalSample) (v := c0.verticalSample) (by omega) (by omega) ly' (cb := cb')
      (cr := cr') (by omega) (by omega) (out := out) lo'
      (R := fun a b c _ => rowSmall rgbScalar 4 w a b c)
      (by
        intro a b c old la lb lc lo
        rw [hp.row_small hw16 (by omega) (by omega) (by omega) lo, if_pos (by omega)]
        exact ⟨rfl, rowSmall_length hp (by omega) (by decide) (by omega) (by omega) (by omega)⟩)
    have hget := e3 0 (4 * (w - 1) + 3) hr (by omega)
    rw [Nat.zero_mul, Nat.zero_add] at hget
    suffices hb : ∃ b, r[4 * (w - 1) + 3]? = some b ∧ b ≠ 255 from
      ⟨r, hb.choose, e1, hb.choose_spec⟩
    rw [hget]
    clear e1 e2 e3 e4 hget e0
    generalize hj : 4 * (w - 1) + 3 = j
    have la := length_rowOf ly' hr
    have lb1 := length_rowOf lb' hr
    have lc1 := length_rowOf lr' hr
    have my := replicate_row (a := 0 * pw) (b := pw) ly
    have mb := replicate_row (a := 0 * pw) (b := pw) lb
    have mr := replicate_row (a := 0 * pw) (b := pw) lr
    have ss := samples_row sy (0 * pw) pw
    have sb' := samples_row sb (0 * pw) pw
    have sr' := samples_row sr (0 * pw) pw
    generalize (y.drop (0 * pw)).take pw = a at *
    generalize (cb'.drop (0 * pw)).take pw = b at *
    generalize (cr'.drop (0 * pw)).take pw = c at *
    have pa := length_pad16 (l := a) (by omega)
    have pb := length_pad16 (l := b) (by omega)
    have pc := length_pad16 (l := c) (by omega)
    have hlen := hp.length pa pb pc
    have hget2 : (rowSmall rgbScalar 4 w a b c)[j]? =
        if j < 48 then (rgbScalar (pad16 a) (pad16 b) (pad16 c))[j]? else some 0 := by
      unfold rowSmall
      rw [List.getElem?_take_of_lt (by omega), getElem?_writeAt (by
        rw [hlen, List.length_replicate]; omega), hlen]
      by_cases hj' : j < 48
      · rw [if_pos (by omega), if_pos hj', Nat.sub_zero]
      · rw [if_neg (by omega), if_neg hj', List.getElem?_replicate, if_pos (by omega)]
    rw [hget2]
    by_cases hj' : j < 48
    · rw [if_pos hj']
      obtain ⟨t, g1, u1, u2, u3, g2, g3, g4, g5⟩ := shows_three (samples_pad16 ss)
        (samples_pad16 sb') (samples_pad16 sr') (i := j / 3) (c := j % 3) (by omega) (by omega)
        (by omega) (by omega)
      rw [Nat.div_add_mod] at g1
      refine ⟨t, g1, fun ht => ?_⟩
      refine black_not_255 (ch := j % 3) ?_ (mem_pad16 mb g3) (mem_pad16 mr g4) (by omega) ?_ (a := u1)
      · rcases mem_pad16 my g2 with h | h <;> exact h
      · rw [g5, ht]; rfl
    · rw [if_neg hj']
      exact ⟨0, rfl, by decide⟩
  · obtain ⟨r, e1, e2, e3, e4⟩ := colorConvert_rows (f := f) (nc := 4) (w := w) (pw := pw)
      (h := c0.horizontalSample) (v := c0.verticalSample) (by omega) (by omega) ly' (cb := cb')
      (cr := cr') (by omega) (by omega) (out := out) lo'
      (R := fun a b c old => rowBytes rgbScalar 3 4 w a b c old)
      (by
        intro a b c old la lb lc lo
        refine ⟨?_, ?_⟩
        · rw [hp.row_wide (by omega) (by omega) (by omega) (by omega) (by rw [la]; omega), la, lo,
            if_pos]
          unfold lastPos
          omega
        · rw [rowBytes_length hp (E := pw / 16 - 1) (by omega) (by omega) (by omega) (by rw [la])
            (by omega) (by unfold lastPos; omega), lo])
    refine ⟨r, 0, e1, ?_, by decide⟩
    have hget := e3 0 (4 * (w - 1) + 3) hr (by omega)
    rw [Nat.zero_mul, Nat.zero_add] at hget
    have lout : ((out.drop (0 * (w * 4))).take (w * 4)).length = w * 4 := by
      rw [List.length_take, List.length_drop]
      have := Nat.le_mul_of_pos_left (w * 4) hr
      omega
    obtain ⟨-, -, -, q⟩ := rowBytes_spec hp shows_three (nc := 4) (w := w) (E := pw / 16 - 1)
      (y := (y.drop (0 * pw)).take pw) (cb := (cb'.drop (0 * pw)).take pw)
      (cr := (cr'.drop (0 * pw)).take pw) (old := (out.drop (0 * (w * 4))).take (w * 4))
      (by rw [length_rowOf ly' hr]; omega) (by rw [length_rowOf ly' hr, length_rowOf lb' hr])
      (by rw [length_rowOf ly' hr, length_rowOf lr' hr]) (samples_row sy _ _) (samples_row sb _ _)
      (samples_row sr _ _) (by rw [length_rowOf ly' hr]) (by rw [lout]; omega)
      (by rw [lout]; unfold lastPos; omega)
    rw [hget, Nat.zero_mul, Nat.zero_mul] at *
    rw [q _ (by omega) (by unfold lastPos; omega), List.drop_zero, List.getElem?_take_of_lt (by omega),
      lo, List.getElem?_replicate, if_pos]
    have := Nat.le_mul_of_pos_left (w * 4) hr
    omega

/-- **C39** (part). If the decoder used the RGBA converters, the property would hold for widths below
16 and for widths that are multiples of 16 without padding. What is missing: no decoder object uses
these converters (`c39_false`), and the other widths. -/
theorem c39_rgba_partial {f : ColorFn} (hf : f.Four) {c0 c1 c2 : Component} {cs : List Component}
    {outCs : ColorSpace} (hcs : outCs = .rgba ∨ outCs = .rgbx)
    {w pw rows : Nat} {y cb cr cb' cr' : List I16} {out : List UInt8}
    (h1 : Upsampled c0 c1 y.length cb cb') (h2 : Upsampled c0 c2 y.length cr cr')
    (h0 : 0 < w) (hw : w < 16 ∧ w ≤ pw ∧ pw ≤ 16 ∨ w = pw ∧ 16 ∣ w) (hr : 0 < rows)
    (hrows : rows = 8 * (c0.horizontalSample * c0.verticalSample))
    (ly : y.length = rows * pw) (lb : cb'.length = rows * pw) (lr : cr'.length = rows * pw)
    (sy : Near y) (sb : Near cb') (sr : Near cr')
    (lo : rows * (w * 4) ≤ out.length) :
    ∃ r, postProcessInner f (c0 :: c1 :: c2 :: cs) .ycbcr outCs w [y, cb, cr] out = .ok r ∧
      r.length = out.length ∧
      (∀ row x c, row < rows → x < w → c < 4 → ∃ b, r[4 * (row * w + x) + c]? = some b ∧
        IsPixel y cb' cr' (row * pw + x) c b) ∧
      ∀ k, rows * (w * 4) ≤ k → r[k]? = out[k]? := by
  have hp := packs_four hf
  have hneed : f.need = 64 := by rcases hf with rfl | rfl | rfl <;> rfl
  have e0 : postProcessInner f (c0 :: c1 :: c2 :: cs) .ycbcr outCs w [y, cb, cr] out =
      colorConvertYcbcr f 4 y cb' cr' w c0.horizontalSample c0.verticalSample out := by
    rcases hcs with rfl | rfl
    · exact (postProcessInner_planes h1 h2).2.2.1
    · exact (postProcessInner_planes h1 h2).2.2.2
  rw [e0]
  subst hrows
  rcases hw with ⟨hw16, hw1, hw2⟩ | ⟨rfl, hw⟩
  · obtain ⟨r, e1, e2, e3, e4⟩ := colorConvert_rows (f := f) (nc := 4) (w := w) (pw := pw)
      (h := c0.horizontalSample) (v := c0.verticalSample) (by omega) (by omega) ly (cb := cb')
      (cr := cr') (by omega) (by omega) (out := out) lo
      (R := fun a b c _ => rowSmall rgbaScalar 4 w a b c)
      (by
        intro a b c old la lb lc lo
        rw [hp.row_small hw16 (by omega) (by omega) (by omega) lo, if_pos (by omega)]
        exact ⟨rfl, rowSmall_length hp (by omega) (le_refl 4) (by omega) (by omega) (by omega)⟩)
    refine ⟨r, e1, e2, fun row x c hrow hx hc => ?_, e4⟩
    have hj : 4 * x + c < w * 4 := by omega
    have la := length_rowOf ly hrow
    have lb' := length_rowOf lb hrow
    have lc' := length_rowOf lr hrow
    obtain ⟨b, g1, g2⟩ := rowSmall_pixel hp shows_four (w := w) (by omega) (by omega) (by omega)
      (samples_row sy (row * pw) pw) (samples_row sb (row * pw) pw) (samples_row sr (row * pw) pw) hx
      (by omega) hc
    refine ⟨b, ?_, isPixel_of_row (by omega) g2⟩
    rw [show 4 * (row * w + x) + c = row * (w * 4) + (4 * x + c) by ring, e3 row _ hrow hj, g1]
  · have hE : 16 * (w / 16 - 1) + 16 = w := by omega
    have hpos : lastPos 4 4 w (w / 16 - 1) = 4 * 16 * (w / 16 - 1) := by unfold lastPos; omega
    obtain ⟨r, e1, e2, e3, e4⟩ := colorConvert_rows (f := f) (nc := 4) (w := w) (pw := w)
      (h := c0.horizontalSample) (v := c0.verticalSample) (by omega) (by omega) ly (cb := cb')
      (cr := cr') (by omega) (by omega) (out := out) lo
      (R := fun a b c old => rowBytes rgbaScalar 4 4 w a b c old)
      (by
        intro a b c old la lb lc lo
        refine ⟨?_, ?_⟩
        · rw [hp.row_wide (by omega) (by omega) (by omega) (by omega) (by rw [la]; omega), la, lo,
            if_pos]
          rw [hpos, hneed]
          omega
        · rw [rowBytes_length hp (E := w / 16 - 1) (by omega) (by omega) (by omega) (by rw [la])
            (by omega) (by omega), lo])
    refine ⟨r, e1, e2, fun row x c hrow hx hc => ?_, e4⟩
    have lout : ((out.drop (row * (w * 4))).take (w * 4)).length = w * 4 := by
      rw [List.length_take, List.length_drop]
      have := Nat.mul_le_mul_right (w * 4) (show row + 1 ≤ _ from hrow)
      rw [Nat.add_one_mul row] at this
      omega
    obtain ⟨-, q1, q2, -⟩ := rowBytes_spec hp shows_four (nc := 4) (w := w) (E := w / 16 - 1)
      (y := (y.drop (row * w)).take w) (cb := (cb'.drop (row * w)).take w)
      (cr := (cr'.drop (row * w)).take w) (old := (out.drop (row * (w * 4))).take (w * 4))
      (by rw [length_rowOf ly hrow]; omega) (by rw [length_rowOf ly hrow, length_rowOf lb hrow])
      (by rw [length_rowOf ly hrow, length_rowOf lr hrow]) (samples_row sy _ _) (samples_row sb _ _)
      (samples_row sr _ _) (by rw [length_rowOf ly hrow]) (by rw [lout]; omega)
      (by rw [lout]; omega)
    rw [show 4 * (row * w + x) + c = row * (w * 4) + (4 * x + c) by ring, e3 row _ hrow (by omega)]
    rw [hpos] at q1 q2
    rw [length_rowOf ly hrow] at q2
    by_cases hx' : x < 16 * (w / 16 - 1)
    · obtain ⟨b, g1, g2⟩ := q1 x c hc (by omega)
      exact ⟨b, g1, isPixel_of_row (by omega) g2⟩
    · obtain ⟨b, g1, g2⟩ := q2 (x - 16 * (w / 16 - 1)) c hc (by omega)
      refine ⟨b, ?_, ?_⟩
      · rw [← g1]; congr 1; omega
      · rw [show w - 16 + (x - 16 * (w / 16 - 1)) = x by omega] at g2
        exact isPixel_of_row (by omega) g2

/-! ### Instances -/

/-- A component without subsampling. -/
def plainComp : Component :=
  { componentId := .y, verticalSample := 1, horizontalSample := 1, quantTableNumber := 0,
    widthStride := 32, id := 1 }

/-- Planes of a strip 32 columns wide. -/
def planeY : List I16 := (List.range 256).map fun i => BitVec.ofNat 16 (i * 7 % 256)
def planeC : List I16 := (List.range 256).map fun i => BitVec.ofNat 16 (i * 11 % 256)

/-- Planes that meet the hypotheses of C36 and `c38_wide_partial` for width 27 ... -/
example : Near planeY ∧ Near planeC ∧ (planeY.length = 8 * 32 ∧ planeC.length = 8 * 32) ∧
    Upsampled plainComp plainComp planeY.length planeC planeC := by
  have sm : ∀ k : Nat, k < 256 → -160 ≤ (BitVec.ofNat 16 k).toInt ∧ (BitVec.ofNat 16 k).toInt ≤ 415 := by
    decide +kernel
  refine ⟨?_, ?_, by decide +kernel, by simp [Upsampled, plainComp]⟩
  · intro x hx
    obtain ⟨i, -, rfl⟩ := List.mem_map.1 hx
    exact sm _ (Nat.mod_lt _ (by decide))
  · intro x hx
    obtain ⟨i, -, rfl⟩ := List.mem_map.1 hx
    exact sm _ (Nat.mod_lt _ (by decide))

/-- ... and the bytes: with YCbCr output the sample of Cb in the last column of the third row, with
RGB output of the first row three bytes of the last pixel, of which the last is never written. -/
example : (match postProcessInner .rgbScalar [plainComp, plainComp, plainComp] .ycbcr .ycbcr 27
    [planeY, planeC, planeC] (List.replicate 648 9) with
      | .ok r => r[3 * (2 * 27 + 26) + 1]? == some (90 * 11 % 256).toUInt8
      | _ => false) = true := by decide +kernel

example : (match postProcessInner .rgbScalar [plainComp, plainComp, plainComp] .ycbcr .rgb 27
    [planeY, planeC, planeC] (List.replicate 648 9) with
      | .ok r => r[80]? == some 9 && r[50]? != some 9
      | _ => false) = true := by decide +kernel

/-- The SSE converter returns for width 27, not for width 21. -/
example : (postProcessInner .rgbSse [plainComp, plainComp, plainComp] .ycbcr .rgb 27
    [planeY, planeC, planeC] (List.replicate 648 9)).isOk = true ∧
    (postProcessInner .rgbSse [plainComp, plainComp, plainComp] .ycbcr .rgb 21
    [planeY, planeC, planeC] (List.replicate 648 9)).isOk = false := by decide +kernel

/-- The hypotheses of `c37_gray_partial` with width 31 in 32, and with width 7 in 8 (panic). -/
example : 8 * 32 < (8 + 1) * 31 ∧ (8 + 1) * 7 ≤ 8 * 8 ∧
    (postProcessInner .rgbScalar [plainComp] .grayscale .grayscale 31 [planeY]
      (List.replicate 248 9)).isOk = true ∧
    (postProcessInner .rgbScalar [plainComp] .grayscale .grayscale 7 [planeY.take 64]
      (List.replicate 56 9)).isOk = false := by decide +kernel

/-! ### Whole files -/

/-- A file of `w` x 8 samples with one component and blocks of zeros. -/
def grayFile (w : UInt8) (body : List UInt8) : List UInt8 :=
  [0xFF, 0xD8] ++
  [0xFF, 0xDB, 0x00, 0x43, 0x00] ++ List.replicate 64 1 ++
  [0xFF, 0xC0, 0x00, 0x0B, 8, 0, 8, 0, w, 1, 1, 0x11, 0] ++
  ([0xFF, 0xC4, 0x00, 0x14, 0x00, 1] ++ List.replicate 15 0 ++ [0]) ++
  ([0xFF, 0xC4, 0x00, 0x14, 0x10, 1] ++ List.replicate 15 0 ++ [0]) ++
  [0xFF, 0xDA, 0x00, 0x08, 1, 1, 0x00, 0, 63, 0] ++ body ++ [0xFF, 0xD9]

/-- A file of `w` x 8 samples with three components and blocks of zeros. -/
def colorFile (w : UInt8) (body : List UInt8) : List UInt8 :=
  [0xFF, 0xD8] ++
  [0xFF, 0xDB, 0x00, 0x43, 0x00] ++ List.replicate 64 1 ++
  [0xFF, 0xC0, 0x00, 0x11, 8, 0, 8, 0, w, 3, 1, 0x11, 0, 2, 0x11, 0, 3, 0x11, 0] ++
  ([0xFF, 0xC4, 0x00, 0x14, 0x00, 1] ++ List.replicate 15 0 ++ [0]) ++
  ([0xFF, 0xC4, 0x00, 0x14, 0x10, 1] ++ List.replicate 15 0 ++ [0]) ++
  [0xFF, 0xDA, 0x00, 0x0C, 3, 1, 0x00, 2, 0x00, 3, 0x00, 0, 63, 0] ++ body ++ [0xFF, 0xD9]

/-- **C37** is false: a grayscale image seven columns wide makes the worker panic; the same file with
eight columns is decoded. -/
theorem c37_false :
    ((Decoder.new ⟨false, false⟩).decodeBuffer (grayFile 7 [0x3F])).1 = .panic .worker ∧
    ((Decoder.new ⟨false, false⟩).decodeBuffer (grayFile 8 [0x3F])).1 =
      .ok (List.replicate 64 128) := by
  decide +kernel

/-- **C38** is false for a whole file: a uniform gray image 17 columns wide gets a black last
column. -/
theorem c38_false_file :
    ((Decoder.new ⟨false, false⟩).decodeBuffer (colorFile 17 [0, 0, 0x3F])).1 =
      .ok (List.replicate 8 (List.replicate 48 128 ++ [0, 0, 0])).flatten := by
  decide +kernel

/-- **C39** is false for a whole file: a uniform gray image of eight columns, decoded to RGBA, has no
byte 255. -/
theorem c39_false_file :
    ((Decoder.new ⟨false, false⟩).rgba.decodeBuffer (colorFile 8 [0])).1 =
      .ok (List.replicate 8 (List.replicate 24 128 ++ [0, 136, 0, 0, 136, 0, 0, 136])).flatten := by
  decide +kernel

end Zune
