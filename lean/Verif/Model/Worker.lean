import Verif.Model.Color
/-!
# Post processing of a strip (`worker.rs`)
-/

namespace Zune

/-- The upsampling function (`upsampler.rs`). -/
def UpSampler.run : UpSampler → List I16 → Nat → Out (List I16)
  | .noOp => fun _ _ => .ok []
  | .hScalar => upsampleHorizontal
  | .hSse => upsampleHorizontalSse
  | .vertical => upsampleVertical
  | .hvScalar => upsampleHv
  | .hvAvx => upsampleHvSimd

/-- `worker.rs:201-214`: the groups of sixteen pixels of the main loop. -/
def convertGroups (f : ColorFn) : List (List I16 × List I16 × List I16) → List UInt8 → Nat →
    Out (List UInt8 × Nat)
  | [], out, pos => .ok (out, pos)
  | (y, cb, cr) :: rest, out, pos =>
    (f.run y cb cr out pos).bind fun (out, pos) => convertGroups f rest out pos

/-- Last sixteen values of a row: `rchunks_exact(16).next().unwrap()` -/
def lastGroup (l : List I16) : Out (List I16) :=
  if l.length < 16 then .panic .unwrap else .ok (l.drop (l.length - 16))

/-- `worker.rs:171-246`: one pixel row; `out` is the slice of the output for the row. -/
def convertRow (f : ColorFn) (nc width : Nat) (y cb cr : List I16) (out : List UInt8) :
    Out (List UInt8) :=
  let stride := width * nc
  if width < 16 then
    if y.length > 16 ∨ cb.length > 16 ∨ cr.length > 16 then .panic .index
    else
      let pad (l : List I16) := l ++ List.replicate (16 - l.length) 0
      (f.run (pad y) (pad cb) (pad cr) (List.replicate (16 * nc) 0) 0).bind fun (temp, _) =>
        .ok (writeAt out 0 (temp.take stride))
  else
    let elements := y.length / 16 - 1
    let groups := ((chunksExact 16 y).zip ((chunksExact 16 cb).zip (chunksExact 16 cr))).take
      elements
    (convertGroups f groups out 0).bind fun (out, pos) =>
      let diff := 64 - (stride - pos)
      let pos := pos - diff
      (lastGroup y).bind fun ly => (lastGroup cb).bind fun lcb => (lastGroup cr).bind fun lcr =>
        (f.run ly lcb lcr out pos).bind fun (out, _) => .ok out

/-- `worker.rs:143-251` (`color_convert_ycbcr`). For widths below 16 the code reuses one
temporary buffer for all rows; every row overwrites the same range of it and the rest stays zero,
so a fresh buffer per row (in `convertRow`) is the same. -/
def colorConvertYcbcr (f : ColorFn) (nc : Nat) (y cb cr : List I16) (width h v : Nat)
    (output : List UInt8) : Out (List UInt8) :=
  if h * v = 0 then .panic .zero
  else
    let widthChunk := (y.length / (h * v)) / 8
    if widthChunk = 0 then .panic .zero
    else
      let stride := width * nc
      Out.fold (fun out ((y, cb, cr), i) =>
          if out.length < (i + 1) * stride then .panic .index
          else
            (convertRow f nc width y cb cr ((out.drop (i * stride)).take stride)).bind fun row =>
              .ok (writeAt out (i * stride) row))
        output (((chunksExact widthChunk y).zip
          ((chunksExact widthChunk cb).zip (chunksExact widthChunk cr))).zipIdx)

/-- `worker.rs:88-134` (`post_process_inner`). -/
def postProcessInner (f : ColorFn) (comps : List Component) (inCs outCs : ColorSpace)
    (width : Nat) (planes : List (List I16)) (output : List UInt8) : Out (List UInt8) :=
  let x := min inCs.numComponents outCs.numComponents
  match comps[0]? with
  | none => .panic .index
  | some c0 =>
    let h := c0.horizontalSample
    let v := c0.verticalSample
    let y := planes.getD 0 []
    let up (i : Nat) : Out (List I16) :=
      if i < x ∧ (h ≠ 1 ∨ v ≠ 1) then
        match comps[i]? with
        | none => .panic .index
        | some c => c.upSampler.run (planes.getD i []) y.length
      else .ok (planes.getD i [])
    (up 1).bind fun cb => (up 2).bind fun cr =>
    -- a fourth component would index outside of the three planes
    if x > 3 ∧ (h ≠ 1 ∨ v ≠ 1) then .panic .index
    else
      match inCs, outCs with
      | .ycbcr, .grayscale => ycbcrToGrayscale y width output
      | .grayscale, .grayscale => ycbcrToGrayscale y width output
      | .ycbcr, .ycbcr => ycbcrToYcbcr y cb cr width h v output
      | .ycbcr, .rgb => colorConvertYcbcr f 3 y cb cr width h v output
      | .ycbcr, .rgba => colorConvertYcbcr f 4 y cb cr width h v output
      | .ycbcr, .rgbx => colorConvertYcbcr f 4 y cb cr width h v output
      | _, _ => .ok output

/-- `worker.rs:66-81`: the IDCT of component `z`. -/
def idctComponent (idct : IdctFn) (comps : List Component) (coeff : List (List I16)) (h v z : Nat) :
    Out (List I16) :=
  match coeff[z]?, comps[z]? with
  | some c, some comp =>
    idctStrip idct.block c comp.quantTable comp.widthStride (h * v) (if z = 0 then 1 else v)
  | _, _ => .panic .index

/-- `worker.rs:32-85` (`post_process`). Returns the new contents of the output chunk. -/
def postProcess (idct : IdctFn) (f : ColorFn) (comps : List Component) (inCs outCs : ColorSpace)
    (width : Nat) (coeff : List (List I16)) (output : List UInt8) : Out (List UInt8) :=
  match comps[0]? with
  | none => .panic .index
  | some c0 =>
    let x := min inCs.numComponents outCs.numComponents
    (Out.collect ((List.range x).map
      (idctComponent idct comps coeff c0.horizontalSample c0.verticalSample))).bind fun planes =>
      postProcessInner f comps inCs outCs width planes output

end Zune
