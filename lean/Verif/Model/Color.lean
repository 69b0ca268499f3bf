import Verif.Model.State
import Verif.Model.Slices
import Verif.Model.Idct
import Verif.Model.Upsample
/-!
# Colour conversion (`color_convert/scalar.rs`, `sse.rs`, `avx.rs`)

`i16` arithmetic wraps (release profile). SIMD code is modelled lane by lane.
-/

namespace Zune

/-- `color_convert/scalar.rs:7-10` (`clamp`) -/
def clampU8 (a : I16) : UInt8 :=
  if a.toInt < 0 then 0 else if 255 < a.toInt then 255 else ⟨a.setWidth 8⟩

/-- `as u8` of an `i16` -/
def asU8 (a : I16) : UInt8 := ⟨a.setWidth 8⟩

/-- `color_convert/scalar.rs:68, 72`: the red value before clamping -/
def redOf (y cr : I16) : I16 := y + (45 * (cr - 128)).sshiftRight 5
/-- `color_convert/scalar.rs:68-70, 74`: the green value before clamping -/
def greenOf (y cb cr : I16) : I16 := y - (11 * (cb - 128) + 23 * (cr - 128)).sshiftRight 5
/-- `color_convert/scalar.rs:70, 76`: the blue value before clamping -/
def blueOf (y cb : I16) : I16 := y + (113 * (cb - 128)).sshiftRight 6

/-- `color_convert/scalar.rs:52-89`: the 48 bytes written for 16 pixels. -/
def rgbScalar (y cb cr : List I16) : List UInt8 :=
  (y.zip (cb.zip cr)).flatMap fun (y, cb, cr) =>
    [clampU8 (redOf y cr), clampU8 (greenOf y cb cr), clampU8 (blueOf y cb)]

/-- `color_convert/scalar.rs:14-50`: the 64 bytes written for 16 pixels. -/
def rgbaScalar (y cb cr : List I16) : List UInt8 :=
  (y.zip (cb.zip cr)).flatMap fun (y, cb, cr) =>
    [clampU8 (redOf y cr), clampU8 (greenOf y cb cr), clampU8 (blueOf y cb), 255]

/-- Lane-wise `r`, `g`, `b` registers before clamping: `color_convert/sse.rs:50-106, 140-189`,
`color_convert/avx.rs:131-189, 207-259`. The additions of `b` are in the other order. -/
def simdRgb (y cb cr : List I16) : List I16 × List I16 × List I16 :=
  let sub128 (v : List I16) := v.map fun x => x - 128
  let mullo (c : I16) (v : List I16) := v.map fun x => c * x
  let srai (n : Nat) (v : List I16) := v.map fun x => x.sshiftRight n
  let add := List.zipWith fun a b : I16 => a + b
  let sub := List.zipWith fun a b : I16 => a - b
  let crr := sub128 cr
  let cbr := sub128 cb
  let r := add y (srai 5 (mullo 45 crr))
  let g := sub y (srai 5 (add (mullo 11 cbr) (mullo 23 crr)))
  let b := add (srai 6 (mullo 113 cbr)) y
  (r, g, b)

/-- `color_convert/sse.rs:113-127`, `color_convert/avx.rs:92-104`: store three clamped registers as RGB triples. -/
def simdStoreRgb (y cb cr : List I16) : List UInt8 :=
  let (r, g, b) := simdRgb y cb cr
  ((r.map clampI16).zip ((g.map clampI16).zip (b.map clampI16))).flatMap fun (r, g, b) =>
    [asU8 r, asU8 g, asU8 b]

/-- `color_convert/sse.rs:245-267` (`ycbcr_to_rgb_16`): two groups of eight pixels. -/
def rgbSse (y cb cr : List I16) : List UInt8 :=
  simdStoreRgb (y.take 8) (cb.take 8) (cr.take 8) ++
    simdStoreRgb (y.drop 8) (cb.drop 8) (cr.drop 8)

/-- `color_convert/avx.rs:81-107` (`ycbcr_to_rgb_avx2_1`): sixteen pixels at once. -/
def rgbAvx (y cb cr : List I16) : List UInt8 := simdStoreRgb y cb cr

/-- `_mm_packus_epi16`, one lane: saturate to `u8`. -/
def packus (a : I16) : UInt8 := clampU8 a

/-- `_mm_unpacklo_epi8` on 16 byte registers -/
def unpacklo8 (a b : List UInt8) : List UInt8 :=
  lanes 0 [0, 16, 1, 17, 2, 18, 3, 19, 4, 20, 5, 21, 6, 22, 7, 23] (a ++ b)
/-- `_mm_unpackhi_epi8` on 16 byte registers -/
def unpackhi8 (a b : List UInt8) : List UInt8 :=
  lanes 0 [8, 24, 9, 25, 10, 26, 11, 27, 12, 28, 13, 29, 14, 30, 15, 31] (a ++ b)

/-- `color_convert/sse.rs:193-209`: pack, interleave and store eight RGBA pixels. -/
def sseRgba8 (y cb cr : List I16) : List UInt8 :=
  let (r, g, b) := simdRgb y cb cr
  let e := r.map packus ++ g.map packus
  let f := b.map packus ++ (List.replicate 8 (255 : I16)).map packus
  let g := unpacklo8 e f
  let h := unpackhi8 e f
  unpacklo8 g h ++ unpackhi8 g h

/-- `color_convert/sse.rs:281-308` (`ycbcr_to_rgba_sse_16`) -/
def rgbaSse (y cb cr : List I16) : List UInt8 :=
  sseRgba8 (y.take 8) (cb.take 8) (cr.take 8) ++ sseRgba8 (y.drop 8) (cb.drop 8) (cr.drop 8)

/-- An AVX operation that works on the two 16 byte halves separately. -/
def halves (f : List UInt8 → List UInt8 → List UInt8) (a b : List UInt8) : List UInt8 :=
  f (a.take 16) (b.take 16) ++ f (a.drop 16) (b.drop 16)

/-- `_mm256_packus_epi16` -/
def packus256 (a b : List I16) : List UInt8 :=
  (a.take 8).map packus ++ (b.take 8).map packus ++ (a.drop 8).map packus ++
    (b.drop 8).map packus

/-- `_mm256_permute2x128_si256`: each selector picks a 16 byte half of `a ++ b`, bit 3 gives zero. -/
def permute2x128 (imm : Nat) (a b : List UInt8) : List UInt8 :=
  let half (s : Nat) := if s / 8 % 2 = 1 then List.replicate 16 0
    else ((a ++ b).drop (16 * (s % 4))).take 16
  half (imm % 16) ++ half (imm / 16)

/-- `shuffle(z, y, x, w)` (`color_convert/avx.rs:417-420`) -/
def shuffleImm (z y x w : Nat) : Nat := z <<< 6 ||| y <<< 4 ||| x <<< 2 ||| w

/-- `color_convert/avx.rs:277-324, 348-394`: pack, interleave, reorder and store sixteen pixels with
a fourth channel `x` (255 for RGBA, unspecified for RGBX). `_mm256_blend_epi32::<0b1111_0000>` takes the low
half of its first and the high half of its second argument. -/
def avxStore4 (y cb cr x : List I16) : List UInt8 :=
  let (r, g, b) := simdRgb y cb cr
  let c := packus256 r g
  let d := packus256 b x
  let e := halves unpacklo8 c d
  let f := halves unpackhi8 c d
  let g := halves unpacklo8 e f
  let h := halves unpackhi8 e f
  let i := permute2x128 (shuffleImm 3 2 1 0) g h
  let j := permute2x128 (shuffleImm 1 2 3 0) g h
  let k := permute2x128 (shuffleImm 3 2 0 1) g h
  let l := permute2x128 (shuffleImm 0 3 2 1) g h
  (i.take 16 ++ j.drop 16) ++ (k.take 16 ++ l.drop 16)

/-- Space that the converter checks for (`color_convert/scalar.rs:20-24, 60-64`,
`color_convert/sse.rs:274, 286`, `color_convert/avx.rs:86-90, 284, 355`). -/
def ColorFn.need : ColorFn → Nat
  | .rgbScalar | .rgbAvx => 48
  | .rgbSse | .rgbaScalar | .rgbaSse | .rgbaAvx | .rgbxAvx => 64

/-- The bytes that the converter writes for sixteen pixels. The fourth channel of `.rgbxAvx` comes
from `_mm256_undefined_si256` and is set to zero here; no decoder uses this converter. -/
def ColorFn.bytes : ColorFn → List I16 → List I16 → List I16 → List UInt8
  | .rgbScalar => Zune.rgbScalar
  | .rgbSse => Zune.rgbSse
  | .rgbAvx => Zune.rgbAvx
  | .rgbaScalar => Zune.rgbaScalar
  | .rgbaSse => Zune.rgbaSse
  | .rgbaAvx => fun y cb cr => avxStore4 y cb cr (List.replicate 16 255)
  | .rgbxAvx => fun y cb cr => avxStore4 y cb cr (List.replicate 16 0)

/-- A call of `color_convert_16` on an output slice: the new slice and position. After the check
for room the bytes are stored without checks (`color_convert/sse.rs:113-127` `get_unchecked_mut`,
`color_convert/sse.rs:205-207` and `color_convert/avx.rs:319-321` pointer stores); a store outside of the slice is the panic
`.unsound`. -/
def ColorFn.run (f : ColorFn) (y cb cr : List I16) (out : List UInt8) (pos : Nat) :
    Out (List UInt8 × Nat) :=
  if pos + f.need ≤ out.length then
    let b := f.bytes y cb cr
    if pos + b.length ≤ out.length then .ok (writeAt out pos b, pos + b.length)
    else .panic .unsound
  else .panic .unwrap

/-- `color_convert/scalar.rs:91-114` (`ycbcr_to_grayscale`) -/
def ycbcrToGrayscale (y : List I16) (width : Nat) (output : List UInt8) : Out (List UInt8) :=
  if width = 0 then .panic .zero
  else
    let widthMcu := y.length / width
    if widthMcu = 0 then .panic .zero
    else
      let widthChunk := y.length / widthMcu
      if widthChunk = 0 then .panic .zero
      else
        Out.fold (fun out (chunk, i) =>
            if out.length < (i + 1) * width then .panic .index
            else if chunk.length < width then .panic .index
            else .ok (writeAt out (i * width) (chunk.take width)))
          output ((chunksExact widthChunk (y.map asU8)).zipIdx)

/-- `color_convert/scalar.rs:119-169` (`ycbcr_to_ycbcr`). The temporary row is completely
overwritten for each row because the zip stops at the end of the equally long chunks. -/
def ycbcrToYcbcr (y cb cr : List I16) (width h v : Nat) (output : List UInt8) :
    Out (List UInt8) :=
  if h * v = 0 then .panic .zero
  else
    let widthChunk := (y.length / (h * v)) / 8
    if widthChunk = 0 then .panic .zero
    else
      Out.fold (fun out ((y, cb, cr), i) =>
          let row := (y.zip (cb.zip cr)).flatMap fun (y, cb, cr) => [asU8 y, asU8 cb, asU8 cr]
          if out.length < (i + 1) * (width * 3) then .panic .index
          else if row.length < width * 3 then .panic .index
          else .ok (writeAt out (i * (width * 3)) (row.take (width * 3))))
        output (((chunksExact widthChunk y).zip
          ((chunksExact widthChunk cb).zip (chunksExact widthChunk cr))).zipIdx)

end Zune
