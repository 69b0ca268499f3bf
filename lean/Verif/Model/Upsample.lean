import Verif.Model.Slices
/-!
# Chroma upsampling (`upsampler/scalar.rs`, `upsampler/sse.rs`, `upsampler/avx2.rs`)

`i16` arithmetic wraps (release profile). SIMD code is modelled lane by lane.
-/

namespace Zune

/-- `(near * 3 + far + 2) >> 2` in `i16` -/
def tri (near far : I16) : I16 := (near * 3 + far + 2).sshiftRight 2

/-- `upsampler/scalar.rs:5-60` (`upsample_horizontal`) -/
def upsampleHorizontal (input : List I16) (outLen : Nat) : Out (List I16) :=
  match input with
  | i0 :: i1 :: _ :: _ =>
    if outLen ≤ 4 then .panic .unwrap
    else
      let mid := (windows3 input).flatMap fun (a, b, c) => [tri b a, tri b c]
      let out := fit outLen 0 ([i0, tri i0 i1] ++ mid.take (2 * ((outLen - 2) / 2)))
      let l0 := input.getD (input.length - 2) 0
      let l1 := input.getD (input.length - 1) 0
      .ok (writeAt out (outLen - 2) [tri l0 l1, l1])
  | _ => .panic .unwrap

/-- `upsampler/scalar.rs:64-147` (`upsample_vertical`): the rows used in round `k`. The iterator
`row_far` is advanced twice after the first round, so that it is one row ahead of `row_near`. -/
def verticalRows (rows : List (List I16)) (k : Nat) : List I16 × List I16 :=
  let near := rows.getD k []
  let far := if k = 0 then near else rows.getD (k + 1) near
  (near, far)

/-- `upsampler/scalar.rs:95-145`: one round. -/
def verticalStep (rows : List (List I16)) (stride : Nat) (out : List I16) (k : Nat) :
    Out (List I16) :=
  let i := 2 * k * stride
  if out.length < i + stride then .panic .index
  else
    let (near, far) := verticalRows rows k
    let m := out.length - (i + stride)
    let on := (List.zipWith tri near far).take m
    let fo := (List.zipWith tri far near).take m
    .ok (writeAt (writeAt out i on) (i + stride) fo)

/-- `upsampler/scalar.rs:64-147` (`upsample_vertical`) -/
def upsampleVertical (input : List I16) (outLen : Nat) : Out (List I16) :=
  let stride := input.length / 8
  if stride = 0 then .panic .zero
  else Out.fold (verticalStep (chunksExact stride input) stride) (List.replicate outLen 0)
    (List.range 8)

/-- `upsampler/scalar.rs:148-166` (`upsample_hv`) -/
def upsampleHv (input : List I16) (outLen : Nat) : Out (List I16) :=
  (upsampleVertical input (input.length * 2)).bind fun v => upsampleHorizontal v outLen

/-! ## SSE -/

/-- Lanes `idx` of a register (or of the concatenation of several). -/
def lanes {α} (z : α) (idx : List Nat) (l : List α) : List α := idx.map fun i => l.getD i z

/-- `_mm_unpacklo_epi16(a, a)` of the four values loaded by `_mm_loadl_epi64` -/
def unpackDup (a : List I16) : List I16 := lanes 0 [0, 0, 1, 1, 2, 2, 3, 3] a
/-- `_mm_blend_epi16::<0b1010_1010>(a, b)` -/
def blendOdd (a b : List I16) : List I16 := lanes 0 [0, 9, 2, 11, 4, 13, 6, 15] (a ++ b)

/-- Load `n` values from a pointer to `l[pos..]` without a bounds check. -/
def loadUnchecked (l : List I16) (pos n : Nat) : Out (List I16) :=
  if pos + n ≤ l.length then .ok ((l.drop pos).take n) else .panic .unsound

/-- `upsampler/sse.rs:73-101`: the eight outputs from the three registers that were loaded. -/
def sseMix (y v o : List I16) : List I16 :=
  let yn := unpackDup y
  let even := unpackDup v
  let odd := unpackDup o
  let nn := blendOdd even odd
  let an := yn.map fun x : I16 => x <<< 1 + x
  let bn := nn.map fun x : I16 => x + 2#16
  List.zipWith (fun a b => (a + b).sshiftRight 2) an bn

/-- `upsampler/sse.rs:69-108`: the eight outputs for the four inputs from `pos` on. The three loads
use `get_unchecked`. -/
def sseStep (input : List I16) (out : List I16) (i : Nat) : Out (List I16) :=
  let pos := i * 4
  (loadUnchecked input pos 4).bind fun y =>
  (loadUnchecked input (pos - 1) 4).bind fun v =>
  (loadUnchecked input (pos + 1) 4).bind fun o =>
  writeChecked out (i * 8) (sseMix y v o)

/-- `upsampler/sse.rs:24-134` (`upsample_horizontal_sse_u`). -/
def upsampleHorizontalSse (input : List I16) (outLen : Nat) : Out (List I16) :=
  if ¬ (outLen > 8 ∧ input.length > 5) then .panic .unwrap
  else
    let i (k : Nat) : I16 := input.getD k 0
    let first := [i 0, tri (i 0) (i 1), tri (i 1) (i 0), tri (i 1) (i 2), tri (i 2) (i 1),
      tri (i 2) (i 3), tri (i 3) (i 2), tri (i 3) (i 4)]
    let out := writeAt (List.replicate outLen 0) 0 first
    (Out.fold (fun out k => sseStep input out (k + 1)) out (List.range (input.length / 4 - 2))).bind fun out =>
    let il := input.length - 4
    let last := [tri (i il) (i (il - 1)), tri (i il) (i (il + 1)), tri (i (il + 1)) (i il),
      tri (i (il + 1)) (i (il + 1)), tri (i (il + 2)) (i (il + 2)), tri (i (il + 2)) (i (il + 1)),
      tri (i (il + 2)) (i (il + 3)), i (il + 3)]
    .ok (writeAt out (outLen - 8) last)

/-! ## AVX2 -/

/-- `upsampler/avx2.rs:73-201` (`upsample_horizontal!`): 32 outputs from 16 vertically interpolated
values and the two neighbours. -/
def hvRow (row : List I16) (prev far : I16) : List I16 :=
  let prevArr := prev :: row.take 15
  let nextArr := row.drop 1 ++ [far]
  (row.zip (prevArr.zip nextArr)).flatMap fun (r, p, n) => [tri r p, tri r n]

/-- State of the outer loop of `upsample_hv_avx`. -/
structure HvState where
  out : List I16
  pos : Nat
  opos : Nat
  stride : Nat
  prev : I16
  far : I16

/-- `upsampler/avx2.rs:203-217, 235-271`: sixteen columns. The loads read `pos .. pos + 16` and
`pos + stride .. pos + stride + 16`. Note that lines 264-270 compute `3 * (a + b + 2)`. -/
def hvInner (input : List I16) (len : Nat) (s : HvState) (_ : Nat) : Out HvState :=
  if input.length < s.pos ∨ input.length < s.pos + s.stride then .panic .index
  else
    (loadUnchecked input s.pos 16).bind fun near =>
    (loadUnchecked input (s.pos + s.stride) 16).bind fun fr =>
    let rowNear := List.zipWith tri near fr
    let rowFar := List.zipWith tri fr near
    (writeChecked s.out s.opos (hvRow rowNear s.prev s.far)).bind fun out =>
    (writeChecked out (s.opos + len) (hvRow rowFar s.prev s.far)).bind fun out =>
    let pos := s.pos + 16
    if input.length < pos + s.stride + 16 then .panic .unwrap
    else
      let g (k : Nat) : I16 := input.getD k 0
      .ok { s with
        out := out, pos := pos, opos := s.opos + 32
        prev := (3 * (g pos + g (pos + s.stride) + 2)).sshiftRight 2
        far := (3 * (g (pos + 16) + g (pos + s.stride + 16) + 2)).sshiftRight 2 }

/-- `upsampler/avx2.rs:277-307`: the columns at the end of a row, from the inputs left of `pos`;
`v` values, the last one replaced by `last`. -/
def hvTail (input : List I16) (pos v : Nat) (last : I16) : List I16 :=
  let w := windows3 ((input.drop (pos - v / 2 - 2)).take (v / 2 + 2))
  let t := fit v 0 ((w.flatMap fun (a, b, c) => [tri b a, tri b c]).take (2 * (v / 2)))
  writeAt t (v - 1) [last]

/-- `upsampler/avx2.rs:229-339`: one input row. -/
def hvOuter (input : List I16) (len fin v : Nat) (s : HvState) (j : Nat) : Out HvState :=
  (Out.fold (hvInner input len) s (List.range fin)).bind fun s =>
  if s.out.length < s.opos + v ∨ s.out.length - (s.opos + v) < len ∨ len < v ∨ v = 0 then
    .panic .index
  else if s.pos < v / 2 + 2 ∨ input.length ≤ s.pos + s.stride then .panic .index
  else
    let out := writeAt s.out s.opos (hvTail input s.pos v (input.getD s.pos 0))
    let out := writeAt out (s.opos + len)
      (hvTail input (s.pos + s.stride) v (input.getD (s.pos + s.stride) 0))
    let opos := s.opos + len + v
    let pos := s.pos + v / 2
    let stride := if j = 0 then input.length / 8 else s.stride
    let stride := if j = 6 then 0 else stride
    let g (o : List I16) (k : Nat) : I16 := o.getD k 0
    let out := out.set (opos - len) (g out (opos - len + 1))
    let out := out.set (opos - len - 2) (g out (opos - len - 4))
    let out := out.set (opos - len - 1) (g out (opos - len - 3))
    let out := out.set (opos - 2) (g out (opos - 4))
    let out := out.set (opos - 1) (g out (opos - 3))
    .ok { s with out := out, pos := pos, opos := opos, stride := stride }

/-- `upsampler/avx2.rs:29-342` (`upsample_hv_avx`). The bounds checks of the five assignments at the
end of a row are subsumed by the checks before them as soon as `outLen ≥ 64` (the decoder passes four
times the input length, which is at least 2000). -/
def upsampleHvAvx (input : List I16) (outLen : Nat) : Out (List I16) :=
  if input.length ≤ 16 then .panic .index
  else
    let g (k : Nat) : I16 := input.getD k 0
    let len := outLen / 16
    let fin := input.length / 128 - 1
    let v := outLen / 16 - fin * 32
    let s0 : HvState :=
      { out := List.replicate outLen 0, pos := 0, opos := 0, stride := 0
        prev := tri (g 0) (g 0), far := tri (g 16) (g 16) }
    (Out.fold (hvOuter input len fin v) s0 (List.range 8)).bind fun s => .ok s.out

/-- `upsampler/avx2.rs:14-22` (`upsample_hv_simd`) -/
def upsampleHvSimd (input : List I16) (outLen : Nat) : Out (List I16) :=
  if input.length < 500 then upsampleHv input outLen else upsampleHvAvx input outLen

end Zune
