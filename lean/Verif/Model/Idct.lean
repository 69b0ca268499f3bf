import Verif.Model.State
import Verif.Model.Slices
/-!
# Dequantization and inverse DCT (`idct/scalar.rs`, `idct/avx2.rs`)

`i32` arithmetic wraps (release profile). The AVX2 code is modelled at the level of the lanes of
its intrinsics.
-/

namespace Zune

/-- Eight values: a row or column of a block, or the lanes of a `__m256i` of `i32`. -/
structure V8 (α : Type) where
  a0 : α
  a1 : α
  a2 : α
  a3 : α
  a4 : α
  a5 : α
  a6 : α
  a7 : α
  deriving DecidableEq, Repr

namespace V8
variable {α β γ : Type}

/-- Apply a function to each entry. -/
def map (f : α → β) (v : V8 α) : V8 β :=
  ⟨f v.a0, f v.a1, f v.a2, f v.a3, f v.a4, f v.a5, f v.a6, f v.a7⟩
/-- Combine two vectors entry by entry. -/
def zipWith (f : α → β → γ) (v : V8 α) (w : V8 β) : V8 γ :=
  ⟨f v.a0 w.a0, f v.a1 w.a1, f v.a2 w.a2, f v.a3 w.a3, f v.a4 w.a4, f v.a5 w.a5, f v.a6 w.a6,
   f v.a7 w.a7⟩
/-- The entries as a list. -/
def toList (v : V8 α) : List α := [v.a0, v.a1, v.a2, v.a3, v.a4, v.a5, v.a6, v.a7]
/-- The same value in every entry (`_mm256_set1_epi32`). -/
def rep (a : α) : V8 α := ⟨a, a, a, a, a, a, a, a⟩
/-- Swap rows and columns. -/
def transpose (m : V8 (V8 α)) : V8 (V8 α) :=
  ⟨m.map V8.a0, m.map V8.a1, m.map V8.a2, m.map V8.a3, m.map V8.a4, m.map V8.a5, m.map V8.a6,
   m.map V8.a7⟩
/-- Entries `i .. i+8` of a list, `z` outside of it. -/
def ofList (z : α) (l : List α) (i : Nat) : V8 α :=
  ⟨l.getD i z, l.getD (i + 1) z, l.getD (i + 2) z, l.getD (i + 3) z, l.getD (i + 4) z,
   l.getD (i + 5) z, l.getD (i + 6) z, l.getD (i + 7) z⟩
/-- The 64 entries of a block as eight rows. -/
def rows (z : α) (l : List α) : V8 (V8 α) :=
  ⟨ofList z l 0, ofList z l 8, ofList z l 16, ofList z l 24, ofList z l 32, ofList z l 40,
   ofList z l 48, ofList z l 56⟩
end V8

/-- `idct/scalar.rs:6`, `idct/avx2.rs:33` -/
def SCALE_BITS : I32 := 512#32 + 65536#32 + 128#32 <<< 17

/-- One 1-D pass: `idct/scalar.rs:79-167` (bias 512, shift 10) and `idct/scalar.rs:170-274` (bias
`SCALE_BITS`, shift 17, before the clamp). `f2f(1.175875602)` is 4816. -/
def idctPass (bias : I32) (shift : Nat) (v : V8 I32) : V8 I32 :=
  let p2 := v.a2
  let p3 := v.a6
  let p1 := (p2 + p3) * 2217
  let t2 := p1 + p3 * (-7567)
  let t3 := p1 + p2 * 3135
  let p2 := v.a0
  let p3 := v.a4
  let t0 := (p2 + p3) <<< 12
  let t1 := (p2 - p3) <<< 12
  let x0 := t0 + t3 + bias
  let x3 := t0 - t3 + bias
  let x1 := t1 + t2 + bias
  let x2 := t1 - t2 + bias
  let t0 := v.a7
  let t1 := v.a5
  let t2 := v.a3
  let t3 := v.a1
  let p3 := t0 + t2
  let p4 := t1 + t3
  let p1 := t0 + t3
  let p2 := t1 + t2
  let p5 := (p3 + p4) * 4816
  let t0 := t0 * 1223
  let t1 := t1 * 8410
  let t2 := t2 * 12586
  let t3 := t3 * 6149
  let p1 := p5 + p1 * (-3685)
  let p2 := p5 + p2 * (-10497)
  let p3 := p3 * (-8034)
  let p4 := p4 * (-1597)
  let t3 := t3 + (p1 + p4)
  let t2 := t2 + (p2 + p3)
  let t1 := t1 + (p2 + p4)
  let t0 := t0 + (p1 + p3)
  { a0 := (x0 + t3).sshiftRight shift
    a1 := (x1 + t2).sshiftRight shift
    a2 := (x2 + t1).sshiftRight shift
    a3 := (x3 + t0).sshiftRight shift
    a4 := (x3 - t0).sshiftRight shift
    a5 := (x2 - t1).sshiftRight shift
    a6 := (x1 - t2).sshiftRight shift
    a7 := (x0 - t3).sshiftRight shift }

/-- `idct/scalar.rs:302-305` (`clamp`) -/
def clamp32 (a : I32) : I16 :=
  if a.toInt < 0 then 0 else if 255 < a.toInt then 255 else a.setWidth 16

/-- `idct/scalar.rs:308-311` (`dequantize`) on a whole block -/
def dequantize (block : List I16) (qt : List Nat) : V8 (V8 I32) :=
  V8.rows 0 (List.zipWith (fun c q => c.signExtend 32 * BitVec.ofNat 32 q) block qt)

/-- All AC coefficients are zero (`idct/scalar.rs:45`, `idct/avx2.rs:136-159`). -/
def acZero (block : List I16) : Bool := (block.drop 1).all (· == 0)

/-- `idct/scalar.rs:48`: the value of a flat block. -/
def dcValue (block : List I16) (qt : List Nat) : I16 :=
  (block.getD 0 0 * BitVec.ofNat 16 (qt.getD 0 0)).sshiftRight 3 + 128

/-- `idct/scalar.rs:45-275`: one block, as eight rows of samples. -/
def idctBlockScalar (block : List I16) (qt : List Nat) : List (List I16) :=
  if acZero block then List.replicate 8 (List.replicate 8 (dcValue block qt))
  else
    let m := dequantize block qt
    let tmp := ((m.transpose).map (idctPass 512 10)).transpose
    (tmp.map fun r => ((idctPass SCALE_BITS 17 r).map clamp32).toList).toList

/-- `_mm256_permute4x64_epi64` with `shuffle(3, 1, 2, 0)` -/
def permute4x64 {α} (v : V8 α) : V8 α :=
  ⟨v.a0, v.a1, v.a4, v.a5, v.a2, v.a3, v.a6, v.a7⟩
/-- `_mm256_unpacklo_epi32` -/
def unpackloEpi32 {α} (a b : V8 α) : V8 α := ⟨a.a0, b.a0, a.a1, b.a1, a.a4, b.a4, a.a5, b.a5⟩
/-- `_mm256_unpackhi_epi32` -/
def unpackhiEpi32 {α} (a b : V8 α) : V8 α := ⟨a.a2, b.a2, a.a3, b.a3, a.a6, b.a6, a.a7, b.a7⟩
/-- `_mm256_unpacklo_epi64` -/
def unpackloEpi64 {α} (a b : V8 α) : V8 α := ⟨a.a0, a.a1, b.a0, b.a1, a.a4, a.a5, b.a4, b.a5⟩
/-- `_mm256_unpackhi_epi64` -/
def unpackhiEpi64 {α} (a b : V8 α) : V8 α := ⟨a.a2, a.a3, b.a2, b.a3, a.a6, a.a7, b.a6, b.a7⟩
/-- `_mm256_permute2x128_si256` with `shuffle(0, 2, 0, 0)`, the low halves -/
def permute2x128lo {α} (a b : V8 α) : V8 α := ⟨a.a0, a.a1, a.a2, a.a3, b.a0, b.a1, b.a2, b.a3⟩
/-- `_mm256_permute2x128_si256` with `shuffle(0, 3, 0, 1)`, the high halves -/
def permute2x128hi {α} (a b : V8 α) : V8 α := ⟨a.a4, a.a5, a.a6, a.a7, b.a4, b.a5, b.a6, b.a7⟩

/-- `idct/avx2.rs:422-486` (`transpose`) -/
def avxTranspose {α} (v : V8 (V8 α)) : V8 (V8 α) :=
  let m32 (a b : V8 α) := (unpackloEpi32 (permute4x64 a) (permute4x64 b),
                           unpackhiEpi32 (permute4x64 a) (permute4x64 b))
  let m64 (a b : V8 α) := (unpackloEpi64 (permute4x64 a) (permute4x64 b),
                           unpackhiEpi64 (permute4x64 a) (permute4x64 b))
  let (w0, w1) := m32 v.a0 v.a1
  let (w2, w3) := m32 v.a2 v.a3
  let (w4, w5) := m32 v.a4 v.a5
  let (w6, w7) := m32 v.a6 v.a7
  let (x0, x1) := m64 w0 w2
  let (x2, x3) := m64 w1 w3
  let (x4, x5) := m64 w4 w6
  let (x6, x7) := m64 w5 w7
  ⟨permute2x128lo x0 x4, permute2x128hi x0 x4, permute2x128lo x1 x5, permute2x128hi x1 x5,
   permute2x128lo x2 x6, permute2x128hi x2 x6, permute2x128lo x3 x7, permute2x128hi x3 x7⟩

/-- `idct/avx2.rs:251-331` (`dct_pass!`): every lane of the eight registers runs the 1-D pass;
register `i` holds entry `i`. -/
def avxPass (bias : I32) (shift : Nat) (r : V8 (V8 I32)) : V8 (V8 I32) :=
  let add := V8.zipWith (fun a b : I32 => a + b)
  let sub := V8.zipWith (fun a b : I32 => a - b)
  let mulc (a : V8 I32) (c : I32) := V8.zipWith (fun a b : I32 => a * b) a (V8.rep c)
  let slli (a : V8 I32) := a.map (fun x : I32 => x <<< 12)
  let srai (a : V8 I32) := a.map (fun x : I32 => x.sshiftRight shift)
  let p1 := mulc (add r.a2 r.a6) 2217
  let t2 := add p1 (mulc r.a6 (-7567))
  let t3 := add p1 (mulc r.a2 3135)
  let t0 := slli (add r.a0 r.a4)
  let t1 := slli (sub r.a0 r.a4)
  let x0 := add (add t0 t3) (V8.rep bias)
  let x3 := add (sub t0 t3) (V8.rep bias)
  let x1 := add (add t1 t2) (V8.rep bias)
  let x2 := add (sub t1 t2) (V8.rep bias)
  let p3 := add r.a7 r.a3
  let p4 := add r.a5 r.a1
  let p1 := add r.a7 r.a1
  let p2 := add r.a5 r.a3
  let p5 := mulc (add p3 p4) 4816
  let t0 := mulc r.a7 1223
  let t1 := mulc r.a5 8410
  let t2 := mulc r.a3 12586
  let t3 := mulc r.a1 6149
  let p1 := add p5 (mulc p1 (-3685))
  let p2 := add p5 (mulc p2 (-10497))
  let p3 := mulc p3 (-8034)
  let p4 := mulc p4 (-1597)
  let t3 := add t3 (add p1 p4)
  let t2 := add t2 (add p2 p3)
  let t1 := add t1 (add p2 p4)
  let t0 := add t0 (add p1 p3)
  { a0 := srai (add x0 t3)
    a1 := srai (add x1 t2)
    a2 := srai (add x2 t1)
    a3 := srai (add x3 t0)
    a4 := srai (sub x3 t0)
    a5 := srai (sub x2 t1)
    a6 := srai (sub x1 t2)
    a7 := srai (sub x0 t3) }

/-- Signed saturation of `_mm256_packs_epi32` in one lane. -/
def packs32 (a : I32) : I16 :=
  if a.toInt < -32768 then BitVec.ofInt 16 (-32768)
  else if 32767 < a.toInt then 32767 else a.setWidth 16

/-- `min(max(a, 0), 255)` on `i16` lanes (`clamp_avx`, `idct/avx2.rs:400-413`;
`color_convert/avx.rs:403-414`; `clamp_sse`, `color_convert/sse.rs:225-237`) -/
def clampI16 (a : I16) : I16 :=
  if a.toInt < 0 then 0 else if 255 < a.toInt then 255 else a

/-- `idct/avx2.rs:355-386` (`permute_store!`): pack two registers, clamp, undo the lane order;
the two rows that are stored. -/
def avxPermuteStore (x y : V8 I32) : List I16 × List I16 :=
  let a : List I16 := ([x.a0, x.a1, x.a2, x.a3, y.a0, y.a1, y.a2, y.a3,
    x.a4, x.a5, x.a6, x.a7, y.a4, y.a5, y.a6, y.a7]).map packs32
  let b := a.map clampI16
  (b.take 4 ++ (b.drop 8).take 4, (b.drop 4).take 4 ++ b.drop 12)

/-- `idct/avx2.rs:100-395`: one block, as eight rows of samples. -/
def idctBlockAvx (block : List I16) (qt : List Nat) : List (List I16) :=
  if acZero block then List.replicate 8 (List.replicate 8 (clampI16 (dcValue block qt)))
  else
    let m := dequantize block qt
    let r := avxPass SCALE_BITS 17 (avxTranspose (avxPass 512 10 (avxTranspose m)))
    let (s0, s1) := avxPermuteStore r.a0 r.a1
    let (s2, s3) := avxPermuteStore r.a2 r.a3
    let (s4, s5) := avxPermuteStore r.a4 r.a5
    let (s6, s7) := avxPermuteStore r.a6 r.a7
    [s0, s1, s2, s3, s4, s5, s6, s7]

/-- The vector loads of eight lanes of the AVX2 code: offset in the 64 element array, and length of
the sub-slice whose pointer is taken. `idct/avx2.rs:73-87` for the quantization table (note
`[24..=32]`), `idct/avx2.rs:107-121` for the rows of a block, `idct/avx2.rs:136` for the test of the
first row (`[1..8]`). -/
def avxLoads : List (Nat × Nat) :=
  [(0, 8), (8, 8), (16, 8), (24, 9), (32, 8), (40, 8), (48, 8), (56, 8),
   (0, 8), (8, 8), (16, 8), (24, 8), (32, 8), (40, 8), (48, 8), (56, 8), (1, 7)]

/-- The block function of the chosen IDCT. -/
def IdctFn.block : IdctFn → List I16 → List Nat → List (List I16)
  | .scalar => idctBlockScalar
  | .avx2 => idctBlockAvx

/-- Write the rows of a block at `pos`, `pos + stride`, ... (`idct/scalar.rs:50-73, 249-273`) -/
def writeRows (out : List I16) (pos stride : Nat) : List (List I16) → Out (List I16)
  | [] => .ok out
  | r :: rs => (writeChecked out pos r).bind fun out' => writeRows out' (pos + stride) stride rs

/-- `idct/scalar.rs:32-280`: one chunk of the coefficient vector; block `x` starts at column
`8 * x`. -/
def idctChunk (f : List I16 → List Nat → List (List I16)) (qt : List Nat) (stride : Nat)
    (chunk : List I16) : Out (List I16) :=
  Out.fold (fun out (b, x) => writeRows out (8 * x) stride (f b qt))
    (List.replicate chunk.length 0) (chunksExact 64 chunk).zipIdx

/-- `idct/scalar.rs:19-282`, `idct/avx2.rs:64-398`: the IDCT of a strip of one component. -/
def idctStrip (f : List I16 → List Nat → List (List I16)) (vector : List I16) (qt : List Nat)
    (stride sampFactors vSamp : Nat) : Out (List I16) :=
  if sampFactors = 0 then .panic .zero
  else
    let chunks := vector.length * vSamp / sampFactors
    if chunks = 0 then .panic .zero
    else
      (Out.collect ((chunksExact chunks vector).map (idctChunk f qt stride))).bind fun outs =>
        .ok (fit vector.length 0 outs.flatten)

end Zune
