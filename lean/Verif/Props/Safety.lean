import Verif.Lemmas.SoundDecode
/-!
# Memory safety of the unchecked accesses

C47. The model ends with `.panic .unsound` at an unchecked load or store that leaves the slice it is
taken from.
-/

namespace Zune

namespace Spec

/-- The decoder objects that a program can hold: made by a constructor and used through the public
functions in any order, with any outcome. -/
inductive Reachable : Decoder → Prop
  | new (cpu : Cpu) (o : Options) : Reachable (Decoder.newWithOptions cpu o)
  | rgba {d : Decoder} : Reachable d → Reachable d.rgba
  | setLimits {d : Decoder} (w h : Nat) : Reachable d → Reachable (d.setLimits w h)
  | setOutputColorspace {d : Decoder} (c : ColorSpace) :
      Reachable d → Reachable (d.setOutputColorspace c)
  | setNumThreads {d : Decoder} (n : Nat) : Reachable d → Reachable (Decoder.setNumThreads n d).2
  | readHeaders {d : Decoder} (buf : List UInt8) : Reachable d → Reachable (d.readHeaders buf).2
  | decodeBuffer {d : Decoder} (buf : List UInt8) : Reachable d → Reachable (d.decodeBuffer buf).2

end Spec
open Spec

theorem reachable_good {d : Decoder} (h : Reachable d) :
    ∃ cpu o, Good (Decoder.newWithOptions cpu o).fns d := by
  induction h with
  | new cpu o => exact ⟨cpu, o, rfl, Or.inr fun c hc => by cases hc⟩
  | rgba _ ih => exact (let ⟨cpu, o, g⟩ := ih; ⟨cpu, o, shape_good.keep g rfl rfl⟩)
  | setLimits w h _ ih => exact (let ⟨cpu, o, g⟩ := ih; ⟨cpu, o, shape_good.keep g rfl rfl⟩)
  | setOutputColorspace c _ ih => exact (let ⟨cpu, o, g⟩ := ih; ⟨cpu, o, shape_good.keep g rfl rfl⟩)
  | setNumThreads n _ ih =>
    unfold Decoder.setNumThreads
    split
    · exact ih
    · split
      · exact ih
      · exact (let ⟨cpu, o, g⟩ := ih; ⟨cpu, o, shape_good.keep g rfl rfl⟩)
  | @readHeaders d buf _ ih => exact (let ⟨cpu, o, g⟩ := ih; ⟨cpu, o, (snd_decodeHeaders shape_good ⟨d, buf⟩ g).2.1⟩)
  | @decodeBuffer d buf _ ih => exact (let ⟨cpu, o, g⟩ := ih; ⟨cpu, o, (snd_decodeInternal ⟨d, buf⟩ g).2.1⟩)

/-- **C47**, whole decoder: whatever was done with the decoder object before, and whatever the input
is, no unchecked access of bit reading, upsampling or colour conversion leaves its slice, in the
main thread or in a job. -/
theorem c47_decode {d : Decoder} (h : Reachable d) (buf : List UInt8) :
    (d.decodeBuffer buf).1 ≠ .panic .unsound ∧ (d.readHeaders buf).1 ≠ .panic .unsound :=
  have ⟨_, _, g⟩ := reachable_good h
  ⟨(snd_decodeInternal ⟨d, buf⟩ g).1, (snd_decodeHeaders shape_good ⟨d, buf⟩ g).1⟩

/-- A decoder that was used before. -/
example : Reachable (((Decoder.new ⟨true, true⟩).rgba.decodeBuffer [0xff, 0xd8, 0xff]).2.readHeaders []).2 :=
  .readHeaders _ (.decodeBuffer _ (.rgba (.new _ _)))

/-- **C47**, SSE upsampler: for every input and every output length. -/
theorem c47_sse (input : List I16) (n : Nat) : upsampleHorizontalSse input n ≠ .panic .unsound :=
  sound_horizontalSse input n

/-- It does return for some inputs, and the unchecked loads are reached. -/
example : (upsampleHorizontalSse (List.replicate 16 7) 32).isOk = true := by decide +kernel

/-- **C47**, colour converters: for groups of sixteen samples, any output slice and any offset. -/
theorem c47_color (f : ColorFn) {y cb cr : List I16} (hy : y.length = 16) (hb : cb.length = 16)
    (hr : cr.length = 16) (out : List UInt8) (pos : Nat) :
    f.run y cb cr out pos ≠ .panic .unsound :=
  sound_run f hy hb hr out pos

example : (ColorFn.run .rgbSse (List.replicate 16 7) (List.replicate 16 7) (List.replicate 16 7)
    (List.replicate 70 0) 5).isOk = true := by decide +kernel

/-- **C47**, AVX2 upsampler for 2x2 subsampling: planes of a quarter of the output length. -/
theorem c47_hv {input : List I16} {n : Nat} (h : n = 4 * input.length) :
    upsampleHvSimd input n ≠ .panic .unsound :=
  sound_hvSimd (Or.inr (Or.inl h))

/-- Other lengths can leave the input; the decoder never asks for them (`c47_decode`). -/
theorem c47_hv_false : ∃ (input : List I16) (n : Nat), upsampleHvSimd input n = .panic .unsound := by
  refine ⟨List.replicate 512 0, 2784, ?_⟩
  have h : (upsampleHvSimd (List.replicate 512 0) 2784).isUnsound = true := by decide +kernel
  revert h
  generalize upsampleHvSimd (List.replicate 512 0) 2784 = o
  intro h
  cases o with
  | panic p => cases p <;> first | rfl | cases h
  | _ => cases h

/-- **C47**, AVX2 inverse DCT: every load lies inside the block or the quantization table. All loads
except the last one lie inside the sub-slice that gives the pointer. -/
theorem c47_idct_partial : (∀ x ∈ avxLoads, x.1 + 8 ≤ 64) ∧
    ∀ x ∈ avxLoads.dropLast, 8 ≤ x.2 ∧ x.1 + x.2 ≤ 64 := by decide

/-- The load of `idct/avx2.rs:136` reads one element behind its sub-slice. -/
theorem c47_false : ∃ x ∈ avxLoads, ¬ 8 ≤ x.2 := ⟨(1, 7), by decide, by decide⟩

end Zune
