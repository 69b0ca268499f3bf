import Verif.Lemmas.Simd
import Verif.Props.Formats
/-!
# C75: the processor and the option for SIMD code matter only by what is used of them
-/

namespace Zune
open Spec

namespace Spec

/-- The results of decoding one file after another with the same decoder. -/
def results (d : Decoder) : List (List UInt8) → List (Out (List UInt8))
  | [] => []
  | buf :: bufs => (d.decodeBuffer buf).1 :: results (d.decodeBuffer buf).2 bufs

end Spec

theorem simd_decodeBuffer (a : Cpu × Bool) (d : Decoder) (buf : List UInt8) :
    ∃ b, (toSimd a d).decodeBuffer buf = ((d.decodeBuffer buf).1, toSimd b (d.decodeBuffer buf).2) := by
  obtain ⟨b, e⟩ := sd_decodeInternal a ⟨d, buf⟩
  have e' : decodeInternal ⟨toSimd a d, buf⟩ = _ := e
  unfold Decoder.decodeBuffer
  rw [e']
  exact ⟨b, rfl⟩

theorem simd_readHeaders (a : Cpu × Bool) (d : Decoder) (buf : List UInt8) :
    ∃ b, (toSimd a d).readHeaders buf = ((d.readHeaders buf).1, toSimd b (d.readHeaders buf).2) := by
  obtain ⟨b, e⟩ := sd_decodeHeaders a ⟨d, buf⟩
  have e' : decodeHeaders ⟨toSimd a d, buf⟩ = _ := e
  unfold Decoder.readHeaders
  rw [e']
  exact ⟨b, rfl⟩

theorem simd_results (bufs : List (List UInt8)) : ∀ (a : Cpu × Bool) (d : Decoder),
    results (toSimd a d) bufs = results d bufs := by
  induction bufs with
  | nil => exact fun _ _ => rfl
  | cons buf bufs ih =>
    intro a d
    obtain ⟨b, e⟩ := simd_decodeBuffer a d buf
    unfold results
    rw [e]
    exact congrArg _ (ih b _)

theorem new_simd {cpu cpu' : Cpu} {o : Options} {u : Bool} (h : simd cpu' u = simd cpu o.useUnsafe) :
    Decoder.newWithOptions cpu' { o with useUnsafe := u } = toSimd (cpu', u) (Decoder.newWithOptions cpu o) := by
  have h' : simd cpu' ({ o with useUnsafe := u } : Options).getUseUnsafe = simd cpu o.getUseUnsafe := h
  unfold Decoder.newWithOptions
  rw [chooseIdct_same h', chooseColor_same h']
  unfold toSimd
  dsimp only
  rw [if_pos h, if_pos h]

/-- **C75.** Two new decoders whose options differ at most in whether SIMD code is allowed, on any two
processors: if they may use the same SIMD features then they give the same results for all files, one after
another, whatever the bytes are. -/
theorem c75_simd (cpu cpu' : Cpu) (o : Options) (u : Bool)
    (hs : (o.useUnsafe && cpu.sse41) = (u && cpu'.sse41)) (ha : (o.useUnsafe && cpu.avx2) = (u && cpu'.avx2))
    (bufs : List (List UInt8)) :
    results (Decoder.newWithOptions cpu' { o with useUnsafe := u }) bufs =
      results (Decoder.newWithOptions cpu o) bufs := by
  rw [new_simd (show simd cpu' u = simd cpu o.useUnsafe by unfold simd; rw [hs, ha])]
  exact simd_results _ _ _

/-- **C75**, headers: the result and the information that is read. -/
theorem c75_headers (cpu cpu' : Cpu) (o : Options) (u : Bool)
    (hs : (o.useUnsafe && cpu.sse41) = (u && cpu'.sse41)) (ha : (o.useUnsafe && cpu.avx2) = (u && cpu'.avx2))
    (buf : List UInt8) :
    ((Decoder.newWithOptions cpu' { o with useUnsafe := u }).readHeaders buf).1 =
      ((Decoder.newWithOptions cpu o).readHeaders buf).1 ∧
    ((Decoder.newWithOptions cpu' { o with useUnsafe := u }).readHeaders buf).2.getInfo =
      ((Decoder.newWithOptions cpu o).readHeaders buf).2.getInfo := by
  rw [new_simd (show simd cpu' u = simd cpu o.useUnsafe by unfold simd; rw [hs, ha])]
  obtain ⟨b, e⟩ := simd_readHeaders (cpu', u) (Decoder.newWithOptions cpu o) buf
  rw [e]
  exact ⟨rfl, rfl⟩

/-- **C75**, without SIMD code: the processor does not matter, and a processor without SIMD gives the same. -/
theorem c75_safe (cpu cpu' : Cpu) (o : Options) (bufs : List (List UInt8)) :
    results (Decoder.newWithOptions cpu (o.setUseUnsafe false)) bufs =
      results (Decoder.newWithOptions cpu' (o.setUseUnsafe false)) bufs ∧
    results (Decoder.newWithOptions cpu (o.setUseUnsafe false)) bufs =
      results (Decoder.newWithOptions ⟨false, false⟩ (o.setUseUnsafe true)) bufs :=
  ⟨c75_simd cpu' cpu (o.setUseUnsafe false) false rfl rfl bufs,
    c75_simd ⟨false, false⟩ cpu (o.setUseUnsafe true) false rfl rfl bufs⟩

/-- Files to which the theorem applies, and the features do matter: the same file, decoded twice with one decoder,
gives another image with AVX2, but the same with AVX2 that may not be used. -/
example :
    results (Decoder.newWithOptions ⟨true, true⟩ (({} : Options).setUseUnsafe false)) [brightFile, brightFile] =
      [.ok (List.replicate 128 [255, 255, 0]).flatten, .ok (List.replicate 128 [255, 255, 0]).flatten] ∧
    results (Decoder.newWithOptions ⟨true, true⟩ (({} : Options).setUseUnsafe true)) [brightFile] ≠
      results (Decoder.newWithOptions ⟨true, true⟩ (({} : Options).setUseUnsafe false)) [brightFile] := by
  constructor <;> decide +kernel

end Zune
