import Verif.Props.Reuse
import Verif.Props.ProgColour
/-!
# Whole files with a decoder that is used more than once

C42.
-/

namespace Zune
open Spec

/-- The decoder after these files, whatever became of them. -/
def Spec.afterFiles (d : Decoder) (files : List (List UInt8)) : Decoder :=
  files.foldl (fun d f => (d.decodeBuffer f).2) d

/-- Larger factors do not matter. -/
theorem Reusable.mono {d : Decoder} {fh fv fh' fv' : Nat} (U : Reusable d fh fv) (h1 : fh ≤ fh') (h2 : fv ≤ fv') :
    Reusable d fh' fv' := by
  have := U.hMax
  have := U.vMax
  exact ⟨⟨U.hMax.1, by omega⟩, ⟨U.vMax.1, by omega⟩, fun h ⟨a, b⟩ => U.inter h ⟨by omega, by omega⟩,
    U.plain, U.prog, U.qt, U.dc, U.ac⟩

/-- A used decoder that still has the options, CPU features and functions it was made with. -/
structure UsedWith (d : Decoder) (cpu : Cpu) (o : Options) : Prop where
  keep : DecKeep d (chooseIdct cpu o.getUseUnsafe) (Decoder.newWithOptions cpu o).colorFn cpu o
  inCs : d.inputColorspace = .ycbcr

/-- A colour image with a decoder that may have been used before. -/
theorem colour_decode {g : ColourJpeg} (V : g.Valid) {cpu : Cpu} {o : Options} {d : Decoder}
    (U : Reusable d g.fh g.fv) (K : UsedWith d cpu o)
    (hw : g.width ≤ o.getMaxWidth) (hh : g.height ≤ o.getMaxHeight) :
    (d.decodeBuffer g.bytes).1 = ((Decoder.newWithOptions cpu o).decodeBuffer g.bytes).1 ∧
      Reusable (d.decodeBuffer g.bytes).2 g.fh g.fv ∧ UsedWith (d.decodeBuffer g.bytes).2 cpu o := by
  obtain ⟨e, e0, e1, e2, full', R', hq', K', hj'⟩ := baseline_jobs V cpu o hw hh rfl
  obtain ⟨d1, c0, c1, c2, h1, R, ht, hrs, U1, hi, hcf, hcpu, ho, hq⟩ := colour_headers_from V U K.inCs
    (by rw [K.keep.options]; exact hw) (by rw [K.keep.options]; exact hh)
  have K1 : DecKeep d1 (chooseIdct cpu o.getUseUnsafe) (Decoder.newWithOptions cpu o).colorFn cpu o :=
    ⟨hi.trans K.keep.idct, hcf.trans K.keep.color, hcpu.trans K.keep.cpu, ho.trans K.keep.options⟩
  obtain ⟨full, res, h', h2, hj, cs, r, k, hr, hd⟩ := colour_jobs_dec (trailer := g.trailer) R ht V.fit hrs V.data
    (oc := o.getOutColorspace) (nc := o.getOutColorspace.numComponents) (by rw [K1.options]) rfl
  have hdec : d.decodeBuffer g.bytes = (res, h'.dec) := by
    have h3 : ∀ r, decodeBaseline ⟨d1, g.data ++ 0xFF :: 0xD9 :: g.trailer⟩ = r →
        decodeInternal ⟨d, g.bytes⟩ = r := by
      intro r hr
      unfold decodeInternal
      rw [M.bind_ok h1, M.bind_ok (getDec_apply _ _), U1.prog, if_neg (by decide)]
      exact hr
    unfold Decoder.decodeBuffer
    rw [h3 _ h2]
  rw [hdec, hd]
  refine ⟨?_, ⟨U1.hMax, U1.vMax, U1.inter, fun h => ⟨(U1.plain h).1, (U1.plain h).2.1, hr ?_⟩, U1.prog, U1.qt, U1.dc, U1.ac⟩, ⟨K1.idct, K1.color, K1.cpu, K1.options⟩,
    R.inCs⟩
  rotate_left
  · have h' : d1.interleaved = false := h
    rw [R.frame.inter] at h'
    simpa using h'
  exact colourJobs_unique R.toColourFrame R' K1 K' rfl (by cases o.getOutColorspace <;> decide) hq hq'
    (fun _ _ _ _ _ _ => rfl) hj hj'

/-- The files one after another. -/
theorem colour_files {cpu : Cpu} {o : Options} {fh fv : Nat} :
    ∀ (gs : List ColourJpeg) (d : Decoder) (a b : Nat), Reusable d a b → UsedWith d cpu o →
      (∀ x ∈ gs, x.Valid ∧ x.width ≤ o.getMaxWidth ∧ x.height ≤ o.getMaxHeight) →
      (∀ x ∈ gs, a ≤ x.fh ∧ b ≤ x.fv) → (∀ x ∈ gs, x.fh ≤ fh ∧ x.fv ≤ fv) → a ≤ fh → b ≤ fv →
      gs.Pairwise (fun x y => x.fh ≤ y.fh ∧ x.fv ≤ y.fv) →
      Reusable (afterFiles d (gs.map ColourJpeg.bytes)) fh fv ∧
        UsedWith (afterFiles d (gs.map ColourJpeg.bytes)) cpu o
  | [], _, _, _, U, K, _, _, _, ha, hb, _ => ⟨U.mono ha hb, K⟩
  | x :: gs, d, a, b, U, K, hv, hl, hle, ha, hb, hp => by
    obtain ⟨v1, v2, v3⟩ := hv x (by simp)
    obtain ⟨-, U1, K1⟩ := colour_decode v1 (U.mono (hl x (by simp)).1 (hl x (by simp)).2) K v2 v3
    obtain ⟨p1, p2⟩ := List.pairwise_cons.1 hp
    exact colour_files gs _ _ _ U1 K1 (fun y hy => hv y (by simp [hy])) p1
      (fun y hy => hle y (by simp [hy])) (hle x (by simp)).1 (hle x (by simp)).2 p2

/-- **C42 (partial, colour).** For all options and CPU features: a baseline colour image decodes as with a
new decoder after any number of baseline colour images, in whatever order their sizes, tables and restart
intervals come and whatever became of them, if the sampling factors never decrease. Missing: factors that decrease,
where the property is false (`c42_factors_false`), and colour images after grayscale ones, where it is
false as well (`c42_false`). -/
theorem c42_colour_partial (cpu : Cpu) (o : Options) {before : List ColourJpeg} {g : ColourJpeg}
    (V : ∀ x ∈ before ++ [g], x.Valid ∧ x.width ≤ o.getMaxWidth ∧ x.height ≤ o.getMaxHeight)
    (hf : (before ++ [g]).Pairwise fun x y => x.fh ≤ y.fh ∧ x.fv ≤ y.fv) :
    ((afterFiles (Decoder.newWithOptions cpu o) (before.map ColourJpeg.bytes)).decodeBuffer g.bytes).1 =
      ((Decoder.newWithOptions cpu o).decodeBuffer g.bytes).1 := by
  obtain ⟨v1, v2, v3⟩ := V g (by simp)
  obtain ⟨p1, -, p2⟩ := List.pairwise_append.1 hf
  obtain ⟨U, K⟩ := colour_files (cpu := cpu) (o := o) (fh := g.fh) (fv := g.fv) before
    (Decoder.newWithOptions cpu o) 1 1 (reusable_new cpu o Nat.one_pos Nat.one_pos) ⟨⟨rfl, rfl, rfl, rfl⟩, rfl⟩
    (fun x hx => V x (by simp [hx])) (fun x hx => ⟨(V x (by simp [hx])).1.fh.1, (V x (by simp [hx])).1.fv.1⟩)
    (fun x hx => p2 x hx g (by simp)) v1.fh.1 v1.fv.1 p1
  exact (colour_decode v1 U K v2 v3).1

/-- Grayscale files one after another. -/
theorem gray_files {mw mh : Nat} {f : IdctFn} : ∀ (gs : List GrayJpeg) (d : Decoder), Reusable d 2 2 →
      (d.interleaved = true ∨ d.hMax ≠ 1 ∨ d.vMax ≠ 1 → d.options.getStrictMode = false) →
      d.options.getMaxWidth = mw → d.options.getMaxHeight = mh → d.idctFn = f →
      (∀ x ∈ gs, x.Valid ∧ x.width ≤ mw ∧ x.height ≤ mh) →
      let d' := afterFiles d (gs.map GrayJpeg.bytes)
      Reusable d' 2 2 ∧
        (d'.interleaved = true ∨ d'.hMax ≠ 1 ∨ d'.vMax ≠ 1 → d'.options.getStrictMode = false) ∧
        d'.options.getMaxWidth = mw ∧ d'.options.getMaxHeight = mh ∧ d'.idctFn = f
  | [], _, U, hs, h1, h2, h3, _ => ⟨U, hs, h1, h2, h3⟩
  | x :: gs, d, U, hs, h1, h2, h3, hv => by
    obtain ⟨v1, v2, v3⟩ := hv x (by simp)
    obtain ⟨d', e, U', hs', hi, ho⟩ := gray_decode v1 U hs (by omega) (by omega)
    have e' : afterFiles d ((x :: gs).map GrayJpeg.bytes) = afterFiles d' (gs.map GrayJpeg.bytes) := by
      show afterFiles (d.decodeBuffer x.bytes).2 _ = _
      rw [e]
    rw [e']
    exact gray_files gs d' U' hs' (by rw [ho]; exact h1) (by rw [ho]; exact h2) (hi.trans h3)
      fun y hy => hv y (by simp [hy])

/-- **C42 (partial, grayscale).** For all options and CPU features: a grayscale image decodes as with a new
decoder after any number of baseline colour images, with sampling factors that do not decrease, and then any number
of grayscale images, whatever their sizes, tables and restart intervals are. In strict mode the colour images must
not be subsampled; if they are the property is false (`c42_factors_false`). -/
theorem c42_gray_partial (cpu : Cpu) (o : Options) {colour : List ColourJpeg} {gray : List GrayJpeg} {g : GrayJpeg}
    (Vc : ∀ x ∈ colour, x.Valid ∧ x.width ≤ o.getMaxWidth ∧ x.height ≤ o.getMaxHeight)
    (hf : colour.Pairwise fun x y => x.fh ≤ y.fh ∧ x.fv ≤ y.fv)
    (Vg : ∀ x ∈ gray ++ [g], x.Valid ∧ x.width ≤ o.getMaxWidth ∧ x.height ≤ o.getMaxHeight)
    (hs : o.getStrictMode = false ∨ ∀ x ∈ colour, x.fh = 1 ∧ x.fv = 1) :
    ((afterFiles (Decoder.newWithOptions cpu o)
        (colour.map ColourJpeg.bytes ++ gray.map GrayJpeg.bytes)).decodeBuffer g.bytes).1 =
      ((Decoder.newWithOptions cpu o).decodeBuffer g.bytes).1 := by
  obtain ⟨v1, v2, v3⟩ := Vg g (by simp)
  have key : ∀ m, (∀ x ∈ colour, x.fh ≤ m ∧ x.fv ≤ m) → 1 ≤ m →
      Reusable (afterFiles (Decoder.newWithOptions cpu o) (colour.map ColourJpeg.bytes)) m m ∧
        UsedWith (afterFiles (Decoder.newWithOptions cpu o) (colour.map ColourJpeg.bytes)) cpu o := by
    intro m hm h1
    exact colour_files (cpu := cpu) (o := o) (fh := m) (fv := m) colour
      (Decoder.newWithOptions cpu o) 1 1 (reusable_new cpu o Nat.one_pos Nat.one_pos) ⟨⟨rfl, rfl, rfl, rfl⟩, rfl⟩
      Vc (fun x hx => ⟨(Vc x hx).1.fh.1, (Vc x hx).1.fv.1⟩) hm h1 h1 hf
  obtain ⟨U, K⟩ := key 2 (fun x hx => ⟨(Vc x hx).1.fh.2, (Vc x hx).1.fv.2⟩) (by decide)
  have hst : ∀ d, d = afterFiles (Decoder.newWithOptions cpu o) (colour.map ColourJpeg.bytes) →
      d.interleaved = true ∨ d.hMax ≠ 1 ∨ d.vMax ≠ 1 → d.options.getStrictMode = false := by
    rintro d rfl h
    rcases hs with hs | hs
    · rw [K.keep.options]
      exact hs
    · obtain ⟨U1, -⟩ := key 1 (fun x hx => by rw [(hs x hx).1, (hs x hx).2]; decide) (by decide)
      have := U1.hMax
      have := U1.vMax
      rcases h with h | h | h
      · exact absurd ⟨rfl, rfl⟩ (U1.inter h)
      · omega
      · omega
  obtain ⟨U', hs', h1, h2, h3⟩ := gray_files gray _ U (hst _ rfl) rfl rfl rfl (mw := _) (mh := _) (f := _)
    (fun x hx => by rw [K.keep.options]; exact Vg x (by simp [hx]))
  rw [c53_gray_partial v1 cpu o v2 v3]
  have hap : afterFiles (Decoder.newWithOptions cpu o)
      (colour.map ColourJpeg.bytes ++ gray.map GrayJpeg.bytes) =
      afterFiles (afterFiles (Decoder.newWithOptions cpu o) (colour.map ColourJpeg.bytes))
        (gray.map GrayJpeg.bytes) := List.foldl_append
  rw [hap]
  obtain ⟨d', e, -⟩ := gray_decode v1 U' hs' (by rw [h1, K.keep.options]; exact v2)
    (by rw [h2, K.keep.options]; exact v3)
  rw [e, h3, K.keep.idct]

/-- **C42** is false if the sampling factors decrease: after a 16x8 image with factors 2x1 an image with
factors 1x1 that a new decoder decodes is refused, and so is, in strict mode, a grayscale image. After an image
with factors 1x2 half of it is lost. -/
theorem c42_factors_false :
    let n := Decoder.new ⟨false, false⟩
    let s := Decoder.newWithOptions ⟨false, false⟩ (Options.new.setStrictMode true)
    let flat := sampledFile 8 16 0x11 (List.replicate 12 0)
    (n.decodeBuffer flat).1 = .ok (List.replicate 384 128) ∧
    ((n.decodeBuffer (sampledFile 16 8 0x21 (List.replicate 12 0))).2.decodeBuffer flat).1 = .err .format ∧
    ((n.decodeBuffer (sampledFile 8 16 0x12 (List.replicate 12 0))).2.decodeBuffer flat).1 =
      .ok (List.replicate 192 128 ++ List.replicate 192 0) ∧
    (s.decodeBuffer (grayFile 8 [0x3F])).1 = .ok (List.replicate 64 128) ∧
    ((s.decodeBuffer (sampledFile 16 8 0x21 (List.replicate 12 0))).2.decodeBuffer (grayFile 8 [0x3F])).1 =
      .err .formatStatic := by
  decide +kernel

/-! ### Examples -/

/-- Three images of different sizes and factors. -/
example : ((afterFiles (Decoder.new ⟨true, true⟩)
      [(sampleColour 1 1 24 40 fun _ _ _ _ => 1 :: List.replicate 63 0).bytes, slopeX.bytes]).decodeBuffer
        slopeY.bytes).1 = ((Decoder.new ⟨true, true⟩).decodeBuffer slopeY.bytes).1 := by
  refine c42_colour_partial ⟨true, true⟩ Options.new (before := [sampleColour 1 1 24 40 _, slopeX]) (g := slopeY) ?_ ?_
  · intro x hx
    simp only [List.mem_append, List.mem_cons, List.not_mem_nil, or_false] at hx
    rcases hx with (rfl | rfl) | rfl
    · exact ⟨sampleColour_valid (by decide) (by decide) (by decide) (by decide) (by decide)
        fun _ i _ _ => by simp [goodBlocks], by decide, by decide⟩
    · exact ⟨slopeX_valid, by decide, by decide⟩
    · exact ⟨slopeY_valid, by decide, by decide⟩
  · simp [slopeX, slopeY, sampleColour]

/-- A colour image without chroma subsampling, one with, a grayscale image with restart intervals, and then one
without. -/
example : ((afterFiles (Decoder.new ⟨true, true⟩)
      [(sampleColour 1 1 24 40 fun _ _ _ _ => 1 :: List.replicate 63 0).bytes, slopeY.bytes,
        (encodeGray 17 8 2 (List.replicate 64 6) (List.replicate 3 (5 :: List.replicate 63 0))).bytes]).decodeBuffer
        (encodeGray 16 16 0 (List.replicate 64 1) (List.replicate 4 (7 :: List.replicate 63 1))).bytes).1 =
    ((Decoder.new ⟨true, true⟩).decodeBuffer
        (encodeGray 16 16 0 (List.replicate 64 1) (List.replicate 4 (7 :: List.replicate 63 1))).bytes).1 := by
  have hc : ∀ b ∈ [5 :: List.replicate 63 0, 7 :: List.replicate 63 (1 : Int)], Codable b := by
    intro b hb
    simp only [List.mem_cons, List.not_mem_nil, or_false] at hb
    rcases hb with rfl | rfl
    · exact ⟨by decide, by decide, by decide⟩
    · exact ⟨by decide, by decide, by decide⟩
  refine c42_gray_partial ⟨true, true⟩ Options.new (colour := [sampleColour 1 1 24 40 _, slopeY])
    (gray := [encodeGray 17 8 2 _ _]) (g := encodeGray 16 16 0 _ _) ?_ ?_ ?_ (Or.inl rfl)
  · intro x hx
    simp only [List.mem_cons, List.not_mem_nil, or_false] at hx
    rcases hx with rfl | rfl
    · exact ⟨sampleColour_valid (by decide) (by decide) (by decide) (by decide) (by decide)
        fun _ i _ _ => by simp [goodBlocks], by decide, by decide⟩
    · exact ⟨slopeY_valid, by decide, by decide⟩
  · simp [slopeY, sampleColour]
  · intro x hx
    simp only [List.mem_append, List.mem_cons, List.not_mem_nil, or_false] at hx
    rcases hx with rfl | rfl
    · refine ⟨encodeGray_valid (by decide) (by decide) (by decide) (by decide) (by decide) (by decide)
        (fun b hb => hc b ?_) rfl, by decide, by decide⟩
      rw [List.eq_of_mem_replicate hb]
      simp
    · refine ⟨encodeGray_valid (by decide) (by decide) (by decide) (by decide) (by decide) (by decide)
        (fun b hb => hc b ?_) rfl, by decide, by decide⟩
      rw [List.eq_of_mem_replicate hb]
      simp

end Zune
