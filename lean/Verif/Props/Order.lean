import Verif.Lemmas.NamedHead
import Verif.Props.ReuseFiles
import Verif.Props.Separate
/-!
# Components in another order

C79.
-/

namespace Zune
open Spec

/-- With the usual identifiers it is the file of before. -/
theorem named_usual (g : ColourJpeg) (h : g.fh = 1 ∧ g.fv = 1) : g.named 1 2 3 = g.bytes := by
  unfold ColourJpeg.named ColourJpeg.bytes ColourJpeg.namedSegments ColourJpeg.segments
  rw [h.1, h.2]
  rfl

/-- **C79 is false of every baseline image without subsampling.** The identifiers of the components are not
looked at: whichever of 1, 2 and 3 the components have, the outcome is that of the file whose components are
named in the usual order. So the first component is taken for luma also if it is named as chroma. -/
theorem c79_ignored_false (cpu : Cpu) (o : Options) {g : ColourJpeg} (V : g.Valid) (h11 : g.fh = 1 ∧ g.fv = 1)
    (hw : g.width ≤ o.getMaxWidth) (hh : g.height ≤ o.getMaxHeight) {a b c : UInt8} (N : Naming a b c) :
    ((Decoder.newWithOptions cpu o).decodeBuffer (g.named a b c)).1 =
      ((Decoder.newWithOptions cpu o).decodeBuffer g.bytes).1 := by
  obtain ⟨e, e0, e1, e2, full', R', hq', K', hj'⟩ := baseline_jobs V cpu o hw hh rfl
  obtain ⟨d1, c0, c1, c2, h1, R, ht, hrs, U1, hi, hcf, hcpu, ho, hq⟩ := named_headers_from V N
    (reusable_new cpu o Nat.one_pos Nat.one_pos) rfl hw hh
  rw [h11.1, h11.2] at R' hj'
  have hdat := V.data
  rw [h11.1, h11.2] at hdat
  obtain ⟨full, res, h', h2, hj⟩ := colour_jobs (trailer := g.trailer) R ht (Or.inl rfl) hrs hdat
    (oc := o.getOutColorspace) (nc := o.getOutColorspace.numComponents) (by rw [ho]; rfl) rfl
  have hdata : g.data = colourBytes g.codes g.width g.height 1 1 g.restart g.blocks g.fill := by
    unfold ColourJpeg.data
    rw [h11.1, h11.2]
  rw [hdata] at h1
  rw [decode_colour h1 U1.prog h2]
  exact colourJobs_unique R.toColourFrame R' ⟨hi, hcf, hcpu, ho⟩ K' rfl (by cases o.getOutColorspace <;> decide) hq hq'
    (fun _ _ _ _ _ _ => rfl) hj hj'

/-- `g'` with the identifiers `a`, `b`, `c` stands for the picture of `g`: the size and the quantization are the
same, all components are quantized alike, and the component of `g'` that has the identifier `i` has the blocks of
the component of `g` that has it in the usual order (JFIF: 1 is Y, 2 is Cb, 3 is Cr). -/
structure Spec.SamePicture (g g' : ColourJpeg) (a b c : UInt8) : Prop where
  size : g'.width = g.width ∧ g'.height = g.height
  factors : (g.fh = 1 ∧ g.fv = 1) ∧ g'.fh = 1 ∧ g'.fv = 1
  quant : g.quantC = g.quantY ∧ g'.quantY = g.quantY ∧ g'.quantC = g.quantY
  blocks : ∀ k x y, ∀ i, ∀ n ∈ [a, b, c][i]?, g'.blocks k i x y = g.blocks k (n.toNat - 1) x y

/-- **C79 (full statement).** Whatever the order of the components, the same picture is decoded. -/
def Spec.OrderIrrelevant : Prop :=
  ∀ (cpu : Cpu) (o : Options) (g g' : ColourJpeg) (a b c : UInt8), g.Valid → g'.Valid → Naming a b c →
    g.width ≤ o.getMaxWidth → g.height ≤ o.getMaxHeight → SamePicture g g' a b c →
    ((Decoder.newWithOptions cpu o).decodeBuffer (g'.named a b c)).1 =
      ((Decoder.newWithOptions cpu o).decodeBuffer g.bytes).1

/-- An image of one block in each component; all components have the same quantization. -/
def oneMcu (m : Nat → Nat → Nat → Nat → List Int) : ColourJpeg :=
  { sampleColour 1 1 8 8 m with quantC := List.replicate 64 16 }

theorem oneMcu_valid {m : Nat → Nat → Nat → Nat → List Int} (hm : ∀ k i a b, m k i a b ∈ goodBlocks) :
    (oneMcu m).Valid :=
  have V : (sampleColour 1 1 8 8 m).Valid :=
    sampleColour_valid (by decide) (by decide) (by decide) (by decide) (by decide) hm
  ⟨V.w0, V.h0, V.wLe, V.hLe, V.fh, V.fv, V.fit, V.quantY, List.length_replicate, V.dcY, V.acY, V.dcC, V.acC,
    V.restart, V.data⟩

/-- Only luma is not zero. -/
def lumaFirst : ColourJpeg := oneMcu fun _ i _ _ => if i = 0 then 1 :: List.replicate 63 0 else List.replicate 64 0

/-- The same image; chroma is coded before luma. -/
def lumaLast : ColourJpeg := oneMcu fun _ i _ _ => if i = 2 then 1 :: List.replicate 63 0 else List.replicate 64 0

theorem lumaFirst_valid : lumaFirst.Valid := oneMcu_valid fun _ i _ _ => by
  by_cases h : i = 0
  · rw [if_pos h]; decide
  · rw [if_neg h]; decide

theorem lumaLast_valid : lumaLast.Valid := oneMcu_valid fun _ i _ _ => by
  by_cases h : i = 2
  · rw [if_pos h]; decide
  · rw [if_neg h]; decide

theorem lumaLast_same : SamePicture lumaFirst lumaLast 2 3 1 where
  size := ⟨rfl, rfl⟩
  factors := ⟨⟨rfl, rfl⟩, rfl, rfl⟩
  quant := ⟨rfl, rfl, rfl⟩
  blocks := by
    intro k x y i n hn
    match i with
    | 0 => obtain rfl : 2 = n := by simpa using hn
           rfl
    | 1 => obtain rfl : 3 = n := by simpa using hn
           rfl
    | 2 => obtain rfl : 1 = n := by simpa using hn
           rfl
    | i + 3 => simp at hn

/-- **C79 is false of the code.** The image in which Cb and Cr are coded before Y is taken for another one: luma
is used as Cr. -/
theorem c79_false : ¬ OrderIrrelevant := by
  intro h
  have := h ⟨false, false⟩ Options.new lumaFirst lumaLast 2 3 1 lumaFirst_valid lumaLast_valid (by unfold Naming; decide)
    (by decide) (by decide) lumaLast_same
  revert this
  decide +kernel

/-- **C79 (what holds).** In the usual order the picture only depends on what the components are, not on the
Huffman tables, the restart interval and the fill bytes. Missing: all other orders, for which it is false
(`c79_false`). -/
theorem c79_usual_partial (cpu : Cpu) (o : Options) {g g' : ColourJpeg} (V : g.Valid) (V' : g'.Valid)
    (hw : g.width ≤ o.getMaxWidth) (hh : g.height ≤ o.getMaxHeight) (S : SamePicture g g' 1 2 3) :
    ((Decoder.newWithOptions cpu o).decodeBuffer (g'.named 1 2 3)).1 =
      ((Decoder.newWithOptions cpu o).decodeBuffer g.bytes).1 := by
  rw [named_usual g' S.factors.2]
  obtain ⟨e, e0, e1, e2, full, R, hq, K, hj⟩ := baseline_jobs V cpu o hw hh rfl
  obtain ⟨e', e0', e1', e2', full', R', hq', K', hj'⟩ := baseline_jobs V' cpu o (S.size.1 ▸ hw) (S.size.2 ▸ hh) rfl
  obtain ⟨s1, s2⟩ := S.size
  obtain ⟨⟨f1, f2⟩, f3, f4⟩ := S.factors
  rw [s1, s2, f3, f4] at R' hj'
  rw [f1, f2] at R hj
  have hqo : g'.quantOf = g.quantOf := by
    funext i
    unfold ColourJpeg.quantOf
    rw [S.quant.2.1, S.quant.2.2, S.quant.1]
  rw [hqo] at hq'
  exact colourJobs_unique R' R K' K rfl (by cases o.getOutColorspace <;> decide) hq' hq
    (fun i r k hi _ _ => by
      match i with
      | 0 => exact S.blocks _ _ _ 0 1 rfl
      | 1 => exact S.blocks _ _ _ 1 2 rfl
      | 2 => exact S.blocks _ _ _ 2 3 rfl) hj' hj

theorem Spec.SamePicture.sample {g g' : ColourJpeg} {a b c : UInt8} (S : SamePicture g g' a b c) {i : Nat} {n : UInt8}
    (hn : [a, b, c][i]? = some n) (f : IdctFn) (y x : Nat) :
    g'.sample f i y x = g.sample f (n.toNat - 1) y x := by
  have hs : ∀ j, colourShape 1 1 j = (1, 1) := fun j => by unfold colourShape; split <;> rfl
  have hb : (fun k => g'.blocks k i) = fun k => g.blocks k (n.toNat - 1) :=
    funext fun k => funext fun x => funext fun y => S.blocks k x y i n hn
  have hq : g'.quantOf i = g.quantOf (n.toNat - 1) := by
    unfold ColourJpeg.quantOf
    rw [S.quant.2.1, S.quant.2.2, S.quant.1, ite_self, ite_self]
  unfold ColourJpeg.sample
  rw [S.factors.1.1, S.factors.1.2, S.factors.2.1, S.factors.2.2, hs, hs, hb, hq, S.size.1]

/-- **C79 (what the code does instead, YCbCr output).** The components of the output are in the order of the
file: the component in position `i` of each pixel is the one that its identifier says in the output of the file
in the usual order. -/
theorem c79_planes_partial (cpu : Cpu) (o : Options) {g g' : ColourJpeg} {a b c : UInt8} (V : g.Valid)
    (V' : g'.Valid) (N : Naming a b c) (hw : g.width ≤ o.getMaxWidth) (hh : g.height ≤ o.getMaxHeight)
    (hout : o.getOutColorspace = .ycbcr) (S : SamePicture g g' a b c) :
    ∃ out out', ((Decoder.newWithOptions cpu o).decodeBuffer g.bytes).1 = .ok out ∧
      ((Decoder.newWithOptions cpu o).decodeBuffer (g'.named a b c)).1 = .ok out' ∧ out'.length = out.length ∧
      ∀ y x i n, y < g.height → x < g.width → [a, b, c][i]? = some n → ∃ v,
        out'[3 * (y * g.width + x) + i]? = some v ∧
        out[3 * (y * g.width + x) + (n.toNat - 1)]? = some v := by
  have hw' := S.size.1 ▸ hw
  have hh' := S.size.2 ▸ hh
  obtain ⟨out, h1, h2, h3⟩ := c55_planes_partial V cpu o hw hh hout
  obtain ⟨out', k1, k2, k3⟩ := c55_planes_partial V' cpu o hw' hh' hout
  refine ⟨out, out', h1, by rw [c79_ignored_false cpu o V' S.factors.2 hw' hh' N, k1],
    by rw [h2, k2, S.size.1, S.size.2], fun y x i n hy hx hn => ?_⟩
  have hi : i < 3 := by
    have := (List.getElem?_eq_some_iff.1 hn).1
    simpa using this
  have hn3 : n.toNat - 1 < 3 := by
    have hm := N.subset (List.mem_of_getElem? hn)
    simp only [List.mem_cons, List.not_mem_nil, or_false] at hm
    rcases hm with rfl | rfl | rfl <;> decide
  obtain ⟨v, hv, e⟩ := h3 y x _ hy hx hn3
  obtain ⟨v', hv', e'⟩ := k3 y x i (S.size.2.symm ▸ hy) (S.size.1.symm ▸ hx) hi
  refine ⟨v, ?_, hv⟩
  have : v' = v := by
    apply UInt8.toNat_inj.1
    have : (v'.toNat : Int) = v.toNat := by
      rw [e, e', if_pos (row_all V S.factors.1.1 hy), if_pos (row_all V' S.factors.2.1 (S.size.2.symm ▸ hy))]
      unfold ColourJpeg.plane ColourJpeg.value
      dsimp only
      rw [if_pos (Or.inr S.factors.1), if_pos (Or.inr S.factors.2), S.sample hn]
    omega
  rw [← this, ← S.size.1]
  exact hv'

/-- **C79 (grayscale output).** With luma in the first position the grayscale output is the same, whatever the
order of the chroma components. -/
theorem c79_gray_partial (cpu : Cpu) (o : Options) {g g' : ColourJpeg} {b c : UInt8} (V : g.Valid)
    (V' : g'.Valid) (N : Naming 1 b c) (hw : g.width ≤ o.getMaxWidth) (hh : g.height ≤ o.getMaxHeight)
    (hout : o.getOutColorspace = .grayscale) (hwide : 64 * mcuCols g.width 1 < 9 * g.width)
    (S : SamePicture g g' 1 b c) :
    ∃ out, ((Decoder.newWithOptions cpu o).decodeBuffer g.bytes).1 = .ok out ∧
      ((Decoder.newWithOptions cpu o).decodeBuffer (g'.named 1 b c)).1 = .ok out := by
  rw [c79_ignored_false cpu o V' S.factors.2 (S.size.1 ▸ hw) (S.size.2 ▸ hh) N]
  refine c77_gray_partial V V' ⟨S.size.1.symm, S.size.2.symm, by rw [S.factors.1.1, S.factors.2.1],
    by rw [S.factors.1.2, S.factors.2.2], S.quant.2.1.symm, fun k x y => (S.blocks k x y 0 1 rfl).symm⟩
    cpu o hw hh hout ?_
  rw [S.factors.1.1, S.factors.1.2]
  omega

/-- Only Cb is not zero, in the usual order and with Cr before Cb: the hypotheses of `c79_gray_partial` and
`c79_planes_partial` hold. -/
example : let g := oneMcu fun _ i _ _ => if i = 1 then 1 :: List.replicate 63 0 else List.replicate 64 0
    Naming 1 3 2 ∧ SamePicture g lumaLast 1 3 2 ∧ 64 * mcuCols g.width 1 < 9 * g.width := by
  refine ⟨by unfold Naming; decide, ⟨⟨rfl, rfl⟩, ⟨⟨rfl, rfl⟩, rfl, rfl⟩, ⟨rfl, rfl, rfl⟩, ?_⟩, by decide⟩
  intro k x y i n hn
  match i with
  | 0 => obtain rfl : 1 = n := by simpa using hn
         rfl
  | 1 => obtain rfl : 3 = n := by simpa using hn
         rfl
  | 2 => obtain rfl : 2 = n := by simpa using hn
         rfl
  | i + 3 => simp at hn

/-- The identifiers of the example are not looked at. -/
example (cpu : Cpu) : ((Decoder.newWithOptions cpu Options.new).decodeBuffer (lumaLast.named 2 3 1)).1 =
    ((Decoder.newWithOptions cpu Options.new).decodeBuffer lumaLast.bytes).1 :=
  c79_ignored_false cpu Options.new lumaLast_valid ⟨rfl, rfl⟩ (by decide) (by decide) (by unfold Naming; decide)

end Zune
