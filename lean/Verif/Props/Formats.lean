import Verif.Lemmas.FormatsOut
import Verif.Props.NoPanicBytes
import Verif.Props.ColourRgb
/-!
# C74: the formats of the output agree
-/

namespace Zune

namespace Spec

/-- The first of every three bytes. -/
def luma : List UInt8 → List UInt8
  | y :: _ :: _ :: rest => y :: luma rest
  | _ => []

/-- Pixel `p` of the RGB image `b` is the conversion of pixel `p` of the YCbCr image `a`. -/
def RgbOf (a b : List UInt8) (p : Nat) : Prop :=
  ∃ y cb cr, a[3 * p]? = some y ∧ a[3 * p + 1]? = some cb ∧ a[3 * p + 2]? = some cr ∧
    ∀ c, c < 3 → ∃ v, b[3 * p + c]? = some v ∧
      (rgbValue (y.toNat : Int) (cb.toNat : Int) (cr.toNat : Int))[c]? = some (v.toNat : Int)

/-- Pixel `p` is black in both, which is what the code leaves of rows that it did not decode. -/
def BothZero (a b : List UInt8) (p : Nat) : Prop :=
  ∀ c, c < 3 → a[3 * p + c]? = some 0 ∧ b[3 * p + c]? = some 0

end Spec
open Spec

/-! ### Lists of pixels -/

theorem luma_append : ∀ (a b : List UInt8), 3 ∣ a.length → luma (a ++ b) = luma a ++ luma b
  | [], _, _ => rfl
  | [_], _, h => absurd (Nat.le_of_dvd (Nat.succ_pos _) h) (by simp)
  | [_, _], _, h => absurd (Nat.le_of_dvd (Nat.succ_pos _) h) (by simp)
  | y :: y1 :: y2 :: rest, b, h => by
    have ih := luma_append rest b (by
      have : (y :: y1 :: y2 :: rest : List UInt8).length = rest.length + 3 := rfl
      rw [this] at h
      exact (Nat.dvd_add_left (by decide)).1 h)
    show y :: luma (rest ++ b) = y :: (luma rest ++ luma b)
    rw [ih]

theorem getElem?_luma : ∀ (l : List UInt8) (i : Nat), 3 ∣ l.length → (luma l)[i]? = l[3 * i]?
  | [], i, _ => by simp [luma]
  | [_], _, h => absurd (Nat.le_of_dvd (Nat.succ_pos _) h) (by simp)
  | [_, _], _, h => absurd (Nat.le_of_dvd (Nat.succ_pos _) h) (by simp)
  | y :: _ :: _ :: rest, 0, _ => rfl
  | y :: a :: b :: rest, i + 1, h => by
    have ih := getElem?_luma rest i (by
      have : (y :: a :: b :: rest : List UInt8).length = rest.length + 3 := rfl
      rw [this] at h
      exact (Nat.dvd_add_left (by decide)).1 h)
    show (luma rest)[i]? = (y :: a :: b :: rest)[3 * i + 3]?
    rw [ih]
    rfl

theorem luma_of {a b : List UInt8} (h : 3 ∣ a.length) (hb : ∀ i, b[i]? = a[3 * i]?) : b = luma a := by
  apply List.ext_getElem?
  intro i
  rw [hb, getElem?_luma a i h]

theorem getElem?_fit {n : Nat} {l : List UInt8} {i : Nat} :
    (fit n 0 l)[i]? = if i < n then some (l[i]?.getD 0) else none := by
  unfold fit
  rw [List.getElem?_take]
  by_cases h : i < n
  · rw [if_pos h, if_pos h, List.getElem?_append]
    by_cases hl : i < l.length
    · rw [if_pos hl, List.getElem?_eq_getElem hl]
      rfl
    · rw [if_neg hl, List.getElem?_replicate, if_pos (by omega), List.getElem?_eq_none (by omega)]
      rfl
  · rw [if_neg h, if_neg h]

theorem luma_flatten {parts parts' : List (List UInt8)}
    (h : List.Forall₂ (fun a b => 3 ∣ a.length ∧ b = luma a) parts parts') :
    3 ∣ parts.flatten.length ∧ parts'.flatten = luma parts.flatten := by
  induction h with
  | nil => exact ⟨⟨0, rfl⟩, rfl⟩
  | cons hx _ ih =>
    obtain ⟨h1, rfl⟩ := hx
    rw [List.flatten_cons, List.flatten_cons, luma_append _ _ h1, ← ih.2, List.length_append]
    exact ⟨Nat.dvd_add h1 ih.1, rfl⟩

/-- Luma of an image put together from strips. -/
theorem luma_assemble {n k : Nat} {parts parts' : List (List UInt8)}
    (h : List.Forall₂ (fun a b => 3 ∣ a.length ∧ b = luma a) parts parts') :
    assemble n k parts' = luma (assemble (n * 3) (k * 3) parts) := by
  obtain ⟨h1, h2⟩ := luma_flatten h
  unfold assemble
  apply luma_of
  · rw [List.length_take, length_fit]
    rcases Nat.le_total (k * 3) (n * 3) with e | e
    · rw [Nat.min_eq_left e]
      exact Nat.dvd_mul_left _ _
    · rw [Nat.min_eq_right e]
      exact Nat.dvd_mul_left _ _
  · intro i
    rw [List.getElem?_take, List.getElem?_take, getElem?_fit, getElem?_fit, h2, getElem?_luma _ _ h1]
    have e1 : 3 * i < k * 3 ↔ i < k := by omega
    have e2 : 3 * i < n * 3 ↔ i < n := by omega
    simp only [e1, e2]

/-! ### The jobs -/

section
variable {idct : IdctFn} {f : ColorFn} {c0 c1 c2 : Component} {w fh fv X : Nat} {cpu : Cpu} {un : Bool}
  {r : SubSampRatios}

/-- The planes of a job of an image with three components. -/
theorem job_planes (hX : X = mcuCols w fh) (hf1 : 0 < fh ∧ fh ≤ 2) (hf2 : 0 < fv ∧ fv ≤ 2) (hw0 : 0 < w)
    (q2 : c0.horizontalSample = fh) (q3 : c0.verticalSample = fv) (q4 : c0.widthStride = 8 * (fh * X))
    (q5 : c1.widthStride = 8 * X ∧ c2.widthStride = 8 * X)
    (hu : (fh = 1 ∧ fv = 1) ∨ (c1.upSampler = c2.upSampler ∧ Sampling cpu un fh fv r c1.upSampler))
    {temp : List (List I16)}
    (t0 : ∃ b, temp[0]? = some b ∧ b.length = fh * fv * (64 * (fh * X)))
    (ti : ∀ i, i = 1 ∨ i = 2 → ∃ b, temp[i]? = some b ∧ b.length = fh * (64 * X)) :
    ∃ p0 p1 p2 p1' p2',
      idctComponent idct [c0, c1, c2] temp fh fv 0 = .ok p0 ∧
      idctComponent idct [c0, c1, c2] temp fh fv 1 = .ok p1 ∧
      idctComponent idct [c0, c1, c2] temp fh fv 2 = .ok p2 ∧
      Upsampled c0 c1 p0.length p1 p1' ∧ Upsampled c0 c2 p0.length p2 p2' ∧
      p0.length = 8 * (fh * fv) * (8 * (fh * X)) ∧ p1'.length = 8 * (fh * fv) * (8 * (fh * X)) ∧
      p2'.length = 8 * (fh * fv) * (8 * (fh * X)) ∧ p1.length = fh * (64 * X) ∧ p2.length = fh * (64 * X) := by
  have hX0 : 0 < X := by
    rw [hX]
    unfold mcuCols
    have hf : fh = 1 ∨ fh = 2 := by omega
    rcases hf with rfl | rfl <;> omega
  have hff : 0 < fh * fv := Nat.mul_pos hf1.1 hf2.1
  obtain ⟨b0, tb0, tl0⟩ := t0
  obtain ⟨b1, tb1, tl1⟩ := ti 1 (Or.inl rfl)
  obtain ⟨b2, tb2, tl2⟩ := ti 2 (Or.inr rfl)
  obtain ⟨p0, i0, l0⟩ := idctComponent_ok (f := idct) (comps := [c0, c1, c2]) (z := 0) (c := c0) rfl
    (n := fh * fv) (Nat.mul_pos hf1.1 hX0) hff q4 tb0 tl0 (by simp)
  obtain ⟨p1, i1, l1⟩ := idctComponent_ok (f := idct) (comps := [c0, c1, c2]) (z := 1) (c := c1) rfl
    (n := fh) hX0 hff q5.1 tb1 tl1 (by simp)
  obtain ⟨p2, i2, l2⟩ := idctComponent_ok (f := idct) (comps := [c0, c1, c2]) (z := 2) (c := c2) rfl
    (n := fh) hX0 hff q5.2 tb2 tl2 (by simp)
  have l0' : p0.length = 8 * (fh * fv) * (8 * (fh * X)) := by rw [l0]; ring
  have hup : ∀ c p, (c = c1 ∧ p = p1) ∨ (c = c2 ∧ p = p2) →
      ∃ p', Upsampled c0 c p0.length p p' ∧ p'.length = 8 * (fh * fv) * (8 * (fh * X)) := by
    intro c p hcp
    have lp : p.length = fh * (64 * X) := by
      rcases hcp with ⟨-, rfl⟩ | ⟨-, rfl⟩
      · exact l1
      · exact l2
    unfold Upsampled
    rw [q2, q3]
    rcases hu with ⟨a, b⟩ | ⟨hu1, hu2⟩
    · refine ⟨p, by rw [if_pos ⟨a, b⟩], ?_⟩
      rw [lp, a, b]
      ring
    · have hn : ¬ (fh = 1 ∧ fv = 1) := by
        rcases hu2 with ⟨a, b, -⟩ | ⟨a, b, -⟩ | ⟨a, b, -⟩ <;> omega
      have hcu : c.upSampler = c1.upSampler := by
        rcases hcp with ⟨rfl, -⟩ | ⟨rfl, -⟩
        · rfl
        · exact hu1.symm
      obtain ⟨p', g1, g2⟩ := sampling_run (w := w) (p := p) hu2 (by rw [← hX]; exact hX0)
        (by rw [lp, hX]; ring)
      refine ⟨p', ?_, by rw [hX]; exact g2⟩
      rw [if_neg hn, l0', hX, hcu]
      exact g1
  obtain ⟨p1', u1, m1⟩ := hup c1 p1 (Or.inl ⟨rfl, rfl⟩)
  obtain ⟨p2', u2, m2⟩ := hup c2 p2 (Or.inr ⟨rfl, rfl⟩)
  exact ⟨p0, p1, p2, p1', p2', i0, i1, i2, u1, u2, l0', m1, m2, l1, l2⟩

/-- The job with an output of three components. -/
theorem postProcess_three {oc : ColorSpace} (hn3 : 3 ≤ oc.numComponents) (q2 : c0.horizontalSample = fh)
    (q3 : c0.verticalSample = fv) {temp : List (List I16)} {p0 p1 p2 : List I16}
    (i0 : idctComponent idct [c0, c1, c2] temp fh fv 0 = .ok p0)
    (i1 : idctComponent idct [c0, c1, c2] temp fh fv 1 = .ok p1)
    (i2 : idctComponent idct [c0, c1, c2] temp fh fv 2 = .ok p2) (out : List UInt8) :
    postProcess idct f [c0, c1, c2] .ycbcr oc w temp out =
      postProcessInner f [c0, c1, c2] .ycbcr oc w [p0, p1, p2] out := by
  have hm : min ColorSpace.ycbcr.numComponents oc.numComponents = 3 := by
    show min 3 _ = 3
    omega
  unfold postProcess
  dsimp only [List.getElem?_cons_zero]
  rw [hm, q2, q3, Out.collect_map_ok (g := fun i => [p0, p1, p2].getD i []) (by
    intro z hz
    rw [List.mem_range] at hz
    have hz' : z = 0 ∨ z = 1 ∨ z = 2 := by omega
    rcases hz' with rfl | rfl | rfl
    · exact i0
    · exact i1
    · exact i2)]
  rfl

/-- The job with grayscale output. -/
theorem postProcess_luma (q2 : c0.horizontalSample = fh) (q3 : c0.verticalSample = fv)
    {temp temp' : List (List I16)} (ht : temp'[0]? = temp[0]?) {p0 : List I16}
    (i0 : idctComponent idct [c0, c1, c2] temp fh fv 0 = .ok p0) (out : List UInt8) :
    postProcess idct f [c0, c1, c2] .ycbcr .grayscale w temp' out = ycbcrToGrayscale p0 w out := by
  have hm : min ColorSpace.ycbcr.numComponents ColorSpace.grayscale.numComponents = 1 := rfl
  unfold postProcess
  dsimp only [List.getElem?_cons_zero]
  rw [hm, q2, q3, Out.collect_map_ok (g := fun _ => p0) (by
    intro z hz
    rw [List.mem_range] at hz
    obtain rfl : z = 0 := by omega
    unfold idctComponent at i0 ⊢
    rw [ht]
    exact i0)]
  exact postProcessInner_gray (f := f) (c0 := c0) (cs := [c1, c2]) (Or.inl rfl) (ps := [])
end

/-- The grayscale job gives the luma of the YCbCr job. -/
theorem jobRel_luma {d : Decoder} {c0 c1 c2 : Component} {w h fh fv : Nat}
    (R : ColourFrame d c0 c1 c2 w h fh fv) (hc : Converts d.colorFn .grayscale w fh fv) :
    JobRel d c0 c1 c2 w fh fv .grayscale (fun a b => 3 ∣ a.length ∧ b = luma a) := by
  intro r u1 u2 temp temp' hu t0 ti ht
  obtain ⟨q1, q2, q3, q4, q5⟩ := R.shape
  have F := R.frame
  have hX : d.mcuX = mcuCols w fh := F.mcuX
  obtain ⟨-, -, -, a3⟩ := q5 c1 (by simp)
  obtain ⟨-, -, -, a4⟩ := q5 c2 (by simp)
  obtain ⟨p0, p1, p2, p1', p2', i0, i1, i2, v1, v2, l0, l1, l2, -, -⟩ := job_planes (idct := d.idctFn) (c0 := c0)
    (c1 := { c1 with upSampler := u1 }) (c2 := { c2 with upSampler := u2 }) (X := mcuCols w fh) rfl
    ⟨F.fpos.1, R.fh2⟩ ⟨F.fpos.2, R.fv2⟩ F.wpos q2 q3 (by rw [q4, hX]; ring)
    ⟨by show c1.widthStride = _; rw [a3, hX]; ring, by show c2.widthStride = _; rw [a4, hX]; ring⟩ hu t0 ti
  have hff : 0 < fh * fv := Nat.mul_pos F.fpos.1 F.fpos.2
  have hw0 := F.wpos
  have hX1 : w ≤ 8 * (fh * mcuCols w fh) := by
    unfold mcuCols
    have hf : fh = 1 ∨ fh = 2 := by
      have := F.fpos.1
      have := R.fh2
      omega
    rcases hf with rfl | rfl <;> omega
  obtain ⟨a, ea, la, ga, -⟩ := ycbcrToYcbcr_spec (y := p0) (cb := p1') (cr := p2') (h := fh) (v := fv) hX1
    (by omega) hff l0 (by omega) (by omega) (out := List.replicate (8 * (fh * fv) * (w * 3)) 0)
    (by rw [List.length_replicate])
  obtain ⟨b, eb, lb, gb⟩ := (ycbcrToGrayscale_spec (y := p0) (rows := 8 * (fh * fv)) hX1 hw0 (by omega) l0
    (out := List.replicate (8 * (fh * fv) * (w * 1)) 0) (by rw [List.length_replicate, Nat.mul_one])).1 (hc.1 rfl)
  refine ⟨a, b, ?_, ?_, ?_, ?_⟩
  · rw [postProcess_three (Nat.le_refl _) q2 q3 i0 i1 i2, (postProcessInner_planes v1 v2).1, q2, q3]
    exact ea
  · rw [postProcess_luma q2 q3 (ht 0 (by decide)) i0]
    exact eb
  · rw [la, List.length_replicate]
    exact ⟨8 * (fh * fv) * w, by ring⟩
  · have hd : 3 ∣ a.length := by
      rw [la, List.length_replicate]
      exact ⟨8 * (fh * fv) * w, by ring⟩
    refine luma_of hd fun i => ?_
    by_cases hi : i < 8 * (fh * fv) * w
    · have e : i = i / w * w + i % w := by
        rw [Nat.mul_comm]
        exact (Nat.div_add_mod i w).symm
      have hrow : i / w < 8 * (fh * fv) := (Nat.div_lt_iff_lt_mul hw0).2 hi
      have hx : i % w < w := Nat.mod_lt _ hw0
      have g1 := gb _ _ hrow hx
      have g2 := ga _ _ 0 hrow hx (by decide)
      rw [← e] at g1 g2
      rw [Nat.add_zero] at g2
      rw [g1, g2]
      rfl
    · rw [List.getElem?_eq_none (by omega), List.getElem?_eq_none]
      rw [la, List.length_replicate]
      have : 8 * (fh * fv) * (w * 3) = 3 * (8 * (fh * fv) * w) := by ring
      omega

/-! ### RGB -/

section
variable {comps : List Component} {temp : List (List I16)} {fh fv z : Nat} {p : List I16}

/-- The inverse DCT with AVX2 always gives samples (C26). -/
theorem avx_samples {c : Component} (hz : comps[z]? = some c) {b n : Nat} (hb : 0 < b) (hf : 0 < fh * fv)
    (hst : c.widthStride = 8 * b) {buf : List I16} (b1 : temp[z]? = some buf) (hlen : buf.length = n * (64 * b))
    (hn : n * (if z = 0 then 1 else fv) = fh * fv) (h : idctComponent .avx2 comps temp fh fv z = .ok p) :
    Samples p := by
  have hs : StripShape buf n b (fh * fv) (if z = 0 then 1 else fv) :=
    ⟨hb, by omega, hlen, by
      rw [hlen, show n * (64 * b) * (if z = 0 then 1 else fv) =
        n * (if z = 0 then 1 else fv) * (64 * b) by ring, hn, Nat.mul_div_cancel_left _ hf]⟩
  refine (c26_range_partial (qt := c.quantTable) hs).1 ?_
  unfold idctComponent at h
  rw [b1, hz] at h
  dsimp only at h
  rw [hst] at h
  exact h
end

theorem asU8_sample {x : I16} (h : 0 ≤ x.toInt ∧ x.toInt ≤ 255) : ((asU8 x).toNat : Int) = x.toInt := by
  have := isByteOf_asU8 x
  unfold IsByteOf at this
  rw [this]
  omega

/-- The results of two jobs of a strip of `rows` rows. -/
def stripRel (w rows : Nat) (a b : List UInt8) : Prop :=
  a.length = rows * (w * 3) ∧ b.length = rows * (w * 3) ∧
    ∀ row x, row < rows → x + 31 < w → RgbOf a b (row * w + x)

/-- The RGB job gives the conversion of the YCbCr job, but for the last columns. -/
theorem jobRel_rgb {d : Decoder} {c0 c1 c2 : Component} {w h fh fv : Nat}
    (R : ColourFrame d c0 c1 c2 w h fh fv) (hf3 : d.colorFn.Three) (hidct : d.idctFn = .avx2) (hw : 17 ≤ w)
    (hj : ¬ (fh = 2 ∧ fv = 2 ∧ d.options.useUnsafe = true ∧ d.cpu.avx2 = true ∧ 4 ≤ mcuCols w fh))
    (hc : Converts d.colorFn .rgb w fh fv) :
    JobRel d c0 c1 c2 w fh fv .rgb (stripRel w (8 * (fh * fv))) := by
  intro r u1 u2 temp temp' hu t0 ti ht
  obtain ⟨q1, q2, q3, q4, q5⟩ := R.shape
  have F := R.frame
  have hX : d.mcuX = mcuCols w fh := F.mcuX
  obtain ⟨-, -, -, a3⟩ := q5 c1 (by simp)
  obtain ⟨-, -, -, a4⟩ := q5 c2 (by simp)
  have q4' : c0.widthStride = 8 * (fh * mcuCols w fh) := by rw [q4, hX]; ring
  have a3' : c1.widthStride = 8 * mcuCols w fh := by rw [a3, hX]; ring
  have a4' : c2.widthStride = 8 * mcuCols w fh := by rw [a4, hX]; ring
  obtain ⟨p0, p1, p2, p1', p2', i0, i1, i2, v1, v2, l0, l1, l2, l3, l4⟩ := job_planes (idct := d.idctFn) (c0 := c0)
    (c1 := { c1 with upSampler := u1 }) (c2 := { c2 with upSampler := u2 }) (X := mcuCols w fh) rfl
    ⟨F.fpos.1, R.fh2⟩ ⟨F.fpos.2, R.fv2⟩ F.wpos q2 q3 q4' ⟨a3', a4'⟩ hu t0 ti
  have hff : 0 < fh * fv := Nat.mul_pos F.fpos.1 F.fpos.2
  have hw0 := F.wpos
  have hX1 : 0 < mcuCols w fh ∧ w ≤ 8 * (fh * mcuCols w fh) ∧ 8 * (fh * mcuCols w fh) ≤ w + 15 := by
    unfold mcuCols
    have hf : fh = 1 ∨ fh = 2 := by
      have := F.fpos.1
      have := R.fh2
      omega
    rcases hf with rfl | rfl <;> omega
  obtain ⟨hX0, hX1, hX2⟩ := hX1
  obtain ⟨b0, tb0, tl0⟩ := t0
  obtain ⟨b1, tb1, tl1⟩ := ti 1 (Or.inl rfl)
  obtain ⟨b2, tb2, tl2⟩ := ti 2 (Or.inr rfl)
  have s0 : Samples p0 := by
    rw [hidct] at i0
    exact avx_samples (c := c0) rfl (n := fh * fv) (Nat.mul_pos F.fpos.1 hX0) hff q4' tb0 tl0 (by simp) i0
  have s1 : Samples p1 := by
    rw [hidct] at i1
    exact avx_samples (c := { c1 with upSampler := u1 }) rfl (n := fh) hX0 hff a3' tb1 tl1 (by simp) i1
  have s2 : Samples p2 := by
    rw [hidct] at i2
    exact avx_samples (c := { c2 with upSampler := u2 }) rfl (n := fh) hX0 hff a4' tb2 tl2 (by simp) i2
  have hsamp : ∀ {c : Component} {p p' : List I16}, c.upSampler = u1 ∨ c.upSampler = u2 →
      p.length = fh * (64 * mcuCols w fh) → Samples p → Upsampled c0 c p0.length p p' → Samples p' := by
    intro c p p' hcu lp sp hup
    unfold Upsampled at hup
    rw [q2, q3] at hup
    split at hup
    · rw [hup]
      exact sp
    · rename_i hn
      rcases hu with hu | ⟨hu1, hu2⟩
      · exact absurd hu hn
      have hcu' : c.upSampler = u1 := by
        rcases hcu with e | e
        · exact e
        · rw [e, hu1]
      rw [hcu'] at hup
      exact sampling_within hu2 hj hX0 (by rw [lp]; ring) l0 sp hup
  have s1' : Samples p1' := hsamp (c := { c1 with upSampler := u1 }) (Or.inl rfl) l3 s1 v1
  have s2' : Samples p2' := hsamp (c := { c2 with upSampler := u2 }) (Or.inr rfl) l4 s2 v2
  obtain ⟨a, ea, la, ga, -⟩ := ycbcrToYcbcr_spec (y := p0) (cb := p1') (cr := p2') (h := fh) (v := fv) hX1
    (by omega) hff l0 (by omega) (by omega) (out := List.replicate (8 * (fh * fv) * (w * 3)) 0)
    (by rw [List.length_replicate])
  obtain ⟨b, eb, lb, gb, -⟩ := c38_wide_partial hf3 (c0 := c0) (c1 := { c1 with upSampler := u1 })
    (c2 := { c2 with upSampler := u2 }) (cs := []) (w := w) (pw := 8 * (fh * mcuCols w fh))
    (rows := 8 * (fh * fv)) (out := List.replicate (8 * (fh * fv) * (w * 3)) 0) (hc.2 rfl) v1 v2 hw hX1 hX2
    (by omega) (by rw [q2, q3]) l0 l1 l2 (samples_near s0) (samples_near s1') (samples_near s2')
    (by rw [List.length_replicate])
  have ht' : ∀ z, z < 3 → idctComponent d.idctFn [c0, { c1 with upSampler := u1 }, { c2 with upSampler := u2 }]
      temp' fh fv z = idctComponent d.idctFn [c0, { c1 with upSampler := u1 }, { c2 with upSampler := u2 }]
        temp fh fv z := by
    intro z hz
    unfold idctComponent
    rw [ht z hz]
  refine ⟨a, b, ?_, ?_, ?_, ?_, ?_⟩
  · rw [postProcess_three (Nat.le_refl _) q2 q3 i0 i1 i2, (postProcessInner_planes v1 v2).1, q2, q3]
    exact ea
  · rw [postProcess_three (Nat.le_refl _) q2 q3 ((ht' 0 (by decide)).trans i0) ((ht' 1 (by decide)).trans i1)
      ((ht' 2 (by decide)).trans i2)]
    exact eb
  · rw [la, List.length_replicate]
  · rw [lb, List.length_replicate]
  · intro row x hrow hx
    have k0 := ga row x 0 hrow (by omega) (by decide)
    have k1 := ga row x 1 hrow (by omega) (by decide)
    have k2 := ga row x 2 hrow (by omega) (by decide)
    have hin : row * (8 * (fh * mcuCols w fh)) + x < 8 * (fh * fv) * (8 * (fh * mcuCols w fh)) := by
      have := Nat.mul_le_mul_right (8 * (fh * mcuCols w fh)) (show row + 1 ≤ _ from hrow)
      rw [Nat.add_one_mul row] at this
      omega
    generalize hi : row * (8 * (fh * mcuCols w fh)) + x = i at *
    have g0 := List.getElem?_eq_getElem (show i < p0.length by omega)
    have g1 := List.getElem?_eq_getElem (show i < p1'.length by omega)
    have g2 := List.getElem?_eq_getElem (show i < p2'.length by omega)
    have r0 := s0 _ (List.mem_of_getElem? g0)
    have r1 := s1' _ (List.mem_of_getElem? g1)
    have r2 := s2' _ (List.mem_of_getElem? g2)
    refine ⟨asU8 (p0[i]'(by omega)), asU8 (p1'[i]'(by omega)), asU8 (p2'[i]'(by omega)), ?_, ?_, ?_, ?_⟩
    · rw [Nat.add_zero] at k0
      rw [k0]
      show (p0[i]?).map asU8 = _
      rw [g0]
      rfl
    · rw [k1]
      show (p1'[i]?).map asU8 = _
      rw [g1]
      rfl
    · rw [k2]
      show (p2'[i]?).map asU8 = _
      rw [g2]
      rfl
    · intro c hc3
      obtain ⟨v, e, sy, sb, sr, h0, h1, h2, hv⟩ := gb row x c hrow hx hc3
      rw [hi, g0] at h0
      rw [hi, g1] at h1
      rw [hi, g2] at h2
      cases h0
      cases h1
      cases h2
      refine ⟨v, e, ?_⟩
      rw [asU8_sample r0, asU8_sample r1, asU8_sample r2]
      rw [List.getElem?_append_left (by simpa [rgbValue] using hc3)] at hv
      exact hv

theorem Spec.RgbOf.append_left {a b : List UInt8} {p : Nat} (h : RgbOf a b p) (l l' : List UInt8) :
    RgbOf (a ++ l) (b ++ l') p := by
  have key : ∀ {a l : List UInt8} {i : Nat} {v : UInt8}, a[i]? = some v → (a ++ l)[i]? = some v := by
    intro a l i v h
    obtain ⟨hi, -⟩ := List.getElem?_eq_some_iff.1 h
    rw [List.getElem?_append_left hi, h]
  obtain ⟨y, cb, cr, h0, h1, h2, h3⟩ := h
  refine ⟨y, cb, cr, key h0, key h1, key h2, fun c hc => ?_⟩
  obtain ⟨v, e, hv⟩ := h3 c hc
  exact ⟨v, key e, hv⟩

theorem Spec.RgbOf.append_right {a b : List UInt8} {p n : Nat} {l l' : List UInt8} (h : RgbOf l l' p)
    (ha : a.length = 3 * n) (hb : b.length = 3 * n) : RgbOf (a ++ l) (b ++ l') (n + p) := by
  have key : ∀ {a l : List UInt8} {i : Nat}, a.length = 3 * n → (a ++ l)[3 * n + i]? = l[i]? := by
    intro a l i ha
    rw [List.getElem?_append_right (by omega), ha, Nat.add_sub_cancel_left]
  obtain ⟨y, cb, cr, h0, h1, h2, h3⟩ := h
  unfold RgbOf
  rw [Nat.mul_add]
  refine ⟨y, cb, cr, (key ha).trans h0, ?_, ?_, fun c hc => ?_⟩
  · rw [Nat.add_assoc, key ha, h1]
  · rw [Nat.add_assoc, key ha, h2]
  · obtain ⟨v, e, hv⟩ := h3 c hc
    exact ⟨v, by rw [Nat.add_assoc, key hb, e], hv⟩

theorem rgb_flatten {w rows : Nat} {parts parts' : List (List UInt8)}
    (h : List.Forall₂ (stripRel w rows) parts parts') :
    parts.flatten.length = parts.length * rows * (w * 3) ∧ parts'.flatten.length = parts.length * rows * (w * 3) ∧
      ∀ row x, row < parts.length * rows → x + 31 < w → RgbOf parts.flatten parts'.flatten (row * w + x) := by
  induction h with
  | nil =>
    refine ⟨by simp, by simp, fun row x h => ?_⟩
    simp at h
  | @cons a b l l' hx _ ih =>
    obtain ⟨h1, h2, h3⟩ := hx
    obtain ⟨i1, i2, i3⟩ := ih
    rw [List.flatten_cons, List.flatten_cons, List.length_append, List.length_append, h1, h2, i1, i2,
      List.length_cons]
    refine ⟨by ring, by ring, fun row x hrow hxw => ?_⟩
    by_cases hr : row < rows
    · exact (h3 row x hr hxw).append_left _ _
    · have := i3 (row - rows) x (by rw [Nat.add_one_mul] at hrow; omega) hxw
      have e : row * w + x = rows * w + ((row - rows) * w + x) := by
        rw [← Nat.add_assoc, ← Nat.add_mul, Nat.add_sub_cancel' (by omega)]
      rw [e]
      exact this.append_right (by rw [h1]; ring) (by rw [h2]; ring)

/-- Images put together from strips. -/
theorem rgb_assemble {w h rows n : Nat} (hn : w * h * 3 ≤ n) {parts parts' : List (List UInt8)}
    (hp : List.Forall₂ (stripRel w rows) parts parts') {row x : Nat} (hrow : row < h) (hx : x + 31 < w) :
    RgbOf (assemble n (w * h * 3) parts) (assemble n (w * h * 3) parts') (row * w + x) ∨
      BothZero (assemble n (w * h * 3) parts) (assemble n (w * h * 3) parts') (row * w + x) := by
  obtain ⟨h1, h2, h3⟩ := rgb_flatten hp
  have hin : row * w + x < w * h := by
    have := Nat.mul_le_mul_right w (show row + 1 ≤ h from hrow)
    rw [Nat.add_one_mul, Nat.mul_comm h] at this
    omega
  generalize hP : row * w + x = p at *
  have key : ∀ (l : List (List UInt8)) i, i < w * h * 3 →
      (assemble n (w * h * 3) l)[i]? = some (l.flatten[i]?.getD 0) := by
    intro l i hi
    unfold assemble
    rw [List.getElem?_take, if_pos hi, getElem?_fit, if_pos (by omega)]
  by_cases hr : row < parts.length * rows
  · left
    obtain ⟨y, cb, cr, e0, e1, e2, e3⟩ := h3 row x hr hx
    rw [hP] at e0 e1 e2 e3
    refine ⟨y, cb, cr, ?_, ?_, ?_, fun c hc => ?_⟩
    · rw [key _ _ (by omega), e0]; rfl
    · rw [key _ _ (by omega), e1]; rfl
    · rw [key _ _ (by omega), e2]; rfl
    · obtain ⟨v, ev, hv⟩ := e3 c hc
      exact ⟨v, by rw [key _ _ (by omega), ev]; rfl, hv⟩
  · right
    have hbig : parts.length * rows * (w * 3) ≤ 3 * p := by
      have := Nat.mul_le_mul_right w (Nat.le_of_not_lt hr)
      calc parts.length * rows * (w * 3) = 3 * (parts.length * rows * w) := by ring
        _ ≤ 3 * (row * w) := Nat.mul_le_mul_left _ this
        _ ≤ 3 * p := by omega
    intro c hc
    rw [key _ _ (by omega), key _ _ (by omega), List.getElem?_eq_none (by omega), List.getElem?_eq_none (by omega)]
    exact ⟨rfl, rfl⟩

/-! ### From the headers to the image -/

/-- Decoders that differ in the wanted output. -/
theorem new_toCs (cpu : Cpu) (o : Options) {X : ColorSpace} (hX : X ≠ .grayscale) (Y : ColorSpace) :
    Decoder.newWithOptions cpu (o.setOutColorspace Y) =
      toCs Y () (Decoder.newWithOptions cpu (o.setOutColorspace X)) := by
  show Decoder.newWithOptions cpu (o.setOutColorspace Y) =
    { Decoder.newWithOptions cpu (o.setOutColorspace X) with
      options := { (o.setOutColorspace X) with outColorspace := if X = .grayscale then .grayscale else Y } }
  rw [if_neg hX]
  rfl

theorem headers_toCs (cpu : Cpu) (o : Options) {X : ColorSpace} (hX : X ≠ .grayscale) (Y : ColorSpace)
    (buf : List UInt8) :
    decodeHeaders ⟨Decoder.newWithOptions cpu (o.setOutColorspace Y), buf⟩ =
      ((decodeHeaders ⟨Decoder.newWithOptions cpu (o.setOutColorspace X), buf⟩).1,
        csH Y () (decodeHeaders ⟨Decoder.newWithOptions cpu (o.setOutColorspace X), buf⟩).2) := by
  obtain ⟨b, e⟩ := cs_decodeHeaders (Y := Y) () ⟨Decoder.newWithOptions cpu (o.setOutColorspace X), buf⟩
  rw [new_toCs cpu o hX Y]
  exact e

/-- What the headers of a file with three components leave behind. -/
theorem headers_colour {cpu : Cpu} {o : Options} {buf rd : List UInt8} {d : Decoder}
    (hok : decodeHeaders ⟨Decoder.newWithOptions cpu o, buf⟩ = (.ok (), ⟨d, rd⟩))
    (hcheck : d.checkComponentDimensions = .ok ()) {c c1 c2 : Component} (hc : d.components = [c, c1, c2])
    (hor : c.componentId = .y ∧ c1.componentId ≠ .y ∧ c2.componentId ≠ .y ∨
      ∀ x ∈ d.components, x.horizontalSample = 1 ∧ x.verticalSample = 1)
    (e1 : c.horizontalSample = d.hMax) (e2 : c.verticalSample = d.vMax) :
    Frame d d.info.width.toNat d.info.height.toNat d.hMax d.vMax ∧ Steady d d ∧ Three d ∧ d.colorFn.Three := by
  have HR := M.wp_ok (wp_decodeHeaders cpu o buf) hok
  dsimp only at HR
  have I := HR.inv
  obtain ⟨G, D⟩ := decodeHeaders_geo hok
  have hinv := checkComponentDimensions_inv hcheck
  have hfn : d.colorFn = (Decoder.newWithOptions cpu o).colorFn := I.fixed.2.2
  have hf3 : d.colorFn.Three := by
    rw [hfn]
    exact reachable_three (Reachable.new cpu o)
  have hlen : d.components.length = d.info.components.toNat ∧ d.info.components ≠ 0 := by
    rcases I.frame with ⟨-, e2⟩ | ⟨-, e, e0, -⟩
    · rw [hc] at e2
      cases e2
    · exact ⟨e, e0⟩
  have h3 : Three d := ⟨by rw [hc]; simp, Nat.le_of_eq hlen.1.symm⟩
  obtain ⟨-, -, dX, dY⟩ := D.dims.resolve_left hlen.2
  have hr : ¬ (d.hMax = 1 ∧ d.vMax = 1) → c.componentId = .y ∧ ∀ x ∈ [c1, c2], x.componentId ≠ .y := by
    intro hn
    rcases hor with ⟨hy, hy1, hy2⟩ | h
    · refine ⟨hy, ?_⟩
      intro x hx
      simp only [List.mem_cons, List.not_mem_nil, or_false] at hx
      rcases hx with rfl | rfl
      · exact hy1
      · exact hy2
    · have := h c (by rw [hc]; simp)
      rw [e1, e2] at this
      exact absurd this hn
  have hone : ∀ x ∈ [c1, c2], x.horizontalSample = 1 ∧ x.verticalSample = 1 := by
    intro x hx
    have hx' : x ∈ d.components := by rw [hc]; exact List.mem_cons_of_mem _ hx
    rcases hor with ⟨hy, hy1, hy2⟩ | h
    · refine hinv x hx' ?_
      simp only [List.mem_cons, List.not_mem_nil, or_false] at hx
      rcases hx with rfl | rfl
      · exact hy1
      · exact hy2
    · exact h x hx'
  have hp := G.pos (by rw [hc]; simp)
  have hs := G.strides c [c1, c2] hc e1
  refine ⟨⟨rfl, rfl, hp.1, hp.2, G.maxes, rfl, rfl, ?_, fun _ => G.ratio, ?_, ?_, ?_⟩, I.steady, h3, hf3⟩
  · by_cases hm : d.hMax = 1 ∧ d.vMax = 1
    · rw [decide_eq_true hm]
      cases hi : d.interleaved
      · rfl
      · have := G.inter hi
        omega
    · rw [decide_eq_false hm]
      exact D.inter (by omega)
  · rw [dX, Nat.mul_comm 8]
  · rw [dY, Nat.mul_comm 8]
  · refine ⟨c, [c1, c2], hc, fun hn => (hr hn).1, e1, e2, ?_, fun x hx => ?_⟩
    · rw [hs c (by rw [hc]; simp), e1, dX]
    · have hx' : x ∈ d.components := by rw [hc]; exact List.mem_cons_of_mem _ hx
      have := hone x hx
      exact ⟨fun hn => (hr hn).2 x hx, this.1, this.2, by rw [hs x hx', this.1, dX, Nat.one_mul]⟩

/-- Everything after the headers. -/
def imageOf (d : Decoder) (rd : List UInt8) : Out (List UInt8) :=
  (if d.isProgressive then decodeProgressive ⟨d, rd⟩ else decodeBaseline ⟨d, rd⟩).1

/-- The images of two decoders that want different outputs, after the headers. -/
theorem after_related {cpu : Cpu} {o : Options} {buf rd : List UInt8} {d : Decoder} {Y : ColorSpace}
    {Rel : List UInt8 → List UInt8 → Prop}
    (hok : decodeHeaders ⟨Decoder.newWithOptions cpu o, buf⟩ = (.ok (), ⟨d, rd⟩))
    (hout : d.options.outColorspace = .ycbcr) (hY : Y.numComponents ≤ 3)
    (T : TameHeaders (toCs Y () d) rd)
    (hj : ∀ d' c0 c1 c2, d'.cpu = d.cpu → d'.idctFn = d.idctFn → d'.colorFn = d.colorFn →
      ColourFrame d' c0 c1 c2 d.info.width.toNat d.info.height.toNat d.hMax d.vMax →
      Converts d.colorFn Y d.info.width.toNat d.hMax d.vMax →
      JobRel d' c0 c1 c2 d.info.width.toNat d.hMax d.vMax Y Rel) :
    Related d Y Rel (imageOf d rd) (imageOf (toCs Y () d) rd) := by
  obtain ⟨G, D⟩ := decodeHeaders_geo hok
  have HR := M.wp_ok (wp_decodeHeaders cpu o buf) hok
  have hcsY : (toCs Y () d).options.getOutColorspace = Y := by
    show (if d.options.outColorspace = .grayscale then _ else Y) = Y
    rw [hout, if_neg (by decide)]
  rcases T.comps with ⟨c, h, -⟩ | ⟨c, c1, c2, hc, hor, e1, e2, hin, hconv, hroom⟩
  · have := (G.one (by
      have h : d.components = [c] := h
      rw [h]
      rfl)).2
    have h' : d.options.getOutColorspace = .ycbcr := hout
    rw [h'] at this
    cases this
  have hc : d.components = [c, c1, c2] := hc
  have e1 : c.horizontalSample = d.hMax := e1
  have e2 : c.verticalSample = d.vMax := e2
  have hin : d.inputColorspace = .ycbcr := hin
  rw [hcsY] at hconv
  have hconv : Converts d.colorFn Y d.info.width.toNat d.hMax d.vMax := hconv
  unfold imageOf
  have hpr : (toCs Y () d).isProgressive = d.isProgressive := rfl
  rw [hpr]
  by_cases hcheck : d.checkComponentDimensions = .ok ()
  swap
  · obtain ⟨er, he⟩ : ∃ er, d.checkComponentDimensions = .err er := by
      rcases checkComponentDimensions_returns G.maxes.1 with ⟨⟨⟩, e⟩ | e
      · exact absurd e hcheck
      · exact e
    have he' : (toCs Y () d).checkComponentDimensions = .err er := he
    have key : ∀ d : Decoder, d.checkComponentDimensions = .err er →
        (if d.isProgressive then decodeProgressive ⟨d, rd⟩ else decodeBaseline ⟨d, rd⟩).1 = .err er := by
      intro d he
      split
      · unfold decodeProgressive
        rw [M.bind_ok (getDec_apply _ _), he]
        rfl
      · have hb : baselineSetup ⟨d, rd⟩ = (.err er, ⟨d, rd⟩) := by
          unfold baselineSetup
          rw [M.bind_ok (getDec_apply _ _), he]
          rfl
        unfold decodeBaseline
        rw [hb]
    exact Or.inl ⟨er, key d he, key _ he'⟩
  obtain ⟨F, K, h3, hf3⟩ := headers_colour hok hcheck hc hor e1 e2
  by_cases h12 : d.hMax ≤ 2 ∧ d.vMax ≤ 2
  · have R : ColourFrame d c c1 c2 d.info.width.toNat d.info.height.toNat d.hMax d.vMax :=
      ⟨F, hc, hcheck, hin, h12.1, h12.2, T.wLe, T.hLe⟩
    cases hp : d.isProgressive
    · exact baseline_related R K h3 hf3 hout hY (hroom hp) (noSof_of (T.scan hp)) (hj d c c1 c2 rfl rfl rfl R hconv)
    · exact progressive_related R K h3 hout (fun d' c0' c1' c2' ec e ei R' => hj d' c0' c1' c2' ec ei e R' hconv) rd
  · cases hp : d.isProgressive
    · exact baseline_large F hin (by rw [hc, hin]; exact Nat.le_refl _) h12 rd
    · exact progressive_finish F (by rw [hc, hin]; rfl) K h3
        (fun d' K' bufs rd' => finish_large (F.steady K') h12 bufs _ rd') rd

/-! ### C74 -/

theorem decode_imageOf {d : Decoder} {buf : List UInt8} {d' : Decoder} {rd : List UInt8}
    (hok : decodeHeaders ⟨d, buf⟩ = (.ok (), ⟨d', rd⟩)) : (d.decodeBuffer buf).1 = imageOf d' rd := by
  have hdb : (d.decodeBuffer buf).1 = (decodeInternal ⟨d, buf⟩).1 := rfl
  rw [hdb]
  unfold decodeInternal imageOf
  rw [M.bind_ok hok, M.bind_ok (getDec_apply _ _)]
  split <;> rfl

/-- **C74 (partial).** The headers do not depend on the wanted format of the output: for all bytes and any two
formats other than grayscale, reading the headers gives the same result, error or panic, and the same
information about the image. -/
theorem c74_headers (cpu : Cpu) (o : Options) (buf : List UInt8) {X : ColorSpace} (hX : X ≠ .grayscale)
    (Y : ColorSpace) :
    let a := (Decoder.newWithOptions cpu (o.setOutColorspace X)).readHeaders buf
    let b := (Decoder.newWithOptions cpu (o.setOutColorspace Y)).readHeaders buf
    b.1 = a.1 ∧ b.2.getInfo = a.2.getInfo ∧
      (a.1 ≠ .ok () →
        ((Decoder.newWithOptions cpu (o.setOutColorspace Y)).decodeBuffer buf).1 =
          ((Decoder.newWithOptions cpu (o.setOutColorspace X)).decodeBuffer buf).1) := by
  have e := headers_toCs cpu o hX Y buf
  have hb : ∀ d : Decoder, d.readHeaders buf = ((decodeHeaders ⟨d, buf⟩).1, (decodeHeaders ⟨d, buf⟩).2.dec) :=
    fun d => rfl
  dsimp only
  rw [hb, hb, e]
  refine ⟨rfl, rfl, fun hne => ?_⟩
  have hdb : ∀ d : Decoder, (d.decodeBuffer buf).1 = (decodeInternal ⟨d, buf⟩).1 := fun _ => rfl
  rw [hdb, hdb]
  unfold decodeInternal
  rw [M.bind_apply, M.bind_apply, e]
  rcases hx : decodeHeaders ⟨Decoder.newWithOptions cpu (o.setOutColorspace X), buf⟩ with ⟨_ | _ | _ | _, s⟩
  · rw [hx] at hne
    exact absurd rfl hne
  all_goals rfl

/-- **C74 (partial).** If the output is grayscale after the headers whatever was wanted, as one component makes
it, then the result does not depend on what was wanted, for all bytes. -/
theorem c74_one (cpu : Cpu) (o : Options) (buf : List UInt8) {X : ColorSpace} (hX : X ≠ .grayscale)
    (hone : ((Decoder.newWithOptions cpu (o.setOutColorspace X)).readHeaders buf).2.getOutputColorspace =
      .grayscale) (Y : ColorSpace) :
    ((Decoder.newWithOptions cpu (o.setOutColorspace Y)).decodeBuffer buf).1 =
      ((Decoder.newWithOptions cpu (o.setOutColorspace X)).decodeBuffer buf).1 := by
  have e := headers_toCs cpu o hX Y buf
  by_cases hok : (decodeHeaders ⟨Decoder.newWithOptions cpu (o.setOutColorspace X), buf⟩).1 = .ok ()
  swap
  · exact (c74_headers cpu o buf hX Y).2.2 hok
  rcases hx : decodeHeaders ⟨Decoder.newWithOptions cpu (o.setOutColorspace X), buf⟩ with ⟨r, d, rd⟩
  have hone : (decodeHeaders ⟨Decoder.newWithOptions cpu (o.setOutColorspace X), buf⟩).2.dec.options.outColorspace =
    .grayscale := hone
  rw [hx] at e hok hone
  dsimp only at e hok hone
  subst hok
  have hd : toCs Y () d = d := by
    show ({ d with options := { d.options with
      outColorspace := if d.options.outColorspace = .grayscale then .grayscale else Y } } : Decoder) = d
    rw [if_pos hone, ← hone]
  have e' : decodeHeaders ⟨Decoder.newWithOptions cpu (o.setOutColorspace Y), buf⟩ = (.ok (), ⟨d, rd⟩) := by
    rw [e]
    show (Out.ok (), (⟨toCs Y () d, rd⟩ : H)) = _
    rw [hd]
  rw [decode_imageOf e', decode_imageOf hx]

/-- **C74 (partial).** For all bytes, if the headers are as `TameHeaders` asks for grayscale output (C65) and
the image has colours: the grayscale image is the first of every three bytes of the YCbCr image, and if one
of them cannot be decoded, then neither can the other, with the same error. -/
theorem c74_luma_partial (cpu : Cpu) (o : Options) (buf : List UInt8)
    (T : ∀ d rest, decodeHeaders ⟨Decoder.newWithOptions cpu (o.setOutColorspace .grayscale), buf⟩ =
      (.ok (), ⟨d, rest⟩) → TameHeaders d rest)
    (hcol : ((Decoder.newWithOptions cpu (o.setOutColorspace .ycbcr)).readHeaders buf).2.getOutputColorspace =
      .ycbcr) :
    ((Decoder.newWithOptions cpu (o.setOutColorspace .grayscale)).decodeBuffer buf).1 =
      ((Decoder.newWithOptions cpu (o.setOutColorspace .ycbcr)).decodeBuffer buf).1.bind fun l => .ok (luma l) := by
  have e := headers_toCs cpu o (X := .ycbcr) (by decide) .grayscale buf
  by_cases hok : (decodeHeaders ⟨Decoder.newWithOptions cpu (o.setOutColorspace .ycbcr), buf⟩).1 = .ok ()
  swap
  · rw [(c74_headers cpu o buf (X := .ycbcr) (by decide) .grayscale).2.2 hok]
    have hdb : ((Decoder.newWithOptions cpu (o.setOutColorspace .ycbcr)).decodeBuffer buf).1 =
      (decodeInternal ⟨Decoder.newWithOptions cpu (o.setOutColorspace .ycbcr), buf⟩).1 := rfl
    rw [hdb]
    unfold decodeInternal
    rw [M.bind_apply]
    rcases hx : decodeHeaders ⟨Decoder.newWithOptions cpu (o.setOutColorspace .ycbcr), buf⟩ with ⟨_ | _ | _ | _, s⟩
    · rw [hx] at hok
      exact absurd rfl hok
    all_goals rfl
  rcases hx : decodeHeaders ⟨Decoder.newWithOptions cpu (o.setOutColorspace .ycbcr), buf⟩ with ⟨r, d, rd⟩
  have hcol : (decodeHeaders ⟨Decoder.newWithOptions cpu (o.setOutColorspace .ycbcr), buf⟩).2.dec.options.outColorspace =
    .ycbcr := hcol
  rw [hx] at e hok hcol
  dsimp only at e hok hcol
  subst hok
  have e' : decodeHeaders ⟨Decoder.newWithOptions cpu (o.setOutColorspace .grayscale), buf⟩ =
    (.ok (), ⟨toCs .grayscale () d, rd⟩) := e
  rw [decode_imageOf e', decode_imageOf hx]
  have key := after_related (Y := .grayscale) (Rel := fun a b => 3 ∣ a.length ∧ b = luma a) hx hcol (by decide)
    (T _ _ e') (fun d' c0 c1 c2 _ _ hf R hc => jobRel_luma R (by rw [hf]; exact hc))
  rcases key with ⟨er, k1, k2⟩ | ⟨parts, parts', hp, k1, k2⟩
  · rw [k1, k2]
    rfl
  · have hout' : d.options.getOutColorspace = .ycbcr := hcol
    have hcs : (toCs .grayscale () d).options.getOutColorspace = .grayscale := by
      show (if d.options.outColorspace = .grayscale then ColorSpace.grayscale else .grayscale) = _
      split <;> rfl
    have b1 : outBufferLen d = outBufferLen (toCs .grayscale () d) * 3 := by
      unfold outBufferLen
      rw [hcs, hout']
      show (d.info.width + 8).toNat * (d.info.height + 8).toNat * 3 +
          (if d.interleaved then 1 else 0) * 128 * d.info.height.toNat * 3 =
        ((d.info.width + 8).toNat * (d.info.height + 8).toNat * 1 +
          (if d.interleaved then 1 else 0) * 128 * d.info.height.toNat * 1) * 3
      ring
    have b2 : keepLen d = keepLen (toCs .grayscale () d) * 3 := by
      unfold keepLen
      rw [hcs, hout']
      show d.info.width.toNat * d.info.height.toNat * 3 = d.info.width.toNat * d.info.height.toNat * 1 * 3
      ring
    rw [k1, k2, b1, b2, luma_assemble hp]
    rfl

/-- **C74 (partial).** For all bytes, on a processor with AVX2, if the headers are as `TameHeaders` asks for RGB
output and the image has colours, is at least 17 columns wide and not of the sampling whose chroma may leave the
range of a byte (C54): the RGB image has the size of the YCbCr image, every pixel but those of the
last 31 columns is the conversion of the pixel of the YCbCr image (or zero like it, if it was not decoded), and
if one of them cannot be decoded, then neither can the other, with the same error. -/
theorem c74_rgb_partial (cpu : Cpu) (o : Options) (buf : List UInt8) (havx : cpu.avx2 = true)
    (hun : o.useUnsafe = true)
    (T : ∀ d rest, decodeHeaders ⟨Decoder.newWithOptions cpu (o.setOutColorspace .rgb), buf⟩ =
      (.ok (), ⟨d, rest⟩) → TameHeaders d rest ∧ 17 ≤ d.info.width.toNat ∧
        ¬ (d.hMax = 2 ∧ d.vMax = 2 ∧ 4 ≤ mcuCols d.info.width.toNat d.hMax))
    (hcol : ((Decoder.newWithOptions cpu (o.setOutColorspace .ycbcr)).readHeaders buf).2.getOutputColorspace =
      .ycbcr) :
    (∃ e, ((Decoder.newWithOptions cpu (o.setOutColorspace .ycbcr)).decodeBuffer buf).1 = .err e ∧
      ((Decoder.newWithOptions cpu (o.setOutColorspace .rgb)).decodeBuffer buf).1 = .err e) ∨
    ((decodeHeaders ⟨Decoder.newWithOptions cpu (o.setOutColorspace .ycbcr), buf⟩).1 ≠ .ok () ∧
      ((Decoder.newWithOptions cpu (o.setOutColorspace .rgb)).decodeBuffer buf).1 =
      ((Decoder.newWithOptions cpu (o.setOutColorspace .ycbcr)).decodeBuffer buf).1) ∨
    ∃ a b w h, (((Decoder.newWithOptions cpu (o.setOutColorspace .ycbcr)).readHeaders buf).2.getInfo.map
        fun i => (i.width.toNat, i.height.toNat)) = some (w, h) ∧
      ((Decoder.newWithOptions cpu (o.setOutColorspace .ycbcr)).decodeBuffer buf).1 = .ok a ∧
      ((Decoder.newWithOptions cpu (o.setOutColorspace .rgb)).decodeBuffer buf).1 = .ok b ∧
      a.length = w * h * 3 ∧ b.length = w * h * 3 ∧
      ∀ row x, row < h → x + 31 < w → RgbOf a b (row * w + x) ∨ BothZero a b (row * w + x) := by
  have e := headers_toCs cpu o (X := .ycbcr) (by decide) .rgb buf
  by_cases hok : (decodeHeaders ⟨Decoder.newWithOptions cpu (o.setOutColorspace .ycbcr), buf⟩).1 = .ok ()
  swap
  · exact Or.inr (Or.inl ⟨hok, (c74_headers cpu o buf (X := .ycbcr) (by decide) .rgb).2.2 hok⟩)
  rcases hx : decodeHeaders ⟨Decoder.newWithOptions cpu (o.setOutColorspace .ycbcr), buf⟩ with ⟨r, d, rd⟩
  have hcol : (decodeHeaders ⟨Decoder.newWithOptions cpu (o.setOutColorspace .ycbcr), buf⟩).2.dec.options.outColorspace =
    .ycbcr := hcol
  have hri : ((Decoder.newWithOptions cpu (o.setOutColorspace .ycbcr)).readHeaders buf).2 =
    (decodeHeaders ⟨Decoder.newWithOptions cpu (o.setOutColorspace .ycbcr), buf⟩).2.dec := rfl
  rw [hri]
  rw [hx] at e hok hcol
  rw [hx]
  dsimp only at e hok hcol
  subst hok
  have e' : decodeHeaders ⟨Decoder.newWithOptions cpu (o.setOutColorspace .rgb), buf⟩ =
    (.ok (), ⟨toCs .rgb () d, rd⟩) := e
  obtain ⟨T1, T2, T3⟩ := T _ _ e'
  have T2 : 17 ≤ d.info.width.toNat := T2
  have T3 : ¬ (d.hMax = 2 ∧ d.vMax = 2 ∧ 4 ≤ mcuCols d.info.width.toNat d.hMax) := T3
  have wLe : d.info.width.toNat ≤ 65527 := T1.wLe
  have hLe : d.info.height.toNat ≤ 65527 := T1.hLe
  have HR := M.wp_ok (wp_decodeHeaders cpu (o.setOutColorspace .ycbcr) buf) hx
  have hun' : (o.setOutColorspace .ycbcr).getUseUnsafe = true := hun
  have hfi : d.idctFn = .avx2 := by
    rw [HR.inv.fixed.2.1]
    show chooseIdct cpu (o.setOutColorspace .ycbcr).getUseUnsafe = _
    unfold chooseIdct
    rw [hun', havx]
    rfl
  have hfc : d.colorFn = .rgbAvx := by
    rw [HR.inv.fixed.2.2]
    show (chooseColor cpu .rgb (o.setOutColorspace .ycbcr).getUseUnsafe).getD _ = _
    unfold chooseColor
    rw [hun', havx]
    rfl
  rw [decode_imageOf e', decode_imageOf hx]
  have key := after_related (Y := .rgb) (Rel := stripRel d.info.width.toNat (8 * (d.hMax * d.vMax))) hx hcol
    (by decide) T1 (fun d' c0 c1 c2 _ ei ef R hc => jobRel_rgb R (by rw [ef, hfc]; exact Or.inr (Or.inr rfl))
      (by rw [ei, hfi]) T2 (fun hh => T3 ⟨hh.1, hh.2.1, hh.2.2.2.2⟩) (by rw [ef]; exact hc))
  rcases key with ⟨er, k1, k2⟩ | ⟨parts, parts', hp, k1, k2⟩
  · exact Or.inl ⟨er, k1, k2⟩
  · right
    right
    have hout' : d.options.getOutColorspace = .ycbcr := hcol
    have hcs : (toCs .rgb () d).options.getOutColorspace = .rgb := by
      show (if d.options.outColorspace = .grayscale then ColorSpace.grayscale else .rgb) = _
      rw [hcol]
      rfl
    have b1 : outBufferLen (toCs .rgb () d) = outBufferLen d := by
      unfold outBufferLen
      rw [hcs, hout']
      rfl
    have b2 : keepLen d = d.info.width.toNat * d.info.height.toNat * 3 := by
      unfold keepLen
      rw [hout']
      rfl
    have b3 : keepLen (toCs .rgb () d) = d.info.width.toNat * d.info.height.toNat * 3 := by
      unfold keepLen
      rw [hcs]
      rfl
    have hroom : d.info.width.toNat * d.info.height.toNat * 3 ≤ outBufferLen d := by
      have g1 : d.info.width.toNat ≤ (d.info.width + 8).toNat := by
        rw [UInt16.toNat_add]
        have : (8 : UInt16).toNat = 8 := rfl
        omega
      have g2 : d.info.height.toNat ≤ (d.info.height + 8).toNat := by
        rw [UInt16.toNat_add]
        have : (8 : UInt16).toNat = 8 := rfl
        omega
      unfold outBufferLen
      rw [hout']
      exact (Nat.mul_le_mul_right 3 (Nat.mul_le_mul g1 g2)).trans (Nat.le_add_right _ _)
    rw [k1, k2, b1, b2, b3]
    refine ⟨_, _, _, _, ?_, rfl, rfl, ?_, ?_, fun row x hr hxw => rgb_assemble hroom hp hr hxw⟩
    · show (d.getInfo.map _) = _
      unfold Decoder.getInfo
      rw [if_neg (fun h => by rw [h] at T2; exact absurd T2 (by decide))]
      rfl
    all_goals
      unfold assemble
      rw [List.length_take, length_fit]
      omega

/-- An image of `w` x 8 pixels of one colour, if `w` is at most 64. There are more bytes than needed, since the
code stops early once it has seen the end of the image. -/
def tintFile (w : UInt8) : List UInt8 :=
  [0xFF, 0xD8] ++
  [0xFF, 0xDB, 0x00, 0x43, 0x00] ++ List.replicate 64 8 ++
  [0xFF, 0xC0, 0x00, 0x11, 8, 0, 8, 0, w, 3, 1, 0x11, 0, 2, 0x11, 0, 3, 0x11, 0] ++
  ([0xFF, 0xC4, 0x00, 0x15, 0x00, 1, 1] ++ List.replicate 14 0 ++ [0, 3]) ++
  ([0xFF, 0xC4, 0x00, 0x14, 0x10, 1] ++ List.replicate 15 0 ++ [0]) ++
  [0xFF, 0xDA, 0x00, 0x0C, 3, 1, 0x00, 2, 0x00, 3, 0x00, 0, 63, 0] ++ [0xBA, 0x00, 0x00] ++
  List.replicate 16 0 ++ [0xFF, 0xD9]

/-- What `TameHeaders` asks, for an image of one block per component in an MCU. -/
theorem tame_of {cpu : Cpu} {o : Options} {buf tl : List UInt8} {w : Nat} {f : ColorFn} {out : ColorSpace}
    (h : (fun s : H => (s.rd, s.dec.info.width.toNat, s.dec.info.height.toNat, s.dec.isProgressive,
      s.dec.hMax, s.dec.vMax)) (decodeHeaders ⟨Decoder.newWithOptions cpu o, buf⟩).2 = (tl, w, 8, false, 1, 1))
    (h' : (fun s : H => (decide (s.dec.inputColorspace = .ycbcr), decide (s.dec.colorFn = f),
      decide (s.dec.options.getOutColorspace = out))) (decodeHeaders ⟨Decoder.newWithOptions cpu o, buf⟩).2 =
      (true, true, true))
    (h9 : (fun s : H => s.dec.components.map fun c =>
        (decide (c.componentId = .y), c.horizontalSample, c.verticalSample))
      (decodeHeaders ⟨Decoder.newWithOptions cpu o, buf⟩).2 = [(true, 1, 1), (false, 1, 1), (false, 1, 1)])
    (hw : w ≤ 65527) (hc : Converts f out w 1 1) (hn : NoFrameIn tl) (d : Decoder) (rest : List UInt8)
    (hok : decodeHeaders ⟨Decoder.newWithOptions cpu o, buf⟩ = (.ok (), ⟨d, rest⟩)) :
    TameHeaders d rest ∧ d.info.width.toNat = w ∧ d.hMax = 1 := by
  rw [hok] at h h' h9
  dsimp only at h h' h9
  simp only [Prod.mk.injEq, decide_eq_true_eq] at h h'
  obtain ⟨rfl, h1, h2, h3, h4, h5⟩ := h
  obtain ⟨h6, h7, h8⟩ := h'
  obtain ⟨c, c1, c2, hc'⟩ : ∃ c c1 c2, d.components = [c, c1, c2] := by
    have hl : d.components.length = 3 := by
      have := congrArg List.length h9
      simpa using this
    match hd : d.components, hl with
    | [a, b, c], _ => exact ⟨a, b, c, rfl⟩
  rw [hc'] at h9
  simp only [List.map_cons, List.map_nil, List.cons.injEq, Prod.mk.injEq, decide_eq_true_eq,
    decide_eq_false_iff_not, and_true] at h9
  obtain ⟨⟨g1, g2, g3⟩, ⟨g4, -⟩, g5, -⟩ := h9
  refine ⟨⟨by omega, by omega, Or.inr ⟨c, c1, c2, hc', Or.inl ⟨g1, g4, g5⟩, by omega, by omega, h6, ?_, ?_⟩,
    fun _ => hn⟩, h1, h4⟩
  · rw [h7, h8, h1, h4, h5]
    exact hc
  · intro _
    left
    omega

/-- It meets the hypotheses of `c74_luma_partial`. -/
theorem tintFile_luma :
    ((Decoder.newWithOptions ⟨false, false⟩ (({} : Options).setOutColorspace .grayscale)).decodeBuffer
      (tintFile 16)).1 =
    ((Decoder.newWithOptions ⟨false, false⟩ (({} : Options).setOutColorspace .ycbcr)).decodeBuffer
      (tintFile 16)).1.bind fun l => .ok (luma l) :=
  c74_luma_partial ⟨false, false⟩ {} (tintFile 16) (fun d rest hok =>
    (tame_of (tl := [0xBA, 0x00, 0x00] ++ List.replicate 16 0 ++ [0xFF, 0xD9]) (w := 16) (f := .rgbScalar)
      (out := .grayscale) (by decide +kernel) (by decide +kernel) (by decide +kernel) (by decide)
      (by decide +kernel) (noFrameIn_of (by decide)) d rest hok).1) (by decide +kernel)

/-- With 40 columns it meets the hypotheses of `c74_rgb_partial`: there are nine columns of which it speaks. -/
theorem tintFile_rgb : ∃ a b,
    ((Decoder.newWithOptions ⟨true, true⟩ (({} : Options).setOutColorspace .ycbcr)).decodeBuffer
      (tintFile 40)).1 = .ok a ∧
    ((Decoder.newWithOptions ⟨true, true⟩ (({} : Options).setOutColorspace .rgb)).decodeBuffer
      (tintFile 40)).1 = .ok b ∧ a[0]? = some 135 ∧ RgbOf a b 0 := by
  have hd : ((Decoder.newWithOptions ⟨true, true⟩ (({} : Options).setOutColorspace .ycbcr)).decodeBuffer
      (tintFile 40)).1 = .ok (List.replicate 320 [135, 121, 128]).flatten := by decide +kernel
  have hh : (decodeHeaders ⟨Decoder.newWithOptions ⟨true, true⟩ (({} : Options).setOutColorspace .ycbcr),
      tintFile 40⟩).1 = .ok () := by decide +kernel
  rcases c74_rgb_partial ⟨true, true⟩ {} (tintFile 40) rfl rfl (fun d rest hok => by
      obtain ⟨t1, t2, t3⟩ := tame_of (tl := [0xBA, 0x00, 0x00] ++ List.replicate 16 0 ++ [0xFF, 0xD9]) (w := 40)
        (f := .rgbAvx) (out := .rgb) (by decide +kernel) (by decide +kernel) (by decide +kernel) (by decide)
        (by decide +kernel) (noFrameIn_of (by decide)) d rest hok
      exact ⟨t1, by omega, by omega⟩) (by decide +kernel) with ⟨e, h, -⟩ | ⟨h, -⟩ | ⟨a, b, w, h, hi, ha, hb, -, -, hp⟩
  · rw [hd] at h
    cases h
  · exact absurd hh h
  · have hwh : (((Decoder.newWithOptions ⟨true, true⟩ (({} : Options).setOutColorspace .ycbcr)).readHeaders
        (tintFile 40)).2.getInfo.map fun i => (i.width.toNat, i.height.toNat)) = some (40, 8) := by decide +kernel
    rw [hwh] at hi
    cases hi
    have h0 : a[0]? = some 135 := by
      rw [hd] at ha
      cases ha
      decide +kernel
    refine ⟨a, b, ha, hb, h0, ?_⟩
    rcases hp 0 0 (by decide) (by decide) with h | h
    · exact h
    · have := (h 0 (by decide)).1
      rw [h0] at this
      cases this

/-- The two images. -/
theorem tintFile_images :
    ((Decoder.newWithOptions ⟨false, false⟩ (({} : Options).setOutColorspace .ycbcr)).decodeBuffer
      (tintFile 16)).1 = .ok (List.replicate 128 [135, 121, 128]).flatten ∧
    ((Decoder.newWithOptions ⟨false, false⟩ (({} : Options).setOutColorspace .grayscale)).decodeBuffer
      (tintFile 16)).1 = .ok (List.replicate 128 135) := by
  constructor <;> decide +kernel

/-- **C74** is false: an image of seven columns is decoded to YCbCr, but makes the worker panic with grayscale
output. -/
theorem c74_false :
    ((Decoder.newWithOptions ⟨false, false⟩ (({} : Options).setOutColorspace .ycbcr)).decodeBuffer
      (tintFile 7)).1 = .ok (List.replicate 56 [135, 121, 128]).flatten ∧
    ((Decoder.newWithOptions ⟨false, false⟩ (({} : Options).setOutColorspace .grayscale)).decodeBuffer
      (tintFile 7)).1 = .panic .worker := by
  constructor <;> decide +kernel

/-- An image of 16 x 8 pixels like `tintFile 16`, but with steps of 255: yellow, and brighter than white. -/
def brightFile : List UInt8 :=
  [0xFF, 0xD8] ++
  [0xFF, 0xDB, 0x00, 0x43, 0x00] ++ List.replicate 64 255 ++ (tintFile 16).drop 71

/-- **C74** is false of RGB output without AVX2: the scalar transform does not clamp flat blocks (C26), and so
the YCbCr image has the low bytes of its samples, while the RGB image is made from the samples. Luma 351 is 95 in
one, and 255 in the other. -/
theorem c74_flat_false :
    ((Decoder.newWithOptions ⟨false, false⟩ (({} : Options).setOutColorspace .ycbcr)).decodeBuffer brightFile).1 =
      .ok (List.replicate 128 [95, 160, 128]).flatten ∧
    ∃ b, ((Decoder.newWithOptions ⟨false, false⟩ (({} : Options).setOutColorspace .rgb)).decodeBuffer
        brightFile).1 = .ok b ∧ b[0]? = some 255 ∧
      ¬ RgbOf (List.replicate 128 [95, 160, 128]).flatten b 0 := by
  refine ⟨by decide +kernel, (List.replicate 128 [255, 255, 0]).flatten, by decide +kernel, by decide +kernel, ?_⟩
  rintro ⟨y, cb, cr, h0, h1, h2, h3⟩
  have e0 : (List.replicate 128 ([95, 160, 128] : List UInt8)).flatten[3 * 0]? = some 95 := by decide +kernel
  have e1 : (List.replicate 128 ([95, 160, 128] : List UInt8)).flatten[3 * 0 + 1]? = some 160 := by decide +kernel
  have e2 : (List.replicate 128 ([95, 160, 128] : List UInt8)).flatten[3 * 0 + 2]? = some 128 := by decide +kernel
  rw [e0] at h0
  rw [e1] at h1
  rw [e2] at h2
  cases h0
  cases h1
  cases h2
  obtain ⟨v, hv, he⟩ := h3 0 (by decide)
  have e3 : (List.replicate 128 ([255, 255, 0] : List UInt8)).flatten[3 * 0 + 0]? = some 255 := by decide +kernel
  rw [e3] at hv
  cases hv
  exact absurd he (by decide +kernel)

end Zune
