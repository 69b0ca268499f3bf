import Verif.Lemmas.NoPanicScan
import Verif.Lemmas.ColourOut
import Verif.Props.Strips
/-! The jobs of the strips do not panic. -/

namespace Zune
namespace Spec

/-- The sizes for which the conversion of a strip to `out` has room for its last pixels: not the narrow ones
with grayscale output, and with the SSE converter not those with less than six columns after the groups
of 16. -/
def Converts (f : ColorFn) (out : ColorSpace) (w fh fv : Nat) : Prop :=
  (out = .grayscale → 8 * (fh * fv) * (8 * (fh * mcuCols w fh)) < (8 * (fh * fv) + 1) * w) ∧
  (out = .rgb → f = .rgbSse → 22 ≤ w ∧ 16 * (8 * (fh * mcuCols w fh) / 16 - 1) + 6 ≤ w)

instance (f : ColorFn) (out : ColorSpace) (w fh fv : Nat) : Decidable (Converts f out w fh fv) := by
  unfold Converts
  infer_instance

end Spec
open Spec

/-- The conversion of a strip to RGB, RGBA or RGBX. -/
theorem convert_ok {f : ColorFn} (hf : f.Three) {nc : Nat} (hnc : nc = 3 ∨ nc = 4) {w pw h v : Nat}
    (hs : nc = 3 → f = .rgbSse → 22 ≤ w ∧ 16 * (pw / 16 - 1) + 6 ≤ w) (h0 : 0 < w) (hw : w ≤ pw)
    (hpw : pw ≤ w + 15) (hpw' : w ≤ 16 → pw ≤ 16) (hhv : 0 < h * v) {y cb cr : List I16}
    (ly : y.length = 8 * (h * v) * pw) (lb : cb.length = 8 * (h * v) * pw)
    (lr : cr.length = 8 * (h * v) * pw) {out : List UInt8} (lo : 8 * (h * v) * (w * nc) ≤ out.length) :
    ∃ r, colorConvertYcbcr f nc y cb cr w h v out = .ok r := by
  have hp := packs_three hf
  have hneed : f.need = 48 ∨ f = .rgbSse ∧ f.need = 64 := by
    rcases hf with rfl | rfl | rfl
    · exact Or.inl rfl
    · exact Or.inr ⟨rfl, rfl⟩
    · exact Or.inl rfl
  by_cases h16 : w < 16
  · have := hpw' (by omega)
    obtain ⟨r, e1, -⟩ := colorConvert_rows (f := f) (nc := nc) (w := w) (pw := pw) (h := h) (v := v)
      (by omega) hhv ly (cb := cb) (cr := cr) (by omega) (by omega) (out := out) lo
      (R := fun a b c _ => rowSmall rgbScalar nc w a b c)
      (by
        intro a b c old la lb lc lo
        rw [hp.row_small h16 (by omega) (by omega) (by omega) lo, if_pos (by
          rcases hneed with hn | ⟨hn, hn'⟩
          · omega
          · rcases hnc with e | e
            · have := hs e hn
              omega
            · omega)]
        exact ⟨rfl, rowSmall_length hp (by omega) (by omega) (by omega) (by omega) (by omega)⟩)
    exact ⟨r, e1⟩
  · obtain ⟨r, e1, -⟩ := colorConvert_rows (f := f) (nc := nc) (w := w) (pw := pw) (h := h) (v := v)
      (by omega) hhv ly (cb := cb) (cr := cr) (by omega) (by omega) (out := out) lo
      (R := fun a b c old => rowBytes rgbScalar 3 nc w a b c old)
      (by
        intro a b c old la lb lc lo
        have r1 : 3 * 16 * (pw / 16 - 1) ≤ w * nc := by rcases hnc with rfl | rfl <;> omega
        have r2 : lastPos 3 nc w (pw / 16 - 1) + 3 * 16 ≤ w * nc := by
          unfold lastPos
          rcases hnc with rfl | rfl <;> omega
        refine ⟨?_, ?_⟩
        · rw [hp.row_wide (by omega) (by omega) (by omega) (by omega) (by rw [la]; omega), la, lo,
            if_pos]
          rcases hneed with hn | ⟨hn, hn'⟩
          · rw [hn]
            omega
          · rw [hn']
            unfold lastPos
            rcases hnc with rfl | rfl
            · obtain ⟨k1, k2⟩ := hs rfl hn
              omega
            · omega
        · rw [rowBytes_length hp (E := pw / 16 - 1) (by omega) (by omega) (by omega) (by rw [la])
            (by omega) (by omega), lo])
    exact ⟨r, e1⟩

theorem idctComponent_ok {f : IdctFn} {comps : List Component} {z : Nat} {c : Component}
    (hz : comps[z]? = some c) {b n fh fv : Nat} (hb : 0 < b) (hf : 0 < fh * fv)
    (hst : c.widthStride = 8 * b) {temp : List (List I16)} {buf : List I16} (b1 : temp[z]? = some buf)
    (hlen : buf.length = n * (64 * b))
    (hn : n * (if z = 0 then 1 else fv) = fh * fv) :
    ∃ out, idctComponent f comps temp fh fv z = .ok out ∧ out.length = n * (64 * b) := by
  obtain ⟨out, h1, h2, -⟩ := idctStrip_spec (f := f.block) (qt := c.quantTable)
    (fun b => isRows_block f b c.quantTable) (b := b) (n := n) (samp := fh * fv)
    (vSamp := if z = 0 then 1 else fv) (vector := buf) hb (by omega) hlen (by
      rw [hlen, show n * (64 * b) * (if z = 0 then 1 else fv) =
        n * (if z = 0 then 1 else fv) * (64 * b) by ring, hn, Nat.mul_div_cancel_left _ hf])
  refine ⟨out, ?_, h2⟩
  unfold idctComponent
  rw [b1, hz]
  dsimp only
  rw [hst]
  exact h1

/-- A job with grayscale output. -/
theorem gray_job_ok {idct : IdctFn} {f : ColorFn} {c0 : Component} {cs : List Component} {inCs : ColorSpace}
    (hin : inCs = .ycbcr ∨ inCs = .grayscale) {w b rows : Nat} (hb : 0 < b)
    (hf : 0 < c0.horizontalSample * c0.verticalSample)
    (hrows : rows = 8 * (c0.horizontalSample * c0.verticalSample)) (hst : c0.widthStride = 8 * b)
    (hw : w ≤ 8 * b) (hw0 : 0 < w) (hfit : rows * (8 * b) < (rows + 1) * w)
    {temp : List (List I16)} {buf : List I16} (b1 : temp[0]? = some buf)
    (hlen : buf.length = c0.horizontalSample * c0.verticalSample * (64 * b)) {out : List UInt8}
    (lo : out.length = rows * w) :
    (postProcess idct f (c0 :: cs) inCs .grayscale w temp out).isOk = true := by
  obtain ⟨p, e1, e2⟩ := idctComponent_ok (f := idct) (comps := c0 :: cs) (z := 0) (c := c0) rfl
    (n := c0.horizontalSample * c0.verticalSample) (fh := c0.horizontalSample) (fv := c0.verticalSample)
    hb hf hst b1 hlen (by simp)
  obtain ⟨r, e3, -⟩ := (c37_gray_partial (f := f) (c0 := c0) (cs := cs) hin (ps := []) (y := p) (out := out)
    hw hw0 (by omega) (by rw [e2, hrows]; ring) lo).1 hfit
  have hm : min inCs.numComponents ColorSpace.grayscale.numComponents = 1 := by
    rcases hin with rfl | rfl <;> rfl
  unfold postProcess
  dsimp only [List.getElem?_cons_zero]
  rw [hm, Out.collect_map_ok (g := fun _ => p) (by
    intro z hz
    rw [List.mem_range] at hz
    obtain rfl : z = 0 := by omega
    exact e1)]
  show (postProcessInner f (c0 :: cs) inCs .grayscale w [p] out).isOk = true
  rw [e3]
  rfl

/-- A job of an image with three components. -/
theorem colour_job_ok {idct : IdctFn} {f : ColorFn} (hf3 : f.Three) {c0 c1 c2 : Component} {w fh fv X : Nat}
    {oc : ColorSpace} {cpu : Cpu} {un : Bool} {r : SubSampRatios} (hX : X = mcuCols w fh)
    (hf1 : 0 < fh ∧ fh ≤ 2) (hf2 : 0 < fv ∧ fv ≤ 2) (hw0 : 0 < w) (q2 : c0.horizontalSample = fh)
    (q3 : c0.verticalSample = fv) (q4 : c0.widthStride = 8 * (fh * X))
    (q5 : c1.widthStride = 8 * X ∧ c2.widthStride = 8 * X)
    (hu : (fh = 1 ∧ fv = 1) ∨ (c1.upSampler = c2.upSampler ∧ Sampling cpu un fh fv r c1.upSampler))
    (hc : Converts f oc w fh fv) {temp : List (List I16)}
    (t0 : ∃ b, temp[0]? = some b ∧ b.length = fh * fv * (64 * (fh * X)))
    (ti : ∀ i, i = 1 ∨ i = 2 → i < oc.numComponents → ∃ b, temp[i]? = some b ∧ b.length = fh * (64 * X)) :
    (postProcess idct f [c0, c1, c2] .ycbcr oc w temp
      (List.replicate (8 * (fh * fv) * (w * oc.numComponents)) 0)).isOk = true := by
  have hX0 : 0 < X ∧ w ≤ 8 * (fh * X) ∧ 8 * (fh * X) ≤ w + 15 ∧ (w ≤ 16 → 8 * (fh * X) ≤ 16) := by
    rw [hX]
    unfold mcuCols
    have hf : fh = 1 ∨ fh = 2 := by omega
    rcases hf with rfl | rfl <;> omega
  obtain ⟨hX0, hX1, hX2, hX3⟩ := hX0
  have hff : 0 < fh * fv := Nat.mul_pos hf1.1 hf2.1
  obtain ⟨b0, tb0, tl0⟩ := t0
  by_cases hg : oc = .grayscale
  · subst hg
    refine gray_job_ok (Or.inl rfl) (b := fh * X) (Nat.mul_pos hf1.1 hX0) (by rw [q2, q3]; exact hff) rfl
      q4 hX1 hw0 ?_ tb0 (by rw [q2, q3]; exact tl0) ?_
    · rw [q2, q3, hX]
      exact hc.1 rfl
    · rw [List.length_replicate, q2, q3]
      show _ * (w * 1) = _
      rw [Nat.mul_one]
  have hn3 : 3 ≤ oc.numComponents := by
    cases oc <;> first | exact absurd rfl hg | decide
  obtain ⟨b1, tb1, tl1⟩ := ti 1 (Or.inl rfl) (by omega)
  obtain ⟨b2, tb2, tl2⟩ := ti 2 (Or.inr rfl) (by omega)
  obtain ⟨p0, i0, l0⟩ := idctComponent_ok (f := idct) (comps := [c0, c1, c2]) (z := 0) (c := c0) rfl
    (n := fh * fv) (Nat.mul_pos hf1.1 hX0) hff q4 tb0 tl0 (by simp)
  obtain ⟨p1, i1, l1⟩ := idctComponent_ok (f := idct) (comps := [c0, c1, c2]) (z := 1) (c := c1) rfl
    (n := fh) hX0 hff q5.1 tb1 tl1 (by simp)
  obtain ⟨p2, i2, l2⟩ := idctComponent_ok (f := idct) (comps := [c0, c1, c2]) (z := 2) (c := c2) rfl
    (n := fh) hX0 hff q5.2 tb2 tl2 (by simp)
  have hpp : ∀ out, postProcess idct f [c0, c1, c2] .ycbcr oc w temp out =
      postProcessInner f [c0, c1, c2] .ycbcr oc w [p0, p1, p2] out := by
    intro out
    have hm : min ColorSpace.ycbcr.numComponents oc.numComponents = 3 := by
      show min 3 _ = 3
      omega
    unfold postProcess
    dsimp only [List.getElem?_cons_zero]
    rw [hm, q2, q3, Out.collect_map_ok (g := fun i => [p0, p1, p2].getD i []) (by
      intro z hz
      rw [List.mem_range] at hz
      have hz' : z = 0 ∨ z = 1 ∨ z = 2 := by omega
      rcases hz' with rfl | rfl | rfl
      · exact i0
      · exact i1
      · exact i2)]
    rfl
  rw [hpp]
  have l0' : p0.length = 8 * (fh * fv) * (8 * (fh * X)) := by rw [l0]; ring
  -- the planes at full resolution
  have hup : ∀ c p, (c = c1 ∧ p = p1) ∨ (c = c2 ∧ p = p2) →
      ∃ p', Upsampled c0 c p0.length p p' ∧ p'.length = 8 * (fh * fv) * (8 * (fh * X)) := by
    intro c p hcp
    have lp : p.length = fh * (64 * X) := by
      rcases hcp with ⟨-, rfl⟩ | ⟨-, rfl⟩
      · exact l1
      · exact l2
    unfold Upsampled
    rw [q2, q3]
    rcases hu with ⟨a, b⟩ | ⟨hu1, hu2⟩
    · refine ⟨p, by rw [if_pos ⟨a, b⟩], ?_⟩
      rw [lp, a, b]
      ring
    · have hn : ¬ (fh = 1 ∧ fv = 1) := by
        rcases hu2 with ⟨a, b, -⟩ | ⟨a, b, -⟩ | ⟨a, b, -⟩ <;> omega
      have hcu : c.upSampler = c1.upSampler := by
        rcases hcp with ⟨rfl, -⟩ | ⟨rfl, -⟩
        · rfl
        · exact hu1.symm
      obtain ⟨p', g1, g2⟩ := sampling_run (w := w) (p := p) hu2 (by rw [← hX]; exact hX0)
        (by rw [lp, hX]; ring)
      refine ⟨p', ?_, by rw [hX]; exact g2⟩
      rw [if_neg hn, l0', hX, hcu]
      exact g1
  obtain ⟨p1', u1, m1⟩ := hup c1 p1 (Or.inl ⟨rfl, rfl⟩)
  obtain ⟨p2', u2, m2⟩ := hup c2 p2 (Or.inr ⟨rfl, rfl⟩)
  have hpl := @postProcessInner_planes f c0 c1 c2 [] w p0 p1 p2 p1' p2'
    (List.replicate (8 * (fh * fv) * (w * oc.numComponents)) 0) u1 u2
  rw [q2, q3] at hpl
  have hconv : ∀ nc, nc = 3 ∨ nc = 4 → (nc = 3 → f = .rgbSse → 22 ≤ w ∧ 16 * (8 * (fh * X) / 16 - 1) + 6 ≤ w) →
      oc.numComponents = nc → (colorConvertYcbcr f nc p0 p1' p2' w fh fv
        (List.replicate (8 * (fh * fv) * (w * oc.numComponents)) 0)).isOk = true := by
    intro nc hnc hs e
    obtain ⟨r, hr⟩ := convert_ok (f := f) hf3 hnc (w := w) (pw := 8 * (fh * X)) hs hw0 hX1 hX2 hX3 hff
      l0' m1 m2 (out := List.replicate (8 * (fh * fv) * (w * oc.numComponents)) 0)
      (by rw [List.length_replicate, e])
    rw [hr]
    rfl
  cases hoc : oc
  case grayscale => exact absurd hoc hg
  case rgb =>
    rw [hoc] at hpl hconv
    rw [hpl.2.1]
    refine hconv 3 (Or.inl rfl) (fun _ hs => ?_) rfl
    rw [hX]
    exact hc.2 hoc hs
  case rgba =>
    rw [hoc] at hpl hconv
    rw [hpl.2.2.1]
    exact hconv 4 (Or.inr rfl) (fun h => by cases h) rfl
  case rgbx =>
    rw [hoc] at hpl hconv
    rw [hpl.2.2.2]
    exact hconv 4 (Or.inr rfl) (fun h => by cases h) rfl
  case ycbcr =>
    obtain ⟨part, e1, -⟩ := c36_ycbcr (f := f) (cs := []) (w := w)
      (pw := 8 * (fh * X)) (rows := 8 * (fh * fv))
      (out := List.replicate (8 * (fh * fv) * (w * 3)) 0) u1 u2 hX1 (by omega) (by omega)
      (by rw [q2, q3]) l0' m1 m2 (by rw [List.length_replicate])
    show (postProcessInner _ _ _ _ _ _ (List.replicate (8 * (fh * fv) * (w * 3)) 0)).isOk = true
    rw [e1]
    rfl
  all_goals
    unfold Upsampled at u1 u2
    unfold postProcessInner
    simp only [List.getElem?_cons_zero]
    by_cases h1 : c0.horizontalSample = 1 ∧ c0.verticalSample = 1
    · have hn : ¬ (c0.horizontalSample ≠ 1 ∨ c0.verticalSample ≠ 1) := by omega
      simp [hn, Out.bind, Out.isOk]
    · have hn : (c0.horizontalSample ≠ 1 ∨ c0.verticalSample ≠ 1) := by omega
      rw [if_neg h1] at u1 u2
      simp [hn, Out.bind, Out.isOk, u1, u2, ColorSpace.numComponents]

end Zune
