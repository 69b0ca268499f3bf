import Verif.Lemmas.Slice
import Verif.Model.Worker
/-! A job writes inside its chunk: the chunk keeps its length. -/

namespace Zune

theorem length_colorRun {f : ColorFn} {y cb cr : List I16} {out : List UInt8} {pos : Nat}
    {r : List UInt8 × Nat} (h : f.run y cb cr out pos = .ok r) : r.1.length = out.length := by
  unfold ColorFn.run at h
  dsimp only at h
  split at h
  · split at h
    · cases h
      exact length_writeAt (by assumption)
    · cases h
  · cases h

theorem length_convertGroups {f : ColorFn} : ∀ {l : List (List I16 × List I16 × List I16)}
    {out : List UInt8} {pos : Nat} {r : List UInt8 × Nat},
    convertGroups f l out pos = .ok r → r.1.length = out.length
  | [], out, pos, r, h => by cases h; rfl
  | (y, cb, cr) :: l, out, pos, r, h => by
    obtain ⟨⟨o, p⟩, h1, h2⟩ := Out.bind_ok h
    rw [length_convertGroups h2]
    exact length_colorRun h1

theorem length_convertRow {f : ColorFn} {nc width : Nat} {y cb cr : List I16} {out r : List UInt8}
    (ho : out.length = width * nc) (h : convertRow f nc width y cb cr out = .ok r) :
    r.length = out.length := by
  unfold convertRow at h
  dsimp only at h
  split at h
  · split at h
    · cases h
    · obtain ⟨⟨o, p⟩, h1, h2⟩ := Out.bind_ok h
      cases h2
      refine length_writeAt ?_
      rw [List.length_take]
      omega
  · obtain ⟨⟨o, p⟩, h1, h2⟩ := Out.bind_ok h
    obtain ⟨ly, -, h3⟩ := Out.bind_ok h2
    obtain ⟨lb, -, h4⟩ := Out.bind_ok h3
    obtain ⟨lr, -, h5⟩ := Out.bind_ok h4
    obtain ⟨⟨o', p'⟩, h6, h7⟩ := Out.bind_ok h5
    cases h7
    rw [← length_convertGroups h1]
    exact length_colorRun h6

theorem length_colorConvert {f : ColorFn} {nc : Nat} {y cb cr : List I16} {w h v : Nat}
    {out r : List UInt8} (hr : colorConvertYcbcr f nc y cb cr w h v out = .ok r) :
    r.length = out.length := by
  unfold colorConvertYcbcr at hr
  dsimp only at hr
  split at hr
  · cases hr
  · split at hr
    · cases hr
    · refine Out.fold_ok (P := fun b => b.length = out.length) ?_ rfl hr
      rintro b ⟨⟨y, cb, cr⟩, i⟩ b' hb hf
      dsimp only at hf
      split at hf
      · cases hf
      · rename_i hl
        obtain ⟨row, h1, h2⟩ := Out.bind_ok hf
        cases h2
        have hlen : ((b.drop (i * (w * nc))).take (w * nc)).length = w * nc := by
          rw [List.length_take, List.length_drop]
          rw [Nat.add_one_mul i] at hl
          omega
        have := length_convertRow hlen h1
        rw [length_writeAt, hb]
        rw [this, hlen]
        rw [Nat.add_one_mul i] at hl
        omega

theorem length_toGrayscale {y : List I16} {w : Nat} {out r : List UInt8}
    (hr : ycbcrToGrayscale y w out = .ok r) : r.length = out.length := by
  unfold ycbcrToGrayscale at hr
  dsimp only at hr
  split at hr
  · cases hr
  split at hr
  · cases hr
  split at hr
  · cases hr
  refine Out.fold_ok (P := fun b => b.length = out.length) ?_ rfl hr
  rintro b ⟨c, i⟩ b' hb hf
  dsimp only at hf
  split at hf
  · cases hf
  split at hf
  · cases hf
  rename_i h1 h2
  cases hf
  rw [length_writeAt, hb]
  rw [List.length_take]
  rw [Nat.add_one_mul i] at h1
  omega

theorem length_toYcbcr {y cb cr : List I16} {w h v : Nat} {out r : List UInt8}
    (hr : ycbcrToYcbcr y cb cr w h v out = .ok r) : r.length = out.length := by
  unfold ycbcrToYcbcr at hr
  dsimp only at hr
  split at hr
  · cases hr
  split at hr
  · cases hr
  refine Out.fold_ok (P := fun b => b.length = out.length) ?_ rfl hr
  rintro b ⟨⟨y, cb, cr⟩, i⟩ b' hb hf
  dsimp only at hf
  split at hf
  · cases hf
  split at hf
  · cases hf
  rename_i h1 h2
  cases hf
  rw [length_writeAt, hb]
  rw [List.length_take]
  rw [Nat.add_one_mul i] at h1
  omega

/-- A job that ends gives back a chunk of the same length. -/
theorem length_postProcess {idct : IdctFn} {f : ColorFn} {comps : List Component}
    {inCs outCs : ColorSpace} {w : Nat} {coeff : List (List I16)} {out r : List UInt8}
    (h : postProcess idct f comps inCs outCs w coeff out = .ok r) : r.length = out.length := by
  unfold postProcess at h
  split at h
  · cases h
  obtain ⟨planes, -, h⟩ := Out.bind_ok h
  unfold postProcessInner at h
  split at h
  · cases h
  dsimp only at h
  obtain ⟨cb, -, h⟩ := Out.bind_ok h
  obtain ⟨cr, -, h⟩ := Out.bind_ok h
  split at h
  · cases h
  split at h
  · exact length_toGrayscale h
  · exact length_toGrayscale h
  · exact length_toYcbcr h
  · exact length_colorConvert h
  · exact length_colorConvert h
  · exact length_colorConvert h
  · cases h; rfl

end Zune
