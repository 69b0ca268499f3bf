import Verif.Props.Colour
/-! C59: the chroma values of every pixel, also at the ends of the rows and at the joints of the vectors. -/

namespace Zune

open Spec

/-- Horizontal interpolation of a line of `n` values `w`, at output position `p`: three parts of the value
that covers the position and one part of its other neighbour. The first and the last one are copied, and the
two parts of the last but one are exchanged. -/
def Spec.lineValue (n : Nat) (w : Nat → Int) (p : Nat) : Int :=
  if p = 0 then w 0 else if p = 2 * n - 1 then w (n - 1)
  else if p = 2 * n - 2 then mix (w (n - 2)) (w (n - 1))
  else mix (w (p / 2)) (w (if p % 2 = 0 then p / 2 - 1 else p / 2 + 1))

/-- The same with vector instructions: three positions near the end have other values. -/
def Spec.lineValueSse (n : Nat) (w : Nat → Int) (p : Nat) : Int :=
  if p = 2 * n - 5 then w (n - 3) else if p = 2 * n - 4 then w (n - 2)
  else if p = 2 * n - 3 then mix (w (n - 2)) (w (n - 3)) else lineValue n w p

theorem horizontalAt_value {l : List I16} {w : Nat → Int} {n : Nat} (hn : l.length = n) (h3 : 3 ≤ n)
    (hw : ∀ k, k < n → (at0 l k).toInt = w k)
    (hs : ∀ k, k < n → -8192 ≤ w k ∧ w k ≤ 8191) {p : Nat} (hp : p < 2 * n) :
    (horizontalAt l p).toInt = lineValue n w p := by
  subst hn
  have htri : ∀ a b, a < l.length → b < l.length → (tri (at0 l a) (at0 l b)).toInt = mix (w a) (w b) := by
    intro a b ha hb
    rw [tri_toInt (by rw [hw a ha]; exact hs a ha) (by rw [hw b hb]; exact hs b hb), hw a ha, hw b hb]
  unfold horizontalAt lineValue
  by_cases h0 : p = 0
  · rw [if_pos h0, if_pos h0, hw _ (by omega)]
  · rw [if_neg h0, if_neg h0]
    by_cases h1 : p = 2 * l.length - 1
    · rw [if_pos h1, if_pos h1, hw _ (by omega)]
    · rw [if_neg h1, if_neg h1]
      by_cases h2 : p = 2 * l.length - 2
      · rw [if_pos h2, if_pos h2, htri _ _ (by omega) (by omega)]
      · rw [if_neg h2, if_neg h2]
        by_cases hpar : p % 2 = 0
        · rw [if_pos hpar, if_pos hpar, htri _ _ (by omega) (by omega)]
        · rw [if_neg hpar, if_neg hpar, htri _ _ (by omega) (by omega)]

theorem sseAt_value {l : List I16} {w : Nat → Int} {n : Nat} (hn : l.length = n) (h3 : 3 ≤ n)
    (hw : ∀ k, k < n → (at0 l k).toInt = w k)
    (hs : ∀ k, k < n → -8192 ≤ w k ∧ w k ≤ 8191) {p : Nat} (hp : p < 2 * n) :
    (sseAt l p).toInt = lineValueSse n w p := by
  have hh := horizontalAt_value hn h3 hw hs hp
  subst hn
  have htri : ∀ a b, a < l.length → b < l.length → (tri (at0 l a) (at0 l b)).toInt = mix (w a) (w b) := by
    intro a b ha hb
    rw [tri_toInt (by rw [hw a ha]; exact hs a ha) (by rw [hw b hb]; exact hs b hb), hw a ha, hw b hb]
  have hself : ∀ a : Int, mix a a = a := by
    intro a
    unfold mix
    omega
  unfold sseAt lineValueSse
  dsimp only
  by_cases h0 : p = 2 * l.length - 5
  · rw [if_pos h0, if_pos h0, htri _ _ (by omega) (by omega), hself]
  · rw [if_neg h0, if_neg h0]
    by_cases h1 : p = 2 * l.length - 4
    · rw [if_pos h1, if_pos h1, htri _ _ (by omega) (by omega), hself]
    · rw [if_neg h1, if_neg h1]
      by_cases h2 : p = 2 * l.length - 3
      · rw [if_pos h2, if_pos h2, htri _ _ (by omega) (by omega)]
      · rw [if_neg h2, if_neg h2, hh]

theorem partner_lt {k : Nat} (hk : k < 8) : partner k < 8 := by
  rw [← farRow_eq hk]
  exact farRow_lt

/-- `avxValue` only depends on the samples. -/
theorem avxValue_congr {v v' : Nat → Nat → Int} {q j e x : Nat} (hq : 3 ≤ q) (hj : j < 8) (he : e < 2)
    (hx : x < 32 * q) (h : ∀ k c, k < 8 → c < 16 * q → v k c = v' k c) :
    avxValue v q j e x = avxValue v' q j e x := by
  have hp := partner_lt hj
  unfold avxValue
  dsimp only
  have hz : (if e = 1 ∧ x = 0 then 1 else if 32 * q - 2 ≤ x then x - 2 else x) < 32 * q := by
    split
    · omega
    · split <;> omega
  generalize (if e = 1 ∧ x = 0 then 1 else if 32 * q - 2 ≤ x then x - 2 else x) = z at hz ⊢
  have hw : ∀ c, c < 16 * q → (if e = 0 then mix (v j c) (v (partner j) c) else mix (v (partner j) c) (v j c)) =
      (if e = 0 then mix (v' j c) (v' (partner j) c) else mix (v' (partner j) c) (v' j c)) := by
    intro c hc
    rw [h _ _ hj hc, h _ _ hp hc]
  by_cases hz1 : z < 32 * (q - 1)
  · rw [if_pos hz1, if_pos hz1, hw _ (by omega)]
    refine congrArg (mix _) ?_
    by_cases h0 : z % 32 = 0
    · rw [if_pos h0, if_pos h0]
      split
      · rw [h _ _ hj (by omega), h _ _ hp (by omega)]
      · split
        · rw [h _ _ (by omega) (by omega)]
        · rw [h _ _ (by omega) (by omega), h _ _ (partner_lt (by omega)) (by omega)]
    · rw [if_neg h0, if_neg h0]
      by_cases h31 : z % 32 = 31
      · rw [if_pos h31, if_pos h31]
        split
        · rw [h _ _ hj (by omega), h _ _ hp (by omega)]
        · split
          · rw [h _ _ (by omega) (by omega)]
          · rw [h _ _ hj (by omega)]
            refine congrArg (carry _) ?_
            split
            · rw [h _ _ (by omega) (by omega)]
            · split
              · rfl
              · rw [h _ _ (by omega) (by omega)]
      · rw [if_neg h31, if_neg h31]
        by_cases hpar : z % 2 = 0
        · rw [if_pos hpar, if_pos hpar]
          exact hw _ (by omega)
        · rw [if_neg hpar, if_neg hpar]
          exact hw _ (by omega)
  · rw [if_neg hz1, if_neg hz1]
    have hr : (if e = 0 then j else partner j) < 8 := by
      split
      · exact hj
      · exact hp
    rw [h _ _ hr (by omega), h _ (if z % 2 = 0 then z / 2 - 18 else z / 2 - 16) hr (by split <;> omega)]

section
variable {g : ColourJpeg}

/-- The vector transform computes bytes. -/
theorem value_avx (g : ColourJpeg) (i y x : Nat) :
    0 ≤ g.value .avx2 i y x ∧ g.value .avx2 i y x ≤ 255 := by
  unfold ColourJpeg.value ColourJpeg.sample unitSample
  have h := isSample_avx (coded (g.blocks (y / 8 / (colourShape g.fh g.fv i).1 * mcuCols g.width g.fh +
    x / 8 / (colourShape g.fh g.fv i).2) i (y / 8 % (colourShape g.fh g.fv i).1)
      (x / 8 % (colourShape g.fh g.fv i).2))) (naturalQuant (g.quantOf i))
  rw [show IdctFn.block .avx2 = idctBlockAvx from rfl]
  generalize idctBlockAvx _ _ = rows at h ⊢
  unfold Zune.sample
  cases h1 : rows[y % 8]? with
  | none => rw [Option.bind_none]; decide
  | some r =>
    cases h2 : r[x % 8]? with
    | none => rw [Option.bind_some, h2]; decide
    | some v =>
      rw [Option.bind_some, h2]
      have := h r (List.mem_of_getElem? h1) v (List.mem_of_getElem? h2)
      unfold IsSample at this
      exact this

/-- The chroma samples of 16 rows, as the 2x2 upsampler sees them: 8 rows of twice the length, each of them
two rows one after the other. -/
def Spec.ColourJpeg.double (g : ColourJpeg) (f : IdctFn) (i t k c : Nat) : Int :=
  g.value f i (2 * (8 * t + k) + c / (8 * mcuCols g.width 2)) (c % (8 * mcuCols g.width 2))

/-- The vertical interpolation of 8 rows of `s` samples, row after row. -/
def Spec.vertLine (v : Nat → Nat → Int) (s k : Nat) : Int :=
  let j := k / s / 2
  if k / s % 2 = 0 then mix (v j (k % s)) (v (partner j) (k % s))
  else mix (v (partner j) (k % s)) (v j (k % s))

/-- Component `i` of the image at full resolution, in row `y` and column `x` (also in the columns that the
file has beyond the width of the image).

- Half horizontal resolution: the 16 rows of chroma samples of a strip are interpolated as if they were one
  long line.
- Half vertical resolution: chroma row `k` and its mate give the rows `2k` and `2k + 1`.
- Half resolution in both directions: the strips are upsampled as 8 rows of double length, vertically and
  then horizontally as if the rows were one long line; with AVX2 and at least four MCUs in a row by other
  code, with the values `avxValue`. -/
def Spec.ColourJpeg.plane (g : ColourJpeg) (cpu : Cpu) (un : Bool) (i y x : Nat) : Int :=
  let f := chooseIdct cpu un
  let cols := mcuCols g.width g.fh
  if i = 0 ∨ g.fh = 1 ∧ g.fv = 1 then g.value f i y x
  else if g.fh = 1 then
    if y % 2 = 0 then mix (g.value f i (y / 2) x) (g.value f i (mate (y / 2)) x)
    else mix (g.value f i (mate (y / 2)) x) (g.value f i (y / 2) x)
  else if g.fv = 1 then
    (if un && cpu.sse41 then lineValueSse else lineValue) (128 * cols)
      (fun k => g.value f i (16 * (y / 16) + k / (8 * cols)) (k % (8 * cols))) (y % 16 * (16 * cols) + x)
  else if un && cpu.avx2 && decide (4 ≤ cols) then
    avxValue (g.double f i (y / 32)) cols (y % 32 / 4) (y / 2 % 2) (y % 2 * (16 * cols) + x)
  else lineValue (256 * cols) (vertLine (g.double f i (y / 32)) (16 * cols)) (y % 32 * (16 * cols) + x)

variable {cpu : Cpu}

theorem plane_line {un : Bool} {y x i X : Nat} {f : IdctFn} {p q : List I16} {r : SubSampRatios} {u : UpSampler}
    (hX : 0 < X)
    (hx : x < 16 * X) (hs : Sampling cpu un 2 1 r u) (hlen : p.length = 8 * 2 * (8 * X))
    (hrun : u.run p (8 * (2 * 1) * (8 * (2 * X))) = .ok q)
    (hrow : ∀ k c, k < 8 * 2 → c < 8 * X → at0 p (k * (8 * X) + c) =
      g.sample f i (y / (8 * (2 * 1)) * (8 * 2) + k) c) :
    (at0 q (y % (8 * (2 * 1)) * (8 * (2 * X)) + x)).toInt =
      (if un && cpu.sse41 then lineValueSse else lineValue) (128 * X)
        (fun k => g.value f i (16 * (y / 16) + k / (8 * X)) (k % (8 * X))) (y % 16 * (16 * X) + x) := by
  have hlt : y % 16 * (16 * X) + 16 * X ≤ 16 * (16 * X) := by
    calc _ = (y % 16 + 1) * (16 * X) := by ring
      _ ≤ _ := Nat.mul_le_mul_right _ (by omega)
  have hn : 8 * (2 * 1) * (8 * (2 * X)) = 2 * p.length := by rw [hlen]; ring
  rw [hn] at hrun
  have hidx : y % (8 * (2 * 1)) * (8 * (2 * X)) + x = y % 16 * (16 * X) + x := by
    rw [show 8 * (2 * X) = 16 * X by ring]
  have hw' : ∀ k, k < 128 * X → (at0 p k).toInt =
      g.value f i (16 * (y / 16) + k / (8 * X)) (k % (8 * X)) := by
    intro k hk
    have hd : k / (8 * X) < 16 := (Nat.div_lt_iff_lt_mul (by omega)).2 (by omega)
    have := hrow (k / (8 * X)) (k % (8 * X)) (by omega) (Nat.mod_lt _ (by omega))
    rw [Nat.mul_comm (k / (8 * X)), Nat.div_add_mod] at this
    rw [this]
    unfold ColourJpeg.value
    rw [show y / (8 * (2 * 1)) * (8 * 2) + k / (8 * X) = 16 * (y / 16) + k / (8 * X) by omega]
  have hsm : ∀ k, k < 128 * X → -8192 ≤ g.value f i (16 * (y / 16) + k / (8 * X)) (k % (8 * X)) ∧
      g.value f i (16 * (y / 16) + k / (8 * X)) (k % (8 * X)) ≤ 8191 := fun k _ => value_small g f i _ _
  rw [hidx]
  rcases hs with ⟨-, -, -, rfl⟩ | ⟨a, b, -⟩ | ⟨a, b, -⟩
  · unfold chooseHorizontal at hrun
    split at hrun
    next hsse =>
      obtain ⟨v, hv1, hv2, hv3⟩ := sse_get (input := p) (by omega) (by omega)
      have : Out.ok v = Out.ok q := hv1.symm.trans hrun
      cases this
      rw [at0_of_get (hv3 _ (by omega)), sseAt_value (by omega) (by omega) hw' hsm (by omega)]
      exact congrFun (congrFun (congrFun (if_pos hsse).symm _) _) _
    next hsse =>
      obtain ⟨v, hv1, hv2, hv3⟩ := horizontal_get (input := p) (by omega)
      have : Out.ok v = Out.ok q := hv1.symm.trans hrun
      cases this
      rw [at0_of_get (hv3 _ (by omega)), horizontalAt_value (by omega) (by omega) hw' hsm (by omega)]
      exact congrFun (congrFun (congrFun (if_neg hsse).symm _) _) _
  · omega
  · omega

theorem plane_grid {un : Bool} {y x i X : Nat} {f : IdctFn} {p q : List I16} {r : SubSampRatios} {u : UpSampler}
    (hf : f = chooseIdct cpu un) (hX : 0 < X) (hXe : X = mcuCols g.width 2)
    (hx : x < 16 * X) (hs : Sampling cpu un 2 2 r u) (hlen : p.length = 8 * 2 * (8 * X))
    (hrun : u.run p (8 * (2 * 2) * (8 * (2 * X))) = .ok q)
    (hrow : ∀ k c, k < 8 * 2 → c < 8 * X → at0 p (k * (8 * X) + c) =
      g.sample f i (y / (8 * (2 * 2)) * (8 * 2) + k) c) :
    (at0 q (y % (8 * (2 * 2)) * (8 * (2 * X)) + x)).toInt =
      if un && cpu.avx2 && decide (4 ≤ X) then
        avxValue (g.double f i (y / 32)) X (y % 32 / 4) (y / 2 % 2) (y % 2 * (16 * X) + x)
      else lineValue (256 * X) (vertLine (g.double f i (y / 32)) (16 * X)) (y % 32 * (16 * X) + x) := by
  have hn : 8 * (2 * 2) * (8 * (2 * X)) = 4 * p.length := by rw [hlen]; ring
  rw [hn] at hrun
  have hlt : y % 32 * (16 * X) + 16 * X ≤ 32 * (16 * X) := by
    calc _ = (y % 32 + 1) * (16 * X) := by ring
      _ ≤ _ := Nat.mul_le_mul_right _ (by omega)
  have hidx : y % (8 * (2 * 2)) * (8 * (2 * X)) + x = y % 32 * (16 * X) + x := by
    rw [show 8 * (2 * X) = 16 * X by ring]
  -- the rows of double length
  have hdbl : ∀ k c, k < 8 → c < 16 * X → (at0 p (k * (16 * X) + c)).toInt = g.double f i (y / 32) k c := by
    intro k c hk hc
    have hd : c / (8 * X) < 2 := (Nat.div_lt_iff_lt_mul (by omega)).2 (by omega)
    have := hrow (2 * k + c / (8 * X)) (c % (8 * X)) (by omega) (Nat.mod_lt _ (by omega))
    have hpos : (2 * k + c / (8 * X)) * (8 * X) + c % (8 * X) = k * (16 * X) + c := by
      rw [Nat.add_mul, Nat.add_assoc, Nat.mul_comm (c / (8 * X)), Nat.div_add_mod]
      ring
    rw [hpos] at this
    rw [this]
    unfold ColourJpeg.double ColourJpeg.value
    rw [← hXe, show y / (8 * (2 * 2)) * (8 * 2) + (2 * k + c / (8 * X)) =
      2 * (8 * (y / 32) + k) + c / (8 * X) by omega]
  have hvs : ∀ t k c, -8192 ≤ g.double f i t k c ∧ g.double f i t k c ≤ 8191 :=
    fun t k c => value_small g f i _ _
  have hscal : ∀ q, upsampleHv p (4 * p.length) = .ok q →
      (at0 q (y % 32 * (16 * X) + x)).toInt = lineValue (256 * X)
        (vertLine (g.double f i (y / 32)) (16 * X)) (y % 32 * (16 * X) + x) := by
    intro q hq
    obtain ⟨v, ev, hl, hg⟩ := vertical_get (input := p) (s := 16 * X) (by omega) (by omega)
    obtain ⟨out', e2', hl2, hg2⟩ := horizontal_get (input := v) (by omega)
    have hq' : upsampleHv p (4 * p.length) = .ok out' := by
      unfold upsampleHv
      rw [Nat.mul_comm p.length 2, ev]
      show upsampleHorizontal v (4 * p.length) = _
      rw [← e2']
      congr 1
      omega
    have : Out.ok q = Out.ok out' := hq.symm.trans hq'
    cases this
    rw [at0_of_get (hg2 _ (by omega))]
    refine horizontalAt_value (by omega) (by omega) ?_ ?_ (by omega)
    · intro k hk
      have hd : k / (16 * X) < 16 := (Nat.div_lt_iff_lt_mul (by omega)).2 (by omega)
      have hm : k % (16 * X) < 16 * X := Nat.mod_lt _ (by omega)
      have hget := hg (k / (16 * X) / 2) (k / (16 * X) % 2) (k % (16 * X)) (by omega) (by omega) hm
      rw [show 2 * (k / (16 * X) / 2) + k / (16 * X) % 2 = k / (16 * X) by omega,
        Nat.mul_comm (k / (16 * X)), Nat.div_add_mod] at hget
      rw [at0_of_get hget]
      unfold verticalAt vertLine
      dsimp only
      have hj : k / (16 * X) / 2 < 8 := by omega
      rw [farRow_eq hj]
      have hpj : partner (k / (16 * X) / 2) < 8 := by
        rw [← farRow_eq hj]
        exact farRow_lt
      split
      · rw [tri_toInt (by rw [hdbl _ _ hj hm]; exact hvs _ _ _) (by rw [hdbl _ _ hpj hm]; exact hvs _ _ _),
          hdbl _ _ hj hm, hdbl _ _ hpj hm]
      · rw [tri_toInt (by rw [hdbl _ _ hpj hm]; exact hvs _ _ _) (by rw [hdbl _ _ hj hm]; exact hvs _ _ _),
          hdbl _ _ hj hm, hdbl _ _ hpj hm]
    · intro k _
      unfold vertLine
      dsimp only
      have a1 := hvs (y / 32) (k / (16 * X) / 2) (k % (16 * X))
      have a2 := hvs (y / 32) (partner (k / (16 * X) / 2)) (k % (16 * X))
      unfold mix
      split <;> omega
  rw [hidx]
  rcases hs with ⟨a, b, -⟩ | ⟨a, b, -⟩ | ⟨-, -, -, rfl⟩
  · omega
  · omega
  unfold chooseHv at hrun
  split at hrun
  next hav =>
    by_cases h4 : X < 4
    · rw [if_neg (by simp; omega)]
      refine hscal q ?_
      rw [← hrun]
      exact ((c54_hv_partial (input := p) (q := X) (by omega)).1 h4).symm
    · have hav' : (un && cpu.avx2) = true := hav
      rw [if_pos (by rw [hav', decide_eq_true (by omega : 4 ≤ X)]; rfl)]
      -- the vector code works on the samples of the vector transform, which are bytes
      have hf' : f = .avx2 := by
        rw [hf]
        unfold chooseIdct
        rw [if_pos hav']
      have hbyte : Within (-2048) 2047 p := by
        intro s hs
        obtain ⟨k, hk, rfl⟩ := List.mem_iff_getElem.1 hs
        have hd : k / (16 * X) < 8 := (Nat.div_lt_iff_lt_mul (by omega)).2 (by omega)
        have := hdbl (k / (16 * X)) (k % (16 * X)) hd (Nat.mod_lt _ (by omega))
        rw [Nat.mul_comm (k / (16 * X)), Nat.div_add_mod] at this
        have hk' : at0 p k = p[k] := at0_of_get (List.getElem?_eq_getElem hk)
        rw [hk'] at this
        rw [this]
        unfold ColourJpeg.double
        rw [hf']
        have := value_avx g i (2 * (8 * (y / 32) + k / (16 * X)) + k % (16 * X) / (8 * mcuCols g.width 2))
          (k % (16 * X) % (8 * mcuCols g.width 2))
        omega
      obtain ⟨v, hv1, hv2, hv3⟩ := c54_avx_partial (input := p) (q := X) (by omega) (by omega) hbyte
      have : Out.ok v = Out.ok q := hv1.symm.trans hrun
      cases this
      have hpar : y % 2 * (16 * X) = 0 ∨ y % 2 * (16 * X) = 16 * X := by
        have : y % 2 = 0 ∨ y % 2 = 1 := by omega
        rcases this with a | a <;> rw [a] <;> omega
      have := hv3 (y % 32 / 4) (y / 2 % 2) (y % 2 * (16 * X) + x) (by omega) (by omega) (by omega)
      rw [show (2 * (y % 32 / 4) + y / 2 % 2) * (32 * X) + (y % 2 * (16 * X) + x) =
        y % 32 * (16 * X) + x by
          obtain ⟨m, hm⟩ : ∃ m, 2 * (y % 32 / 4) + y / 2 % 2 = m := ⟨_, rfl⟩
          obtain ⟨e, he⟩ : ∃ e, y % 2 = e := ⟨_, rfl⟩
          rw [hm, he, show y % 32 = 2 * m + e by omega]
          ring] at this
      rw [show (at0 q (y % 32 * (16 * X) + x)).toInt = val q (y % 32 * (16 * X) + x) from rfl, this]
      refine avxValue_congr (by omega) (by omega) (by omega) (by omega) fun k c hk hc => ?_
      rw [← hdbl k c hk hc]
      rfl
  next hav =>
    have hav' : (un && cpu.avx2) = false := by
      cases hc' : (un && cpu.avx2) with
      | true => exact absurd hc' hav
      | false => rfl
    rw [hav', Bool.false_and, if_neg (by decide)]
    exact hscal q hrun


theorem plane_vert {y x i X : Nat} {f : IdctFn} {p q : List I16}
    (hx : x < 8 * X) (hlen : p.length = 8 * (8 * X))
    (hrun : UpSampler.vertical.run p (8 * (1 * 2) * (8 * (1 * X))) = .ok q)
    (hrow : ∀ k c, k < 8 * 1 → c < 8 * X → at0 p (k * (8 * X) + c) =
      g.sample f i (y / (8 * (1 * 2)) * (8 * 1) + k) c) :
    (at0 q (y % (8 * (1 * 2)) * (8 * (1 * X)) + x)).toInt =
      if y % 2 = 0 then mix (g.value f i (y / 2) x) (g.value f i (mate (y / 2)) x)
      else mix (g.value f i (mate (y / 2)) x) (g.value f i (y / 2) x) := by
  obtain ⟨v, hv1, hv2, hv3⟩ := vertical_get (input := p) (s := 8 * X) (by omega) hlen
  have hn : 8 * (1 * 2) * (8 * (1 * X)) = 2 * p.length := by rw [hlen]; ring
  rw [hn] at hrun
  have : Out.ok v = Out.ok q := hv1.symm.trans hrun
  cases this
  have hget := at0_of_get (hv3 (y % 16 / 2) (y % 2) x (by omega) (by omega) hx)
  rw [show y % (8 * (1 * 2)) * (8 * (1 * X)) + x = (2 * (y % 16 / 2) + y % 2) * (8 * X) + x by
    rw [show 2 * (y % 16 / 2) + y % 2 = y % (8 * (1 * 2)) by omega, Nat.one_mul X], hget]
  have hr : ∀ k, k < 8 → at0 p (k * (8 * X) + x) = g.sample f i (8 * (y / 16) + k) x := by
    intro k hk
    rw [hrow k x (by omega) hx]
    congr 1
    omega
  unfold verticalAt
  rw [hr _ (by omega), hr _ farRow_lt, mate_eq (by omega), show 8 * (y / 16) + y % 16 / 2 = y / 2 by omega]
  split
  · rw [tri_value]
  · rw [tri_value]

theorem plane_chroma (V : g.Shape) {un : Bool} {y x i : Nat} {p q : List I16} {r : SubSampRatios}
    {u : UpSampler} (hi : i ≠ 0)
    (hx : x < 8 * (g.fh * mcuCols g.width g.fh)) (hs : Sampling cpu un g.fh g.fv r u)
    (hlen : p.length = 8 * g.fh * (8 * mcuCols g.width g.fh))
    (hrun : u.run p (8 * (g.fh * g.fv) * (8 * (g.fh * mcuCols g.width g.fh))) = .ok q)
    (hrow : ∀ k c, k < 8 * g.fh → c < 8 * mcuCols g.width g.fh →
      at0 p (k * (8 * mcuCols g.width g.fh) + c) =
        g.sample (chooseIdct cpu un) i (y / (8 * (g.fh * g.fv)) * (8 * g.fh) + k) c) :
    (at0 q (y % (8 * (g.fh * g.fv)) * (8 * (g.fh * mcuCols g.width g.fh)) + x)).toInt =
      g.plane cpu un i y x := by
  have hX := V.cols.1
  unfold ColourJpeg.plane
  dsimp only
  have hff : ¬ (i = 0 ∨ g.fh = 1 ∧ g.fv = 1) := by
    rintro (a | ⟨a, b⟩)
    · exact hi a
    · rcases hs with ⟨c, d, -⟩ | ⟨c, d, -⟩ | ⟨c, d, -⟩ <;> omega
  rw [if_neg hff]
  have hcase : g.fh = 2 ∧ g.fv = 1 ∨ g.fh = 1 ∧ g.fv = 2 ∧ u = .vertical ∨ g.fh = 2 ∧ g.fv = 2 := by
    rcases hs with ⟨c, d, -⟩ | ⟨c, d, -, e⟩ | ⟨c, d, -⟩
    · exact Or.inl ⟨c, d⟩
    · exact Or.inr (Or.inl ⟨c, d, e⟩)
    · exact Or.inr (Or.inr ⟨c, d⟩)
  rcases hcase with ⟨c, d⟩ | ⟨c, d, e⟩ | ⟨c, d⟩
  · rw [c, d] at hs hrun hrow ⊢
    rw [c] at hlen hX hx
    rw [if_neg (by decide), if_pos rfl]
    exact plane_line hX (by omega) hs hlen hrun hrow
  · rw [c, d, e] at hrun
    rw [c, d] at hrow ⊢
    rw [c] at hlen hx
    rw [if_pos rfl]
    exact plane_vert (by omega) (by omega) hrun hrow
  · rw [c, d] at hs hrun hrow ⊢
    rw [c] at hlen hX hx
    rw [if_neg (by decide), if_neg (by decide)]
    exact plane_grid rfl hX rfl (by omega) hs hlen hrun hrow

/-- The values of the planes from which the output is made. -/
theorem plane_full (V : g.Shape) {un : Bool} {full : Nat → Nat → List I16}
    (hf : FullPlanes cpu un g.fh g.fv (8 * (g.fh * g.fv) * (8 * (g.fh * mcuCols g.width g.fh)))
      (stripPlane (chooseIdct cpu un) (fun i => naturalQuant (g.quantOf i)) g.width g.fh g.fv g.blocks) full)
    {i y x : Nat} (hi : i < 3) (hx : x < 8 * (g.fh * mcuCols g.width g.fh)) :
    (at0 (full (y / (8 * (g.fh * g.fv))) i)
      (y % (8 * (g.fh * g.fv)) * (8 * (g.fh * mcuCols g.width g.fh)) + x)).toInt = g.plane cpu un i y x := by
  obtain ⟨f0, fi⟩ := hf (y / (8 * (g.fh * g.fv)))
  have hR : 0 < 8 * (g.fh * g.fv) := by
    have := Nat.mul_pos V.fh.1 V.fv.1
    omega
  obtain ⟨a1, a2, a3, a4⟩ := row_index (y := y) hR hx
  by_cases h0 : i = 0
  · subst h0
    rw [f0, stripPlane_at a1]
    unfold ColourJpeg.plane
    dsimp only
    rw [if_pos (Or.inl rfl)]
    unfold ColourJpeg.value ColourJpeg.sample
    show (unitSample _ _ _ _ _ _ (y / (8 * (g.fh * g.fv)) * (8 * (g.fh * g.fv)) + _ / (8 * (g.fh * _)))
      (_ % (8 * (g.fh * _)))).toInt = _
    rw [a4, a3]
  · have hch : ∀ k c, k < 8 * g.fh → c < 8 * mcuCols g.width g.fh →
        at0 (stripPlane (chooseIdct cpu un) (fun i => naturalQuant (g.quantOf i)) g.width g.fh g.fv g.blocks
          (y / (8 * (g.fh * g.fv))) i) (k * (8 * mcuCols g.width g.fh) + c) =
        g.sample (chooseIdct cpu un) i (y / (8 * (g.fh * g.fv)) * (8 * g.fh) + k) c := by
      intro k c hk hc
      have hlt : k * (8 * mcuCols g.width g.fh) + c < 8 * g.fh * (8 * mcuCols g.width g.fh) := by
        calc _ < k * (8 * mcuCols g.width g.fh) + 8 * mcuCols g.width g.fh := by omega
          _ = (k + 1) * (8 * mcuCols g.width g.fh) := by ring
          _ ≤ _ := Nat.mul_le_mul_right _ hk
      rw [chroma_at (by omega) hlt, Nat.mul_comm k, Nat.mul_add_div (by omega), Nat.div_eq_of_lt hc,
        Nat.mul_add_mod, Nat.mod_eq_of_lt hc, Nat.add_zero]
    rcases (fi i (by omega)).2 with ⟨b1, b2, e⟩ | ⟨r, u, hs, hrun⟩
    · rw [e]
      rw [b1, b2] at hch ⊢
      rw [b1] at hx
      unfold ColourJpeg.plane
      dsimp only
      rw [if_pos (Or.inr ⟨b1, b2⟩), Nat.one_mul (mcuCols g.width 1)]
      rw [hch _ _ (Nat.mod_lt _ (by decide)) (by omega)]
      unfold ColourJpeg.value
      rw [show y / (8 * (1 * 1)) * (8 * 1) + y % (8 * (1 * 1)) = y by omega]
    · refine plane_chroma V h0 hx hs ?_ hrun hch
      rw [stripPlane_length]
      unfold stripRows colourShape
      rw [if_neg h0]
      ring

/-- **C55, C59** (what is true, all bytes of the YCbCr output). Every byte of a decoded row is the low byte
of the value of its plane; the other rows are zero. Missing: short restart intervals (see
`c22_colour_partial`), several scans. -/
theorem c55_planes_partial (V : g.Valid) (cpu : Cpu) (o : Options)
    (hw : g.width ≤ o.getMaxWidth) (hh : g.height ≤ o.getMaxHeight) (hout : o.getOutColorspace = .ycbcr) :
    ∃ out, ((Decoder.newWithOptions cpu o).decodeBuffer g.bytes).1 = .ok out ∧
      out.length = g.height * (g.width * 3) ∧
      ∀ y x i, y < g.height → x < g.width → i < 3 → ∃ b, out[3 * (y * g.width + x) + i]? = some b ∧
        (b.toNat : Int) = if g.Row y then g.plane cpu o.getUseUnsafe i y x % 256 else 0 := by
  obtain ⟨out, full, h1, h2, h3, h4⟩ := colour_file V cpu o hw hh hout
  refine ⟨out, h1, h2, fun y x i hy hx hi => ⟨_, h4 y x i hy hx hi, ?_⟩⟩
  have hc := (cols_pos V).2
  by_cases hr : g.Row y
  · rw [if_pos hr, if_pos hr, lowByte_toNat, plane_full V.shape h3 hi (by omega)]
    rfl
  · rw [if_neg hr, if_neg hr]
    rfl

/-- **C59, half horizontal resolution, every pixel.** The rows of a strip, 16 rows of chroma samples, are
interpolated as if they were one long line. -/
theorem c59_line_partial (V : g.Valid) (e1 : g.fh = 2) (e2 : g.fv = 1) (cpu : Cpu) (o : Options)
    (hw : g.width ≤ o.getMaxWidth) (hh : g.height ≤ o.getMaxHeight) (hout : o.getOutColorspace = .ycbcr) :
    ∃ out, ((Decoder.newWithOptions cpu o).decodeBuffer g.bytes).1 = .ok out ∧
      ∀ y x i f cols, f = chooseIdct cpu o.getUseUnsafe → y < g.height → x < g.width → i = 1 ∨ i = 2 →
        g.Row y → cols = mcuCols g.width 2 →
        ∃ b, out[3 * (y * g.width + x) + i]? = some b ∧
          (b.toNat : Int) = (if o.getUseUnsafe && cpu.sse41 then lineValueSse else lineValue) (128 * cols)
            (fun k => g.value f i (16 * (y / 16) + k / (8 * cols)) (k % (8 * cols)))
            (y % 16 * (16 * cols) + x) % 256 := by
  obtain ⟨out, h1, -, h2⟩ := c55_planes_partial V cpu o hw hh hout
  refine ⟨out, h1, fun y x i f X hf hy hx hi hry hXe => ?_⟩
  obtain ⟨b, hb, hv⟩ := h2 y x i hy hx (by omega)
  refine ⟨b, hb, ?_⟩
  rw [hv, if_pos hry, hf]
  unfold ColourJpeg.plane
  dsimp only
  rw [if_neg (by omega), if_neg (by omega), if_pos e2, e1, ← hXe]

/-- **C59, half resolution in both directions, every pixel.** The strips are upsampled as 8 rows of double
length, vertically and then horizontally as if the rows were one long line; with AVX2 and at least four MCUs
in a row by other code, with the values `avxValue`. -/
theorem c59_grid_partial (V : g.Valid) (e1 : g.fh = 2) (e2 : g.fv = 2) (cpu : Cpu) (o : Options)
    (hw : g.width ≤ o.getMaxWidth) (hh : g.height ≤ o.getMaxHeight) (hout : o.getOutColorspace = .ycbcr) :
    ∃ out, ((Decoder.newWithOptions cpu o).decodeBuffer g.bytes).1 = .ok out ∧
      ∀ y x i f cols, f = chooseIdct cpu o.getUseUnsafe → y < g.height → x < g.width → i = 1 ∨ i = 2 →
        g.Row y → cols = mcuCols g.width 2 →
        ∃ b, out[3 * (y * g.width + x) + i]? = some b ∧
          (b.toNat : Int) = (if o.getUseUnsafe && cpu.avx2 && decide (4 ≤ cols) then
              avxValue (g.double f i (y / 32)) cols (y % 32 / 4) (y / 2 % 2) (y % 2 * (16 * cols) + x)
            else lineValue (256 * cols) (vertLine (g.double f i (y / 32)) (16 * cols))
              (y % 32 * (16 * cols) + x)) % 256 := by
  obtain ⟨out, h1, -, h2⟩ := c55_planes_partial V cpu o hw hh hout
  refine ⟨out, h1, fun y x i f X hf hy hx hi hry hXe => ?_⟩
  obtain ⟨b, hb, hv⟩ := h2 y x i hy hx (by omega)
  refine ⟨b, hb, ?_⟩
  rw [hv, if_pos hry, hf]
  unfold ColourJpeg.plane
  dsimp only
  rw [if_neg (by omega), if_neg (by omega), if_neg (by omega), e1, ← hXe]

/-- An image whose chroma samples are all the same, 159. -/
def flatChroma : ColourJpeg := sampleColour 2 2 64 32 fun _ _ _ _ => 1 :: List.replicate 63 0

theorem flatChroma_valid : flatChroma.Valid :=
  sampleColour_valid (by decide) (by decide) (by decide) (by decide) (by decide) fun _ _ _ _ => by
    simp [goodBlocks]

theorem flatChroma_value (f : IdctFn) {i : Nat} (hi : i ≠ 0) (y x : Nat) : flatChroma.value f i y x = 159 := by
  have hs : flatChroma.quantOf i = List.replicate 64 255 := if_neg hi
  unfold ColourJpeg.value ColourJpeg.sample
  rw [hs]
  have key : ∀ f ∈ [IdctFn.scalar, .avx2], ∀ a < 8, ∀ b < 8,
      (((f.block (coded (1 :: List.replicate 63 0)) (naturalQuant (List.replicate 64 255)))[a]?.bind
        (·[b]?)).getD 0).toInt = 159 := by decide +kernel
  exact key f (idctFn_mem f) (y % 8) (by omega) (x % 8) (by omega)

/-- **C59 is false with AVX2**: in an image with half resolution in both directions whose chroma samples are
all 159, the pixel in column 32 has the chroma value 179. -/
theorem c59_false_flat : flatChroma.Valid ∧ (∀ f i, i ≠ 0 → ∀ y x, flatChroma.value f i y x = 159) ∧
    ∀ cpu o, cpu.avx2 = true → Options.getUseUnsafe o = true → 64 ≤ o.getMaxWidth → 32 ≤ o.getMaxHeight →
    o.getOutColorspace = .ycbcr →
    ∃ out b, ((Decoder.newWithOptions cpu o).decodeBuffer flatChroma.bytes).1 = .ok out ∧
      out[3 * (0 * flatChroma.width + 32) + 1]? = some b ∧ b = 179 ∧
      ¬ flatChroma.InPlace (chooseIdct cpu o.getUseUnsafe) 1 0 32 b := by
  refine ⟨flatChroma_valid, fun f i hi => flatChroma_value f hi, fun cpu o ha hu hw hh hout => ?_⟩
  obtain ⟨out, h1, h2⟩ := c59_grid_partial flatChroma_valid rfl rfl cpu o hw hh hout
  obtain ⟨b, hb1, hb2⟩ := h2 0 32 1 _ 4 rfl (by decide) (by decide) (Or.inl rfl) (by decide) (by decide)
  rw [if_pos (by rw [ha, hu]; rfl)] at hb2
  unfold avxValue ColourJpeg.double at hb2
  simp only [flatChroma_value _ (by decide : 1 ≠ 0)] at hb2
  have e : (b.toNat : Int) = 179 := hb2.trans (by decide)
  refine ⟨out, b, h1, hb1, UInt8.toNat_inj.1 (by show b.toNat = 179; omega), ?_⟩
  rintro ⟨y1, x1, y2, x2, -, -, -, -, -, hle⟩
  rw [flatChroma_value _ (by decide), e] at hle
  exact absurd hle (by decide)

/-- The hypotheses of `c59_line_partial` and of `c59_grid_partial` hold for images of 100 x 24 pixels. -/
example (fv : Nat) (h4 : 0 < fv ∧ fv ≤ 2) :
    (sampleColour 2 fv 100 24 fun k i _ _ => goodBlocks.getD ((k + i) % 6) []).Valid :=
  sampleColour_valid (by decide) (by decide) (by decide) h4 (by omega) fun k i _ _ => by
    have hl : (k + i) % 6 < goodBlocks.length := by show _ < 6; omega
    rw [List.getD_eq_getElem?_getD, List.getElem?_eq_getElem hl]
    exact List.getElem_mem hl

end

end Zune
