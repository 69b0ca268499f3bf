import Verif.Lemmas.ColourScan
/-! Scans with three components: from the coefficients of a strip to its planes. -/

namespace Zune
open Spec

/-- The sample in row `y` and column `x` of a component with `V` rows and `U` columns of blocks in each
MCU, when there are `cols` MCUs in a row; `m k a b` are the coefficients (in zig-zag order) of the block
in row `a` and column `b` of MCU `k`. -/
def Spec.unitSample (f : IdctFn) (qt : List Nat) (cols V U : Nat) (m : Nat → Nat → Nat → List Int)
    (y x : Nat) : I16 :=
  (sample (f.block (coded (m (y / 8 / V * cols + x / 8 / U) (y / 8 % V) (x / 8 % U))) qt)
    (y % 8) (x % 8)).getD 0

/-- `rows` rows of a component from row `y0` on. -/
def Spec.unitRows (f : IdctFn) (qt : List Nat) (cols V U : Nat) (m : Nat → Nat → Nat → List Int)
    (y0 rows : Nat) : List I16 :=
  (List.range (rows * (8 * (U * cols)))).map fun p =>
    unitSample f qt cols V U m (y0 + p / (8 * (U * cols))) (p % (8 * (U * cols)))

theorem unitRows_length (f : IdctFn) (qt : List Nat) (cols V U : Nat) (m : Nat → Nat → Nat → List Int)
    (y0 rows : Nat) : (unitRows f qt cols V U m y0 rows).length = rows * (8 * (U * cols)) := by
  simp [unitRows]

theorem unitRows_get {f : IdctFn} {qt : List Nat} {cols V U : Nat} {m : Nat → Nat → Nat → List Int}
    {y0 rows y x : Nat} (hy : y < rows) (hx : x < 8 * (U * cols)) :
    (unitRows f qt cols V U m y0 rows)[y * (8 * (U * cols)) + x]? =
      some (unitSample f qt cols V U m (y0 + y) x) := by
  have hlt : y * (8 * (U * cols)) + x < rows * (8 * (U * cols)) := by
    calc y * (8 * (U * cols)) + x < y * (8 * (U * cols)) + 8 * (U * cols) := by omega
      _ = (y + 1) * (8 * (U * cols)) := by ring
      _ ≤ _ := Nat.mul_le_mul_right _ hy
  unfold unitRows
  rw [List.getElem?_map, List.getElem?_range hlt]
  have h1 : (y * (8 * (U * cols)) + x) / (8 * (U * cols)) = y := by
    rw [Nat.mul_comm, Nat.mul_add_div (by omega), Nat.div_eq_of_lt hx, Nat.add_zero]
  have h2 : (y * (8 * (U * cols)) + x) % (8 * (U * cols)) = x := by
    rw [Nat.mul_comm, Nat.mul_add_mod, Nat.mod_eq_of_lt hx]
  rw [Option.map_some, h1, h2]

section
variable {s : Scan} {w h fh fv : Nat}

/-- Where a block of the strip is. -/
theorem unit_place (G : Geometry s w h fh fv) (hw : w ≤ 65527) {c : Component} (hc : c ∈ s.comps)
    {r k : Nat} (hr : r < fh * c.verticalSample) (hk : k < c.horizontalSample * mcuCols w fh) :
    ∃ u, UnitOf s.bias s.mcuWidth c u ∧
      blockStart s c u.1 u.2.1 u.2.2.1 u.2.2.2 = 64 * (r * (c.horizontalSample * mcuCols w fh) + k) ∧
      u.1 * s.mcuWidth + u.2.1 = r / c.verticalSample * mcuCols w fh + k / c.horizontalSample ∧
      u.2.2.1 = r % c.verticalSample ∧ u.2.2.2 = k % c.horizontalSample := by
  obtain ⟨c0, cs, e, hy, g1, g2, hcs⟩ := G.comps
  obtain ⟨hb, hb0⟩ := strip_mcus G hw
  rw [e] at hc
  generalize hX : mcuCols w fh = X at *
  by_cases h11 : fh = 1 ∧ fv = 1
  · obtain ⟨rfl, rfl⟩ := h11
    have hc1 : c.horizontalSample = 1 ∧ c.verticalSample = 1 := by
      rcases List.mem_cons.1 hc with rfl | hc
      · exact ⟨g1, g2⟩
      · exact (hcs c hc).2
    have b : s.bias = 1 := by
      rcases bias_cases G with ⟨-, -, b⟩ | ⟨a, -, -⟩ | ⟨-, a, -⟩ | ⟨a, -, -⟩ <;> omega
    rw [hc1.2] at hr
    rw [hc1.1] at hk
    obtain rfl : r = 0 := by omega
    rw [b, Nat.one_mul] at hb
    obtain ⟨p1, p2⟩ := hc1
    refine ⟨(0, k, 0, 0), ?_, ?_, ?_, ?_, ?_⟩
    · unfold UnitOf
      rw [p1, p2, b]
      exact ⟨by simp, by simp; omega, by simp, by simp⟩
    · show blockStart s c 0 k 0 0 = _
      rw [plain_place p1]
      omega
    · rw [p1]
      simp
    · rw [p2]
    · rw [p1]
      simp [Nat.mod_one]
  replace hy := hy h11
  replace hcs : ∀ x ∈ cs, x.componentId ≠ .y ∧ x.horizontalSample = 1 ∧ x.verticalSample = 1 :=
    fun x hx => ⟨(hcs x hx).1 h11, (hcs x hx).2⟩
  rcases List.mem_cons.1 hc with rfl | hc
  · have L := luma_places G hy g1 g2
    rw [g2] at hr
    rw [g1] at hk
    unfold UnitOf
    simp only [L, g1, g2]
    generalize hm : s.mcuWidth = M at *
    rcases bias_cases G with ⟨rfl, rfl, b⟩ | ⟨rfl, rfl, b⟩ | ⟨rfl, rfl, b⟩ | ⟨rfl, rfl, b⟩ <;>
      rw [b] at hb ⊢
    · exact ⟨(0, k, 0, 0), ⟨by simp, by simp; omega, by simp, by simp⟩, by
        obtain rfl : r = 0 := by omega
        simp; omega, by
        obtain rfl : r = 0 := by omega
        simp, by simp; omega, by simp; omega⟩
    · have hr' : r * X ≤ X := by
        calc r * X ≤ 1 * X := Nat.mul_le_mul_right _ (by omega)
          _ = X := Nat.one_mul X
      have hMX : M = 2 * X := by omega
      refine ⟨(0, r * X + k / 2, 0, k % 2), ⟨by simp, by simp; omega, by simp, by simp; omega⟩, ?_, ?_,
        by simp; omega, by simp⟩
      · simp
        have : r * (2 * X) = 2 * (r * X) := by ring
        omega
      · simp
    · have hMX : M = X := by omega
      subst hMX
      refine ⟨(0, k, r, 0), ⟨by simp, by simp; omega, by simp; omega, by simp⟩, ?_, ?_,
        by simp; omega, by simp; omega⟩
      · simp
        have : M * 64 * r = 64 * (r * M) := by ring
        omega
      · have : r / 2 = 0 := by omega
        simp [this]
    · have hMX : M = X := by omega
      subst hMX
      refine ⟨(r / 2, k / 2, r % 2, k % 2), ⟨by simp; omega, by simp; omega, by simp; omega,
        by simp; omega⟩, ?_, ?_, by simp, by simp⟩
      · simp
        have hr4 : r < 4 := by omega
        interval_cases r <;> simp <;> omega
      · simp
  · obtain ⟨a1, a2, a3⟩ := hcs c hc
    have L := chroma_places G a1 a2
    rw [a3] at hr
    rw [a2] at hk
    generalize hm : s.mcuWidth = M at *
    rcases bias_cases G with ⟨rfl, rfl, b⟩ | ⟨rfl, rfl, b⟩ | ⟨rfl, rfl, b⟩ | ⟨rfl, rfl, b⟩ <;>
      unfold UnitOf <;> rw [b] at hb ⊢ <;> simp only [a2, a3]
    · obtain rfl : r = 0 := by omega
      exact ⟨(0, k, 0, 0), ⟨by simp, by simp; omega, by simp, by simp⟩, by
        rw [L]; simp; omega, by simp, by simp, by simp; omega⟩
    · have hr' : r * X ≤ X := by
        calc r * X ≤ 1 * X := Nat.mul_le_mul_right _ (by omega)
          _ = X := Nat.one_mul X
      exact ⟨(0, r * X + k, 0, 0), ⟨by simp, by simp; omega, by simp, by simp⟩, by
        rw [L]; simp; omega, by simp, by simp; omega, by simp; omega⟩
    · obtain rfl : r = 0 := by omega
      exact ⟨(0, k, 0, 0), ⟨by simp, by simp; omega, by simp, by simp⟩, by
        rw [L]; simp; omega, by simp, by simp, by simp; omega⟩
    · have hMX : M = X := by omega
      subst hMX
      exact ⟨(r, k, 0, 0), ⟨by simp; omega, by simp; omega, by simp, by simp⟩, by
        rw [L]; simp
        have : M * 64 * r = 64 * (r * M) := by ring
        omega, by simp, by simp; omega, by simp; omega⟩

/-- The plane of a component of a strip from its blocks. -/
theorem plane_of_blocks {f : IdctFn} {comps : List Component} {z : Nat} {c : Component}
    (hz : comps[z]? = some c) {X fh fv t : Nat} (hX0 : 0 < X) (hf : 0 < fh ∧ 0 < fv)
    (hst : c.widthStride = 8 * (c.horizontalSample * X))
    (hfac : (z = 0 ∧ c.verticalSample = fv ∧ c.horizontalSample = fh) ∨
      (z ≠ 0 ∧ c.verticalSample = 1 ∧ c.horizontalSample = 1))
    {temp : List (List I16)} {buf : List I16} (b1 : temp[z]? = some buf)
    (hlen : buf.length = fh * c.verticalSample * (64 * (c.horizontalSample * X)))
    {m : Nat → Nat → Nat → List Int}
    (hblock : ∀ r k, r < fh * c.verticalSample → k < c.horizontalSample * X →
      blockAt buf (r * (c.horizontalSample * X) + k) =
        coded (m ((t * fh + r / c.verticalSample) * X + k / c.horizontalSample)
          (r % c.verticalSample) (k % c.horizontalSample))) :
    idctComponent f comps temp fh fv z =
      .ok (unitRows f c.quantTable X c.verticalSample c.horizontalSample m
        (t * (8 * (fh * c.verticalSample))) (8 * (fh * c.verticalSample))) := by
  have hsh : StripShape buf (fh * c.verticalSample) (c.horizontalSample * X) (fh * fv)
      (if z = 0 then 1 else fv) ∧ 0 < c.verticalSample ∧ 0 < c.horizontalSample := by
    have hff : 0 < fh * fv := Nat.mul_pos hf.1 hf.2
    rcases hfac with ⟨rfl, g2, g1⟩ | ⟨hz0, a3, a2⟩
    · rw [g1, g2] at hlen ⊢
      refine ⟨⟨Nat.mul_pos hf.1 hX0, by omega, hlen, ?_⟩, hf.2, hf.1⟩
      rw [if_pos rfl, Nat.mul_one, hlen, Nat.mul_div_cancel_left _ hff]
    · rw [a2, a3] at hlen ⊢
      refine ⟨⟨by omega, by omega, hlen, ?_⟩, by decide, by decide⟩
      rw [if_neg hz0, hlen, show fh * 1 * (64 * (1 * X)) * fv = fh * fv * (64 * (1 * X)) by ring,
        Nat.mul_div_cancel_left _ hff]
  obtain ⟨hsh, hV0, hU0⟩ := hsh
  obtain ⟨plane, p1, p2, p3, -⟩ := c29_layout f (qt := c.quantTable) hsh
  have hi : idctComponent f comps temp fh fv z = .ok plane := by
    unfold idctComponent
    rw [b1, hz]
    dsimp only
    rw [hst]
    exact p1
  rw [hi]
  congr 1
  generalize hWd : 8 * (c.horizontalSample * X) = W at *
  have hW0 : 0 < W := by
    have := Nat.mul_pos hU0 hX0
    omega
  apply List.ext_getElem?
  intro p
  by_cases hp : p < 8 * (fh * c.verticalSample) * W
  · have hy : p / W < 8 * (fh * c.verticalSample) := Nat.div_lt_of_lt_mul (by rw [Nat.mul_comm]; exact hp)
    have hx : p % W < W := Nat.mod_lt _ hW0
    obtain ⟨row, r1, x, r2, r3⟩ := p3 (p / W / 8) (p % W / 8) (p / W % 8) (p % W % 8) (by omega)
      (by omega) (by omega) (by omega)
    rw [Nat.div_add_mod, Nat.div_add_mod, Nat.div_add_mod'] at r3
    rw [r3]
    have := unitRows_get (f := f) (qt := c.quantTable) (V := c.verticalSample) (m := m)
      (y0 := t * (8 * (fh * c.verticalSample))) hy (by rw [hWd]; exact hx)
    rw [hWd, Nat.div_add_mod'] at this
    rw [this]
    congr 1
    rw [hblock _ _ (by omega) (by omega)] at r1
    unfold unitSample
    have e1 : (t * (8 * (fh * c.verticalSample)) + p / W) / 8 =
        t * (fh * c.verticalSample) + p / W / 8 := by
      rw [show t * (8 * (fh * c.verticalSample)) = 8 * (t * (fh * c.verticalSample)) by ring,
        Nat.mul_add_div (by decide)]
    have e2 : (t * (8 * (fh * c.verticalSample)) + p / W) % 8 = p / W % 8 := by
      rw [show t * (8 * (fh * c.verticalSample)) = 8 * (t * (fh * c.verticalSample)) by ring,
        Nat.mul_add_mod]
    have e3 : (t * (fh * c.verticalSample) + p / W / 8) / c.verticalSample =
        t * fh + p / W / 8 / c.verticalSample := by
      rw [show t * (fh * c.verticalSample) = c.verticalSample * (t * fh) by ring,
        Nat.mul_add_div hV0]
    have e4 : (t * (fh * c.verticalSample) + p / W / 8) % c.verticalSample =
        p / W / 8 % c.verticalSample := by
      rw [show t * (fh * c.verticalSample) = c.verticalSample * (t * fh) by ring, Nat.mul_add_mod]
    rw [e1, e2, e3, e4]
    unfold sample
    rw [r1, Option.bind_some, r2]
    rfl
  · rw [List.getElem?_eq_none (by rw [p2]; omega), List.getElem?_eq_none (by
      rw [unitRows_length, hWd]; omega)]

/-- The plane of a component of a strip. -/
theorem strip_plane (G : Geometry s w h fh fv) (hw : w ≤ 65527) (hw0 : 0 < w) {z : Nat} {c : Component}
    (hz : s.comps[z]? = some c) (hst : c.widthStride = 8 * (c.horizontalSample * mcuCols w fh))
    {cs : List Component} {temp : List (List I16)} {keep N : Nat}
    {m : Nat → Nat → Nat → Nat → List Int} {c' : Component} (hcs : cs[z]? = some c')
    (hV : c'.verticalSample = c.verticalSample) (hU : c'.horizontalSample = c.horizontalSample)
    (hI : c'.componentId = c.componentId) (hkeep : z < keep) {t : Nat}
    (hN : N = t * (s.bias * s.mcuWidth)) (hH : HoldsMcus cs s keep m N temp) :
    idctComponent s.idct s.comps temp fh fv z =
      .ok (unitRows s.idct c.quantTable (mcuCols w fh) c.verticalSample c.horizontalSample
        (fun k => m k z) (t * (8 * (fh * c.verticalSample))) (8 * (fh * c.verticalSample))) := by
  have hmem : c ∈ s.comps := List.mem_of_getElem? hz
  obtain ⟨buf, b1, b2, b3⟩ := hH z c' hcs hkeep
  obtain ⟨hb, hb0⟩ := strip_mcus G hw
  have hX0 : 0 < mcuCols w fh := by
    unfold mcuCols
    rcases bias_cases G with ⟨rfl, rfl, b⟩ | ⟨rfl, rfl, b⟩ | ⟨rfl, rfl, b⟩ | ⟨rfl, rfl, b⟩ <;> omega
  have hbs : ∀ v j vs hs, blockStart s c' v j vs hs = blockStart s c v j vs hs := by
    intro v j vs hs
    unfold blockStart
    rw [hV, hU, hI]
  have hblock : ∀ r k, r < fh * c.verticalSample → k < c.horizontalSample * mcuCols w fh →
      blockAt buf (r * (c.horizontalSample * mcuCols w fh) + k) =
        coded (m (N + (r / c.verticalSample * mcuCols w fh + k / c.horizontalSample)) z
          (r % c.verticalSample) (k % c.horizontalSample)) := by
    intro r k hr hk
    obtain ⟨u, u1, u2, u3, u4, u5⟩ := unit_place G hw hmem hr hk
    have := b3 u (by unfold UnitOf at u1 ⊢; rw [hV, hU]; exact u1) _ (by rw [hbs]; exact u2)
    rw [this, u3, u4, u5]
  generalize hX : mcuCols w fh = X at *
  have hlen : buf.length = fh * c.verticalSample * (64 * (c.horizontalSample * X)) := by
    rw [b2, hV, hU]
    calc 64 * (s.mcuWidth * c.verticalSample * c.horizontalSample * s.bias)
        = 64 * (c.verticalSample * c.horizontalSample) * (s.bias * s.mcuWidth) := by ring
      _ = _ := by rw [hb]; ring
  obtain ⟨c0, cs0, e, hy, g1, g2, hcs0⟩ := G.comps
  have hf : 0 < fh ∧ 0 < fv := by
    rcases bias_cases G with ⟨rfl, rfl, -⟩ | ⟨rfl, rfl, -⟩ | ⟨rfl, rfl, -⟩ | ⟨rfl, rfl, -⟩ <;> omega
  refine plane_of_blocks hz hX0 hf hst ?_ b1 hlen (m := fun k => m k z) fun r k hr hk => ?_
  · rw [e] at hz
    cases z with
    | zero =>
      rw [List.getElem?_cons_zero] at hz
      cases hz
      exact Or.inl ⟨rfl, g2, g1⟩
    | succ z =>
      rw [List.getElem?_cons_succ] at hz
      obtain ⟨-, a2, a3⟩ := hcs0 c (List.mem_of_getElem? hz)
      exact Or.inr ⟨by omega, a3, a2⟩
  · rw [hblock r k hr hk]
    have e5 : N + (r / c.verticalSample * X + k / c.horizontalSample) =
        (t * fh + r / c.verticalSample) * X + k / c.horizontalSample := by
      rw [hN, hb]
      ring
    rw [e5]

end

end Zune
