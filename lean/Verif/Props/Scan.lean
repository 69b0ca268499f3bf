import Verif.Lemmas.Geometry
import Verif.Lemmas.JobLen
import Verif.Props.Decode
import Mathlib.Tactic.IntervalCases
/-!
# Places of the data units, rows that are decoded, room for the strips

C30, C44, C45.
-/

namespace Zune
open M (wp wp_bind wp_mono wp_pure wp_throw wp_idx wp_idx_of wp_okOr wp_ofOut wp_failIf wp_ite_of
  wp_diverge wp_panic wp_unwrap wp_get wp_modify)
open Spec

/-! ### C30 -/

namespace Spec

/-- Every valid unit lies at a multiple of 64 below `64 * n`. -/
def Inside {α : Type} (place : α → Nat) (valid : α → Prop) (n : Nat) : Prop :=
  ∀ u, valid u → ∃ k < n, place u = 64 * k

/-- Different valid units lie at different places. -/
def Apart {α : Type} (place : α → Nat) (valid : α → Prop) : Prop :=
  ∀ u u', valid u → valid u' → place u = place u' → u = u'

/-- Every multiple of 64 below `64 * n` is the place of a valid unit. -/
def Onto {α : Type} (place : α → Nat) (valid : α → Prop) (n : Nat) : Prop :=
  ∀ k < n, ∃ u, valid u ∧ place u = 64 * k

/-- The data units of a component in a strip: MCU row of the strip, MCU column, row and column of
the unit in the MCU. -/
def UnitOf (rows cols : Nat) (c : Component) (u : Nat × Nat × Nat × Nat) : Prop :=
  u.1 < rows ∧ u.2.1 < cols ∧ u.2.2.1 < c.verticalSample ∧ u.2.2.2 < c.horizontalSample

end Spec

section
variable {s : Scan} {w h fh fv : Nat}

/-- The places of the units of the luma component. -/
theorem luma_places (G : Geometry s w h fh fv) {c : Component} (hy : c.componentId = .y)
    (h1 : c.horizontalSample = fh) (h2 : c.verticalSample = fv) (v j vs hs : Nat) :
    blockStart s c v j vs hs = j * 64 * fh + hs * 64 +
      (if fv = 2 then (if fh = 2 then s.mcuWidth * 128 else s.mcuWidth * 64) * vs
        else s.mcuWidth * 64 * fh / 2 * vs) +
      (if fh = 2 ∧ fv = 2 then s.mcuWidth * 256 * v else v * (s.hvWidthStride * fv)) := by
  have e1 := G.stride
  have e2 := G.hvStride
  unfold blockStart
  rw [if_pos hy, if_pos hy, h1, h2]
  rcases G.counts with ⟨rfl, rfl, -, -, b, e⟩ | ⟨rfl, rfl, -, -, b, e⟩ | ⟨rfl, rfl, -, -, b, e⟩ |
    ⟨rfl, rfl, -, -, b, e⟩ <;> simp only [b, e] at e1 e2 ⊢
  · have : s.mcuWidth * 64 * 1 * 1 * 1 / 2 = s.mcuWidth * 64 * 1 / 2 := by norm_num
    rw [this] at e1
    simp [e1]
  · have : s.mcuWidth * 64 * 1 * 2 * 1 / 2 = s.mcuWidth * 64 * 2 / 2 := by norm_num
    rw [this] at e1
    simp [e1]
  · have : s.mcuWidth * 64 * 2 * 1 * 1 / 2 = s.mcuWidth * 64 := by omega
    rw [this] at e1
    simp [e1]
    exact Or.inl (by ring)
  · have : s.mcuWidth * 64 * 2 * 2 * 2 / 2 = s.mcuWidth * 256 := by omega
    rw [this] at e1
    have : s.mcuWidth * 256 / 2 = s.mcuWidth * 128 := by omega
    rw [e1, this] at e2
    simp [e1, e2]
    ring

/-- The places of the units of the other components. -/
theorem chroma_places (G : Geometry s w h fh fv) {c : Component} (hy : c.componentId ≠ .y)
    (h1 : c.horizontalSample = 1) (v j hs : Nat) :
    blockStart s c v j 0 hs = j * 64 + hs * 64 +
      (if fh = 2 ∧ fv = 2 then s.mcuWidth * 64 * v else 0) := by
  have e1 := G.stride
  have e2 := G.hvStride
  unfold blockStart
  rw [if_neg hy, if_neg hy, h1]
  rcases G.counts with ⟨rfl, rfl, -, -, b, e⟩ | ⟨rfl, rfl, -, -, b, e⟩ | ⟨rfl, rfl, -, -, b, e⟩ |
    ⟨rfl, rfl, -, -, b, e⟩ <;> simp only [b, e] at e1 e2 ⊢
  · simp
  · simp
  · simp
  · have : s.mcuWidth * 64 * 2 * 2 * 2 / 2 = s.mcuWidth * 256 := by omega
    rw [this] at e1
    have : s.mcuWidth * 256 / 4 = s.mcuWidth * 64 := by omega
    simp [e1, this]

theorem bias_cases (G : Geometry s w h fh fv) :
    (fh = 1 ∧ fv = 1 ∧ s.bias = 1) ∨ (fh = 2 ∧ fv = 1 ∧ s.bias = 1) ∨
    (fh = 1 ∧ fv = 2 ∧ s.bias = 1) ∨ (fh = 2 ∧ fv = 2 ∧ s.bias = 2) := by
  rcases G.counts with ⟨a, b, -, -, c, -⟩ | ⟨a, b, -, -, c, -⟩ | ⟨a, b, -, -, c, -⟩ |
    ⟨a, b, -, -, c, -⟩
  · exact Or.inl ⟨a, b, c⟩
  · exact Or.inr (Or.inl ⟨a, b, c⟩)
  · exact Or.inr (Or.inr (Or.inl ⟨a, b, c⟩))
  · exact Or.inr (Or.inr (Or.inr ⟨a, b, c⟩))

/-- The places of the units of an image without subsampling. -/
theorem plain_place {c : Component} (h1 : c.horizontalSample = 1) (j : Nat) : blockStart s c 0 j 0 0 = 64 * j := by
  unfold blockStart
  simp [h1]
  omega

/-- The places of one component of a strip. -/
theorem places_component (G : Geometry s w h fh fv) {c : Component} (hc : c ∈ s.comps) :
    let n := s.mcuWidth * c.verticalSample * c.horizontalSample * s.bias
    let place := fun u : Nat × Nat × Nat × Nat => blockStart s c u.1 u.2.1 u.2.2.1 u.2.2.2
    Inside place (UnitOf s.bias s.mcuWidth c) n ∧ Apart place (UnitOf s.bias s.mcuWidth c) ∧
      Onto place (UnitOf s.bias s.mcuWidth c) n := by
  obtain ⟨c0, cs, e, hy, g1, g2, hcs⟩ := G.comps
  rw [e] at hc
  dsimp only
  generalize hm : s.mcuWidth = m
  by_cases h11 : fh = 1 ∧ fv = 1
  · have hb : s.bias = 1 := by
      rcases bias_cases G with ⟨-, -, b⟩ | ⟨a, -, -⟩ | ⟨-, a, -⟩ | ⟨a, -, -⟩ <;> omega
    have hc1 : c.horizontalSample = 1 ∧ c.verticalSample = 1 := by
      rcases List.mem_cons.1 hc with rfl | hc
      · exact ⟨g1.trans h11.1, g2.trans h11.2⟩
      · exact (hcs c hc).2
    unfold Inside Apart Onto UnitOf
    simp only [hc1.1, hc1.2, hb]
    refine ⟨?_, ?_, ?_⟩
    · rintro ⟨v, j, vs, hs⟩ ⟨h1, h2, h3, h4⟩
      simp only at h1 h2 h3 h4 ⊢
      obtain rfl : v = 0 := by omega
      obtain rfl : vs = 0 := by omega
      obtain rfl : hs = 0 := by omega
      exact ⟨j, by omega, plain_place hc1.1 j⟩
    · rintro ⟨v, j, vs, hs⟩ ⟨v', j', vs', hs'⟩ ⟨h1, h2, h3, h4⟩ ⟨h1', h2', h3', h4'⟩ he
      simp only at h1 h2 h3 h4 h1' h2' h3' h4' he
      obtain rfl : v = 0 := by omega
      obtain rfl : v' = 0 := by omega
      obtain rfl : vs = 0 := by omega
      obtain rfl : vs' = 0 := by omega
      obtain rfl : hs = 0 := by omega
      obtain rfl : hs' = 0 := by omega
      rw [plain_place hc1.1, plain_place hc1.1] at he
      obtain rfl : j = j' := by omega
      rfl
    · intro k hk
      exact ⟨(0, k, 0, 0), ⟨by simp, by simp; omega, by simp, by simp⟩, plain_place hc1.1 k⟩
  replace hy := hy h11
  replace hcs : ∀ x ∈ cs, x.componentId ≠ .y ∧ x.horizontalSample = 1 ∧ x.verticalSample = 1 :=
    fun x hx => ⟨(hcs x hx).1 h11, (hcs x hx).2⟩
  rcases List.mem_cons.1 hc with rfl | hc
  · have L := luma_places G hy g1 g2
    rw [hm] at L
    unfold Inside Apart Onto UnitOf
    simp only [L, g1, g2]
    rcases bias_cases G with ⟨rfl, rfl, b⟩ | ⟨rfl, rfl, b⟩ | ⟨rfl, rfl, b⟩ | ⟨rfl, rfl, b⟩ <;>
      simp only [b] <;> refine ⟨?_, ?_, ?_⟩
    · rintro ⟨v, j, vs, hs⟩ ⟨h1, h2, h3, h4⟩
      simp only at h1 h2 h3 h4 ⊢
      obtain rfl : v = 0 := by omega
      obtain rfl : vs = 0 := by omega
      exact ⟨j, by omega, by simp; omega⟩
    · rintro ⟨v, j, vs, hs⟩ ⟨v', j', vs', hs'⟩ ⟨h1, h2, h3, h4⟩ ⟨h1', h2', h3', h4'⟩ he
      simp only at h1 h2 h3 h4 h1' h2' h3' h4' he
      obtain rfl : v = 0 := by omega
      obtain rfl : v' = 0 := by omega
      obtain rfl : vs = 0 := by omega
      obtain rfl : vs' = 0 := by omega
      simp at he
      simp
      omega
    · intro k hk
      exact ⟨(0, k, 0, 0), ⟨by simp, by simp; omega, by simp, by simp⟩, by simp; omega⟩
    · rintro ⟨v, j, vs, hs⟩ ⟨h1, h2, h3, h4⟩
      simp only at h1 h2 h3 h4 ⊢
      obtain rfl : v = 0 := by omega
      obtain rfl : vs = 0 := by omega
      exact ⟨2 * j + hs, by omega, by simp; omega⟩
    · rintro ⟨v, j, vs, hs⟩ ⟨v', j', vs', hs'⟩ ⟨h1, h2, h3, h4⟩ ⟨h1', h2', h3', h4'⟩ he
      simp only at h1 h2 h3 h4 h1' h2' h3' h4' he
      obtain rfl : v = 0 := by omega
      obtain rfl : v' = 0 := by omega
      obtain rfl : vs = 0 := by omega
      obtain rfl : vs' = 0 := by omega
      simp at he
      simp
      omega
    · intro k hk
      exact ⟨(0, k / 2, 0, k % 2), ⟨by simp, by simp; omega, by simp, by simp; omega⟩,
        by simp; omega⟩
    · rintro ⟨v, j, vs, hs⟩ ⟨h1, h2, h3, h4⟩
      simp only at h1 h2 h3 h4 ⊢
      obtain rfl : v = 0 := by omega
      refine ⟨m * vs + j, ?_, by simp; ring_nf; omega⟩
      interval_cases vs <;> omega
    · rintro ⟨v, j, vs, hs⟩ ⟨v', j', vs', hs'⟩ ⟨h1, h2, h3, h4⟩ ⟨h1', h2', h3', h4'⟩ he
      simp only at h1 h2 h3 h4 h1' h2' h3' h4' he
      obtain rfl : v = 0 := by omega
      obtain rfl : v' = 0 := by omega
      simp at he
      interval_cases vs <;> interval_cases vs' <;> simp at he ⊢ <;> omega
    · intro k hk
      by_cases hkm : k < m
      · exact ⟨(0, k, 0, 0), ⟨by simp, by simp; omega, by simp, by simp⟩, by simp; omega⟩
      · exact ⟨(0, k - m, 1, 0), ⟨by simp, by simp; omega, by simp, by simp⟩, by simp; omega⟩
    · rintro ⟨v, j, vs, hs⟩ ⟨h1, h2, h3, h4⟩
      simp only at h1 h2 h3 h4 ⊢
      refine ⟨4 * (m * v) + 2 * (m * vs) + 2 * j + hs, ?_, by simp; ring_nf⟩
      interval_cases vs <;> interval_cases v <;> omega
    · rintro ⟨v, j, vs, hs⟩ ⟨v', j', vs', hs'⟩ ⟨h1, h2, h3, h4⟩ ⟨h1', h2', h3', h4'⟩ he
      simp only at h1 h2 h3 h4 h1' h2' h3' h4' he
      interval_cases vs <;> interval_cases vs' <;> interval_cases v <;> interval_cases v' <;>
        simp at he ⊢ <;> omega
    · intro k hk
      by_cases k1 : k < 2 * m
      · exact ⟨(0, k / 2, 0, k % 2), ⟨by simp, by simp; omega, by simp, by simp; omega⟩,
          by simp; omega⟩
      by_cases k2 : k < 4 * m
      · exact ⟨(0, (k - 2 * m) / 2, 1, k % 2), ⟨by simp, by simp; omega, by simp, by simp; omega⟩,
          by simp; omega⟩
      by_cases k3 : k < 6 * m
      · exact ⟨(1, (k - 4 * m) / 2, 0, k % 2), ⟨by simp, by simp; omega, by simp, by simp; omega⟩,
          by simp; omega⟩
      · exact ⟨(1, (k - 6 * m) / 2, 1, k % 2), ⟨by simp, by simp; omega, by simp, by simp; omega⟩,
          by simp; omega⟩
  · obtain ⟨a1, a2, a3⟩ := hcs c hc
    have L := chroma_places G a1 a2
    rw [hm] at L
    have hb : s.bias = if fh = 2 ∧ fv = 2 then 2 else 1 := by
      rcases bias_cases G with ⟨rfl, rfl, b⟩ | ⟨rfl, rfl, b⟩ | ⟨rfl, rfl, b⟩ | ⟨rfl, rfl, b⟩ <;>
        rw [b] <;> rfl
    unfold Inside Apart Onto UnitOf
    simp only [a2, a3, hb]
    by_cases h22 : fh = 2 ∧ fv = 2
    · simp only [if_pos h22] at L ⊢
      refine ⟨?_, ?_, ?_⟩
      · rintro ⟨v, j, vs, hs⟩ ⟨h1, h2, h3, h4⟩
        simp only at h1 h2 h3 h4 ⊢
        obtain rfl : vs = 0 := by omega
        rw [L]
        refine ⟨m * v + j, ?_, by obtain rfl : hs = 0 := by omega
                                  ring⟩
        interval_cases v <;> omega
      · rintro ⟨v, j, vs, hs⟩ ⟨v', j', vs', hs'⟩ ⟨h1, h2, h3, h4⟩ ⟨h1', h2', h3', h4'⟩ he
        simp only at h1 h2 h3 h4 h1' h2' h3' h4' he
        obtain rfl : vs = 0 := by omega
        obtain rfl : vs' = 0 := by omega
        rw [L, L] at he
        interval_cases v <;> interval_cases v' <;> simp at he ⊢ <;> omega
      · intro k hk
        by_cases hkm : k < m
        · exact ⟨(0, k, 0, 0), ⟨by simp, by simp; omega, by simp, by simp⟩,
            by simp only [L]; omega⟩
        · exact ⟨(1, k - m, 0, 0), ⟨by simp, by simp; omega, by simp, by simp⟩,
            by simp only [L]; omega⟩
    · simp only [if_neg h22] at L ⊢
      refine ⟨?_, ?_, ?_⟩
      · rintro ⟨v, j, vs, hs⟩ ⟨h1, h2, h3, h4⟩
        simp only at h1 h2 h3 h4 ⊢
        obtain rfl : vs = 0 := by omega
        rw [L]
        exact ⟨j, by omega, by omega⟩
      · rintro ⟨v, j, vs, hs⟩ ⟨v', j', vs', hs'⟩ ⟨h1, h2, h3, h4⟩ ⟨h1', h2', h3', h4'⟩ he
        simp only at h1 h2 h3 h4 h1' h2' h3' h4' he
        obtain rfl : vs = 0 := by omega
        obtain rfl : vs' = 0 := by omega
        rw [L, L] at he
        simp
        omega
      · intro k hk
        exact ⟨(0, k, 0, 0), ⟨by simp, by simp; omega, by simp, by simp⟩,
          by simp only [L]; omega⟩

/-- The buffer of a component that the output needs. -/
theorem allocTemp_buf {d : Decoder} {bufs : List (List I16)} {pos : Nat} {c : Component}
    (ha : allocTemp s d = .ok bufs) (hc : d.components[pos]? = some c)
    (hp : pos < d.options.getOutColorspace.numComponents) :
    bufs[pos]? = some (List.replicate
      (s.mcuWidth * 64 * c.verticalSample * c.horizontalSample * s.bias) 0) := by
  unfold allocTemp at ha
  dsimp only at ha
  split at ha
  · cases ha
  · rename_i hno
    have h3 : pos < 3 := by
      have hlt : pos < d.components.length := by
        by_contra hge
        rw [List.getElem?_eq_none (by omega)] at hc
        cases hc
      omega
    cases ha
    rw [List.getElem?_map, List.getElem?_range h3]
    simp only [Option.map_some, hc]
    rw [if_pos (by omega)]

/-- **C30** for baseline scans: for every image and each of the four samplings, the data units of a
component in a strip lie inside the buffer of the component, at different places, and fill it. -/
theorem c30_baseline {d : Decoder} {rd : List UInt8} {h' : H} (F : Frame d w h fh fv)
    (hs : baselineSetup ⟨d, rd⟩ = (.ok s, h'))
    {bufs : List (List I16)} (ha : allocTemp s h'.dec = .ok bufs) {pos : Nat} {c : Component}
    (hc : h'.dec.components[pos]? = some c)
    (hp : pos < h'.dec.options.getOutColorspace.numComponents) :
    ∃ buf n, bufs[pos]? = some buf ∧ buf.length = 64 * n ∧ (w ≤ 65527 → 0 < n) ∧
      Inside (fun (u : Nat × Nat × Nat × Nat) => blockStart s c u.1 u.2.1 u.2.2.1 u.2.2.2)
        (UnitOf s.bias s.mcuWidth c) n ∧
      Apart (fun (u : Nat × Nat × Nat × Nat) => blockStart s c u.1 u.2.1 u.2.2.1 u.2.2.2)
        (UnitOf s.bias s.mcuWidth c) ∧
      Onto (fun (u : Nat × Nat × Nat × Nat) => blockStart s c u.1 u.2.1 u.2.2.1 u.2.2.2)
        (UnitOf s.bias s.mcuWidth c) n := by
  have hw' := wpT_baselineSetup_frame (s := ⟨d, rd⟩) F
  obtain ⟨G, e1, e2, e3⟩ := M.wp_ok hw' hs
  have hm : c ∈ s.comps := by
    rw [e1]
    exact List.mem_of_getElem? hc
  obtain ⟨p1, p2, p3⟩ := places_component G hm
  refine ⟨_, s.mcuWidth * c.verticalSample * c.horizontalSample * s.bias, allocTemp_buf ha hc hp,
    ?_, ?_, p1, p2, p3⟩
  · rw [List.length_replicate]; ring
  · intro hw
    obtain ⟨c0, cs, e, hy, g1, g2, hcs⟩ := G.comps
    have hmw : 0 < s.mcuWidth := by
      have := F.wpos
      rcases G.counts with ⟨-, -, b, -⟩ | ⟨-, -, b, -⟩ | ⟨-, -, b, -⟩ | ⟨-, -, b, -⟩ <;> rw [b] <;>
        omega
    have hv : 0 < c.verticalSample ∧ 0 < c.horizontalSample ∧ 0 < s.bias := by
      rw [e] at hm
      rcases List.mem_cons.1 hm with rfl | hm
      · rw [g1, g2]
        rcases bias_cases G with ⟨a, b, x⟩ | ⟨a, b, x⟩ | ⟨a, b, x⟩ | ⟨a, b, x⟩ <;> omega
      · obtain ⟨-, a2, a3⟩ := hcs c hm
        rcases bias_cases G with ⟨a, b, x⟩ | ⟨a, b, x⟩ | ⟨a, b, x⟩ | ⟨a, b, x⟩ <;> omega
    exact Nat.mul_pos (Nat.mul_pos (Nat.mul_pos hmw hv.1) hv.2.1) hv.2.2

/-! Progressive scans keep the coefficients of the whole image. -/

/-- The buffers of a progressive image. -/
theorem progAlloc_buf {d : Decoder} (F : Frame d w h fh fv) {mw : Nat} {bufs : List (List I16)}
    (ha : progAlloc d = .ok (mw, bufs)) {pos : Nat} {c : Component}
    (hc : d.components[pos]? = some c) (hp : pos < d.inputColorspace.numComponents) :
    mw = d.mcuX * 64 ∧ ∃ buf, bufs[pos]? = some buf ∧
      buf.length = 64 * (d.mcuX * c.horizontalSample * (d.mcuY * c.verticalSample)) := by
  unfold progAlloc at ha
  dsimp only at ha
  obtain ⟨b, hb, ha⟩ := Out.bind_ok ha
  cases ha
  have eX : (if d.interleaved then d.mcuX else (d.info.width.toNat + 7) / 8) = d.mcuX := by
    split
    · rfl
    · rename_i hi
      have hi' : d.interleaved = false := by simpa using hi
      have := F.inter
      rw [hi'] at this
      have h11 : fh = 1 ∧ fv = 1 := by simpa using this.symm
      rw [F.mcuX, F.width, h11.1]
      norm_num
  have eY : (if d.interleaved then d.mcuY else (d.info.height.toNat + 7) / 8) = d.mcuY := by
    split
    · rfl
    · rename_i hi
      have hi' : d.interleaved = false := by simpa using hi
      have := F.inter
      rw [hi'] at this
      have h11 : fh = 1 ∧ fv = 1 := by simpa using this.symm
      rw [F.mcuY, F.height, h11.2]
      norm_num
  rw [eX, eY] at hb
  refine ⟨by rw [eX], ?_⟩
  rw [Out.collect_ok_iff] at hb
  have hlen : b.length = d.inputColorspace.numComponents := by
    have := congrArg List.length hb
    simpa using this.symm
  have hget := congrArg (fun l => l[pos]?) hb
  rw [List.getElem?_map, List.getElem?_range hp, List.getElem?_map] at hget
  simp only [Option.map_some, hc] at hget
  cases hbp : b[pos]? with
  | none => rw [hbp] at hget; cases hget
  | some buf =>
    rw [hbp] at hget
    simp only [Option.map_some, Option.some.injEq, Out.ok.injEq] at hget
    refine ⟨buf, ?_, ?_⟩
    · rw [List.getElem?_append_left (by omega), hbp]
    · rw [← hget, List.length_replicate]
      ring

/-- What a frame says of a component. -/
theorem frame_component {d : Decoder} (F : Frame d w h fh fv) {c : Component}
    (hc : c ∈ d.components) : c.widthStride = c.horizontalSample * (d.mcuX * 8) ∧
      (((c.componentId = .y ∨ d.interleaved = false) ∧ c.horizontalSample = fh ∧ c.verticalSample = fv) ∨
        ((c.componentId ≠ .y ∨ d.interleaved = false) ∧ c.horizontalSample = 1 ∧ c.verticalSample = 1)) := by
  obtain ⟨c0, cs, e, hy, g1, g2, g3, hcs⟩ := F.comps
  have hor : ∀ {p : Prop}, (¬ (fh = 1 ∧ fv = 1) → p) → p ∨ d.interleaved = false := by
    intro p hp
    by_cases h11 : fh = 1 ∧ fv = 1
    · right
      rw [F.inter]
      simp [h11]
    · exact Or.inl (hp h11)
  rw [e] at hc
  rcases List.mem_cons.1 hc with rfl | hc
  · exact ⟨by rw [g3, g1], Or.inl ⟨hor hy, g1, g2⟩⟩
  · obtain ⟨a1, a2, a3, a4⟩ := hcs c hc
    exact ⟨by rw [a4, a2, Nat.one_mul], Or.inr ⟨hor a1, a2, a3⟩⟩

/-- **C30** for interleaved progressive scans: for every image and any sampling factors of the luma
component, the data units lie inside the coefficient buffer, at different places, and fill it. -/
theorem c30_interleaved {d : Decoder} (F : Frame d w h fh fv) {mw : Nat} {bufs : List (List I16)}
    (ha : progAlloc d = .ok (mw, bufs)) {pos : Nat} {c : Component}
    (hc : d.components[pos]? = some c) (hp : pos < d.inputColorspace.numComponents) :
    ∃ buf n, bufs[pos]? = some buf ∧ buf.length = 64 * n ∧
      Inside (fun (u : Nat × Nat × Nat × Nat) => interPos c u.1 u.2.1 u.2.2)
        (UnitOf d.mcuY d.mcuX c) n ∧
      Apart (fun (u : Nat × Nat × Nat × Nat) => interPos c u.1 u.2.1 u.2.2)
        (UnitOf d.mcuY d.mcuX c) ∧
      Onto (fun (u : Nat × Nat × Nat × Nat) => interPos c u.1 u.2.1 u.2.2)
        (UnitOf d.mcuY d.mcuX c) n := by
  obtain ⟨-, buf, hb, hl⟩ := progAlloc_buf F ha hc hp
  obtain ⟨hst, -⟩ := frame_component F (List.mem_of_getElem? hc)
  refine ⟨buf, _, hb, hl, ?_⟩
  generalize d.mcuX = X at *
  generalize d.mcuY = Y at *
  have key : ∀ i j vs hs, interPos c i j (vs, hs) =
      64 * ((i * c.verticalSample + vs) * (X * c.horizontalSample) +
        (j * c.horizontalSample + hs)) := by
    intro i j vs hs
    unfold interPos
    dsimp only
    rw [hst, show (i * c.verticalSample + vs) * (c.horizontalSample * (X * 8)) =
      (i * c.verticalSample + vs) * (X * c.horizontalSample) * 8 by ring,
      Nat.mul_div_cancel _ (by omega)]
    ring
  unfold UnitOf
  generalize c.verticalSample = V at *
  generalize c.horizontalSample = U at *
  have hlt : ∀ {i vs A M : Nat}, i < A → vs < M → i * M + vs < A * M := by
    intro i vs A M h1 h2
    calc i * M + vs < i * M + M := by omega
      _ = (i + 1) * M := by ring
      _ ≤ A * M := Nat.mul_le_mul_right M h1
  refine ⟨?_, ?_, ?_⟩
  · rintro ⟨i, j, vs, hs⟩ ⟨h1, h2, h3, h4⟩
    refine ⟨_, ?_, key i j vs hs⟩
    rw [Nat.mul_comm (X * U) (Y * V)]
    exact hlt (hlt h1 h3) (hlt h2 h4)
  · rintro ⟨i, j, vs, hs⟩ ⟨i', j', vs', hs'⟩ ⟨h1, h2, h3, h4⟩ ⟨h1', h2', h3', h4'⟩ he
    simp only [key] at he
    obtain ⟨q1, q2⟩ := row_col (hlt h2 h4) (hlt h2' h4')
      (Nat.eq_of_mul_eq_mul_left (by omega) he)
    obtain ⟨r1, r2⟩ := row_col h3 h3' q1
    obtain ⟨r3, r4⟩ := row_col h4 h4' q2
    dsimp only at r2 r3 r4
    rw [r1, r2, r3, r4]
  · intro k hk
    have hXU : 0 < X * U := Nat.pos_of_ne_zero (by rintro e; rw [e] at hk; omega)
    have hY : k / (X * U) < Y * V := Nat.div_lt_of_lt_mul hk
    have hX : k % (X * U) < X * U := Nat.mod_lt _ hXU
    have hV : 0 < V := Nat.pos_of_ne_zero (by rintro rfl; rw [Nat.mul_zero] at hY; omega)
    have hU : 0 < U := Nat.pos_of_ne_zero (by rintro rfl; rw [Nat.mul_zero] at hXU; omega)
    refine ⟨(k / (X * U) / V, k % (X * U) / U, k / (X * U) % V, k % (X * U) % U),
      ⟨?_, ?_, Nat.mod_lt _ hV, Nat.mod_lt _ hU⟩, ?_⟩
    · exact Nat.div_lt_of_lt_mul (by rw [Nat.mul_comm V Y]; exact hY)
    · exact Nat.div_lt_of_lt_mul (by rw [Nat.mul_comm U X]; exact hX)
    · dsimp only
      rw [key, Nat.div_add_mod' (k / (X * U)) V, Nat.div_add_mod' (k % (X * U)) U,
        Nat.div_add_mod' k (X * U)]

/-- **C30** for a progressive scan of one component: the data units that are visited lie inside the
coefficient buffer and at different places; for the components other than luma, and for luma if it
is not subsampled, they fill it. -/
theorem c30_single {d : Decoder} (F : Frame d w h fh fv) {mw : Nat} {bufs : List (List I16)}
    (ha : progAlloc d = .ok (mw, bufs)) {pos : Nat} {c : Component}
    (hc : d.components[pos]? = some c) (hp : pos < d.inputColorspace.numComponents)
    {cols rows : Nat} (hcr : (cols, rows) =
      if c.componentId = .y ∨ d.interleaved = false then
        (blocks8 d.info.width, blocks8 d.info.height) else (d.mcuX, d.mcuY)) :
    ∃ buf n, bufs[pos]? = some buf ∧ buf.length = 64 * n ∧
      Inside (fun (u : Nat × Nat) => progPos c u.1 u.2) (fun u => u.1 < rows ∧ u.2 < cols) n ∧
      Apart (fun (u : Nat × Nat) => progPos c u.1 u.2) (fun u => u.1 < rows ∧ u.2 < cols) ∧
      (w ≤ 65527 → h ≤ 65527 → (c.componentId ≠ .y ∨ (fh = 1 ∧ fv = 1)) →
        Onto (fun (u : Nat × Nat) => progPos c u.1 u.2) (fun u => u.1 < rows ∧ u.2 < cols) n) := by
  obtain ⟨-, buf, hb, hl⟩ := progAlloc_buf F ha hc hp
  obtain ⟨hst, hcomp⟩ := frame_component F (List.mem_of_getElem? hc)
  refine ⟨buf, _, hb, hl, ?_⟩
  rw [blocks8_wrap, blocks8_wrap, F.width, F.height] at hcr
  have eX := F.mcuX
  have eY := F.mcuY
  have ei := F.inter
  have hpos := F.wpos
  generalize d.mcuX = X at *
  generalize d.mcuY = Y at *
  have key : ∀ i j, progPos c i j = 64 * (i * (X * c.horizontalSample) + j) := by
    intro i j
    unfold progPos
    rw [hst, show c.horizontalSample * (X * 8) = X * c.horizontalSample * 8 by ring,
      Nat.mul_div_cancel _ (by omega), Nat.add_comm]
  -- the visited columns and rows are among those of the buffer
  have hle : cols ≤ X * c.horizontalSample ∧ rows ≤ Y * c.verticalSample ∧
      (w ≤ 65527 → h ≤ 65527 → (c.componentId ≠ .y ∨ (fh = 1 ∧ fv = 1)) →
        cols = X * c.horizontalSample ∧ rows = Y * c.verticalSample) := by
    rcases hcomp with ⟨y, g1, g2⟩ | ⟨y, g1, g2⟩
    · rw [if_pos y] at hcr
      cases hcr
      rw [g1, g2, eX, eY]
      have ceil : ∀ {a f : Nat}, 0 < a →
          (a + 7) % 65536 / 8 ≤ (a + 8 * f - 1) / (8 * f) * f ∨ f = 0 := by
        intro a f ha
        rcases Nat.eq_zero_or_pos f with h0 | h0
        · exact Or.inr h0
        left
        have h1 : a ≤ (a + 8 * f - 1) / (8 * f) * (8 * f) := by
          have := Nat.div_add_mod (a + 8 * f - 1) (8 * f)
          have h2 := Nat.mod_lt (a + 8 * f - 1) (show 0 < 8 * f by omega)
          rw [Nat.mul_comm] at this
          omega
        rw [show (a + 8 * f - 1) / (8 * f) * (8 * f) = (a + 8 * f - 1) / (8 * f) * f * 8 by ring]
          at h1
        have := Nat.mod_le (a + 7) 65536
        omega
      have hf := F.fpos
      refine ⟨?_, ?_, ?_⟩
      · rcases ceil (f := fh) F.wpos with h | h
        · exact h
        · omega
      · rcases ceil (f := fv) F.hpos with h | h
        · exact h
        · omega
      · have full : fh = 1 ∧ fv = 1 → w ≤ 65527 → h ≤ 65527 →
            (w + 7) % 65536 / 8 = (w + 8 * fh - 1) / (8 * fh) * fh ∧
            (h + 7) % 65536 / 8 = (h + 8 * fv - 1) / (8 * fv) * fv := by
          rintro ⟨rfl, rfl⟩ _ _
          norm_num
          omega
        rintro hw hh (hn | h11)
        · rcases y with y | y
          · exact absurd y hn
          · rw [y] at ei
            exact full (by simpa using ei.symm) hw hh
        · exact full h11 hw hh
    · rw [g1, g2]
      by_cases hi : d.interleaved = false
      · rw [if_pos (Or.inr hi)] at hcr
        cases hcr
        rw [hi] at ei
        have h11 : fh = 1 ∧ fv = 1 := by simpa using ei.symm
        rw [eX, eY, h11.1, h11.2]
        norm_num
        omega
      · rw [if_neg (by rintro (h | h); exact y.elim (fun y => y h) hi; exact hi h)] at hcr
        cases hcr
        simp
  obtain ⟨hle1, hle2, hle3⟩ := hle
  generalize X * c.horizontalSample = P at *
  generalize Y * c.verticalSample = Q at *
  refine ⟨?_, ?_, ?_⟩
  · rintro ⟨i, j⟩ ⟨h1, h2⟩
    dsimp only at h1 h2
    refine ⟨_, ?_, key i j⟩
    calc i * P + j < i * P + P := by omega
      _ = (i + 1) * P := by ring
      _ ≤ Q * P := Nat.mul_le_mul_right P (by omega)
      _ = P * Q := Nat.mul_comm _ _
  · rintro ⟨i, j⟩ ⟨i', j'⟩ ⟨h1, h2⟩ ⟨h1', h2'⟩ he
    simp only [key] at h1 h2 h1' h2' he
    obtain ⟨q1, q2⟩ := row_col (n := P) (show j < P by omega) (show j' < P by omega)
      (Nat.eq_of_mul_eq_mul_left (by omega) he)
    rw [q1, q2]
  · intro hw hh hfull k hk
    obtain ⟨rfl, rfl⟩ := hle3 hw hh hfull
    have hP : 0 < cols := Nat.pos_of_ne_zero (by rintro e; rw [e] at hk; omega)
    refine ⟨(k / cols, k % cols), ⟨Nat.div_lt_of_lt_mul hk, Nat.mod_lt _ hP⟩, ?_⟩
    dsimp only
    rw [key, Nat.div_add_mod']

/-! ### C44 -/

namespace Spec

/-- Rows of MCUs in an image of height `h` with vertical luma factor `fv` (T.81 A.2). -/
def mcuRows (h fv : Nat) : Nat := (h + 8 * fv - 1) / (8 * fv)

end Spec

/-- Jobs made for a scan that end give back a chunk. -/
def JobsOf (s : Scan) (l : List (Out (List UInt8))) : Prop :=
  ∀ o ∈ l, ∀ r, o = .ok r → r.length = s.chunk

theorem wpT_strips_jobs (s : Scan) (n : Nat) {t : T} (ht : t.dec.specEnd ≤ 63)
    (hb : t.io.bs.specEnd ≤ 63) (hj : JobsOf s t.jobs) :
    wpT (strips s n) (fun _ t' => t'.dec.specEnd ≤ 63 ∧ JobsOf s t'.jobs ∧
      t'.jobs.length = t.jobs.length + n) t := by
  have : ∀ n t, TI (fun d => d.specEnd ≤ 63) t.io.rd t → JobsOf s t.jobs →
      wpT (strips s n) (fun _ t' => t'.dec.specEnd ≤ 63 ∧ JobsOf s t'.jobs ∧
        t'.jobs.length = t.jobs.length + n) t := by
    intro n
    induction n with
    | zero => intro t h hj; exact ⟨h.dec, hj, rfl⟩
    | succ n ih =>
      intro t h hj
      unfold strips
      rw [wpT, wp_bind]
      unfold strip
      rw [wp_bind, wp_get, wp_bind]
      refine wpT_ofOut (fun temp _ => ?_) (allocTemp_ne_diverge _ _)
      rw [wp_bind]
      refine wpT_mono (wpT_decodeStrip stable_spec s temp h) ?_
      rintro temp' t1 ⟨h1, e1⟩
      by_cases hlt : t1.jobs.length < s.outLen / s.chunk
      · have hsub : submit s temp' t1 = (.ok (), { t1 with jobs := t1.jobs ++
            [postProcess s.idct s.color s.comps s.inCs s.outCs s.width temp'
              (List.replicate s.chunk 0)] }) := by
          unfold submit
          rw [if_pos hlt]
        unfold wp
        rw [hsub]
        refine wpT_mono (ih _ (TI.self (t := { t1 with jobs := _ }) ⟨h1.dec, h1.rd, h1.se⟩) ?_) ?_
        · intro o ho r hr
          rcases List.mem_append.1 ho with ho | ho
          · rw [e1] at ho
            exact hj o ho r hr
          · rw [List.mem_singleton] at ho
            subst ho
            rw [length_postProcess hr, List.length_replicate]
        · rintro _ t3 ⟨a, b, c⟩
          refine ⟨a, b, ?_⟩
          rw [c, List.length_append, e1, List.length_singleton]
          omega
      · have hsub : submit s temp' t1 = (.panic .unwrap, t1) := by
          unfold submit
          rw [if_neg hlt]
        unfold wp
        rw [hsub]
        trivial
  exact this n t ⟨ht, List.suffix_refl _, hb⟩ hj

theorem wpT_strips_room (s : Scan) (n : Nat) {t : T} (ht : t.dec.specEnd ≤ 63)
    (hb : t.io.bs.specEnd ≤ 63) (hj : JobsOf s t.jobs) (hl : t.jobs.length ≤ s.outLen / s.chunk) :
    wpT (strips s n) (fun _ t' => t'.dec.specEnd ≤ 63 ∧ JobsOf s t'.jobs ∧
      t'.jobs.length = t.jobs.length + n ∧
      t'.jobs.length ≤ s.outLen / s.chunk) t := by
  have : ∀ n t, TI (fun d => d.specEnd ≤ 63) t.io.rd t → JobsOf s t.jobs →
      t.jobs.length ≤ s.outLen / s.chunk →
      wpT (strips s n) (fun _ t' => t'.dec.specEnd ≤ 63 ∧ JobsOf s t'.jobs ∧
        t'.jobs.length = t.jobs.length + n ∧
      t'.jobs.length ≤ s.outLen / s.chunk) t := by
    intro n
    induction n with
    | zero => intro t h hj hl; exact ⟨h.dec, hj, rfl, hl⟩
    | succ n ih =>
      intro t h hj hl
      unfold strips
      rw [wpT, wp_bind]
      unfold strip
      rw [wp_bind, wp_get, wp_bind]
      refine wpT_ofOut (fun temp _ => ?_) (allocTemp_ne_diverge _ _)
      rw [wp_bind]
      refine wpT_mono (wpT_decodeStrip stable_spec s temp h) ?_
      rintro temp' t1 ⟨h1, e1⟩
      by_cases hlt : t1.jobs.length < s.outLen / s.chunk
      · have hsub : submit s temp' t1 = (.ok (), { t1 with jobs := t1.jobs ++
            [postProcess s.idct s.color s.comps s.inCs s.outCs s.width temp'
              (List.replicate s.chunk 0)] }) := by
          unfold submit
          rw [if_pos hlt]
        unfold wp
        rw [hsub]
        refine wpT_mono (ih _ (TI.self (t := { t1 with jobs := _ }) ⟨h1.dec, h1.rd, h1.se⟩) ?_ ?_) ?_
        · intro o ho r hr
          rcases List.mem_append.1 ho with ho | ho
          · rw [e1] at ho
            exact hj o ho r hr
          · rw [List.mem_singleton] at ho
            subst ho
            rw [length_postProcess hr, List.length_replicate]
        · dsimp only
          rw [List.length_append, List.length_singleton]
          omega
        · rintro _ t3 ⟨a, b, c, e⟩
          refine ⟨a, b, ?_, e⟩
          rw [c, List.length_append, e1, List.length_singleton]
          omega
      · have hsub : submit s temp' t1 = (.panic .unwrap, t1) := by
          unfold submit
          rw [if_neg hlt]
        unfold wp
        rw [hsub]
        trivial
  exact this n t ⟨ht, List.suffix_refl _, hb⟩ hj hl

/-- Rows of pixels in a strip. -/
theorem rows_covered (G : Geometry s w h fh fv) (hh : h ≤ 65527) :
    h ≤ s.mcuHeight * (8 * fh * fv) ↔ (fh = 1 ∨ 2 ∣ mcuRows h fv) := by
  unfold mcuRows
  rcases G.counts with ⟨rfl, rfl, -, b, -⟩ | ⟨rfl, rfl, -, b, -⟩ | ⟨rfl, rfl, -, b, -⟩ |
    ⟨rfl, rfl, -, b, -⟩ <;> rw [b] <;> norm_num <;> omega

/-- **C44**, baseline: how much of the image is decoded. When all strips were decoded without an
error, they hold all rows of the image if and only if the luma component has the horizontal
factor 1 or the number of MCU rows is even. (With factor 2 the decoder works on pairs of MCU rows
and rounds the number of pairs down.) -/
theorem c44_partial {d : Decoder} {rd : List UInt8} {h' : H} {t : T} (F : Frame d w h fh fv)
    (hh : h ≤ 65527) (hd : d.specEnd ≤ 63) (hs : baselineSetup ⟨d, rd⟩ = (.ok s, h'))
    (hr : strips s s.mcuHeight { dec := h'.dec, io := { bs := BitStream.new, rd := h'.rd } } =
      (.ok (), t)) :
    (∀ r, .ok r ∈ t.jobs → r.length =
      8 * factor d fh * factor d fv * (w * s.outCs.numComponents)) ∧
    (h ≤ t.jobs.length * (8 * factor d fh * factor d fv) ↔
      (factor d fh = 1 ∨ 2 ∣ mcuRows h (factor d fv))) := by
  have hw' := wpT_baselineSetup_frame (s := ⟨d, rd⟩) F
  obtain ⟨G, e1, e2, e3⟩ := M.wp_ok hw' hs
  have hrel := M.wp_ok (wpT_baselineSetup (h := ⟨d, rd⟩)) hs
  have hd' : h'.dec.specEnd ≤ 63 := by
    rw [hrel.2.1.rest]
    exact hd
  have hj := M.wp_ok (wpT_strips_jobs s s.mcuHeight
    (t := { dec := h'.dec, io := { bs := BitStream.new, rd := h'.rd } }) hd' (Nat.zero_le _)
    (by intro o ho; cases ho)) hr
  obtain ⟨-, j1, j2⟩ := hj
  constructor
  · intro r hr
    rw [j1 _ hr r rfl, G.chunk]
    ring
  · rw [j2]
    have := rows_covered G hh
    simpa using this

/-- **C44** fails for every colour image with horizontal luma factor 2 and an odd number of MCU
rows: when it is decoded without an error the last row of MCUs is zero in the output, whatever the
file says about it. -/
theorem c44_lost {d : Decoder} {rd : List UInt8} {h' : H} {out : List UInt8}
    (F : Frame d w h 2 fv) (hd : d.specEnd ≤ 63)
    (hg : d.inputColorspace ≠ .grayscale) (hodd : ¬ 2 ∣ mcuRows h fv)
    (hr : decodeBaseline ⟨d, rd⟩ = (.ok out, h')) (i : Nat)
    (hi : (mcuRows h fv - 1) * (8 * fv) * (w * d.options.getOutColorspace.numComponents) ≤ i)
    (hio : i < out.length) : out[i]? = some 0 := by
  unfold decodeBaseline at hr
  rcases hb : baselineSetup ⟨d, rd⟩ with ⟨s | _ | _ | _, h1⟩ <;> rw [hb] at hr <;>
    simp only at hr
  · rcases hst : strips s s.mcuHeight { dec := h1.dec, io := { bs := BitStream.new, rd := h1.rd } }
      with ⟨r, t⟩
    rw [hst] at hr
    simp only [Prod.mk.injEq] at hr
    obtain ⟨hr, -⟩ := hr
    rcases hjp : joinPool r t.jobs with parts | _ | _ | _ <;> rw [hjp] at hr <;>
      first | (cases hr; done) | skip
    have hout : assemble s.outLen (keepLen t.dec) parts = out := by
      have : Out.ok (assemble s.outLen (keepLen t.dec) parts) = Out.ok out := hr
      cases this
      rfl
    unfold joinPool at hjp
    split at hjp
    · cases hjp
    cases r with
    | panic p => cases hjp
    | diverge => cases hjp
    | err e => dsimp only at hjp; split at hjp <;> cases hjp
    | ok u =>
      dsimp only at hjp
      rcases hcol : Out.collect t.jobs with parts' | _ | _ | _ <;> rw [hcol] at hjp <;>
        first | (cases hjp; done) | skip
      cases hjp
      rw [Out.collect_ok_iff] at hcol
      have hrel := M.wp_ok (wpT_baselineSetup (h := ⟨d, rd⟩)) hb
      have hd' : h1.dec.specEnd ≤ 63 := by
        rw [hrel.2.1.rest]
        exact hd
      obtain ⟨-, j1, j2⟩ := M.wp_ok (wpT_strips_jobs s s.mcuHeight
        (t := { dec := h1.dec, io := { bs := BitStream.new, rd := h1.rd } }) hd' (Nat.zero_le _)
        (by intro o ho; cases ho)) hst
      have hlen : ∀ p ∈ parts, p.length = s.chunk := by
        intro p hp
        exact j1 (.ok p) (by rw [hcol]; exact List.mem_map.2 ⟨p, hp, rfl⟩) p rfl
      have hfl := length_flatten_const hlen
      have hjl : t.jobs.length = parts.length := by rw [hcol, List.length_map]
      have hi : parts.length * s.chunk ≤ i := by
        have hw' := wpT_baselineSetup_frame (s := ⟨d, rd⟩) F
        obtain ⟨G, e1, e2, e3⟩ := M.wp_ok hw' hb
        have hf : ∀ f, factor d f = f := fun f => by unfold factor; rw [if_neg hg]
        rw [hf, hf] at G
        have ho : s.outCs = d.options.getOutColorspace := by
          rw [e2]
          rcases hrel.2.1.opts with h | ⟨h, -⟩
          · rw [h]
          · exact absurd h hg
        rw [← hjl, j2, G.chunk, ho]
        refine Nat.le_trans (Nat.le_of_eq ?_) hi
        unfold mcuRows at hodd ⊢
        have hm : s.mcuHeight * (8 * 2 * fv) = ((h + 8 * fv - 1) / (8 * fv) - 1) * (8 * fv) := by
          rcases G.counts with ⟨a, b, -⟩ | ⟨a, rfl, -, b, -⟩ | ⟨a, b, -⟩ | ⟨a, rfl, -, b, -⟩
          · omega
          · rw [b]; norm_num at hodd ⊢; omega
          · omega
          · rw [b]; norm_num at hodd ⊢; omega
        rw [← hm]
        simp only [List.length_nil, Nat.zero_add]
        ring
      rw [← hout] at hio ⊢
      unfold assemble at hio ⊢
      rw [List.length_take, length_fit] at hio
      rw [List.getElem?_take_of_lt (by omega)]
      unfold fit
      rw [List.getElem?_take_of_lt (by omega), List.getElem?_append_right (by omega),
        List.getElem?_replicate, if_pos (by omega)]
  all_goals cases hr

/-! ### C45 -/

/-- The strips of an image need no more room than the output buffer has, unless the image is
vertically subsampled and very wide. -/
theorem room {n mh extra : Nat}
    (hc : (fh = 1 ∧ fv = 1 ∧ mh = (h + 7) / 8) ∨ (fh = 2 ∧ fv = 1 ∧ mh = (h + 7) / 8 / 2) ∨
      (fh = 1 ∧ fv = 2 ∧ mh = (h + 15) / 16) ∨ (fh = 2 ∧ fv = 2 ∧ mh = (h + 15) / 16 / 2))
    (he : ¬ (fh = 1 ∧ fv = 1) → extra = 128 * h * n)
    (hfit : fv = 1 ∨ 7 * w ≤ 136 * h + 64) :
    mh * (w * n * 8 * fh * fv) ≤ (w + 8) * (h + 8) * n + extra := by
  have h1 : mh * (8 * fh * fv) ≤ h + 7 ∨ (fv = 2 ∧ mh * (8 * fh * fv) ≤ h + 15) := by
    rcases hc with ⟨rfl, rfl, rfl⟩ | ⟨rfl, rfl, rfl⟩ | ⟨rfl, rfl, rfl⟩ | ⟨rfl, rfl, rfl⟩ <;> omega
  have e1 : mh * (w * n * 8 * fh * fv) = mh * (8 * fh * fv) * (w * n) := by ring
  rw [e1]
  rcases h1 with h1 | ⟨hv, h1⟩
  · calc mh * (8 * fh * fv) * (w * n) ≤ (h + 7) * (w * n) := Nat.mul_le_mul_right _ h1
      _ ≤ (w + 8) * (h + 8) * n := by
        rw [show (h + 7) * (w * n) = ((h + 7) * w) * n by ring]
        refine Nat.mul_le_mul_right _ ?_
        rw [Nat.mul_comm (w + 8)]
        exact Nat.mul_le_mul (by omega) (by omega)
      _ ≤ _ := by omega
  · have hw7 : 7 * w ≤ 136 * h + 64 := by
      rcases hfit with h | h
      · omega
      · exact h
    rw [he (by omega)]
    calc mh * (8 * fh * fv) * (w * n) ≤ (h + 15) * (w * n) := Nat.mul_le_mul_right _ h1
      _ = (h * w + 15 * w) * n := by ring
      _ ≤ (h * w + 8 * w + (136 * h + 64)) * n := Nat.mul_le_mul_right _ (by omega)
      _ = _ := by ring

theorem room_scan (G : Geometry s w h fh fv) (hw : w ≤ 65527) (hh : h ≤ 65527)
    (hfit : fv = 1 ∨ 7 * w ≤ 136 * h + 64) : s.mcuHeight * s.chunk ≤ s.outLen := by
  obtain ⟨extra, e1, e2⟩ := G.outLen
  rw [e1, G.chunk, Nat.mod_eq_of_lt (by omega), Nat.mod_eq_of_lt (by omega)]
  refine room ?_ e2 hfit
  rcases G.counts with ⟨a, b, -, c, -⟩ | ⟨a, b, -, c, -⟩ | ⟨a, b, -, c, -⟩ | ⟨a, b, -, c, -⟩
  · rw [Nat.mod_eq_of_lt (by omega)] at c
    exact Or.inl ⟨a, b, c⟩
  · exact Or.inr (Or.inl ⟨a, b, c⟩)
  · exact Or.inr (Or.inr (Or.inl ⟨a, b, c⟩))
  · exact Or.inr (Or.inr (Or.inr ⟨a, b, c⟩))

namespace Spec

/-- Handing over a strip when there is room for any number of them. -/
def submitAll (s : Scan) (temp : List (List I16)) : M T Unit := fun t =>
  (.ok (), { t with jobs := t.jobs ++
      [postProcess s.idct s.color s.comps s.inCs s.outCs s.width temp
        (List.replicate s.chunk 0)] })

/-- The strips when there is room for any number of them. -/
def stripsAll (s : Scan) : Nat → M T Unit
  | 0 => pure ()
  | n + 1 => do
    let t ← M.get
    let temp ← M.ofOut (allocTemp s t.dec)
    let temp ← decodeStrip s temp
    submitAll s temp
    stripsAll s n

end Spec

/-- With room for all strips no strip fails for want of room. -/
theorem strips_eq {n : Nat} {t : T} (ht : t.dec.specEnd ≤ 63) (hb : t.io.bs.specEnd ≤ 63)
    (hr : t.jobs.length + n ≤ s.outLen / s.chunk) : strips s n t = stripsAll s n t := by
  induction n generalizing t with
  | zero => rfl
  | succ n ih =>
    unfold strips stripsAll strip
    simp only [M.bind_apply, M.get]
    rcases ha : M.ofOut (allocTemp s t.dec) t with ⟨temp | _ | _ | _, t1⟩
    · simp only
      have e1 : t1 = t := by
        cases hal : allocTemp s t.dec with
        | ok a => rw [hal] at ha; exact (Prod.mk.inj ha).2.symm
        | err a => rw [hal] at ha; cases (Prod.mk.inj ha).1
        | panic a => rw [hal] at ha; cases (Prod.mk.inj ha).1
        | diverge => rw [hal] at ha; cases (Prod.mk.inj ha).1
      subst e1
      have hds := wpT_decodeStrip stable_spec s temp (t := t1) (rd0 := t1.io.rd)
        ⟨ht, List.suffix_refl _, hb⟩
      unfold wpT wp at hds
      rcases hd : decodeStrip s temp t1 with ⟨temp' | _ | _ | _, t2⟩
      · rw [hd] at hds
        obtain ⟨h1, h2⟩ := hds
        simp only
        have e2 : submit s temp' t2 = submitAll s temp' t2 := by
          unfold submit
          rw [if_pos (by rw [h2]; omega)]
          rfl
        rw [e2]
        simp only [submitAll]
        exact ih (t := { t2 with jobs := _ }) h1.dec h1.se
          (by simp only [List.length_append, h2, List.length_singleton]; omega)
      all_goals rfl
    all_goals rfl

/-- **C45** when the image is not vertically subsampled or at most about nineteen times as wide as
high: the output buffer has a chunk for every strip, so the loop over the strips does what it
would do with any amount of room. -/
theorem c45_partial {d : Decoder} {rd : List UInt8} {h' : H} (F : Frame d w h fh fv)
    (hw : w ≤ 65527) (hh : h ≤ 65527) (hd : d.specEnd ≤ 63)
    (hs : baselineSetup ⟨d, rd⟩ = (.ok s, h'))
    (hfit : factor d fv = 1 ∨ 7 * w ≤ 136 * h + 64) :
    s.mcuHeight ≤ s.outLen / s.chunk ∧
    strips s s.mcuHeight { dec := h'.dec, io := { bs := BitStream.new, rd := h'.rd } } =
      stripsAll s s.mcuHeight { dec := h'.dec, io := { bs := BitStream.new, rd := h'.rd } } := by
  have hw' := wpT_baselineSetup_frame (s := ⟨d, rd⟩) F
  obtain ⟨G, e1, e2, e3⟩ := M.wp_ok hw' hs
  have hrel := M.wp_ok (wpT_baselineSetup (h := ⟨d, rd⟩)) hs
  have hd' : h'.dec.specEnd ≤ 63 := by
    rw [hrel.2.1.rest]
    exact hd
  have hroom : s.mcuHeight ≤ s.outLen / s.chunk := by
    rw [Nat.le_div_iff_mul_le (Nat.pos_of_ne_zero hrel.2.2.1)]
    exact room_scan G hw hh hfit
  refine ⟨hroom, strips_eq hd' (Nat.zero_le _) ?_⟩
  simpa using hroom

/-- **C45** is false: no vertically subsampled colour image whose strips need more room than there
is, is ever decoded by the baseline decoder. -/
theorem c45_lost {d : Decoder} {rd : List UInt8} {h' : H} {out : List UInt8}
    (F : Frame d w h 1 2) (hw : w ≤ 65527) (hh : h ≤ 65527) (hd : d.specEnd ≤ 63)
    (hg : d.inputColorspace ≠ .grayscale)
    (hbig : (w + 8) * (h + 8) + 128 * h < 16 * w * ((h + 15) / 16)) :
    decodeBaseline ⟨d, rd⟩ ≠ (.ok out, h') := by
  intro hr
  unfold decodeBaseline at hr
  rcases hb : baselineSetup ⟨d, rd⟩ with ⟨s | _ | _ | _, h1⟩ <;> rw [hb] at hr <;>
    simp only at hr
  · have hw' := wpT_baselineSetup_frame (s := ⟨d, rd⟩) F
    obtain ⟨G, e1, e2, e3⟩ := M.wp_ok hw' hb
    have hrel := M.wp_ok (wpT_baselineSetup (h := ⟨d, rd⟩)) hb
    have hf : ∀ f, factor d f = f := fun f => by unfold factor; rw [if_neg hg]
    rw [hf, hf] at G
    have hd' : h1.dec.specEnd ≤ 63 := by
      rw [hrel.2.1.rest]
      exact hd
    have hmh : s.mcuHeight = (h + 15) / 16 := by
      rcases G.counts with ⟨a, b, -, c, -⟩ | ⟨a, b, -, c, -⟩ | ⟨a, b, -, c, -⟩ | ⟨a, b, -, c, -⟩
      all_goals omega
    have hpos := F.hpos
    have hst := wpT_strips stable_spec s s.mcuHeight (rd0 := h1.rd)
      (t := { dec := h1.dec, io := { bs := BitStream.new, rd := h1.rd } })
      ⟨hd', List.suffix_refl _, Nat.zero_le _⟩
    rcases hrun : strips s s.mcuHeight
      { dec := h1.dec, io := { bs := BitStream.new, rd := h1.rd } } with ⟨r, t⟩
    rw [hrun] at hr
    cases r with
    | ok u =>
      have := (M.wp_ok hst hrun).2.2 (by omega)
      simp only [List.length_nil, Nat.zero_add] at this
      rw [Nat.le_div_iff_mul_le (Nat.pos_of_ne_zero hrel.2.2.1)] at this
      obtain ⟨extra, x1, x2⟩ := G.outLen
      rw [x1, x2 (by omega), G.chunk, hmh, Nat.mod_eq_of_lt (by omega), Nat.mod_eq_of_lt (by omega)]
        at this
      have hn : 0 < s.outCs.numComponents := by
        refine Nat.pos_of_ne_zero fun h0 => hrel.2.2.1 ?_
        rw [G.chunk, h0]
        ring
      generalize s.outCs.numComponents = n at this hn
      have e1 : (h + 15) / 16 * (w * n * 8 * 1 * 2) = (16 * w * ((h + 15) / 16)) * n := by ring
      have e2 : (w + 8) * (h + 8) * n + 128 * h * n = ((w + 8) * (h + 8) + 128 * h) * n := by ring
      rw [e1, e2] at this
      have := Nat.le_of_mul_le_mul_right this hn
      omega
    | err e =>
      simp only [joinPool, Prod.mk.injEq] at hr
      obtain ⟨hr, -⟩ := hr
      split at hr
      · cases hr
      · split at hr <;> cases hr
    | panic e =>
      simp only [joinPool, Prod.mk.injEq] at hr
      obtain ⟨hr, -⟩ := hr
      split at hr <;> cases hr
    | diverge =>
      simp only [joinPool, Prod.mk.injEq] at hr
      obtain ⟨hr, -⟩ := hr
      split at hr <;> cases hr
  all_goals cases hr

/-! ### Progressive images -/

theorem wpT_finishSetup_frame {q : H} {n : Nat} (F : Frame q.dec w h fh fv)
    (hg : q.dec.inputColorspace ≠ .grayscale ∨ (fh = 1 ∧ fv = 1)) :
    wpT (finishSetup n) (fun m q' => ∃ r, Prepared q.dec q'.dec w h fh fv r ∧
      q'.dec.options = q.dec.options ∧
      ((fh = 1 ∧ fv = 1 ∧ m = (n, 1)) ∨ (fh = 2 ∧ fv = 1 ∧ m = (n * 2, 1)) ∨
       (fh = 1 ∧ fv = 2 ∧ m = (n, 1)) ∨ (fh = 2 ∧ fv = 2 ∧ m = (n, 2)))) q := by
  obtain ⟨c, cs, hc, c1, c2, c3, c4, hcs⟩ := F.comps
  unfold finishSetup
  rw [wpT, wp_bind]
  refine wpT_mono wpT_setUpsampling ?_
  rintro _ q' ⟨h1, h2⟩
  rw [wp_bind, wp_getDec]
  have hno : ¬ (q'.dec.inputColorspace = .grayscale ∧ q'.dec.interleaved = true) := by
    have hrel := (setupRel_upsampling h2).rest
    have e1 : q'.dec.inputColorspace = q.dec.inputColorspace := by rw [hrel]
    have e2 : q'.dec.interleaved = q.dec.interleaved := by rw [hrel]
    rw [e1, e2, F.inter]
    rintro ⟨a, b⟩
    rcases hg with hg | ⟨rfl, rfl⟩
    · exact hg a
    · simp at b
  rw [if_neg hno, wp_pure]
  rcases setUpsampling_ok h2 with ⟨g1, g2, g3⟩ | ⟨r, u, c', cs', g1, g2, g3⟩
  · rw [F.hMax] at g1
    rw [F.vMax] at g2
    have hr : q'.dec.subSampleRatio = .none := by rw [g3]; exact F.ratio ⟨g1, g2⟩
    refine ⟨.none, ⟨by rw [g3], by rw [g3], by rw [g3], by rw [g3]; exact F.hMax,
      by rw [g3]; exact F.vMax, hr, c, cs, by rw [g3]; exact hc, c1, c2, c3,
      fun x hx => ⟨(hcs x hx).1, (hcs x hx).2.1, (hcs x hx).2.2.1⟩⟩, by rw [g3],
      Or.inl ⟨g1, g2, ?_⟩⟩
    rw [hr]
    rfl
  · rw [hc] at g2
    obtain ⟨rfl, rfl⟩ := List.cons.inj g2
    rw [F.hMax, F.vMax] at g1
    have P : Prepared q.dec q'.dec w h fh fv r := by
      refine ⟨by rw [g3], by rw [g3], by rw [g3], by rw [g3]; exact F.hMax,
        by rw [g3]; exact F.vMax, by rw [g3], ?_⟩
      refine ⟨c, cs.map fun x => { x with upSampler := u }, by rw [g3], c1, c2, c3, ?_⟩
      intro x hx
      obtain ⟨y, hy, rfl⟩ := List.mem_map.1 hx
      exact ⟨(hcs y hy).1, (hcs y hy).2.1, (hcs y hy).2.2.1⟩
    refine ⟨r, P, by rw [g3], ?_⟩
    rw [P.ratio]
    rcases g1 with ⟨q1, q2, rfl, -⟩ | ⟨q1, q2, rfl, -⟩ | ⟨q1, q2, rfl, -⟩
    · exact Or.inr (Or.inl ⟨q1, q2, rfl⟩)
    · exact Or.inr (Or.inr (Or.inl ⟨q1, q2, rfl⟩))
    · exact Or.inr (Or.inr (Or.inr ⟨q1, q2, rfl⟩))

theorem div_pairs {a n : Nat} (ha : 0 < a) (m : Nat) : a * n / (a * m) = n / m := by
  rw [Nat.mul_div_mul_left _ _ ha]

/-- **C44**, progressive: the strips that are handed to the workers hold all rows of the image if
and only if the luma component has the horizontal factor 1 or the number of MCU rows is even
(provided that the output has room for them). Otherwise the last MCU row is dropped. -/
theorem c44_progressive_partial {d : Decoder} {rd : List UInt8} {q : H} (F : Frame d w h fh fv)
    (hw : w ≤ 65527) (hh : h ≤ 65527)
    (hcs : (d.inputColorspace = .ycbcr ∧ 3 ≤ d.components.length) ∨
      (d.inputColorspace = .grayscale ∧ fh = 1 ∧ fv = 1))
    {mw mw' bias : Nat} {bufs0 bufs : List (List I16)} (ha : progAlloc d = .ok (mw, bufs0))
    (hl : bufs.map List.length = bufs0.map List.length)
    (hf : finishSetup mw ⟨d, rd⟩ = (.ok (mw', bias), q)) {ss : List (List (List I16))}
    (hss : progStrips q.dec mw' bias bufs = .ok ss) (hfit : fv = 1 ∨ 7 * w ≤ 136 * h + 64) :
    h ≤ ss.length * (8 * fh * fv) ↔ (fh = 1 ∨ 2 ∣ mcuRows h fv) := by
  have hw' := wpT_finishSetup_frame (q := ⟨d, rd⟩) (n := mw) F (by
    rcases hcs with ⟨h1, -⟩ | ⟨-, h1⟩
    · exact Or.inl (by rw [h1]; decide)
    · exact Or.inr h1)
  obtain ⟨r, P, ho, hm⟩ := M.wp_ok hw' hf
  dsimp only at P ho
  obtain ⟨c, cs, ec, hy, g1, g2, gcs⟩ := P.comps
  obtain ⟨c0, cs0, ec0, hy0, k1, k2, k3, kcs⟩ := F.comps
  -- lengths of the buffers
  have hlen : ∀ {pos : Nat} {x : Component}, d.components[pos]? = some x →
      pos < d.inputColorspace.numComponents → (bufs.getD pos []).length =
        64 * (d.mcuX * x.horizontalSample * (d.mcuY * x.verticalSample)) := by
    intro pos x hx hp
    obtain ⟨-, buf, hb, hbl⟩ := progAlloc_buf F ha hx hp
    have := congrArg (fun l => l[pos]?) hl
    simp only [List.getElem?_map, hb, Option.map_some] at this
    cases hbb : bufs[pos]? with
    | none => rw [hbb] at this; cases this
    | some b =>
      rw [hbb] at this
      simp only [Option.map_some, Option.some.injEq] at this
      rw [List.getD_eq_getElem?_getD, hbb, Option.getD_some, this, hbl]
  have hmw : mw = d.mcuX * 64 := by
    refine (progAlloc_buf F ha (pos := 0) (c := c0) (by rw [ec0]; rfl) ?_).1
    rcases hcs with ⟨h1, -⟩ | ⟨h1, -⟩ <;> rw [h1] <;> decide
  have hX : 0 < d.mcuX := by
    rw [F.mcuX]
    refine Nat.div_pos ?_ ?_
    · have := F.wpos; omega
    · have := F.fpos; omega
  -- number of strips of the luma component
  have hy0' := hlen (pos := 0) (x := c0) (by rw [ec0]; rfl)
    (by rcases hcs with ⟨h1, -⟩ | ⟨h1, -⟩ <;> rw [h1] <;> decide)
  rw [k1, k2] at hy0'
  have cnt : ∀ {L n : Nat}, L = 64 * (d.mcuX * fh * (d.mcuY * fv)) →
      n = mw' * fv * fh * bias → n ≠ 0 → L / n = if fh = 1 then d.mcuY else d.mcuY / 2 := by
    rintro L n rfl rfl hn
    rcases hm with ⟨rfl, rfl, e⟩ | ⟨rfl, rfl, e⟩ | ⟨rfl, rfl, e⟩ | ⟨rfl, rfl, e⟩ <;> cases e <;>
      rw [hmw]
    · rw [if_pos rfl, show 64 * (d.mcuX * 1 * (d.mcuY * 1)) = 64 * d.mcuX * d.mcuY by ring,
        show d.mcuX * 64 * 1 * 1 * 1 = 64 * d.mcuX * 1 by ring, div_pairs (by omega)]
      simp
    · rw [if_neg (by omega), show 64 * (d.mcuX * 2 * (d.mcuY * 1)) = 64 * d.mcuX * 2 * d.mcuY by ring,
        show d.mcuX * 64 * 2 * 1 * 2 * 1 = 64 * d.mcuX * 2 * 2 by ring, div_pairs (by omega)]
    · rw [if_pos rfl, show 64 * (d.mcuX * 1 * (d.mcuY * 2)) = 64 * d.mcuX * 2 * d.mcuY by ring,
        show d.mcuX * 64 * 2 * 1 * 1 = 64 * d.mcuX * 2 * 1 by ring, div_pairs (by omega)]
      simp
    · rw [if_neg (by omega), show 64 * (d.mcuX * 2 * (d.mcuY * 2)) = 64 * d.mcuX * 4 * d.mcuY by ring,
        show d.mcuX * 64 * 2 * 2 * 2 = 64 * d.mcuX * 4 * 2 by ring, div_pairs (by omega)]
  -- of the others
  have cnt1 : ∀ {L n : Nat}, L = 64 * (d.mcuX * 1 * (d.mcuY * 1)) →
      n = mw' * 1 * 1 * bias → n ≠ 0 → L / n = if fh = 1 then d.mcuY else d.mcuY / 2 := by
    rintro L n rfl rfl hn
    rcases hm with ⟨rfl, rfl, e⟩ | ⟨rfl, rfl, e⟩ | ⟨rfl, rfl, e⟩ | ⟨rfl, rfl, e⟩ <;> cases e <;>
      rw [hmw, show 64 * (d.mcuX * 1 * (d.mcuY * 1)) = 64 * d.mcuX * d.mcuY by ring]
    · rw [if_pos rfl, show d.mcuX * 64 * 1 * 1 * 1 = 64 * d.mcuX * 1 by ring, div_pairs (by omega)]
      simp
    · rw [if_neg (by omega), show d.mcuX * 64 * 2 * 1 * 1 * 1 = 64 * d.mcuX * 2 by ring,
        div_pairs (by omega)]
    · rw [if_pos rfl, show d.mcuX * 64 * 1 * 1 * 1 = 64 * d.mcuX * 1 by ring, div_pairs (by omega)]
      simp
    · rw [if_neg (by omega), show d.mcuX * 64 * 1 * 1 * 2 = 64 * d.mcuX * 2 by ring,
        div_pairs (by omega)]
  -- the room in the output
  have hroom : chunkLen q.dec ≠ 0 → (if fh = 1 then d.mcuY else d.mcuY / 2) ≤
      outBufferLen q.dec / chunkLen q.dec := by
    intro hz
    rw [Nat.le_div_iff_mul_le (Nat.pos_of_ne_zero hz)]
    unfold chunkLen outBufferLen
    rw [P.info, P.inter, P.hMax, P.vMax, F.width, F.height, add8_eq (by rw [F.width]; exact hw),
      add8_eq (by rw [F.height]; exact hh), F.width, F.height]
    refine room ?_ ?_ hfit
    · rw [F.mcuY]
      rcases hm with ⟨rfl, rfl, -⟩ | ⟨rfl, rfl, -⟩ | ⟨rfl, rfl, -⟩ | ⟨rfl, rfl, -⟩
      · exact Or.inl ⟨rfl, rfl, rfl⟩
      · exact Or.inr (Or.inl ⟨rfl, rfl, rfl⟩)
      · exact Or.inr (Or.inr (Or.inl ⟨rfl, rfl, rfl⟩))
      · exact Or.inr (Or.inr (Or.inr ⟨rfl, rfl, rfl⟩))
    · intro hn
      rw [F.inter]
      simp [hn]
  have hcount : ss.length = if fh = 1 then d.mcuY else d.mcuY / 2 := by
    unfold progStrips at hss
    rw [ec] at hss
    simp only [List.getElem?_cons_zero, g1, g2] at hss
    split at hss
    · cases hss
    rename_i hz
    rw [not_or] at hz
    have cy := cnt hy0' rfl hz.2
    have hroom := hroom hz.1
    rw [P.cs] at hss
    rcases hcs with ⟨h1, h3⟩ | ⟨h1, h3⟩
    · rw [h1, if_pos (by decide)] at hss
      cases cs with
      | nil => simp only [List.getElem?_cons_succ, List.getElem?_nil] at hss; cases hss
      | cons x xs =>
        obtain ⟨-, a2, a3⟩ := gcs x (by simp)
        simp only [List.getElem?_cons_succ, List.getElem?_cons_zero, a2, a3] at hss
        split at hss
        · cases hss
        rename_i hz1
        have hx : ∀ {pos}, pos = 1 ∨ pos = 2 → (bufs.getD pos []).length =
            64 * (d.mcuX * 1 * (d.mcuY * 1)) := by
          intro pos hp
          have hlt : pos < d.components.length := by omega
          obtain ⟨z, hget⟩ : ∃ z, d.components[pos]? = some z := ⟨_, List.getElem?_eq_getElem hlt⟩
          rw [hlen hget (by rw [h1]; show pos < 3; omega)]
          have hmem : z ∈ cs0 := by
            obtain ⟨p', rfl⟩ : ∃ p', pos = p' + 1 := ⟨pos - 1, by omega⟩
            rw [ec0] at hget
            rw [List.getElem?_cons_succ] at hget
            exact List.mem_of_getElem? hget
          obtain ⟨-, b2, b3, -⟩ := kcs _ hmem
          rw [b2, b3]
        have c1 := cnt1 (hx (Or.inl rfl)) rfl hz1
        have c2 := cnt1 (hx (Or.inr rfl)) rfl hz1
        simp only [Out.ok.injEq] at hss
        rw [← hss]
        simp only [List.length_map, List.length_take, List.length_zip, length_chunksExact]
        omega
    · rw [h1, if_neg (by decide)] at hss
      simp only [Out.ok.injEq] at hss
      rw [← hss]
      simp only [List.length_map, List.length_take, length_chunksExact]
      omega
  rw [hcount, F.mcuY]
  unfold mcuRows
  rcases hm with ⟨rfl, rfl, -⟩ | ⟨rfl, rfl, -⟩ | ⟨rfl, rfl, -⟩ | ⟨rfl, rfl, -⟩ <;> norm_num <;>
    omega

end

/-! ### Files -/

/-- A file of `w` x `h` pixels with three components, luma sampling factors `f`, and the given
entropy coded data. Each table has the single code `0`, for a zero difference or the end of the
block. -/
def sampledFile (w h f : UInt8) (body : List UInt8) : List UInt8 :=
  [0xFF, 0xD8] ++
  [0xFF, 0xDB, 0x00, 0x43, 0x00] ++ List.replicate 64 1 ++
  [0xFF, 0xC0, 0x00, 0x11, 8, 0, h, 0, w, 3, 1, f, 0, 2, 0x11, 0, 3, 0x11, 0] ++
  ([0xFF, 0xC4, 0x00, 0x14, 0x00, 1] ++ List.replicate 15 0 ++ [0]) ++
  ([0xFF, 0xC4, 0x00, 0x14, 0x10, 1] ++ List.replicate 15 0 ++ [0]) ++
  [0xFF, 0xDA, 0x00, 0x0C, 3, 1, 0x00, 2, 0x00, 3, 0x00, 0, 63, 0] ++ body ++ [0xFF, 0xD9]

/-- The decoder after the headers of a file. -/
def afterHeaders (buf : List UInt8) : H := (decodeHeaders ⟨Decoder.new ⟨false, false⟩, buf⟩).2

/-- A check of the conditions of `Frame`. -/
def frameCheck (d : Decoder) (w h fh fv : Nat) : Bool :=
  decide (d.info.width.toNat = w ∧ d.info.height.toNat = h ∧ 0 < w ∧ 0 < h ∧ (0 < fh ∧ 0 < fv) ∧
    d.hMax = fh ∧ d.vMax = fv ∧ d.interleaved = !decide (fh = 1 ∧ fv = 1) ∧
    d.subSampleRatio = .none ∧ d.mcuX = (w + 8 * fh - 1) / (8 * fh) ∧
    d.mcuY = (h + 8 * fv - 1) / (8 * fv)) &&
  match d.components with
  | [] => false
  | c :: cs => decide (c.componentId = .y ∧ c.horizontalSample = fh ∧ c.verticalSample = fv ∧
      c.widthStride = fh * (d.mcuX * 8)) &&
    cs.all fun x => decide (x.componentId ≠ .y ∧ x.horizontalSample = 1 ∧ x.verticalSample = 1 ∧
      x.widthStride = d.mcuX * 8)

theorem frame_of_check {d : Decoder} {w h fh fv : Nat} (hc : frameCheck d w h fh fv = true) :
    Frame d w h fh fv := by
  unfold frameCheck at hc
  rw [Bool.and_eq_true] at hc
  obtain ⟨h1, h2⟩ := hc
  obtain ⟨a1, a2, a3, a4, a5, a6, a7, a8, a9, a10, a11⟩ := of_decide_eq_true h1
  refine ⟨a1, a2, a3, a4, a5, a6, a7, a8, fun _ => a9, a10, a11, ?_⟩
  cases hcs : d.components with
  | nil => rw [hcs] at h2; cases h2
  | cons c cs =>
    rw [hcs] at h2
    dsimp only at h2
    rw [Bool.and_eq_true] at h2
    obtain ⟨h2, h3⟩ := h2
    obtain ⟨b1, b2, b3, b4⟩ := of_decide_eq_true h2
    refine ⟨c, cs, rfl, fun _ => b1, b2, b3, b4, fun x hx => ?_⟩
    obtain ⟨x1, x2⟩ := of_decide_eq_true (List.all_eq_true.1 h3 x hx)
    exact ⟨fun _ => x1, x2⟩

/-- Files of the four samplings have a frame. -/
example : Frame (afterHeaders (sampledFile 20 40 0x22 [])).dec 20 40 2 2 :=
  frame_of_check (by decide +kernel)
example : Frame (afterHeaders (sampledFile 29 1 0x12 [])).dec 29 1 1 2 :=
  frame_of_check (by decide +kernel)
example : Frame (afterHeaders (sampledFile 8 8 0x21 [])).dec 8 8 2 1 :=
  frame_of_check (by decide +kernel)
example : Frame (afterHeaders (sampledFile 30 9 0x11 [])).dec 30 9 1 1 :=
  frame_of_check (by decide +kernel)

/-- The preparations accept them. -/
example : (match baselineSetup (afterHeaders (sampledFile 20 40 0x22 [])) with
    | (.ok s, h) => decide (s.mcuWidth = 2 ∧ s.mcuHeight = 1 ∧ s.bias = 2) &&
        (match allocTemp s h.dec with
          | .ok b => decide (b.map List.length = [1024, 256, 256])
          | _ => false)
    | _ => false) = true := by decide +kernel

/-- The buffers of a progressive image, with the same frame. -/
example : (match progAlloc (afterHeaders (sampledFile 20 40 0x22 [])).dec with
    | .ok (mw, b) => decide (mw = 128 ∧ b.map List.length = [1536, 384, 384])
    | _ => false) = true := by decide +kernel

/-- **C44** is false for a whole file: an 8x8 image whose blocks are all zero should be uniformly
gray (128). With luma factors 1x1 it is; with 2x1 no row is decoded and all samples are zero. -/
theorem c44_false :
    ((Decoder.new ⟨false, false⟩).decodeBuffer (sampledFile 8 8 0x11 [0x03])).1 =
      .ok (List.replicate 192 128) ∧
    ((Decoder.new ⟨false, false⟩).decodeBuffer (sampledFile 8 8 0x21 [0x00])).1 =
      .ok (List.replicate 192 0) := by
  decide +kernel

/-- **C45** is false for a whole file: an image of 29x1 pixels with luma factors 1x2 makes the
decoder panic for want of an output chunk; with 28 columns it is decoded. -/
theorem c45_false :
    ((Decoder.new ⟨false, false⟩).decodeBuffer (sampledFile 29 1 0x12 [0, 0, 0, 0])).1 =
      .panic .unwrap ∧
    ((Decoder.new ⟨false, false⟩).decodeBuffer (sampledFile 28 1 0x12 [0, 0, 0, 0])).1.isOk =
      true := by
  decide +kernel

/-- `c45_lost` is not empty: the image of `c45_false` meets its condition. -/
example : (29 + 8) * (1 + 8) + 128 * 1 < 16 * 29 * ((1 + 15) / 16) := by decide

end Zune
