import Verif.Lemmas.ColourFile
import Verif.Props.Upsample
/-! Scans with three components: from the planes of the strips to the bytes of the output. -/

namespace Zune
open Spec

/-- A byte of the assembled output. -/
theorem assemble_get {n keep L : Nat} {parts : List (List UInt8)} (hl : ∀ p ∈ parts, p.length = L)
    (hL : 0 < L) (hkn : keep ≤ n) :
    (assemble n keep parts).length = keep ∧
    ∀ i, i < keep → (assemble n keep parts)[i]? =
      some ((parts[i / L]?.bind (·[i % L]?)).getD 0) := by
  have hf : parts.flatten.length = parts.length * L := length_flatten_const hl
  have hlen : (parts.flatten ++ List.replicate (n - parts.flatten.length) (0 : UInt8)).length ≥ n := by
    rw [List.length_append, List.length_replicate]
    omega
  unfold assemble fit
  constructor
  · rw [List.length_take, List.length_take]
    omega
  · intro i hi
    rw [List.getElem?_take_of_lt hi, List.getElem?_take_of_lt (by omega)]
    have hm : i % L < L := Nat.mod_lt _ hL
    by_cases hi' : i / L < parts.length
    · have hlt : i < parts.flatten.length := by
        rw [hf]
        calc i = i / L * L + i % L := (Nat.div_add_mod' i L).symm
          _ < i / L * L + L := by omega
          _ = (i / L + 1) * L := by ring
          _ ≤ parts.length * L := Nat.mul_le_mul_right _ hi'
      rw [List.getElem?_append_left hlt]
      have e := getElem?_flatten_const hl (i := i / L) hm
      rw [Nat.div_add_mod'] at e
      rw [e, List.getElem?_eq_getElem hi', Option.bind_some]
      rw [List.getElem?_eq_getElem (by rw [hl _ (List.getElem_mem hi')]; exact hm)]
      rfl
    · have hge : parts.flatten.length ≤ i := by
        rw [hf]
        calc parts.length * L ≤ i / L * L := Nat.mul_le_mul_right _ (by omega)
          _ ≤ i := Nat.div_mul_le_self _ _
      rw [List.getElem?_append_right hge, List.getElem?_eq_none (by omega : parts.length ≤ i / L),
        List.getElem?_replicate_of_lt (by rw [List.length_append, List.length_replicate] at hlen; omega)]
      rfl

/-- A byte of the output of an image: `R` rows in each strip, `w` pixels in each row. -/
theorem assemble_pixel {n h w nc R : Nat} {parts : List (List UInt8)}
    (hl : ∀ p ∈ parts, p.length = R * (w * nc)) (hR : 0 < R) (hkn : h * (w * nc) ≤ n) {y x c : Nat}
    (hy : y < h) (hx : x < w) (hc : c < nc) :
    (assemble n (h * (w * nc)) parts)[nc * (y * w + x) + c]? =
      some ((parts[y / R]?.bind (·[nc * (y % R * w + x) + c]?)).getD 0) := by
  have hw0 : 0 < w * nc := Nat.mul_pos (by omega) (by omega)
  have hin : nc * x + c < w * nc := by
    calc nc * x + c < nc * x + nc := by omega
      _ = (x + 1) * nc := by ring
      _ ≤ w * nc := Nat.mul_le_mul_right _ hx
  have e1 : nc * (y * w + x) + c = y * (w * nc) + (nc * x + c) := by ring
  have hlt : nc * (y * w + x) + c < h * (w * nc) := by
    rw [e1]
    calc y * (w * nc) + (nc * x + c) < y * (w * nc) + w * nc := by omega
      _ = (y + 1) * (w * nc) := by ring
      _ ≤ _ := Nat.mul_le_mul_right _ hy
  rw [(assemble_get hl (Nat.mul_pos hR hw0) hkn).2 _ hlt]
  have hq : (nc * (y * w + x) + c) / (w * nc) = y := by
    rw [e1, Nat.mul_comm y, Nat.mul_add_div hw0, Nat.div_eq_of_lt hin, Nat.add_zero]
  have hm : (nc * (y * w + x) + c) % (w * nc) = nc * x + c := by
    rw [e1, Nat.mul_comm y, Nat.mul_add_mod, Nat.mod_eq_of_lt hin]
  have e2 : (nc * (y * w + x) + c) / (R * (w * nc)) = y / R := by
    rw [Nat.mul_comm R, ← Nat.div_div_eq_div_mul, hq]
  have e3 : (nc * (y * w + x) + c) % (R * (w * nc)) = nc * (y % R * w + x) + c := by
    rw [Nat.mul_comm R, Nat.mod_mul, hq, hm]
    ring
  rw [e2, e3]

theorem joinPool_parts {n : Nat} {job : Nat → Out (List UInt8)} {part : Nat → List UInt8}
    (h : ∀ t, t < n → job t = .ok (part t)) :
    joinPool (.ok ()) ((List.range n).map job) = .ok ((List.range n).map part) := by
  refine joinPool_collect part (List.range n) ?_
  apply List.map_congr_left
  intro t ht
  exact h t (List.mem_range.1 ht)

section
variable {d : Decoder} {c0 c1 c2 : Component} {w h fh fv : Nat}

theorem keep_le (R : ColourFrame d c0 c1 c2 w h fh fv) :
    h * (w * d.options.getOutColorspace.numComponents) ≤ outBufferLen d := by
  unfold outBufferLen
  dsimp only
  rw [add8_eq (by rw [R.frame.width]; exact R.wLe), add8_eq (by rw [R.frame.height]; exact R.hLe),
    R.frame.width, R.frame.height]
  refine Nat.le_trans ?_ (Nat.le_add_right _ _)
  rw [← Nat.mul_assoc]
  apply Nat.mul_le_mul_right
  rw [Nat.mul_comm]
  exact Nat.mul_le_mul (by omega) (by omega)

theorem stripPlane_length (f : IdctFn) (qt : Nat → List Nat) (m : Nat → Nat → Nat → Nat → List Int)
    (t i : Nat) : (stripPlane f qt w fh fv m t i).length =
      stripRows fh fv i * (8 * ((colourShape fh fv i).2 * mcuCols w fh)) :=
  unitRows_length ..

/-- Upsampling succeeds in all modes. -/
theorem sampling_run {cpu : Cpu} {un : Bool} {r : SubSampRatios} {u : UpSampler}
    (hs : Sampling cpu un fh fv r u) (hX : 0 < mcuCols w fh) {p : List I16}
    (hp : p.length = 8 * fh * (8 * mcuCols w fh)) :
    ∃ p', u.run p (8 * (fh * fv) * (8 * (fh * mcuCols w fh))) = .ok p' ∧
      p'.length = 8 * (fh * fv) * (8 * (fh * mcuCols w fh)) := by
  generalize mcuCols w fh = X at *
  rcases hs with ⟨rfl, rfl, -, rfl⟩ | ⟨rfl, rfl, -, rfl⟩ | ⟨rfl, rfl, -, rfl⟩
  · have e : 8 * (2 * 1) * (8 * (2 * X)) = 2 * p.length := by omega
    rw [e]
    unfold chooseHorizontal
    split
    · obtain ⟨o, h1, h2, -⟩ := sse_get (input := p) (by omega) (by omega)
      exact ⟨o, h1, h2⟩
    · obtain ⟨o, h1, h2, -⟩ := horizontal_get (input := p) (by omega)
      exact ⟨o, h1, h2⟩
  · have e : 8 * (1 * 2) * (8 * (1 * X)) = 2 * p.length := by omega
    rw [e]
    obtain ⟨o, h1, h2, -⟩ := vertical_get (input := p) (s := 8 * X) (by omega) (by omega)
    exact ⟨o, h1, h2⟩
  · have e : 8 * (2 * 2) * (8 * (2 * X)) = 4 * p.length := by omega
    rw [e]
    have hsc : ∃ p', upsampleHv p (4 * p.length) = .ok p' ∧ p'.length = 4 * p.length := by
      obtain ⟨o, h1, h2, -⟩ := hvScalar_get (input := p) (s := 16 * X) (by omega) (by omega)
      exact ⟨o, h1, h2⟩
    unfold chooseHv
    split
    · show ∃ p', upsampleHvSimd p (4 * p.length) = .ok p' ∧ _
      obtain ⟨a, b⟩ := c54_hv_partial (input := p) (q := X) (by omega)
      by_cases hX4 : X < 4
      · rw [a hX4]
        exact hsc
      · obtain ⟨simd, -, h1, -, h2, -⟩ := b (by omega)
        exact ⟨simd, h1, h2⟩
    · exact hsc

/-- `full t i` is component `i` of strip `t` at full resolution. -/
def FullPlanes (cpu : Cpu) (un : Bool) (fh fv : Nat) (n : Nat) (part full : Nat → Nat → List I16) : Prop :=
  ∀ t, full t 0 = part t 0 ∧ ∀ i, i = 1 ∨ i = 2 → (full t i).length = n ∧
    ((fh = 1 ∧ fv = 1 ∧ full t i = part t i) ∨
      ∃ r u, Sampling cpu un fh fv r u ∧ u.run (part t i) n = .ok (full t i))

theorem exists_full (R : ColourFrame d c0 c1 c2 w h fh fv) (f : IdctFn) (qt : Nat → List Nat)
    (m : Nat → Nat → Nat → Nat → List Int) {r : SubSampRatios} {u : UpSampler}
    (hu : (fh = 1 ∧ fv = 1) ∨ Sampling d.cpu d.options.useUnsafe fh fv r u) :
    ∃ full, FullPlanes d.cpu d.options.useUnsafe fh fv (8 * (fh * fv) * (8 * (fh * mcuCols w fh)))
      (stripPlane f qt w fh fv m) full := by
  have hX : 0 < mcuCols w fh := by
    unfold mcuCols
    have := R.frame.wpos
    have := R.frame.fpos.1
    have := R.fh2
    have hf : fh = 1 ∨ fh = 2 := by omega
    rcases hf with rfl | rfl <;> omega
  have hl : ∀ t i, i ≠ 0 → (stripPlane f qt w fh fv m t i).length = 8 * fh * (8 * mcuCols w fh) := by
    intro t i hi
    rw [stripPlane_length]
    unfold stripRows colourShape
    rw [if_neg hi]
    ring
  rcases hu with ⟨rfl, rfl⟩ | hs
  · refine ⟨stripPlane f qt w 1 1 m, fun t => ⟨rfl, fun i hi => ⟨?_, Or.inl ⟨rfl, rfl, rfl⟩⟩⟩⟩
    rw [hl t i (by omega)]
    ring
  · have key : ∀ t i, ∃ p', i ≠ 0 → u.run (stripPlane f qt w fh fv m t i)
          (8 * (fh * fv) * (8 * (fh * mcuCols w fh))) = .ok p' ∧
        p'.length = 8 * (fh * fv) * (8 * (fh * mcuCols w fh)) := by
      intro t i
      by_cases hi : i = 0
      · exact ⟨[], fun h => absurd hi h⟩
      · obtain ⟨p', h1, h2⟩ := sampling_run hs hX (hl t i hi)
        exact ⟨p', fun _ => ⟨h1, h2⟩⟩
    choose g hg using key
    refine ⟨fun t i => if i = 0 then stripPlane f qt w fh fv m t 0 else g t i, fun t => ⟨by simp, ?_⟩⟩
    intro i hi
    have hi0 : i ≠ 0 := by omega
    dsimp only
    rw [if_neg hi0]
    exact ⟨(hg t i hi0).2, Or.inr ⟨r, u, hs, (hg t i hi0).1⟩⟩

theorem sampling_unique {cpu : Cpu} {un : Bool} {r r' : SubSampRatios} {u u' : UpSampler}
    (h1 : Sampling cpu un fh fv r u) (h2 : Sampling cpu un fh fv r' u') : u = u' := by
  rcases h1 with ⟨a, b, -, rfl⟩ | ⟨a, b, -, rfl⟩ | ⟨a, b, -, rfl⟩ <;>
    rcases h2 with ⟨a', b', -, rfl⟩ | ⟨a', b', -, rfl⟩ | ⟨a', b', -, rfl⟩ <;> first | rfl | omega

/-- The result of an image: the jobs of the strips and what they get, the planes of the strips and how they
are upsampled. -/
def ColourJobs (d : Decoder) (c0 c1 c2 : Component) (w h fh fv : Nat) (m : Nat → Nat → Nat → Nat → List Int)
    (oc : ColorSpace) (nc : Nat) (full : Nat → Nat → List I16) (res : Out (List UInt8)) : Prop :=
  ∃ u1 u2, res = (joinPool (.ok ()) ((List.range (stripCount h fh fv)).map fun t =>
            postProcessInner d.colorFn [c0, { c1 with upSampler := u1 }, { c2 with upSampler := u2 }]
              .ycbcr oc w ((List.range (min 3 nc)).map
                (stripPlane d.idctFn (fun i => [c0, c1, c2][i]?.elim [] (·.quantTable)) w fh fv m t))
              (List.replicate (8 * (fh * fv) * (w * nc)) 0))).map
          (assemble (outBufferLen d) (h * (w * nc))) ∧
      FullPlanes d.cpu d.options.useUnsafe fh fv (8 * (fh * fv) * (8 * (fh * mcuCols w fh)))
        (stripPlane d.idctFn (fun i => [c0, c1, c2][i]?.elim [] (·.quantTable)) w fh fv m) full ∧
      ∀ t, (full t 0).length = 8 * (fh * fv) * (8 * (fh * mcuCols w fh)) ∧
        Upsampled c0 { c1 with upSampler := u1 } (8 * (fh * fv) * (8 * (fh * mcuCols w fh)))
          (stripPlane d.idctFn (fun i => [c0, c1, c2][i]?.elim [] (·.quantTable)) w fh fv m t 1)
          (full t 1) ∧
        Upsampled c0 { c2 with upSampler := u2 } (8 * (fh * fv) * (8 * (fh * mcuCols w fh)))
          (stripPlane d.idctFn (fun i => [c0, c1, c2][i]?.elim [] (·.quantTable)) w fh fv m t 2)
          (full t 2)

theorem colour_result (R : ColourFrame d c0 c1 c2 w h fh fv) {r : SubSampRatios} {u1 u2 : UpSampler}
    (hu : (fh = 1 ∧ fv = 1) ∨ (u1 = u2 ∧ Sampling d.cpu d.options.useUnsafe fh fv r u1))
    {m : Nat → Nat → Nat → Nat → List Int} {oc : ColorSpace} {nc : Nat} {res : Out (List UInt8)}
    (hdec : res = (joinPool (.ok ()) ((List.range (stripCount h fh fv)).map fun t =>
            postProcessInner d.colorFn [c0, { c1 with upSampler := u1 }, { c2 with upSampler := u2 }]
              .ycbcr oc w ((List.range (min 3 nc)).map
                (stripPlane d.idctFn (fun i => [c0, c1, c2][i]?.elim [] (·.quantTable)) w fh fv m t))
              (List.replicate (8 * (fh * fv) * (w * nc)) 0))).map
          (assemble (outBufferLen d) (h * (w * nc)))) :
    ∃ full, ColourJobs d c0 c1 c2 w h fh fv m oc nc full res := by
  obtain ⟨full, hfull⟩ := exists_full (r := r) (u := u1) R d.idctFn
    (fun i => [c0, c1, c2][i]?.elim [] (·.quantTable)) m (hu.imp id And.right)
  obtain ⟨q1, q2, q3, q4, q5⟩ := R.shape
  refine ⟨full, u1, u2, hdec, hfull, fun t => ?_⟩
  obtain ⟨f0, fi⟩ := hfull t
  have hup : ∀ (c : Component) (u : UpSampler) i, (i = 1 ∧ u = u1) ∨ (i = 2 ∧ u = u2) →
      Upsampled c0 { c with upSampler := u } (8 * (fh * fv) * (8 * (fh * mcuCols w fh)))
        (stripPlane d.idctFn (fun i => [c0, c1, c2][i]?.elim [] (·.quantTable)) w fh fv m t i)
        (full t i) := by
    intro c u i hi
    unfold Upsampled
    rw [q2, q3]
    rcases (fi i (by omega)).2 with ⟨a, b, e⟩ | ⟨r', u', hs, e⟩
    · rw [if_pos ⟨a, b⟩]
      exact e
    · have hn : ¬ (fh = 1 ∧ fv = 1) := by
        rcases hs with ⟨a, b, -⟩ | ⟨a, b, -⟩ | ⟨a, b, -⟩ <;> omega
      rw [if_neg hn]
      rcases hu with hu | ⟨hu, hs'⟩
      · exact absurd hu hn
      · have : u = u' := by
          rw [sampling_unique hs hs']
          rcases hi with ⟨-, hi⟩ | ⟨-, hi⟩ <;> rw [hi]
          rw [hu]
        show u.run _ _ = _
        rw [this]
        exact e
  refine ⟨?_, hup c1 u1 1 (Or.inl ⟨rfl, rfl⟩), hup c2 u2 2 (Or.inr ⟨rfl, rfl⟩)⟩
  rw [f0, stripPlane_length]
  rfl

/-- The jobs of a baseline scan. -/
theorem colour_jobs_dec (R : ColourReady d c0 c1 c2 w h fh fv) {C : Nat → Codes}
    (hT : CompTables d [c0, c1, c2] C) (hfit : fv = 1 ∨ 7 * w ≤ 136 * h + 64)
    {m : Nat → Nat → Nat → Nat → List Int} {fill trailer : List UInt8}
    {rs : Nat} (hrs : rs ≠ 0 → d.restartInterval = rs ∧ d.todo = rs) (hok : ColourOk C w h fh fv rs m fill) {oc : ColorSpace} {nc : Nat}
    (hout : d.options.getOutColorspace = oc) (hnc : oc.numComponents = nc) :
    ∃ full res h',
      decodeBaseline ⟨d, colourBytes C w h fh fv rs m fill ++ 0xFF :: 0xD9 :: trailer⟩ =
        (res, h') ∧ ColourJobs d c0 c1 c2 w h fh fv m oc nc full res ∧
      ∃ cs r k, (fh = 1 ∧ fv = 1 → r = .none) ∧
        h'.dec = { d with components := cs, subSampleRatio := r, todo := k } := by
  obtain ⟨r, u1, u2, p, k, rd', hu, hr, hdec⟩ := colour_baseline (trailer := trailer) R hT hfit hrs hok
  rw [hout, hnc] at hdec
  obtain ⟨full, hj⟩ := colour_result R.toColourFrame hu (m := m) (oc := oc) (nc := nc) rfl
  exact ⟨full, _, _, hdec, hj, _, r, k, hr, rfl⟩

theorem colour_jobs (R : ColourReady d c0 c1 c2 w h fh fv) {C : Nat → Codes}
    (hT : CompTables d [c0, c1, c2] C) (hfit : fv = 1 ∨ 7 * w ≤ 136 * h + 64)
    {m : Nat → Nat → Nat → Nat → List Int} {fill trailer : List UInt8}
    {rs : Nat} (hrs : rs ≠ 0 → d.restartInterval = rs ∧ d.todo = rs) (hok : ColourOk C w h fh fv rs m fill) {oc : ColorSpace} {nc : Nat}
    (hout : d.options.getOutColorspace = oc) (hnc : oc.numComponents = nc) :
    ∃ full res h',
      decodeBaseline ⟨d, colourBytes C w h fh fv rs m fill ++ 0xFF :: 0xD9 :: trailer⟩ =
        (res, h') ∧ ColourJobs d c0 c1 c2 w h fh fv m oc nc full res := by
  obtain ⟨full, res, h', h1, h2, -⟩ := colour_jobs_dec (trailer := trailer) R hT hfit hrs hok hout hnc
  exact ⟨full, res, h', h1, h2⟩

theorem ColourJobs.planes {m : Nat → Nat → Nat → Nat → List Int} {oc : ColorSpace} {nc : Nat}
    {full : Nat → Nat → List I16} {res : Out (List UInt8)}
    (hj : ColourJobs d c0 c1 c2 w h fh fv m oc nc full res) :
    FullPlanes d.cpu d.options.useUnsafe fh fv (8 * (fh * fv) * (8 * (fh * mcuCols w fh)))
      (stripPlane d.idctFn (fun i => [c0, c1, c2][i]?.elim [] (·.quantTable)) w fh fv m) full := by
  obtain ⟨u1, u2, -, h, -⟩ := hj
  exact h

/-- What the jobs leave is assembled. -/
theorem colour_parts (R : ColourFrame d c0 c1 c2 w h fh fv) {nc : Nat}
    (hnc : d.options.getOutColorspace.numComponents = nc) (hn0 : 0 < nc)
    {job : Nat → Out (List UInt8)} {part : Nat → List UInt8} (hjob : ∀ t, t < stripCount h fh fv → job t = .ok (part t))
    (hlen : ∀ t, (part t).length = 8 * (fh * fv) * (w * nc)) :
    ∃ out, (joinPool (.ok ()) ((List.range (stripCount h fh fv)).map job)).map
        (assemble (outBufferLen d) (h * (w * nc))) = .ok out ∧ out.length = h * (w * nc) ∧
      ∀ y x c, y < h → x < w → c < nc → out[nc * (y * w + x) + c]? =
        some (if y / (8 * (fh * fv)) < stripCount h fh fv then
          ((part (y / (8 * (fh * fv))))[nc * (y % (8 * (fh * fv)) * w + x) + c]?).getD 0 else 0) := by
  have hf := R.frame.fpos
  have hff : 0 < fh * fv := Nat.mul_pos hf.1 hf.2
  have hw0 := R.frame.wpos
  have hkeep := keep_le R
  rw [hnc] at hkeep
  rw [joinPool_parts hjob]
  have hl : ∀ l ∈ (List.range (stripCount h fh fv)).map part, l.length = 8 * (fh * fv) * (w * nc) := by
    intro l hl
    obtain ⟨t, -, rfl⟩ := List.mem_map.1 hl
    exact hlen t
  refine ⟨_, rfl, (assemble_get hl (Nat.mul_pos (by omega) (Nat.mul_pos hw0 hn0)) hkeep).1, ?_⟩
  intro y x c hy hx hc
  show (assemble _ _ _)[_]? = _
  rw [assemble_pixel (R := 8 * (fh * fv)) hl (by omega) hkeep hy hx hc, List.getElem?_map]
  by_cases ht : y / (8 * (fh * fv)) < stripCount h fh fv
  · rw [List.getElem?_range ht, if_pos ht]
    rfl
  · rw [if_neg ht, List.getElem?_eq_none (by rw [List.length_range]; omega)]
    rfl

theorem padded_width (R : ColourFrame d c0 c1 c2 w h fh fv) :
    w ≤ 8 * (fh * mcuCols w fh) ∧ 8 * (fh * mcuCols w fh) ≤ w + 15 ∧
      (w ≤ 16 → 8 * (fh * mcuCols w fh) ≤ 16) := by
  unfold mcuCols
  have := R.fh2
  have := R.frame.fpos.1
  have hf' : fh = 1 ∨ fh = 2 := by omega
  rcases hf' with rfl | rfl <;> omega

/-- With YCbCr output. -/
theorem ycbcr_image (R : ColourFrame d c0 c1 c2 w h fh fv)
    {m : Nat → Nat → Nat → Nat → List Int} {full : Nat → Nat → List I16} {res : Out (List UInt8)}
    (hj : ColourJobs d c0 c1 c2 w h fh fv m .ycbcr 3 full res)
    (hout : d.options.getOutColorspace = .ycbcr) :
    ∃ out, res = .ok out ∧ out.length = h * (w * 3) ∧
      ∀ y x c, y < h → x < w → c < 3 → out[3 * (y * w + x) + c]? =
        some (if y / (8 * (fh * fv)) < stripCount h fh fv then
          lowByte ((full (y / (8 * (fh * fv))) c).getD
            (y % (8 * (fh * fv)) * (8 * (fh * mcuCols w fh)) + x) 0) else 0) := by
  obtain ⟨u1, u2, hdec, hfull, hup⟩ := hj
  obtain ⟨q1, q2, q3, q4, q5⟩ := R.shape
  have hf := R.frame.fpos
  have hff : 0 < fh * fv := Nat.mul_pos hf.1 hf.2
  have hw0 := R.frame.wpos
  obtain ⟨hX, -⟩ := padded_width R
  have hjob : ∀ t, ∃ part, postProcessInner d.colorFn
        [c0, { c1 with upSampler := u1 }, { c2 with upSampler := u2 }] .ycbcr .ycbcr w
        ((List.range (min 3 3)).map
          (stripPlane d.idctFn (fun i => [c0, c1, c2][i]?.elim [] (·.quantTable)) w fh fv m t))
        (List.replicate (8 * (fh * fv) * (w * 3)) 0) = .ok part ∧
      part.length = 8 * (fh * fv) * (w * 3) ∧
      ∀ row x c, row < 8 * (fh * fv) → x < w → c < 3 → part[3 * (row * w + x) + c]? =
        some (lowByte ((full t c).getD (row * (8 * (fh * mcuCols w fh)) + x) 0)) := by
    intro t
    obtain ⟨f0, fi⟩ := hfull t
    obtain ⟨hl, hu1, hu2⟩ := hup t
    have hl0 := hl
    rw [f0] at hl0
    rw [← hl0] at hu1 hu2
    obtain ⟨part, e1, e2, e3, -⟩ := c36_ycbcr (f := d.colorFn) (cs := []) (w := w)
      (pw := 8 * (fh * mcuCols w fh)) (rows := 8 * (fh * fv))
      (out := List.replicate (8 * (fh * fv) * (w * 3)) 0) hu1 hu2 hX (by omega) (by omega)
      (by rw [q2, q3]) hl0 (fi 1 (Or.inl rfl)).1 (fi 2 (Or.inr rfl)).1 (by rw [List.length_replicate])
    refine ⟨part, e1, by rw [e2, List.length_replicate], fun row x c hrow hx hc => ?_⟩
    obtain ⟨b, pl, s, g1, g2, g3, g4⟩ := e3 row x c hrow hx hc
    have hpl : full t c = pl := by
      have hc' : c = 0 ∨ c = 1 ∨ c = 2 := by omega
      rcases hc' with rfl | rfl | rfl
      · rw [f0]; exact Option.some.inj g2
      · exact Option.some.inj g2
      · exact Option.some.inj g2
    rw [g1, isByteOf_eq g4, hpl, List.getD_eq_getElem?_getD, g3]
    rfl
  choose part hp1 hp2 hp3 using hjob
  obtain ⟨out, ho1, ho2, ho3⟩ := colour_parts (nc := 3) R (by rw [hout]; rfl) (by omega) (fun t _ => hp1 t) hp2
  rw [ho1] at hdec
  refine ⟨out, hdec, ho2, fun y x c hy hx hc => ?_⟩
  rw [ho3 y x c hy hx hc]
  split
  · rw [hp3 _ _ x c (Nat.mod_lt _ (by omega)) hx hc]
    rfl
  · rfl

/-- The same for a baseline scan. -/
theorem ycbcr_out (R : ColourReady d c0 c1 c2 w h fh fv) {C : Nat → Codes}
    (hT : CompTables d [c0, c1, c2] C) (hfit : fv = 1 ∨ 7 * w ≤ 136 * h + 64)
    {m : Nat → Nat → Nat → Nat → List Int} {fill trailer : List UInt8}
    {rs : Nat} (hrs : rs ≠ 0 → d.restartInterval = rs ∧ d.todo = rs) (hok : ColourOk C w h fh fv rs m fill)
    (hout : d.options.getOutColorspace = .ycbcr) :
    ∃ out h' full, decodeBaseline ⟨d, colourBytes C w h fh fv rs m fill ++
        0xFF :: 0xD9 :: trailer⟩ = (.ok out, h') ∧ out.length = h * (w * 3) ∧
      FullPlanes d.cpu d.options.useUnsafe fh fv (8 * (fh * fv) * (8 * (fh * mcuCols w fh)))
        (stripPlane d.idctFn (fun i => [c0, c1, c2][i]?.elim [] (·.quantTable)) w fh fv m) full ∧
      ∀ y x c, y < h → x < w → c < 3 → out[3 * (y * w + x) + c]? =
        some (if y / (8 * (fh * fv)) < stripCount h fh fv then
          lowByte ((full (y / (8 * (fh * fv))) c).getD
            (y % (8 * (fh * fv)) * (8 * (fh * mcuCols w fh)) + x) 0) else 0) := by
  obtain ⟨full, res, h', hdec, hj⟩ := colour_jobs (trailer := trailer) R hT hfit hrs hok
    (oc := .ycbcr) (nc := 3) hout rfl
  obtain ⟨out, h1, h2, h3⟩ := ycbcr_image R.toColourFrame hj hout
  rw [h1] at hdec
  exact ⟨out, h', full, hdec, h2, hj.planes, h3⟩

theorem samples_near {l : List I16} (h : Samples l) : Near l := fun x hx => by
  have := h x hx
  omega

/-- With RGB output. -/
theorem rgb_bytes (R : ColourFrame d c0 c1 c2 w h fh fv)
    {m : Nat → Nat → Nat → Nat → List Int} {full : Nat → Nat → List I16} {res : Out (List UInt8)}
    (hj : ColourJobs d c0 c1 c2 w h fh fv m .rgb 3 full res)
    (hout : d.options.getOutColorspace = .rgb) (hfn : d.colorFn.Three)
    (hsse : d.colorFn = .rgbSse → 22 ≤ w ∧ 16 * (8 * (fh * mcuCols w fh) / 16 - 1) + 6 ≤ w)
    (hsm : ∀ t i, t < stripCount h fh fv → i < 3 → Near (full t i)) :
    ∃ out, res = .ok out ∧ out.length = h * (w * 3) ∧
      ∀ y j, y < h → j < w * 3 →
        (y / (8 * (fh * fv)) < stripCount h fh fv → ∀ x c,
          rowSource w (8 * (fh * mcuCols w fh)) j = some (x, c) → ∃ b, out[y * (w * 3) + j]? = some b ∧
          IsPixel (full (y / (8 * (fh * fv))) 0) (full (y / (8 * (fh * fv))) 1)
            (full (y / (8 * (fh * fv))) 2) (y % (8 * (fh * fv)) * (8 * (fh * mcuCols w fh)) + x) c b) ∧
        (¬ y / (8 * (fh * fv)) < stripCount h fh fv ∨
          rowSource w (8 * (fh * mcuCols w fh)) j = none → out[y * (w * 3) + j]? = some 0) := by
  obtain ⟨u1, u2, hdec, hfull, hup⟩ := hj
  obtain ⟨q1, q2, q3, q4, q5⟩ := R.shape
  have hf := R.frame.fpos
  have hff : 0 < fh * fv := Nat.mul_pos hf.1 hf.2
  have hw0 := R.frame.wpos
  obtain ⟨hX, hX2, hX3⟩ := padded_width R
  have hjob : ∀ t, t < stripCount h fh fv → ∃ part, postProcessInner d.colorFn
        [c0, { c1 with upSampler := u1 }, { c2 with upSampler := u2 }] .ycbcr .rgb w
        ((List.range (min 3 3)).map
          (stripPlane d.idctFn (fun i => [c0, c1, c2][i]?.elim [] (·.quantTable)) w fh fv m t))
        (List.replicate (8 * (fh * fv) * (w * 3)) 0) = .ok part ∧
      part.length = 8 * (fh * fv) * (w * 3) ∧
      ∀ row j, row < 8 * (fh * fv) → j < w * 3 →
        (∀ x c, rowSource w (8 * (fh * mcuCols w fh)) j = some (x, c) →
          ∃ b, part[row * (w * 3) + j]? = some b ∧
          IsPixel (full t 0) (full t 1) (full t 2) (row * (8 * (fh * mcuCols w fh)) + x) c b) ∧
        (rowSource w (8 * (fh * mcuCols w fh)) j = none → part[row * (w * 3) + j]? = some 0) := by
    intro t ht
    obtain ⟨f0, fi⟩ := hfull t
    obtain ⟨hl, hu1, hu2⟩ := hup t
    have s0 := hsm t 0 ht (by omega)
    have hl0 := hl
    rw [f0] at hl0 s0
    rw [← hl0] at hu1 hu2
    obtain ⟨part, e1, e2, e3, -⟩ := c38_exact_partial (f := d.colorFn) (cs := []) (w := w)
      (pw := 8 * (fh * mcuCols w fh)) (rows := 8 * (fh * fv))
      (out := List.replicate (8 * (fh * fv) * (w * 3)) 0) hfn hsse hu1 hu2 hw0 hX hX2 hX3 (by omega)
      (by rw [q2, q3]) hl0 (fi 1 (Or.inl rfl)).1 (fi 2 (Or.inr rfl)).1 s0 (hsm t 1 ht (by omega))
      (hsm t 2 ht (by omega)) (by rw [List.length_replicate])
    refine ⟨part, e1, by rw [e2, List.length_replicate], fun row j hrow hjw => ?_⟩
    rw [f0]
    refine ⟨(e3 row j hrow hjw).1, fun hn => ?_⟩
    rw [(e3 row j hrow hjw).2 hn, List.getElem?_replicate_of_lt]
    calc row * (w * 3) + j < row * (w * 3) + w * 3 := by omega
      _ = (row + 1) * (w * 3) := by ring
      _ ≤ _ := Nat.mul_le_mul_right _ hrow
  choose! part' hp1' hp2' hp3' using hjob
  obtain ⟨part, hpart⟩ : ∃ part : Nat → List UInt8, part = fun t =>
      if t < stripCount h fh fv then part' t else List.replicate (8 * (fh * fv) * (w * 3)) 0 := ⟨_, rfl⟩
  have hpt : ∀ t, t < stripCount h fh fv → part t = part' t := fun t ht => by rw [hpart]; exact if_pos ht
  have hp2 : ∀ t, (part t).length = 8 * (fh * fv) * (w * 3) := by
    intro t
    by_cases ht : t < stripCount h fh fv
    · rw [hpt t ht, hp2' t ht]
    · rw [hpart]
      dsimp only
      rw [if_neg ht, List.length_replicate]
  obtain ⟨out, ho1, ho2, ho3⟩ := colour_parts (nc := 3) R (by rw [hout]; rfl) (by omega)
    (fun t ht => (hp1' t ht).trans (congrArg Out.ok (hpt t ht).symm)) hp2
  rw [ho1] at hdec
  refine ⟨out, hdec, ho2, fun y j hy hjw => ?_⟩
  have hidx : ∀ r, 3 * (r * w + j / 3) + j % 3 = r * (w * 3) + j := by
    intro r
    have := Nat.div_add_mod j 3
    calc 3 * (r * w + j / 3) + j % 3 = r * (w * 3) + (3 * (j / 3) + j % 3) := by ring
      _ = _ := by rw [this]
  have hg := ho3 y (j / 3) (j % 3) hy (by omega) (by omega)
  rw [hidx] at hg
  have hp3 := fun ht => hp3' (y / (8 * (fh * fv))) ht (y % (8 * (fh * fv))) j (Nat.mod_lt _ (by omega)) hjw
  rw [hg]
  constructor
  · intro hrow x c hs
    obtain ⟨b, hb1, hb2⟩ := (hp3 hrow).1 x c hs
    refine ⟨b, ?_, hb2⟩
    rw [if_pos hrow, hidx, hpt _ hrow, hb1]
    rfl
  · intro hn
    by_cases hrow : y / (8 * (fh * fv)) < stripCount h fh fv
    · rcases hn with hn | hn
      · exact absurd hrow hn
      · rw [if_pos hrow, hidx, hpt _ hrow, (hp3 hrow).2 hn]
        rfl
    · rw [if_neg hrow]

/-- The columns that are stored in their places. -/
theorem rowSource_same {w pw x c : Nat} (hw : w ≤ pw) (hpw : pw ≤ w + 15) (hx : x < w)
    (hx2 : 16 < w → x + 31 < w) (hc : c < 3) : rowSource w pw (3 * x + c) = some (x, c) := by
  unfold rowSource
  dsimp only
  by_cases h16 : w ≤ 16
  · rw [if_pos h16, show (3 * x + c) / 3 = x by omega, show (3 * x + c) % 3 = c by omega]
  · rw [if_neg h16, if_neg (by omega), if_pos (by omega), show (3 * x + c) / 3 = x by omega,
      show (3 * x + c) % 3 = c by omega]

/-- With RGB output, except for the right edge of wide images. -/
theorem rgb_image (R : ColourFrame d c0 c1 c2 w h fh fv)
    {m : Nat → Nat → Nat → Nat → List Int} {full : Nat → Nat → List I16} {res : Out (List UInt8)}
    (hj : ColourJobs d c0 c1 c2 w h fh fv m .rgb 3 full res)
    (hout : d.options.getOutColorspace = .rgb) (hfn : d.colorFn.Three)
    (hsse : d.colorFn = .rgbSse → 22 ≤ w ∧ 16 * (8 * (fh * mcuCols w fh) / 16 - 1) + 6 ≤ w)
    (hsm : ∀ t i, t < stripCount h fh fv → i < 3 → Near (full t i)) :
    ∃ out, res = .ok out ∧ out.length = h * (w * 3) ∧
      ∀ y x c, y < h → x < w → (16 < w → x + 31 < w) → c < 3 →
        y / (8 * (fh * fv)) < stripCount h fh fv → ∃ b, out[3 * (y * w + x) + c]? = some b ∧
        IsPixel (full (y / (8 * (fh * fv))) 0) (full (y / (8 * (fh * fv))) 1)
          (full (y / (8 * (fh * fv))) 2) (y % (8 * (fh * fv)) * (8 * (fh * mcuCols w fh)) + x) c b := by
  obtain ⟨out, h1, h2, h3⟩ := rgb_bytes R hj hout hfn hsse hsm
  obtain ⟨hX, hX2, hX3⟩ := padded_width R
  refine ⟨out, h1, h2, fun y x c hy hx hx2 hc hrow => ?_⟩
  have := (h3 y (3 * x + c) hy (by omega)).1 hrow x c (rowSource_same hX hX2 hx hx2 hc)
  rwa [show y * (w * 3) + (3 * x + c) = 3 * (y * w + x) + c by ring] at this

/-- The same for a baseline scan. -/
theorem rgb_out (R : ColourReady d c0 c1 c2 w h fh fv) {C : Nat → Codes}
    (hT : CompTables d [c0, c1, c2] C) (hfit : fv = 1 ∨ 7 * w ≤ 136 * h + 64)
    {m : Nat → Nat → Nat → Nat → List Int} {fill trailer : List UInt8}
    {rs : Nat} (hrs : rs ≠ 0 → d.restartInterval = rs ∧ d.todo = rs) (hok : ColourOk C w h fh fv rs m fill)
    (hout : d.options.getOutColorspace = .rgb) (hfn : d.colorFn.Three)
    (hsse : d.colorFn = .rgbSse → 22 ≤ w ∧ 16 * (8 * (fh * mcuCols w fh) / 16 - 1) + 6 ≤ w)
    (hsm : ∀ full, FullPlanes d.cpu d.options.useUnsafe fh fv (8 * (fh * fv) * (8 * (fh * mcuCols w fh)))
        (stripPlane d.idctFn (fun i => [c0, c1, c2][i]?.elim [] (·.quantTable)) w fh fv m) full →
      ∀ t i, i < 3 → Near (full t i)) :
    ∃ out h' full, decodeBaseline ⟨d, colourBytes C w h fh fv rs m fill ++
        0xFF :: 0xD9 :: trailer⟩ = (.ok out, h') ∧ out.length = h * (w * 3) ∧
      FullPlanes d.cpu d.options.useUnsafe fh fv (8 * (fh * fv) * (8 * (fh * mcuCols w fh)))
        (stripPlane d.idctFn (fun i => [c0, c1, c2][i]?.elim [] (·.quantTable)) w fh fv m) full ∧
      ∀ y x c, y < h → x < w → (16 < w → x + 31 < w) → c < 3 →
        y / (8 * (fh * fv)) < stripCount h fh fv → ∃ b, out[3 * (y * w + x) + c]? = some b ∧
        IsPixel (full (y / (8 * (fh * fv))) 0) (full (y / (8 * (fh * fv))) 1)
          (full (y / (8 * (fh * fv))) 2) (y % (8 * (fh * fv)) * (8 * (fh * mcuCols w fh)) + x) c b := by
  obtain ⟨full, res, h', hdec, hj⟩ := colour_jobs (trailer := trailer) R hT hfit hrs hok
    (oc := .rgb) (nc := 3) hout rfl
  obtain ⟨out, h1, h2, h3⟩ := rgb_image R.toColourFrame hj hout hfn hsse (fun t i _ => hsm full hj.planes t i)
  rw [h1] at hdec
  exact ⟨out, h', full, hdec, h2, hj.planes, h3⟩

/-- All bytes. -/
theorem rgb_out_bytes (R : ColourReady d c0 c1 c2 w h fh fv) {C : Nat → Codes}
    (hT : CompTables d [c0, c1, c2] C) (hfit : fv = 1 ∨ 7 * w ≤ 136 * h + 64)
    {m : Nat → Nat → Nat → Nat → List Int} {fill trailer : List UInt8}
    {rs : Nat} (hrs : rs ≠ 0 → d.restartInterval = rs ∧ d.todo = rs) (hok : ColourOk C w h fh fv rs m fill)
    (hout : d.options.getOutColorspace = .rgb) (hfn : d.colorFn.Three)
    (hsse : d.colorFn = .rgbSse → 22 ≤ w ∧ 16 * (8 * (fh * mcuCols w fh) / 16 - 1) + 6 ≤ w)
    (hsm : ∀ full, FullPlanes d.cpu d.options.useUnsafe fh fv (8 * (fh * fv) * (8 * (fh * mcuCols w fh)))
        (stripPlane d.idctFn (fun i => [c0, c1, c2][i]?.elim [] (·.quantTable)) w fh fv m) full →
      ∀ t i, i < 3 → Near (full t i)) :
    ∃ out h' full, decodeBaseline ⟨d, colourBytes C w h fh fv rs m fill ++
        0xFF :: 0xD9 :: trailer⟩ = (.ok out, h') ∧ out.length = h * (w * 3) ∧
      FullPlanes d.cpu d.options.useUnsafe fh fv (8 * (fh * fv) * (8 * (fh * mcuCols w fh)))
        (stripPlane d.idctFn (fun i => [c0, c1, c2][i]?.elim [] (·.quantTable)) w fh fv m) full ∧
      ∀ y j, y < h → j < w * 3 →
        (y / (8 * (fh * fv)) < stripCount h fh fv → ∀ x c,
          rowSource w (8 * (fh * mcuCols w fh)) j = some (x, c) → ∃ b, out[y * (w * 3) + j]? = some b ∧
          IsPixel (full (y / (8 * (fh * fv))) 0) (full (y / (8 * (fh * fv))) 1)
            (full (y / (8 * (fh * fv))) 2) (y % (8 * (fh * fv)) * (8 * (fh * mcuCols w fh)) + x) c b) ∧
        (¬ y / (8 * (fh * fv)) < stripCount h fh fv ∨
          rowSource w (8 * (fh * mcuCols w fh)) j = none → out[y * (w * 3) + j]? = some 0) := by
  obtain ⟨full, res, h', hdec, hj⟩ := colour_jobs (trailer := trailer) R hT hfit hrs hok
    (oc := .rgb) (nc := 3) hout rfl
  obtain ⟨out, h1, h2, h3⟩ := rgb_bytes R.toColourFrame hj hout hfn hsse (fun t i _ => hsm full hj.planes t i)
  rw [h1] at hdec
  exact ⟨out, h', full, hdec, h2, hj.planes, h3⟩

/-- With grayscale output. -/
theorem gray_image (R : ColourFrame d c0 c1 c2 w h fh fv)
    {m : Nat → Nat → Nat → Nat → List Int} {full : Nat → Nat → List I16} {res : Out (List UInt8)}
    (hj : ColourJobs d c0 c1 c2 w h fh fv m .grayscale 1 full res)
    (hout : d.options.getOutColorspace = .grayscale)
    (hwide : 8 * (fh * fv) * (8 * (fh * mcuCols w fh)) < (8 * (fh * fv) + 1) * w) :
    ∃ out, res = .ok out ∧ out.length = h * w ∧
      ∀ y x, y < h → x < w → out[y * w + x]? =
        some (if y / (8 * (fh * fv)) < stripCount h fh fv then
          lowByte ((stripPlane d.idctFn (fun i => [c0, c1, c2][i]?.elim [] (·.quantTable)) w fh fv m
            (y / (8 * (fh * fv))) 0).getD (y % (8 * (fh * fv)) * (8 * (fh * mcuCols w fh)) + x) 0) else 0) := by
  obtain ⟨u1, u2, hdec, hfull, hup⟩ := hj
  have hf := R.frame.fpos
  have hff : 0 < fh * fv := Nat.mul_pos hf.1 hf.2
  have hw0 := R.frame.wpos
  obtain ⟨hX, -⟩ := padded_width R
  have hjob : ∀ t, ∃ part, postProcessInner d.colorFn
        [c0, { c1 with upSampler := u1 }, { c2 with upSampler := u2 }] .ycbcr .grayscale w
        ((List.range (min 3 1)).map
          (stripPlane d.idctFn (fun i => [c0, c1, c2][i]?.elim [] (·.quantTable)) w fh fv m t))
        (List.replicate (8 * (fh * fv) * (w * 1)) 0) = .ok part ∧
      part.length = 8 * (fh * fv) * (w * 1) ∧
      ∀ row x, row < 8 * (fh * fv) → x < w → part[row * w + x]? =
        some (lowByte ((stripPlane d.idctFn (fun i => [c0, c1, c2][i]?.elim [] (·.quantTable)) w fh fv m
          t 0).getD (row * (8 * (fh * mcuCols w fh)) + x) 0)) := by
    intro t
    obtain ⟨f0, fi⟩ := hfull t
    obtain ⟨hl, -⟩ := hup t
    rw [f0] at hl
    obtain ⟨part, e1, e2, e3⟩ := (c37_gray_partial (f := d.colorFn) (c0 := c0)
      (cs := [{ c1 with upSampler := u1 }, { c2 with upSampler := u2 }]) (inCs := .ycbcr) (Or.inl rfl) (w := w)
      (pw := 8 * (fh * mcuCols w fh)) (rows := 8 * (fh * fv)) (ps := [])
      (out := List.replicate (8 * (fh * fv) * (w * 1)) 0) hX hw0 (by omega) hl
      (by rw [List.length_replicate, Nat.mul_one])).1 hwide
    refine ⟨part, e1, by rw [e2, Nat.mul_one], fun row x hrow hx => ?_⟩
    obtain ⟨b, s, g1, g2, g3⟩ := e3 row x hrow hx
    rw [g1, isByteOf_eq g3, List.getD_eq_getElem?_getD, g2]
    rfl
  choose part hp1 hp2 hp3 using hjob
  obtain ⟨out, ho1, ho2, ho3⟩ := colour_parts (nc := 1) R (by rw [hout]; rfl) (by omega) (fun t _ => hp1 t) hp2
  rw [ho1] at hdec
  refine ⟨out, hdec, by rw [ho2, Nat.mul_one], fun y x hy hx => ?_⟩
  have e := ho3 y x 0 hy hx (by omega)
  rw [Nat.one_mul, Nat.one_mul, Nat.add_zero, Nat.add_zero] at e
  rw [e]
  split
  · rw [hp3 _ _ x (Nat.mod_lt _ (by omega)) hx]
    rfl
  · rfl

/-- The same for a baseline scan. -/
theorem gray_out (R : ColourReady d c0 c1 c2 w h fh fv) {C : Nat → Codes}
    (hT : CompTables d [c0, c1, c2] C) (hfit : fv = 1 ∨ 7 * w ≤ 136 * h + 64)
    {m : Nat → Nat → Nat → Nat → List Int} {fill trailer : List UInt8}
    {rs : Nat} (hrs : rs ≠ 0 → d.restartInterval = rs ∧ d.todo = rs) (hok : ColourOk C w h fh fv rs m fill)
    (hout : d.options.getOutColorspace = .grayscale)
    (hwide : 8 * (fh * fv) * (8 * (fh * mcuCols w fh)) < (8 * (fh * fv) + 1) * w) :
    ∃ out h', decodeBaseline ⟨d, colourBytes C w h fh fv rs m fill ++
        0xFF :: 0xD9 :: trailer⟩ = (.ok out, h') ∧ out.length = h * w ∧
      ∀ y x, y < h → x < w → out[y * w + x]? =
        some (if y / (8 * (fh * fv)) < stripCount h fh fv then
          lowByte ((stripPlane d.idctFn (fun i => [c0, c1, c2][i]?.elim [] (·.quantTable)) w fh fv m
            (y / (8 * (fh * fv))) 0).getD (y % (8 * (fh * fv)) * (8 * (fh * mcuCols w fh)) + x) 0) else 0) := by
  obtain ⟨full, res, h', hdec, hj⟩ := colour_jobs (trailer := trailer) R hT hfit hrs hok
    (oc := .grayscale) (nc := 1) hout rfl
  obtain ⟨out, h1, h2, h3⟩ := gray_image R.toColourFrame hj hout hwide
  rw [h1] at hdec
  exact ⟨out, h', hdec, h2, h3⟩

end

end Zune
