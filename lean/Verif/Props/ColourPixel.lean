import Verif.Props.ColourExact
import Verif.Props.ColourRgb
/-! C55, C38: every byte of the RGB output of a colour file. -/

namespace Zune

open Spec

/-! ### Bounds of the planes -/

/-- A value of a plane: a byte, or up to 287 where the AVX2 upsampler has used a wrong neighbour. -/
def Within287 (n : Int) : Prop := 0 ≤ n ∧ n ≤ 287

theorem mix_byte {a b : Int} (ha : 0 ≤ a ∧ a ≤ 255) (hb : 0 ≤ b ∧ b ≤ 255) : 0 ≤ mix a b ∧ mix a b ≤ 255 := by
  unfold mix
  omega

theorem lineValue_byte {n : Nat} {w : Nat → Int} (h : ∀ k, 0 ≤ w k ∧ w k ≤ 255) (p : Nat) :
    0 ≤ lineValue n w p ∧ lineValue n w p ≤ 255 := by
  unfold lineValue
  split
  · exact h _
  split
  · exact h _
  split
  · exact mix_byte (h _) (h _)
  · exact mix_byte (h _) (h _)

theorem lineValueSse_byte {n : Nat} {w : Nat → Int} (h : ∀ k, 0 ≤ w k ∧ w k ≤ 255) (p : Nat) :
    0 ≤ lineValueSse n w p ∧ lineValueSse n w p ≤ 255 := by
  unfold lineValueSse
  split
  · exact h _
  split
  · exact h _
  split
  · exact mix_byte (h _) (h _)
  · exact lineValue_byte h p

theorem vertLine_byte {v : Nat → Nat → Int} (h : ∀ k c, 0 ≤ v k c ∧ v k c ≤ 255) (s k : Nat) :
    0 ≤ vertLine v s k ∧ vertLine v s k ≤ 255 := by
  unfold vertLine
  dsimp only
  split
  · exact mix_byte (h _ _) (h _ _)
  · exact mix_byte (h _ _) (h _ _)

theorem avxValue_bound {v : Nat → Nat → Int} (h : ∀ k c, 0 ≤ v k c ∧ v k c ≤ 255) (q j e x : Nat) :
    Within287 (avxValue v q j e x) := by
  have hb : ∀ a b : Int, (0 ≤ a ∧ a ≤ 255) → (0 ≤ b ∧ b ≤ 384) → Within287 (mix a b) := by
    intro a b ha hb
    unfold Within287 mix
    omega
  have hc : ∀ a b : Int, (0 ≤ a ∧ a ≤ 255) → (0 ≤ b ∧ b ≤ 255) → 0 ≤ carry a b ∧ carry a b ≤ 384 := by
    intro a b ha hb
    unfold carry
    omega
  have hl : ∀ k c, 0 ≤ v k c ∧ v k c ≤ 384 := fun k c => ⟨(h k c).1, by have := (h k c).2; omega⟩
  have hw : ∀ c, 0 ≤ (if e = 0 then mix (v j c) (v (partner j) c) else mix (v (partner j) c) (v j c)) ∧
      (if e = 0 then mix (v j c) (v (partner j) c) else mix (v (partner j) c) (v j c)) ≤ 255 := by
    intro c
    split
    · exact mix_byte (h _ _) (h _ _)
    · exact mix_byte (h _ _) (h _ _)
  unfold avxValue
  dsimp only
  generalize (if e = 1 ∧ x = 0 then 1 else if 32 * q - 2 ≤ x then x - 2 else x) = z
  by_cases h1 : z < 32 * (q - 1)
  · rw [if_pos h1]
    refine hb _ _ (hw _) ?_
    by_cases h2 : z % 32 = 0
    · rw [if_pos h2]
      split
      · exact hc _ _ (h _ _) (h _ _)
      split
      · exact hl _ _
      · exact hc _ _ (h _ _) (h _ _)
    · rw [if_neg h2]
      by_cases h3 : z % 32 = 31
      · rw [if_pos h3]
        split
        · exact hc _ _ (h _ _) (h _ _)
        split
        · exact hl _ _
        · refine hc _ _ (h _ _) ?_
          split
          · exact h _ _
          split
          · decide
          · exact h _ _
      · rw [if_neg h3]
        split
        · have := hw (z / 2 - 1)
          exact ⟨this.1, by omega⟩
        · have := hw (z / 2 + 1)
          exact ⟨this.1, by omega⟩
  · rw [if_neg h1]
    exact hb _ _ (h _ _) (hl _ _)

section
variable {g : ColourJpeg} {cpu : Cpu}

/-- Values of the planes of an image whose samples are bytes. -/
theorem plane_bound (V : g.Shape) {un : Bool} {i : Nat} (hb : g.Bytes (chooseIdct cpu un) i) (y x : Nat) :
    Within287 (g.plane cpu un i y x) ∧ (¬ g.Joints cpu un → g.plane cpu un i y x ≤ 255) := by
  have hs : ∀ n : Int, 0 ≤ n ∧ n ≤ 255 → Within287 n ∧ (¬ g.Joints cpu un → n ≤ 255) := by
    intro n hn
    exact ⟨⟨hn.1, by omega⟩, fun _ => hn.2⟩
  unfold ColourJpeg.plane
  dsimp only
  split
  · exact hs _ (hb _ _)
  split
  · split
    · exact hs _ (mix_byte (hb _ _) (hb _ _))
    · exact hs _ (mix_byte (hb _ _) (hb _ _))
  split
  · split
    · exact hs _ (lineValueSse_byte (fun k => hb _ _) _)
    · exact hs _ (lineValue_byte (fun k => hb _ _) _)
  next h0 h1 h2 =>
  split
  next h3 =>
    refine ⟨avxValue_bound (fun k c => hb _ _) _ _ _ _, fun hj => ?_⟩
    rw [Bool.and_eq_true, Bool.and_eq_true, decide_eq_true_eq] at h3
    have := V.fh
    have := V.fv
    have e1 : g.fh = 2 := by omega
    exact absurd ⟨e1, by omega, h3.1.1, h3.1.2, by rw [← e1]; exact h3.2⟩ hj
  next => exact hs _ (lineValue_byte (fun k => vertLine_byte (fun k c => hb _ _) _ _) _)

theorem full_near (V : g.Shape) {un : Bool} {full : Nat → Nat → List I16}
    (hb : ∀ i, i < 3 → g.Bytes (chooseIdct cpu un) i)
    (hf : FullPlanes cpu un g.fh g.fv (8 * (g.fh * g.fv) * (8 * (g.fh * mcuCols g.width g.fh)))
      (stripPlane (chooseIdct cpu un) (fun i => naturalQuant (g.quantOf i)) g.width g.fh g.fv g.blocks) full)
    (t i : Nat) (hi : i < 3) : Near (full t i) := by
  have hX := V.cols
  have hW : 0 < 8 * (g.fh * mcuCols g.width g.fh) := by
    have := V.w0
    omega
  have hR : 0 < 8 * (g.fh * g.fv) := by
    have := Nat.mul_pos V.fh.1 V.fv.1
    omega
  have hlen : (full t i).length = 8 * (g.fh * g.fv) * (8 * (g.fh * mcuCols g.width g.fh)) := by
    by_cases h0 : i = 0
    · rw [h0, (hf t).1, stripPlane_length]
      rfl
    · exact ((hf t).2 i (by omega)).1
  intro v hv
  obtain ⟨k, hk, rfl⟩ := List.mem_iff_getElem.1 hv
  have hd : k / (8 * (g.fh * mcuCols g.width g.fh)) < 8 * (g.fh * g.fv) :=
    (Nat.div_lt_iff_lt_mul hW).2 (by omega)
  have hv := plane_full V hf (i := i) (y := t * (8 * (g.fh * g.fv)) + k / (8 * (g.fh * mcuCols g.width g.fh)))
    (x := k % (8 * (g.fh * mcuCols g.width g.fh))) hi (Nat.mod_lt _ hW)
  rw [Nat.mul_comm t, Nat.mul_add_div hR, Nat.div_eq_of_lt hd, Nat.add_zero, Nat.mul_add_mod,
    Nat.mod_eq_of_lt hd, Nat.div_add_mod', at0_of_get (List.getElem?_eq_getElem hk)] at hv
  have := (plane_bound V (hb i hi) (8 * (g.fh * g.fv) * t + k / (8 * (g.fh * mcuCols g.width g.fh)))
    (k % (8 * (g.fh * mcuCols g.width g.fh)))).1
  rw [← hv] at this
  unfold Within287 at this
  omega

/-- Byte `j` of row `y` of the RGB output: a channel of the converted pixel of some column. -/
def Spec.ColourJpeg.rgbByte (g : ColourJpeg) (cpu : Cpu) (un : Bool) (y j : Nat) : Int :=
  if g.Row y then
    match rowSource g.width (8 * (g.fh * mcuCols g.width g.fh)) j with
    | some (x, c) => (rgbValue (g.plane cpu un 0 y x) (g.plane cpu un 1 y x) (g.plane cpu un 2 y x)).getD c 0
    | none => 0
  else 0

theorem rowSource_bound {w pw j x c : Nat} (hw : w ≤ pw) (hj : j < w * 3)
    (h : rowSource w pw j = some (x, c)) : x < pw ∧ c < 3 := by
  unfold rowSource at h
  dsimp only at h
  split at h
  · cases h
    omega
  · split at h
    · cases h
      omega
    · split at h
      · cases h
        omega
      · cases h

/-- **C55, C38** (what is true, all bytes of the RGB output). For every colour file and all options with
RGB output, in particular the default options: every byte of the output is the one that `rgbByte` says.
The samples must be bytes (see C26). Missing: short restart intervals, several scans; and the sizes for which the
SSE converter panics (`c38_sse_file`). -/
theorem c55_pixel_partial (V : g.Valid) (cpu : Cpu) (o : Options)
    (hw : g.width ≤ o.getMaxWidth) (hh : g.height ≤ o.getMaxHeight) (hout : o.getOutColorspace = .rgb)
    (hb : ∀ i, i < 3 → g.Bytes (chooseIdct cpu o.getUseUnsafe) i)
    (hsse : o.getUseUnsafe = true → cpu.avx2 = false → cpu.sse41 = true →
      22 ≤ g.width ∧ 16 * (8 * (g.fh * mcuCols g.width g.fh) / 16 - 1) + 6 ≤ g.width) :
    ∃ out, ((Decoder.newWithOptions cpu o).decodeBuffer g.bytes).1 = .ok out ∧
      out.length = g.height * (g.width * 3) ∧
      ∀ y j, y < g.height → j < g.width * 3 → ∃ b, out[y * (g.width * 3) + j]? = some b ∧
        (b.toNat : Int) = g.rgbByte cpu o.getUseUnsafe y j := by
  obtain ⟨d, c0, c1, c2, k1, R, ht, hrs, hp, hi, hcf, hcpu, ho, hq⟩ := colour_headers V cpu o hw hh
  have hpl : ∀ t i, i < 3 → stripPlane d.idctFn (fun i => [c0, c1, c2][i]?.elim [] (·.quantTable)) g.width
      g.fh g.fv g.blocks t i = stripPlane (chooseIdct cpu o.getUseUnsafe)
        (fun i => naturalQuant (g.quantOf i)) g.width g.fh g.fv g.blocks t i := by
    intro t i hi3
    unfold stripPlane
    rw [hi]
    have : [c0, c1, c2][i]?.elim [] (·.quantTable) = naturalQuant (g.quantOf i) := by
      have hlt : i < [c0, c1, c2].length := hi3
      rw [List.getElem?_eq_getElem hlt]
      exact hq i _ (List.getElem?_eq_getElem hlt)
    dsimp only
    rw [this]
  have conv : ∀ full', FullPlanes d.cpu d.options.useUnsafe g.fh g.fv
        (8 * (g.fh * g.fv) * (8 * (g.fh * mcuCols g.width g.fh)))
        (stripPlane d.idctFn (fun i => [c0, c1, c2][i]?.elim [] (·.quantTable)) g.width g.fh g.fv g.blocks)
        full' →
      FullPlanes cpu o.useUnsafe g.fh g.fv (8 * (g.fh * g.fv) * (8 * (g.fh * mcuCols g.width g.fh)))
        (stripPlane (chooseIdct cpu o.getUseUnsafe) (fun i => naturalQuant (g.quantOf i)) g.width g.fh
          g.fv g.blocks) full' := by
    intro full' hf t
    obtain ⟨a, b⟩ := hf t
    refine ⟨a.trans (hpl t 0 (by omega)), fun i hi' => ?_⟩
    have := b i hi'
    rw [hpl t i (by omega), hcpu, ho] at this
    exact this
  obtain ⟨c3, csse⟩ := colorFn_three cpu o
  obtain ⟨out, h', full, k2, k3, k4, k5⟩ := rgb_out_bytes (trailer := g.trailer) R ht V.fit hrs V.data
    (by rw [ho]; exact hout) (by rw [hcf]; exact c3)
    (by
      intro e
      rw [hcf] at e
      obtain ⟨a, b, c⟩ := csse e
      exact hsse a b c)
    (fun full' hf t i hi3 => full_near V.shape hb (conv full' hf) t i hi3)
  have hwx := (cols_pos V).2
  refine ⟨out, decode_colour k1 hp k2, k3, fun y j hy hj => ?_⟩
  obtain ⟨m1, m2⟩ := k5 y j hy hj
  have hk : ∀ {i x s}, i < 3 → x < 8 * (g.fh * mcuCols g.width g.fh) →
      (full (y / (8 * (g.fh * g.fv))) i)[y % (8 * (g.fh * g.fv)) * (8 * (g.fh * mcuCols g.width g.fh)) + x]? =
        some s → s.toInt = g.plane cpu o.getUseUnsafe i y x := by
    intro i x s hi3 hx hs
    rw [← at0_of_get hs]
    exact plane_full V.shape (conv full k4) hi3 hx
  unfold ColourJpeg.rgbByte
  by_cases hr : g.Row y
  · have hr' : y / (8 * (g.fh * g.fv)) < stripCount g.height g.fh g.fv := hr
    rw [if_pos hr]
    cases hs : rowSource g.width (8 * (g.fh * mcuCols g.width g.fh)) j with
    | none => exact ⟨0, m2 (Or.inr hs), rfl⟩
    | some xc =>
      obtain ⟨x, c⟩ := xc
      obtain ⟨hx, hc⟩ := rowSource_bound hwx hj hs
      obtain ⟨b, hb1, s0, s1, s2, e0, e1, e2, hval⟩ := m1 hr' x c hs
      refine ⟨b, hb1, ?_⟩
      rw [List.getElem?_append_left (by show c < 3; exact hc), hk (by omega) hx e0, hk (by omega) hx e1,
        hk (by omega) hx e2] at hval
      dsimp only
      rw [List.getD_eq_getElem?_getD, hval]
      rfl
  · have hr' : ¬ y / (8 * (g.fh * g.fv)) < stripCount g.height g.fh g.fv := hr
    rw [if_neg hr]
    exact ⟨0, m2 (Or.inl hr'), rfl⟩

/-- **C38 is false of every colour file with more than 16 columns**: the last byte of each row of the RGB
output is zero, whatever the image is. -/
theorem c38_false_edge (V : g.Valid) (h17 : 17 ≤ g.width) (cpu : Cpu) (o : Options)
    (hw : g.width ≤ o.getMaxWidth) (hh : g.height ≤ o.getMaxHeight) (hout : o.getOutColorspace = .rgb)
    (hb : ∀ i, i < 3 → g.Bytes (chooseIdct cpu o.getUseUnsafe) i)
    (hsse : o.getUseUnsafe = true → cpu.avx2 = false → cpu.sse41 = true →
      22 ≤ g.width ∧ 16 * (8 * (g.fh * mcuCols g.width g.fh) / 16 - 1) + 6 ≤ g.width) :
    ∃ out, ((Decoder.newWithOptions cpu o).decodeBuffer g.bytes).1 = .ok out ∧
      ∀ y, y < g.height → out[3 * (y * g.width + (g.width - 1)) + 2]? = some 0 := by
  obtain ⟨out, h1, -, h2⟩ := c55_pixel_partial V cpu o hw hh hout hb hsse
  refine ⟨out, h1, fun y hy => ?_⟩
  obtain ⟨b, hb1, hb2⟩ := h2 y (3 * (g.width - 1) + 2) hy (by omega)
  have hn : rowSource g.width (8 * (g.fh * mcuCols g.width g.fh)) (3 * (g.width - 1) + 2) = none := by
    have hX := (cols_pos V).2
    have hX2 : 8 * (g.fh * mcuCols g.width g.fh) ≤ g.width + 15 := by
      unfold mcuCols
      have := V.fh
      have hf : g.fh = 1 ∨ g.fh = 2 := by omega
      rcases hf with e | e <;> rw [e] <;> omega
    unfold rowSource
    dsimp only
    rw [if_neg (by omega), if_neg (by omega), if_neg (by omega)]
  unfold ColourJpeg.rgbByte at hb2
  rw [hn] at hb2
  have h0 : (b.toNat : Int) = 0 := by
    rw [hb2]
    split <;> rfl
  rw [show 3 * (y * g.width + (g.width - 1)) + 2 = y * (g.width * 3) + (3 * (g.width - 1) + 2) by ring, hb1]
  exact congrArg some (UInt8.toNat_inj.1 (by show b.toNat = 0; omega))

/-! ### The images that cannot be converted -/

theorem joinPool_panics {n : Nat} {s : Site} (hs : s ≠ .unsound) {job : Nat → Out (List UInt8)}
    (h : ∀ t, job t = .panic s) (hn : 0 < n) :
    joinPool (.ok ()) ((List.range n).map job) = .panic .worker := by
  have hu : ((List.range n).map job).any Out.isUnsound = false := by
    rw [List.any_eq_false]
    intro j hj
    obtain ⟨t, -, rfl⟩ := List.mem_map.1 hj
    rw [h t]
    cases s <;> first | exact absurd rfl hs | exact Bool.false_ne_true
  obtain ⟨m, rfl⟩ : ∃ m, n = m + 1 := ⟨n - 1, by omega⟩
  unfold joinPool
  rw [hu, List.range_succ_eq_map, List.map_cons, h 0]
  rfl

/-- **C38** (SSE converter, whole files). With RGB output, on a CPU with SSE4.1 and without AVX2, the
decoder panics on every colour file of any other size that has a strip to convert. -/
theorem c38_sse_file (V : g.Valid) (cpu : Cpu) (o : Options)
    (hw : g.width ≤ o.getMaxWidth) (hh : g.height ≤ o.getMaxHeight) (hout : o.getOutColorspace = .rgb)
    (hun : o.getUseUnsafe = true) (ha : cpu.avx2 = false) (hse : cpu.sse41 = true)
    (hrow : g.Row 0)
    (hs : g.width < 22 ∨ g.width < 16 * (8 * (g.fh * mcuCols g.width g.fh) / 16 - 1) + 6) :
    ((Decoder.newWithOptions cpu o).decodeBuffer g.bytes).1 = .panic .worker := by
  obtain ⟨d, c0, c1, c2, k1, R, ht, hrs, hp, hi, hcf, hcpu, ho, hq⟩ := colour_headers V cpu o hw hh
  obtain ⟨full, res, h', hdec, u1, u2, hj, hfull, hup⟩ := colour_jobs (trailer := g.trailer) R ht V.fit hrs V.data (oc := .rgb) (nc := 3) (by rw [ho]; exact hout) rfl
  have hfn : d.colorFn = .rgbSse := by
    rw [hcf]
    have hun' : o.useUnsafe = true := hun
    show (chooseColor cpu .rgb o.useUnsafe).getD .rgbScalar = .rgbSse
    unfold chooseColor
    rw [hun', ha, hse]
    rfl
  obtain ⟨q1, q2, q3, q4, q5⟩ := R.toColourFrame.shape
  have hf := R.frame.fpos
  have hff : 0 < g.fh * g.fv := Nat.mul_pos hf.1 hf.2
  have hw0 := R.frame.wpos
  obtain ⟨hX, hX2, hX3⟩ := padded_width R.toColourFrame
  have hcount : 0 < stripCount g.height g.fh g.fv := by
    have : 0 / (8 * (g.fh * g.fv)) < stripCount g.height g.fh g.fv := hrow
    rwa [Nat.zero_div] at this
  rw [joinPool_panics (s := .unwrap) (by decide) (fun t => ?_) hcount] at hj
  · rw [hj] at hdec
    exact decode_colour k1 hp hdec
  · obtain ⟨f0, fi⟩ := hfull t
    obtain ⟨hl, hu1, hu2⟩ := hup t
    have hl0 := hl
    rw [f0] at hl0
    rw [← hl0] at hu1 hu2
    rw [hfn]
    exact c38_sse_false (cs := []) (w := g.width) (pw := 8 * (g.fh * mcuCols g.width g.fh))
      (rows := 8 * (g.fh * g.fv)) hs hu1 hu2 hw0 hX hX2 (fun h => hX3 (by omega)) (by omega)
      (by rw [q2, q3]) hl0 (fi 1 (Or.inl rfl)).1 (fi 2 (Or.inr rfl)).1 (by rw [List.length_replicate])

/-- **C37** (whole colour files). With grayscale output the decoder panics on every colour file of the other
sizes (see `c55_gray_partial`) that has a strip to convert. -/
theorem c37_false_file (V : g.Valid) (cpu : Cpu) (o : Options)
    (hw : g.width ≤ o.getMaxWidth) (hh : g.height ≤ o.getMaxHeight)
    (hout : o.getOutColorspace = .grayscale) (hrow : g.Row 0)
    (hs : (8 * (g.fh * g.fv) + 1) * g.width ≤ 8 * (g.fh * g.fv) * (8 * (g.fh * mcuCols g.width g.fh))) :
    ((Decoder.newWithOptions cpu o).decodeBuffer g.bytes).1 = .panic .worker := by
  obtain ⟨d, c0, c1, c2, k1, R, ht, hrs, hp, hi, hcf, hcpu, ho, hq⟩ := colour_headers V cpu o hw hh
  obtain ⟨full, res, h', hdec, u1, u2, hj, hfull, hup⟩ := colour_jobs (trailer := g.trailer) R ht V.fit hrs V.data (oc := .grayscale) (nc := 1) (by rw [ho]; exact hout) rfl
  have hf := R.frame.fpos
  have hff : 0 < g.fh * g.fv := Nat.mul_pos hf.1 hf.2
  have hw0 := R.frame.wpos
  obtain ⟨hX, -⟩ := padded_width R.toColourFrame
  have hcount : 0 < stripCount g.height g.fh g.fv := by
    have : 0 / (8 * (g.fh * g.fv)) < stripCount g.height g.fh g.fv := hrow
    rwa [Nat.zero_div] at this
  rw [joinPool_panics (s := .index) (by decide) (fun t => ?_) hcount] at hj
  · rw [hj] at hdec
    exact decode_colour k1 hp hdec
  · obtain ⟨f0, fi⟩ := hfull t
    obtain ⟨hl, -⟩ := hup t
    rw [f0] at hl
    exact (c37_gray_partial (f := d.colorFn) (c0 := c0)
      (cs := [{ c1 with upSampler := u1 }, { c2 with upSampler := u2 }]) (inCs := .ycbcr) (Or.inl rfl)
      (w := g.width) (pw := 8 * (g.fh * mcuCols g.width g.fh)) (rows := 8 * (g.fh * g.fv)) (ps := [])
      (out := List.replicate (8 * (g.fh * g.fv) * (g.width * 1)) 0) hX hw0 (by omega) hl
      (by rw [List.length_replicate, Nat.mul_one])).2 hs

theorem flatChroma_bytes (f : IdctFn) (i : Nat) : flatChroma.Bytes f i := by
  intro y x
  by_cases h1 : i = 0
  · have key : ∀ f ∈ [IdctFn.scalar, .avx2], ∀ a < 8, ∀ b < 8,
        0 ≤ (((f.block (coded (1 :: List.replicate 63 0)) (naturalQuant (List.replicate 64 (16 : UInt8))))[a]?.bind
          (·[b]?)).getD 0).toInt ∧ (((f.block (coded (1 :: List.replicate 63 0))
            (naturalQuant (List.replicate 64 (16 : UInt8))))[a]?.bind (·[b]?)).getD 0).toInt ≤ 255 := by
      decide +kernel
    subst h1
    exact key f (idctFn_mem f) (y % 8) (by omega) (x % 8) (by omega)
  · rw [flatChroma_value f h1]
    decide

/-- The hypotheses of `c55_pixel_partial` and of `c38_false_edge` hold for `flatChroma`, whose pixels are all
the same; the values that it takes to the converter are 130, 159 and 159. -/
example : flatChroma.Valid ∧ 17 ≤ flatChroma.width ∧ (∀ f i, flatChroma.Bytes f i) ∧
    22 ≤ flatChroma.width ∧
    16 * (8 * (flatChroma.fh * mcuCols flatChroma.width flatChroma.fh) / 16 - 1) + 6 ≤ flatChroma.width ∧
    rgbValue 130 159 159 = [173, 98, 184] :=
  ⟨flatChroma_valid, by decide, flatChroma_bytes, by decide, by decide, by decide⟩

/-- Where the bytes of a row come from, for 27 columns in rows of 32: the first 17 are in their places, the next
48 are the columns 16 to 31, and the last 16 are not written. -/
example : (List.range 81).map (rowSource 27 32) =
    ((List.range 17).map fun j => some (j / 3, j % 3)) ++ ((List.range 48).map fun j => some (16 + j / 3, j % 3)) ++
      List.replicate 16 none := by decide

/-- The hypotheses of `c38_sse_file` and of `c37_false_file` hold for images of 8 x 16 and 7 x 16 pixels. -/
example : let small (w : Nat) := sampleColour 1 1 w 16 fun _ _ _ _ => 1 :: List.replicate 63 0
    (∀ w, 0 < w → w < 9 → (small w).Valid ∧ (small w).Row 0) ∧ (small 8).width < 22 ∧
    (8 * ((small 7).fh * (small 7).fv) + 1) * (small 7).width ≤
      8 * ((small 7).fh * (small 7).fv) * (8 * ((small 7).fh * mcuCols (small 7).width (small 7).fh)) := by
  refine ⟨fun w h0 h9 => ⟨sampleColour_valid ⟨h0, by omega⟩ (by decide) (by decide) (by decide) (Or.inl rfl)
    fun _ _ _ _ => by simp [goodBlocks], by
      show 0 / (8 * (1 * 1)) < mcuRows 16 1 / 1
      decide⟩, by decide, by decide⟩

end

end Zune
