import Verif.Lemmas.Intervals
/-! Scans with three components: from the headers to the coefficients of the strips. -/

namespace Zune
open Spec

/-- The decoder after the frame header of a YCbCr image. -/
structure ColourFrame (d : Decoder) (c0 c1 c2 : Component) (w h fh fv : Nat) : Prop where
  frame : Frame d w h fh fv
  comps : d.components = [c0, c1, c2]
  dims : d.checkComponentDimensions = .ok ()
  inCs : d.inputColorspace = .ycbcr
  fh2 : fh ≤ 2
  fv2 : fv ≤ 2
  wLe : w ≤ 65527
  hLe : h ≤ 65527

/-- The decoder after the headers of a baseline YCbCr image. -/
structure ColourReady (d : Decoder) (c0 c1 c2 : Component) (w h fh fv : Nat) : Prop extends
    ColourFrame d c0 c1 c2 w h fh fv where
  pred : ∀ c ∈ [c0, c1, c2], c.dcPred = 0
  tabs : ∀ c ∈ [c0, c1, c2], c.dcHuffTable < 4 ∧ c.acHuffTable < 4 ∧
    ∃ dc ac, d.dcTables[c.dcHuffTable]? = some (some dc) ∧ d.acTables[c.acHuffTable]? = some (some ac)

/-- The decoder after the preparations of the scan: with the ratio and the upsamplers. -/
def prepDec (d : Decoder) (c0 c1 c2 : Component) (r : SubSampRatios) (u1 u2 : UpSampler) : Decoder :=
  { d with subSampleRatio := r
           components := [c0, { c1 with upSampler := u1 }, { c2 with upSampler := u2 }] }

section
variable {d : Decoder} {c0 c1 c2 : Component} {w h fh fv : Nat}

theorem ColourFrame.shape (R : ColourFrame d c0 c1 c2 w h fh fv) :
    (¬ (fh = 1 ∧ fv = 1) → c0.componentId = .y) ∧ c0.horizontalSample = fh ∧
      c0.verticalSample = fv ∧ c0.widthStride = fh * (d.mcuX * 8) ∧
      ∀ x ∈ [c1, c2], (¬ (fh = 1 ∧ fv = 1) → x.componentId ≠ .y) ∧ x.horizontalSample = 1 ∧ x.verticalSample = 1 ∧
        x.widthStride = d.mcuX * 8 := by
  obtain ⟨c, cs, e, h1, h2, h3, h4, h5⟩ := R.frame.comps
  rw [R.comps] at e
  obtain ⟨rfl, rfl⟩ := List.cons.inj e
  exact ⟨h1, h2, h3, h4, h5⟩

/-- With the luma component first the check of the dimensions succeeds. -/
theorem dims_of_frame (F : Frame d w h fh fv) (hc : d.components = [c0, c1, c2])
    (h1 : c0.componentId = .y) (h5' : ∀ x ∈ [c1, c2], x.componentId ≠ .y) :
    d.checkComponentDimensions = .ok () := by
  obtain ⟨c, cs, e, -, h2, h3, h4, h5⟩ := F.comps
  rw [hc] at e
  obtain ⟨rfl, rfl⟩ := List.cons.inj e
  have hf := F.fpos.1
  have i1 := h5' c1 (by simp)
  have i2 := h5' c2 (by simp)
  have g1 := h5 c1 (by simp)
  have g2 := h5 c2 (by simp)
  unfold Decoder.checkComponentDimensions
  rw [hc, List.find?_cons_of_pos (by simpa using h1)]
  dsimp only
  rw [F.hMax, if_neg (by omega), h4, Nat.mul_div_cancel_left _ hf, checkDims, if_pos h1, checkDims,
    if_neg i1, if_neg (by rw [g1.2.2.2]; simp), if_neg (by rw [g1.2.1, g1.2.2.1]; simp), checkDims,
    if_neg i2, if_neg (by rw [g2.2.2.2]; simp), if_neg (by rw [g2.2.1, g2.2.2.1]; simp)]
  rfl

theorem ColourReady.tables (R : ColourReady d c0 c1 c2 w h fh fv) : d.checkTables = .ok () := by
  have key : ∀ i c, d.components[i]? = some c → checkTable d i = .ok () := by
    intro i c hc
    have hm : c ∈ [c0, c1, c2] := by rw [← R.comps]; exact List.mem_of_getElem? hc
    obtain ⟨-, -, dc, ac, t1, t2⟩ := R.tabs c hm
    unfold checkTable
    rw [hc]
    dsimp only
    rw [t1]
    dsimp only
    rw [t2]
  unfold Decoder.checkTables
  rw [R.inCs]
  show Out.fold (fun _ i => checkTable d i) () [0, 1, 2] = _
  rw [Out.fold, key 0 c0 (by rw [R.comps]; rfl)]
  show Out.fold (fun _ i => checkTable d i) () [1, 2] = _
  rw [Out.fold, key 1 c1 (by rw [R.comps]; rfl)]
  show Out.fold (fun _ i => checkTable d i) () [2] = _
  rw [Out.fold, key 2 c2 (by rw [R.comps]; rfl)]
  rfl

/-- The preparations of the scan decoder, when all components have tables. -/
theorem colour_setup_of (R : ColourFrame d c0 c1 c2 w h fh fv) (ht : d.checkTables = .ok ())
    (rd : List UInt8) :
    ∃ m r u1 u2, baselineSetup ⟨d, rd⟩ = (.ok (mkScan m (prepDec d c0 c1 c2 r u1 u2) c0),
        ⟨prepDec d c0 c1 c2 r u1 u2, rd⟩) ∧
      Geometry (mkScan m (prepDec d c0 c1 c2 r u1 u2) c0) w h fh fv ∧
      ((fh = 1 ∧ fv = 1) ∨ (u1 = u2 ∧ Sampling d.cpu d.options.useUnsafe fh fv r u1)) ∧
      (fh = 1 ∧ fv = 1 → r = .none) := by
  have F := R.frame
  have g : ∀ d : Decoder, getDec (⟨d, rd⟩ : H) = (.ok d, ⟨d, rd⟩) := fun _ => rfl
  have e1 : M.ofOut d.checkComponentDimensions (⟨d, rd⟩ : H) = (.ok (), ⟨d, rd⟩) := by rw [R.dims]; rfl
  have e2 : M.ofOut d.checkTables (⟨d, rd⟩ : H) = (.ok (), ⟨d, rd⟩) := by rw [ht]; rfl
  have hpos := F.fpos
  have hf1 := R.fh2
  have hf2 := R.fv2
  have hchunk : ∀ r u1 u2, chunkLen (prepDec d c0 c1 c2 r u1 u2) ≠ 0 := by
    intro r u1 u2
    unfold chunkLen
    show d.info.width.toNat * d.options.getOutColorspace.numComponents * 8 * d.hMax * d.vMax ≠ 0
    rw [F.width, F.hMax, F.vMax]
    have h0 := F.wpos
    have hn : 0 < d.options.getOutColorspace.numComponents := by
      cases d.options.getOutColorspace <;> decide
    have := hpos.1
    have := hpos.2
    positivity
  have hset : ∃ m r u1 u2, baselineSetup ⟨d, rd⟩ = (.ok (mkScan m (prepDec d c0 c1 c2 r u1 u2) c0),
        ⟨prepDec d c0 c1 c2 r u1 u2, rd⟩) ∧
      ((fh = 1 ∧ fv = 1) ∨ (u1 = u2 ∧ Sampling d.cpu d.options.useUnsafe fh fv r u1)) ∧
      (fh = 1 ∧ fv = 1 → r = .none) := by
    have hfin : ∀ m r u1 u2, mcuCounts ⟨d, rd⟩ = (.ok m, ⟨prepDec d c0 c1 c2 r u1 u2, rd⟩) →
        baselineSetup ⟨d, rd⟩ = (.ok (mkScan m (prepDec d c0 c1 c2 r u1 u2) c0),
          ⟨prepDec d c0 c1 c2 r u1 u2, rd⟩) := by
      intro m r u1 u2 e3
      have e4 : grayReset m ⟨prepDec d c0 c1 c2 r u1 u2, rd⟩ =
          (.ok m, ⟨prepDec d c0 c1 c2 r u1 u2, rd⟩) := by
        unfold grayReset
        rw [M.bind_ok (g _), if_neg]
        · rfl
        · rintro ⟨hx, -⟩
          have : d.inputColorspace = .grayscale := hx
          rw [R.inCs] at this
          cases this
      have e5 : M.idx (prepDec d c0 c1 c2 r u1 u2).components 0
          (⟨prepDec d c0 c1 c2 r u1 u2, rd⟩ : H) = (.ok c0, ⟨prepDec d c0 c1 c2 r u1 u2, rd⟩) := rfl
      unfold baselineSetup
      rw [M.bind_ok (g _), M.bind_ok e1, M.bind_ok e2, M.bind_ok e3, M.bind_ok e4, M.bind_ok (g _),
        M.bind_ok e5, if_neg]
      · rfl
      · exact hchunk r u1 u2
    by_cases h11 : fh = 1 ∧ fv = 1
    · have hi : d.interleaved = false := by rw [F.inter]; simp [h11]
      have hd : prepDec d c0 c1 c2 .none c1.upSampler c2.upSampler = d := by
        unfold prepDec
        rw [← F.ratio h11, ← R.comps]
      refine ⟨(blocks8 d.info.width, blocks8 d.info.height, 1), .none, c1.upSampler, c2.upSampler,
        hfin _ _ _ _ ?_, Or.inl h11, fun _ => rfl⟩
      rw [hd]
      unfold mcuCounts
      rw [M.bind_ok (g _), if_neg (by rw [hi]; decide)]
      rfl
    · have hi : d.interleaved = true := by rw [F.inter]; simp; omega
      have hup : ∀ r u, Decoder.setUpsampling d = (.ok (), prepDec d c0 c1 c2 r u u) →
          ∃ m, mcuCounts ⟨d, rd⟩ = (.ok m, ⟨prepDec d c0 c1 c2 r u u, rd⟩) := by
        intro r u hu
        have hl : liftDec Decoder.setUpsampling (⟨d, rd⟩ : H) =
            (.ok (), ⟨prepDec d c0 c1 c2 r u u, rd⟩) := by
          unfold liftDec
          rw [hu]
        unfold mcuCounts
        rw [M.bind_ok (g _), if_pos hi, M.bind_ok hl, M.bind_ok (g _)]
        split
        · exact ⟨_, rfl⟩
        · split
          · exact ⟨_, rfl⟩
          · exact ⟨_, rfl⟩
      have hc : (fh = 2 ∧ fv = 1) ∨ (fh = 1 ∧ fv = 2) ∨ (fh = 2 ∧ fv = 2) := by omega
      rcases hc with ⟨a, b⟩ | ⟨a, b⟩ | ⟨a, b⟩
      · obtain ⟨m, hm⟩ := hup .h (chooseHorizontal d.cpu d.options.useUnsafe) (by
          unfold Decoder.setUpsampling
          dsimp only
          rw [if_neg (by rw [F.hMax, F.vMax, a, b]; decide), if_pos (by rw [F.hMax, F.vMax, a, b]; decide), R.comps]
          rfl)
        exact ⟨m, _, _, _, hfin _ _ _ _ hm, Or.inr ⟨rfl, Or.inl ⟨a, b, rfl, rfl⟩⟩, fun h => absurd h h11⟩
      · obtain ⟨m, hm⟩ := hup .v .vertical (by
          unfold Decoder.setUpsampling
          dsimp only
          rw [if_neg (by rw [F.hMax, F.vMax, a, b]; decide), if_neg (by rw [F.hMax, F.vMax, a, b]; decide),
            if_pos (by rw [F.hMax, F.vMax, a, b]; decide), R.comps]
          rfl)
        exact ⟨m, _, _, _, hfin _ _ _ _ hm, Or.inr ⟨rfl, Or.inr (Or.inl ⟨a, b, rfl, rfl⟩)⟩, fun h => absurd h h11⟩
      · obtain ⟨m, hm⟩ := hup .hv (chooseHv d.cpu d.options.useUnsafe) (by
          unfold Decoder.setUpsampling
          dsimp only
          rw [if_neg (by rw [F.hMax, F.vMax, a, b]; decide), if_neg (by rw [F.hMax, F.vMax, a, b]; decide),
            if_neg (by rw [F.hMax, F.vMax, a, b]; decide), if_pos (by rw [F.hMax, F.vMax, a, b]; decide), R.comps]
          rfl)
        exact ⟨m, _, _, _, hfin _ _ _ _ hm, Or.inr ⟨rfl, Or.inr (Or.inr ⟨a, b, rfl, rfl⟩)⟩, fun h => absurd h h11⟩
  obtain ⟨m, r, u1, u2, hb, hu⟩ := hset
  refine ⟨m, r, u1, u2, hb, ?_, hu⟩
  have hw' := wpT_baselineSetup_frame (s := ⟨d, rd⟩) F
  obtain ⟨G, -⟩ := M.wp_ok hw' hb
  have hfac : ∀ f, factor d f = f := by
    intro f
    unfold factor
    rw [R.inCs, if_neg (by decide)]
  dsimp only at G
  rw [hfac, hfac] at G
  exact G

/-- The same after the headers of a baseline image. -/
theorem colour_setup (R : ColourReady d c0 c1 c2 w h fh fv) (rd : List UInt8) :
    ∃ m r u1 u2, baselineSetup ⟨d, rd⟩ = (.ok (mkScan m (prepDec d c0 c1 c2 r u1 u2) c0),
        ⟨prepDec d c0 c1 c2 r u1 u2, rd⟩) ∧
      Geometry (mkScan m (prepDec d c0 c1 c2 r u1 u2) c0) w h fh fv ∧
      ((fh = 1 ∧ fv = 1) ∨ (u1 = u2 ∧ Sampling d.cpu d.options.useUnsafe fh fv r u1)) ∧
      (fh = 1 ∧ fv = 1 → r = .none) :=
  colour_setup_of R.toColourFrame R.tables rd

/-- Number of columns of MCUs. -/
def Spec.mcuCols (w fh : Nat) : Nat := (w + 8 * fh - 1) / (8 * fh)

/-- A strip is `fh` rows of MCUs. -/
theorem strip_mcus {s : Scan} (G : Geometry s w h fh fv) (hw : w ≤ 65527) :
    s.bias * s.mcuWidth = fh * mcuCols w fh ∧ 0 < s.bias := by
  unfold mcuCols
  rcases G.counts with ⟨rfl, rfl, a, -, b, -⟩ | ⟨rfl, rfl, a, -, b, -⟩ | ⟨rfl, rfl, a, -, b, -⟩ |
    ⟨rfl, rfl, a, -, b, -⟩ <;> rw [a, b] <;> refine ⟨?_, by decide⟩ <;> omega

end

end Zune
