import Verif.Lemmas.ProgColourFile
import Verif.Lemmas.ColourOut
/-! Progressive images with three components: from the coefficient buffers to the planes of the strips. -/

namespace Zune
open Spec

/-- Every block of a buffer is the stored form of some block. -/
theorem coded_surj (x : List I16) (hx : x.length = 64) : ∃ b, coded b = x := by
  refine ⟨zigzag.map fun z => (x.getD z 0).toInt, ?_⟩
  apply List.ext_getElem?
  intro z
  by_cases hz : z < 64
  · obtain ⟨k, hk, hkz⟩ := zigzag_surj z hz
    have h1 : (zigzag.map fun z => (x.getD z 0).toInt)[k]? = some (x.getD z 0).toInt := by
      rw [List.getElem?_map, hkz]
      rfl
    rw [coded_get hkz h1, BitVec.ofInt_toInt, List.getD_eq_getElem?_getD,
      List.getElem?_eq_getElem (by omega)]
    rfl
  · rw [List.getElem?_eq_none (by rw [coded_length]; omega), List.getElem?_eq_none (by omega)]

section
variable {d : Decoder} {c0 c1 c2 : Component} {w h fh fv : Nat}

theorem setUpsampling_colour (R : ColourFrame d c0 c1 c2 w h fh fv) :
    ∃ r u1 u2, Decoder.setUpsampling d = (.ok (), prepDec d c0 c1 c2 r u1 u2) ∧
      ((r = .none ∧ fh = 1 ∧ fv = 1) ∨ (u1 = u2 ∧ Sampling d.cpu d.options.useUnsafe fh fv r u1)) := by
  have F := R.frame
  have hpos := F.fpos
  have hf1 := R.fh2
  have hf2 := R.fv2
  have hc : (fh = 1 ∧ fv = 1) ∨ (fh = 2 ∧ fv = 1) ∨ (fh = 1 ∧ fv = 2) ∨ (fh = 2 ∧ fv = 2) := by omega
  rcases hc with ⟨a, b⟩ | ⟨a, b⟩ | ⟨a, b⟩ | ⟨a, b⟩
  · have hd : prepDec d c0 c1 c2 .none c1.upSampler c2.upSampler = d := by
      unfold prepDec
      rw [← F.ratio ⟨a, b⟩, ← R.comps]
    refine ⟨.none, c1.upSampler, c2.upSampler, ?_, Or.inl ⟨rfl, a, b⟩⟩
    rw [hd]
    unfold Decoder.setUpsampling
    rw [if_pos (by rw [F.hMax, F.vMax, a, b]; decide)]
  · refine ⟨.h, chooseHorizontal d.cpu d.options.useUnsafe, _, ?_, Or.inr ⟨rfl, Or.inl ⟨a, b, rfl, rfl⟩⟩⟩
    unfold Decoder.setUpsampling
    dsimp only
    rw [if_neg (by rw [F.hMax, F.vMax, a, b]; decide), if_pos (by rw [F.hMax, F.vMax, a, b]; decide), R.comps]
    rfl
  · refine ⟨.v, .vertical, _, ?_, Or.inr ⟨rfl, Or.inr (Or.inl ⟨a, b, rfl, rfl⟩)⟩⟩
    unfold Decoder.setUpsampling
    dsimp only
    rw [if_neg (by rw [F.hMax, F.vMax, a, b]; decide), if_neg (by rw [F.hMax, F.vMax, a, b]; decide),
      if_pos (by rw [F.hMax, F.vMax, a, b]; decide), R.comps]
    rfl
  · refine ⟨.hv, chooseHv d.cpu d.options.useUnsafe, _, ?_, Or.inr ⟨rfl, Or.inr (Or.inr ⟨a, b, rfl, rfl⟩)⟩⟩
    unfold Decoder.setUpsampling
    dsimp only
    rw [if_neg (by rw [F.hMax, F.vMax, a, b]; decide), if_neg (by rw [F.hMax, F.vMax, a, b]; decide),
      if_neg (by rw [F.hMax, F.vMax, a, b]; decide), if_pos (by rw [F.hMax, F.vMax, a, b]; decide), R.comps]
    rfl

theorem finishSetup_colour (R : ColourFrame d c0 c1 c2 w h fh fv) (mw : Nat) (rd : List UInt8) :
    ∃ r u1 u2 mw' bias, finishSetup mw ⟨d, rd⟩ = (.ok (mw', bias), ⟨prepDec d c0 c1 c2 r u1 u2, rd⟩) ∧
      mw' * bias = mw * fh ∧
      ((fh = 1 ∧ fv = 1) ∨ (u1 = u2 ∧ Sampling d.cpu d.options.useUnsafe fh fv r u1)) := by
  obtain ⟨r, u1, u2, hup, hu⟩ := setUpsampling_colour R
  obtain ⟨d', hd'⟩ : ∃ d', prepDec d c0 c1 c2 r u1 u2 = d' := ⟨_, rfl⟩
  have hl : liftDec Decoder.setUpsampling (⟨d, rd⟩ : H) = (.ok (), ⟨d', rd⟩) := by
    unfold liftDec
    rw [hup, hd']
  have hcs : d'.inputColorspace = .ycbcr := by rw [← hd']; exact R.inCs
  have hr : d'.subSampleRatio = r := by rw [← hd']; rfl
  refine ⟨r, u1, u2, if r = .h then mw * 2 else mw, if r = .hv then 2 else 1, ?_, ?_, ?_⟩
  · rw [hd']
    unfold finishSetup
    rw [M.bind_ok hl, M.bind_ok (getDec_apply _ _), if_neg (by rw [hcs]; rintro ⟨h, -⟩; cases h), hr]
    rfl
  · rcases hu with ⟨rfl, rfl, rfl⟩ | ⟨-, ⟨rfl, rfl, rfl, -⟩ | ⟨rfl, rfl, rfl, -⟩ | ⟨rfl, rfl, rfl, -⟩⟩ <;> simp
  · exact hu.imp And.right id

/-- Rows of blocks of a component in a strip. -/
def stripBlocks (w fh fv i : Nat) : Nat := fh * (colourShape fh fv i).1 * bufCols w fh i

/-- Part `t` of a buffer. -/
def bufChunk (w fh fv i : Nat) (buf : List I16) (t : Nat) : List I16 :=
  (buf.drop (t * (64 * stripBlocks w fh fv i))).take (64 * stripBlocks w fh fv i)

theorem blockAt_chunk {buf : List I16} {n t k : Nat} (hk : k < n) :
    blockAt ((buf.drop (t * (64 * n))).take (64 * n)) k = blockAt buf (t * n + k) := by
  unfold blockAt
  rw [List.drop_take, List.drop_drop, List.take_take]
  congr 1
  · omega
  · congr 1
    ring

theorem progStrips_colour (R : ColourFrame d c0 c1 c2 w h fh fv) {r : SubSampRatios} {u1 u2 : UpSampler}
    (hfit : fv = 1 ∨ 7 * w ≤ 136 * h + 64) {mw bias : Nat} (hmw : mw * bias = mcuCols w fh * 64 * fh)
    {b0 b1 b2 : List I16} (l0 : b0.length = 64 * bufBlocks w h fh fv 0)
    (l1 : b1.length = 64 * bufBlocks w h fh fv 1) (l2 : b2.length = 64 * bufBlocks w h fh fv 2) :
    progStrips (prepDec d c0 c1 c2 r u1 u2) mw bias [b0, b1, b2] =
      .ok ((List.range (stripCount h fh fv)).map fun t =>
        [bufChunk w fh fv 0 b0 t, bufChunk w fh fv 1 b1 t, bufChunk w fh fv 2 b2 t]) := by
  obtain ⟨q1, q2, q3, q4, q5⟩ := R.shape
  obtain ⟨-, g1, g2, -⟩ := q5 c1 (by simp)
  have F := R.frame
  have hX : 0 < mcuCols w fh := by
    have h1 := F.wpos
    have := F.fpos.1
    unfold mcuCols
    apply Nat.div_pos <;> omega
  have hfp := F.fpos
  have n0 : mw * c0.verticalSample * c0.horizontalSample * bias = 64 * stripBlocks w fh fv 0 := by
    rw [q2, q3]
    show _ = 64 * (fh * fv * (fh * mcuCols w fh))
    calc mw * fv * fh * bias = mw * bias * (fv * fh) := by ring
      _ = _ := by rw [hmw]; ring
  have n1 : mw * c1.verticalSample * c1.horizontalSample * bias = 64 * stripBlocks w fh fv 1 := by
    rw [g1, g2]
    show _ = 64 * (fh * 1 * (1 * mcuCols w fh))
    calc mw * 1 * 1 * bias = mw * bias := by ring
      _ = _ := by rw [hmw]; ring
  have p0 : 0 < stripBlocks w fh fv 0 := Nat.mul_pos (Nat.mul_pos hfp.1 hfp.2) (Nat.mul_pos hfp.1 hX)
  have p1 : 0 < stripBlocks w fh fv 1 := Nat.mul_pos (Nat.mul_pos hfp.1 Nat.one_pos) (Nat.mul_pos Nat.one_pos hX)
  have hcount : ∀ i, 0 < stripBlocks w fh fv i →
      64 * bufBlocks w h fh fv i / (64 * stripBlocks w fh fv i) = stripCount h fh fv := by
    intro i hp
    rw [Nat.mul_div_mul_left _ _ (by decide)]
    unfold stripBlocks bufBlocks stripCount at *
    have hp' : 0 < (colourShape fh fv i).1 * bufCols w fh i := by
      rcases Nat.eq_zero_or_pos ((colourShape fh fv i).1 * bufCols w fh i) with e | e
      · rw [Nat.mul_assoc, e] at hp
        omega
      · exact e
    rw [show (colourShape fh fv i).1 * mcuRows h fv * bufCols w fh i =
      mcuRows h fv * ((colourShape fh fv i).1 * bufCols w fh i) by ring,
      Nat.mul_assoc fh, Nat.mul_div_mul_right _ _ hp']
  have hn : 0 < d.options.getOutColorspace.numComponents := by
    cases d.options.getOutColorspace <;> decide
  have hchunk : chunkLen (prepDec d c0 c1 c2 r u1 u2) =
      w * d.options.getOutColorspace.numComponents * 8 * fh * fv := by
    unfold chunkLen
    show d.info.width.toNat * d.options.getOutColorspace.numComponents * 8 * d.hMax * d.vMax = _
    rw [F.width, F.hMax, F.vMax]
  have hcp : 0 < w * d.options.getOutColorspace.numComponents * 8 * fh * fv := by
    have := F.wpos
    have := hfp.1
    have := hfp.2
    positivity
  have hroom : stripCount h fh fv ≤ outBufferLen (prepDec d c0 c1 c2 r u1 u2) /
      chunkLen (prepDec d c0 c1 c2 r u1 u2) := by
    rw [hchunk, Nat.le_div_iff_mul_le hcp]
    unfold outBufferLen
    show _ ≤ (d.info.width + 8).toNat * (d.info.height + 8).toNat * d.options.getOutColorspace.numComponents +
      (if d.interleaved then 1 else 0) * 128 * d.info.height.toNat * d.options.getOutColorspace.numComponents
    have a1 := R.wLe
    have a2 := R.hLe
    have e1 : (d.info.width + 8).toNat = w + 8 := by
      rw [UInt16.toNat_add, F.width]
      exact Nat.mod_eq_of_lt (by show w + 8 < 65536; omega)
    have e2 : (d.info.height + 8).toNat = h + 8 := by
      rw [UInt16.toNat_add, F.height]
      exact Nat.mod_eq_of_lt (by show h + 8 < 65536; omega)
    rw [e1, e2, F.height]
    have hf1 := R.fh2
    have hf2 := R.fv2
    refine room ?_ ?_ hfit
    · unfold stripCount mcuRows
      have hc : (fh = 1 ∧ fv = 1) ∨ (fh = 2 ∧ fv = 1) ∨ (fh = 1 ∧ fv = 2) ∨ (fh = 2 ∧ fv = 2) := by omega
      rcases hc with ⟨rfl, rfl⟩ | ⟨rfl, rfl⟩ | ⟨rfl, rfl⟩ | ⟨rfl, rfl⟩ <;> omega
    · intro hne
      rw [F.inter, decide_eq_false hne]
      show 1 * 128 * h * _ = _
      rw [Nat.one_mul]
  unfold progStrips
  have hc0 : (prepDec d c0 c1 c2 r u1 u2).components[0]? = some c0 := rfl
  have hc1 : (prepDec d c0 c1 c2 r u1 u2).components[1]? = some { c1 with upSampler := u1 } := rfl
  rw [hc0]
  dsimp only
  rw [n0, if_neg (by rw [hchunk]; omega)]
  rw [if_pos (by show d.inputColorspace.numComponents = 3; rw [R.inCs]; rfl)]
  rw [hc1]
  dsimp only
  rw [n1, if_neg (by omega)]
  show Out.ok ((((chunksExact _ b0).zip ((chunksExact _ b1).zip (chunksExact _ b2))).take _).map _) = _
  unfold chunksExact
  rw [l0, l1, l2, hcount 0 p0, hcount 1 p1, show bufBlocks w h fh fv 2 = bufBlocks w h fh fv 1 from rfl,
    hcount 1 p1, List.zip_map', List.zip_map', List.take_of_length_le (by
      rw [List.length_map, List.length_range]; exact hroom), List.map_map]
  rfl

/-- Blocks that the buffers hold, with those outside the image included. -/
theorem exists_units (R : ProgColour d c0 c1 c2 w h fh fv) {B : Nat → Nat → Nat → List Int}
    {lev : Nat → Nat → Option Nat} {bufs : List (List I16)} (hH : ColourHolds w h fh fv B lev bufs) :
    ∃ m : Nat → Nat → Nat → Nat → List Int, ∀ i, i < 3 → ∃ buf, bufs[i]? = some buf ∧
      buf.length = 64 * bufBlocks w h fh fv i ∧
      ∀ r k, r < (colourShape fh fv i).1 * mcuRows h fv → k < bufCols w fh i →
        blockAt buf (r * bufCols w fh i + k) =
          coded (m (r / (colourShape fh fv i).1 * mcuCols w fh + k / (colourShape fh fv i).2) i
            (r % (colourShape fh fv i).1) (k % (colourShape fh fv i).2)) ∧
        (r < ownRows h fv i → k < ownCols w fh i →
          m (r / (colourShape fh fv i).1 * mcuCols w fh + k / (colourShape fh fv i).2) i
            (r % (colourShape fh fv i).1) (k % (colourShape fh fv i).2) = approxBlock (lev i) (B i r k)) := by
  obtain ⟨hl, hH⟩ := hH
  have key : ∀ q i a b, ∃ x : List Int, ∀ r k buf, r = q / mcuCols w fh * (colourShape fh fv i).1 + a →
      k = q % mcuCols w fh * (colourShape fh fv i).2 + b → i < 3 → bufs[i]? = some buf →
      r < (colourShape fh fv i).1 * mcuRows h fv → k < bufCols w fh i →
      blockAt buf (r * bufCols w fh i + k) = coded x ∧
        (r < ownRows h fv i → k < ownCols w fh i → x = approxBlock (lev i) (B i r k)) := by
    intro q i a b
    by_cases hi : i < 3
    · obtain ⟨buf, h1, h2, h3⟩ := hH i hi
      by_cases hown : q / mcuCols w fh * (colourShape fh fv i).1 + a < ownRows h fv i ∧
          q % mcuCols w fh * (colourShape fh fv i).2 + b < ownCols w fh i
      · refine ⟨approxBlock (lev i) (B i (q / mcuCols w fh * (colourShape fh fv i).1 + a)
          (q % mcuCols w fh * (colourShape fh fv i).2 + b)), ?_⟩
        rintro r k buf' rfl rfl - hb - -
        rw [h1] at hb
        cases hb
        exact ⟨h3 _ _ hown.1 hown.2, fun _ _ => rfl⟩
      · obtain ⟨r0, hr0⟩ : ∃ r0, q / mcuCols w fh * (colourShape fh fv i).1 + a = r0 := ⟨_, rfl⟩
        obtain ⟨k0, hk0⟩ : ∃ k0, q % mcuCols w fh * (colourShape fh fv i).2 + b = k0 := ⟨_, rfl⟩
        rw [hr0, hk0] at hown ⊢
        by_cases hin : r0 < (colourShape fh fv i).1 * mcuRows h fv ∧ k0 < bufCols w fh i
        · have hlt : r0 * bufCols w fh i + k0 < bufBlocks w h fh fv i := by
            unfold bufBlocks
            calc r0 * bufCols w fh i + k0 < r0 * bufCols w fh i + bufCols w fh i := by omega
              _ = (r0 + 1) * bufCols w fh i := by ring
              _ ≤ _ := Nat.mul_le_mul_right _ hin.1
          obtain ⟨x, hx⟩ := coded_surj (blockAt buf (r0 * bufCols w fh i + k0)) (by
            unfold blockAt
            rw [List.length_take, List.length_drop, h2]
            omega)
          refine ⟨x, ?_⟩
          rintro r k buf' rfl rfl - hb - -
          rw [h1] at hb
          cases hb
          exact ⟨hx.symm, fun a b => absurd ⟨a, b⟩ hown⟩
        · refine ⟨[], ?_⟩
          rintro r k buf' rfl rfl - - a b
          exact absurd ⟨a, b⟩ hin
    · exact ⟨[], fun r k buf _ _ h => absurd h hi⟩
  choose m hm using key
  refine ⟨m, fun i hi => ?_⟩
  obtain ⟨buf, h1, h2, -⟩ := hH i hi
  refine ⟨buf, h1, h2, fun r k hr hk => ?_⟩
  have hs : 0 < (colourShape fh fv i).2 := by
    have := R.frame.fpos
    unfold colourShape
    split
    · exact this.1
    · exact Nat.one_pos
  have hq : k / (colourShape fh fv i).2 < mcuCols w fh := by
    have e : bufCols w fh i = mcuCols w fh * (colourShape fh fv i).2 := by
      unfold bufCols colourShape
      split <;> simp [Nat.mul_comm]
    rw [e] at hk
    exact Nat.div_lt_of_lt_mul (by rw [Nat.mul_comm]; exact hk)
  refine hm _ i _ _ r k buf ?_ ?_ hi h1 hr hk
  · rw [Nat.mul_comm _ (mcuCols w fh), Nat.mul_add_div (Nat.zero_lt_of_lt hq), Nat.div_eq_of_lt hq, Nat.add_zero,
      Nat.mul_comm, Nat.div_add_mod]
  · rw [Nat.mul_comm _ (mcuCols w fh), Nat.mul_add_mod, Nat.mod_eq_of_lt hq, Nat.mul_comm, Nat.div_add_mod]

/-- The end of a progressive image. -/
theorem finish_colour (R : ProgColour d c0 c1 c2 w h fh fv) (hfit : fv = 1 ∨ 7 * w ≤ 136 * h + 64)
    {B : Nat → Nat → Nat → List Int} {lev : Nat → Nat → Option Nat} {bufs : List (List I16)}
    (hH : ColourHolds w h fh fv B lev bufs) (rd : List UInt8) {oc : ColorSpace} {nc : Nat}
    (hout : d.options.getOutColorspace = oc) (hnc : oc.numComponents = nc) :
    ∃ m full, ColourJobs d c0 c1 c2 w h fh fv m oc nc full
        (finishProgressive bufs (mcuCols w fh * 64) ⟨d, rd⟩).1 ∧
      ∀ i r k, i < 3 → r < ownRows h fv i → k < ownCols w fh i →
        m (r / (colourShape fh fv i).1 * mcuCols w fh + k / (colourShape fh fv i).2) i
          (r % (colourShape fh fv i).1) (k % (colourShape fh fv i).2) = approxBlock (lev i) (B i r k) := by
  obtain ⟨m, hm⟩ := exists_units R hH
  obtain ⟨r, u1, u2, mw', bias, hsetup, hmw, hu⟩ := finishSetup_colour R.toColourFrame (mcuCols w fh * 64) rd
  obtain ⟨b0, x0, l0, k0⟩ := hm 0 (by decide)
  obtain ⟨b1, x1, l1, k1⟩ := hm 1 (by decide)
  obtain ⟨b2, x2, l2, k2⟩ := hm 2 (by decide)
  have hbufs : bufs = [b0, b1, b2] := by
    have hl := hH.1
    match bufs, hl with
    | [a, b, c], _ =>
      cases x0
      cases x1
      cases x2
      rfl
  obtain ⟨q1, q2, q3, q4, q5⟩ := R.shape
  have g1 := q5 c1 (by simp)
  have g2 := q5 c2 (by simp)
  have hmX : d.mcuX = mcuCols w fh := R.frame.mcuX
  have hX : 0 < mcuCols w fh := by
    have h1 := R.frame.wpos
    have := R.frame.fpos.1
    unfold mcuCols
    apply Nat.div_pos <;> omega
  have hres : (finishProgressive bufs (mcuCols w fh * 64) ⟨d, rd⟩).1 =
      (joinPool (.ok ()) ((List.range (stripCount h fh fv)).map fun t =>
        postProcessInner d.colorFn [c0, { c1 with upSampler := u1 }, { c2 with upSampler := u2 }]
          .ycbcr oc w ((List.range (min 3 nc)).map
            (stripPlane d.idctFn (fun i => [c0, c1, c2][i]?.elim [] (·.quantTable)) w fh fv m t))
          (List.replicate (8 * (fh * fv) * (w * nc)) 0))).map
        (assemble (outBufferLen d) (h * (w * nc))) := by
    obtain ⟨d', hd'⟩ : ∃ d', prepDec d c0 c1 c2 r u1 u2 = d' := ⟨_, rfl⟩
    obtain ⟨cs, hcs⟩ : ∃ cs, [c0, { c1 with upSampler := u1 }, { c2 with upSampler := u2 }] = cs := ⟨_, rfl⟩
    have hstrips := progStrips_colour (r := r) (u1 := u1) (u2 := u2) R.toColourFrame hfit hmw l0 l1 l2
    rw [hd'] at hsetup hstrips
    have hso : M.ofOut (progStrips d' mw' bias [b0, b1, b2]) (⟨d', rd⟩ : H) =
        (.ok ((List.range (stripCount h fh fv)).map fun t =>
          [bufChunk w fh fv 0 b0 t, bufChunk w fh fv 1 b1 t, bufChunk w fh fv 2 b2 t]), ⟨d', rd⟩) := by
      rw [hstrips]; rfl
    unfold finishProgressive
    rw [M.bind_ok hsetup]
    dsimp only
    rw [M.bind_ok (getDec_apply _ _), hbufs, M.bind_ok hso, List.map_map]
    have e1 : d'.components = cs := by rw [← hd', ← hcs]; rfl
    have e2 : d'.inputColorspace = .ycbcr := by rw [← hd']; exact R.inCs
    have e3 : d'.options.getOutColorspace = oc := by rw [← hd']; exact hout
    have e4 : d'.info.width.toNat = w := by rw [← hd']; exact R.frame.width
    have e5 : d'.idctFn = d.idctFn := by rw [← hd']; rfl
    have e6 : d'.colorFn = d.colorFn := by rw [← hd']; rfl
    have e7 : chunkLen d' = 8 * (fh * fv) * (w * nc) := by
      unfold chunkLen
      have a1 : d'.hMax = fh := by rw [← hd']; exact R.frame.hMax
      have a2 : d'.vMax = fv := by rw [← hd']; exact R.frame.vMax
      rw [e4, e3, hnc, a1, a2]
      ring
    have e8 : keepLen d' = h * (w * nc) := by
      unfold keepLen
      have a1 : d'.info.height.toNat = h := by rw [← hd']; exact R.frame.height
      rw [e4, e3, hnc, a1]
      ring
    have e9 : outBufferLen d' = outBufferLen d := by rw [← hd']; rfl
    have hjobs : ((List.range (stripCount h fh fv)).map
        ((fun s => postProcess d'.idctFn d'.colorFn d'.components d'.inputColorspace
          d'.options.getOutColorspace d'.info.width.toNat s (List.replicate (chunkLen d') 0)) ∘
        fun t => [bufChunk w fh fv 0 b0 t, bufChunk w fh fv 1 b1 t, bufChunk w fh fv 2 b2 t])) =
        (List.range (stripCount h fh fv)).map fun t =>
          postProcessInner d.colorFn cs .ycbcr oc w ((List.range (min 3 nc)).map
            (stripPlane d.idctFn (fun i => [c0, c1, c2][i]?.elim [] (·.quantTable)) w fh fv m t))
          (List.replicate (8 * (fh * fv) * (w * nc)) 0) := by
      rw [e1, e2, e3, e4, e5, e6, e7]
      refine List.map_congr_left fun t ht => ?_
      have ht' := List.mem_range.1 ht
      have htr : t * fh + fh ≤ mcuRows h fv := by
        have h1 : stripCount h fh fv * fh ≤ mcuRows h fv := Nat.div_mul_le_self _ _
        calc t * fh + fh = (t + 1) * fh := by ring
          _ ≤ stripCount h fh fv * fh := Nat.mul_le_mul_right _ ht'
          _ ≤ _ := h1
      show postProcess d.idctFn d.colorFn cs .ycbcr oc w
        [bufChunk w fh fv 0 b0 t, bufChunk w fh fv 1 b1 t, bufChunk w fh fv 2 b2 t] _ = _
      unfold postProcess
      have h0 : cs[0]? = some c0 := by rw [← hcs]; rfl
      rw [h0]
      dsimp only
      rw [q2, q3]
      have hplane : ∀ z (c : Component) buf, cs[z]? = some c →
          [bufChunk w fh fv 0 b0 t, bufChunk w fh fv 1 b1 t, bufChunk w fh fv 2 b2 t][z]? =
            some (bufChunk w fh fv z buf t) →
          [c0, c1, c2][z]?.elim [] (·.quantTable) = c.quantTable →
          c.verticalSample = (colourShape fh fv z).1 → c.horizontalSample = (colourShape fh fv z).2 →
          c.widthStride = 8 * (c.horizontalSample * mcuCols w fh) →
          buf.length = 64 * bufBlocks w h fh fv z →
          (∀ r k, r < (colourShape fh fv z).1 * mcuRows h fv → k < bufCols w fh z →
            blockAt buf (r * bufCols w fh z + k) =
              coded (m (r / (colourShape fh fv z).1 * mcuCols w fh + k / (colourShape fh fv z).2) z
                (r % (colourShape fh fv z).1) (k % (colourShape fh fv z).2))) →
          idctComponent d.idctFn cs
            [bufChunk w fh fv 0 b0 t, bufChunk w fh fv 1 b1 t, bufChunk w fh fv 2 b2 t] fh fv z =
            .ok (stripPlane d.idctFn (fun i => [c0, c1, c2][i]?.elim [] (·.quantTable)) w fh fv m t z) := by
        intro z c buf hc hb hq hV hU hst hlen hblk
        have hV0 : 0 < (colourShape fh fv z).1 := by
          unfold colourShape
          split
          · exact R.frame.fpos.2
          · exact Nat.one_pos
        have hcols : bufCols w fh z = c.horizontalSample * mcuCols w fh := by
          rw [hU]
          unfold bufCols colourShape
          split <;> rfl
        have hrow : t * (fh * (colourShape fh fv z).1) + fh * (colourShape fh fv z).1 ≤
            (colourShape fh fv z).1 * mcuRows h fv := by
          calc t * (fh * (colourShape fh fv z).1) + fh * (colourShape fh fv z).1 =
                (colourShape fh fv z).1 * (t * fh + fh) := by ring
            _ ≤ _ := Nat.mul_le_mul_left _ htr
        have hp := plane_of_blocks (f := d.idctFn) (t := t) (m := fun k => m k z) hc hX R.frame.fpos hst (by
          rw [hV, hU]
          unfold colourShape
          by_cases hz : z = 0
          · left
            rw [if_pos hz]
            exact ⟨hz, rfl, rfl⟩
          · right
            rw [if_neg hz]
            exact ⟨hz, rfl, rfl⟩) hb (by
          unfold bufChunk stripBlocks
          rw [List.length_take, List.length_drop, hlen, hV]
          have hle : t * (64 * (fh * (colourShape fh fv z).1 * bufCols w fh z)) +
              64 * (fh * (colourShape fh fv z).1 * bufCols w fh z) ≤ 64 * bufBlocks w h fh fv z := by
            unfold bufBlocks
            calc t * (64 * (fh * (colourShape fh fv z).1 * bufCols w fh z)) +
                  64 * (fh * (colourShape fh fv z).1 * bufCols w fh z) =
                  64 * ((t * (fh * (colourShape fh fv z).1) + fh * (colourShape fh fv z).1) *
                    bufCols w fh z) := by ring
              _ ≤ _ := Nat.mul_le_mul_left _ (Nat.mul_le_mul_right _ hrow)
          rw [Nat.min_eq_left (by omega), ← hcols]
          ring) (by
          intro r k hr hk
          rw [hV] at hr
          unfold bufChunk
          rw [← hcols] at hk ⊢
          rw [blockAt_chunk (by
            unfold stripBlocks
            calc r * bufCols w fh z + k < (r + 1) * bufCols w fh z := by
                  rw [Nat.add_mul, Nat.one_mul]; omega
              _ ≤ _ := Nat.mul_le_mul_right _ hr)]
          have := hblk (t * (fh * (colourShape fh fv z).1) + r) k (by omega) hk
          rw [show t * stripBlocks w fh fv z + (r * bufCols w fh z + k) =
            (t * (fh * (colourShape fh fv z).1) + r) * bufCols w fh z + k by unfold stripBlocks; ring, this,
            hV, hU]
          rw [show t * (fh * (colourShape fh fv z).1) + r = (colourShape fh fv z).1 * (t * fh) + r by ring,
            Nat.mul_add_div hV0, Nat.mul_add_mod])
        rw [hp, hV, hU, ← hq]
        rfl
      have hcoll : Out.collect ((List.range (min ColorSpace.ycbcr.numComponents oc.numComponents)).map
            (idctComponent d.idctFn cs
              [bufChunk w fh fv 0 b0 t, bufChunk w fh fv 1 b1 t, bufChunk w fh fv 2 b2 t] fh fv)) =
          .ok ((List.range (min 3 nc)).map
            (stripPlane d.idctFn (fun i => [c0, c1, c2][i]?.elim [] (·.quantTable)) w fh fv m t)) := by
        rw [hnc]
        refine collect_ok_map fun z hz => ?_
        have hz' : z < 3 := by
          have := List.mem_range.1 hz
          have h3 : ColorSpace.ycbcr.numComponents = 3 := rfl
          omega
        have hz3 : z = 0 ∨ z = 1 ∨ z = 2 := by omega
        rcases hz3 with rfl | rfl | rfl
        · exact hplane 0 c0 b0 h0 rfl rfl q3 q2 (by rw [q4, q2, hmX]; ring) l0 fun r k hr hk => (k0 r k hr hk).1
        · exact hplane 1 { c1 with upSampler := u1 } b1 (by rw [← hcs]; rfl) rfl rfl g1.2.2.1 g1.2.1 (by
            show c1.widthStride = 8 * (c1.horizontalSample * _)
            rw [g1.2.2.2, g1.2.1, hmX]; ring) l1 fun r k hr hk => (k1 r k hr hk).1
        · exact hplane 2 { c2 with upSampler := u2 } b2 (by rw [← hcs]; rfl) rfl rfl g2.2.2.1 g2.2.1 (by
            show c2.widthStride = 8 * (c2.horizontalSample * _)
            rw [g2.2.2.2, g2.2.1, hmX]; ring) l2 fun r k hr hk => (k2 r k hr hk).1
      rw [hcoll]
      rfl
    rw [hjobs, e8, e9, hcs]
    generalize joinPool _ _ = o
    cases o <;> rfl
  obtain ⟨full, hj⟩ := colour_result R.toColourFrame hu hres
  refine ⟨m, full, hj, fun i r k hi hr hk => ?_⟩
  obtain ⟨buf, -, -, hb⟩ := hm i hi
  have ho := own_le R i
  exact (hb r k (by omega) (by omega)).2 hr hk

end

end Zune
