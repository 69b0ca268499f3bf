import Verif.Lemmas.ColourPlane
/-! Scans with three components: from the coded data to the planes of all strips. -/

namespace Zune
open Spec

namespace Spec

/-- Rows and columns of blocks in an MCU: component 0 has the factors of the image, the others 1x1. -/
def colourShape (fh fv i : Nat) : Nat × Nat := if i = 0 then (fv, fh) else (1, 1)

/-- The MCUs in the restart intervals of an image of `w` x `h` pixels with restart interval `r`. -/
def colourCounts (w h fh fv r : Nat) : List Nat := intervalCounts r (mcuRows h fv * mcuCols w fh)

/-- The coded data of an image of `w` x `h` pixels with restart interval `r`; `m k i a b` is the block in
row `a` and column `b` of component `i` in MCU `k`. -/
def colourBytes (C : Nat → Codes) (w h fh fv r : Nat) (m : Nat → Nat → Nat → Nat → List Int)
    (fill : List UInt8) : List UInt8 :=
  intervalsBytes C 3 (colourShape fh fv) m fill 0 0 (colourCounts w h fh fv r)

/-- The data can be coded and decoded. -/
def ColourOk (C : Nat → Codes) (w h fh fv r : Nat) (m : Nat → Nat → Nat → Nat → List Int)
    (fill : List UInt8) : Prop :=
  IntervalsOk C 3 (colourShape fh fv) m fill 0 (colourCounts w h fh fv r)

/-- Number of strips of the output that are decoded. -/
def stripCount (h fh fv : Nat) : Nat := mcuRows h fv / fh

/-- Rows of a strip. -/
def stripRows (fh fv i : Nat) : Nat := 8 * (fh * (colourShape fh fv i).1)

/-- Component `i` of strip `t` of the image, before upsampling. -/
def stripPlane (f : IdctFn) (qt : Nat → List Nat) (w fh fv : Nat) (m : Nat → Nat → Nat → Nat → List Int)
    (t i : Nat) : List I16 :=
  unitRows f (qt i) (mcuCols w fh) (colourShape fh fv i).1 (colourShape fh fv i).2 (fun k => m k i)
    (t * stripRows fh fv i) (stripRows fh fv i)

end Spec

section
variable {d : Decoder} {c0 c1 c2 : Component} {w h fh fv : Nat}

theorem strips_fit {s : Scan} (G : Geometry s w h fh fv) (hh : h ≤ 65527) :
    s.mcuHeight = stripCount h fh fv ∧ stripCount h fh fv * fh ≤ mcuRows h fv := by
  unfold stripCount mcuRows
  rcases G.counts with ⟨rfl, rfl, -, b, -⟩ | ⟨rfl, rfl, -, b, -⟩ | ⟨rfl, rfl, -, b, -⟩ |
    ⟨rfl, rfl, -, b, -⟩ <;> rw [b] <;> omega

theorem collect_ok_map {α β : Type} {f : α → Out β} {g : α → β} : ∀ {l : List α},
    (∀ a ∈ l, f a = .ok (g a)) → Out.collect (l.map f) = .ok (l.map g) := by
  intro l h
  exact Out.collect_map_ok h

/-- A coded scan with three components. -/
theorem colour_baseline (R : ColourReady d c0 c1 c2 w h fh fv) {C : Nat → Codes}
    (hT : CompTables d [c0, c1, c2] C) (hfit : fv = 1 ∨ 7 * w ≤ 136 * h + 64)
    {m : Nat → Nat → Nat → Nat → List Int} {fill trailer : List UInt8}
    {rs : Nat} (hrs : rs ≠ 0 → d.restartInterval = rs ∧ d.todo = rs)
    (hok : ColourOk C w h fh fv rs m fill) :
    ∃ r u1 u2 p k rd', ((fh = 1 ∧ fv = 1) ∨ (u1 = u2 ∧ Sampling d.cpu d.options.useUnsafe fh fv r u1)) ∧
      (fh = 1 ∧ fv = 1 → r = .none) ∧
      decodeBaseline ⟨d, colourBytes C w h fh fv rs m fill ++ 0xFF :: 0xD9 :: trailer⟩ =
        ((joinPool (.ok ()) ((List.range (stripCount h fh fv)).map fun t =>
            postProcessInner d.colorFn [c0, { c1 with upSampler := u1 }, { c2 with upSampler := u2 }]
              .ycbcr d.options.getOutColorspace w
              ((List.range (min 3 d.options.getOutColorspace.numComponents)).map
                (stripPlane d.idctFn (fun i => [c0, c1, c2][i]?.elim [] (·.quantTable)) w fh fv m t))
              (List.replicate (8 * (fh * fv) * (w * d.options.getOutColorspace.numComponents)) 0))).map
          (assemble (outBufferLen d) (h * (w * d.options.getOutColorspace.numComponents))),
        ⟨multiDec (prepDec d c0 c1 c2 r u1 u2)
          [c0, { c1 with upSampler := u1 }, { c2 with upSampler := u2 }] p k, rd'⟩) := by
  obtain ⟨mm, r, u1, u2, hset, G, hu, hr⟩ := colour_setup R (colourBytes C w h fh fv rs m fill ++
    0xFF :: 0xD9 :: trailer)
  obtain ⟨d', hd'⟩ : ∃ d', prepDec d c0 c1 c2 r u1 u2 = d' := ⟨_, rfl⟩
  obtain ⟨cs, hcs⟩ : ∃ cs, [c0, { c1 with upSampler := u1 }, { c2 with upSampler := u2 }] = cs := ⟨_, rfl⟩
  rw [hd'] at hset G
  obtain ⟨s, hs⟩ : ∃ s, mkScan mm d' c0 = s := ⟨_, rfl⟩
  rw [hs] at hset G
  have hdc : d'.components = cs := by rw [← hd', ← hcs]; rfl
  have hsc : s.comps = cs := by rw [← hs]; exact hdc
  have hlen : cs.length = 3 := by rw [← hcs]; rfl
  obtain ⟨q1, q2, q3, q4, q5⟩ := R.shape
  have g1 := q5 c1 (by simp)
  have g2 := q5 c2 (by simp)
  have hshape : ∀ i, i < 3 → mcuShape cs i = colourShape fh fv i := by
    intro i hi
    rw [← hcs]
    have hi' : i = 0 ∨ i = 1 ∨ i = 2 := by omega
    rcases hi' with rfl | rfl | rfl
    · show (c0.verticalSample, c0.horizontalSample) = (fv, fh)
      rw [q2, q3]
    · show (c1.verticalSample, c1.horizontalSample) = (1, 1)
      rw [g1.2.1, g1.2.2.1]
    · show (c2.verticalSample, c2.horizontalSample) = (1, 1)
      rw [g2.2.1, g2.2.2.1]
  obtain ⟨hh1, hh2⟩ := strips_fit G R.hLe
  obtain ⟨hb1, hb2⟩ := strip_mcus G R.wLe
  have hshape' : ∀ i, i < 3 → colourShape fh fv i = mcuShape cs i := fun i hi => (hshape i hi).symm
  have hle : s.mcuHeight * (s.bias * s.mcuWidth) ≤ mcuRows h fv * mcuCols w fh := by
    rw [hh1, hb1, ← Nat.mul_assoc]
    exact Nat.mul_le_mul_right _ hh2
  have hTd : CompTables d' cs C := by
    intro i c hc
    rw [← hcs] at hc
    have key : ∀ c' : Component, [c0, c1, c2][i]? = some c' → c'.dcHuffTable = c.dcHuffTable →
        c'.acHuffTable = c.acHuffTable → ∃ dc ac, d'.dcTables[c.dcHuffTable &&& 3]? = some (some dc) ∧
          d'.acTables[c.acHuffTable &&& 3]? = some (some ac) ∧ Tables (C i) dc ac := by
      intro c' hc' e1 e2
      have := hT i c' hc'
      rw [e1, e2] at this
      rw [← hd']
      exact this
    have hi : i < 3 := by
      by_contra hge
      rw [List.getElem?_eq_none (by simp; omega)] at hc
      cases hc
    have hi' : i = 0 ∨ i = 1 ∨ i = 2 := by omega
    rcases hi' with rfl | rfl | rfl
    · cases hc
      exact key c0 rfl rfl rfl
    · cases hc
      exact key c1 rfl rfl rfl
    · cases hc
      exact key c2 rfl rfl rfl
  have hcomps : CompsOk s cs := by
    intro c hc
    obtain ⟨p1, p2, -⟩ := places_component G (c := c) (by rw [hsc]; exact hc)
    refine ⟨⟨p1, p2⟩, ?_⟩
    rw [← hcs] at hc
    have hf := R.frame.fpos
    simp only [List.mem_cons, List.not_mem_nil, or_false] at hc
    rcases hc with rfl | rfl | rfl
    · rw [q2, q3]; exact ⟨hf.2, hf.1⟩
    · show 0 < c1.verticalSample ∧ 0 < c1.horizontalSample
      rw [g1.2.1, g1.2.2.1]; decide
    · show 0 < c2.verticalSample ∧ 0 < c2.horizontalSample
      rw [g2.2.1, g2.2.2.1]; decide
  have hn : d'.inputColorspace.numComponents = cs.length := by
    rw [hlen, ← hd']
    show d.inputColorspace.numComponents = 3
    rw [R.inCs]
    rfl
  have hdm : d' = multiDec d' cs (fun _ => 0) d'.todo := by
    have : (cs.mapIdx fun i c => { c with dcPred := BitVec.ofInt 32 ((fun _ => (0 : Int)) i) }) = cs := by
      have a0 := R.pred c0 (by simp)
      have a1 := R.pred c1 (by simp)
      have a2 := R.pred c2 (by simp)
      rw [← hcs]
      show [({ c0 with dcPred := 0 } : Component), { c1 with upSampler := u1, dcPred := 0 },
        { c2 with upSampler := u2, dcPred := 0 }] = _
      rw [← a0]
      congr 2
      · rw [a0, ← a1]
      · rw [a0, ← a2]
    unfold multiDec
    rw [this, ← hdc]
  let t0 : T := { dec := d', io := { bs := BitStream.new
                                     rd := colourBytes C w h fh fv rs m fill ++
                                       0xFF :: 0xD9 :: trailer } }
  have hrI : d'.restartInterval = d.restartInterval := by rw [← hd']; rfl
  obtain ⟨cc, cnts, hcnts⟩ := intervalCounts_ne rs (mcuRows h fv * mcuCols w fh)
  have hat : ScanAt d' cs C m fill trailer (mcuRows h fv * mcuCols w fh) 0 t0 := by
    refine ⟨0, 0, cc, cnts, 0, rfl, ?_, ivAt_start hdm rfl rfl ?_ ?_ ?_ ?_⟩
    · have := intervalCounts_sum rs (mcuRows h fv * mcuCols w fh)
      rw [hcnts, List.sum_cons] at this
      omega
    · show colourBytes C w h fh fv rs m fill ++ _ = _
      unfold colourBytes colourCounts
      rw [hcnts, intervalsBytes_congr hshape', hlen]
    · unfold ColourOk colourCounts at hok
      rw [hcnts] at hok
      rw [hlen]
      exact intervalsOk_congr hshape' (by omega) C m fill _ _ hok
    · have hreg := intervalCounts_reg rs (mcuRows h fv * mcuCols w fh)
      rw [hcnts] at hreg
      cases cnts with
      | nil => trivial
      | cons c' cnts =>
        obtain ⟨-, h0, -⟩ := id hreg
        rw [hrI, (hrs (by omega)).1]
        exact hreg
    · cases cnts with
      | nil => trivial
      | cons c' cnts =>
        have hreg := intervalCounts_reg rs (mcuRows h fv * mcuCols w fh)
        rw [hcnts] at hreg
        obtain ⟨-, h0, -⟩ := hreg
        have htd : d'.todo = d.todo := by rw [← hd']; rfl
        rw [hrI, hlen, htd, (hrs (by omega)).1, (hrs (by omega)).2]
        exact intervalCounts_start (by omega) hcnts h0
  have hroom := room_scan G R.wLe R.hLe hfit
  have hchunk0 : 0 < s.chunk := by
    rw [G.chunk]
    have hf := R.frame.fpos
    have hw0 := R.frame.wpos
    have hn : 0 < s.outCs.numComponents := by cases s.outCs <;> decide
    have := hf.1
    have := hf.2
    positivity
  obtain ⟨t', temps, e1, e2, e3, ⟨p', k', e4⟩, e5⟩ := strips_units hcomps hTd (by omega) hn (by omega)
    s.mcuHeight 0 t0 (by rw [Nat.zero_add]; exact hle) (by
      show 0 + _ ≤ _
      rw [Nat.zero_add, Nat.le_div_iff_mul_le hchunk0]
      exact hroom) hat
  refine ⟨r, u1, u2, p', k', t'.io.rd, hu, hr, ?_⟩
  rw [hcs, hd']
  have hout : s.outCs = d.options.getOutColorspace := by rw [← hs, ← hd']; rfl
  have hin : s.inCs = .ycbcr := by rw [← hs, ← hd']; exact R.inCs
  have hidct : s.idct = d.idctFn := by rw [← hs, ← hd']; rfl
  have hcol : s.color = d.colorFn := by rw [← hs, ← hd']; rfl
  have hwidth : s.width = w := G.width
  have hchunk : s.chunk = 8 * (fh * fv) * (w * d.options.getOutColorspace.numComponents) := by
    rw [G.chunk, hout]
    ring
  have hmX : d.mcuX = mcuCols w fh := by
    rw [R.frame.mcuX]
    unfold mcuCols
    rfl
  have hjobs : t'.jobs = (List.range (stripCount h fh fv)).map fun t =>
      postProcessInner d.colorFn cs .ycbcr d.options.getOutColorspace w
        ((List.range (min 3 d.options.getOutColorspace.numComponents)).map
          (stripPlane d.idctFn (fun i => [c0, c1, c2][i]?.elim [] (·.quantTable)) w fh fv m t))
        (List.replicate (8 * (fh * fv) * (w * d.options.getOutColorspace.numComponents)) 0) := by
    rw [e2]
    show [] ++ _ = _
    rw [List.nil_append]
    apply List.ext_getElem?
    intro t
    by_cases ht : t < stripCount h fh fv
    · rw [List.getElem?_map, List.getElem?_map, List.getElem?_range ht]
      have htl : t < temps.length := by omega
      rw [List.getElem?_eq_getElem htl]
      simp only [Option.map_some]
      congr 1
      have hH := e5 t _ (List.getElem?_eq_getElem htl)
      rw [Nat.zero_add] at hH
      unfold stripJob postProcess
      rw [hsc, hin, hout, hwidth, hcol, hchunk]
      have h0 : cs[0]? = some c0 := by rw [← hcs]; rfl
      rw [h0]
      dsimp only
      rw [q2, q3]
      have hcoll : Out.collect ((List.range (min ColorSpace.ycbcr.numComponents
            d.options.getOutColorspace.numComponents)).map (idctComponent s.idct cs temps[t] fh fv)) =
          .ok ((List.range (min 3 d.options.getOutColorspace.numComponents)).map
            (stripPlane d.idctFn (fun i => [c0, c1, c2][i]?.elim [] (·.quantTable)) w fh fv m t)) := by
        refine collect_ok_map fun z hz => ?_
        have hz' : z < 3 ∧ z < d.options.getOutColorspace.numComponents := by
          have := List.mem_range.1 hz
          have h3 : ColorSpace.ycbcr.numComponents = 3 := rfl
          omega
        have key : ∀ c : Component, cs[z]? = some c →
            [c0, c1, c2][z]?.elim [] (·.quantTable) = c.quantTable →
            c.widthStride = 8 * (c.horizontalSample * mcuCols w fh) →
            idctComponent s.idct cs temps[t] fh fv z = .ok (stripPlane d.idctFn
              (fun i => [c0, c1, c2][i]?.elim [] (·.quantTable)) w fh fv m t z) := by
          intro c hc hq hst
          have := strip_plane G R.wLe R.frame.wpos (by rw [hsc]; exact hc) hst hc rfl rfl rfl
            (by show z < d'.options.getOutColorspace.numComponents; rw [← hd']; exact hz'.2) rfl hH
          rw [hsc] at this
          rw [this]
          unfold stripPlane stripRows
          rw [← hshape z hz'.1, mcuShape_some hc, hidct]
          show _ = Out.ok (unitRows _ ([c0, c1, c2][z]?.elim [] (·.quantTable)) _ _ _ _ _ _)
          rw [hq]
        have hz3 : z = 0 ∨ z = 1 ∨ z = 2 := by omega
        rcases hz3 with rfl | rfl | rfl
        · exact key c0 h0 rfl (by rw [q4, q2, hmX]; ring)
        · refine key { c1 with upSampler := u1 } (by rw [← hcs]; rfl) rfl ?_
          show c1.widthStride = 8 * (c1.horizontalSample * _)
          rw [g1.2.2.2, g1.2.1, hmX]; ring
        · refine key { c2 with upSampler := u2 } (by rw [← hcs]; rfl) rfl ?_
          show c2.widthStride = 8 * (c2.horizontalSample * _)
          rw [g2.2.2.2, g2.2.1, hmX]; ring
      rw [hcoll]
      rfl
    · rw [List.getElem?_eq_none (by rw [List.length_map]; omega),
        List.getElem?_eq_none (by rw [List.length_map, List.length_range]; omega)]
  unfold decodeBaseline
  rw [hset]
  dsimp only
  show ((joinPool (strips s s.mcuHeight t0).1 (strips s s.mcuHeight t0).2.jobs).map
    (assemble s.outLen (keepLen (strips s s.mcuHeight t0).2.dec)),
    (⟨(strips s s.mcuHeight t0).2.dec, (strips s s.mcuHeight t0).2.io.rd⟩ : H)) = _
  rw [e1]
  dsimp only
  rw [hjobs, e4]
  have hk : keepLen (multiDec d' cs p' k') = h * (w * d.options.getOutColorspace.numComponents) := by
    rw [← hd']
    show d.info.width.toNat * d.info.height.toNat * d.options.getOutColorspace.numComponents = _
    rw [R.frame.width, R.frame.height]
    ring
  have hol : s.outLen = outBufferLen d := by rw [← hs, ← hd']; rfl
  rw [hk, hol]

end

end Zune
