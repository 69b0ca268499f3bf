import Verif.Lemmas.ProgColourOut
import Verif.Lemmas.ColourHead
import Verif.Props.Progressive
import Verif.Props.ColourTrip
/-!
# Progressive colour images from the first byte to the last sample

C61.
-/

namespace Zune
open Spec

/-- A progressive YCbCr image as an encoder describes it: size, sampling factors of the luma component
(the chroma components have 1x1), quantisation tables for luma (destination 0) and chroma (destination
1), the scans, and the quantised coefficients in zig-zag order (`blocks i r k`: component `i`, row `r`
and column `k` of its blocks). -/
structure Spec.ProgColourJpeg where
  width : Nat
  height : Nat
  fh : Nat
  fv : Nat
  quantY : List UInt8
  quantC : List UInt8
  first : CScan
  rest : List CScan
  blocks : Nat → Nat → Nat → List Int
  trailer : List UInt8

namespace Spec.ProgColourJpeg

/-- The quantisation table of a component. -/
def quantOf (g : ProgColourJpeg) (i : Nat) : List UInt8 := if i = 0 then g.quantY else g.quantC

/-- The file, if `after` follows the scans. -/
def bytesTo (g : ProgColourJpeg) (after : List UInt8) : List UInt8 :=
  [0xFF, 0xD8] ++ (Segment.mk 0xDB (0 :: g.quantY)).bytes ++ (Segment.mk 0xDB (1 :: g.quantC)).bytes ++
  (Segment.mk 0xC2 (8 :: (twoBytes g.height ++ twoBytes g.width ++
    [3, 1, UInt8.ofNat (16 * g.fh + g.fv), 0, 2, 0x11, 1, 3, 0x11, 1]))).bytes ++
  cscansBytes after (g.first :: g.rest)

/-- The file: the scans are followed by `EOI`. -/
def bytes (g : ProgColourJpeg) : List UInt8 := g.bytesTo (0xFF :: 0xD9 :: g.trailer)

/-- The scans are those of the blocks and lead to the approximations `lev i` of component `i`. The sizes
leave out the eight largest values (see C31). The first scan starts with DC coefficients, as the standard
demands. -/
structure Valid (g : ProgColourJpeg) (lev : Nat → Nat → Option Nat) : Prop where
  w0 : 0 < g.width
  h0 : 0 < g.height
  wLe : g.width ≤ 65527
  hLe : g.height ≤ 65527
  fh : 0 < g.fh ∧ g.fh ≤ 2
  fv : 0 < g.fv ∧ g.fv ≤ 2
  quantY : g.quantY.length = 64
  quantC : g.quantC.length = 64
  blocks : ∀ i r k, i < 3 → r < ownRows g.height g.fv i → k < ownCols g.width g.fh i → BlockOk (g.blocks i r k)
  script : CScript g.width g.height g.fh g.fv g.blocks (fun _ _ => none) (fun _ _ => none)
    (g.first :: g.rest) lev
  dc : g.first.ss = 0

/-- The restrictions of the decoder that are not of the standard. As for grayscale images the last code of
the first scan must be so short that the decoder has to read beyond it (see `c58_false`), and the number
of data units of all scans together must not reach the initial value of the counter of the restart
intervals. With two rows of luma blocks in an MCU the width is limited (`c45_false`). -/
structure Fits (g : ProgColourJpeg) : Prop where
  late : ∃ x ∈ g.first.lastCode g.width g.height g.fh g.fv g.blocks,
    x.length + padCount g.first.bits.length < 16
  few : scansUnits g.width g.height g.fh g.fv (g.first :: g.rest) < 0x7fffffff
  fit : g.fv = 1 ∨ 7 * g.width ≤ 136 * g.height + 64

/-- The sample in row `y` and column `x` of component `i`: that of the inverse transform of what is known
of the block it lies in. -/
def sample (g : ProgColourJpeg) (lev : Nat → Nat → Option Nat) (f : IdctFn) (i y x : Nat) : I16 :=
  (Zune.sample (f.block (coded (approxBlock (lev i) (g.blocks i (y / 8) (x / 8)))) (naturalQuant (g.quantOf i)))
    (y % 8) (x % 8)).getD 0

/-- A row of output that is decoded, see `ColourJpeg.Row`. -/
def Row (g : ProgColourJpeg) (y : Nat) : Prop :=
  y / (8 * (g.fh * g.fv)) < mcuRows g.height g.fv / g.fh

end Spec.ProgColourJpeg

instance (g : ProgColourJpeg) (y : Nat) : Decidable (g.Row y) := by
  unfold ProgColourJpeg.Row; infer_instance

section
variable {g : ProgColourJpeg} {lev : Nat → Nat → Option Nat}

/-- The headers of the file. -/
theorem progColour_headers (after : List UInt8) (V : g.Valid lev) (L : g.Fits) (cpu : Cpu) (o : Options)
    (hw : g.width ≤ o.getMaxWidth) (hh : g.height ≤ o.getMaxHeight) :
    ∃ d, decodeHeaders ⟨Decoder.newWithOptions cpu o, g.bytesTo after⟩ =
        (.ok (), ⟨d, stuffBytes (packBytes (padBits g.first.bits)) ++ cscansBytes after g.rest⟩) ∧
      CInv g.width g.height g.fh g.fv (fun i => naturalQuant (g.quantOf i)) (chooseIdct cpu o.getUseUnsafe)
        (Decoder.newWithOptions cpu o).colorFn cpu o (g.first.tables.foldl Tabs.define fun _ _ => none)
        (g.first.units g.width g.height g.fh g.fv +
          (scansUnits g.width g.height g.fh g.fv g.rest + 1)) d ∧ AfterSos g.first d := by
  obtain ⟨d0, hd0⟩ : ∃ d, Decoder.newWithOptions cpu o = d := ⟨_, rfl⟩
  obtain ⟨q0, hq0⟩ : ∃ q, unZigZag (g.quantY.map (·.toNat)) = q := ⟨_, rfl⟩
  obtain ⟨q1, hq1⟩ : ∃ q, unZigZag (g.quantC.map (·.toNat)) = q := ⟨_, rfl⟩
  obtain ⟨d1, hd1⟩ : ∃ d, ({ d0 with qtTables := d0.qtTables.set 0 (some q0) } : Decoder) = d := ⟨_, rfl⟩
  obtain ⟨d2, hd2⟩ : ∃ d, ({ d1 with qtTables := d1.qtTables.set 1 (some q1) } : Decoder) = d := ⟨_, rfl⟩
  obtain ⟨d3, hd3⟩ : ∃ d, colourFrameDec .progressiveDctHuffman { d2 with isProgressive := true } g.width
    g.height g.fh g.fv q0 q1 = d := ⟨_, rfl⟩
  have s1 := dqt_one d0 (k := 0) (by decide) V.quantY
  rw [hq0, hd1] at s1
  have s2 := dqt_one d1 (k := 1) (by decide) V.quantC
  rw [hq1, hd2] at s2
  have hqt : d2.qtTables = [some q0, some q1, none, none] := by
    rw [← hd2, ← hd1, ← hd0]; rfl
  have s3 : SegOk 0xC2 (8 :: (twoBytes g.height ++ twoBytes g.width ++
      [3, 1, UInt8.ofNat (16 * g.fh + g.fv), 0, 2, 0x11, 1, 3, 0x11, 1])) d2 d3 := by
    rw [← hd3]
    refine sof_colour .progressiveDctHuffman { d2 with isProgressive := true } ?_ ?_
      (by have := V.wLe; omega) (by have := V.hLe; omega)
      (by have := V.w0; omega) (by have := V.h0; omega) ?_ ?_ V.fh.1 V.fh.2 V.fv.1 V.fv.2 ?_ ?_
    · rw [← hd2, ← hd1, ← hd0]; exact V.fh.1
    · rw [← hd2, ← hd1, ← hd0]; exact V.fv.1
    · rw [← hd2, ← hd1, ← hd0]; exact hw
    · rw [← hd2, ← hd1, ← hd0]; exact hh
    · show d2.qtTables[0]? = _
      rw [hqt]; rfl
    · show d2.qtTables[1]? = _
      rw [hqt]; rfl
  obtain ⟨c, hc⟩ : ∃ c, colourComp ((g.width + g.fh * 8 - 1) / (g.fh * 8)) g.fh g.fv q0 q1 = c := ⟨_, rfl⟩
  have hcomp : d3.components = [c 0, c 1, c 2] := by rw [← hd3, ← hc]; rfl
  have f1 := V.fh.1
  have f3 := V.fv.1
  have hwn : (UInt16.ofNat g.width).toNat = g.width := u16_ofNat_toNat (by have := V.wLe; omega)
  have hhn : (UInt16.ofNat g.height).toNat = g.height := u16_ofNat_toNat (by have := V.hLe; omega)
  have hmx : d3.mcuX = (g.width + g.fh * 8 - 1) / (g.fh * 8) := by
    rw [← hd3]
    show ((UInt16.ofNat g.width).toNat + g.fh * 8 - 1) / (g.fh * 8) = _
    rw [hwn]
  have hmy : d3.mcuY = (g.height + g.fv * 8 - 1) / (g.fv * 8) := by
    rw [← hd3]
    show ((UInt16.ofNat g.height).toNat + g.fv * 8 - 1) / (g.fv * 8) = _
    rw [hhn]
  have hint : d3.interleaved = !decide (g.fh = 1 ∧ g.fv = 1) := by
    rw [← hd3, ← hd2, ← hd1, ← hd0]
    show (if g.fh ≠ 1 ∨ g.fv ≠ 1 then true else false) = _
    by_cases e : g.fh = 1 ∧ g.fv = 1
    · rw [if_neg (by omega), decide_eq_true e]; rfl
    · rw [if_pos (by omega), decide_eq_false e]; rfl
  have hi : CInv g.width g.height g.fh g.fv (fun i => naturalQuant (g.quantOf i))
      (chooseIdct cpu o.getUseUnsafe) (Decoder.newWithOptions cpu o).colorFn cpu o (fun _ _ => none)
      (g.first.units g.width g.height g.fh g.fv + (scansUnits g.width g.height g.fh g.fv g.rest + 1)) d3 := by
    refine ⟨c 0, c 1, c 2, ?_, ?_, ⟨?_, ?_, ?_, ?_⟩, ?_, ?_, ?_, fun k _ => ⟨?_, ?_⟩⟩
    · have hlu : (c 0).componentId = .y := by rw [← hc]; rfl
      have hch : ∀ x ∈ [c 1, c 2], x.componentId ≠ .y := by
        intro x hx
        simp only [List.mem_cons, List.not_mem_nil, or_false] at hx
        rcases hx with rfl | rfl
        · rw [← hc]
          exact show ComponentID.cb ≠ .y by decide
        · rw [← hc]
          exact show ComponentID.cr ≠ .y by decide
      refine { frame := ?F, comps := hcomp, dims := dims_of_frame ?F hcomp hlu hch, inCs := ?_,
               fh2 := V.fh.2, fv2 := V.fv.2, wLe := V.wLe, luma := hlu, chroma := hch,
               hLe := V.hLe, id0 := ?_, id1 := ?_, id2 := ?_, icomp := ?_, prog := ?_, zlen := ?_ }
      · refine ⟨?_, ?_, V.w0, V.h0, ⟨f1, f3⟩, ?_, ?_, hint, ?_, ?_, ?_, ?_⟩
        · rw [← hd3]
          exact hwn
        · rw [← hd3]
          exact hhn
        · rw [← hd3]; rfl
        · rw [← hd3]; rfl
        · intro _; rw [← hd3, ← hd2, ← hd1, ← hd0]; rfl
        · rw [hmx, Nat.mul_comm 8]
        · rw [hmy, Nat.mul_comm 8]
        · refine ⟨_, _, hcomp, fun _ => hlu, ?_, ?_, ?_, ?_⟩
          · rw [← hc]; rfl
          · rw [← hc]; rfl
          · rw [hmx, ← hc]; rfl
          · intro x hx
            rw [hmx]
            simp only [List.mem_cons, List.not_mem_nil, or_false] at hx
            rcases hx with rfl | rfl
            · rw [← hc]
              exact ⟨fun _ => show ComponentID.cb ≠ .y by decide, rfl, rfl, Nat.one_mul _⟩
            · rw [← hc]
              exact ⟨fun _ => show ComponentID.cr ≠ .y by decide, rfl, rfl, Nat.one_mul _⟩
      · rw [← hd3, ← hd2, ← hd1, ← hd0]; rfl
      · rw [← hc]; rfl
      · rw [← hc]; rfl
      · rw [← hc]; rfl
      · rw [← hd3]; rfl
      · rw [← hd3]; rfl
      · rw [← hd3, ← hd2, ← hd1, ← hd0]
        exact (by decide : 3 ≤ 4)
    · intro i x hx
      match i, hx with
      | 0, hx =>
        cases hx
        show _ = naturalQuant (g.quantOf 0)
        rw [← hc, ← naturalQuant_eq (show (g.quantOf 0).length = 64 from V.quantY)]
        exact hq0.symm
      | 1, hx =>
        cases hx
        show _ = naturalQuant (g.quantOf 1)
        rw [← hc, ← naturalQuant_eq (show (g.quantOf 1).length = 64 from V.quantC)]
        exact hq1.symm
      | 2, hx =>
        cases hx
        show _ = naturalQuant (g.quantOf 2)
        rw [← hc, ← naturalQuant_eq (show (g.quantOf 2).length = 64 from V.quantC)]
        exact hq1.symm
    · rw [← hd3, ← hd2, ← hd1, ← hd0]; rfl
    · rw [← hd3, ← hd2, ← hd1, ← hd0]; rfl
    · rw [← hd3, ← hd2, ← hd1, ← hd0]; rfl
    · rw [← hd3, ← hd2, ← hd1, ← hd0]; rfl
    · have := L.few
      unfold scansUnits at this
      rw [List.map_cons, List.sum_cons] at this
      rw [← hd3, ← hd2, ← hd1, ← hd0]
      show _ ≤ 0x7fffffff
      exact this
    · rw [← hd3, ← hd2, ← hd1, ← hd0]; rfl
    · rw [← hd3, ← hd2, ← hd1, ← hd0]; rfl
    · intro x hx; cases hx
    · intro x hx; cases hx
  obtain ⟨hv, -⟩ := V.script
  obtain ⟨d4, s4, hi4⟩ := hi.defines hv.tables
  obtain ⟨hne, hnd, h3, hss, hse⟩ := hv.data.comps
  obtain ⟨rest, hrest⟩ : ∃ r, stuffBytes (packBytes (padBits g.first.bits)) ++
    cscansBytes after g.rest = r := ⟨_, rfl⟩
  obtain ⟨d5, s5, hi5, ha⟩ := hi4.sos hne hnd h3 hv.dest hss hse hv.ah hv.al rest
  obtain ⟨segs, hsegs⟩ : ∃ l : List Segment, [⟨0xDB, 0 :: g.quantY⟩, ⟨0xDB, 1 :: g.quantC⟩,
    ⟨0xC2, 8 :: (twoBytes g.height ++ twoBytes g.width ++
      [3, 1, UInt8.ofNat (16 * g.fh + g.fv), 0, 2, 0x11, 1, 3, 0x11, 1])⟩] ++
    g.first.tables.map Dht.segment = l := ⟨_, rfl⟩
  have hso : SegsOk segs d0 d4 := by
    rw [← hsegs, SegsOk.append]
    exact ⟨d3, ⟨d1, s1, d2, s2, d3, s3, rfl⟩, s4⟩
  have hhead : ∀ s ∈ segs, s.Header := by
    intro s hs
    rw [← hsegs] at hs
    have h1 := V.quantY
    have h2 := V.quantC
    rcases List.mem_append.1 hs with hs | hs
    · simp only [List.mem_cons, List.not_mem_nil, or_false] at hs
      rcases hs with rfl | rfl | rfl
      · exact ⟨by simp; omega, (by decide : (0xDB : UInt8) ≠ 0xFF), (by decide : (0xDB : UInt8) ≠ 0xDA)⟩
      · exact ⟨by simp; omega, (by decide : (0xDB : UInt8) ≠ 0xFF), (by decide : (0xDB : UInt8) ≠ 0xDA)⟩
      · exact ⟨by simp [twoBytes], (by decide : (0xC2 : UInt8) ≠ 0xFF), (by decide : (0xC2 : UInt8) ≠ 0xDA)⟩
    · obtain ⟨t, ht, rfl⟩ := List.mem_map.1 hs
      exact (hv.tables t ht).header
  have hb : g.bytesTo after = 0xFF :: 0xD8 :: (segs.flatMap Segment.bytes ++ 0xFF :: 0xDA ::
      (g.first.header ++ rest)) := by
    unfold ProgColourJpeg.bytesTo
    rw [← hrest, ← hsegs]
    unfold cscansBytes
    rw [List.flatMap_cons, CScan.bytes]
    simp
  rw [hd0, hrest]
  rw [hd0] at hi5
  refine ⟨d5, ?_, hi5, ha⟩
  rw [hb]
  exact (decodeHeaders_segments hhead).2 ⟨d4, hso, HL.sos (by decide) (by split <;> decide) s5⟩

/-- The buffers before the first scan. -/
theorem alloc_colour {d : Decoder} {c0 c1 c2 : Component} {w h fh fv : Nat}
    (R : ProgColour d c0 c1 c2 w h fh fv) {B : Nat → Nat → Nat → List Int}
    (hblk : ∀ i r k, i < 3 → r < ownRows h fv i → k < ownCols w fh i → BlockOk (B i r k)) :
    ∃ bufs, progAlloc d = .ok (mcuCols w fh * 64, bufs) ∧
      ColourHolds w h fh fv B (fun _ _ => none) bufs := by
  obtain ⟨q1, q2, q3, q4, q5⟩ := R.shape
  obtain ⟨-, g1, g2, -⟩ := q5 c1 (by simp)
  obtain ⟨-, g3, g4, -⟩ := q5 c2 (by simp)
  have hx : (if d.interleaved then d.mcuX else (d.info.width.toNat + 7) / 8) = mcuCols w fh := by
    rw [R.frame.inter, R.frame.mcuX, R.frame.width]
    unfold mcuCols
    by_cases e : fh = 1 ∧ fv = 1
    · rw [decide_eq_true e, e.1]
      show (w + 7) / 8 = _
      omega
    · rw [decide_eq_false e]
      rfl
  have hy : (if d.interleaved then d.mcuY else (d.info.height.toNat + 7) / 8) = mcuRows h fv := by
    rw [R.frame.inter, R.frame.mcuY, R.frame.height]
    unfold mcuRows
    by_cases e : fh = 1 ∧ fv = 1
    · rw [decide_eq_true e, e.2]
      show (h + 7) / 8 = _
      omega
    · rw [decide_eq_false e]
      rfl
  refine ⟨(List.range 3).map fun i => List.replicate (64 * bufBlocks w h fh fv i) 0, ?_, by simp, ?_⟩
  · unfold progAlloc
    dsimp only
    rw [hx, hy, R.inCs, R.comps]
    show Out.bind (Out.collect [Out.ok (List.replicate _ _), Out.ok (List.replicate _ _),
      Out.ok (List.replicate _ _)]) _ = _
    rw [q2, q3, g1, g2, g3, g4]
    have e0 : mcuCols w fh * 64 * fv * fh * mcuRows h fv = 64 * bufBlocks w h fh fv 0 := by
      show _ = 64 * (fv * mcuRows h fv * (fh * mcuCols w fh))
      ring
    have e1 : mcuCols w fh * 64 * 1 * 1 * mcuRows h fv = 64 * bufBlocks w h fh fv 1 := by
      show _ = 64 * (1 * mcuRows h fv * (1 * mcuCols w fh))
      ring
    rw [e0, e1]
    rfl
  · intro i hi
    refine ⟨List.replicate (64 * bufBlocks w h fh fv i) 0, ?_, by simp, fun r k hr hk => ?_⟩
    · rw [List.getElem?_map, List.getElem?_range hi]
      rfl
    · obtain ⟨o1, o2⟩ := own_le R i
      rw [blockAt_zero]
      · have := bufOf_none (blocks := [B i r k]) (by
          intro b hb
          rw [List.mem_singleton.1 hb]
          exact hblk i r k hi hr hk)
        rw [bufOf, codedRow] at this
        simpa using this
      · unfold bufBlocks
        calc r * bufCols w fh i + k < (r + 1) * bufCols w fh i := by
              rw [Nat.add_mul, Nat.one_mul]; omega
          _ ≤ _ := Nat.mul_le_mul_right _ (by omega)

/-- The jobs of the scans before anything that ends them. -/
theorem progColour_jobsTo {after : List UInt8} (hstop : Stops after) (V : g.Valid lev) (L : g.Fits) (cpu : Cpu) (o : Options)
    (hw : g.width ≤ o.getMaxWidth) (hh : g.height ≤ o.getMaxHeight)
    (hs : 1 + g.rest.length ≤ o.getMaxScans) {oc : ColorSpace} (hout : o.getOutColorspace = oc) :
    ∃ d c0 c1 c2 m full, ColourFrame d c0 c1 c2 g.width g.height g.fh g.fv ∧
      (∀ i c, [c0, c1, c2][i]? = some c → c.quantTable = naturalQuant (g.quantOf i)) ∧
      DecKeep d (chooseIdct cpu o.getUseUnsafe) (Decoder.newWithOptions cpu o).colorFn cpu o ∧
      ColourJobs d c0 c1 c2 g.width g.height g.fh g.fv m oc oc.numComponents full
        ((Decoder.newWithOptions cpu o).decodeBuffer (g.bytesTo after)).1 ∧
      ∀ i r k, i < 3 → r < ownRows g.height g.fv i → k < ownCols g.width g.fh i →
        m (r / (colourShape g.fh g.fv i).1 * mcuCols g.width g.fh + k / (colourShape g.fh g.fv i).2) i
          (r % (colourShape g.fh g.fv i).1) (k % (colourShape g.fh g.fv i).2) =
            approxBlock (lev i) (g.blocks i r k) := by
  obtain ⟨d, h1, hi, ha⟩ := progColour_headers after V L cpu o hw hh
  obtain ⟨hv, hrest⟩ := V.script
  have hah : g.first.ah = 0 := by
    have hd := hv.data
    have h0 := V.dc
    rcases hd with ⟨i, hi, hi3, hd⟩ | ⟨h2, -, -, -, -, hd⟩
    · generalize g.first.ss = ss at *
      generalize g.first.ah = ah at *
      generalize g.first.al = al at *
      generalize g.first.se = se at *
      generalize g.first.bits = bits at *
      cases hd with
      | dcFirst => rfl
      | dcRefine _ h => cases h
      | acFirst => rfl
      | acRefine _ h => omega
    · generalize g.first.ah = ah at *
      generalize g.first.al = al at *
      generalize g.first.bits = bits at *
      cases hd with
      | first => rfl
      | refine h =>
        rcases hc : g.first.comps with _ | ⟨a, l⟩
        · rw [hc] at h2
          simp at h2
        · have := (h a (by rw [hc]; exact List.mem_cons_self)).2
          cases this
  obtain ⟨c0, c1, c2, R, -⟩ := id hi
  obtain ⟨bufs, hal, hH⟩ := alloc_colour R V.blocks
  obtain ⟨bufs', d', rd', tabs', h2, hH', hi2⟩ := progScans_cscript V.blocks hstop hi hv.data hv.dest hv.al
    ha V.dc hah L.late hrest hs hH
  obtain ⟨rest, hr⟩ : ∃ r, stuffBytes (packBytes (padBits g.first.bits)) ++
    cscansBytes after g.rest = r := ⟨_, rfl⟩
  rw [hr] at h1 h2
  obtain ⟨e0, e1, e2, R', hq', hk', -⟩ := hi2
  obtain ⟨m, full, hj, hm⟩ := finish_colour R' L.fit hH' rd' (oc := oc) (nc := oc.numComponents)
    (by rw [hk'.options]; exact hout) rfl
  refine ⟨d', e0, e1, e2, m, full, R'.toColourFrame, hq', hk', ?_, hm⟩
  have : ((Decoder.newWithOptions cpu o).decodeBuffer (g.bytesTo after)).1 =
      (finishProgressive bufs' (mcuCols g.width g.fh * 64) ⟨d', rd'⟩).1 := by
    unfold Decoder.decodeBuffer decodeInternal
    rw [M.bind_ok h1, M.bind_ok (getDec_apply _ _), R.prog]
    rw [if_pos rfl]
    unfold decodeProgressive
    rw [M.bind_ok (getDec_apply _ _)]
    have g1 : M.ofOut d.checkComponentDimensions (⟨d, rest⟩ : H) = (.ok (), ⟨d, rest⟩) := by
      rw [R.dims]; rfl
    have g2 : M.ofOut (progAlloc d) (⟨d, rest⟩ : H) =
        (.ok (mcuCols g.width g.fh * 64, bufs), ⟨d, rest⟩) := by
      rw [hal]; rfl
    rw [M.bind_ok g1, M.bind_ok g2]
    dsimp only
    rw [M.bind_ok h2]
  rw [this]
  exact hj

/-- The jobs of the file. -/
theorem progColour_jobs (V : g.Valid lev) (L : g.Fits) (cpu : Cpu) (o : Options)
    (hw : g.width ≤ o.getMaxWidth) (hh : g.height ≤ o.getMaxHeight)
    (hs : 1 + g.rest.length ≤ o.getMaxScans) {oc : ColorSpace} (hout : o.getOutColorspace = oc) :
    ∃ d c0 c1 c2 m full, ColourFrame d c0 c1 c2 g.width g.height g.fh g.fv ∧
      (∀ i c, [c0, c1, c2][i]? = some c → c.quantTable = naturalQuant (g.quantOf i)) ∧
      DecKeep d (chooseIdct cpu o.getUseUnsafe) (Decoder.newWithOptions cpu o).colorFn cpu o ∧
      ColourJobs d c0 c1 c2 g.width g.height g.fh g.fv m oc oc.numComponents full
        ((Decoder.newWithOptions cpu o).decodeBuffer g.bytes).1 ∧
      ∀ i r k, i < 3 → r < ownRows g.height g.fv i → k < ownCols g.width g.fh i →
        m (r / (colourShape g.fh g.fv i).1 * mcuCols g.width g.fh + k / (colourShape g.fh g.fv i).2) i
          (r % (colourShape g.fh g.fv i).1) (k % (colourShape g.fh g.fv i).2) =
            approxBlock (lev i) (g.blocks i r k) :=
  progColour_jobsTo (stops_eoi _) V L cpu o hw hh hs hout

theorem unitSample_congr {f : IdctFn} {qt : List Nat} {X V U y x : Nat} {m m' : Nat → Nat → Nat → List Int}
    (h : m (y / 8 / V * X + x / 8 / U) (y / 8 % V) (x / 8 % U) =
      m' (y / 8 / V * X + x / 8 / U) (y / 8 % V) (x / 8 % U)) :
    unitSample f qt X V U m y x = unitSample f qt X V U m' y x := by
  unfold unitSample
  rw [h]

/-- The rows of the strips that are decoded are in the MCUs. -/
theorem strip_row {h fh fv i t q : Nat} (ht : t < stripCount h fh fv) (hf : 0 < fh)
    (hq : q < stripRows fh fv i) :
    (t * stripRows fh fv i + q) / 8 < (colourShape fh fv i).1 * mcuRows h fv := by
  unfold stripRows at *
  unfold stripCount at ht
  have h1 : (t + 1) * fh ≤ mcuRows h fv := (Nat.le_div_iff_mul_le hf).1 ht
  rw [Nat.div_lt_iff_lt_mul (by decide)]
  calc t * (8 * (fh * (colourShape fh fv i).1)) + q
      < t * (8 * (fh * (colourShape fh fv i).1)) + 8 * (fh * (colourShape fh fv i).1) := by omega
    _ = (colourShape fh fv i).1 * ((t + 1) * fh) * 8 := by ring
    _ ≤ _ := Nat.mul_le_mul_right _ (Nat.mul_le_mul_left _ h1)

theorem stripPlane_congr {f : IdctFn} {qt qt' : Nat → List Nat} {w h fh fv t i : Nat}
    {m m' : Nat → Nat → Nat → Nat → List Int} (hf : 0 < fh) (ht : t < stripCount h fh fv) (hq : qt i = qt' i)
    (hm : ∀ r k, r < (colourShape fh fv i).1 * mcuRows h fv → k < (colourShape fh fv i).2 * mcuCols w fh →
      m (r / (colourShape fh fv i).1 * mcuCols w fh + k / (colourShape fh fv i).2) i
          (r % (colourShape fh fv i).1) (k % (colourShape fh fv i).2) =
        m' (r / (colourShape fh fv i).1 * mcuCols w fh + k / (colourShape fh fv i).2) i
          (r % (colourShape fh fv i).1) (k % (colourShape fh fv i).2)) :
    stripPlane f qt w fh fv m t i = stripPlane f qt' w fh fv m' t i := by
  unfold stripPlane unitRows
  refine List.map_congr_left fun p hp => ?_
  rw [hq]
  have hp' := List.mem_range.1 hp
  have hW : 0 < 8 * ((colourShape fh fv i).2 * mcuCols w fh) := by
    rcases Nat.eq_zero_or_pos (8 * ((colourShape fh fv i).2 * mcuCols w fh)) with e | e
    · rw [e] at hp'; omega
    · exact e
  refine unitSample_congr (hm _ _ (strip_row ht hf ((Nat.div_lt_iff_lt_mul hW).2 hp')) ?_)
  have := Nat.mod_lt p hW
  omega

/-- The planes depend on the blocks only. -/
theorem fullPlanes_congr {cpu : Cpu} {un : Bool} {fh fv n : Nat} {part part' full full' : Nat → Nat → List I16}
    {t i : Nat} (h1 : FullPlanes cpu un fh fv n part full) (h2 : FullPlanes cpu un fh fv n part' full')
    (hi : i < 3) (hp : part t i = part' t i) : full t i = full' t i := by
  obtain ⟨a0, ai⟩ := h1 t
  obtain ⟨b0, bi⟩ := h2 t
  by_cases h0 : i = 0
  · subst h0
    rw [a0, b0, hp]
  · have hn : ∀ {r u}, Sampling cpu un fh fv r u → ¬ (fh = 1 ∧ fv = 1) := by
      intro r u hs
      rcases hs with ⟨a, b, -⟩ | ⟨a, b, -⟩ | ⟨a, b, -⟩ <;> omega
    rcases (ai i (by omega)).2 with ⟨a, b, e⟩ | ⟨r, u, hs, e⟩
    · rcases (bi i (by omega)).2 with ⟨-, -, e'⟩ | ⟨r', u', hs', e'⟩
      · rw [e, e', hp]
      · exact absurd ⟨a, b⟩ (hn hs')
    · rcases (bi i (by omega)).2 with ⟨a', b', e'⟩ | ⟨r', u', hs', e'⟩
      · exact absurd ⟨a', b'⟩ (hn hs)
      · rw [sampling_unique hs hs', hp, e'] at e
        exact (Out.ok.inj e).symm

/-- A job depends on the planes, the factors and what the upsamplers make of the planes. -/
theorem inner_congr {f : ColorFn} {c0 c1 c2 e0 e1 e2 : Component} {oc : ColorSpace} {w : Nat}
    {planes : List (List I16)} {out : List UInt8} (hh : c0.horizontalSample = e0.horizontalSample)
    (hv : c0.verticalSample = e0.verticalSample)
    (hu : ¬ (e0.horizontalSample = 1 ∧ e0.verticalSample = 1) → 1 < oc.numComponents →
      c1.upSampler.run (planes.getD 1 []) (planes.getD 0 []).length =
        e1.upSampler.run (planes.getD 1 []) (planes.getD 0 []).length ∧
      c2.upSampler.run (planes.getD 2 []) (planes.getD 0 []).length =
        e2.upSampler.run (planes.getD 2 []) (planes.getD 0 []).length) :
    postProcessInner f [c0, c1, c2] .ycbcr oc w planes out =
      postProcessInner f [e0, e1, e2] .ycbcr oc w planes out := by
  unfold postProcessInner
  dsimp only [List.getElem?_cons_zero, List.getElem?_cons_succ]
  rw [hh, hv]
  have e : ∀ i (a b : Out (List I16)), (¬ (e0.horizontalSample = 1 ∧ e0.verticalSample = 1) →
      i < min ColorSpace.ycbcr.numComponents oc.numComponents → a = b) →
      (if i < min ColorSpace.ycbcr.numComponents oc.numComponents ∧
        (e0.horizontalSample ≠ 1 ∨ e0.verticalSample ≠ 1) then a else Out.ok (planes.getD i [])) =
      (if i < min ColorSpace.ycbcr.numComponents oc.numComponents ∧
        (e0.horizontalSample ≠ 1 ∨ e0.verticalSample ≠ 1) then b else Out.ok (planes.getD i [])) := by
    intro i a b hab
    by_cases hc : i < min ColorSpace.ycbcr.numComponents oc.numComponents ∧
        (e0.horizontalSample ≠ 1 ∨ e0.verticalSample ≠ 1)
    · rw [if_pos hc, if_pos hc]
      exact hab (by omega) hc.1
    · rw [if_neg hc, if_neg hc]
  rw [e 1 _ _ fun a b => (hu a (by omega)).1, e 2 _ _ fun a b => (hu a (by omega)).2]

/-- The result of two images whose planes agree, for every format of the output. -/
theorem colourJobs_planes {d d' : Decoder} {c0 c1 c2 e0 e1 e2 : Component} {w h fh fv nc : Nat}
    {oc : ColorSpace} {m m' : Nat → Nat → Nat → Nat → List Int} {full full' : Nat → Nat → List I16}
    {res res' : Out (List UInt8)}
    (R : ColourFrame d c0 c1 c2 w h fh fv) (R' : ColourFrame d' e0 e1 e2 w h fh fv)
    {f : IdctFn} {cf : ColorFn} {cpu : Cpu} {o : Options}
    (K : DecKeep d f cf cpu o) (K' : DecKeep d' f cf cpu o) (hnc : oc.numComponents = nc) (hn0 : nc = 1 ∨ 3 ≤ nc)
    (hplane : ∀ t i, t < stripCount h fh fv → i < 3 →
      stripPlane f (fun i => [c0, c1, c2][i]?.elim [] (·.quantTable)) w fh fv m t i =
        stripPlane f (fun i => [e0, e1, e2][i]?.elim [] (·.quantTable)) w fh fv m' t i)
    (hj : ColourJobs d c0 c1 c2 w h fh fv m oc nc full res)
    (hj' : ColourJobs d' e0 e1 e2 w h fh fv m' oc nc full' res') : res = res' := by
  obtain ⟨u1, u2, hres, hfull, hup⟩ := hj
  obtain ⟨v1, v2, hres', hfull', hup'⟩ := hj'
  obtain ⟨-, q2, q3, -⟩ := R.shape
  obtain ⟨-, q2', q3', -⟩ := R'.shape
  rw [K.idct] at *
  rw [K'.idct] at *
  rw [K.color] at hres
  rw [K'.color] at hres'
  rw [K.cpu, K.options] at hfull
  rw [K'.cpu, K'.options] at hfull'
  have hlen : outBufferLen d = outBufferLen d' := by
    have a1 : d.info.width = d'.info.width := by
      rw [← UInt16.toNat_inj, R.frame.width, R'.frame.width]
    have a2 : d.info.height = d'.info.height := by
      rw [← UInt16.toNat_inj, R.frame.height, R'.frame.height]
    unfold outBufferLen
    rw [K.options, K'.options, a1, a2, R.frame.inter, R'.frame.inter]
  rw [hres, hres', hlen]
  congr 2
  refine List.map_congr_left fun t ht => ?_
  have ht' := List.mem_range.1 ht
  have hpl : (List.range (min 3 nc)).map
        (stripPlane f (fun i => [c0, c1, c2][i]?.elim [] (·.quantTable)) w fh fv m t) =
      (List.range (min 3 nc)).map
        (stripPlane f (fun i => [e0, e1, e2][i]?.elim [] (·.quantTable)) w fh fv m' t) :=
    List.map_congr_left fun i hi => hplane t i ht' (by have := List.mem_range.1 hi; omega)
  rw [hpl]
  refine inner_congr (q2.trans q2'.symm) (q3.trans q3'.symm) fun hne hoc => ?_
  have h3 : min 3 nc = 3 := by omega
  rw [h3]
  obtain ⟨b1, b2, b3⟩ := hup t
  obtain ⟨b1', b2', b3'⟩ := hup' t
  have hl0 : (stripPlane f (fun i => [e0, e1, e2][i]?.elim [] (·.quantTable)) w fh fv m' t 0).length =
      8 * (fh * fv) * (8 * (fh * mcuCols w fh)) := by
    rw [← (hfull' t).1]
    exact b1'
  unfold Upsampled at b2 b3 b2' b3'
  rw [if_neg hne] at b2' b3'
  rw [if_neg (by rw [q2, q3, ← q2', ← q3']; exact hne)] at b2 b3
  rw [hplane t 1 ht' (by omega), fullPlanes_congr hfull hfull' (by omega) (hplane t 1 ht' (by omega))] at b2
  rw [hplane t 2 ht' (by omega), fullPlanes_congr hfull hfull' (by omega) (hplane t 2 ht' (by omega))] at b3
  show _ = _ ∧ _ = _
  have g0 : ((List.range 3).map (stripPlane f (fun i => [e0, e1, e2][i]?.elim [] (·.quantTable)) w fh fv m' t))
      = [stripPlane f (fun i => [e0, e1, e2][i]?.elim [] (·.quantTable)) w fh fv m' t 0,
        stripPlane f (fun i => [e0, e1, e2][i]?.elim [] (·.quantTable)) w fh fv m' t 1,
        stripPlane f (fun i => [e0, e1, e2][i]?.elim [] (·.quantTable)) w fh fv m' t 2] := rfl
  rw [g0]
  simp only [List.getD_cons_zero, List.getD_cons_succ]
  rw [hl0]
  exact ⟨b2.trans b2'.symm, b3.trans b3'.symm⟩

/-- The result of two images whose blocks agree, for every format of the output. -/
theorem colourJobs_unique {d d' : Decoder} {c0 c1 c2 e0 e1 e2 : Component} {w h fh fv nc : Nat}
    {oc : ColorSpace} {m m' : Nat → Nat → Nat → Nat → List Int} {full full' : Nat → Nat → List I16}
    {res res' : Out (List UInt8)}
    (R : ColourFrame d c0 c1 c2 w h fh fv) (R' : ColourFrame d' e0 e1 e2 w h fh fv)
    {f : IdctFn} {cf : ColorFn} {cpu : Cpu} {o : Options}
    (K : DecKeep d f cf cpu o) (K' : DecKeep d' f cf cpu o) (hnc : oc.numComponents = nc) (hn0 : nc = 1 ∨ 3 ≤ nc)
    {qt : Nat → List Nat} (hq : ∀ i c, [c0, c1, c2][i]? = some c → c.quantTable = qt i)
    (hq' : ∀ i c, [e0, e1, e2][i]? = some c → c.quantTable = qt i)
    (hm : ∀ i r k, i < 3 → r < (colourShape fh fv i).1 * mcuRows h fv →
      k < (colourShape fh fv i).2 * mcuCols w fh →
      m (r / (colourShape fh fv i).1 * mcuCols w fh + k / (colourShape fh fv i).2) i
          (r % (colourShape fh fv i).1) (k % (colourShape fh fv i).2) =
        m' (r / (colourShape fh fv i).1 * mcuCols w fh + k / (colourShape fh fv i).2) i
          (r % (colourShape fh fv i).1) (k % (colourShape fh fv i).2))
    (hj : ColourJobs d c0 c1 c2 w h fh fv m oc nc full res)
    (hj' : ColourJobs d' e0 e1 e2 w h fh fv m' oc nc full' res') : res = res' := by
  have hquant : ∀ i, i < 3 → [c0, c1, c2][i]?.elim [] (·.quantTable) =
      [e0, e1, e2][i]?.elim [] (·.quantTable) := by
    intro i hi
    have l1 : i < [c0, c1, c2].length := hi
    have l2 : i < [e0, e1, e2].length := hi
    rw [List.getElem?_eq_getElem l1, List.getElem?_eq_getElem l2]
    show _ = _
    rw [Option.elim_some, Option.elim_some, hq i _ (List.getElem?_eq_getElem l1),
      hq' i _ (List.getElem?_eq_getElem l2)]
  exact colourJobs_planes R R' K K' hnc hn0 (fun t i ht hi =>
    stripPlane_congr R.frame.fpos.1 ht (hquant i hi) fun r k => hm i r k hi) hj hj'

/-- Pixel `y`, `x` of a strip. -/
theorem luma_index {w fh fv y x : Nat} (hf : 0 < fh * fv) (hx : x < 8 * (fh * mcuCols w fh)) (f : IdctFn)
    (qt : Nat → List Nat) (m : Nat → Nat → Nat → Nat → List Int) (c : Nat)
    (hc : c = 0 ∨ (fh = 1 ∧ fv = 1)) :
    at0 (stripPlane f qt w fh fv m (y / (8 * (fh * fv))) c)
        (y % (8 * (fh * fv)) * (8 * (fh * mcuCols w fh)) + x) =
      unitSample f (qt c) (mcuCols w fh) (colourShape fh fv c).1 (colourShape fh fv c).2 (fun k => m k c) y x := by
  have hs : colourShape fh fv c = (fv, fh) := by
    unfold colourShape
    split
    · rfl
    · rcases hc with e | e
      · omega
      · rw [e.1, e.2]
  have hs1 : stripRows fh fv c = 8 * (fh * fv) := by
    unfold stripRows
    rw [hs]
  obtain ⟨a1, a2, a3, a4⟩ := row_index (y := y) (show 0 < 8 * (fh * fv) by omega) hx
  rw [stripPlane_at (by rw [hs1, hs]; exact a1), hs1, hs]
  show unitSample _ _ _ _ _ _ (_ + _ / (8 * (fh * _))) (_ % (8 * (fh * _))) = _
  rw [a4, a3]

theorem fullPlane_luma {cpu : Cpu} {un : Bool} {fh fv n t c : Nat} {part full : Nat → Nat → List I16}
    (hf : FullPlanes cpu un fh fv n part full) (hc3 : c < 3) (hc : c = 0 ∨ (fh = 1 ∧ fv = 1)) :
    full t c = part t c := by
  obtain ⟨f0, fi⟩ := hf t
  by_cases hc0 : c = 0
  · rw [hc0]; exact f0
  · rcases (fi c (by omega)).2 with ⟨-, -, e⟩ | ⟨r, u, hs, -⟩
    · exact e
    · rcases hs with ⟨a, b, -⟩ | ⟨a, b, -⟩ | ⟨a, b, -⟩ <;> omega

theorem quant_elim {c0 c1 c2 : Component} {qt : Nat → List Nat}
    (hq : ∀ i c, [c0, c1, c2][i]? = some c → c.quantTable = qt i) {i : Nat} (hi : i < 3) :
    [c0, c1, c2][i]?.elim [] (·.quantTable) = qt i := by
  have l1 : i < [c0, c1, c2].length := hi
  rw [List.getElem?_eq_getElem l1]
  exact hq i _ (List.getElem?_eq_getElem l1)

/-- A pixel lies in a block of its component that is not only padding. -/
theorem pixel_own {w h fh fv y x c : Nat} (hf : 0 < fh ∧ fh ≤ 2) (hv : 0 < fv ∧ fv ≤ 2) (hy : y < h) (hx : x < w)
    (hc : c = 0 ∨ (fh = 1 ∧ fv = 1)) : y / 8 < ownRows h fv c ∧ x / 8 < ownCols w fh c := by
  unfold ownRows ownCols mcuRows mcuCols
  by_cases h0 : c = 0
  · rw [if_pos h0, if_pos h0]
    omega
  · rw [if_neg h0, if_neg h0]
    rcases hc with e | ⟨rfl, rfl⟩ <;> omega

/-- **C61 (partial).** For every valid progressive colour image whose scans end early enough, decoded to
YCbCr: the luma byte of each pixel of the decoded rows is the sample of the inverse transform of what the scans
tell of its block, and so are the chroma bytes if the image is not subsampled. So every coefficient of every
scan, interleaved or not, gets where it belongs. Missing: images that are refused (`c58_false`), the rows that
are lost (`c44_false`), restart intervals, components whose factors are not those of `ColourFrame`. For chroma of
subsampled images and other formats of the output see `c61_same_partial`. -/
theorem c61_planes_partial (V : g.Valid lev) (L : g.Fits) (cpu : Cpu) (o : Options)
    (hw : g.width ≤ o.getMaxWidth) (hh : g.height ≤ o.getMaxHeight) (hs : 1 + g.rest.length ≤ o.getMaxScans)
    (hout : o.getOutColorspace = .ycbcr) :
    ∃ out, ((Decoder.newWithOptions cpu o).decodeBuffer g.bytes).1 = .ok out ∧
      out.length = g.height * (g.width * 3) ∧
      ∀ y x c, y < g.height → x < g.width → c < 3 → (c = 0 ∨ (g.fh = 1 ∧ g.fv = 1) ∨ ¬ g.Row y) →
        out[3 * (y * g.width + x) + c]? = some (if g.Row y then
          lowByte (g.sample lev (chooseIdct cpu o.getUseUnsafe) c y x) else 0) := by
  obtain ⟨d, c0, c1, c2, m, full, R, hq, K, hj, hm⟩ := progColour_jobs V L cpu o hw hh hs hout
  obtain ⟨out, h1, h2, h3⟩ := ycbcr_image R hj (by rw [K.options]; exact hout)
  refine ⟨out, h1, h2, fun y x c hy hx hc hcase => ?_⟩
  rw [h3 y x c hy hx hc]
  by_cases hrow : g.Row y
  · have hrow' : y / (8 * (g.fh * g.fv)) < stripCount g.height g.fh g.fv := hrow
    rw [if_pos hrow, if_pos hrow']
    have hcase' : c = 0 ∨ (g.fh = 1 ∧ g.fv = 1) := by
      rcases hcase with e | e | e
      · exact Or.inl e
      · exact Or.inr e
      · exact absurd hrow e
    rw [fullPlane_luma hj.planes hc hcase']
    have hx' := (padded_width R).1
    have e := luma_index (y := y) (Nat.mul_pos V.fh.1 V.fv.1) (show x < 8 * (g.fh * mcuCols g.width g.fh) by omega)
      d.idctFn (fun i => [c0, c1, c2][i]?.elim [] (·.quantTable)) m c hcase'
    unfold at0 at e
    rw [e, quant_elim hq hc, K.idct]
    obtain ⟨o1, o2⟩ := pixel_own V.fh V.fv hy hx hcase'
    unfold unitSample ProgColourJpeg.sample
    dsimp only
    rw [hm c _ _ hc o1 o2]
  · have hrow' : ¬ y / (8 * (g.fh * g.fv)) < stripCount g.height g.fh g.fv := hrow
    rw [if_neg hrow, if_neg hrow']

/-- The jobs of a baseline file. -/
theorem baseline_jobs {b : ColourJpeg} (V : b.Valid) (cpu : Cpu) (o : Options) (hw : b.width ≤ o.getMaxWidth)
    (hh : b.height ≤ o.getMaxHeight) {oc : ColorSpace} (hout : o.getOutColorspace = oc) :
    ∃ d c0 c1 c2 full, ColourFrame d c0 c1 c2 b.width b.height b.fh b.fv ∧
      (∀ i c, [c0, c1, c2][i]? = some c → c.quantTable = naturalQuant (b.quantOf i)) ∧
      DecKeep d (chooseIdct cpu o.getUseUnsafe) (Decoder.newWithOptions cpu o).colorFn cpu o ∧
      ColourJobs d c0 c1 c2 b.width b.height b.fh b.fv b.blocks oc oc.numComponents full
        ((Decoder.newWithOptions cpu o).decodeBuffer b.bytes).1 := by
  obtain ⟨d, c0, c1, c2, h1, R, ht, hrs, hp, hi, hcf, hcpu, ho, hq⟩ := colour_headers V cpu o hw hh
  obtain ⟨full, res, h', h2, h3⟩ := colour_jobs (trailer := b.trailer) R ht V.fit hrs V.data
    (oc := oc) (nc := oc.numComponents) (by rw [ho]; exact hout) rfl
  refine ⟨d, c0, c1, c2, full, R.toColourFrame, hq, ⟨hi, hcf, hcpu, ho⟩, ?_⟩
  rw [decode_colour h1 hp h2]
  exact h3

/-- The baseline image `b` has the same size, factors, tables and blocks as the approximation `lev` of `g`; the
blocks that are only padding may differ. -/
structure Spec.SameColour (g : ProgColourJpeg) (lev : Nat → Nat → Option Nat) (b : ColourJpeg) : Prop where
  width : b.width = g.width
  height : b.height = g.height
  fh : b.fh = g.fh
  fv : b.fv = g.fv
  quantY : b.quantY = g.quantY
  quantC : b.quantC = g.quantC
  blocks : ∀ i r k, i < 3 → r < ownRows g.height g.fv i → k < ownCols g.width g.fh i →
    b.blocks (r / (if i = 0 then g.fv else 1) * mcuCols g.width g.fh + k / (if i = 0 then g.fh else 1)) i
        (r % (if i = 0 then g.fv else 1)) (k % (if i = 0 then g.fh else 1)) =
      approxBlock (lev i) (g.blocks i r k)

theorem Spec.SameColour.shaped {b : ColourJpeg} (S : SameColour g lev b) {m : Nat → Nat → Nat → Nat → List Int}
    (hm : ∀ i r k, i < 3 → r < ownRows g.height g.fv i → k < ownCols g.width g.fh i →
        m (r / (colourShape g.fh g.fv i).1 * mcuCols g.width g.fh + k / (colourShape g.fh g.fv i).2) i
          (r % (colourShape g.fh g.fv i).1) (k % (colourShape g.fh g.fv i).2) =
            approxBlock (lev i) (g.blocks i r k)) (i r k : Nat) (hi : i < 3) (hr : r < ownRows g.height g.fv i)
    (hk : k < ownCols g.width g.fh i) :
    m (r / (colourShape g.fh g.fv i).1 * mcuCols g.width g.fh + k / (colourShape g.fh g.fv i).2) i
        (r % (colourShape g.fh g.fv i).1) (k % (colourShape g.fh g.fv i).2) =
      b.blocks (r / (colourShape g.fh g.fv i).1 * mcuCols g.width g.fh + k / (colourShape g.fh g.fv i).2) i
        (r % (colourShape g.fh g.fv i).1) (k % (colourShape g.fh g.fv i).2) := by
  rw [hm i r k hi hr hk, ← S.blocks i r k hi hr hk]
  unfold colourShape
  by_cases h0 : i = 0
  · rw [if_pos h0, if_pos h0, if_pos h0]
  · rw [if_neg h0, if_neg h0, if_neg h0]

/-- The blocks of two images agree but for those that are only padding. -/
def BlocksAgree (w h fh fv : Nat) (m m' : Nat → Nat → Nat → Nat → List Int) : Prop :=
  ∀ i r k, i < 3 → r < ownRows h fv i → k < ownCols w fh i →
    m (r / (colourShape fh fv i).1 * mcuCols w fh + k / (colourShape fh fv i).2) i
        (r % (colourShape fh fv i).1) (k % (colourShape fh fv i).2) =
      m' (r / (colourShape fh fv i).1 * mcuCols w fh + k / (colourShape fh fv i).2) i
        (r % (colourShape fh fv i).1) (k % (colourShape fh fv i).2)

/-- The YCbCr image does not depend on the blocks that are only padding. -/
theorem ycbcr_unique {d d' : Decoder} {c0 c1 c2 e0 e1 e2 : Component} {w h fh fv : Nat}
    {m m' : Nat → Nat → Nat → Nat → List Int} {full full' : Nat → Nat → List I16}
    {res res' : Out (List UInt8)}
    (R : ColourFrame d c0 c1 c2 w h fh fv) (R' : ColourFrame d' e0 e1 e2 w h fh fv)
    {f : IdctFn} {cf : ColorFn} {cpu : Cpu} {o : Options}
    (K : DecKeep d f cf cpu o) (K' : DecKeep d' f cf cpu o) (hout : o.getOutColorspace = .ycbcr)
    {qt : Nat → List Nat} (hq : ∀ i c, [c0, c1, c2][i]? = some c → c.quantTable = qt i)
    (hq' : ∀ i c, [e0, e1, e2][i]? = some c → c.quantTable = qt i)
    (hblk : BlocksAgree w h fh fv m m')
    (hj : ColourJobs d c0 c1 c2 w h fh fv m .ycbcr 3 full res)
    (hj' : ColourJobs d' e0 e1 e2 w h fh fv m' .ycbcr 3 full' res') : res = res' := by
  have hfh : 0 < fh ∧ fh ≤ 2 := ⟨R.frame.fpos.1, R.fh2⟩
  have hfv : 0 < fv ∧ fv ≤ 2 := ⟨R.frame.fpos.2, R.fv2⟩
  obtain ⟨out, p1, p2, p3⟩ := ycbcr_image R hj (by rw [K.options]; exact hout)
  obtain ⟨out', p1', p2', p3'⟩ := ycbcr_image R' hj' (by rw [K'.options]; exact hout)
  rw [p1, p1']
  congr 1
  refine List.ext_getElem? fun n => ?_
  by_cases hn : n < h * (w * 3)
  · have w0 := R.frame.wpos
    have hn3 : n / 3 < h * w := by
      rw [Nat.div_lt_iff_lt_mul (by decide)]
      calc n < h * (w * 3) := hn
        _ = h * w * 3 := by ring
    have hy : n / 3 / w < h := (Nat.div_lt_iff_lt_mul w0).2 hn3
    have hx := Nat.mod_lt (n / 3) w0
    have en : 3 * (n / 3 / w * w + n / 3 % w) + n % 3 = n := by
      rw [Nat.div_add_mod']
      omega
    obtain ⟨y, hyy⟩ : ∃ y, n / 3 / w = y := ⟨_, rfl⟩
    obtain ⟨x, hxx⟩ : ∃ x, n / 3 % w = x := ⟨_, rfl⟩
    obtain ⟨c, hcc⟩ : ∃ c, n % 3 = c := ⟨_, rfl⟩
    have hc : c < 3 := by omega
    rw [hyy, hxx, hcc] at en
    rw [hyy] at hy
    rw [hxx] at hx
    rw [← en, p3 y x c hy hx hc, p3' y x c hy hx hc]
    by_cases hrow : y / (8 * (fh * fv)) < stripCount h fh fv
    · rw [if_pos hrow, if_pos hrow]
      congr 2
      have hpl := hj.planes
      have hpl' := hj'.planes
      rw [K.idct, K.cpu, K.options] at hpl
      rw [K'.idct, K'.cpu, K'.options] at hpl'
      have hquant : [c0, c1, c2][c]?.elim [] (·.quantTable) = [e0, e1, e2][c]?.elim [] (·.quantTable) := by
        rw [quant_elim hq hc, quant_elim hq' hc]
      by_cases hc0 : c = 0
      · have hx' := (padded_width R).1
        have hxx' : x < 8 * (fh * mcuCols w fh) := by omega
        rw [fullPlane_luma hpl hc (Or.inl hc0), fullPlane_luma hpl' hc (Or.inl hc0)]
        have a1 := luma_index (y := y) (Nat.mul_pos hfh.1 hfv.1) hxx' f
          (fun i => [c0, c1, c2][i]?.elim [] (·.quantTable)) m c (Or.inl hc0)
        have a2 := luma_index (y := y) (Nat.mul_pos hfh.1 hfv.1) hxx' f
          (fun i => [e0, e1, e2][i]?.elim [] (·.quantTable)) m' c (Or.inl hc0)
        unfold at0 at a1 a2
        rw [a1, a2]
        rw [hquant]
        obtain ⟨o1, o2⟩ := pixel_own hfh hfv hy hx (Or.inl hc0)
        exact unitSample_congr (m := fun k => m k c) (m' := fun k => m' k c) (hblk c _ _ hc o1 o2)
      · rw [fullPlanes_congr hpl hpl' hc (stripPlane_congr hfh.1 hrow hquant ?_)]
        intro r k hr hk
        have eo : ownRows h fv c = (colourShape fh fv c).1 * mcuRows h fv ∧
            ownCols w fh c = (colourShape fh fv c).2 * mcuCols w fh := by
          unfold ownRows ownCols colourShape
          rw [if_neg hc0, if_neg hc0, if_neg hc0]
          exact ⟨(Nat.one_mul _).symm, (Nat.one_mul _).symm⟩
        exact hblk c r k hc (by rw [eo.1]; exact hr) (by rw [eo.2]; exact hk)
    · rw [if_neg hrow, if_neg hrow]
  · rw [List.getElem?_eq_none (by omega), List.getElem?_eq_none (by omega)]

/-- The same for grayscale output, if the image is wide enough for the conversion (C37). -/
theorem gray_unique {d d' : Decoder} {c0 c1 c2 e0 e1 e2 : Component} {w h fh fv : Nat}
    {m m' : Nat → Nat → Nat → Nat → List Int} {full full' : Nat → Nat → List I16}
    {res res' : Out (List UInt8)}
    (R : ColourFrame d c0 c1 c2 w h fh fv) (R' : ColourFrame d' e0 e1 e2 w h fh fv)
    {f : IdctFn} {cf : ColorFn} {cpu : Cpu} {o : Options}
    (K : DecKeep d f cf cpu o) (K' : DecKeep d' f cf cpu o) (hout : o.getOutColorspace = .grayscale)
    (hwide : 8 * (fh * fv) * (8 * (fh * mcuCols w fh)) < (8 * (fh * fv) + 1) * w)
    {qt : Nat → List Nat} (hq : ∀ i c, [c0, c1, c2][i]? = some c → c.quantTable = qt i)
    (hq' : ∀ i c, [e0, e1, e2][i]? = some c → c.quantTable = qt i)
    (hblk : BlocksAgree w h fh fv m m')
    (hj : ColourJobs d c0 c1 c2 w h fh fv m .grayscale 1 full res)
    (hj' : ColourJobs d' e0 e1 e2 w h fh fv m' .grayscale 1 full' res') : res = res' := by
  have hfh : 0 < fh ∧ fh ≤ 2 := ⟨R.frame.fpos.1, R.fh2⟩
  have hfv : 0 < fv ∧ fv ≤ 2 := ⟨R.frame.fpos.2, R.fv2⟩
  obtain ⟨out, p1, p2, p3⟩ := gray_image R hj (by rw [K.options]; exact hout) hwide
  obtain ⟨out', p1', p2', p3'⟩ := gray_image R' hj' (by rw [K'.options]; exact hout) hwide
  rw [p1, p1']
  congr 1
  refine List.ext_getElem? fun n => ?_
  by_cases hn : n < h * w
  · have w0 := R.frame.wpos
    have hy : n / w < h := (Nat.div_lt_iff_lt_mul w0).2 hn
    have hx := Nat.mod_lt n w0
    have en : n / w * w + n % w = n := Nat.div_add_mod' n w
    obtain ⟨y, hyy⟩ : ∃ y, n / w = y := ⟨_, rfl⟩
    obtain ⟨x, hxx⟩ : ∃ x, n % w = x := ⟨_, rfl⟩
    rw [hyy, hxx] at en
    rw [hyy] at hy
    rw [hxx] at hx
    rw [← en, p3 y x hy hx, p3' y x hy hx]
    by_cases hrow : y / (8 * (fh * fv)) < stripCount h fh fv
    · rw [if_pos hrow, if_pos hrow]
      congr 2
      have hx' := (padded_width R).1
      have hxx' : x < 8 * (fh * mcuCols w fh) := by omega
      have a1 := luma_index (y := y) (Nat.mul_pos hfh.1 hfv.1) hxx' f
        (fun i => [c0, c1, c2][i]?.elim [] (·.quantTable)) m 0 (Or.inl rfl)
      have a2 := luma_index (y := y) (Nat.mul_pos hfh.1 hfv.1) hxx' f
        (fun i => [e0, e1, e2][i]?.elim [] (·.quantTable)) m' 0 (Or.inl rfl)
      unfold at0 at a1 a2
      rw [K.idct, K'.idct, a1, a2]
      rw [quant_elim hq (show 0 < 3 by omega), quant_elim hq' (show 0 < 3 by omega)]
      obtain ⟨o1, o2⟩ := pixel_own hfh hfv hy hx (Or.inl rfl)
      exact unitSample_congr (m := fun k => m k 0) (m' := fun k => m' k 0) (hblk 0 _ _ (by omega) o1 o2)
    · rw [if_neg hrow, if_neg hrow]
  · rw [List.getElem?_eq_none (by omega), List.getElem?_eq_none (by omega)]

/-- **C61 (partial).** The YCbCr image is that of the baseline file with the same coefficients, whatever
the scans, tables and codes. So all that is known of baseline images (C55, C59) holds of progressive ones. -/
theorem c61_same_partial (V : g.Valid lev) (L : g.Fits) {b : ColourJpeg} (Vb : b.Valid)
    (S : SameColour g lev b) (cpu : Cpu) (o : Options)
    (hw : g.width ≤ o.getMaxWidth) (hh : g.height ≤ o.getMaxHeight) (hs : 1 + g.rest.length ≤ o.getMaxScans)
    (hout : o.getOutColorspace = .ycbcr) :
    ((Decoder.newWithOptions cpu o).decodeBuffer g.bytes).1 =
      ((Decoder.newWithOptions cpu o).decodeBuffer b.bytes).1 := by
  obtain ⟨d, c0, c1, c2, m, full, R, hq, K, hj, hm⟩ := progColour_jobs V L cpu o hw hh hs hout
  obtain ⟨d', e0, e1, e2, full', R', hq', K', hj'⟩ := baseline_jobs Vb cpu o (by rw [S.width]; exact hw)
    (by rw [S.height]; exact hh) hout
  rw [S.width, S.height, S.fh, S.fv] at R' hj'
  have hqe : ∀ i, naturalQuant (b.quantOf i) = naturalQuant (g.quantOf i) := by
    intro i
    unfold ColourJpeg.quantOf ProgColourJpeg.quantOf
    rw [S.quantY, S.quantC]
  exact ycbcr_unique R R' K K' hout hq (fun i c e => (hq' i c e).trans (hqe i)) (S.shaped hm) hj hj'

/-- **C61 (partial).** So is the grayscale image, if the conversion can handle the width (C37). -/
theorem c61_gray_partial (V : g.Valid lev) (L : g.Fits) {b : ColourJpeg} (Vb : b.Valid)
    (S : SameColour g lev b) (cpu : Cpu) (o : Options)
    (hw : g.width ≤ o.getMaxWidth) (hh : g.height ≤ o.getMaxHeight) (hs : 1 + g.rest.length ≤ o.getMaxScans)
    (hout : o.getOutColorspace = .grayscale)
    (hwide : 8 * (g.fh * g.fv) * (8 * (g.fh * mcuCols g.width g.fh)) < (8 * (g.fh * g.fv) + 1) * g.width) :
    ((Decoder.newWithOptions cpu o).decodeBuffer g.bytes).1 =
      ((Decoder.newWithOptions cpu o).decodeBuffer b.bytes).1 := by
  obtain ⟨d, c0, c1, c2, m, full, R, hq, K, hj, hm⟩ := progColour_jobs V L cpu o hw hh hs hout
  obtain ⟨d', e0, e1, e2, full', R', hq', K', hj'⟩ := baseline_jobs Vb cpu o (by rw [S.width]; exact hw)
    (by rw [S.height]; exact hh) hout
  rw [S.width, S.height, S.fh, S.fv] at R' hj'
  have hqe : ∀ i, naturalQuant (b.quantOf i) = naturalQuant (g.quantOf i) := by
    intro i
    unfold ColourJpeg.quantOf ProgColourJpeg.quantOf
    rw [S.quantY, S.quantC]
  exact gray_unique R R' K K' hout hwide hq (fun i c e => (hq' i c e).trans (hqe i)) (S.shaped hm) hj hj'

/-- **C61 (partial).** For images without padding blocks the same holds for every format of the output;
panics and all errors of the conversion (C37, C38) are the same too. -/
theorem c61_formats_partial (V : g.Valid lev) (L : g.Fits) {b : ColourJpeg} (Vb : b.Valid)
    (S : SameColour g lev b) (hr : (g.height + 7) / 8 = g.fv * mcuRows g.height g.fv)
    (hc : (g.width + 7) / 8 = g.fh * mcuCols g.width g.fh) (cpu : Cpu) (o : Options)
    (hw : g.width ≤ o.getMaxWidth) (hh : g.height ≤ o.getMaxHeight) (hs : 1 + g.rest.length ≤ o.getMaxScans) :
    ((Decoder.newWithOptions cpu o).decodeBuffer g.bytes).1 =
      ((Decoder.newWithOptions cpu o).decodeBuffer b.bytes).1 := by
  obtain ⟨oc, hoc⟩ : ∃ oc, o.getOutColorspace = oc := ⟨_, rfl⟩
  obtain ⟨d, c0, c1, c2, m, full, R, hq, K, hj, hm⟩ := progColour_jobs V L cpu o hw hh hs hoc
  obtain ⟨d', e0, e1, e2, full', R', hq', K', hj'⟩ := baseline_jobs Vb cpu o (by rw [S.width]; exact hw)
    (by rw [S.height]; exact hh) hoc
  rw [S.width, S.height, S.fh, S.fv] at R' hj'
  have hqe : ∀ i, naturalQuant (b.quantOf i) = naturalQuant (g.quantOf i) := by
    intro i
    unfold ColourJpeg.quantOf ProgColourJpeg.quantOf
    rw [S.quantY, S.quantC]
  refine colourJobs_unique R R' K K' rfl ?_ hq (fun i c e => (hq' i c e).trans (hqe i)) ?_ hj hj'
  · cases oc <;> decide
  · intro i r k hi h1 h2
    refine S.shaped hm i r k hi ?_ ?_
    · unfold ownRows
      unfold colourShape at h1
      by_cases h0 : i = 0
      · rw [if_pos h0] at h1 ⊢
        rw [hr]; exact h1
      · rw [if_neg h0] at h1 ⊢
        rw [← Nat.one_mul (mcuRows _ _)]; exact h1
    · unfold ownCols
      unfold colourShape at h2
      by_cases h0 : i = 0
      · rw [if_pos h0] at h2 ⊢
        rw [hc]; exact h2
      · rw [if_neg h0] at h2 ⊢
        rw [← Nat.one_mul (mcuCols _ _)]; exact h2

end

/-! ### A sample -/

/-- The blocks of the sample: `i`, row and column. -/
def cprogBlocks : Nat → Nat → Nat → List Int := fun i r k =>
  if i = 0 then (if r = 0 ∧ k = 0 then 3 :: 2 :: List.replicate 62 0 else 1 :: List.replicate 63 0)
  else if i = 1 then (if r = 0 then 2 else 5) :: List.replicate 63 0 else -2 :: List.replicate 63 0

/-- An image of 16 x 16 pixels with horizontal subsampling in five scans: DC of all components but for the last
bits, AC of each component, and the last bits of DC. -/
def sampleCProg : ProgColourJpeg where
  width := 16
  height := 16
  fh := 2
  fv := 1
  quantY := List.replicate 64 16
  quantC := List.replicate 64 255
  blocks := cprogBlocks
  first := {
    tables := [⟨true, 1, sampleDc⟩], comps := [0, 1, 2], dcDest := fun _ => 1, acDest := fun _ => 0
    ss := 0, se := 0, ah := 0, al := 1, word := fun _ => sampleDcWord
    bits := cellBits (fun _ => sampleDcWord)
      [(0, 1), (0, -1), (1, 1), (2, -1), (0, 0), (0, 0), (1, 1), (2, 0)] }
  rest := [
    { tables := [⟨false, 2, sampleAc⟩], comps := [1], dcDest := fun _ => 1, acDest := fun _ => 2
      ss := 1, se := 63, ah := 0, al := 0, word := fun _ => sampleAcWord
      bits := symbolBits sampleAcWord [(16, [false])] },
    { tables := [], comps := [0], dcDest := fun _ => 0, acDest := fun _ => 2
      ss := 1, se := 63, ah := 0, al := 0, word := fun _ => sampleAcWord
      bits := symbolBits sampleAcWord [(2, [true, false]), (16, [true]), (0, [])] },
    { tables := [⟨true, 3, sampleDc⟩], comps := [2], dcDest := fun _ => 1, acDest := fun _ => 2
      ss := 1, se := 63, ah := 0, al := 0, word := fun _ => sampleAcWord
      bits := symbolBits sampleAcWord [(16, [false])] },
    { tables := [], comps := [0, 1, 2], dcDest := fun i => if i = 0 then 1 else 3, acDest := fun _ => 0
      ss := 0, se := 0, ah := 1, al := 0, word := fun _ => sampleDcWord
      bits := [true, true, false, false, true, true, true, false] }]
  trailer := [1, 2, 3]

theorem sampleCProg_valid : ∃ lev, sampleCProg.Valid lev ∧ ∀ i, i < 3 → ∀ k, k < 64 → lev i k = some 0 := by
  refine ⟨_, ⟨by decide, by decide, by decide, by decide, by decide, by decide, by decide, by decide, ?_,
    ⟨⟨?_, by decide, by decide, by decide, ?_⟩, ⟨?_, by decide, by decide, by decide, ?_⟩,
      ⟨?_, by decide, by decide, by decide, ?_⟩, ⟨?_, by decide, by decide, by decide, ?_⟩,
      ⟨?_, by decide, by decide, by decide, ?_⟩, rfl⟩, by decide⟩, ?_⟩
  · intro i r k hi hr hk
    have h : ∀ i, i < 3 → ∀ r, r < 2 → ∀ k, k < 2 → (cprogBlocks i r k).length = 64 ∧
        ∀ x ∈ cprogBlocks i r k, x.natAbs < 2 ^ 15 := by decide +kernel
    have e : ownRows 16 1 i ≤ 2 ∧ ownCols 16 2 i ≤ 2 := by
      have : ∀ i, i < 3 → ownRows 16 1 i ≤ 2 ∧ ownCols 16 2 i ≤ 2 := by decide
      exact this i hi
    obtain ⟨a, b⟩ := h i hi r (lt_of_lt_of_le hr e.1) k (lt_of_lt_of_le hk e.2)
    exact ⟨a, b⟩
  · intro t ht
    rw [List.mem_singleton.1 ht]
    exact sampleDc_valid 1 (by decide)
  · refine Or.inr ⟨by decide, by decide, by decide, by decide, by decide, ?_⟩
    refine InterData.first (al := 1) (fun i hi => ⟨sampleDc, rfl⟩) ?_
    intro x hx t ht
    have : t = sampleDc := (Option.some.inj ht).symm
    subst this
    clear ht
    revert x
    decide +kernel
  · intro t ht
    rw [List.mem_singleton.1 ht]
    exact sampleAc_valid 2 (by decide)
  · refine Or.inl ⟨1, rfl, by decide, ?_⟩
    refine ScanData.acFirst (tab := sampleAc) rfl (by decide) (by decide) (by decide) ?_ ?_ (by decide +kernel)
    · intro k h1 h2
      have : ∀ k, k < 64 → 1 ≤ k → sampleCProg.first.level (fun _ _ => none) 1 k = none := by decide +kernel
      exact this k (Nat.lt_succ_of_le h2) h1
    · exact AcFirst.run (cs := List.replicate 63 0) (zs := [List.replicate 63 0]) (rest := [])
        (by decide +kernel) (by decide +kernel) (by decide) .nil
  · intro t ht
    cases ht
  · refine Or.inl ⟨0, rfl, by decide, ?_⟩
    refine ScanData.acFirst (tab := sampleAc) rfl (by decide) (by decide) (by decide) ?_ ?_ (by decide +kernel)
    · intro k h1 h2
      have : ∀ k, k < 64 → 1 ≤ k → sampleCProg.first.level (fun _ _ => none) 0 k = none := by decide +kernel
      exact this k (Nat.lt_succ_of_le h2) h1
    · exact AcFirst.run (cs := 2 :: List.replicate 62 0) (zs := [List.replicate 63 0, List.replicate 63 0])
        (rest := [List.replicate 63 0]) (by decide +kernel) (by decide +kernel) (by decide)
        (AcFirst.run (cs := List.replicate 63 0) (zs := []) (rest := [])
          (by decide +kernel) (by decide +kernel) (by decide) .nil)
  · intro t ht
    rw [List.mem_singleton.1 ht]
    exact sampleDc_valid 3 (by decide)
  · refine Or.inl ⟨2, rfl, by decide, ?_⟩
    refine ScanData.acFirst (tab := sampleAc) rfl (by decide) (by decide) (by decide) ?_ ?_ (by decide +kernel)
    · intro k h1 h2
      have : ∀ k, k < 64 → 1 ≤ k → sampleCProg.first.level (fun _ _ => none) 2 k = none := by decide +kernel
      exact this k (Nat.lt_succ_of_le h2) h1
    · exact AcFirst.run (cs := List.replicate 63 0) (zs := [List.replicate 63 0]) (rest := [])
        (by decide +kernel) (by decide +kernel) (by decide) .nil
  · intro t ht
    cases ht
  · refine Or.inr ⟨by decide, by decide, by decide, by decide, by decide, ?_⟩
    refine InterData.refine (al := 0) fun i hi => ?_
    have hi' : i = 0 ∨ i = 1 ∨ i = 2 := by
      have : i ∈ [0, 1, 2] := hi
      simpa using this
    rcases hi' with rfl | rfl | rfl
    · exact ⟨⟨sampleDc, rfl⟩, rfl⟩
    · exact ⟨⟨sampleDc, rfl⟩, rfl⟩
    · exact ⟨⟨sampleDc, rfl⟩, rfl⟩
  · decide +kernel

theorem sampleCProg_fits : sampleCProg.Fits := ⟨by decide +kernel, by decide +kernel, by decide⟩

/-- The same image as a baseline file. -/
def sampleCBase : ColourJpeg :=
  encodeColour 16 16 2 1 (List.replicate 64 16) (List.replicate 64 255) fun k i a b =>
    cprogBlocks i (k + a) b

theorem sampleCBase_valid : sampleCBase.Valid := by
  refine encodeColour_valid (by decide) (by decide) (by decide) (by decide) (by decide) (by decide) (by decide) ?_
  intro k i a b
  unfold cprogBlocks
  split
  · split
    · exact ⟨by decide, by decide, by decide +kernel⟩
    · exact ⟨by decide, by decide, by decide +kernel⟩
  · split
    · split
      · exact ⟨by decide, by decide, by decide +kernel⟩
      · exact ⟨by decide, by decide, by decide +kernel⟩
    · exact ⟨by decide, by decide, by decide +kernel⟩

/-- The hypotheses of the theorems hold for the sample: both files decode to the same image, for every format of
the output. -/
example (cpu : Cpu) (o : Options) (hw : 16 ≤ o.getMaxWidth) (hh : 16 ≤ o.getMaxHeight) (hs : 5 ≤ o.getMaxScans) :
    ((Decoder.newWithOptions cpu o).decodeBuffer sampleCProg.bytes).1 =
      ((Decoder.newWithOptions cpu o).decodeBuffer sampleCBase.bytes).1 := by
  obtain ⟨lev, V, hl⟩ := sampleCProg_valid
  refine c61_formats_partial V sampleCProg_fits sampleCBase_valid ⟨rfl, rfl, rfl, rfl, rfl, rfl, ?_⟩
    (by decide) (by decide) cpu o hw hh hs
  intro i r k hi hr hk
  rw [approxBlock_complete (hl i hi) (V.blocks i r k hi hr hk).len]
  have h : ∀ i, i < 3 → ∀ r, r < ownRows 16 1 i → ∀ k, k < ownCols 16 2 i →
      sampleCBase.blocks (r / (if i = 0 then 1 else 1) * mcuCols 16 2 + k / (if i = 0 then 2 else 1)) i
        (r % (if i = 0 then 1 else 1)) (k % (if i = 0 then 2 else 1)) = cprogBlocks i r k := by decide +kernel
  exact h i hi r hr k hk

end Zune
