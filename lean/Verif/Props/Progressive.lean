import Verif.Lemmas.ProgFile
/-!
# Progressive grayscale images from the first byte to the last sample

C58.
-/

namespace Zune
open Spec

/-- A progressive image with one component, as an encoder describes it: size, quantisation table and its
destination, the scans, and the quantised coefficients of the data units, in zig-zag order. -/
structure Spec.ProgJpeg where
  width : Nat
  height : Nat
  quant : List UInt8
  quantDest : Nat
  first : ProgScan
  rest : List ProgScan
  blocks : List (List Int)
  trailer : List UInt8

/-- The file, if `after` follows the scans. -/
def Spec.ProgJpeg.bytesTo (g : ProgJpeg) (after : List UInt8) : List UInt8 :=
  [0xFF, 0xD8] ++ (Segment.mk 0xDB (UInt8.ofNat g.quantDest :: g.quant)).bytes ++
  (Segment.mk 0xC2 (8 :: (twoBytes g.height ++ twoBytes g.width ++
    [1, 1, 0x11, UInt8.ofNat g.quantDest]))).bytes ++
  scansBytes after (g.first :: g.rest)

/-- The file: the scans are followed by `EOI`. -/
def Spec.ProgJpeg.bytes (g : ProgJpeg) : List UInt8 := g.bytesTo (0xFF :: 0xD9 :: g.trailer)

/-- The scans are those of the blocks and lead to the approximation `lev` of them. The sizes leave out
the eight largest values (see C31). The first scan starts with the DC coefficients, as the standard
demands. -/
structure Spec.ProgJpeg.Valid (g : ProgJpeg) (lev : Nat → Option Nat) : Prop where
  w0 : 0 < g.width
  h0 : 0 < g.height
  wLe : g.width ≤ 65527
  hLe : g.height ≤ 65527
  quant : g.quant.length = 64
  quantDest : g.quantDest < 4
  blocks : ∀ b ∈ g.blocks, BlockOk b
  count : g.blocks.length = (g.height + 7) / 8 * ((g.width + 7) / 8)
  script : Script g.blocks (fun _ _ => none) (fun _ => none) (g.first :: g.rest) lev
  dc : g.first.ss = 0

/-- The restrictions of the decoder that are not of the standard. The last code of the first scan must
be so short that the decoder has to read beyond it (see `c58_false`), and the number of data units of
all scans together must not reach the initial value of the counter of the restart intervals. -/
structure Spec.ProgJpeg.Fits (g : ProgJpeg) : Prop where
  late : ∀ x ∈ (dcDiffs g.first.al 0 g.blocks).getLast?,
    (dcCode g.first.word x).length + padCount g.first.bits.length < 16
  few : (g.rest.length + 1) * g.blocks.length < 0x7fffffff

/-- The headers of the file. -/
theorem prog_headers {g : ProgJpeg} (after : List UInt8) {lev : Nat → Option Nat} (V : g.Valid lev) (L : g.Fits) (cpu : Cpu)
    (o : Options) (hw : g.width ≤ o.getMaxWidth) (hh : g.height ≤ o.getMaxHeight) :
    ∃ d, decodeHeaders ⟨Decoder.newWithOptions cpu o, g.bytesTo after⟩ =
        (.ok (), ⟨d, stuffBytes (packBytes (padBits g.first.bits)) ++ scansBytes after g.rest⟩) ∧
      ProgInv g.width g.height (naturalQuant g.quant) (chooseIdct cpu o.getUseUnsafe)
        (o.setOutColorspace .grayscale) (g.first.tables.foldl Tabs.define fun _ _ => none)
        ((g.rest.length + 1) * g.blocks.length + 1) d ∧
      d.specStart = g.first.ss ∧ d.specEnd = g.first.se ∧ d.succHigh = g.first.ah ∧
      d.succLow = g.first.al ∧ d.numScans = 1 ∧ d.zOrder[0]? = some 0 ∧
      ∀ c, d.components = [c] → c.dcHuffTable = g.first.dcDest ∧ c.acHuffTable = g.first.acDest := by
  obtain ⟨d0, hd0⟩ : ∃ d, Decoder.newWithOptions cpu o = d := ⟨_, rfl⟩
  obtain ⟨d1, hd1⟩ : ∃ d, ({ d0 with qtTables := d0.qtTables.set g.quantDest (some (unZigZag (g.quant.map (·.toNat)))) } : Decoder) = d := ⟨_, rfl⟩
  obtain ⟨qt, hqt⟩ : ∃ qt, unZigZag (g.quant.map (·.toNat)) = qt := ⟨_, rfl⟩
  obtain ⟨d2, hd2⟩ : ∃ d, grayFrameOf .progressiveDctHuffman { d1 with isProgressive := true } g.width
    g.height g.quantDest qt = d := ⟨_, rfl⟩
  have s1 := dqt_one d0 V.quantDest V.quant
  rw [hd1] at s1
  have s2 : SegOk 0xC2 (8 :: (twoBytes g.height ++ twoBytes g.width ++
      [1, 1, 0x11, UInt8.ofNat g.quantDest])) d1 d2 := by
    rw [← hd2]
    refine sof_gray_progressive d1 ?_ ?_ (by have := V.wLe; omega) (by have := V.hLe; omega)
      (by have := V.w0; omega) (by have := V.h0; omega) ?_ ?_ V.quantDest ?_
    · rw [← hd1, ← hd0]; rfl
    · rw [← hd1, ← hd0]; rfl
    · rw [← hd1, ← hd0]; exact hw
    · rw [← hd1, ← hd0]; exact hh
    · rw [← hd1, ← hqt, ← hd0]
      show ([none, none, none, none].set g.quantDest _)[g.quantDest]? = _
      rw [List.getElem?_set_self]
      exact V.quantDest
  have hi : ProgInv g.width g.height (naturalQuant g.quant) (chooseIdct cpu o.getUseUnsafe)
        (o.setOutColorspace .grayscale) (fun _ _ => none)
        ((g.rest.length + 1) * g.blocks.length + 1) d2 := by
    refine ⟨grayComponent g.width g.quantDest qt, ?_, ?_, ?_, ?_, ?_, ?_, ?_, fun k _ => ⟨?_, ?_⟩⟩
    · refine
        { comps := ?_, idY := rfl, cid := rfl, icomp := ?_, v1 := rfl, h1 := rfl, inCs := ?_
          outCs := ?_, hMax := ?_, vMax := ?_, inter := ?_, ratio := ?_, prog := ?_, width := ?_
          height := ?_, w0 := V.w0, h0 := V.h0, wLe := V.wLe, hLe := V.hLe, stride := ?_, zlen := ?_ }
      · rw [← hd2]; rfl
      · rw [← hd2]; rfl
      · rw [← hd2]; rfl
      · rw [← hd2]; rfl
      · rw [← hd2, ← hd1, ← hd0]; rfl
      · rw [← hd2, ← hd1, ← hd0]; rfl
      · rw [← hd2, ← hd1, ← hd0]; rfl
      · rw [← hd2, ← hd1, ← hd0]; rfl
      · rw [← hd2]; rfl
      · rw [← hd2]
        exact u16_ofNat_toNat (by have := V.wLe; omega)
      · rw [← hd2]
        exact u16_ofNat_toNat (by have := V.hLe; omega)
      · show 1 * ((g.width + 8 - 1) / 8 * 8) = _
        omega
      · rw [← hd2, ← hd1, ← hd0]
        exact (by decide : 0 < 4)
    · rw [← naturalQuant_eq V.quant, hqt]; rfl
    · rw [← hd2, ← hd1, ← hd0]; rfl
    · rw [← hd2, ← hd1, ← hd0]; rfl
    · rw [← hd2, ← hd1, ← hd0]
      show _ ≤ 0x7fffffff
      exact L.few
    · rw [← hd2, ← hd1, ← hd0]; rfl
    · rw [← hd2, ← hd1, ← hd0]; rfl
    · intro x hx; cases hx
    · intro x hx; cases hx
  obtain ⟨hv, -⟩ := V.script
  obtain ⟨d3, s3, hi3⟩ := hi.defines hv.tables
  obtain ⟨hss, hse⟩ := scanData_bounds hv.data
  obtain ⟨rest, hrest⟩ : ∃ r, stuffBytes (packBytes (padBits g.first.bits)) ++
    scansBytes after g.rest = r := ⟨_, rfl⟩
  obtain ⟨d4, s4, hi4, e⟩ := hi3.sos hv.dcDest hv.acDest hss hse hv.ah hv.al rest
  obtain ⟨segs, hsegs⟩ : ∃ l : List Segment, [⟨0xDB, UInt8.ofNat g.quantDest :: g.quant⟩,
    ⟨0xC2, 8 :: (twoBytes g.height ++ twoBytes g.width ++ [1, 1, 0x11, UInt8.ofNat g.quantDest])⟩] ++
    g.first.tables.map Dht.segment = l := ⟨_, rfl⟩
  have hso : SegsOk segs d0 d3 := by
    rw [← hsegs, SegsOk.append]
    exact ⟨d2, ⟨d1, s1, d2, s2, rfl⟩, s3⟩
  have hhead : ∀ s ∈ segs, s.Header := by
    intro s hs
    rw [← hsegs] at hs
    have h1 := V.quant
    rcases List.mem_append.1 hs with hs | hs
    · simp only [List.mem_cons, List.not_mem_nil, or_false] at hs
      rcases hs with rfl | rfl
      · exact ⟨by simp; omega, (by decide : (0xDB : UInt8) ≠ 0xFF), (by decide : (0xDB : UInt8) ≠ 0xDA)⟩
      · exact ⟨by simp [twoBytes], (by decide : (0xC2 : UInt8) ≠ 0xFF), (by decide : (0xC2 : UInt8) ≠ 0xDA)⟩
    · obtain ⟨t, ht, rfl⟩ := List.mem_map.1 hs
      exact (hv.tables t ht).header
  have hb : g.bytesTo after = 0xFF :: 0xD8 :: (segs.flatMap Segment.bytes ++ 0xFF :: 0xDA ::
      (g.first.header ++ rest)) := by
    unfold ProgJpeg.bytesTo
    rw [← hrest, ← hsegs]
    unfold scansBytes
    rw [List.flatMap_cons, ProgScan.bytes]
    simp
  rw [hd0, hrest]
  refine ⟨d4, ?_, hi4, e⟩
  rw [hb]
  exact (decodeHeaders_segments hhead).2 ⟨d3, hso, HL.sos (by decide) (by split <;> decide) s4⟩

/-- The image of the scans before anything that ends them. -/
theorem gray_scans {after : List UInt8} (ha : Stops after) {g : ProgJpeg} {lev : Nat → Option Nat} (V : g.Valid lev) (L : g.Fits)
    (cpu : Cpu) (o : Options) (hw : g.width ≤ o.getMaxWidth) (hh : g.height ≤ o.getMaxHeight)
    (hs : 1 + g.rest.length ≤ o.getMaxScans) :
    ((Decoder.newWithOptions cpu o).decodeBuffer (g.bytesTo after)).1 =
      if 64 * ((g.width + 7) / 8) < 9 * g.width then
        .ok (grayBytes (chooseIdct cpu o.getUseUnsafe) (naturalQuant g.quant) g.width g.height
          (g.blocks.map (approxBlock lev)))
      else .panic .worker := by
  obtain ⟨d, h1, hi, e1, e2, e3, e4, e5, e6, e7⟩ := prog_headers after V L cpu o hw hh
  obtain ⟨hv, hrest⟩ := V.script
  have hne : g.blocks ≠ [] := by
    intro h
    have := V.count
    rw [h] at this
    have h2 := V.w0
    have h3 := V.h0
    have h4 : 0 < (g.height + 7) / 8 * ((g.width + 7) / 8) := Nat.mul_pos (by omega) (by omega)
    rw [List.length_nil] at this
    omega
  have hah : g.first.ah = 0 := by
    have hd := hv.data
    have h0 := V.dc
    generalize g.first.ss = ss at *
    generalize g.first.ah = ah at *
    generalize g.first.al = al at *
    generalize g.first.se = se at *
    generalize g.first.bits = bits at *
    cases hd with
    | dcFirst => rfl
    | dcRefine _ h => cases h
    | acFirst => rfl
    | acRefine _ h => omega
  obtain ⟨d', rd', tabs', h2, hi2⟩ := progScans_script V.blocks V.count ha hi hv.data hv.dcDest
    hv.acDest hv.al e1 e2 e3 e4 e5 e6 e7 V.dc hah L.late hne hrest hs
  obtain ⟨rest, hr⟩ : ∃ r, stuffBytes (packBytes (padBits g.first.bits)) ++
    scansBytes after g.rest = r := ⟨_, rfl⟩
  rw [hr] at h1 h2
  obtain ⟨c, R, -⟩ := id hi
  have halloc : progAlloc d = .ok ((g.width + 7) / 8 * 64, [bufOf (fun _ => none) g.blocks, [], []]) := by
    unfold progAlloc
    rw [R.inter, R.inCs, R.width, R.height, R.comps]
    rw [← bufOf_none V.blocks, V.count]
    have : (g.width + 7) / 8 * 64 * c.verticalSample * c.horizontalSample * ((g.height + 7) / 8) =
        (g.height + 7) / 8 * ((g.width + 7) / 8) * 64 := by
      rw [R.v1, R.h1]
      ring
    rw [← this]
    rfl
  unfold Decoder.decodeBuffer decodeInternal
  rw [M.bind_ok h1, M.bind_ok (getDec_apply _ _), R.prog]
  rw [if_pos rfl]
  unfold decodeProgressive
  rw [M.bind_ok (getDec_apply _ _)]
  have g1 : M.ofOut d.checkComponentDimensions (⟨d, rest⟩ : H) = (.ok (), ⟨d, rest⟩) := by
    rw [R.dims]; rfl
  have g2 : M.ofOut (progAlloc d) (⟨d, rest⟩ : H) =
      (.ok ((g.width + 7) / 8 * 64, [bufOf (fun _ => none) g.blocks, [], []]), ⟨d, rest⟩) := by
    rw [halloc]; rfl
  rw [M.bind_ok g1, M.bind_ok g2]
  dsimp only
  rw [M.bind_ok h2]
  show (finishProgressive [codedRow (g.blocks.map (approxBlock lev)), [], []] ((g.width + 7) / 8 * 64)
    ⟨d', rd'⟩).1 = _
  exact finish_gray hi2 (by rw [List.length_map]; exact V.count) rd'

/-- **C58 (partial).** For every progressive grayscale image, whatever its scans: the file decodes to the
samples of the inverse transforms of what the scans say about its data units, row by row and without
the padding, if the width is large enough (see C53; otherwise the decoder panics). Missing: images with
several components, restart intervals, segments other than DHT between the scans, and the files that
`Fits` leaves out; the property is false of the latter (`c58_false`). -/
theorem c58_gray_partial {g : ProgJpeg} {lev : Nat → Option Nat} (V : g.Valid lev) (L : g.Fits)
    (cpu : Cpu) (o : Options) (hw : g.width ≤ o.getMaxWidth) (hh : g.height ≤ o.getMaxHeight)
    (hs : 1 + g.rest.length ≤ o.getMaxScans) :
    ((Decoder.newWithOptions cpu o).decodeBuffer g.bytes).1 =
      if 64 * ((g.width + 7) / 8) < 9 * g.width then
        .ok (grayBytes (chooseIdct cpu o.getUseUnsafe) (naturalQuant g.quant) g.width g.height
          (g.blocks.map (approxBlock lev)))
      else .panic .worker :=
  gray_scans (stops_eoi _) V L cpu o hw hh hs

/-- All bits of all coefficients are known. -/
theorem approxBlock_complete {lev : Nat → Option Nat} (hl : ∀ k, k < 64 → lev k = some 0) {b : List Int}
    (hb : b.length = 64) : approxBlock lev b = b := by
  refine List.ext_getElem? fun k => ?_
  unfold approxBlock
  rw [List.getElem?_mapIdx]
  by_cases hk : k < 64
  · rw [List.getElem?_eq_getElem (by omega), Option.map_some, hl k hk]
    simp [approx, pointDc, pointAc]
  · rw [List.getElem?_eq_none (by omega)]
    rfl

/-- **C58 (partial).** If the scans send all bits of all coefficients, the image is that of the baseline
file with the same size, quantisation table and coefficients, whatever the scans, tables and codes. -/
theorem c58_same_partial {g : ProgJpeg} {lev : Nat → Option Nat} (V : g.Valid lev) (L : g.Fits)
    (hl : ∀ k, k < 64 → lev k = some 0) {b : GrayJpeg} (Vb : b.Valid) (ew : b.width = g.width)
    (eh : b.height = g.height) (eq : b.quant = g.quant) (eb : b.intervals.flatten = g.blocks)
    (cpu : Cpu) (o : Options) (hw : g.width ≤ o.getMaxWidth) (hh : g.height ≤ o.getMaxHeight)
    (hs : 1 + g.rest.length ≤ o.getMaxScans) :
    ((Decoder.newWithOptions cpu o).decodeBuffer g.bytes).1 =
      ((Decoder.newWithOptions cpu o).decodeBuffer b.bytes).1 := by
  rw [c58_gray_partial V L cpu o hw hh hs, c53_gray_partial Vb cpu o (by rw [ew]; exact hw)
    (by rw [eh]; exact hh), ew, eh, eq, eb]
  have : g.blocks.map (approxBlock lev) = g.blocks := by
    conv_rhs => rw [← List.map_id g.blocks]
    exact List.map_congr_left fun x hx => approxBlock_complete hl (V.blocks x hx).len
  rw [this]

/-- The DC table of the samples below: symbols 0, 1, 2 and 8. -/
def sampleDc : HTable := ⟨[0, 3, 0, 0, 0, 0, 0, 1] ++ List.replicate 8 0, [0, 1, 2, 8]⟩

/-- The AC table of the samples below: `EOB0`, 2, `EOB1` and 17. -/
def sampleAc : HTable := ⟨[0, 0, 4] ++ List.replicate 13 0, [0, 2, 16, 17]⟩

def sampleDcWord : Nat → List Bool := fun s =>
  if s = 8 then [true, true, false, false, false, false, false, false]
  else [[false, false], [false, true], [true, false]].getD s []

def sampleAcWord : Nat → List Bool := fun s =>
  if s = 0 then [false, false, false] else if s = 2 then [false, false, true]
  else if s = 16 then [false, true, false] else [false, true, true]

theorem sampleDc_valid (dest : Nat) (h : dest < 4) : (⟨true, dest, sampleDc⟩ : Dht).Valid :=
  ⟨h, (by decide : sampleDc.counts.length = 16), (by decide :
    (sampleDc.counts.map (·.toNat)).sum = sampleDc.symbols.length), (by decide : sampleDc.symbols.length ≤ 256),
    (by unfold CodeExists; decide +kernel : CodeExists (sampleDc.counts.map (·.toNat))), fun _ => (by decide : ∀ v ∈ sampleDc.symbols, v.toNat ≤ 15)⟩

theorem sampleAc_valid (dest : Nat) (h : dest < 4) : (⟨false, dest, sampleAc⟩ : Dht).Valid :=
  ⟨h, (by decide : sampleAc.counts.length = 16), (by decide :
    (sampleAc.counts.map (·.toNat)).sum = sampleAc.symbols.length), (by decide : sampleAc.symbols.length ≤ 256),
    (by unfold CodeExists; decide +kernel : CodeExists (sampleAc.counts.map (·.toNat))), fun h => by cases h⟩

/-- An image of 8 x 20 samples in five scans: DC but for the last bit, AC 1 to 5 but for the last bit,
AC 6 to 63, and the last bits of AC 1 to 5 and of DC. -/
def sampleProg : ProgJpeg where
  width := 8
  height := 20
  quant := List.replicate 64 16
  quantDest := 2
  blocks := [3 :: 5 :: List.replicate 62 0, 1 :: 0 :: -1 :: List.replicate 61 0, 1 :: List.replicate 63 0]
  first := {
    tables := [⟨true, 1, sampleDc⟩], dcDest := 1, acDest := 0, ss := 0, se := 0, ah := 0, al := 1
    word := sampleDcWord, bits := dcFirstBits sampleDcWord [1, -1, 0] }
  rest := [
    { tables := [⟨true, 0, sampleDc⟩, ⟨false, 3, sampleAc⟩], dcDest := 0, acDest := 3, ss := 1, se := 5
      ah := 0, al := 1, word := sampleAcWord, bits := symbolBits sampleAcWord [(2, [true, false]), (16, [true])] },
    { tables := [], dcDest := 0, acDest := 3, ss := 6, se := 63
      ah := 0, al := 0, word := sampleAcWord, bits := symbolBits sampleAcWord [(16, [true])] },
    { tables := [], dcDest := 0, acDest := 3, ss := 1, se := 5
      ah := 1, al := 0, word := sampleAcWord
      bits := symbolBits sampleAcWord [(0, [true]), (17, [false]), (16, [false])] },
    { tables := [], dcDest := 1, acDest := 3, ss := 0, se := 0
      ah := 1, al := 0, word := sampleDcWord, bits := [true, true, true] }]
  trailer := [1, 2, 3]

theorem sampleProg_valid : ∃ lev, sampleProg.Valid lev ∧ ∀ k, k < 64 → lev k = some 0 := by
  refine ⟨_, ⟨by decide, by decide, by decide, by decide, by decide, by decide, ?_, by decide,
    ⟨⟨?_, by decide, by decide, by decide, by decide, ?_⟩, ⟨?_, by decide, by decide, by decide, by decide, ?_⟩,
      ⟨?_, by decide, by decide, by decide, by decide, ?_⟩, ⟨?_, by decide, by decide, by decide, by decide, ?_⟩,
      ⟨?_, by decide, by decide, by decide, by decide, ?_⟩, rfl⟩, by decide⟩, ?_⟩
  · intro b hb
    have h : ∀ b ∈ sampleProg.blocks, b.length = 64 ∧ ∀ x ∈ b, x.natAbs < 2 ^ 15 := by decide +kernel
    exact ⟨(h b hb).1, (h b hb).2⟩
  · intro t ht
    rw [List.mem_singleton.1 ht]
    exact sampleDc_valid 1 (by decide)
  · exact ScanData.dcFirst (tab := sampleDc) rfl (by decide +kernel)
  · intro t ht
    rcases List.mem_cons.1 ht with rfl | ht
    · exact sampleDc_valid 0 (by decide)
    · rw [List.mem_singleton.1 ht]
      exact sampleAc_valid 3 (by decide)
  · refine ScanData.acFirst (tab := sampleAc) rfl (by decide) (by decide) (by decide) ?_ ?_ (by decide +kernel)
    · intro k h1 h2
      have : ∀ k, k < 6 → 1 ≤ k → setLevel (fun _ => none) 0 0 1 k = none := by decide
      exact this k (Nat.lt_succ_of_le h2) h1
    · exact AcFirst.run (cs := [2, 0, 0, 0, 0]) (zs := [[0, 0, 0, 0, 0], [0, 0, 0, 0, 0]]) (rest := []) (by decide)
        (by decide) (by decide) .nil
  · intro t ht
    cases ht
  · refine ScanData.acFirst (tab := sampleAc) rfl (by decide) (by decide) (by decide) ?_ ?_ (by decide +kernel)
    · intro k h1 h2
      have : ∀ k, k < 64 → 6 ≤ k → setLevel (setLevel (fun _ => none) 0 0 1) 1 5 1 k = none := by decide +kernel
      exact this k (Nat.lt_succ_of_le h2) h1
    · exact AcFirst.run (cs := List.replicate 58 0) (zs := [List.replicate 58 0, List.replicate 58 0]) (rest := [])
        (by decide +kernel) (by decide +kernel) (by decide) .nil
  · intro t ht
    cases ht
  · refine ScanData.acRefine (tab := sampleAc) rfl (by decide) (by decide) (by decide) ?_ ?_ (by decide +kernel)
    · intro k h1 h2
      have : ∀ k, k < 6 → 1 ≤ k →
        setLevel (setLevel (setLevel (fun _ => none) 0 0 1) 1 5 1) 6 63 0 k = some 1 := by decide +kernel
      exact this k (Nat.lt_succ_of_le h2) h1
    · exact AcRefine.run (qs := [5, 0, 0, 0, 0]) (zs := []) (corr := [true]) (by decide +kernel) (by decide) (by decide)
        (AcRefine.run (qs := [0, -1, 0, 0, 0]) (zs := [[0, 0, 0, 0, 0]]) (rest := []) (corr := [])
          (by decide +kernel) (by decide) (by decide) .nil)
  · intro t ht
    cases ht
  · exact ScanData.dcRefine (tab := sampleDc) rfl rfl
  · decide +kernel

theorem sampleProg_fits : sampleProg.Fits := ⟨by decide +kernel, by decide⟩

/-- The sample decodes to the samples of its three data units. -/
example : ((Decoder.new ⟨false, false⟩).decodeBuffer sampleProg.bytes).1 =
    .ok (grayBytes .scalar (List.replicate 64 16) 8 20 sampleProg.blocks) := by
  obtain ⟨lev, V, hl⟩ := sampleProg_valid
  have h := c58_gray_partial V sampleProg_fits ⟨false, false⟩ {} (by decide) (by decide) (by decide)
  have hb : sampleProg.blocks.map (approxBlock lev) = sampleProg.blocks := by
    conv_rhs => rw [← List.map_id sampleProg.blocks]
    exact List.map_congr_left fun x hx => approxBlock_complete hl (V.blocks x hx).len
  rw [hb] at h
  exact h

/-- An image of 8 x 16 samples in two scans. The codes of the two DC coefficients have 16 bits each. -/
def lostProg : ProgJpeg where
  width := 8
  height := 16
  quant := List.replicate 64 1
  quantDest := 0
  blocks := [200 :: List.replicate 63 0, 400 :: List.replicate 63 0]
  first := {
    tables := [⟨true, 0, sampleDc⟩], dcDest := 0, acDest := 0, ss := 0, se := 0, ah := 0, al := 0
    word := sampleDcWord, bits := dcFirstBits sampleDcWord [200, 200] }
  rest := [
    { tables := [⟨false, 0, sampleAc⟩], dcDest := 0, acDest := 0, ss := 1, se := 63
      ah := 0, al := 0, word := sampleAcWord, bits := symbolBits sampleAcWord [(16, [false])] }]
  trailer := []

theorem lostProg_valid : ∃ lev, lostProg.Valid lev ∧ ∀ k, k < 64 → lev k = some 0 := by
  refine ⟨_, ⟨by decide, by decide, by decide, by decide, by decide, by decide, ?_, by decide,
    ⟨⟨?_, by decide, by decide, by decide, by decide, ?_⟩, ⟨?_, by decide, by decide, by decide, by decide, ?_⟩,
      rfl⟩, by decide⟩, ?_⟩
  · intro b hb
    have h : ∀ b ∈ lostProg.blocks, b.length = 64 ∧ ∀ x ∈ b, x.natAbs < 2 ^ 15 := by decide +kernel
    exact ⟨(h b hb).1, (h b hb).2⟩
  · intro t ht
    rw [List.mem_singleton.1 ht]
    exact sampleDc_valid 0 (by decide)
  · exact ScanData.dcFirst (tab := sampleDc) rfl (by decide +kernel)
  · intro t ht
    rw [List.mem_singleton.1 ht]
    exact sampleAc_valid 0 (by decide)
  · refine ScanData.acFirst (tab := sampleAc) rfl (by decide) (by decide) (by decide) ?_ ?_ (by decide +kernel)
    · intro k h1 h2
      have : ∀ k, k < 64 → 1 ≤ k → setLevel (fun _ => none) 0 0 0 k = none := by decide +kernel
      exact this k (Nat.lt_succ_of_le h2) h1
    · exact AcFirst.run (cs := List.replicate 63 0) (zs := [List.replicate 63 0]) (rest := [])
        (by decide +kernel) (by decide +kernel) (by decide) .nil
  · decide +kernel

/-- **C58 is false.** The decoder refuses some complete progressive images: if the code of the last data
unit of the first scan ends exactly where the bytes that have been read end, the decoder has not seen
the marker after the scan, and does not look for it. -/
theorem c58_false : ∃ (g : ProgJpeg) (lev : Nat → Option Nat), g.Valid lev ∧ (∀ k, k < 64 → lev k = some 0) ∧
    (g.rest.length + 1) * g.blocks.length < 0x7fffffff ∧ 1 + g.rest.length ≤ ({} : Options).getMaxScans ∧
    ∀ cpu, ((Decoder.new cpu).decodeBuffer g.bytes).1 = .err .formatStatic := by
  obtain ⟨lev, V, hl⟩ := lostProg_valid
  refine ⟨lostProg, lev, V, hl, by decide, by decide, fun cpu => ?_⟩
  have h : ∀ a b, ((Decoder.new ⟨a, b⟩).decodeBuffer lostProg.bytes).1 = .err .formatStatic := by
    decide +kernel
  exact h cpu.1 cpu.2

/-! ### Restart intervals -/

/-- The data of a scan in restart intervals (T.81 E.1.4): each interval padded to bytes, with the restart
markers between them. -/
def Spec.restartBytes : Nat → List (List Bool) → List UInt8
  | _, [] => []
  | _, [bits] => stuffBytes (packBytes (padBits bits))
  | n, bits :: rest => stuffBytes (packBytes (padBits bits)) ++ 0xFF :: UInt8.ofNat (0xD0 + n % 8) ::
      restartBytes (n + 1) rest

/-- A progressive image of 8 x 48 samples with restart intervals of three data units, in two scans: the DC
coefficients, and the others. `ivs1` and `ivs2` are the data of the intervals. -/
def restartProg (ivs1 ivs2 : List (List Bool)) : List UInt8 :=
  [0xFF, 0xD8] ++ (Segment.mk 0xDB (0 :: List.replicate 64 1)).bytes ++
  (Segment.mk 0xC2 [8, 0, 48, 0, 8, 1, 1, 0x11, 0]).bytes ++
  (Segment.mk 0xDD [0, 3]).bytes ++ (Dht.segment ⟨true, 0, sampleDc⟩).bytes ++
  (Dht.segment ⟨false, 0, sampleAc⟩).bytes ++
  [0xFF, 0xDA, 0, 8, 1, 1, 0, 0, 0, 0] ++ restartBytes 0 ivs1 ++
  [0xFF, 0xDA, 0, 8, 1, 1, 0, 1, 63, 0] ++ restartBytes 0 ivs2 ++ [0xFF, 0xD9]

/-- **C58 is false** of restart intervals: at the end of the last interval of a scan the decoder expects a
restart marker too, and takes the marker before the next scan for an error. -/
theorem c58_restart_false : ∃ (ivs : List (List (List Int))) (ivs1 ivs2 : List (List Bool)),
    (∀ iv ∈ ivs, iv.length = 3 ∧ ∀ b ∈ iv, BlockOk b) ∧ ivs.length = 2 ∧
    List.Forall₂ (fun blocks bits => ScanData (some sampleDc) (some sampleAc) (fun _ => none) blocks
      sampleDcWord 0 0 0 0 bits) ivs ivs1 ∧
    List.Forall₂ (fun blocks bits => ScanData (some sampleDc) (some sampleAc)
      (setLevel (fun _ => none) 0 0 0) blocks sampleAcWord 1 63 0 0 bits) ivs ivs2 ∧
    ∀ cpu, ((Decoder.new cpu).decodeBuffer (restartProg ivs1 ivs2)).1 = .err .mcu := by
  have hb : BlockOk (3 :: List.replicate 63 0) :=
    ⟨by decide, (by decide +kernel : ∀ x ∈ (3 :: List.replicate 63 0 : List Int), x.natAbs < 2 ^ 15)⟩
  have h1 : ScanData (some sampleDc) (some sampleAc) (fun _ => none)
      (List.replicate 3 (3 :: List.replicate 63 0)) sampleDcWord 0 0 0 0
      (dcFirstBits sampleDcWord [3, 0, 0]) := ScanData.dcFirst (tab := sampleDc) rfl (by decide +kernel)
  have h2 : ScanData (some sampleDc) (some sampleAc) (setLevel (fun _ => none) 0 0 0)
      (List.replicate 3 (3 :: List.replicate 63 0)) sampleAcWord 1 63 0 0
      (symbolBits sampleAcWord [(16, [true])]) := by
    refine ScanData.acFirst (tab := sampleAc) rfl (by decide) (by decide) (by decide) ?_ ?_ (by decide +kernel)
    · intro k h1 h2
      have : ∀ k, k < 64 → 1 ≤ k → setLevel (fun _ => none) 0 0 0 k = none := by decide +kernel
      exact this k (Nat.lt_succ_of_le h2) h1
    · exact AcFirst.run (cs := List.replicate 63 0) (zs := [List.replicate 63 0, List.replicate 63 0])
        (rest := []) (by decide +kernel) (by decide +kernel) (by decide) .nil
  refine ⟨List.replicate 2 (List.replicate 3 (3 :: List.replicate 63 0)), _, _, ?_, by decide,
    .cons h1 (.cons h1 .nil), .cons h2 (.cons h2 .nil), fun cpu => ?_⟩
  · intro iv hiv
    rw [List.eq_of_mem_replicate hiv]
    exact ⟨by decide, fun b hb' => by rw [List.eq_of_mem_replicate hb']; exact hb⟩
  · have h : ∀ a b, ((Decoder.new ⟨a, b⟩).decodeBuffer (restartProg
        [dcFirstBits sampleDcWord [3, 0, 0], dcFirstBits sampleDcWord [3, 0, 0]]
        [symbolBits sampleAcWord [(16, [true])], symbolBits sampleAcWord [(16, [true])]])).1 =
        .err .mcu := by decide +kernel
    exact h cpu.1 cpu.2

end Zune
