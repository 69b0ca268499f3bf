import Verif.Lemmas.GrayFile
import Verif.Lemmas.FileSegments
/-!
# Grayscale images from the first byte to the last sample

C53, and what holds of C22.
-/

namespace Zune
open Spec

/-- A baseline image with one component, as an encoder describes it: size, quantisation table and
Huffman tables as in the file, destinations of the tables, restart interval (0: none), and the
quantised coefficients of the data units, in zig-zag order, grouped in restart intervals. -/
structure Spec.GrayJpeg where
  width : Nat
  height : Nat
  quant : List UInt8
  dcCounts : List UInt8
  dcSymbols : List UInt8
  acCounts : List UInt8
  acSymbols : List UInt8
  quantDest : Nat
  dcDest : Nat
  acDest : Nat
  restart : Nat
  dcWord : Nat → List Bool
  acWord : Nat → List Bool
  intervals : List (List (List Int))
  trailer : List UInt8

/-- The Huffman codes of the image. -/
def Spec.GrayJpeg.codes (g : GrayJpeg) : Codes :=
  ⟨g.dcCounts.map (·.toNat), g.dcSymbols.map (·.toNat), g.acCounts.map (·.toNat),
    g.acSymbols.map (·.toNat), g.dcWord, g.acWord⟩

/-- The segments before the scan header: DQT, SOF0, two DHT, and DRI if there is a restart interval. -/
def Spec.GrayJpeg.segments (g : GrayJpeg) : List Segment :=
  [⟨0xDB, UInt8.ofNat g.quantDest :: g.quant⟩,
   ⟨0xC0, 8 :: (twoBytes g.height ++ twoBytes g.width ++ [1, 1, 0x11, UInt8.ofNat g.quantDest])⟩,
   ⟨0xC4, UInt8.ofNat (0 + g.dcDest) :: (g.dcCounts ++ g.dcSymbols)⟩,
   ⟨0xC4, UInt8.ofNat (16 + g.acDest) :: (g.acCounts ++ g.acSymbols)⟩] ++
  (if g.restart = 0 then [] else [⟨0xDD, twoBytes g.restart⟩])

/-- The file. -/
def Spec.GrayJpeg.bytes (g : GrayJpeg) : List UInt8 :=
  [0xFF, 0xD8] ++ g.segments.flatMap Segment.bytes ++
  [0xFF, 0xDA, 0, 8, 1, 1, UInt8.ofNat (16 * g.dcDest + g.acDest), 0, 63, 0] ++
  scanBytes g.dcWord g.acWord 0 g.intervals ++ [0xFF, 0xD9] ++ g.trailer

/-- The data is complete and can be coded. The sizes leave out the eight largest values (see C31). -/
structure Spec.GrayJpeg.Valid (g : GrayJpeg) : Prop where
  w0 : 0 < g.width
  h0 : 0 < g.height
  wLe : g.width ≤ 65527
  hLe : g.height ≤ 65527
  quant : g.quant.length = 64
  quantDest : g.quantDest < 4
  dcDest : g.dcDest < 4
  acDest : g.acDest < 4
  restart : g.restart < 65536
  dcLen : g.dcCounts.length = 16
  acLen : g.acCounts.length = 16
  dcSum : (g.dcCounts.map (·.toNat)).sum = g.dcSymbols.length
  acSum : (g.acCounts.map (·.toNat)).sum = g.acSymbols.length
  dcMax : g.dcSymbols.length ≤ 256
  acMax : g.acSymbols.length ≤ 256
  dcCode : CodeExists (g.dcCounts.map (·.toNat))
  acCode : CodeExists (g.acCounts.map (·.toNat))
  dcSmall : ∀ v ∈ g.dcSymbols, v.toNat ≤ 15
  intervals : g.codes.Intervals g.restart g.intervals
  count : g.intervals.flatten.length = (g.height + 7) / 8 * ((g.width + 7) / 8)

/-- The quantisation table in natural order. -/
def Spec.naturalQuant (q : List UInt8) : List Nat :=
  (List.range 64).map fun z => (q.getD (zigzag.idxOf z) 0).toNat

theorem naturalQuant_eq {q : List UInt8} (h : q.length = 64) :
    unZigZag (q.map (·.toNat)) = naturalQuant q := by
  obtain ⟨h1, h2⟩ := c49_quant_table (q.map (·.toNat)) (by rw [List.length_map]; exact h)
  apply List.ext_getElem?
  intro z
  by_cases hz : z < 64
  · obtain ⟨k, hk, hkz⟩ := zigzag_surj z hz
    rw [h2 k z hkz, naturalQuant, List.getElem?_map, List.getElem?_map, List.getElem?_range hz]
    simp only [Option.map_some]
    rw [zigzag_idxOf hkz, List.getD_eq_getElem?_getD, List.getElem?_eq_getElem (by omega)]
    rfl
  · rw [List.getElem?_eq_none (by omega), List.getElem?_eq_none (by simp [naturalQuant]; omega)]

theorem codeBook_pad {counts : List Nat} {syms : List Nat} (h16 : counts.length = 16)
    (h : counts.sum = syms.length) :
    codeBook counts (padTo256 syms) = codeBook counts syms := by
  unfold codeBook padTo256
  have hl : ((codes counts).map fun p => natBits p.1 p.2).length = syms.length := by
    rw [List.length_map, codes_eq counts h16]
    simp [lengths_length, h]
  conv_lhs => rw [← List.append_nil (List.map _ _)]
  rw [List.zip_append hl, List.zip_nil_left, List.append_nil]

/-- The table that a list of codes makes. -/
theorem table_of {counts syms : List UInt8} (isDc prog : Bool) (h16 : counts.length = 16)
    (hs : (counts.map (·.toNat)).sum = syms.length) (hm : syms.length ≤ 256)
    (hc : CodeExists (counts.map (·.toNat))) (hd : isDc = true → ∀ v ∈ syms, v.toNat ≤ 15) :
    ∃ t, Accepted (counts.map (·.toNat)) (padTo256 (syms.map (·.toNat))) isDc prog t ∧
      codeBook (counts.map (·.toNat)) (padTo256 (syms.map (·.toNat))) =
        codeBook (counts.map (·.toNat)) (syms.map (·.toNat)) := by
  have h16' : (counts.map (·.toNat)).length = 16 := by rw [List.length_map]; exact h16
  obtain ⟨t, ht⟩ := (c10_accepted_iff (counts.map (·.toNat)) (padTo256 (syms.map (·.toNat))) isDc prog
    h16').2 ⟨hc, fun hi v hv => by
      rw [hs] at hv
      unfold padTo256 at hv
      rw [List.take_left' (by rw [List.length_map])] at hv
      obtain ⟨u, hu, rfl⟩ := List.mem_map.1 hv
      exact hd hi u hu⟩
  refine ⟨t, ⟨h16', by omega, ?_, ?_, ht⟩, codeBook_pad h16' (by rw [hs, List.length_map])⟩
  · simp [padTo256]; omega
  · intro v hv
    unfold padTo256 at hv
    rcases List.mem_append.1 hv with hv | hv
    · obtain ⟨u, -, rfl⟩ := List.mem_map.1 hv
      exact u.toNat_lt
    · rw [List.eq_of_mem_replicate hv]; omega

/-- The headers of the file. -/
theorem gray_headers {g : GrayJpeg} (V : g.Valid) {d0 : Decoder} (U : Reusable d0 2 2)
    (hst : d0.interleaved = true ∨ d0.hMax ≠ 1 ∨ d0.vMax ≠ 1 → d0.options.getStrictMode = false)
    (hw : g.width ≤ d0.options.getMaxWidth) (hh : g.height ≤ d0.options.getMaxHeight) :
    ∃ d c dc ac, decodeHeaders ⟨d0, g.bytes⟩ =
        (.ok (), ⟨d, scanBytes g.dcWord g.acWord 0 g.intervals ++ 0xFF :: 0xD9 :: g.trailer⟩) ∧
      GrayHead d c dc ac g.width g.height g.restart ∧ Tables g.codes dc ac ∧ Reusable d 2 2 ∧
      d.idctFn = d0.idctFn ∧ d.options = d0.options.setOutColorspace .grayscale ∧
      c.quantTable = naturalQuant g.quant := by
  obtain ⟨dc, hdc, ebd⟩ := table_of true false V.dcLen V.dcSum V.dcMax V.dcCode fun _ => V.dcSmall
  obtain ⟨ac, hac, eba⟩ := table_of false false V.acLen V.acSum V.acMax V.acCode (fun h => by cases h)
  -- the states
  obtain ⟨d1, hd1⟩ : ∃ d, ({ d0 with qtTables := d0.qtTables.set g.quantDest (some (unZigZag (g.quant.map (·.toNat)))) } : Decoder) = d := ⟨_, rfl⟩
  obtain ⟨qt, hqt⟩ : ∃ qt, unZigZag (g.quant.map (·.toNat)) = qt := ⟨_, rfl⟩
  obtain ⟨d2, hd2⟩ : ∃ d, usedFrameOf d1 g.width g.height g.quantDest qt = d := ⟨_, rfl⟩
  obtain ⟨d3, hd3⟩ : ∃ d, setTable d2 true g.dcDest dc = d := ⟨_, rfl⟩
  obtain ⟨d4, hd4⟩ : ∃ d, setTable d3 false g.acDest ac = d := ⟨_, rfl⟩
  obtain ⟨d5, hd5⟩ : ∃ d, (if g.restart = 0 then d4 else { d4 with restartInterval := g.restart, todo := g.restart }) = d := ⟨_, rfl⟩
  have s1 := dqt_one d0 V.quantDest V.quant
  rw [hd1] at s1
  have s2 : SegOk 0xC0 (8 :: (twoBytes g.height ++ twoBytes g.width ++
      [1, 1, 0x11, UInt8.ofNat g.quantDest])) d1 d2 := by
    rw [← hd2]
    refine sof_gray_again d1 ?_ ?_ (by have := V.wLe; omega) (by have := V.hLe; omega)
      (by have := V.w0; omega) (by have := V.h0; omega) ?_ ?_ V.quantDest ?_
    · rw [← hd1]; exact U.hMax.1
    · rw [← hd1]; exact U.vMax.1
    · rw [← hd1]; exact hw
    · rw [← hd1]; exact hh
    · rw [← hd1, ← hqt]
      show (d0.qtTables.set g.quantDest _)[g.quantDest]? = _
      rw [List.getElem?_set_self]
      rw [U.qt]
      exact V.quantDest
  have hp2 : d2.isProgressive = false := by rw [← hd2, ← hd1]; exact U.prog
  have hp3 : d3.isProgressive = false := by rw [← hd3]; exact hp2
  have s3 : SegOk 0xC4 (UInt8.ofNat (0 + g.dcDest) :: (g.dcCounts ++ g.dcSymbols)) d2 d3 := by
    rw [← hd3]
    exact dht_one d2 true V.dcDest V.dcLen V.dcSum V.dcMax (by rw [hp2]; exact hdc.table)
  have s4 : SegOk 0xC4 (UInt8.ofNat (16 + g.acDest) :: (g.acCounts ++ g.acSymbols)) d3 d4 := by
    rw [← hd4]
    exact dht_one d3 false V.acDest V.acLen V.acSum V.acMax (by rw [hp3]; exact hac.table)
  have s5 : SegsOk (if g.restart = 0 then [] else [⟨0xDD, twoBytes g.restart⟩]) d4 d5 := by
    rw [← hd5]
    split
    · rfl
    · exact ⟨_, dri_one d4 V.restart, rfl⟩
  have hsegs : SegsOk g.segments d0 d5 := by
    unfold GrayJpeg.segments
    rw [SegsOk.append]
    exact ⟨d4, ⟨d1, s1, d2, s2, d3, s3, d4, s4, rfl⟩, s5⟩
  have hhead : ∀ s ∈ g.segments, s.Header := by
    intro s hs
    unfold GrayJpeg.segments at hs
    have h1 := V.quant
    have h2 := V.dcLen
    have h3 := V.acLen
    have h4 := V.dcMax
    have h5 := V.acMax
    rcases List.mem_append.1 hs with hs | hs
    · simp only [List.mem_cons, List.not_mem_nil, or_false] at hs
      rcases hs with rfl | rfl | rfl | rfl
      · exact ⟨by simp; omega, (by decide : (0xDB : UInt8) ≠ 0xFF), (by decide : (0xDB : UInt8) ≠ 0xDA)⟩
      · exact ⟨by simp [twoBytes], (by decide : (0xC0 : UInt8) ≠ 0xFF), (by decide : (0xC0 : UInt8) ≠ 0xDA)⟩
      · exact ⟨by simp; omega, (by decide : (0xC4 : UInt8) ≠ 0xFF), (by decide : (0xC4 : UInt8) ≠ 0xDA)⟩
      · exact ⟨by simp; omega, (by decide : (0xC4 : UInt8) ≠ 0xFF), (by decide : (0xC4 : UInt8) ≠ 0xDA)⟩
    · split at hs
      · cases hs
      · rw [List.mem_singleton] at hs
        subst hs
        exact ⟨by simp [twoBytes], (by decide : (0xDD : UInt8) ≠ 0xFF), (by decide : (0xDD : UInt8) ≠ 0xDA)⟩
  obtain ⟨c, hc⟩ : ∃ c, ({ grayComponent g.width g.quantDest qt with
      widthStride := 1 * ((g.width + d0.hMax * 8 - 1) / (d0.hMax * 8) * 8) } : Component) = c := ⟨_, rfl⟩
  have hcomp : d5.components = [c] := by
    rw [← hd5, ← hc]
    have : d4.components = [{ grayComponent g.width g.quantDest qt with
        widthStride := 1 * ((g.width + d0.hMax * 8 - 1) / (d0.hMax * 8) * 8) }] := by
      rw [← hd4, ← hd3, ← hd2, ← hd1]; rfl
    split <;> exact this
  have hinfo : d5.info.components = 1 := by
    rw [← hd5]
    have : d4.info.components = 1 := by rw [← hd4, ← hd3, ← hd2]; rfl
    split <;> exact this
  obtain ⟨rest, hrest⟩ : ∃ r, scanBytes g.dcWord g.acWord 0 g.intervals ++ 0xFF :: 0xD9 :: g.trailer = r :=
    ⟨_, rfl⟩
  have hsos := sos_gray d5 hcomp (by rw [← hc]; rfl) hinfo V.dcDest V.acDest rest
  have hdec : decodeHeaders ⟨d0, g.bytes⟩ = (.ok (), ⟨grayScanDec d5 c g.dcDest g.acDest, rest⟩) := by
    have hb : g.bytes = 0xFF :: 0xD8 :: (g.segments.flatMap Segment.bytes ++ 0xFF :: 0xDA ::
        ([0, 8, 1, 1, UInt8.ofNat (16 * g.dcDest + g.acDest), 0, 63, 0] ++ rest)) := by
      unfold GrayJpeg.bytes
      rw [← hrest]
      simp
    rw [hb]
    exact (decodeHeaders_segments hhead).2 ⟨d5, hsegs, HL.sos (by decide) (by split <;> decide) hsos⟩
  have hd5' : d5 = { d4 with restartInterval := d5.restartInterval, todo := d5.todo } := by
    rw [← hd5]
    split <;> rfl
  have hrt : g.restart ≠ 0 → d5.restartInterval = g.restart ∧ d5.todo = g.restart := by
    intro h0
    rw [← hd5, if_neg h0]
    exact ⟨rfl, rfl⟩
  obtain ⟨ri, hri⟩ : ∃ n, d5.restartInterval = n := ⟨_, rfl⟩
  obtain ⟨td, htd⟩ : ∃ n, d5.todo = n := ⟨_, rfl⟩
  rw [hri, htd] at hd5' hrt
  have hh1 : d5.hMax = d0.hMax := by rw [hd5', ← hd4, ← hd3, ← hd2, ← hd1]; rfl
  have hv1 : d5.vMax = d0.vMax := by rw [hd5', ← hd4, ← hd3, ← hd2, ← hd1]; rfl
  have hii : d5.interleaved = if d0.hMax ≠ 1 ∨ d0.vMax ≠ 1 then true else d0.interleaved := by
    rw [hd5', ← hd4, ← hd3, ← hd2, ← hd1]; rfl
  have hrr : d5.subSampleRatio = d0.subSampleRatio := by rw [hd5', ← hd4, ← hd3, ← hd2, ← hd1]; rfl
  have hoo : d5.options = d0.options.setOutColorspace .grayscale := by
    rw [hd5', ← hd4, ← hd3, ← hd2, ← hd1]; rfl
  have hpl : d5.interleaved = false → d5.hMax = 1 ∧ d5.vMax = 1 ∧ d5.subSampleRatio = .none := by
    intro h
    rw [hii] at h
    split at h
    · cases h
    · rw [hh1, hv1, hrr]
      exact U.plain h
  have hdt : d5.dcTables = d0.dcTables.set g.dcDest (some dc) := by
    rw [hd5', ← hd4, ← hd3, ← hd2, ← hd1]; rfl
  have hat : d5.acTables = d0.acTables.set g.acDest (some ac) := by
    rw [hd5', ← hd4, ← hd3, ← hd2, ← hd1]; rfl
  rw [hrest]
  refine ⟨_, { c with dcHuffTable := g.dcDest, acHuffTable := g.acDest }, dc, ac, hdec, ?_, ⟨⟨_, _, hdc, ebd⟩, ⟨_, _, hac, eba⟩⟩, ?_, ?_, ?_, ?_⟩
  · refine
      { comps := rfl, pred := ?_, idY := ?_, dcTab := ?_, acTab := ?_, dcLt := V.dcDest
        acLt := V.acDest, v1 := ?_, h1 := ?_, inCs := ?_, outCs := ?_, hMax := ?_, vMax := ?_
        width := ?_, height := ?_, w0 := V.w0, h0 := V.h0, wLe := V.wLe
        hLe := V.hLe, plain := fun h => ?_, strict := fun h => ?_, todo := ?_ }
    · rw [← hc]; rfl
    · rw [← hc]; rfl
    · show d5.dcTables[g.dcDest]? = _
      rw [hdt, List.getElem?_set_self]
      rw [U.dc]
      exact V.dcDest
    · show d5.acTables[g.acDest]? = _
      rw [hat, List.getElem?_set_self]
      rw [U.ac]
      exact V.acDest
    · rw [← hc]; rfl
    · rw [← hc]; rfl
    · rw [hd5', ← hd4, ← hd3, ← hd2]; rfl
    · rw [hd5', ← hd4, ← hd3, ← hd2]; rfl
    · rw [hd5', ← hd4, ← hd3, ← hd2]
      exact u16_ofNat_toNat (by have := V.wLe; omega)
    · rw [hd5', ← hd4, ← hd3, ← hd2]
      exact u16_ofNat_toNat (by have := V.hLe; omega)
    · rw [hd5']; exact hrt
    · show 0 < d5.hMax ∧ d5.hMax ≤ 2
      rw [hh1]; exact U.hMax
    · show 0 < d5.vMax ∧ d5.vMax ≤ 2
      rw [hv1]; exact U.vMax
    · obtain ⟨q1, q2, q3⟩ := hpl h
      refine ⟨q1, q2, q3, ?_⟩
      rw [← hc]
      show 1 * ((g.width + d0.hMax * 8 - 1) / (d0.hMax * 8) * 8) = _
      rw [← hh1, q1]
      omega
    · show d5.options.getStrictMode = false
      rw [hoo]
      refine hst ?_
      have h' : d5.interleaved = true := h
      rw [hii] at h'
      split at h'
      · exact Or.inr ‹_›
      · exact Or.inl h'
  · refine ⟨?_, ?_, fun h => by decide, hpl, ?_, ?_, ?_, ?_⟩
    · show 0 < d5.hMax ∧ d5.hMax ≤ 2
      rw [hh1]; exact U.hMax
    · show 0 < d5.vMax ∧ d5.vMax ≤ 2
      rw [hv1]; exact U.vMax
    · rw [hd5', ← hd4, ← hd3]; exact hp2
    · rw [hd5', ← hd4, ← hd3, ← hd2]; rfl
    · show d5.dcTables.length = 4
      rw [hdt, List.length_set, U.dc]
    · show d5.acTables.length = 4
      rw [hat, List.length_set, U.ac]
  · rw [hd5', ← hd4, ← hd3, ← hd2, ← hd1]; rfl
  · rw [hd5', ← hd4, ← hd3, ← hd2, ← hd1]; rfl
  · rw [← hc, ← naturalQuant_eq V.quant, hqt]; rfl

/-- Grayscale images with a decoder that may have been used before. -/
theorem gray_decode {g : GrayJpeg} (V : g.Valid) {d : Decoder} (U : Reusable d 2 2)
    (hst : d.interleaved = true ∨ d.hMax ≠ 1 ∨ d.vMax ≠ 1 → d.options.getStrictMode = false)
    (hw : g.width ≤ d.options.getMaxWidth) (hh : g.height ≤ d.options.getMaxHeight) :
    ∃ d', d.decodeBuffer g.bytes =
      (if 64 * ((g.width + 7) / 8) < 9 * g.width then
        .ok (grayBytes d.idctFn (naturalQuant g.quant) g.width g.height g.intervals.flatten)
      else .panic .worker, d') ∧ Reusable d' 2 2 ∧
      (d'.interleaved = true ∨ d'.hMax ≠ 1 ∨ d'.vMax ≠ 1 → d'.options.getStrictMode = false) ∧
      d'.idctFn = d.idctFn ∧ d'.options = d.options.setOutColorspace .grayscale := by
  obtain ⟨d1, c, dc, ac, h1, R, ht, U1, hi, ho, hq⟩ := gray_headers V U hst hw hh
  obtain ⟨d2, c2, hd2, R2, hset⟩ := R.ready
  obtain ⟨q, todo, rd', h2⟩ := gray_baseline R2 ht (ivs := g.intervals) V.intervals V.count g.trailer hset
  have hf : d2.idctFn = d1.idctFn ∧ c2.quantTable = c.quantTable ∧
      d2.options = d.options.setOutColorspace .grayscale ∧ d2.interleaved = d1.interleaved ∧
      d2.isProgressive = d1.isProgressive ∧ d2.qtTables = d1.qtTables ∧ d2.dcTables = d1.dcTables ∧
      d2.acTables = d1.acTables := by
    rcases hd2 with ⟨rfl, rfl, -⟩ | ⟨rfl, rfl⟩
    · exact ⟨rfl, rfl, ho, rfl, rfl, rfl, rfl, rfl⟩
    · refine ⟨rfl, rfl, ?_, rfl, rfl, rfl, rfl, rfl⟩
      show d1.options.setOutColorspace .grayscale = _
      rw [ho]
      rfl
  obtain ⟨f1, f2, f3, f4, f5, f6, f7, f8⟩ := hf
  refine ⟨grayDec d2 c2 q todo, ?_, ⟨?_, ?_, fun _ => by decide, fun _ => ⟨R2.hMax, R2.vMax, R2.ratio⟩,
    f5.trans U1.prog, ?_, ?_, ?_⟩, ?_, f1.trans hi, f3⟩
  · have h3 : ∀ r, decodeBaseline ⟨d1, scanBytes g.dcWord g.acWord 0 g.intervals ++
        0xFF :: 0xD9 :: g.trailer⟩ = r → decodeInternal ⟨d, g.bytes⟩ = r := by
      intro r hr
      unfold decodeInternal
      rw [M.bind_ok h1, M.bind_ok (getDec_apply _ _), U1.prog, if_neg (by decide)]
      exact hr
    unfold Decoder.decodeBuffer
    rw [h3 _ h2, f1, f2, hi, hq]
  · show 0 < d2.hMax ∧ d2.hMax ≤ 2
    rw [R2.hMax]; decide
  · show 0 < d2.vMax ∧ d2.vMax ≤ 2
    rw [R2.vMax]; decide
  · show d2.qtTables.length = 4
    rw [f6]; exact U1.qt
  · show d2.dcTables.length = 4
    rw [f7]; exact U1.dc
  · show d2.acTables.length = 4
    rw [f8]; exact U1.ac
  · intro h
    show d2.options.getStrictMode = false
    rw [f3, ← ho]
    refine R.strict ?_
    rcases h with h | h | h
    · exact f4.symm.trans h
    · exact absurd R2.hMax h
    · exact absurd R2.vMax h

/-- **C53.** For every valid description of a grayscale image, all decoder options whose limits it
respects, and all CPU features, the file decodes to the samples of the inverse transforms of its data
units, row by row and without the padding, if the width is large enough: all multiples of 8 and all
widths from 57 on are, in general `64·⌈w/8⌉ < 9·w`. The images that are not are lost: the decoder
panics. -/
theorem c53_gray_partial {g : GrayJpeg} (V : g.Valid) (cpu : Cpu) (o : Options)
    (hw : g.width ≤ o.getMaxWidth) (hh : g.height ≤ o.getMaxHeight) :
    ((Decoder.newWithOptions cpu o).decodeBuffer g.bytes).1 =
      if 64 * ((g.width + 7) / 8) < 9 * g.width then
        .ok (grayBytes (chooseIdct cpu o.getUseUnsafe) (naturalQuant g.quant) g.width g.height
          g.intervals.flatten)
      else .panic .worker := by
  obtain ⟨d', h, -⟩ := gray_decode V (reusable_new cpu o (by decide) (by decide))
    (fun h => by rcases h with h | h | h <;> first | cases h | exact absurd rfl h) hw hh
  rw [h]
  rfl

/-- **C22 (partial).** For images with one component: however the data units are divided into restart
intervals, and with whatever codes, the image is the same; so the DC prediction and the bit reader are
reset at the restart markers and only there. Missing: images with several components, for which the
property is false (`c22_false`), and those widths below 57 for which the decoder panics. -/
theorem c22_gray_partial {g g' : GrayJpeg} (V : g.Valid) (V' : g'.Valid) (ew : g'.width = g.width)
    (eh : g'.height = g.height) (eq : g'.quant = g.quant)
    (eb : g'.intervals.flatten = g.intervals.flatten) (cpu : Cpu) (o : Options)
    (hw : g.width ≤ o.getMaxWidth) (hh : g.height ≤ o.getMaxHeight) :
    ((Decoder.newWithOptions cpu o).decodeBuffer g'.bytes).1 =
      ((Decoder.newWithOptions cpu o).decodeBuffer g.bytes).1 := by
  rw [c53_gray_partial V cpu o hw hh, c53_gray_partial V' cpu o (by rw [ew]; exact hw)
    (by rw [eh]; exact hh), ew, eh, eq, eb]

/-- An image of 8 x 20 samples: three data units with DC coefficients 3, 1 and 1, the first with
coefficient 1 at position 1 and the second with coefficient -1 at position 2. `ivs` says how they are
divided into restart intervals. -/
def sampleJpeg (restart : Nat) (divide : List (List Int) → List (List (List Int))) : GrayJpeg where
  width := 8
  height := 20
  quant := List.replicate 64 16
  dcCounts := [0, 3] ++ List.replicate 14 0
  dcSymbols := [0, 1, 2]
  acCounts := [0, 3] ++ List.replicate 14 0
  acSymbols := [0, 0x01, 0x11]
  quantDest := 2
  dcDest := 1
  acDest := 3
  restart := restart
  dcWord := fun s => [[false, false], [false, true], [true, false]].getD s []
  acWord := fun s => if s = 0 then [false, false] else if s = 1 then [false, true] else [true, false]
  intervals := divide [3 :: 1 :: List.replicate 62 0, 1 :: 0 :: -1 :: List.replicate 61 0,
    1 :: List.replicate 63 0]
  trailer := [1, 2, 3]

theorem sampleJpeg_block {pred : Int} {b : List Int} (restart : Nat)
    (divide : List (List Int) → List (List (List Int)))
    (hb : b ∈ [3 :: 1 :: List.replicate 62 0, 1 :: 0 :: -1 :: List.replicate 61 0,
      1 :: List.replicate 63 0])
    (hp : category (dcOfBlock b - pred) ≤ 2) : (sampleJpeg restart divide).codes.Block pred b := by
  have hdc : ∀ k : Fin 3, (([[false, false], [false, true], [true, false]] : List (List Bool)).getD k [], (k : Nat)) ∈
      codeBook (([0, 3] ++ List.replicate 14 0 : List UInt8).map (·.toNat)) [0, 1, 2] := by decide +kernel
  have hac : ∀ b ∈ ([3 :: 1 :: List.replicate 62 0, 1 :: 0 :: -1 :: List.replicate 61 0,
      1 :: List.replicate 63 0] : List (List Int)), b.length = 64 ∧ (∀ x ∈ b.tail, category x ≤ 15) ∧
      ∀ p ∈ acSymbols 0 b.tail, ((if p.1 = 0 then [false, false] else if p.1 = 1 then [false, true]
        else [true, false] : List Bool), p.1) ∈
        codeBook (([0, 3] ++ List.replicate 14 0 : List UInt8).map (·.toNat)) [0, 0x01, 0x11] ∧
        p.1 % 16 < 6 := by decide +kernel
  obtain ⟨h1, h2, h3⟩ := hac b hb
  exact ⟨h1, h2, hdc ⟨_, Nat.lt_succ_of_le hp⟩, fun p hp => (h3 p hp).1, fun p hp h6 => by have := (h3 p hp).2; omega⟩

theorem sampleJpeg_valid {restart : Nat} (hr : restart < 65536)
    {divide : List (List Int) → List (List (List Int))} (hd : ∀ l, (divide l).flatten = l)
    (hi : (sampleJpeg restart divide).codes.Intervals restart (sampleJpeg restart divide).intervals) :
    (sampleJpeg restart divide).Valid where
  w0 := by show 0 < 8; decide
  h0 := by show 0 < 20; decide
  wLe := by show 8 ≤ 65527; decide
  hLe := by show 20 ≤ 65527; decide
  quant := by show (List.replicate 64 _).length = 64; simp
  quantDest := by show 2 < 4; decide
  dcDest := by show 1 < 4; decide
  acDest := by show 3 < 4; decide
  restart := hr
  dcLen := by show ([0, 3] ++ List.replicate 14 0 : List UInt8).length = 16; decide
  acLen := by show ([0, 3] ++ List.replicate 14 0 : List UInt8).length = 16; decide
  dcSum := by
    show (([0, 3] ++ List.replicate 14 0 : List UInt8).map (·.toNat)).sum = 3
    decide
  acSum := by
    show (([0, 3] ++ List.replicate 14 0 : List UInt8).map (·.toNat)).sum = 3
    decide
  dcMax := by show 3 ≤ 256; decide
  acMax := by show 3 ≤ 256; decide
  dcCode := by
    show CodeExists (([0, 3] ++ List.replicate 14 0 : List UInt8).map (·.toNat))
    unfold CodeExists
    decide +kernel
  acCode := by
    show CodeExists (([0, 3] ++ List.replicate 14 0 : List UInt8).map (·.toNat))
    unfold CodeExists
    decide +kernel
  dcSmall := by
    show ∀ v ∈ ([0, 1, 2] : List UInt8), v.toNat ≤ 15
    decide
  intervals := hi
  count := by
    show (divide _).flatten.length = _
    rw [hd]
    show _ = (20 + 7) / 8 * ((8 + 7) / 8)
    rfl

/-- The sample without restart intervals. -/
theorem sampleJpeg_whole : (sampleJpeg 0 fun l => [l]).Valid := by
  refine sampleJpeg_valid (by decide) (by simp) ⟨by simp, ⟨?_, ?_, ?_, ?_, ?_, ?_, trivial⟩, fun h => absurd rfl h⟩
  · exact sampleJpeg_block _ _ (by simp) (by decide)
  · intro b' hb'
    cases hb'
    exact Or.inl (by decide)
  · exact sampleJpeg_block _ _ (by simp) (by decide)
  · intro b' hb'
    cases hb'
    exact Or.inl (by decide)
  · exact sampleJpeg_block _ _ (by simp) (by decide)
  · intro b' hb'
    cases hb'

/-- The sample with restart interval 2. -/
theorem sampleJpeg_restart : (sampleJpeg 2 fun l => [l.take 2, l.drop 2]).Valid := by
  refine sampleJpeg_valid (by decide) (by simp) ⟨by simp, ⟨?_, ?_, ?_, ?_, trivial⟩, rfl, ?_, by simp, ⟨?_, ?_, trivial⟩,
    fun _ => by show 1 ≤ 2; decide⟩
  · exact sampleJpeg_block _ _ (by simp) (by decide)
  · intro b' hb'
    cases hb'
    exact Or.inl (by decide)
  · exact sampleJpeg_block _ _ (by simp) (by decide)
  · intro b' hb'
    cases hb'
  · intro b hb
    cases hb
    decide
  · exact sampleJpeg_block _ _ (by simp) (by decide)
  · intro b' hb'
    cases hb'

/-- The two files differ, and both decode to the samples of the three data units. -/
example : (sampleJpeg 0 fun l => [l]).bytes ≠ (sampleJpeg 2 fun l => [l.take 2, l.drop 2]).bytes ∧
    ((Decoder.new ⟨false, false⟩).decodeBuffer (sampleJpeg 2 fun l => [l.take 2, l.drop 2]).bytes).1 =
      ((Decoder.new ⟨false, false⟩).decodeBuffer (sampleJpeg 0 fun l => [l]).bytes).1 :=
  ⟨by decide +kernel, c22_gray_partial sampleJpeg_whole sampleJpeg_restart rfl rfl rfl rfl _ _
    (by decide) (by decide)⟩

end Zune
