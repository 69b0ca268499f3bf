import Verif.Lemmas.Blind
import Verif.Props.GrayFactors
import Verif.Props.Colour
import Verif.Lemmas.ProgColourFile
/-!
# Baseline images with several scans

C68.
-/

namespace Zune
open Spec

/-- What the standard and the decoder ask of a scan header. -/
structure Spec.CScan.Named (s : CScan) : Prop where
  some : s.comps ≠ []
  nodup : s.comps.Nodup
  dest : ∀ i ∈ s.comps, i < 3 ∧ s.dcDest i < 4 ∧ s.acDest i < 4
  ss : s.ss < 64
  se : s.se < 64
  ah : s.ah ≤ 13
  al : s.al ≤ 13

/-- The Huffman tables of component `i`; those of components that the scan has not are 0. -/
def Spec.CScan.dests (s : CScan) (i : Nat) : Nat × Nat :=
  if i ∈ s.comps then (s.dcDest i, s.acDest i) else (0, 0)

/-- A baseline file with three components: segments, frame header, segments, scan header and data. -/
def Spec.threeFile (A B : List Segment) (w h : Nat) (c0 c1 c2 : CompSpec) (s : CScan)
    (data : List UInt8) : List UInt8 :=
  0xFF :: 0xD8 :: ((A ++ ⟨0xC0, framePayload w h [c0, c1, c2]⟩ :: B).flatMap Segment.bytes ++
    0xFF :: 0xDA :: (s.header ++ data))

/-- The components of an accepted frame header. -/
theorem sof_three {w h : Nat} {c0 c1 c2 : CompSpec} (fits : FrameFits w h [c0, c1, c2])
    {d d1 : Decoder} (hs : SegOk 0xC0 (framePayload w h [c0, c1, c2]) d d1) :
    ∃ b0 b1 b2 : Component, d1.components = [b0, b1, b2] ∧ d1.info.components = 3 ∧
      b0.id = c0.id ∧ b1.id = c1.id ∧ b2.id = c2.id ∧
      (∀ b ∈ [b0, b1, b2], b.dcHuffTable = 0 ∧ b.acHuffTable = 0) ∧ d1.zOrder = d.zOrder := by
  obtain ⟨hw, hh, -, hc⟩ := fits
  have e := segStep_effect hs
  obtain ⟨x, y, h1, h2, w1, w2, n, fs, cs', G⟩ : ∃ x y h1 h2 w1 w2 n fs cs',
    SofOk .baselineDct d (lenBytes (framePayload w h [c0, c1, c2]).length ++
      framePayload w h [c0, c1, c2]) d1 [] x y h1 h2 w1 w2 n fs cs' := e
  have hb := G.bytes
  simp only [framePayload, twoBytes, lenBytes, List.cons_append, List.nil_append,
    List.cons.injEq] at hb
  obtain ⟨-, -, -, rfl, rfl, rfl, rfl, rfl, hb⟩ := hb
  have hF := flatMap_bytes_inj [c0, c1, c2] cs' [] [] (by rw [G.count]; rfl) (by simpa using hb)
  have hl : cs'.length = 3 := hF.length_eq.symm
  obtain ⟨b0, b1, b2, rfl⟩ : ∃ b0 b1 b2, cs' = [b0, b1, b2] := by
    match cs', hl with
    | [a, b, c], _ => exact ⟨a, b, c, rfl⟩
  rw [List.forall₂_cons, List.forall₂_cons, List.forall₂_cons] at hF
  obtain ⟨f0, f1, f2, -⟩ := hF
  have i0 := (compBytes_inj (hc c0 (by simp)) (G.componentsOk b0 (by simp)) f0).1
  have i1 := (compBytes_inj (hc c1 (by simp)) (G.componentsOk b1 (by simp)) f1).1
  have i2 := (compBytes_inj (hc c2 (by simp)) (G.componentsOk b2 (by simp)) f2).1
  refine ⟨b0, b1, b2, by rw [G.dec]; rfl, by rw [G.dec]; rfl, i0.symm, i1.symm, i2.symm, ?_,
    by rw [G.dec]; rfl⟩
  intro b hb
  obtain ⟨f, hf, hbf, -⟩ := G.setup.mem (c' := b) hb
  obtain ⟨-, -, f2, f3, -, -⟩ := G.fresh f hf
  exact ⟨by rw [hbf]; exact f2, by rw [hbf]; exact f3⟩

theorem pickTables_dests {s s' : CScan} {i : Nat} (hi : s.dests i = s'.dests i) {b : Component}
    (hb : b.dcHuffTable = 0 ∧ b.acHuffTable = 0) :
    pickTables s.comps s.dcDest s.acDest i b = pickTables s'.comps s'.dcDest s'.acDest i b := by
  have e : ∀ t : CScan, pickTables t.comps t.dcDest t.acDest i b =
      { b with dcHuffTable := (t.dests i).1, acHuffTable := (t.dests i).2 } := by
    intro t
    unfold pickTables CScan.dests
    split
    · rfl
    · rw [hb.1, hb.2]
  rw [e, e, hi]

theorem scan_header_ok (cpu : Cpu) (o : Options) {A B : List Segment} (hA : ∀ s ∈ A, Segment.Plain s)
    (hB : ∀ s ∈ B, Segment.Plain s) {w h : Nat} {c0 c1 c2 : CompSpec} (fits : FrameFits w h [c0, c1, c2])
    (hid : c0.id = 1 ∧ c1.id = 2 ∧ c2.id = 3) {s s' : CScan} (V : s.Named) (V' : s'.Named)
    (same : ∀ i, i < 3 → s.dests i = s'.dests i) (data : List UInt8) {r : Out (List UInt8)}
    (hr : ∀ e, r ≠ .err e)
    (hok : ((Decoder.newWithOptions cpu o).decodeBuffer (threeFile A B w h c0 c1 c2 s data)).1 = r) :
    ((Decoder.newWithOptions cpu o).decodeBuffer (threeFile A B w h c0 c1 c2 s' data)).1 = r := by
  rcases file_start cpu o hA hB (m := 0xC0) (rest := s.header ++ data)
    (file := threeFile A B w h c0 c1 c2 s data) (Or.inl rfl) fits (Nat.le_refl 2) hid.1
    (by
      intro x hx
      simp only [List.mem_cons, List.not_mem_nil, or_false] at hx
      rcases hx with rfl | rfl
      · rw [hid.2.1]; decide
      · rw [hid.2.2]; decide) rfl with
    ⟨e, he, -⟩ | ⟨d, rd, hd, -, -, -, -, -, -, -, -, hp, -, -, hdi⟩
  · rw [he] at hok
    exact absurd hok.symm (hr e)
  have hsegs := header_segments hA hB (m := 0xC0) (Or.inl rfl) (w := w) (h := h) (c := c0) (cs := [c1, c2])
    (Nat.le_refl 2)
  have hhead : ∀ s ∈ A ++ (⟨0xC0, framePayload w h [c0, c1, c2]⟩ : Segment) :: B, s.Header :=
    fun s hs => (hsegs s hs).1
  unfold threeFile at hd
  rw [decodeHeaders_segments hhead] at hd
  obtain ⟨d3, hs3, hl⟩ := hd
  obtain ⟨d1, s1, d2, s2, s3⟩ := SegsOk.append.1 hs3
  have t1 := tablesOnly_segs hA s1
  have t3 := tablesOnly_segs hB s3
  obtain ⟨b0, b1, b2, e1, e2, i0, i1, i2, ht, hz⟩ := sof_three fits s2
  have hc3 : d3.components = [b0, b1, b2] := by rw [t3.dec]; exact e1
  have hn3 : d3.info.components = 3 := by rw [t3.dec]; exact e2
  have hz3 : 3 ≤ d3.zOrder.length := by
    have : d3.zOrder = [0, 0, 0, 0] := by
      rw [t3.dec]
      show d2.zOrder = _
      rw [hz, t1.dec]
      rfl
    rw [this]
    decide
  obtain ⟨z, p1, -, -⟩ := sos_list d3 hc3 (i0.trans hid.1) (i1.trans hid.2.1) (i2.trans hid.2.2) hn3 hz3
    V.some V.nodup V.dest V.ss V.se V.ah V.al data
  obtain ⟨z', p1', -, -⟩ := sos_list d3 hc3 (i0.trans hid.1) (i1.trans hid.2.1) (i2.trans hid.2.2) hn3 hz3
    V'.some V'.nodup V'.dest V'.ss V'.se V'.ah V'.al data
  have hsos := HL.sos_inv hl
  rw [p1] at hsos
  simp only [Prod.mk.injEq, H.mk.injEq, true_and] at hsos
  obtain ⟨hd, rfl⟩ := hsos
  rw [← pickTables_dests (same 0 (by omega)) (ht b0 (by simp)),
    ← pickTables_dests (same 1 (by omega)) (ht b1 (by simp)),
    ← pickTables_dests (same 2 (by omega)) (ht b2 (by simp))] at p1'
  obtain ⟨d', hd'⟩ : ∃ d', ScanHead.dec ⟨s'.comps.length, z', s'.ss, s'.se, s'.ah, s'.al⟩ d = d' := ⟨_, rfl⟩
  have p2 : parseSos ⟨d3, s'.header ++ data⟩ = (.ok (), ⟨d', data⟩) := by
    rw [p1', ← hd', ← hd]
  have hd2 : decodeHeaders ⟨Decoder.newWithOptions cpu o, threeFile A B w h c0 c1 c2 s' data⟩ =
      (.ok (), ⟨d', data⟩) :=
    (decodeHeaders_segments hhead).2 ⟨d3, hs3, HL.sos (by decide) (by split <;> decide) p2⟩
  have hp' : d'.isProgressive = false := by
    rw [← hd']
    exact hp
  have hp0 : d.isProgressive = false := hp
  rw [hdi, if_neg (by rw [hp0]; decide)] at hok
  have hdb : ((Decoder.newWithOptions cpu o).decodeBuffer (threeFile A B w h c0 c1 c2 s' data)).1 =
    (decodeInternal ⟨Decoder.newWithOptions cpu o, threeFile A B w h c0 c1 c2 s' data⟩).1 := rfl
  rw [hdb]
  unfold decodeInternal
  rw [M.bind_ok hd2, M.bind_ok (getDec_apply _ _), if_neg (by rw [hp']; decide), ← hd', ← hok]
  exact decodeBaseline_sh _ _ _

/-- **C68 is false of every baseline image.** What the scan header says about the components of the scan,
the band and the bits is not looked at: two files that differ in nothing but these, but for the tables of
the components, give the same image. So a scan of one component is decoded as if it had all three. -/
theorem c68_ignored_false (cpu : Cpu) (o : Options) {A B : List Segment} (hA : ∀ s ∈ A, Segment.Plain s)
    (hB : ∀ s ∈ B, Segment.Plain s) {w h : Nat} {c0 c1 c2 : CompSpec} (fits : FrameFits w h [c0, c1, c2])
    (hid : c0.id = 1 ∧ c1.id = 2 ∧ c2.id = 3) {s s' : CScan} (V : s.Named) (V' : s'.Named)
    (same : ∀ i, i < 3 → s.dests i = s'.dests i) (data : List UInt8) {r : Out (List UInt8)}
    (hr : ∀ e, r ≠ .err e) :
    ((Decoder.newWithOptions cpu o).decodeBuffer (threeFile A B w h c0 c1 c2 s data)).1 = r ↔
    ((Decoder.newWithOptions cpu o).decodeBuffer (threeFile A B w h c0 c1 c2 s' data)).1 = r :=
  ⟨scan_header_ok cpu o hA hB fits hid V V' same data hr,
    scan_header_ok cpu o hA hB fits hid V' V (fun i hi => (same i hi).symm) data hr⟩

namespace Spec.ColourJpeg

/-- The blocks of component `i` row by row (T.81 A.2.2 and A.2.3). -/
def ownBlocksOf (g : ColourJpeg) (i : Nat) : List (List Int) :=
  let fh := if i = 0 then g.fh else 1
  let fv := if i = 0 then g.fv else 1
  raster (ownRows g.height g.fv i) (ownCols g.width g.fh i) fun y x =>
    g.blocks (y / fv * mcuCols g.width g.fh + x / fh) i (y % fv) (x % fh)

/-- A scan with component `i` alone. -/
def ownScan (g : ColourJpeg) (i : Nat) : List UInt8 :=
  [0xFF, 0xDA, 0, 8, 1, UInt8.ofNat (i + 1), if i = 0 then 0x00 else 0x11, 0, 63, 0] ++
  intervalBytes (g.dcWord i) (g.acWord i) (g.ownBlocksOf i)

/-- The image with a scan for each component instead of a scan with all of them. -/
def separate (g : ColourJpeg) : List UInt8 :=
  [0xFF, 0xD8] ++ g.segments.flatMap Segment.bytes ++ g.ownScan 0 ++ g.ownScan 1 ++ g.ownScan 2 ++
  [0xFF, 0xD9] ++ g.trailer

end Spec.ColourJpeg

/-- An image of two MCUs. -/
def twoMcus : ColourJpeg := sampleColour 1 1 16 8 fun _ i _ _ =>
  if i = 1 then 0 :: 1 :: List.replicate 62 0 else 1 :: List.replicate 63 0

theorem twoMcus_valid : twoMcus.Valid := by
  refine sampleColour_valid (by decide) (by decide) (by decide) (by decide) (by decide) fun _ i _ _ => ?_
  split <;> simp [goodBlocks]

/-- **C68 is false of the code.** An image is decoded when its components are in one scan, and refused
when each has its own. (The SSE converter panics on many widths: `c38_sse_file`.) -/
theorem c68_false : ∃ g : ColourJpeg, g.Valid ∧ g.restart = 0 ∧ ∀ cpu : Cpu,
    (cpu.sse41 = true → cpu.avx2 = true) → ∃ img e,
    ((Decoder.new cpu).decodeBuffer g.bytes).1 = .ok img ∧
    ((Decoder.new cpu).decodeBuffer g.separate).1 = .err e := by
  refine ⟨twoMcus, twoMcus_valid, rfl, fun cpu hc => ?_⟩
  have h : ∀ x y, (x = true → y = true) → ((Decoder.new ⟨x, y⟩).decodeBuffer twoMcus.bytes).1.isOk = true ∧
      ((Decoder.new ⟨x, y⟩).decodeBuffer twoMcus.separate).1 = .err .huffmanDecode := by decide +kernel
  obtain ⟨x, y⟩ := cpu
  obtain ⟨h1, h2⟩ := h x y hc
  cases ho : ((Decoder.new ⟨x, y⟩).decodeBuffer twoMcus.bytes).1 with
  | ok a => exact ⟨a, _, rfl, h2⟩
  | err e => rw [ho] at h1; exact absurd h1 Bool.false_ne_true
  | panic e => rw [ho] at h1; exact absurd h1 Bool.false_ne_true
  | diverge => rw [ho] at h1; exact absurd h1 Bool.false_ne_true

/-- Scan headers for the first component and for all three, with the same tables. -/
def lumaScan : CScan := ⟨[], [0], fun _ => 0, fun _ => 0, 0, 63, 0, 0, fun _ _ => [], []⟩
@[inherit_doc lumaScan]
def allScan : CScan := ⟨[], [0, 1, 2], fun _ => 0, fun _ => 0, 5, 9, 1, 2, fun _ _ => [], []⟩

/-- A case of the theorem: once the header has one component, once all of them. -/
example (cpu : Cpu) {r : Out (List UInt8)} (hr : ∀ e, r ≠ .err e) :
    ((Decoder.newWithOptions cpu {}).decodeBuffer (threeFile factorA factorB 16 8 ⟨1, 1, 1, 0⟩ ⟨2, 1, 1, 0⟩
      ⟨3, 1, 1, 0⟩ lumaScan [0xA0, 0x09, 0x00, 0x00, 0xFF, 0xD9])).1 = r ↔
    ((Decoder.newWithOptions cpu {}).decodeBuffer (threeFile factorA factorB 16 8 ⟨1, 1, 1, 0⟩ ⟨2, 1, 1, 0⟩
      ⟨3, 1, 1, 0⟩ allScan [0xA0, 0x09, 0x00, 0x00, 0xFF, 0xD9])).1 = r := by
  refine c68_ignored_false cpu {} (fun s hs => ?_) (fun s hs => ?_)
    ⟨by decide, by decide, by decide, by decide⟩ ⟨rfl, rfl, rfl⟩
    ⟨by decide, by decide, by decide, by decide, by decide, by decide, by decide⟩
    ⟨by decide, by decide, by decide, by decide, by decide, by decide, by decide⟩
    (by decide) _ hr
  · unfold factorA at hs
    rw [List.mem_singleton] at hs
    subst hs
    exact ⟨⟨by decide, by decide, by decide⟩, fun n h => (by cases h)⟩
  · unfold factorB at hs
    simp only [List.mem_cons, List.not_mem_nil, or_false] at hs
    rcases hs with rfl | rfl
    · exact ⟨⟨by decide, by decide, by decide⟩, fun n h => (by cases h)⟩
    · exact ⟨⟨by decide, by decide, by decide⟩, fun n h => (by cases h)⟩

/-- Both are decoded. -/
example : ∀ x y, (x = true → y = true) → ((Decoder.newWithOptions ⟨x, y⟩ {}).decodeBuffer (threeFile factorA factorB 16 8 ⟨1, 1, 1, 0⟩
      ⟨2, 1, 1, 0⟩ ⟨3, 1, 1, 0⟩ lumaScan [0xA0, 0x09, 0x00, 0x00, 0xFF, 0xD9])).1.isOk = true := by
  decide +kernel

end Zune
