import Verif.Props.ProgColour
/-!
# Segments between the scans of a progressive image

C67.
-/

namespace Zune
open Spec

/-- The markers of the segments, other than `DHT`, that may stand between two scans (T.81 B.2.4) and
that the decoder knows: `DQT`, `DRI`, `APP0`, `APP1`, `APP14` and `COM`. -/
def Spec.MiscMarker (m : UInt8) : Prop := m ∈ [(0xDB : UInt8), 0xDD, 0xE0, 0xE1, 0xEE, 0xFE]

instance (m : UInt8) : Decidable (MiscMarker m) := by unfold MiscMarker; infer_instance

theorem Spec.MiscMarker.stops {s : Segment} (h : MiscMarker s.marker) (rest : List UInt8) :
    Stops (s.bytes ++ rest) := by
  have key : ∀ m, MiscMarker m → ∃ mk, Marker.fromU8 m = some mk ∧ mk ≠ .dht ∧ mk ≠ .sos := by
    intro m hm
    unfold MiscMarker at hm
    simp only [List.mem_cons, List.not_mem_nil, or_false] at hm
    rcases hm with rfl | rfl | rfl | rfl | rfl | rfl
    · exact ⟨.dqt, by decide, by decide, by decide⟩
    · exact ⟨.dri, by decide, by decide, by decide⟩
    · exact ⟨.app 0, by decide, by decide, by decide⟩
    · exact ⟨.app 1, by decide, by decide, by decide⟩
    · exact ⟨.app 14, by decide, by decide, by decide⟩
    · exact ⟨.com, by decide, by decide, by decide⟩
  obtain ⟨mk, h1, h2, h3⟩ := key _ h
  exact ⟨s.marker, _, mk, by rw [Segment.bytes]; rfl, h1, h2, h3⟩

/-- **C67 is false of every progressive grayscale image.** A segment between two scans ends the image: the
decoder returns the image of the scans before it, as if the file ended there, whatever scans follow. -/
theorem c67_gray_false {g : ProgJpeg} {lev : Nat → Option Nat} (V : g.Valid lev) (L : g.Fits)
    {s : Segment} (hs : MiscMarker s.marker) (later : List ProgScan) (trailer : List UInt8)
    (cpu : Cpu) (o : Options) (hw : g.width ≤ o.getMaxWidth) (hh : g.height ≤ o.getMaxHeight)
    (hx : 1 + g.rest.length ≤ o.getMaxScans) :
    ((Decoder.newWithOptions cpu o).decodeBuffer
        (g.bytesTo (s.bytes ++ scansBytes (0xFF :: 0xD9 :: trailer) later))).1 =
      ((Decoder.newWithOptions cpu o).decodeBuffer g.bytes).1 := by
  rw [c58_gray_partial V L cpu o hw hh hx]
  exact gray_scans (hs.stops _) V L cpu o hw hh hx

/-- **C67 is false of every progressive colour image**, here for YCbCr output. -/
theorem c67_colour_false {g : ProgColourJpeg} {lev : Nat → Nat → Option Nat} (V : g.Valid lev) (L : g.Fits)
    {s : Segment} (hs : MiscMarker s.marker) (later : List CScan) (trailer : List UInt8)
    (cpu : Cpu) (o : Options) (hw : g.width ≤ o.getMaxWidth) (hh : g.height ≤ o.getMaxHeight)
    (hx : 1 + g.rest.length ≤ o.getMaxScans) (hout : o.getOutColorspace = .ycbcr) :
    ((Decoder.newWithOptions cpu o).decodeBuffer
        (g.bytesTo (s.bytes ++ cscansBytes (0xFF :: 0xD9 :: trailer) later))).1 =
      ((Decoder.newWithOptions cpu o).decodeBuffer g.bytes).1 := by
  obtain ⟨d, c0, c1, c2, m, full, R, hq, K, hj, hm⟩ :=
    progColour_jobsTo (hs.stops (cscansBytes (0xFF :: 0xD9 :: trailer) later)) V L cpu o hw hh hx hout
  obtain ⟨d', e0, e1, e2, m', full', R', hq', K', hj', hm'⟩ := progColour_jobs V L cpu o hw hh hx hout
  exact ycbcr_unique R R' K K' hout hq hq'
    (fun i r k hi hr hk => (hm i r k hi hr hk).trans (hm' i r k hi hr hk).symm) hj hj'

/-- The sample image of C58 up to its first scan. -/
def cutProg : ProgJpeg := { sampleProg with rest := [] }

theorem cutProg_valid : ∃ lev, cutProg.Valid lev := by
  obtain ⟨lev, V, -⟩ := sampleProg_valid
  exact ⟨_, V.w0, V.h0, V.wLe, V.hLe, V.quant, V.quantDest, V.blocks, V.count, ⟨V.script.1, rfl⟩, V.dc⟩

theorem cutProg_fits : cutProg.Fits := ⟨sampleProg_fits.late, by decide⟩

/-- The comment `hi`. -/
def hiComment : Segment := ⟨0xFE, [0x68, 0x69]⟩

/-- The sample image with a comment after its first scan. -/
def commentProg : List UInt8 :=
  cutProg.bytesTo (hiComment.bytes ++ scansBytes (0xFF :: 0xD9 :: sampleProg.trailer) sampleProg.rest)

/-- It is the sample image but for the comment. -/
example : sampleProg.bytes =
    cutProg.bytesTo (scansBytes (0xFF :: 0xD9 :: sampleProg.trailer) sampleProg.rest) := by decide +kernel

/-- **C67 is false.** A comment between the scans changes the image, and no error is reported. -/
theorem c67_false : ∃ (g : ProgJpeg) (lev : Nat → Option Nat) (s : Segment) (later : List ProgScan),
    g.Valid lev ∧ MiscMarker s.marker ∧ ∀ cpu, ∃ a b, a ≠ b ∧
      ((Decoder.new cpu).decodeBuffer
        (g.bytesTo (scansBytes (0xFF :: 0xD9 :: g.trailer) later))).1 = .ok a ∧
      ((Decoder.new cpu).decodeBuffer
        (g.bytesTo (s.bytes ++ scansBytes (0xFF :: 0xD9 :: g.trailer) later))).1 = .ok b := by
  obtain ⟨lev, V⟩ := cutProg_valid
  refine ⟨cutProg, lev, hiComment, sampleProg.rest, V, by decide, fun cpu => ?_⟩
  have h : ∀ x y, ((Decoder.new ⟨x, y⟩).decodeBuffer
        (cutProg.bytesTo (scansBytes (0xFF :: 0xD9 :: cutProg.trailer) sampleProg.rest))).1.isOk = true ∧
      ((Decoder.new ⟨x, y⟩).decodeBuffer (cutProg.bytesTo (hiComment.bytes ++
        scansBytes (0xFF :: 0xD9 :: cutProg.trailer) sampleProg.rest))).1.isOk = true ∧
      ((Decoder.new ⟨x, y⟩).decodeBuffer
        (cutProg.bytesTo (scansBytes (0xFF :: 0xD9 :: cutProg.trailer) sampleProg.rest))).1 ≠
      ((Decoder.new ⟨x, y⟩).decodeBuffer (cutProg.bytesTo (hiComment.bytes ++
        scansBytes (0xFF :: 0xD9 :: cutProg.trailer) sampleProg.rest))).1 := by decide +kernel
  obtain ⟨h1, h2, h3⟩ := h cpu.1 cpu.2
  have ok : ∀ {r : Out (List UInt8)}, r.isOk = true → ∃ a, r = .ok a := by
    intro r hr
    cases r with
    | ok a => exact ⟨a, rfl⟩
    | _ => cases hr
  obtain ⟨a, ha⟩ := ok h1
  obtain ⟨b, hb⟩ := ok h2
  rw [ha, hb] at h3
  exact ⟨a, b, fun e => h3 (by rw [e]), ha, hb⟩

/-- `c67_gray_false` applies to the sample. -/
example (cpu : Cpu) : ((Decoder.new cpu).decodeBuffer commentProg).1 =
    ((Decoder.new cpu).decodeBuffer cutProg.bytes).1 := by
  obtain ⟨lev, V⟩ := cutProg_valid
  exact c67_gray_false V cutProg_fits (s := hiComment) (by decide) sampleProg.rest _ cpu {}
    (show 8 ≤ _ by decide) (show 20 ≤ _ by decide) (show 1 ≤ _ by decide)

end Zune
