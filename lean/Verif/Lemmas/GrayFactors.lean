import Verif.Lemmas.Lock
import Verif.Props.NoPanic
/-! The sampling factors of a single component and the baseline decoder. -/

namespace Zune
open M (wp wp_bind wp_mono)
open Spec

/-! ### Headers -/

/-- Other sampling factors in a frame with one component. -/
def factorMould (h v hs vs ws mw mh mx my : Nat) (i : Bool) : Mould where
  hMax := fun _ => h
  vMax := fun _ => v
  mcuWidth := mw
  mcuHeight := mh
  mcuX := mx
  mcuY := my
  interleaved := i
  comp := fun c => { c with horizontalSample := hs, verticalSample := vs, widthStride := ws }
  comp_id := fun _ => rfl
  comp_tables := fun _ _ _ => rfl

/-- The shapes that come from other factors. -/
def FactorMould (g : Mould) : Prop := ∃ h v hs vs ws mw mh mx my i,
  g = factorMould h v hs vs ws mw mh mx my i

theorem segOk_shape (g : Mould) {s : Segment} (hs : Segment.Plain s) {d d' : Decoder}
    (h : SegOk s.marker s.payload d d') : SegOk s.marker s.payload (g.dec d) (g.dec d') := by
  have L : Lock (mouldH g) (segStep s.marker) (segStep s.marker) := by
    unfold segStep
    cases hm : Marker.fromU8 s.marker with
    | none => exact Lock.skipSegment
    | some m =>
      exact Lock.shape m (fun e => hs.frame 0 (by rw [hm, e])) (fun e => hs.frame 2 (by rw [hm, e]))
  unfold SegOk at *
  obtain ⟨_, e⟩ := L () ⟨d, lenBytes s.payload.length ++ s.payload⟩
  rw [h] at e
  exact e

theorem segsOk_shape (g : Mould) : ∀ {l : List Segment}, (∀ s ∈ l, Segment.Plain s) →
    ∀ {d d' : Decoder}, SegsOk l d d' → SegsOk l (g.dec d) (g.dec d')
  | [], _, _, _, h => by rw [SegsOk] at *; rw [h]
  | s :: l, hs, _, _, ⟨d1, h1, h2⟩ =>
    ⟨g.dec d1, segOk_shape g (hs s (by simp)) h1, segsOk_shape g (fun s h => hs s (by simp [h])) h2⟩

theorem parseSos_shape (g : Mould) {d d' : Decoder} {rd rd' : List UInt8}
    (h : parseSos ⟨d, rd⟩ = (.ok (), ⟨d', rd'⟩)) :
    parseSos ⟨g.dec d, rd⟩ = (.ok (), ⟨g.dec d', rd'⟩) := by
  obtain ⟨_, e⟩ := (Lock.parseSos (g := g)) () ⟨d, rd⟩
  rw [h] at e
  exact e

theorem component_eta {a b : Component} (h1 : a.componentId = b.componentId)
    (h2 : a.dcHuffTable = b.dcHuffTable) (h3 : a.acHuffTable = b.acHuffTable)
    (h4 : a.quantTableNumber = b.quantTableNumber) (h5 : a.quantTable = b.quantTable)
    (h6 : a.dcPred = b.dcPred) (h7 : a.upSampler = b.upSampler) (h8 : a.id = b.id) :
    a = { b with horizontalSample := a.horizontalSample, verticalSample := a.verticalSample,
                 widthStride := a.widthStride } := by
  cases a
  cases b
  simp_all

/-- What is known of the component of an accepted frame header. -/
theorem sof_component {w h : Nat} {c : CompSpec} (fits : FrameFits w h [c]) (hid : c.id = 1)
    {d d1 : Decoder} (hs : SegOk 0xC0 (framePayload w h [c]) d d1) :
    ∃ b : Component, d1 = sofDecoder d .baselineDct (UInt16.ofNat h) (UInt16.ofNat w) 1 [b] ∧
      b.componentId = .y ∧ b.dcHuffTable = 0 ∧ b.acHuffTable = 0 ∧ b.quantTableNumber = c.tq ∧
      d.qtTables[c.tq]? = some (some b.quantTable) ∧ b.dcPred = 0 ∧ b.upSampler = .noOp ∧ b.id = 1 := by
  obtain ⟨hw, hh, -, hc⟩ := fits
  have e := segStep_effect hs
  obtain ⟨x, y, h1, h2, w1, w2, n, fs, cs', G⟩ : ∃ x y h1 h2 w1 w2 n fs cs',
    SofOk .baselineDct d (lenBytes (framePayload w h [c]).length ++ framePayload w h [c]) d1 []
      x y h1 h2 w1 w2 n fs cs' := e
  have hb := G.bytes
  simp only [framePayload, twoBytes, lenBytes, List.cons_append, List.nil_append,
    List.cons.injEq] at hb
  obtain ⟨-, -, -, rfl, rfl, rfl, rfl, rfl, hb⟩ := hb
  have hF := flatMap_bytes_inj [c] cs' [] [] (by rw [G.count]; rfl) (by simpa using hb)
  cases hF with
  | @cons _ b _ bs hb0 hbs =>
  cases hbs
  obtain ⟨i1, -, -, i4⟩ := compBytes_inj (hc c (by simp)) (G.componentsOk b (by simp)) hb0
  obtain ⟨f, hf, hbf, hq⟩ := G.setup.mem (c' := b) (by simp)
  obtain ⟨-, -, f2, f3, f4, f5⟩ := G.fresh f hf
  have ew : be16 (UInt8.ofNat (w / 256)) (UInt8.ofNat (w % 256)) = UInt16.ofNat w := by
    apply UInt16.toNat_inj.1
    rw [be16_twoBytes hw, UInt16.toNat_ofNat', Nat.mod_eq_of_lt hw]
  have eh : be16 (UInt8.ofNat (h / 256)) (UInt8.ofNat (h % 256)) = UInt16.ofNat h := by
    apply UInt16.toNat_inj.1
    rw [be16_twoBytes hh, UInt16.toNat_ofNat', Nat.mod_eq_of_lt hh]
  have hd := G.dec
  rw [ew, eh] at hd
  refine ⟨b, hd, ?_, by rw [hbf]; exact f2, by rw [hbf]; exact f3, i4.symm, by rw [i4]; exact hq,
    by rw [hbf]; exact f4, by rw [hbf]; exact f5, by rw [← i1, hid]⟩
  rcases (G.componentsOk b (by simp)).id with h | h | h
  · exact h.2
  · rw [← i1, hid] at h; exact absurd h.1 (by decide)
  · rw [← i1, hid] at h; exact absurd h.1 (by decide)

theorem sof_shape {w h : Nat} {c c' : CompSpec} (fits : FrameFits w h [c]) (fits' : FrameFits w h [c'])
    (hid : c.id = 1) (hid' : c'.id = 1) (htq : c'.tq = c.tq)
    (hh : c'.h = 1 ∨ c'.h = 2) (hv : c'.v = 1 ∨ c'.v = 2)
    {d d1 : Decoder} (hs : SegOk 0xC0 (framePayload w h [c]) d d1) :
    ∃ g, FactorMould g ∧ SegOk 0xC0 (framePayload w h [c']) d (g.dec d1) := by
  have acc : ∀ {c : CompSpec}, FrameFits w h [c] →
      ((∃ d1, SegOk 0xC0 (framePayload w h [c]) d d1) ↔ FrameLegal d w h [c]) := by
    intro c fits
    rw [← c52_accepted_iff .baselineDct d fits []]
    have hl : (framePayload w h [c]).length + 2 < 65536 := by
      show 9 + 2 < 65536
      decide
    constructor
    · rintro ⟨d1, h⟩
      exact ⟨_, (segOk_iff (m := 0xC0) hl).2 ⟨rfl, h⟩⟩
    · rintro ⟨⟨d1, rd⟩, h⟩
      exact ⟨d1, ((segOk_iff (m := 0xC0) hl).1 h).2⟩
  have legal := (acc fits).1 ⟨d1, hs⟩
  have legal' : FrameLegal d w h [c'] := by
    refine ⟨legal.width, legal.height, by simp, fun x hx => ?_⟩
    rw [List.mem_singleton] at hx
    subst hx
    obtain ⟨-, -, -, qt, h1, h2⟩ := legal.comps c (by simp)
    rw [← htq] at h1 h2
    refine ⟨Or.inl hid', by omega, by omega, qt, h1, h2⟩
  obtain ⟨d2, hs'⟩ := (acc fits').2 legal'
  obtain ⟨b, rfl, b1, b2, b3, b4, b5, b6, b7, b8⟩ := sof_component fits hid hs
  obtain ⟨b', rfl, b1', b2', b3', b4', b5', b6', b7', b8'⟩ := sof_component fits' hid' hs'
  have hb' := component_eta (a := b') (b := b) (by rw [b1, b1']) (by rw [b2, b2']) (by rw [b3, b3'])
    (by rw [b4, b4', htq]) (by
      rw [htq, b5] at b5'
      simpa using b5'.symm) (by rw [b6, b6']) (by rw [b7, b7']) (by rw [b8, b8'])
  refine ⟨factorMould (maxH d.hMax [b']) (maxV d.vMax [b']) b'.horizontalSample b'.verticalSample
    b'.widthStride (maxH d.hMax [b'] * 8) (maxV d.vMax [b'] * 8)
    (((UInt16.ofNat w).toNat + maxH d.hMax [b'] * 8 - 1) / (maxH d.hMax [b'] * 8))
    (((UInt16.ofNat h).toNat + maxV d.vMax [b'] * 8 - 1) / (maxV d.vMax [b'] * 8))
    (if maxH d.hMax [b'] ≠ 1 ∨ maxV d.vMax [b'] ≠ 1 then true else d.interleaved),
    ⟨_, _, _, _, _, _, _, _, _, _, rfl⟩, ?_⟩
  · convert hs' using 1
    unfold sofDecoder frameDims sofStart Mould.dec factorMould
    dsimp only
    simp only [List.map_cons, List.map_nil]
    rw [← hb']

/-- The headers of two files that differ in the factors only. -/
theorem headers_shape (cpu : Cpu) (o : Options) {A B : List Segment} (hA : ∀ s ∈ A, Segment.Plain s)
    (hB : ∀ s ∈ B, Segment.Plain s) {w h : Nat} {c c' : CompSpec} (fits : FrameFits w h [c])
    (fits' : FrameFits w h [c']) (hid : c.id = 1) (hid' : c'.id = 1) (htq : c'.tq = c.tq)
    (hh : c'.h = 1 ∨ c'.h = 2) (hv : c'.v = 1 ∨ c'.v = 2) {rest : List UInt8} {d : Decoder}
    {rd : List UInt8}
    (hok : decodeHeaders ⟨Decoder.newWithOptions cpu o, 0xFF :: 0xD8 ::
      ((A ++ ⟨0xC0, framePayload w h [c]⟩ :: B).flatMap Segment.bytes ++ 0xFF :: 0xDA :: rest)⟩ =
      (.ok (), ⟨d, rd⟩)) :
    ∃ g, FactorMould g ∧ decodeHeaders ⟨Decoder.newWithOptions cpu o, 0xFF :: 0xD8 ::
      ((A ++ ⟨0xC0, framePayload w h [c']⟩ :: B).flatMap Segment.bytes ++ 0xFF :: 0xDA :: rest)⟩ =
      (.ok (), ⟨g.dec d, rd⟩) := by
  have head : ∀ c : CompSpec, ∀ s ∈ A ++ (⟨0xC0, framePayload w h [c]⟩ : Segment) :: B, s.Header := by
    intro c s hs
    simp only [List.mem_append, List.mem_cons] at hs
    rcases hs with hs | rfl | hs
    · exact (hA s hs).header
    · exact ⟨(by show 9 + 2 < 65536; decide), (by dsimp only; decide), (by dsimp only; decide)⟩
    · exact (hB s hs).header
  rw [decodeHeaders_segments (head c)] at hok
  obtain ⟨d3, hsegs, hl⟩ := hok
  obtain ⟨d1, s1, d2, s2, s3⟩ := SegsOk.append.1 hsegs
  obtain ⟨g, hg, s2'⟩ := sof_shape fits fits' hid hid' htq hh hv s2
  refine ⟨g, hg, (decodeHeaders_segments (head c')).2 ⟨g.dec d3, ?_, ?_⟩⟩
  · exact SegsOk.append.2 ⟨d1, s1, g.dec d2, s2', segsOk_shape g hB s3⟩
  · refine HL.sos (by decide) (by rw [if_neg (by simp)]; decide) ?_
    exact parseSos_shape g (HL.sos_inv hl)

/-! ### The preparations -/

/-- The component after the preparations. -/
def oneComp (d : Decoder) (c : Component) : Component :=
  { c with verticalSample := 1, widthStride := blocks8 d.info.width * 8, horizontalSample := 1 }

/-- The decoder after the preparations. -/
def oneDec (d : Decoder) (c : Component) : Decoder :=
  { d with
    hMax := 1, vMax := 1, options := d.options.setOutColorspace .grayscale
    subSampleRatio := .none, components := [oneComp d c] }

/-- What is asked of a decoder before the scan. -/
structure OneComp (d : Decoder) (c : Component) (w h fh fv : Nat) : Prop where
  frame : Frame d w h fh fv
  dims : d.checkComponentDimensions = .ok ()
  wLe : w ≤ 65527
  hLe : h ≤ 65527
  comps : d.components = [c]
  inCs : d.inputColorspace = .grayscale
  opts : d.options.setOutColorspace .grayscale = d.options
  strict : d.options.getStrictMode = false
  fh12 : fh = 1 ∨ fh = 2
  fv12 : fv = 1 ∨ fv = 2

section
variable {d : Decoder} {c : Component} {w h fh fv : Nat}

theorem OneComp.plain (R : OneComp d c w h fh fv) (h1 : fh = 1 ∧ fv = 1) : oneDec d c = d := by
  have F := R.frame
  obtain ⟨c', cs, e1, -, e2, e3, e4, -⟩ := F.comps
  rw [R.comps] at e1
  cases e1
  have hb : blocks8 d.info.width = (w + 7) / 8 := by
    rw [blocks8_eq (by rw [F.width]; exact R.wLe), F.width]
  have hc : oneComp d c = c := by
    unfold oneComp
    rw [hb, ← h1.1, ← e2]
    have : (w + 7) / 8 * 8 = c.widthStride := by
      rw [e4, F.mcuX, h1.1]
      show _ = 1 * ((w + 7) / 8 * 8)
      omega
    rw [this]
    have h2 : c.verticalSample = c.horizontalSample := by rw [e2, e3, h1.1, h1.2]
    cases c
    simp_all
  unfold oneDec
  rw [hc, R.opts, ← R.comps, ← F.ratio h1, ← h1.1, ← F.hMax]
  have h2 : d.hMax = d.vMax := by rw [F.hMax, F.vMax, h1.1, h1.2]
  cases d
  simp_all

theorem OneComp.setup (R : OneComp d c w h fh fv) (ht : d.checkTables = .ok ()) (rd : List UInt8) :
    baselineSetup ⟨d, rd⟩ = (.ok (mkScan (blocks8 d.info.width, blocks8 d.info.height, 1)
      (oneDec d c) (oneComp d c)), ⟨oneDec d c, rd⟩) := by
  have F := R.frame
  obtain ⟨c', cs, e1, e0, e2, e3, e4, -⟩ := F.comps
  rw [R.comps] at e1
  cases e1
  have g : ∀ x : H, getDec x = (.ok x.dec, x) := fun _ => rfl
  have hf := F.fpos
  have h1 := R.dims
  have k1 : M.ofOut d.checkComponentDimensions (⟨d, rd⟩ : H) = (.ok (), ⟨d, rd⟩) := by rw [h1]; rfl
  have k2 : M.ofOut d.checkTables (⟨d, rd⟩ : H) = (.ok (), ⟨d, rd⟩) := by rw [ht]; rfl
  have hchunk : chunkLen (oneDec d c) ≠ 0 := by
    show d.info.width.toNat * 1 * 8 * 1 * 1 ≠ 0
    rw [F.width]
    have := F.wpos
    omega
  have fin : ∀ {x : H} {m : Nat × Nat × Nat},
      mcuCounts ⟨d, rd⟩ = (.ok m, x) →
      grayReset m x = (.ok (blocks8 d.info.width, blocks8 d.info.height, 1), ⟨oneDec d c, rd⟩) →
      baselineSetup ⟨d, rd⟩ = (.ok (mkScan (blocks8 d.info.width, blocks8 d.info.height, 1)
        (oneDec d c) (oneComp d c)), ⟨oneDec d c, rd⟩) := by
    intro x m k3 k4
    have k5 : M.idx (oneDec d c).components 0 (⟨oneDec d c, rd⟩ : H) =
      (.ok (oneComp d c), ⟨oneDec d c, rd⟩) := rfl
    unfold baselineSetup
    rw [M.bind_ok (g _), M.bind_ok k1, M.bind_ok k2, M.bind_ok k3, M.bind_ok k4, M.bind_ok (g _),
      M.bind_ok k5]
    show (if chunkLen (oneDec d c) = 0 then M.panic .zero else pure (mkScan (blocks8 d.info.width,
      blocks8 d.info.height, 1) (oneDec d c) (oneComp d c)) : M H Scan) ⟨oneDec d c, rd⟩ = _
    rw [if_neg hchunk]
    rfl
  by_cases h11 : fh = 1 ∧ fv = 1
  · have hi : d.interleaved = false := by rw [F.inter, decide_eq_true h11]; rfl
    refine fin (x := ⟨d, rd⟩) (m := (blocks8 d.info.width, blocks8 d.info.height, 1)) ?_ ?_
    · unfold mcuCounts
      rw [M.bind_ok (g _), if_neg (by dsimp only; rw [hi]; decide)]
      rfl
    · unfold grayReset
      rw [M.bind_ok (g _), if_neg (by dsimp only; rw [hi]; simp), R.plain h11]
      rfl
  · have hi : d.interleaved = true := by rw [F.inter, decide_eq_false h11]; rfl
    have hup : ∃ r, Decoder.setUpsampling d =
        (.ok (), { d with subSampleRatio := r, components := [c] }) := by
      unfold Decoder.setUpsampling
      dsimp only
      rw [F.hMax, F.vMax, R.comps]
      unfold setTailUpSampler
      dsimp only [List.map_nil]
      rcases R.fh12 with rfl | rfl <;> rcases R.fv12 with rfl | rfl
      · exact absurd ⟨rfl, rfl⟩ h11
      · exact ⟨_, rfl⟩
      · exact ⟨_, rfl⟩
      · exact ⟨_, rfl⟩
    obtain ⟨r, hup⟩ := hup
    have k : liftDec Decoder.setUpsampling (⟨d, rd⟩ : H) =
        (.ok (), ⟨{ d with subSampleRatio := r, components := [c] }, rd⟩) := by
      unfold liftDec
      rw [hup]
    have hm : ∃ m, mcuCounts ⟨d, rd⟩ = (.ok m, ⟨{ d with subSampleRatio := r, components := [c] }, rd⟩) := by
      unfold mcuCounts
      rw [M.bind_ok (g _), if_pos hi, M.bind_ok k, M.bind_ok (g _)]
      dsimp only
      split
      · exact ⟨_, rfl⟩
      · split
        · exact ⟨_, rfl⟩
        · exact ⟨_, rfl⟩
    obtain ⟨m, hm⟩ := hm
    refine fin hm ?_
    unfold grayReset
    rw [M.bind_ok (g _), if_pos ⟨R.inCs, hi⟩, if_neg (by dsimp only; rw [R.strict]; decide)]
    dsimp only
    rw [if_neg (by simp)]
    rfl
end

/-! ### The scan -/

/-- Without frame headers in the scan the geometry of the image is kept. -/
theorem strips_steady {s : Scan} {d0 : Decoder} {rd0 : List UInt8} (h3 : Three d0) (hn : NoSof rd0)
    (hu : UnitsFit s d0) (hc : d0.inputColorspace.numComponents ≤ d0.components.length) :
    ∀ (n : Nat) {t t' : T} {a : Grid}, strips s n t = (.ok (), t') → NI d0 rd0 (gridT [] a t) →
      ∃ b, NI d0 rd0 (gridT [] b t')
  | 0, t, t', a, h, hi => by cases h; exact ⟨a, hi⟩
  | n + 1, t, t', a, h, hi => by
    unfold strips at h
    obtain ⟨_, t2, e1, e2⟩ := M.bind_ok_inv h
    have e0 : strip s t = (M.ofOut (allocTemp s (gridT [] a t).dec) >>= fun temp =>
      decodeStrip s temp >>= fun temp => submit s temp) t := rfl
    rw [e0] at e1
    obtain ⟨temp, ha, hb⟩ := allocTemp_bufs (s := s) h3 hi.dec
    rw [ha, M.bind_ok (show M.ofOut (.ok temp) t = (.ok temp, t) from rfl)] at e1
    obtain ⟨temp', t1, e3, e4⟩ := M.bind_ok_inv e1
    obtain ⟨b, e⟩ := Lock.decodeStrip (jl := []) s temp a t
    rw [e3] at e
    have ni := (M.wp_ok (wpN_decodeStrip h3 hn hu hc hb hi) e).1
    refine strips_steady h3 hn hu hc n e2 (a := b) ?_
    unfold submit at e4
    split at e4
    · cases e4
      exact ni
    · cases e4

theorem checkTables_factors {d : Decoder} {c : Component} (hc : d.components = [c])
    (hin : d.inputColorspace = .grayscale) {g : Mould} (hg : FactorMould g) :
    (g.dec d).checkTables = d.checkTables := by
  obtain ⟨d', hd'⟩ : ∃ d', g.dec d = d' := ⟨_, rfl⟩
  obtain ⟨_, _, _, _, _, _, _, _, _, _, rfl⟩ := hg
  rw [hd']
  have hin' : d'.inputColorspace = .grayscale := by rw [← hd']; exact hin
  unfold Decoder.checkTables
  have : ∀ d : Decoder, d.inputColorspace = .grayscale →
      Out.fold (fun _ i => checkTable d i) () (List.range d.inputColorspace.numComponents) =
        checkTable d 0 := by
    intro d hd
    rw [hd]
    show Out.fold _ _ [0] = _
    unfold Out.fold
    rcases checkTable d 0 with ⟨⟨⟩⟩ | _ | _ | _ <;> rfl
  rw [this d hin, this d' hin', ← hd']
  unfold checkTable
  rw [hc]
  dsimp only [Mould.dec]
  rw [hc]
  rfl

theorem setup_fails {d : Decoder} {rd : List UInt8} (h1 : d.checkComponentDimensions = .ok ())
    (h2 : d.checkTables ≠ .ok ()) : (decodeBaseline ⟨d, rd⟩).1 = d.checkTables.map fun _ => [] := by
  have g : ∀ x : H, getDec x = (.ok x.dec, x) := fun _ => rfl
  have k1 : M.ofOut d.checkComponentDimensions (⟨d, rd⟩ : H) = (.ok (), ⟨d, rd⟩) := by rw [h1]; rfl
  have hb : ∀ o : Out Unit, d.checkTables = o →
      baselineSetup ⟨d, rd⟩ = (M.ofOut o >>= fun _ => (do
        let m ← mcuCounts
        let m ← grayReset m
        let d ← getDec
        let c0 ← M.idx d.components 0
        let s := mkScan m d c0
        if s.chunk = 0 then M.panic .zero else pure s)) ⟨d, rd⟩ := by
    intro o ho
    unfold baselineSetup
    rw [M.bind_ok (g _), M.bind_ok k1, ho]
  unfold decodeBaseline
  rcases ho : d.checkTables with ⟨⟨⟩⟩ | _ | _ | _
  · exact absurd ho h2
  all_goals
    rw [hb _ ho]
    rfl

section
variable {d : Decoder} {c : Component} {w h fh fv fh' fv' : Nat} {g : Mould}

theorem fit_take {k n m : Nat} (hn : k ≤ n) (hm : k ≤ m) (l : List UInt8) :
    (fit n 0 l).take k = (fit m 0 l).take k := by
  unfold fit
  apply List.ext_getElem?
  intro i
  simp only [List.take_take]
  rw [Nat.min_eq_left hn, Nat.min_eq_left hm]
  simp only [List.getElem?_take, List.getElem?_append, List.getElem?_replicate]
  split
  · split
    · rfl
    · rw [if_pos (by omega), if_pos (by omega)]
  · rfl

theorem outLen_ge (R : OneComp d c w h fh fv) (i : Bool) :
    (w + 8) * (h + 8) ≤ outBufferLen { oneDec d c with interleaved := i } := by
  have F := R.frame
  unfold outBufferLen
  dsimp only
  have h1 : ((oneDec d c).info.width + 8).toNat = w + 8 := by
    show (d.info.width + 8).toNat = _
    rw [add8_wrap, F.width]
    have := R.wLe
    omega
  have h2 : ((oneDec d c).info.height + 8).toNat = h + 8 := by
    show (d.info.height + 8).toNat = _
    rw [add8_wrap, F.height]
    have := R.hLe
    omega
  rw [h1, h2]
  show _ ≤ (w + 8) * (h + 8) * 1 + _
  omega

theorem baseline_factors (R : OneComp d c w h fh fv) (hg : FactorMould g)
    (R' : OneComp (g.dec d) (g.comp c) w h fh' fv') (K : Steady d d) (h3 : Three d) {rd : List UInt8}
    (hn : NoSof rd) : (decodeBaseline ⟨g.dec d, rd⟩).1 = (decodeBaseline ⟨d, rd⟩).1 := by
  have F := R.frame
  by_cases ht : d.checkTables = .ok ()
  swap
  · rw [setup_fails R.dims ht, setup_fails R'.dims (by
      rw [checkTables_factors R.comps R.inCs hg]; exact ht), checkTables_factors R.comps R.inCs hg]
  have ht' : (g.dec d).checkTables = .ok () := by rw [checkTables_factors R.comps R.inCs hg]; exact ht
  have s1 := R.setup ht rd
  have s2 := R'.setup ht' rd
  obtain ⟨D, hD⟩ : ∃ D, oneDec d c = D := ⟨_, rfl⟩
  obtain ⟨C, hC⟩ : ∃ C, oneComp d c = C := ⟨_, rfl⟩
  obtain ⟨G, hG⟩ : ∃ G : Grid, oneDec (g.dec d) (g.comp c) = G.dec D := by
    obtain ⟨_, _, _, _, _, _, mw, mh, mx, my, rfl⟩ := hg
    exact ⟨⟨_, _, _, _, _⟩, by rw [← hD]; rfl⟩
  have hC' : oneComp (g.dec d) (g.comp c) = C := by
    obtain ⟨_, _, _, _, _, _, mw, mh, mx, my, rfl⟩ := hg
    rw [← hC]
    rfl
  obtain ⟨S, hS⟩ : ∃ S, mkScan (blocks8 d.info.width, blocks8 d.info.height, 1) D C = S := ⟨_, rfl⟩
  have hS' : mkScan (blocks8 d.info.width, blocks8 d.info.height, 1) (G.dec D) C =
      { S with outLen := outBufferLen (G.dec D) } := by
    rw [← hS]
    rfl
  rw [hD, hC, hS] at s1
  rw [hG, hC'] at s2
  have s2' : baselineSetup ⟨g.dec d, rd⟩ =
      (.ok { S with outLen := outBufferLen (G.dec D) }, ⟨G.dec D, rd⟩) := by
    rw [← hS']
    exact s2
  have hmul : 8 * w * ((h + 7) / 8) ≤ (w + 8) * (h + 8) := by
    have h1 : 8 * ((h + 7) / 8) ≤ h + 8 := by omega
    calc 8 * w * ((h + 7) / 8) = w * (8 * ((h + 7) / 8)) := by ring
      _ ≤ w * (h + 8) := Nat.mul_le_mul_left _ h1
      _ ≤ (w + 8) * (h + 8) := Nat.mul_le_mul_right _ (by omega)
  have hl1 : (w + 8) * (h + 8) ≤ S.outLen := by
    have := outLen_ge R (oneDec d c).interleaved
    rw [← hS, ← hD]
    exact this
  have hl2 : (w + 8) * (h + 8) ≤ outBufferLen (G.dec D) := by
    have := outLen_ge R G.interleaved
    rw [← hD]
    exact this
  have hchunk : S.chunk = 8 * w := by
    rw [← hS, ← hD]
    show d.info.width.toNat * 1 * 8 * 1 * 1 = _
    rw [F.width]
    omega
  have hrows : S.mcuHeight = (h + 7) / 8 := by
    rw [← hS]
    show blocks8 d.info.height = _
    rw [blocks8_eq (by rw [F.height]; exact R.hLe), F.height]
  have hw0 := F.wpos
  have room : ∀ L, (w + 8) * (h + 8) ≤ L → S.mcuHeight ≤ L / S.chunk := by
    intro L hL
    rw [hchunk, hrows, Nat.le_div_iff_mul_le (by omega), Nat.mul_comm]
    omega
  obtain ⟨t, htt⟩ : ∃ t : T, t = { dec := D, io := { bs := BitStream.new, rd := rd } } := ⟨_, rfl⟩
  obtain ⟨G', e⟩ := strips_grid S (outBufferLen (G.dec D)) S.mcuHeight G t
    (by rw [htt]; show 0 + _ ≤ _; rw [Nat.zero_add]; exact room _ hl1)
    (by rw [htt]; show 0 + _ ≤ _; rw [Nat.zero_add]; exact room _ hl2)
  have b1 : (decodeBaseline ⟨d, rd⟩).1 = (joinPool (strips S S.mcuHeight t).1
      (strips S S.mcuHeight t).2.jobs).map
        (assemble S.outLen (keepLen (strips S S.mcuHeight t).2.dec)) := by
    unfold decodeBaseline
    rw [s1, htt]
  have b2 : (decodeBaseline ⟨g.dec d, rd⟩).1 = (joinPool (strips S S.mcuHeight t).1
      (strips S S.mcuHeight t).2.jobs).map
        (assemble (outBufferLen (G.dec D)) (keepLen (strips S S.mcuHeight t).2.dec)) := by
    unfold decodeBaseline
    rw [s2']
    dsimp only
    rw [htt] at e
    dsimp only at e
    rw [e, htt]
    rfl
  rw [b1, b2]
  rcases hr : strips S S.mcuHeight t with ⟨r, t'⟩
  dsimp only
  rcases hj : joinPool r t'.jobs with parts | _ | _ | _
  · have hr' := joinPool_ok hj
    rw [hr'] at hr
    obtain ⟨G2, g1, -, -⟩ := M.wp_ok (wpT_baselineSetup_frame (s := ⟨d, rd⟩) F) s1
    dsimp only at G2 g1
    have K' : Steady D D := by
      rw [← hD]
      exact K.self rfl rfl rfl rfl rfl rfl
    have h3' : Three D := by
      rw [← hD]
      refine ⟨by show 1 ≤ 3; decide, ?_⟩
      have := h3.count
      rw [R.comps] at this
      exact this
    have hcs : D.inputColorspace.numComponents ≤ D.components.length := by
      rw [← hD]
      show d.inputColorspace.numComponents ≤ 1
      rw [R.inCs]
      exact Nat.le_refl _
    have hi : NI D rd (gridT [] ⟨t.dec.mcuWidth, t.dec.mcuHeight, t.dec.mcuX, t.dec.mcuY,
        t.dec.interleaved⟩ t) := by
      rw [htt]
      exact ⟨K', List.suffix_refl _, fun m hm => (by cases hm), Nat.zero_le _, fun j hj => (by cases hj)⟩
    obtain ⟨_, ni⟩ := strips_steady h3' hn (units_fit G2 g1) hcs _ hr hi
    have hk : keepLen t'.dec = w * h := by
      have e1 : t'.dec.info = _ := ni.dec.info
      have e2 : t'.dec.options = _ := ni.dec.opts
      unfold keepLen
      rw [e1, e2, ← hD]
      show d.info.width.toNat * d.info.height.toNat * 1 = _
      rw [F.width, F.height, Nat.mul_one]
    have hle : w * h ≤ (w + 8) * (h + 8) := Nat.mul_le_mul (by omega) (by omega)
    show Out.ok _ = Out.ok _
    unfold assemble
    rw [hk, fit_take (k := w * h) (Nat.le_trans hle hl2) (Nat.le_trans hle hl1)]
  all_goals rfl

end

end Zune
