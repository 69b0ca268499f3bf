import Verif.Model.Headers
import Verif.Model.Worker
/-!
# Baseline scans (`mcu.rs`)
-/

namespace Zune

/-- State during the entropy coded data: the decoder, the bit reader, and the results of the post
processing jobs given to the thread pool so far, in order. -/
structure T where
  dec : Decoder
  io : B
  jobs : List (Out (List UInt8)) := []

/-- Run a header parsing function during a scan. -/
def liftH {α} (m : M H α) : M T α := fun t =>
  let (r, s) := m { dec := t.dec, rd := t.io.rd }
  (r, { t with dec := s.dec, io := { t.io with rd := s.rd } })

/-- Run a function of the bit reader. -/
def liftB {α} (m : M B α) : M T α := fun t =>
  let (r, s) := m t.io
  (r, { t with io := s })

/-- Run a function of the decoder object while reading headers. -/
def liftDec {α} (m : M Decoder α) : M H α := fun s =>
  let (r, d) := m s.dec
  (r, { s with dec := d })

/-- `usize::wrapping_sub(1)` on a 64 bit target; also the release profile of `-= 1`. -/
def wrappingPred (n : Nat) : Nat := if n = 0 then 2 ^ 64 - 1 else n - 1

/-- `mcu.rs:386-418` (`handle_rst`) -/
def handleRst : M T Unit := fun t =>
  let d := { t.dec with todo := t.dec.restartInterval }
  match t.io.bs.marker with
  | none => (.ok (), { t with dec := d })
  | some (.rst _) =>
    (.ok (), { t with
      dec := { d with components := d.components.map fun c => { c with dcPred := 0 } }
      io := { t.io with bs := t.io.bs.reset } })
  | some .eoi => (.ok (), { t with dec := d })
  | some _ => (.err .mcu, { t with dec := d })

/-- `self.todo = self.todo.wrapping_sub(1); if self.todo == 0 { self.handle_rst(stream)? }`
(`mcu.rs:323-328`, `mcu_prog.rs:360-365, 420-424`) -/
def countDown : M T Unit := fun t =>
  let n := wrappingPred t.dec.todo
  let t := { t with dec := { t.dec with todo := n } }
  if n = 0 then handleRst t else (.ok (), t)

/-- `mcu.rs:74-116`: tables of one component. -/
def checkTable (d : Decoder) (i : Nat) : Out Unit :=
  match d.components[i]? with
  | none => .panic .index
  | some c =>
    match d.dcTables[c.dcHuffTable]? with
    | some (some _) =>
      match d.acTables[c.acHuffTable]? with
      | some (some _) => .ok ()
      | _ => .err .huffmanDecode
    | _ => .err .huffmanDecode

/-- `mcu.rs:74-116` (`check_tables`) -/
def Decoder.checkTables (d : Decoder) : Out Unit :=
  Out.fold (fun _ i => checkTable d i) () (List.range d.inputColorspace.numComponents)

/-- The quantities that `decode_mcu_ycbcr_baseline` computes before its loops. -/
structure Scan where
  mcuWidth : Nat
  mcuHeight : Nat
  bias : Nat
  isHv : Bool
  widthStride : Nat
  hvWidthStride : Nat
  outLen : Nat
  chunk : Nat
  comps : List Component
  inCs : ColorSpace
  outCs : ColorSpace
  idct : IdctFn
  color : ColorFn
  width : Nat
  deriving Repr

/-- `mcu.rs:238-250`: the three coefficient buffers of a strip. -/
def allocTemp (s : Scan) (d : Decoder) : Out (List (List I16)) :=
  let nc := d.options.getOutColorspace.numComponents
  if nc - 1 ≥ 3 ∧ d.components.length > 3 then .panic .index
  else .ok ((List.range 3).map fun pos =>
    match d.components[pos]? with
    | some c =>
      if min (nc - 1) pos = pos then
        List.replicate (s.mcuWidth * 64 * c.verticalSample * c.horizontalSample * s.bias) 0
      else []
    | none => [])

/-- `mcu.rs:293-312`: where the block of a component goes. -/
def blockStart (s : Scan) (c : Component) (v j vs hs : Nat) : Nat :=
  let isY := if c.componentId = .y then 1 else 0
  let yOffset := isY * v * (s.hvWidthStride + s.hvWidthStride * (c.verticalSample - 1))
  let another := s.widthStride * vs * (if s.isHv then 0 else 1) +
    s.hvWidthStride * vs * (if s.isHv then 1 else 0)
  let yetAnother := (if s.isHv then 1 else 0) * (s.widthStride / 4) * v *
    (if c.componentId = .y then 0 else 1)
  j * 64 * c.horizontalSample + hs * 64 + another + yOffset + yetAnother

/-- Decode one block of component `pos`, keeping its DC prediction. -/
def decodeBlock (dc ac : HuffmanTable) (pos : Nat) (block : List I16) : M T (List I16) := fun t =>
  match t.dec.components[pos]? with
  | none => (.panic .index, t)
  | some c =>
    let (r, p, io) := decodeMcuBlock dc ac block c.dcPred t.io
    (r, { t with
      io := io
      dec := { t.dec with
        components := t.dec.components.modify pos fun c => { c with dcPred := p } } })

/-- `mcu.rs:287-320`: one block of an MCU; the coefficients are kept only for components that the
output needs. The buffer `tmp` for the others is never read. -/
def decodeSample (s : Scan) (v j pos : Nat) (dc ac : HuffmanTable) (c : Component)
    (temp : List (List I16)) (vh : Nat × Nat) : M T (List (List I16)) := do
  let t ← M.get
  if min (t.dec.options.getOutColorspace.numComponents - 1) pos = pos then
    let start := blockStart s c v j vh.1 vh.2
    let buf ← M.unwrap temp[pos]?
    if start + 64 ≤ buf.length then
      let b ← decodeBlock dc ac pos ((buf.drop start).take 64)
      pure (temp.set pos (writeAt buf start b))
    else M.panic .unwrap
  else
    let _ ← decodeBlock dc ac pos (List.replicate 64 0)
    pure temp

/-- The pairs `(v_samp, h_samp)` in the order of the nested loops. -/
def samplePairs (v h : Nat) : List (Nat × Nat) :=
  (List.range v).flatMap fun a => (List.range h).map fun b => (a, b)

/-- `mcu.rs:261-322`: all blocks of one component of an MCU. -/
def decodeComponent (s : Scan) (v j : Nat) (temp : List (List I16)) (pos : Nat) :
    M T (List (List I16)) := do
  let t ← M.get
  let c ← M.idx t.dec.components pos
  let dc ← M.idx t.dec.dcTables (c.dcHuffTable &&& 3)
  let dc ← M.okOr dc .huffmanDecode
  let ac ← M.idx t.dec.acTables (c.acHuffTable &&& 3)
  let ac ← M.okOr ac .huffmanDecode
  M.foldM (samplePairs c.verticalSample c.horizontalSample) temp
    (decodeSample s v j pos dc ac c)

/-- `mcu.rs:259-349`: the components of one MCU; the list holds the positions that are left. -/
def decodeMcu (s : Scan) (v j : Nat) : List Nat → List (List I16) → M T (List (List I16))
  | [], temp => pure temp
  | pos :: rest, temp => do
    let temp ← decodeComponent s v j temp pos
    countDown
    let t ← M.get
    match t.io.bs.marker with
    | none => decodeMcu s v j rest temp
    | some .eoi => pure temp
    | some (.rst _) => decodeMcu s v j rest temp
    | some m =>
      liftH (parseMarkerInner m)
      decodeMcu s v j rest temp

/-- `mcu.rs:253-351`: the MCUs of one strip. -/
def decodeStrip (s : Scan) (temp : List (List I16)) : M T (List (List I16)) :=
  M.foldM (samplePairs s.bias s.mcuWidth) temp fun temp (v, j) => do
    let t ← M.get
    decodeMcu s v j (List.range t.dec.inputColorspace.numComponents) temp

/-- `mcu.rs:353-368`: hand a strip to the thread pool. `chunks.next().unwrap()` fails when no
chunk of the output is left. -/
def submit (s : Scan) (temp : List (List I16)) : M T Unit := fun t =>
  if t.jobs.length < s.outLen / s.chunk then
    (.ok (), { t with jobs := t.jobs ++
      [postProcess s.idct s.color s.comps s.inCs s.outCs s.width temp
        (List.replicate s.chunk 0)] })
  else (.panic .unwrap, t)

/-- `mcu.rs:231-369`: one round of the loop over the strips. -/
def strip (s : Scan) : M T Unit := do
  let t ← M.get
  let temp ← M.ofOut (allocTemp s t.dec)
  let temp ← decodeStrip s temp
  submit s temp

/-- `mcu.rs:231-369`: all strips. -/
def strips (s : Scan) : Nat → M T Unit
  | 0 => pure ()
  | n + 1 => do
    strip s
    strips s n

/-- `(width + 7) / 8` in `u16` -/
def blocks8 (w : UInt16) : Nat := ((w + 7) / 8).toNat

/-- `mcu.rs:139-169`: MCUs per strip, number of strips and bias. -/
def mcuCounts : M H (Nat × Nat × Nat) := do
  let d ← getDec
  if d.interleaved then
    liftDec Decoder.setUpsampling
    let d ← getDec
    if d.subSampleRatio = .h then pure (d.mcuX * 2, d.mcuY / 2, 1)
    else if d.subSampleRatio = .hv then pure (d.mcuX, d.mcuY / 2, 2)
    else pure (d.mcuX, d.mcuY, 1)
  else pure (blocks8 d.info.width, blocks8 d.info.height, 1)

/-- `mcu.rs:171-196`: a grayscale image with sampling factors is treated as 1x1. -/
def grayReset (m : Nat × Nat × Nat) : M H (Nat × Nat × Nat) := do
  let d ← getDec
  if d.inputColorspace = .grayscale ∧ d.interleaved then
    if d.options.getStrictMode then M.throw .formatStatic
    else
      let mw := blocks8 d.info.width
      if d.components.length = 0 then M.panic .index
      else
        modDec fun d => { d with
          hMax := 1, vMax := 1, options := d.options.setOutColorspace .grayscale
          subSampleRatio := .none
          components := d.components.modify 0 fun c =>
            { c with verticalSample := 1, widthStride := mw * 8, horizontalSample := 1 } }
        pure (mw, blocks8 d.info.height, 1)
  else pure m

/-- Length of the output buffer before truncation (`mcu.rs:198, 207, 222`, `mcu_prog.rs:173-176`) -/
def outBufferLen (d : Decoder) : Nat :=
  let nc := d.options.getOutColorspace.numComponents
  (d.info.width + 8).toNat * (d.info.height + 8).toNat * nc +
    (if d.interleaved then 1 else 0) * 128 * d.info.height.toNat * nc

/-- Size of an output chunk (`mcu.rs:226`, `mcu_prog.rs:188`) -/
def chunkLen (d : Decoder) : Nat :=
  d.info.width.toNat * d.options.getOutColorspace.numComponents * 8 * d.hMax * d.vMax

/-- `mcu.rs:198-226`: the quantities used by the loops. -/
def mkScan (m : Nat × Nat × Nat) (d : Decoder) (c0 : Component) : Scan :=
  let ws := (m.1 * 64 * c0.verticalSample * c0.horizontalSample * m.2.2) / 2
  { mcuWidth := m.1, mcuHeight := m.2.1, bias := m.2.2
    isHv := d.subSampleRatio = .hv
    widthStride := ws, hvWidthStride := ws / 2
    outLen := outBufferLen d, chunk := chunkLen d
    comps := d.components, inCs := d.inputColorspace, outCs := d.options.getOutColorspace
    idct := d.idctFn, color := d.colorFn, width := d.info.width.toNat }

/-- Everything before the loops (`mcu.rs:131-227`). -/
def baselineSetup : M H Scan := do
  let d ← getDec
  M.ofOut d.checkComponentDimensions
  M.ofOut d.checkTables
  let m ← mcuCounts
  let m ← grayReset m
  let d ← getDec
  let c0 ← M.idx d.components 0
  let s := mkScan m d c0
  if s.chunk = 0 then M.panic .zero else pure s

/-- Number of bytes that `truncate` keeps (`mcu.rs:375-379`, `mcu_prog.rs:237-241`) -/
def keepLen (d : Decoder) : Nat :=
  d.info.width.toNat * d.info.height.toNat * d.options.getOutColorspace.numComponents

/-- The buffer after all jobs have run, truncated. -/
def assemble (outLen keep : Nat) (parts : List (List UInt8)) : List UInt8 :=
  (fit outLen 0 parts.flatten).take keep

/-- Join of the thread pool: a panic of the main thread or of a job wins over an error. Undefined
behaviour in a job is undefined behaviour of the program. -/
def joinPool (r : Out Unit) (jobs : List (Out (List UInt8))) : Out (List (List UInt8)) :=
  if jobs.any Out.isUnsound then .panic .unsound
  else match r with
  | .panic p => .panic p
  | .diverge => .diverge
  | .err e => if jobs.all Out.isOk then .err e else .panic .worker
  | .ok () =>
    match Out.collect jobs with
    | .ok parts => .ok parts
    | _ => .panic .worker

/-- `mcu.rs:127-381` (`decode_mcu_ycbcr_baseline`) -/
def decodeBaseline : M H (List UInt8) := fun h =>
  match baselineSetup h with
  | (.ok s, h) =>
    let (r, t) := strips s s.mcuHeight { dec := h.dec, io := { bs := BitStream.new, rd := h.rd } }
    ((joinPool r t.jobs).map (assemble s.outLen (keepLen t.dec)), { dec := t.dec, rd := t.io.rd })
  | (.err e, h) => (.err e, h)
  | (.panic p, h) => (.panic p, h)
  | (.diverge, h) => (.diverge, h)

end Zune
