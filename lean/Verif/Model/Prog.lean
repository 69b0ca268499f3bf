import Verif.Model.Mcu
/-!
# Progressive scans (`mcu_prog.rs`)
-/

namespace Zune

/-- `mcu_prog.rs:436-473` (`get_marker`), reading from the input; `ff` says that the last byte was
`0xFF`. An unknown marker and the end of the input both give `none`. -/
def scanMarker : Bool → List UInt8 → Option Marker × List UInt8
  | _, [] => (none, [])
  | false, b :: r => scanMarker (b == 0xFF) r
  | true, b :: r =>
    if b = 0xFF then scanMarker true r
    else if b = 0 then scanMarker false r
    else (Marker.fromU8 b, r)

/-- `mcu_prog.rs:436-473` (`get_marker`) followed by `ok_or(FormatStatic)` -/
def getMarker : M T Marker := fun t =>
  match t.io.bs.marker with
  | some m => (.ok m, { t with io := { t.io with bs := { t.io.bs with marker := none } } })
  | none =>
    let (m, rd) := scanMarker false t.io.rd
    let t := { t with io := { t.io with rd := rd } }
    match m with
    | some m => (.ok m, t)
    | none => (.err .formatStatic, t)

/-- A table slot of the progressive decoder; both failures are `Format` errors. -/
def progTable (l : List (Option HuffmanTable)) (i : Nat) : M T HuffmanTable := fun t =>
  match l[i]? with
  | some (some h) => (.ok h, t)
  | _ => (.err .format, t)

/-- Store the DC prediction of component `k`. -/
def setPred (k : Nat) (p : I32) : M T Unit := fun t =>
  (.ok (), { t with dec := { t.dec with
    components := t.dec.components.modify k fun c => { c with dcPred := p } } })

/-- `mcu_prog.rs:315-324, 410-415`: one DC coefficient of component `k`. -/
def progDc (k : Nat) (c : I16) (table : HuffmanTable) : M T I16 := do
  let t ← M.get
  let comp ← M.idx t.dec.components k
  if t.dec.succHigh = 0 then
    let (v, p) ← liftB (decodeProgDcFirst table comp.dcPred)
    setPred k p
    pure v
  else liftB (decodeProgDcRefine c)

/-- `mcu_prog.rs:308-358`: what is done at block `(i, j)` of a non-interleaved scan of component
`k`. Returns the new `(i, j)` before the increment, and the block. -/
def progBlock (k mcuWidth i j : Nat) (block : List I16) : M T (Nat × Nat × List I16) := do
  let t ← M.get
  let comp ← M.idx t.dec.components k
  if t.dec.specStart = 0 then
    let table ← progTable t.dec.dcTables (comp.dcHuffTable &&& (MAX_COMPONENTS - 1))
    let c ← M.idx block 0
    let v ← progDc k c table
    pure (i, j, block.set 0 v)
  else
    let table ← progTable t.dec.acTables comp.acHuffTable
    if t.dec.succHigh = 0 then
      let e := t.io.bs.eobRun
      if e > 0 then
        M.modify fun t => { t with io := { t.io with bs := { t.io.bs with eobRun := 0 } } }
        pure (i + (j + e - 1) / mcuWidth, (j + e - 1) % mcuWidth, block)
      else
        let b ← liftB (decodeMcuAcFirst table block)
        pure (i, j, b)
    else
      let b ← liftB (decodeMcuAcRefine table block)
      pure (i, j, b)

/-- `mcu_prog.rs:298`: where block `(i, j)` of a non-interleaved scan is kept. -/
def progPos (comp : Component) (i j : Nat) : Nat := 64 * (j + i * (comp.widthStride / 8))

/-- `mcu_prog.rs:291-369`: the two nested loops of a non-interleaved scan. Leaving the inner loop
when `i` reaches `mcuHeight` ends the outer loop too, so one recursion over `(i, j)` is enough. -/
def progLoop (k mcuWidth mcuHeight : Nat) : Nat → Nat → Nat → List (List I16) →
    M T (List (List I16))
  | 0, i, _, bufs => if i < mcuHeight then M.diverge else pure bufs
  | fuel + 1, i, j, bufs =>
    if i < mcuHeight then
      if j < mcuWidth then do
        let t ← M.get
        let comp ← M.idx t.dec.components k
        let start := progPos comp i j
        let buf ← M.unwrap bufs[k]?
        if start + 64 ≤ buf.length then
          let (i, j, b) ← progBlock k mcuWidth i j ((buf.drop start).take 64)
          countDown
          progLoop k mcuWidth mcuHeight fuel i (j + 1) (bufs.set k (writeAt buf start b))
        else M.panic .unwrap
      else progLoop k mcuWidth mcuHeight fuel (i + 1) 0 bufs
    else pure bufs

/-- `mcu_prog.rs:404-406`: where the DC coefficient of a block of MCU `(i, j)` is kept. -/
def interPos (comp : Component) (i j : Nat) (vh : Nat × Nat) : Nat :=
  let x2 := j * comp.horizontalSample + vh.2
  let y2 := i * comp.verticalSample + vh.1
  64 * (x2 + y2 * comp.widthStride / 8)

/-- `mcu_prog.rs:404-415`: one sample of an interleaved scan. -/
def interSample (i j n : Nat) (comp : Component) (table : HuffmanTable) (bufs : List (List I16))
    (vh : Nat × Nat) : M T (List (List I16)) := do
  let position := interPos comp i j vh
  let buf ← M.idx bufs n
  let c ← M.idx buf position
  let v ← progDc n c table
  pure (bufs.set n (buf.set position v))

/-- `mcu_prog.rs:388-424`: component `k` of the scan in MCU `(i, j)`. -/
def interComponent (i j : Nat) (bufs : List (List I16)) (k : Nat) : M T (List (List I16)) := do
  let t ← M.get
  let n ← M.idx t.dec.zOrder k
  if n ≥ t.dec.components.length then M.throw .format
  else
    let comp ← M.idx t.dec.components n
    let table ← progTable t.dec.dcTables comp.dcHuffTable
    let bufs ← M.foldM (samplePairs comp.verticalSample comp.horizontalSample) bufs
      (interSample i j n comp table)
    countDown
    pure bufs

/-- `mcu_prog.rs:249-430` (`parse_entropy_coded_data`) -/
def parseEntropy (bufs : List (List I16)) : M T (List (List I16)) := do
  let t ← M.get
  M.ofOut t.dec.checkComponentDimensions
  M.modify fun t => { t with
    io := { t.io with bs := t.io.bs.reset }
    dec := { t.dec with components := t.dec.components.map fun c => { c with dcPred := 0 } } }
  let t ← M.get
  let d := t.dec
  if d.numScans > d.inputColorspace.numComponents then M.throw .format
  else if d.numScans = 1 then
    if d.specEnd ≠ 0 ∧ d.specStart = 0 then M.throw .huffmanDecode
    else
      let k ← M.idx d.zOrder 0
      if k ≥ d.components.length then M.throw .format
      else
        let comp ← M.idx d.components k
        let (mw, mh) := if comp.componentId = .y ∨ d.interleaved = false then
            (blocks8 d.info.width, blocks8 d.info.height)
          else (d.mcuX, d.mcuY)
        progLoop k mw mh ((mw + 1) * mh + 1) 0 0 bufs
  else if d.specEnd ≠ 0 then M.throw .huffmanDecode
  else
    M.foldM (samplePairs d.mcuY d.mcuX) bufs fun bufs (i, j) =>
      M.foldM (List.range d.numScans) bufs (interComponent i j)

/-- `mcu_prog.rs:90-126`: the loop over the markers between scans. Every round reads at least one
byte of a segment, so the first argument does not run out when it exceeds the number of unread
bytes. -/
def scanLoop : Nat → Nat → Marker → List (List I16) → M T (List (List I16))
  | 0, _, m, bufs => if m ≠ .eoi then M.diverge else pure bufs
  | fuel + 1, seen, m, bufs =>
    match m with
    | .eoi => pure bufs
    | .dht => do
      liftH parseHuffman
      let m ← getMarker
      scanLoop fuel seen m bufs
    | .sos => do
      liftH parseSos
      M.modify fun t =>
        let bs := t.io.bs.updateProgressiveParams t.dec.succHigh t.dec.succLow t.dec.specStart
          t.dec.specEnd
        { t with io := { t.io with bs := bs } }
      let bufs ← parseEntropy bufs
      let m ← getMarker
      let t ← M.get
      if seen + 1 > t.dec.options.getMaxScans then M.throw .format
      else
        M.modify fun t => { t with io := { t.io with bs := t.io.bs.reset } }
        scanLoop fuel (seen + 1) m bufs
    | _ => pure bufs

/-- `mcu_prog.rs:88`: `stream.marker.take().ok_or(...)` after the first scan -/
def takeMarker : M T Marker := fun t =>
  match t.io.bs.marker with
  | some m => (.ok m, { t with io := { t.io with bs := { t.io.bs with marker := none } } })
  | none => (.err .formatStatic, t)

/-- `mcu_prog.rs:133-168`: the setup of `finish_progressive_decoding`; returns `mcu_width` and
`bias`. -/
def finishSetup (mcuWidth : Nat) : M H (Nat × Nat) := do
  liftDec Decoder.setUpsampling
  let d ← getDec
  let mw := if d.subSampleRatio = .h then mcuWidth * 2 else mcuWidth
  let bias := if d.subSampleRatio = .hv then 2 else 1
  if d.inputColorspace = .grayscale ∧ d.interleaved then
    if d.options.getStrictMode then M.throw .formatStatic
    else if d.components.length = 0 then M.panic .index
    else
      modDec fun d => { d with
        hMax := 1, vMax := 1, subSampleRatio := .none
        components := d.components.modify 0 fun c =>
          { c with verticalSample := 1, widthStride := mw * 8, horizontalSample := mw } }
      pure (mw, 1)
  else pure (mw, bias)

/-- `mcu_prog.rs:187-234`: the strips that are sent to the thread pool. -/
def progStrips (d : Decoder) (mw bias : Nat) (bufs : List (List I16)) :
    Out (List (List (List I16))) :=
  match d.components[0]? with
  | none => .panic .index
  | some c0 =>
    let n0 := mw * c0.verticalSample * c0.horizontalSample * bias
    if chunkLen d = 0 ∨ n0 = 0 then .panic .zero
    else
      let ys := chunksExact n0 (bufs.getD 0 [])
      let m := outBufferLen d / chunkLen d
      if d.inputColorspace.numComponents = 3 then
        match d.components[1]? with
        | none => .panic .index
        | some c1 =>
          let n1 := mw * c1.verticalSample * c1.horizontalSample * bias
          if n1 = 0 then .panic .zero
          else
            let cbs := chunksExact n1 (bufs.getD 1 [])
            let crs := chunksExact n1 (bufs.getD 2 [])
            .ok (((ys.zip (cbs.zip crs)).take m).map fun (y, cb, cr) => [y, cb, cr])
      else .ok ((ys.take m).map fun y => [y, [], []])

/-- `mcu_prog.rs:132-244` (`finish_progressive_decoding`) -/
def finishProgressive (bufs : List (List I16)) (mcuWidth : Nat) : M H (List UInt8) := do
  let (mw, bias) ← finishSetup mcuWidth
  let d ← getDec
  let ss ← M.ofOut (progStrips d mw bias bufs)
  let jobs := ss.map fun s =>
    postProcess d.idctFn d.colorFn d.components d.inputColorspace d.options.getOutColorspace
      d.info.width.toNat s (List.replicate (chunkLen d) 0)
  let parts ← M.ofOut (joinPool (.ok ()) jobs)
  pure (assemble (outBufferLen d) (keepLen d) parts)

/-- `mcu_prog.rs:54-79`: allocation of the coefficient buffers; also returns `mcu_width`. -/
def progAlloc (d : Decoder) : Out (Nat × List (List I16)) :=
  let mw := (if d.interleaved then d.mcuX else (d.info.width.toNat + 7) / 8) * 64
  let mh := if d.interleaved then d.mcuY else (d.info.height.toNat + 7) / 8
  (Out.collect ((List.range d.inputColorspace.numComponents).map fun i =>
    match d.components[i]? with
    | none => .panic .index
    | some c => .ok (List.replicate (mw * c.verticalSample * c.horizontalSample * mh) (0 : I16)))
  ).bind fun bufs => .ok (mw, bufs ++ List.replicate (3 - bufs.length) [])

/-- `mcu_prog.rs:81-126`: all scans. -/
def progScans (bufs : List (List I16)) : M T (List (List I16)) := do
  let bufs ← parseEntropy bufs
  let m ← takeMarker
  let t ← M.get
  scanLoop (t.io.rd.length + 1) 1 m bufs

/-- The bit reader at the start of the first scan (`mcu_prog.rs:81-82`). -/
def progIo (h : H) : B :=
  { bs := BitStream.newProgressive h.dec.succHigh h.dec.succLow h.dec.specStart h.dec.specEnd
    rd := h.rd }

/-- `mcu_prog.rs:81-126`: all scans, started with a new bit reader. -/
def runScans (bufs : List (List I16)) : M H (List (List I16)) := fun h =>
  let (r, t) := progScans bufs { dec := h.dec, io := progIo h }
  (r, { dec := t.dec, rd := t.io.rd })

/-- `mcu_prog.rs:49-129` (`decode_mcu_ycbcr_progressive`) -/
def decodeProgressive : M H (List UInt8) := do
  let d ← getDec
  M.ofOut d.checkComponentDimensions
  let (mw, bufs) ← M.ofOut (progAlloc d)
  let bufs ← runScans bufs
  finishProgressive bufs mw

/-- `decoder.rs:420-434` (`decode_internal`) -/
def decodeInternal : M H (List UInt8) := do
  decodeHeaders
  let d ← getDec
  if d.isProgressive then decodeProgressive else decodeBaseline

/-- `decoder.rs:178-181` (`decode_buffer`). `decode_file` (`decoder.rs:193-202`) is the same on the
contents of the file. -/
def Decoder.decodeBuffer (d : Decoder) (buf : List UInt8) : Out (List UInt8) × Decoder :=
  let (r, s) := decodeInternal { dec := d, rd := buf }
  (r, s.dec)

end Zune
