import Verif.Model.State
/-!
# Header parsing (`headers.rs`, `decoder.rs:239-411`)
-/

namespace Zune

/-- The decoder together with the unread bytes of the input. -/
structure H where
  dec : Decoder
  rd : List UInt8
  deriving DecidableEq, Repr

/-- Change the decoder. -/
def modDec (f : Decoder → Decoder) : M H Unit := fun s => (.ok (), { s with dec := f s.dec })

/-- Read the decoder. -/
def getDec : M H Decoder := fun s => (.ok s.dec, s)

/-- `Read::read_exact` of `n` bytes with `map_err` to `e`; at the end of the input the position is
irrelevant because every such error ends the call. -/
def readExact (n : Nat) (e : DecodeErr) : M H (List UInt8) := fun s =>
  if s.rd.length < n then (.err e, { s with rd := [] })
  else (.ok (s.rd.take n), { s with rd := s.rd.drop n })

/-- `misc.rs:251-261` (`read_byte`) -/
def readByte : M H UInt8 := fun s =>
  match s.rd with
  | [] => (.err .format, s)
  | b :: r => (.ok b, { s with rd := r })

/-- `misc.rs:282-296` (`read_u16_be`), with `map_err` to `e` -/
def readU16 (e : DecodeErr) : M H UInt16 := fun s =>
  match s.rd with
  | a :: b :: r => (.ok (a.toUInt16 <<< 8 ||| b.toUInt16), { s with rd := r })
  | _ => (.err e, { s with rd := [] })

/-- `BufRead::consume` of a `Cursor`; past the end all later reads fail. -/
def consume (n : Nat) : M H Unit := fun s => (.ok (), { s with rd := s.rd.drop n })

/-- `decoder.rs:274-290, 392-407`: skip a segment by its length field. -/
def skipSegment : M H Unit := do
  let len ← readU16 .exhausted
  if len < 2 then M.throw .format
  else consume (len.toNat - 2)

/-- Pad the symbols read to the 256 element array of the code. -/
def padTo256 (l : List Nat) : List Nat := l ++ List.replicate (256 - l.length) 0

/-- `headers.rs:32-111`: the loop over the tables of a DHT segment; `len` is what is left of the
segment, the first argument bounds the number of rounds. -/
def parseHuffmanLoop : Nat → Nat → M H Nat
  | 0, len => if len > 16 then M.diverge else pure len
  | fuel + 1, len =>
    if len > 16 then do
      let info ← readByte
      let dcOrAc := (info >>> 4).toNat
      let index := (info &&& 0xF).toNat
      if index ≥ MAX_COMPONENTS then M.throw .huffmanDecode
      else if dcOrAc > 1 then M.throw .huffmanDecode
      else
        let counts ← readExact 16 .huffmanDecode
        let bits := 0 :: counts.map (·.toNat)
        let sum := bits.sum
        if sum > 256 then M.throw .huffmanDecode
        else if sum > len - 17 then M.throw .huffmanDecode
        else
          let syms ← readExact sum .format
          let values := padTo256 (syms.map (·.toNat))
          let d ← getDec
          let t ← M.okOr (HuffmanTable.new bits values (dcOrAc = 0) d.isProgressive) .huffmanDecode
          modDec fun d =>
            if dcOrAc = 0 then { d with dcTables := d.dcTables.set index (some t) }
            else { d with acTables := d.acTables.set index (some t) }
          parseHuffmanLoop fuel (len - 17 - sum)
    else pure len

/-- `headers.rs:18-121` (`parse_huffman`) -/
def parseHuffman : M H Unit := do
  let len ← readU16 .formatStatic
  if len < 2 then M.throw .formatStatic
  else
    let left ← parseHuffmanLoop len.toNat (len.toNat - 2)
    M.failIf (left > 0) .huffmanDecode

/-- `headers.rs:533-543` (`un_zig_zag`) -/
def unZigZag (a : List Nat) : List Nat :=
  ((UN_ZIGZAG.take 64).zip a).foldl (fun out (z, v) => out.set z v) (List.replicate 64 0)

/-- `headers.rs:140-193`: the loop over the tables of a DQT segment. -/
def parseDqtLoop : Nat → Nat → M H Unit
  | 0, len => if len > 0 then M.diverge else pure ()
  | fuel + 1, len =>
    if len > 0 then do
      let info ← readByte
      let precision := (info >>> 4).toNat
      let position := (info &&& 0x0f).toNat
      let size := 64 * (precision + 1)
      if size + 1 > len then M.throw .dqt
      else if precision = 0 then
        let vals ← readExact 64 .format
        let table := unZigZag (vals.map (·.toNat))
        if position ≥ MAX_COMPONENTS then M.throw .dqt
        else
          modDec fun d => { d with qtTables := d.qtTables.set position (some table) }
          parseDqtLoop fuel (len - (size + 1))
      else M.throw .dqt
    else pure ()

/-- `headers.rs:125-196` (`parse_dqt`) -/
def parseDqt : M H Unit := do
  let len ← readU16 .format
  if len < 2 then M.throw .dqt
  else parseDqtLoop len.toNat (len.toNat - 2)

/-- `headers.rs:290-302`: read the component specifications. -/
def readComponents : Nat → M H (List Component)
  | 0 => pure []
  | n + 1 => do
    let t ← readExact 3 .format
    match t with
    | [a, b, c] =>
      let comp ← M.ofOut (Component.from a b c)
      let rest ← readComponents n
      pure (comp :: rest)
    | _ => M.panic .index

/-- `headers.rs:306-339`: the loop over the components; returns the updated components. -/
def setupComponents : List Component → M H (List Component)
  | [] => pure []
  | c :: cs => do
    modDec fun d =>
      let hMax := max d.hMax c.horizontalSample
      let vMax := max d.vMax c.verticalSample
      let mw := hMax * 8
      let mh := vMax * 8
      { d with
        hMax := hMax, vMax := vMax, mcuWidth := mw, mcuHeight := mh
        mcuX := (d.info.width.toNat + mw - 1) / mw
        mcuY := (d.info.height.toNat + mh - 1) / mh
        interleaved := if hMax ≠ 1 ∨ vMax ≠ 1 then true else d.interleaved }
    let d ← getDec
    let qt ← M.idx d.qtTables c.quantTableNumber
    let qt ← M.okOr qt .dqt
    let rest ← setupComponents cs
    pure ({ c with quantTable := qt, widthStride := c.widthStride * (d.mcuX * 8) } :: rest)

/-- `headers.rs:200-347` (`parse_start_of_frame`) -/
def parseStartOfFrame (sof : SofMarker) : M H Unit := do
  let length ← readU16 .format
  let precision ← readByte
  if precision ≠ 8 then M.throw .sof
  else
    modDec fun d => { d with info := { d.info with pixelDensity := precision } }
    let h ← readU16 .format
    modDec fun d => { d with info := { d.info with height := h } }
    let w ← readU16 .format
    modDec fun d => { d with info := { d.info with width := w } }
    let d ← getDec
    if w.toNat > d.options.getMaxWidth then M.throw .format
    else if h.toNat > d.options.getMaxHeight then M.throw .format
    else if w = 0 ∨ h = 0 then M.throw .zeroError
    else
      let n ← readByte
      if n = 0 then M.throw .sof
      else if length.toNat ≠ 8 + 3 * n.toNat then M.throw .sof
      else
        modDec fun d =>
          if n = 1 then
            { d with inputColorspace := .grayscale
                     options := d.options.setOutColorspace .grayscale }
          else d
        modDec fun d => { d with info := { d.info with components := n } }
        let comps ← readComponents n.toNat
        modDec fun d => { d with info := { d.info with sof := sof } }
        let comps ← setupComponents comps
        modDec fun d => { d with qtTables := [none, none, none, none], components := comps }

/-- `headers.rs:414-433`: search the component with the given id; the first argument is
`info.components - j`. -/
def findComponent (id : UInt8) (comps : List Component) : Nat → Nat → M H Nat
  | 0, j => pure j
  | n + 1, j => do
    let c ← M.idx comps j
    if c.id = id then pure j else findComponent id comps n (j + 1)

/-- `headers.rs:387-438`: the loop over the components of a scan header. -/
def sosComponents : Nat → Nat → List Bool → M H Unit
  | 0, _, _ => pure ()
  | n + 1, i, seen => do
    let id ← readByte
    let d ← getDec
    if id.toNat > d.components.length then M.throw .sof
    else
      let s ← M.idx seen id.toNat
      if s then M.throw .sof
      else
        let y ← readByte
        let j ← findComponent id d.components d.info.components.toNat 0
        if j = d.info.components.toNat then M.throw .sof
        else
          modDec fun d => { d with
            components := d.components.modify j fun c =>
              { c with dcHuffTable := (y >>> 4).toNat, acHuffTable := (y &&& 0xF).toNat }
            zOrder := d.zOrder.set i j }
          sosComponents n (i + 1) (seen.set id.toNat true)

/-- `headers.rs:350-477` (`parse_sos`) -/
def parseSos : M H Unit := do
  let ls ← readU16 .exhausted
  let ns ← readByte
  modDec fun d => { d with numScans := ns.toNat }
  if ls.toNat ≠ 6 + 2 * ns.toNat then M.throw .sos
  else if ¬ (1 ≤ ns.toNat ∧ ns.toNat < 4) then M.throw .sos
  else
    let d ← getDec
    if d.info.components = 0 then M.throw .sof
    else
      sosComponents ns.toNat 0 (List.replicate MAX_COMPONENTS false)
      let ss ← readByte
      modDec fun d => { d with specStart := (ss &&& 63).toNat }
      let se ← readByte
      modDec fun d => { d with specEnd := (se &&& 63).toNat }
      let ba ← readByte
      modDec fun d => { d with succHigh := (ba >>> 4).toNat }
      if (ba >>> 4).toNat > 13 then M.throw .sof
      else
        modDec fun d => { d with succLow := (ba &&& 0xF).toNat }
        M.failIf ((ba &&& 0xF).toNat > 13) .sof

/-- `decoder.rs:304-411` (`parse_marker_inner`) -/
def parseMarkerInner (m : Marker) : M H Unit :=
  match m with
  | .sof 0 => parseStartOfFrame .baselineDct
  | .sof 2 => do
    modDec fun d => { d with isProgressive := true }
    parseStartOfFrame .progressiveDctHuffman
  | .sof _ => M.throw .unsupported
  | .dqt => parseDqt
  | .dht => parseHuffman
  | .sos => parseSos
  | .eoi => M.throw .format
  | .dac => M.throw .format
  | .dnl => M.throw .format
  | .dri => do
    let len ← readU16 .exhausted
    if len ≠ 4 then M.throw .format
    else
      let ri ← readU16 .exhausted
      modDec fun d => { d with restartInterval := ri.toNat, todo := ri.toNat }
  | .rst _ => skipSegment
  | .soi => skipSegment
  | .app _ => skipSegment
  | .com => skipSegment

/-- `decoder.rs:258-290`: what is done with the byte `m` that follows the byte `last`. The result
is the new `bytes_before_marker`, `none` for the return at the start of scan. -/
def headerStep (last : UInt8) (count : Nat) (m : UInt8) : M H (Option Nat) :=
  if last = 0xFF then
    match Marker.fromU8 m with
    | some mk => do
      parseMarkerInner mk
      if mk = .sos then pure none else pure (some 0)
    | none => do
      skipSegment
      pure (some 0)
  else pure (some count)

/-- `decoder.rs:253-302`: the marker loop. `last` is `last_byte`, `count` is
`bytes_before_marker`. Every round reads a byte, so the first argument never runs out when it
exceeds the number of unread bytes. -/
def headerLoop : Nat → UInt8 → Nat → M H Unit
  | 0, _, _ => M.diverge
  | fuel + 1, last, count => do
    let m ← readByte
    match ← headerStep last count m with
    | none => pure ()
    | some c =>
      let d ← getDec
      if d.options.getStrictMode ∧ c + 1 > 3 then M.throw .formatStatic
      else headerLoop fuel m (c + 1)

/-- `decoder.rs:239-303` (`decode_headers_internal`) -/
def decodeHeaders : M H Unit := fun s => (do
  let magic ← readU16 .exhausted
  if magic ≠ 0xffd8 then M.throw (.illegalMagic magic.toNat)
  else headerLoop (s.rd.length + 1) 0 0 : M H Unit) s

/-- `decoder.rs:452-458` (`read_headers`) -/
def Decoder.readHeaders (d : Decoder) (buf : List UInt8) : Out Unit × Decoder :=
  let (r, s) := decodeHeaders { dec := d, rd := buf }
  (r, s.dec)

end Zune
