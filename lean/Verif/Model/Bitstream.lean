import Verif.Model.Marker
import Verif.Model.Huffman
/-!
# The bit reader and the block decoders (`bitstream.rs`)
-/

namespace Zune

/-- `misc.rs:39-51` -/
def UN_ZIGZAG : List Nat := [
     0,  1,  8, 16,  9,  2,  3, 10,
    17, 24, 32, 25, 18, 11,  4,  5,
    12, 19, 26, 33, 40, 48, 41, 34,
    27, 20, 13,  6,  7, 14, 21, 28,
    35, 42, 49, 56, 57, 50, 43, 36,
    29, 22, 15, 23, 30, 37, 44, 51,
    58, 59, 52, 45, 38, 31, 39, 46,
    53, 60, 61, 54, 47, 55, 62, 63,
    63, 63, 63, 63, 63, 63, 63, 63,
    63, 63, 63, 63, 63, 63, 63, 63]

/-- `bitstream.rs:94-114`. `bits_left` (`u8`) and `eob_run` (`i32`, never negative) are `Nat`. -/
structure BitStream where
  buffer : BitVec 64 := 0
  aligned : BitVec 64 := 0
  bitsLeft : Nat := 0
  marker : Option Marker := none
  succHigh : Nat := 0
  succLow : Nat := 0
  specStart : Nat := 0
  specEnd : Nat := 0
  eobRun : Nat := 0
  deriving DecidableEq, Repr

/-- `bitstream.rs:119-132` -/
def BitStream.new : BitStream := {}

/-- `bitstream.rs:136-149` -/
def BitStream.newProgressive (ah al ss se : Nat) : BitStream :=
  { succHigh := ah, succLow := al, specStart := ss, specEnd := se }

/-- `bitstream.rs:660-666` -/
def BitStream.updateProgressiveParams (b : BitStream) (ah al ss se : Nat) : BitStream :=
  { b with succHigh := ah, succLow := al, specStart := ss, specEnd := se }

/-- `bitstream.rs:673-680` -/
def BitStream.reset (b : BitStream) : BitStream :=
  { b with bitsLeft := 0, marker := none, buffer := 0, aligned := 0, eobRun := 0 }

/-- The bit reader together with the unread bytes of the `Cursor`. A cursor position at or past
the end of the data is the empty list. -/
structure B where
  bs : BitStream
  rd : List UInt8
  deriving DecidableEq, Repr

/-- `u64 << n` in the release profile (the shift amount is masked). -/
def shl64 (x : BitVec 64) (n : Nat) : BitVec 64 := x <<< (n % 64)

/-- `bitstream.rs:696-703` (`read_u8`): 0 past the end. -/
def readU8 : List UInt8 → UInt8 × List UInt8
  | [] => (0, [])
  | b :: r => (b, r)

/-- `bitstream.rs:185-188`: skip fill bytes. -/
def skipFill : UInt8 → List UInt8 → UInt8 × List UInt8
  | b, [] => if b = 0xFF then (0, []) else (b, [])
  | b, c :: r => if b = 0xFF then skipFill c r else (b, c :: r)

/-- Result of a single byte refill. -/
inductive Step where
  /-- a data byte was appended -/
  | more (s : B)
  /-- a marker was found: `return Ok(false)` -/
  | stop (s : B)
  /-- an unknown marker was found: `return Err(Format)` -/
  | bad (s : B)

/-- `bitstream.rs:166-213` (macro `refill!`). -/
def refillByte (s : B) : Step :=
  let (byte, rd) := readU8 s.rd
  let buffer := (s.bs.buffer <<< 8) ||| (byte.toBitVec.setWidth 64)
  let bl := s.bs.bitsLeft + 8
  if byte = 0xFF then
    let (nb, rd) := readU8 rd
    if nb ≠ 0 then
      let (nb, rd) := skipFill nb rd
      if nb ≠ 0 then
        let buffer := buffer >>> 8
        let bl := bl - 8
        let aligned := if bl ≠ 0 then shl64 buffer (64 - bl) else s.bs.aligned
        let bs := { s.bs with buffer := buffer, bitsLeft := bl, aligned := aligned }
        match Marker.fromU8 nb with
        | some m => .stop { bs := { bs with marker := some m }, rd := rd }
        | none => .bad { bs := bs, rd := rd }
      else .more { bs := { s.bs with buffer := buffer, bitsLeft := bl }, rd := rd }
    else .more { bs := { s.bs with buffer := buffer, bitsLeft := bl }, rd := rd }
  else .more { bs := { s.bs with buffer := buffer, bitsLeft := bl }, rd := rd }

/-- `bitstream.rs:705-710` -/
def hasZero (v : BitVec 32) : Bool :=
  (~~~((((v &&& 0x7F7F7F7F) + 0x7F7F7F7F) ||| v) ||| 0x7F7F7F7F)) != 0

/-- `bitstream.rs:712-717` -/
def hasByte (b : BitVec 32) (val : BitVec 8) : Bool :=
  hasZero (b ^^^ (0x01010101 * val.setWidth 32))

/-- `u32::from_be_bytes` -/
def be32 (a b c d : UInt8) : BitVec 32 :=
  (a.toBitVec ++ b.toBitVec ++ c.toBitVec ++ d.toBitVec).setWidth 32

/-- `bitstream.rs:247-252`: up to `n` single byte refills and the final update of the aligned
buffer. -/
def refillBytes : Nat → M B Unit
  | 0 => fun s =>
    (.ok (), { s with bs := { s.bs with aligned := shl64 s.bs.buffer (64 - s.bs.bitsLeft) } })
  | n + 1 => fun s =>
    match refillByte s with
    | .more s' => refillBytes n s'
    | .stop s' => (.ok (), s')
    | .bad s' => (.err .format, s')

/-- `bitstream.rs:234-236`: append four bytes that contain no `0xFF`. -/
def fastAppend (bs : BitStream) (w : BitVec 32) : BitStream :=
  let bl := bs.bitsLeft + 32
  let buffer := (bs.buffer <<< 32) ||| w.setWidth 64
  { bs with bitsLeft := bl, buffer := buffer, aligned := shl64 buffer (64 - bl) }

/-- `bitstream.rs:159-261` (`refill`). The returned `bool` is ignored by every caller and not
modelled. The test `position + 4 < len` says that at least five bytes are unread. -/
def refill : M B Unit := fun s =>
  if s.bs.bitsLeft ≤ 32 ∧ s.bs.marker = none then
    match s.rd with
    | a :: b :: c :: d :: e :: r =>
      let w := be32 a b c d
      if !hasByte w 255 then (.ok (), { bs := fastAppend s.bs w, rd := e :: r })
      else refillBytes 4 s
    | _ => refillBytes 4 s
  else if s.bs.marker ≠ none then
    (.ok (), { s with bs := { s.bs with bitsLeft := 63 } })
  else (.ok (), s)

/-- `bitstream.rs:378-381` (`peek_bits`) -/
def BitStream.peek (b : BitStream) (n : Nat) : Nat := (b.aligned >>> (64 - n)).toNat

/-- `bitstream.rs:385-389` (`drop_bits`) -/
def BitStream.drop (b : BitStream) (n : Nat) : BitStream :=
  { b with bitsLeft := b.bitsLeft - n, aligned := b.aligned <<< n }

/-- `bitstream.rs:394-402` (`get_bits`) -/
def BitStream.getBits (b : BitStream) (n : Nat) : I32 × BitStream :=
  let al := b.aligned.rotateLeft n
  ((al &&& (1#64 <<< n - 1#64)).setWidth 32, { b with aligned := al, bitsLeft := b.bitsLeft - n })

/-- `bitstream.rs:436-442` (`get_bit`) -/
def BitStream.getBit (b : BitStream) : Bool × BitStream := (b.aligned.msb, b.drop 1)

/-- `bitstream.rs:685-689` (`huff_extend`) -/
def huffExtend (x : I32) (s : Nat) : I32 :=
  x + ((x - (1#32 <<< (s - 1))).sshiftRight 31 &&& ((-1#32) <<< s + 1#32))

/-- `bitstream.rs:65-70`: the smallest length `≥ len` whose `maxcode` exceeds the window, 17 if
there is none. The first argument is `17 - len`. -/
def slowLen (maxcode : List Int) (window : Int) : Nat → Nat → M B Nat
  | 0, len => pure len
  | n + 1, len => do
    let mc ← M.idx maxcode len
    if window < mc then pure len else slowLen maxcode window n (len + 1)

/-- `bitstream.rs:49-90` (macro `decode_huff!`); `entry` is the lookup entry. Returns the symbol. -/
def decodeHuff (t : HuffmanTable) (entry : Nat) : M B Nat := do
  let len := entry >>> HUFF_LOOKAHEAD
  let sym := entry &&& ((1 <<< HUFF_LOOKAHEAD) - 1)
  if len > HUFF_LOOKAHEAD then
    let s ← M.get
    let window := s.bs.peek 16
    let len ← slowLen t.maxcode window (17 - len) len
    if len = 17 then M.throw .huffmanDecode
    else
      let off ← M.idx t.offset len
      let i := (((window >>> (16 - len) : Nat) : Int) + off) % 256
      let v ← M.idx t.values i.toNat
      M.modify fun s => { s with bs := s.bs.drop len }
      pure v
  else
    M.modify fun s => { s with bs := s.bs.drop len }
    pure sym

/-- `get_bits` as an action. -/
def getBitsM (n : Nat) : M B I32 := fun s =>
  let (v, bs) := s.bs.getBits n
  (.ok v, { s with bs := bs })

/-- `get_bit` as an action. -/
def getBitM : M B Bool := fun s =>
  let (v, bs) := s.bs.getBit
  (.ok v, { s with bs := bs })

/-- `if self.bits_left < n { self.refill(reader)? }` -/
def refillIfBelow (n : Nat) : M B Unit := fun s =>
  if s.bs.bitsLeft < n then refill s else (.ok (), s)

/-- `bitstream.rs:272-297` (`decode_dc`). Returns the new prediction; on any other outcome the
caller keeps the old one, as the Rust code does. -/
def decodeDc (t : HuffmanTable) (pred : I32) : M B I32 := do
  refillIfBelow 16
  let s ← M.get
  let entry ← M.idx t.lookup (s.bs.peek HUFF_LOOKAHEAD)
  let sym ← decodeHuff t entry
  if sym ≠ 0 then
    let r ← getBitsM sym
    pure (pred + huffExtend r sym)
  else pure (pred + 0)

/-- `block[i] = v` -/
def setBlock (block : List I16) (i : Nat) (v : I16) : M B (List I16) := fun s =>
  if i < block.length then (.ok (block.set i v), s) else (.panic .index, s)

/-- `UN_ZIGZAG[i] & 63` -/
def zz (i : Nat) : M B Nat := do
  let z ← M.idx UN_ZIGZAG i
  pure (z &&& 63)

/-- `bitstream.rs:332-371`: the AC loop of `decode_mcu_block`; `fuel` bounds the rounds (`pos`
grows in every round, so 64 is enough). -/
def acLoop (t : HuffmanTable) (acLookup : List I16) : Nat → Nat → List I16 → M B (List I16)
  | 0, pos, block => if pos < 64 then M.diverge else pure block
  | fuel + 1, pos, block =>
    if pos < 64 then do
      refill
      let s ← M.get
      let w := s.bs.peek HUFF_LOOKAHEAD
      let fast ← M.idx acLookup w
      let entry ← M.idx t.lookup w
      if fast ≠ 0 then
        let pos := pos + ((fast >>> 4) &&& 63).toNat
        let i ← zz (min pos 63)
        let block ← setBlock block i (fast.sshiftRight 10)
        M.modify fun s => { s with bs := s.bs.drop (fast &&& 15).toNat }
        acLoop t acLookup fuel (pos + 1) block
      else
        let sym ← decodeHuff t entry
        let r := sym >>> 4
        let size := sym &&& 15
        if size ≠ 0 then
          let pos := pos + r
          let bits ← getBitsM size
          let v := huffExtend bits size
          let i ← zz (pos &&& 63)
          let block ← setBlock block i (v.setWidth 16)
          acLoop t acLookup fuel (pos + 1) block
        else if r ≠ 15 then pure block
        else acLoop t acLookup fuel (pos + 16) block
    else pure block

/-- `bitstream.rs:320, 330-372`: the part of `decode_mcu_block` after the DC coefficient. -/
def decodeAc (t : HuffmanTable) (pred : I32) (block : List I16) : M B (List I16) := do
  let acLookup ← M.unwrap t.acLookup
  let block ← setBlock block 0 (pred.setWidth 16)
  acLoop t acLookup 64 1 block

/-- `bitstream.rs:314-373` (`decode_mcu_block`). The state carries the DC prediction of the
component, which keeps its new value when the AC part fails. The `unwrap` of line 320 happens
before the DC coefficient is read; `ac_lookup` is `Some` for every table in the AC slots. -/
def decodeMcuBlock (dc ac : HuffmanTable) (block : List I16) (pred : I32) :
    B → Out (List I16) × I32 × B := fun s =>
  match ac.acLookup with
  | none => (.panic .unwrap, pred, s)
  | some _ =>
    match decodeDc dc pred s with
    | (.ok p, s') =>
      let (r, s'') := decodeAc ac p block s'
      (r, p, s'')
    | (.err e, s') => (.err e, pred, s')
    | (.panic p, s') => (.panic p, pred, s')
    | (.diverge, s') => (.diverge, pred, s')

/-- `bitstream.rs:407-415` (`decode_prog_dc_first`): the new coefficient and prediction. -/
def decodeProgDcFirst (t : HuffmanTable) (pred : I32) : M B (I16 × I32) := do
  let p ← decodeDc t pred
  let s ← M.get
  pure (p.setWidth 16 * (1#16 <<< s.bs.succLow), p)

/-- `bitstream.rs:417-433` (`decode_prog_dc_refine`) -/
def decodeProgDcRefine (c : I16) : M B I16 := do
  refillIfBelow 1
  let b ← getBitM
  let s ← M.get
  if b then pure (c + (1#16 <<< s.bs.succLow)) else pure c

/-- `bitstream.rs:454-504`: the loop of `decode_mcu_ac_first`. -/
def acFirstLoop (t : HuffmanTable) (acLookup : List I16) (shift specEnd : Nat) :
    Nat → Nat → List I16 → M B (List I16)
  | 0, _, _ => M.diverge
  | fuel + 1, k, block => do
    refill
    let s ← M.get
    let w := s.bs.peek HUFF_LOOKAHEAD
    let fast ← M.idx acLookup w
    let entry ← M.idx t.lookup w
    if fast ≠ 0 then
      let k := k + ((fast >>> 4) &&& 63).toNat
      let i ← zz (min k 63)
      let block ← setBlock block i (fast.sshiftRight 10 * (1#16 <<< shift))
      M.modify fun s => { s with bs := s.bs.drop (fast &&& 15).toNat }
      if k + 1 > specEnd then pure block
      else acFirstLoop t acLookup shift specEnd fuel (k + 1) block
    else
      let sym ← decodeHuff t entry
      let r := sym >>> 4
      let size := sym &&& 15
      if size ≠ 0 then
        let k := k + r
        let bits ← getBitsM size
        let v := huffExtend bits size
        let i ← zz (k &&& 63)
        let block ← setBlock block i (v.setWidth 16 * (1#16 <<< shift))
        if k + 1 > specEnd then pure block
        else acFirstLoop t acLookup shift specEnd fuel (k + 1) block
      else if r ≠ 15 then
        let bits ← getBitsM r
        M.modify fun s => { s with bs := { s.bs with eobRun := (1 <<< r) + bits.toNat - 1 } }
        pure block
      else if k + 16 > specEnd then pure block
      else acFirstLoop t acLookup shift specEnd fuel (k + 16) block

/-- `bitstream.rs:443-506` (`decode_mcu_ac_first`) -/
def decodeMcuAcFirst (t : HuffmanTable) (block : List I16) : M B (List I16) := do
  let s ← M.get
  let acLookup ← M.unwrap t.acLookup
  acFirstLoop t acLookup s.bs.succLow s.bs.specEnd 65 s.bs.specStart block

/-- `bitstream.rs:573-583, 634-643`: apply a correction bit that is set. -/
def refineCoef (bit c : I16) : I16 :=
  if c &&& bit = 0 then (if 0 ≤ c.toInt then c + bit else c - bit) else c

/-- `bitstream.rs:567-602` (`'advance_nonzero`). Returns the position where it stops and the
block. The first argument is `specEnd + 1 - k`. -/
def advanceNonzero (bit : I16) (specEnd : Nat) : Nat → Nat → Nat → List I16 →
    M B (Nat × List I16)
  | 0, k, _, block => pure (k, block)
  | n + 1, k, r, block =>
    if k ≤ specEnd then do
      let i ← zz (k &&& 63)
      let c ← M.idx block i
      if c ≠ 0 then
        let b ← getBitM
        let block ← setBlock block i (if b then refineCoef bit c else c)
        refillIfBelow 1
        advanceNonzero bit specEnd n (k + 1) r block
      else
        match r with
        | 0 => pure (k, block)
        | r + 1 => advanceNonzero bit specEnd n (k + 1) r block
    else pure (k, block)

/-- `bitstream.rs:518-617` (`'no_eob`). Returns the final position and the block. -/
def refineLoop (t : HuffmanTable) (bit : I16) (specEnd : Nat) : Nat → Nat → List I16 →
    M B (Nat × List I16)
  | 0, _, _ => M.diverge
  | fuel + 1, k, block => do
    refill
    let s ← M.get
    let entry ← M.idx t.lookup (s.bs.peek HUFF_LOOKAHEAD)
    let sym ← decodeHuff t entry
    let r := sym >>> 4
    let size := sym &&& 15
    if size = 0 ∧ r ≠ 15 then
      let bits ← getBitsM r
      M.modify fun s => { s with bs := { s.bs with eobRun := (1 <<< r) + bits.toNat } }
      pure (k, block)
    else if size > 1 then M.throw .huffmanDecode
    else
      let v ← if size = 0 then pure (0 : I16) else do
        let b ← getBitM
        pure (if b then bit else -bit)
      let (k, block) ← advanceNonzero bit specEnd (specEnd + 1 - k) k r block
      let block ← if v ≠ 0 then do
          let i ← zz (k &&& 63)
          setBlock block i v
        else pure block
      if k + 1 > specEnd then pure (k + 1, block)
      else refineLoop t bit specEnd fuel (k + 1) block

/-- `bitstream.rs:626-652`: correction bits for the rest of a block inside an end-of-band run.
The first argument is `specEnd + 1 - k`. -/
def eobRefine (bit : I16) (specEnd : Nat) : Nat → Nat → List I16 → M B (List I16)
  | 0, _, block => pure block
  | n + 1, k, block =>
    if k ≤ specEnd then do
      let i ← zz (k &&& 63)
      let c ← M.idx block i
      let block ← if c ≠ 0 then do
          let b ← getBitM
          setBlock block i (if b then refineCoef bit c else c)
        else pure block
      refillIfBelow 1
      eobRefine bit specEnd n (k + 1) block
    else pure block

/-- `bitstream.rs:507-658` (`decode_mcu_ac_refine`) -/
def decodeMcuAcRefine (t : HuffmanTable) (block : List I16) : M B (List I16) := do
  let s ← M.get
  let bit : I16 := 1#16 <<< s.bs.succLow
  let (k, block) ← if s.bs.eobRun = 0 then
      refineLoop t bit s.bs.specEnd 65 s.bs.specStart block
    else pure (s.bs.specStart, block)
  let s' ← M.get
  if s'.bs.eobRun > 0 then
    let block ← if (block.drop 1).any (· ≠ 0) then do
        refill
        eobRefine bit s.bs.specEnd (s.bs.specEnd + 1 - k) k block
      else pure block
    M.modify fun s => { s with bs := { s.bs with eobRun := s.bs.eobRun - 1 } }
    pure block
  else pure block

end Zune
