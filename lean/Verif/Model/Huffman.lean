import Verif.Model.Basic
/-!
# Huffman tables (`huffman.rs`)
-/

namespace Zune

/-- `huffman.rs:9` -/
def HUFF_LOOKAHEAD : Nat := 9

/-- `huffman.rs:14-41`. `lookup` entries and `bits`, `values` are non-negative, hence `Nat`;
`maxcode` and `offset` are `i32` that stay far from overflow, hence `Int`. -/
structure HuffmanTable where
  maxcode : List Int
  offset : List Int
  lookup : List Nat
  acLookup : Option (List I16)
  bits : List Nat
  values : List Nat
  deriving DecidableEq, Repr

/-- Write `v` to the `n` cells from `start` on. Model of the loops `huffman.rs:169-174, 195-198`. -/
def fillRange {α} (xs : List α) (start n : Nat) (v : α) : List α :=
  xs.take start ++ List.replicate n v ++ xs.drop (start + n)

/-- `huffman.rs:83-95`: the code lengths, one per symbol, in increasing order (figure C.1). `ls`
pairs each length with its count. The terminating 0 entry of the array is the end of the list. -/
def huffSizes (bits : List Nat) : List Nat :=
  ((List.range 17).zip bits).flatMap fun (l, n) => if l = 0 then [] else List.replicate n l

/-- `huffman.rs:100-124`: generate the codes. The first argument bounds the number of rounds of
the outer loop (17 is enough because lengths are at most 16). Returns the codes and the `maxcode`
array; `none` is the error return of line 119. -/
def genCodes : Nat → List Nat → Nat → Nat → List Int → Option (List Nat × List Int)
  | _, [], _, _, mc => some ([], mc)
  | 0, _ :: _, _, _, _ => none
  | fuel + 1, s :: ss, code, si, mc =>
    let sizes := s :: ss
    let n := (sizes.takeWhile (· == si)).length
    let code' := code + n
    let mc' := mc.set si (code' <<< (16 - si) : Nat)
    if code' ≥ 1 <<< si then none
    else
      match genCodes fuel (sizes.drop n) (code' * 2) (si + 1) mc' with
      | none => none
      | some (cs, m) => some (List.range' code n ++ cs, m)

/-- `huffman.rs:127-143`: `offset` (and `-1` in `maxcode`) for each length; the list holds the
remaining `(l, bits[l])`. -/
def genOffsets (codes : List Nat) : List (Nat × Nat) → Nat → List Int → List Int →
    List Int × List Int
  | [], _, mc, off => (mc, off)
  | (l, n) :: rest, p, mc, off =>
    if n = 0 then genOffsets codes rest p (mc.set l (-1)) off
    else genOffsets codes rest (p + n) mc (off.set l ((p : Int) - (codes[p]?.getD 0 : Nat)))

/-- `huffman.rs:160-178`: the lookup table. The loops visit the symbols in order as long as their
length is at most `HUFF_LOOKAHEAD`; lengths are increasing, so this is a filter. -/
def genLookup (entries : List (Nat × Nat × Nat)) (lookup : List Nat) : List Nat :=
  (entries.filter (fun e => e.1 ≤ HUFF_LOOKAHEAD)).foldl
    (fun tbl (l, code, v) =>
      fillRange tbl (code <<< (HUFF_LOOKAHEAD - l)) (1 <<< (HUFF_LOOKAHEAD - l))
        ((l <<< HUFF_LOOKAHEAD) ||| v)) lookup

/-- `huffman.rs:182-200`: `fast[w]` is the index of the symbol whose code starts the window `w`,
255 if there is none (or if the symbol has index 255). -/
def genFast (entries : List (Nat × Nat × Nat)) : List Nat :=
  (entries.zipIdx.filter (fun e => e.1.1 ≤ HUFF_LOOKAHEAD)).foldl
    (fun tbl (e, i) =>
      fillRange tbl (e.2.1 <<< (HUFF_LOOKAHEAD - e.1)) (1 <<< (HUFF_LOOKAHEAD - e.1)) i)
    (List.replicate 512 255)

/-- `huffman.rs:213-253`: entry of the combined table for window `i`, given the run/size symbol and
the code length. -/
def fastAcEntry (i rs len : Nat) (isProgressive : Bool) : I16 :=
  let run := rs >>> 4 &&& 15
  let mag := rs &&& 15
  if mag = 0 ∧ isProgressive = false then
    let newRun := if run = 0 then 63 else run
    BitVec.ofNat 16 (newRun <<< 4) + BitVec.ofNat 16 len
  else if mag ≠ 0 ∧ len + mag ≤ HUFF_LOOKAHEAD then
    let k0 : Int := ((((i <<< len) &&& 511) >>> (HUFF_LOOKAHEAD - mag) : Nat) : Int)
    let m : Int := ((1 <<< (mag - 1) : Nat) : Int)
    let k : Int := if k0 < m then k0 + (1 - ((1 <<< mag : Nat) : Int)) else k0
    if -128 ≤ k ∧ k ≤ 127 then
      (BitVec.ofInt 16 k <<< 10) + BitVec.ofNat 16 (run <<< 4) + BitVec.ofNat 16 (len + mag)
    else 0
  else 0

/-- `huffman.rs:204-255`: the combined run/value table. -/
def genFastAc (entries : List (Nat × Nat × Nat)) (isProgressive : Bool) : List I16 :=
  (genFast entries).zipIdx.map fun (v, i) =>
    if v < 255 then
      match entries[v]? with
      | some (len, _, rs) => fastAcEntry i rs len isProgressive
      | none => 0
    else 0

/-- `huffman.rs:101` (`si = huff_size[0]`) -/
def firstSize : List Nat → Nat
  | [] => 0
  | s :: _ => s

/-- `huffman.rs:45-62, 73-276` (`HuffmanTable::new`, `make_derived_table`). `bits` has 17 entries
(entry 0 is 0), `values` 256. `none` is `Err(HuffmanDecode("Bad Huffman Table"))`. -/
def HuffmanTable.new (bits values : List Nat) (isDc isProgressive : Bool) : Option HuffmanTable :=
  let sizes := huffSizes bits
  match genCodes 17 sizes 0 (firstSize sizes) (List.replicate 18 0) with
  | none => none
  | some (codes, mc) =>
    let (mc, off) := genOffsets codes ((List.range 17).zip bits) 0 mc (List.replicate 18 0)
    let off := off.set 17 0
    let mc := mc.set 17 0xFFFFF
    let entries := sizes.zip (codes.zip values)
    let lookup := genLookup entries
      (List.replicate 512 ((HUFF_LOOKAHEAD + 1) <<< HUFF_LOOKAHEAD))
    let ac := if isDc then none else some (genFastAc entries isProgressive)
    if isDc && (values.take sizes.length).any (fun s => s > 15) then none
    else some { maxcode := mc, offset := off, lookup := lookup, acLookup := ac, bits := bits,
                values := values }

end Zune
