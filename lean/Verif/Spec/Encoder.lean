import Verif.Spec.Block
import Verif.Spec.Scan
import Verif.Spec.Huffman
/-!
# Specification: the entropy coded data of a scan with one component (T.81 F.1.2, B.2.1, E.1.4)

A block is the list of its 64 quantised coefficients in zig-zag order. Code words are given as
functions from symbols to bit strings.
-/

namespace Zune.Spec

/-- The DC coefficient. -/
def dcOfBlock (b : List Int) : Int := b.headD 0

/-- The bits of a block after a block (or the start of an interval) with DC coefficient `pred`. -/
def blockBits (dcWord acWord : Nat → List Bool) (pred : Int) (b : List Int) : List Bool :=
  dcCode dcWord (dcOfBlock b - pred) ++ symbolBits acWord (acSymbols 0 b.tail)

/-- The bits of successive blocks. -/
def blocksBits (dcWord acWord : Nat → List Bool) : Int → List (List Int) → List Bool
  | _, [] => []
  | pred, b :: bs => blockBits dcWord acWord pred b ++ blocksBits dcWord acWord (dcOfBlock b) bs

/-- Number of one bits that complete the last byte. -/
def padCount (n : Nat) : Nat := (8 - n % 8) % 8

/-- Fill the last byte with one bits. -/
def padBits (l : List Bool) : List Bool := l ++ List.replicate (padCount l.length) true

/-- Whole bytes of a bit string. -/
def packBytes : List Bool → List UInt8
  | a :: b :: c :: d :: e :: f :: g :: h :: r =>
    UInt8.ofNat (bitsNat [a, b, c, d, e, f, g, h]) :: packBytes r
  | _ => []

/-- A zero byte after every `FF`. -/
def stuffBytes (l : List UInt8) : List UInt8 := l.flatMap fun b => if b = 0xFF then [0xFF, 0] else [b]

/-- The bytes of a restart interval. -/
def intervalBytes (dcWord acWord : Nat → List Bool) (blocks : List (List Int)) : List UInt8 :=
  stuffBytes (packBytes (padBits (blocksBits dcWord acWord 0 blocks)))

/-- The bytes of the restart intervals of a scan, from number `k` on, separated by the markers RST0 to
RST7 in turn. -/
def scanBytes (dcWord acWord : Nat → List Bool) : Nat → List (List (List Int)) → List UInt8
  | _, [] => []
  | _, [iv] => intervalBytes dcWord acWord iv
  | k, iv :: ivs =>
    intervalBytes dcWord acWord iv ++ [0xFF, UInt8.ofNat (0xD0 + k % 8)] ++
      scanBytes dcWord acWord (k + 1) ivs

/-- Number of bits of the last symbol, `k` if there is none. -/
def lastBits (word : Nat → List Bool) (k : Nat) (l : List (Nat × List Bool)) : Nat :=
  match l.getLast? with
  | some p => (word p.1 ++ p.2).length
  | none => k

/-- Number of bits of the last symbol of a block. -/
def endBits (acWord : Nat → List Bool) (b : List Int) : Nat := lastBits acWord 32 (acSymbols 0 b.tail)

/-- A pair of Huffman codes: number of codes of each length and symbols, as in a DHT segment, with the
word of every symbol. -/
structure Codes where
  dcCounts : List Nat
  dcValues : List Nat
  acCounts : List Nat
  acValues : List Nat
  dcWord : Nat → List Bool
  acWord : Nat → List Bool

/-- The symbols of the block have codes, the coefficients have at most 15 bits, and no symbol of size 6
or more has a code that fits, with the bits that follow it, in 9 bits (see `c13_false_magnitude`). -/
structure Codes.Block (c : Codes) (pred : Int) (b : List Int) : Prop where
  len : b.length = 64
  size : ∀ x ∈ b.tail, category x ≤ 15
  dc : (c.dcWord (category (dcOfBlock b - pred)), category (dcOfBlock b - pred)) ∈
    codeBook c.dcCounts c.dcValues
  ac : ∀ p ∈ acSymbols 0 b.tail, (c.acWord p.1, p.1) ∈ codeBook c.acCounts c.acValues
  safe : ∀ p ∈ acSymbols 0 b.tail, 6 ≤ p.1 % 16 → 9 < (c.acWord p.1).length + p.1 % 16

/-- The DC code of `b'` is short enough to be read after `b`: the decoder makes sure of 16 bits only
(see `c18_false`), and it has refilled its buffer to 32 bits before the last symbol of `b`. -/
def Codes.Follows (c : Codes) (b b' : List Int) : Prop :=
  (dcCode c.dcWord (dcOfBlock b' - dcOfBlock b)).length ≤ 16 ∨
  (dcCode c.dcWord (dcOfBlock b' - dcOfBlock b)).length + endBits c.acWord b ≤ 32

/-- The blocks can be coded after a block with DC coefficient `pred`. -/
def Codes.Blocks (c : Codes) : Int → List (List Int) → Prop
  | _, [] => True
  | pred, b :: bs => c.Block pred b ∧ (∀ b' ∈ bs.head?, c.Follows b b') ∧ c.Blocks (dcOfBlock b) bs

/-- The blocks of the restart intervals: `n` in every interval but the last, which has at most `n`. The
last block of an interval that is followed by another one ends with a symbol of at most 24 bits; an end
of block symbol does. Without restart intervals (`n = 0`) all blocks are in one interval. -/
def Codes.Intervals (c : Codes) (n : Nat) : List (List (List Int)) → Prop
  | [] => False
  | [iv] => iv ≠ [] ∧ c.Blocks 0 iv ∧ (n ≠ 0 → iv.length ≤ n)
  | iv :: ivs => iv ≠ [] ∧ c.Blocks 0 iv ∧ iv.length = n ∧
    (∀ b ∈ iv.getLast?, endBits c.acWord b ≤ 24) ∧ c.Intervals n ivs

/-- The coefficients of a block in natural order. -/
def naturalOrder (b : List Int) : List Int :=
  (List.range 64).map fun z => b.getD (zigzag.idxOf z) 0

end Zune.Spec
