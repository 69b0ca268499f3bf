import Verif.Spec.Bits
import Verif.Spec.Extend
/-!
# Specification: zig-zag order and entropy coding of a block (T.81 A.3.6, F.1.2)
-/

namespace Zune.Spec

/-- The cells of an anti-diagonal of an 8x8 block, as (row, column), from the top right to the
bottom left. -/
def diagonal (d : Nat) : List (Nat × Nat) :=
  ((List.range 8).filter fun r => r ≤ d ∧ d < r + 8).map fun r => (r, d - r)

/-- The zig-zag path (T.81 figure A.6): even diagonals are run through upwards, odd ones
downwards. The entries are natural positions `8 * row + column`. -/
def zigzag : List Nat :=
  ((List.range 15).flatMap fun d => if d % 2 = 0 then (diagonal d).reverse else diagonal d).map
    fun p => 8 * p.1 + p.2

/-- The magnitude category of a value (T.81 table F.1): the number of bits of its absolute value.
-/
def category (d : Int) : Nat := if d = 0 then 0 else d.natAbs.log2 + 1

/-- The magnitude bits that follow the code of a value. -/
def magnitudeBits (d : Int) : List Bool := natBits (category d) (additional (category d) d)

/-- A DC difference: the symbol and the bits that follow it (T.81 F.1.2.1). -/
def dcCode (word : Nat → List Bool) (diff : Int) : List Bool :=
  word (category diff) ++ magnitudeBits diff

/-- The run/size symbols, with their additional bits, for a list of AC coefficients in zig-zag
order (T.81 F.1.2.2). The first argument is the number of zeros since the last non-zero
coefficient. Runs of 16 zeros are coded as `F0`; trailing zeros as `00`. -/
def acSymbols : Nat → List Int → List (Nat × List Bool)
  | 0, [] => []
  | _ + 1, [] => [(0x00, [])]
  | run, c :: cs =>
    if c = 0 then acSymbols (run + 1) cs
    else List.replicate (run / 16) (0xF0, []) ++
      (16 * (run % 16) + category c, magnitudeBits c) :: acSymbols 0 cs

/-- The bits for a list of symbols. -/
def symbolBits (word : Nat → List Bool) (syms : List (Nat × List Bool)) : List Bool :=
  syms.flatMap fun p => word p.1 ++ p.2

end Zune.Spec
