/-!
# Specification: bit strings

Bit strings are lists of booleans, most significant bit first, as in T.81.
-/

namespace Zune.Spec

/-- The `n` low bits of `v`, most significant first. -/
def natBits : Nat → Nat → List Bool
  | 0, _ => []
  | n + 1, v => v.testBit n :: natBits n v

/-- The number written by a bit string. -/
def bitsNat : List Bool → Nat := List.foldl (fun a b => 2 * a + b.toNat) 0

end Zune.Spec
