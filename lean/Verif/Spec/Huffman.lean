import Verif.Spec.Bits
/-!
# Specification: canonical Huffman codes (T.81 Annex C)
-/

namespace Zune.Spec

/-- The code length of every symbol, in increasing order (T.81 figure C.1). `counts` lists the
number of codes of length 1, 2, .... -/
def lengths (counts : List Nat) : List Nat :=
  counts.zipIdx.flatMap fun p => List.replicate p.1 (p.2 + 1)

/-- Code assignment (T.81 figure C.2): take the next number, shifted left whenever the length
grows. `code` is the next free number among the codes of length `size`. The result lists the
length and number of each code. -/
def assign (code size : Nat) : List Nat → List (Nat × Nat)
  | [] => []
  | l :: ls => (l, code * 2 ^ (l - size)) :: assign (code * 2 ^ (l - size) + 1) l ls

/-- The codes of a DHT table. -/
def codes (counts : List Nat) : List (Nat × Nat) := assign 0 0 (lengths counts)

/-- Every code fits into its length and is not all ones. -/
def CodeExists (counts : List Nat) : Prop := ∀ p ∈ codes counts, p.2 + 1 < 2 ^ p.1

/-- The code words with their symbols. -/
def codeBook (counts values : List Nat) : List (List Bool × Nat) :=
  ((codes counts).map fun p => natBits p.1 p.2).zip values

end Zune.Spec
