/-!
# Specification: magnitude categories (T.81 F.1.2.1, F.2.2.1)
-/

namespace Zune.Spec

/-- The difference with magnitude category `s` and additional bits `v` (T.81 table F.1: the values
of category `s` in increasing order are numbered from 0; the lower half is negative). -/
def extend (s v : Nat) : Int := if v < 2 ^ (s - 1) then (v : Int) - 2 ^ s + 1 else v

/-- `d` belongs to magnitude category `s` (T.81 table F.1): `2^(s-1) ≤ |d| < 2^s`. -/
def inCategory (s : Nat) (d : Int) : Prop := 2 ^ (s - 1) ≤ d.natAbs ∧ d.natAbs < 2 ^ s

/-- The additional bits sent for a value of category `s` (T.81 F.1.2.1.1): the low bits of `d`, or
of `d - 1` when `d` is negative. -/
def additional (s : Nat) (d : Int) : Nat := ((if 0 < d then d else d - 1) % 2 ^ s).toNat

end Zune.Spec
