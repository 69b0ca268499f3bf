import Verif.Model.Basic
/-!
# Specification: successive approximation (T.81 G.1.2.3)
-/

namespace Zune.Spec

/-- What a refinement scan with current bit `bit` may do to a coefficient: leave it, move a
non-zero coefficient whose bit is clear away from zero by `bit`, or turn a zero into plus or minus
`bit`. -/
def Refined (bit c c' : BitVec 16) : Prop :=
  c' = c ∨
  (c ≠ 0 ∧ c &&& bit = 0 ∧ c' = if 0 < c.toInt then c + bit else c - bit) ∨
  (c = 0 ∧ (c' = bit ∨ c' = -bit))

end Zune.Spec
