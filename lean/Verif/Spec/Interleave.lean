import Verif.Spec.Encoder
/-!
# Specification: the entropy coded data of a scan with several components (T.81 A.2.3, F.1.2)

The data units of the components are coded one after the other, each with the code of its component and
with the DC prediction of its component.
-/

namespace Zune.Spec

/-- A data unit: number of the component and coefficients in zig-zag order. -/
abbrev DataUnit := Nat × List Int

/-- The DC predictions after a data unit of component `i`. -/
def putPred (p : Nat → Int) (i : Nat) (x : Int) : Nat → Int := fun k => if k = i then x else p k

/-- The DC predictions after some data units. -/
def predsAfter : (Nat → Int) → List DataUnit → Nat → Int
  | p, [] => p
  | p, u :: us => predsAfter (putPred p u.1 (dcOfBlock u.2)) us

/-- The bits of successive data units; `C` are the codes of the components. -/
def unitsBits (C : Nat → Codes) : (Nat → Int) → List DataUnit → List Bool
  | _, [] => []
  | p, u :: us => blockBits (C u.1).dcWord (C u.1).acWord (p u.1) u.2 ++
      unitsBits C (putPred p u.1 (dcOfBlock u.2)) us

/-- The bits of the DC difference of a data unit. -/
def dcBits (C : Nat → Codes) (p : Nat → Int) (u : DataUnit) : List Bool :=
  dcCode (C u.1).dcWord (dcOfBlock u.2 - p u.1)

/-- The data units can be coded; as for one component (`Codes.Blocks`), a DC code with its additional
bits has at most 16 bits or fits into 32 bits together with the symbol before it (see `c18_false`). -/
def UnitsOk (C : Nat → Codes) : (Nat → Int) → List DataUnit → Prop
  | _, [] => True
  | p, u :: us => (C u.1).Block (p u.1) u.2 ∧
      (∀ u' ∈ us.head?, (dcBits C (putPred p u.1 (dcOfBlock u.2)) u').length ≤ 16 ∨
        (dcBits C (putPred p u.1 (dcOfBlock u.2)) u').length + endBits (C u.1).acWord u.2 ≤ 32) ∧
      UnitsOk C (putPred p u.1 (dcOfBlock u.2)) us

/-- The data units of an MCU: component after component, in each of them row after row; component `i`
has `(f i).1` rows of `(f i).2` units, and `m i a b` is the unit in row `a` and column `b`. -/
def mcuUnits (n : Nat) (f : Nat → Nat × Nat) (m : Nat → Nat → Nat → List Int) : List DataUnit :=
  (List.range n).flatMap fun i => (List.range (f i).1).flatMap fun a => (List.range (f i).2).map fun b =>
    (i, m i a b)

/-- The data units of `count` MCUs from number `k` on. -/
def mcusUnits (n : Nat) (f : Nat → Nat × Nat) (m : Nat → Nat → Nat → Nat → List Int) (k count : Nat) :
    List DataUnit :=
  (List.range' k count).flatMap fun q => mcuUnits n f (m q)

/-- The bytes of the data units, followed by other data bytes. -/
def unitsBytes (C : Nat → Codes) (us : List DataUnit) (fill : List UInt8) : List UInt8 :=
  stuffBytes (packBytes (padBits (unitsBits C (fun _ => 0) us)) ++ fill)

/-- The data units of component `v % n` of MCU `v / n`. -/
def groupUnits (n : Nat) (f : Nat → Nat × Nat) (m : Nat → Nat → Nat → Nat → List Int) (v : Nat) :
    List DataUnit :=
  (List.range (f (v % n)).1).flatMap fun a => (List.range (f (v % n)).2).map fun b =>
    (v % n, m (v / n) (v % n) a b)

/-- The data units of `count` components of MCUs; the first is component `v % n` of MCU `v / n`. -/
def groupsUnits (n : Nat) (f : Nat → Nat × Nat) (m : Nat → Nat → Nat → Nat → List Int) (v count : Nat) :
    List DataUnit :=
  (List.range' v count).flatMap (groupUnits n f m)

/-- The last data unit, the padding and the bytes after it have at least 64 bits. (The decoder drops the
components of an MCU that come after one at which it has seen the end of the image, see `c55_false`.) -/
def EnoughBits (C : Nat → Codes) (us : List DataUnit) (fill : List UInt8) : Prop :=
  ∀ us' u, us = us' ++ [u] →
    64 ≤ (blockBits (C u.1).dcWord (C u.1).acWord (predsAfter (fun _ => 0) us' u.1) u.2).length +
      padCount (unitsBits C (fun _ => 0) us).length + 8 * fill.length

/-- A restart interval that the decoder can leave: the MCUs `k` to `k + r - 1`. The last block ends with a
symbol of at most 24 bits, so that the decoder has seen the restart marker when it has decoded the block.
The last `r` components of MCUs have at least 64 bits, so that it has not seen the marker before that: it
counts components instead of MCUs, and looks for the marker after every `r` of them (see
`c22_false`). -/
structure Leaves (C : Nat → Codes) (n : Nat) (f : Nat → Nat × Nat) (m : Nat → Nat → Nat → Nat → List Int)
    (k r : Nat) : Prop where
  ends : ∀ us u, mcusUnits n f m k r = us ++ [u] → endBits (C u.1).acWord u.2 ≤ 24
  late : 64 ≤ (unitsBits C (predsAfter (fun _ => 0) (groupsUnits n f m (n * k) (n * r - r)))
      (groupsUnits n f m (n * k + (n * r - r)) r)).length

/-- Numbers of MCUs in the restart intervals of a scan of `total` MCUs, `r` MCUs in each interval but the
last. Without restart intervals `r = 0`. -/
def intervalCounts (r total : Nat) : List Nat :=
  if r = 0 then [total]
  else List.replicate ((total - 1) / r) r ++ [total - (total - 1) / r * r]

/-- The bytes of the restart intervals from number `q` on, the first of which begins with MCU `k`,
separated by the markers RST0 to RST7 in turn. -/
def intervalsBytes (C : Nat → Codes) (n : Nat) (f : Nat → Nat × Nat) (m : Nat → Nat → Nat → Nat → List Int)
    (fill : List UInt8) : Nat → Nat → List Nat → List UInt8
  | _, _, [] => []
  | _, k, [c] => unitsBytes C (mcusUnits n f m k c) fill
  | q, k, c :: cs => unitsBytes C (mcusUnits n f m k c) [] ++ [0xFF, UInt8.ofNat (0xD0 + q % 8)] ++
      intervalsBytes C n f m fill (q + 1) (k + c) cs

/-- The restart intervals can be coded and decoded, from the one on that begins with MCU `k`. -/
def IntervalsOk (C : Nat → Codes) (n : Nat) (f : Nat → Nat × Nat) (m : Nat → Nat → Nat → Nat → List Int)
    (fill : List UInt8) : Nat → List Nat → Prop
  | _, [] => True
  | k, [c] => UnitsOk C (fun _ => 0) (mcusUnits n f m k c) ∧ EnoughBits C (mcusUnits n f m k c) fill
  | k, c :: cs => UnitsOk C (fun _ => 0) (mcusUnits n f m k c) ∧ Leaves C n f m k c ∧
      IntervalsOk C n f m fill (k + c) cs

end Zune.Spec
