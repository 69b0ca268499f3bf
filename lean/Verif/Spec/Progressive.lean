import Verif.Spec.Encoder
import Verif.Spec.Huffman
/-!
# Specification: the scans of a progressive image with one component (T.81 G.1.2)

A block is the list of its 64 quantised coefficients in zig-zag order. The encoder sends the DC
coefficient divided by `2 ^ al` (rounded down) and the other coefficients divided by `2 ^ al` (rounded
towards zero), band by band, and later one more bit of each.
-/

namespace Zune.Spec

/-- The DC coefficient after the point transform (T.81 G.1.2.1). -/
def pointDc (al : Nat) (x : Int) : Int := x / 2 ^ al

/-- Another coefficient after the point transform (T.81 G.1.2.2). -/
def pointAc (al : Nat) (x : Int) : Int := x.tdiv (2 ^ al)

/-- The coefficients `ss` to `se` of a block after the point transform. -/
def band (ss se al : Nat) (b : List Int) : List Int :=
  ((b.take (se + 1)).drop ss).map (pointAc al)

/-- What is known of coefficient `k` with value `x` when all but its last `al` bits have been sent;
`none`: nothing has been sent. -/
def approx (lev : Option Nat) (k : Nat) (x : Int) : Int :=
  match lev with
  | none => 0
  | some al => (if k = 0 then pointDc al x else pointAc al x) * 2 ^ al

/-- What is known of a block. -/
def approxBlock (lev : Nat → Option Nat) (b : List Int) : List Int :=
  b.mapIdx fun k x => approx (lev k) k x

/-- The coefficients `ss` to `se` have been sent but for their last `al` bits. -/
def setLevel (lev : Nat → Option Nat) (ss se al : Nat) : Nat → Option Nat :=
  fun k => if ss ≤ k ∧ k ≤ se then some al else lev k

/-! ### DC scans -/

/-- The differences of the transformed DC coefficients, after a block with coefficient `pred`. -/
def dcDiffs (al : Nat) : Int → List (List Int) → List Int
  | _, [] => []
  | pred, b :: bs => (pointDc al (dcOfBlock b) - pred) :: dcDiffs al (pointDc al (dcOfBlock b)) bs

/-- First DC scan. -/
def dcFirstBits (word : Nat → List Bool) (diffs : List Int) : List Bool := diffs.flatMap (dcCode word)

/-- Refinement of the DC coefficients. -/
def dcRefineBits (al : Nat) (blocks : List (List Int)) : List Bool :=
  blocks.map fun b => decide (pointDc al (dcOfBlock b) % 2 = 1)

/-! ### First scan of a band -/

/-- The symbols for the non-zero coefficients of a band, with their additional bits; the first argument
is the number of zeros since the last of them. -/
def coefSymbols : Nat → List Int → List (Nat × List Bool)
  | _, [] => []
  | run, c :: cs =>
    if c = 0 then coefSymbols (run + 1) cs
    else List.replicate (run / 16) (0xF0, []) ++
      (16 * (run % 16) + category c, magnitudeBits c) :: coefSymbols 0 cs

/-- The last coefficient of the band is zero. -/
def endsZero (cs : List Int) : Prop := ∀ c ∈ cs.getLast?, c = 0

instance (cs : List Int) : Decidable (endsZero cs) := by unfold endsZero; infer_instance

/-- The end of band symbol for `n` blocks: `EOBr` with `r` further bits, for `2 ^ r ≤ n < 2 ^ (r + 1)`.
-/
def eobSymbol (n : Nat) : Nat × List Bool := (16 * n.log2, natBits n.log2 (n - 2 ^ n.log2))

/-- The symbols encode the bands of the blocks (T.81 G.1.2.2). A band whose last coefficient is zero
ends with an end of band symbol, which may also stand for the bands that follow if they are all zero. -/
inductive AcFirst : List (List Int) → List (Nat × List Bool) → Prop
  | nil : AcFirst [] []
  | full {cs rest toks} : ¬ endsZero cs → AcFirst rest toks →
      AcFirst (cs :: rest) (coefSymbols 0 cs ++ toks)
  | run {cs zs rest toks} : endsZero cs → (∀ z ∈ zs, ∀ x ∈ z, x = 0) → zs.length + 1 < 2 ^ 15 →
      AcFirst rest toks →
      AcFirst (cs :: (zs ++ rest)) (coefSymbols 0 cs ++ eobSymbol (zs.length + 1) :: toks)

/-! ### Refinement of a band -/

/-- The correction bits of the coefficients that were non-zero before this scan. -/
def corrections (qs : List Int) : List Bool :=
  (qs.filter fun q => 2 ≤ q.natAbs).map fun q => decide (q.natAbs % 2 = 1)

/-- The symbols of the refinement of a band, each followed by the bits given with it (T.81 G.1.2.3), and
the correction bits after the last symbol; `none` if nothing is left after it. `r` zeros have been
passed since the last symbol, and `pend` are the correction bits since then. -/
def refineSymbols : Nat → List Bool → List Int → List (Nat × List Bool) × Option (List Bool)
  | r, pend, [] => ([], if r = 0 ∧ pend = [] then none else some pend)
  | r, pend, q :: qs =>
    if ∀ x ∈ q :: qs, x.natAbs ≠ 1 then ([], some (pend ++ corrections (q :: qs)))
    else if 2 ≤ q.natAbs then refineSymbols r (pend ++ [decide (q.natAbs % 2 = 1)]) qs
    else if q ≠ 0 then
      ((16 * r + 1, decide (0 < q) :: pend) :: (refineSymbols 0 [] qs).1, (refineSymbols 0 [] qs).2)
    else if r = 15 then ((0xF0, pend) :: (refineSymbols 0 [] qs).1, (refineSymbols 0 [] qs).2)
    else refineSymbols (r + 1) pend qs

/-- The symbols encode the refinement of the bands of the blocks (T.81 G.1.2.3). An end of band symbol
may stand for several blocks without new non-zero coefficients; the correction bits of these blocks
follow it. -/
inductive AcRefine : List (List Int) → List (Nat × List Bool) → Prop
  | nil : AcRefine [] []
  | full {qs rest toks} : (refineSymbols 0 [] qs).2 = none → AcRefine rest toks →
      AcRefine (qs :: rest) ((refineSymbols 0 [] qs).1 ++ toks)
  | run {qs zs rest toks corr} : (refineSymbols 0 [] qs).2 = some corr →
      (∀ z ∈ zs, ∀ x ∈ z, x.natAbs ≠ 1) → zs.length + 1 < 2 ^ 15 → AcRefine rest toks →
      AcRefine (qs :: (zs ++ rest)) ((refineSymbols 0 [] qs).1 ++
        ((eobSymbol (zs.length + 1)).1,
          (eobSymbol (zs.length + 1)).2 ++ (corr ++ zs.flatMap corrections)) :: toks)

/-! ### Scans -/

/-- A Huffman table as in the file. -/
structure HTable where
  counts : List UInt8
  symbols : List UInt8

/-- The codes of a table. -/
def HTable.book (h : HTable) : List (List Bool × Nat) :=
  codeBook (h.counts.map (·.toNat)) (h.symbols.map (·.toNat))

/-- The data of a scan with parameters `ss`, `se`, `ah`, `al`, when `lev` is known of the blocks, with the
tables `dc` and `ac` and the code words `word`.

Two restrictions are not of the standard but of the decoder. A code word and the bits that follow it
may have up to 16 bits in a first DC scan. Coefficients of category 6 and more may not have a code word
so short that both fit into the 9 bits of the decoder's fast lookup (see C13). -/
inductive ScanData (dc ac : Option HTable) (lev : Nat → Option Nat) (blocks : List (List Int))
    (word : Nat → List Bool) : Nat → Nat → Nat → Nat → List Bool → Prop
  | dcFirst {al tab} : dc = some tab →
      (∀ x ∈ dcDiffs al 0 blocks,
        (word (category x), category x) ∈ tab.book ∧ (dcCode word x).length ≤ 16) →
      ScanData dc ac lev blocks word 0 0 0 al (dcFirstBits word (dcDiffs al 0 blocks))
  | dcRefine {al tab} : dc = some tab → lev 0 = some (al + 1) →
      ScanData dc ac lev blocks word 0 0 (al + 1) al (dcRefineBits al blocks)
  | acFirst {ss se al tab toks} : ac = some tab → 1 ≤ ss → ss ≤ se → se < 64 →
      (∀ k, ss ≤ k → k ≤ se → lev k = none) → AcFirst (blocks.map (band ss se al)) toks →
      (∀ p ∈ toks, (word p.1, p.1) ∈ tab.book ∧
        (6 ≤ p.1 % 16 → 9 < (word p.1).length + p.1 % 16)) →
      ScanData dc ac lev blocks word ss se 0 al (symbolBits word toks)
  | acRefine {ss se al tab toks} : ac = some tab → 1 ≤ ss → ss ≤ se → se < 64 →
      (∀ k, ss ≤ k → k ≤ se → lev k = some (al + 1)) → AcRefine (blocks.map (band ss se al)) toks →
      (∀ p ∈ toks, (word p.1, p.1) ∈ tab.book) →
      ScanData dc ac lev blocks word ss se (al + 1) al (symbolBits word toks)

end Zune.Spec
