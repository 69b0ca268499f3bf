import Verif.Lemmas.Refine
import Verif.Props.Blocks
/-!
# Properties C20, C24, C25: totality of block decoding, successive approximation
-/

namespace Zune
open Spec M

/-- **C20, baseline.** With accepted tables and any reader state, decoding a block returns `Ok` or
`Err`: it does not panic and needs at most 64 rounds. The block keeps its 64 entries, and the
reader only moves forward. -/
theorem c20_baseline {dcCounts dcValues acCounts acValues : List Nat} {dp ap : Bool}
    {dc ac : HuffmanTable} (hdc : Accepted dcCounts dcValues true dp dc)
    (hac : Accepted acCounts acValues false ap ac) (block : List I16) (hb : block.length = 64)
    (pred : I32) (s : B) :
    Returns (decodeMcuBlock dc ac block pred s).1 ∧
    (decodeMcuBlock dc ac block pred s).2.2.rd <:+ s.rd ∧
    ∀ b', (decodeMcuBlock dc ac block pred s).1 = .ok b' → b'.length = 64 := by
  have hL : ac.acLookup ≠ none := by
    obtain ⟨-, -, -, -, hl, -, -⟩ := table_parts hac.len hac.table
    rw [hl]; simp
  have hdcw : wp False False (decodeDc dc pred) (fun _ s' => Same s s') (fun _ s' => Same s s') s :=
    wp_decodeDc (fun _ => hdc.ok) (fun _ _ h => h) (fun _ _ h => h)
  unfold decodeMcuBlock
  rcases hL' : ac.acLookup with _ | L
  · exact absurd hL' hL
  · simp only
    rcases hd : decodeDc dc pred s with ⟨_ | _ | _ | _, s'⟩ <;> simp only [wp, hd] at hdcw
    · rename_i p
      have haw : wp False False (decodeAc ac p block) (fun b' s'' => Same s' s'' ∧ b'.length = 64)
          (fun _ s'' => Same s' s'') s' :=
        wp_decodeAc (fun _ => hac.ok) (fun _ => hL) hb (fun _ _ h h' => ⟨h, h'⟩) (fun _ _ h => h)
      simp only
      refine ⟨wp_returns haw, ?_, ?_⟩
      · rcases ha : decodeAc ac p block s' with ⟨_ | _ | _ | _, s''⟩ <;> simp only [wp, ha] at haw
        · exact haw.1.rd.trans hdcw.rd
        · exact haw.rd.trans hdcw.rd
      · intro b' hb'
        rcases ha : decodeAc ac p block s' with ⟨_ | _ | _ | _, s''⟩ <;> simp only [wp, ha] at haw
        · rw [ha] at hb'; cases hb'; exact haw.2
        · rw [ha] at hb'; cases hb'
    · exact ⟨Or.inr ⟨_, rfl⟩, hdcw.rd, fun _ h => by cases h⟩

/-- **C20, first AC scan.** -/
theorem c20_ac_first {counts values : List Nat} {prog : Bool} {t : HuffmanTable}
    (ht : Accepted counts values false prog t) (block : List I16) (hb : block.length = 64) (s : B)
    (hse : s.bs.specEnd ≤ 63) :
    Returns (decodeMcuAcFirst t block s).1 ∧ (decodeMcuAcFirst t block s).2.rd <:+ s.rd ∧
    ∀ b', (decodeMcuAcFirst t block s).1 = .ok b' → b'.length = 64 := by
  have hL : t.acLookup ≠ none := by
    obtain ⟨-, -, -, -, hl, -, -⟩ := table_parts ht.len ht.table
    rw [hl]; simp
  have h : wp False False (decodeMcuAcFirst t block) (fun b' s' => SameP s s' ∧ b'.length = 64)
      (fun _ s' => SameP s s') s :=
    wp_decodeMcuAcFirst (fun _ => ht.ok) (fun _ => hL) hb (by omega)
      (fun _ _ h h' => ⟨h, h'⟩) (fun _ _ h => h)
  refine ⟨wp_returns h, ?_, ?_⟩
  · rcases ha : decodeMcuAcFirst t block s with ⟨_ | _ | _ | _, s''⟩ <;> simp only [wp, ha] at h
    · exact h.1.rd
    · exact h.rd
  · intro b' hb'
    rcases ha : decodeMcuAcFirst t block s with ⟨_ | _ | _ | _, s''⟩ <;> simp only [wp, ha] at h
    · rw [ha] at hb'; cases hb'; exact h.2
    · rw [ha] at hb'; cases hb'

/-- **C20, AC refinement.** For every band, also empty ones. -/
theorem c20_ac_refine {counts values : List Nat} {prog : Bool} {t : HuffmanTable}
    (ht : Accepted counts values false prog t) (block : List I16) (hb : block.length = 64) (s : B)
    (hse : s.bs.specEnd ≤ 63) :
    Returns (decodeMcuAcRefine t block s).1 ∧ (decodeMcuAcRefine t block s).2.rd <:+ s.rd ∧
    ∀ b', (decodeMcuAcRefine t block s).1 = .ok b' → b'.length = 64 := by
  have h : wp False False (decodeMcuAcRefine t block) (fun b' s' => SameP s s' ∧ b'.length = 64)
      (fun _ s' => SameP s s') s :=
    wp_decodeMcuAcRefine_total (fun _ => ht.ok) (by omega) hb
      (fun _ _ h h' => ⟨h, h'⟩) (fun _ _ h => h)
  refine ⟨wp_returns h, ?_, ?_⟩
  · rcases ha : decodeMcuAcRefine t block s with ⟨_ | _ | _ | _, s''⟩ <;> simp only [wp, ha] at h
    · exact h.1.rd
    · exact h.rd
  · intro b' hb'
    rcases ha : decodeMcuAcRefine t block s with ⟨_ | _ | _ | _, s''⟩ <;> simp only [wp, ha] at h
    · rw [ha] at hb'; cases hb'; exact h.2
    · rw [ha] at hb'; cases hb'

/-- The hypotheses are met by table K.5, an empty block and 5 arbitrary bytes. -/
example : ∃ t, Accepted lumAcCounts lumAcValues false false t ∧
    (List.replicate 64 (0 : I16)).length = 64 ∧
    ({ bs := BitStream.newProgressive 0 1 1 63, rd := [1, 2, 3, 0xFF, 0xD9] } : B).bs.specEnd ≤ 63 := by
  obtain ⟨t, ht⟩ := lumAc_accepted
  exact ⟨t, ht, by rw [List.length_replicate], by decide⟩

/-- **C24, partial.** A refinement scan over the band `specStart..specEnd` on any bytes: every
coefficient of the band is refined in the sense of `Spec.Refined`, coefficients outside are
unchanged. Missing: the coefficient right behind the band (in zig-zag order, wrapping to the DC
coefficient) may be overwritten with plus or minus the current bit, see `c24_false`. -/
theorem c24_refine_partial {counts values : List Nat} {isDc prog : Bool} {t : HuffmanTable}
    (_ht : Accepted counts values isDc prog t) (block : List I16) (hb : block.length = 64) (s s' : B)
    (h1 : 1 ≤ s.bs.specStart) (h2 : s.bs.specStart ≤ s.bs.specEnd) (h3 : s.bs.specEnd ≤ 63)
    (b' : List I16) (hok : decodeMcuAcRefine t block s = (.ok b', s')) (k z : Nat)
    (hz : zigzag[k]? = some z) :
    ∃ c c', block[z]? = some c ∧ b'[z]? = some c' ∧
      (s.bs.specStart ≤ k ∧ k ≤ s.bs.specEnd → Refined (1#16 <<< s.bs.succLow) c c') ∧
      (¬ (s.bs.specStart ≤ k ∧ k ≤ s.bs.specEnd) → c' = c ∨ (k = (s.bs.specEnd + 1) % 64 ∧
        (c' = 1#16 <<< s.bs.succLow ∨ c' = -(1#16 <<< s.bs.succLow)))) := by
  have h : wp True True (decodeMcuAcRefine t block) (fun b' _ =>
      RefFinal (1#16 <<< s.bs.succLow) s.bs.specStart s.bs.specEnd block b') (fun _ _ => True) s :=
    wp_decodeMcuAcRefine (fun h => absurd trivial h) h1 h2 h3 hb (fun _ _ _ h => h)
      (fun _ _ _ => trivial)
  have := wp_ok h hok
  obtain ⟨c, c', e1, e2, e3, e4⟩ := this.2 k z hz
  exact ⟨c, c', e1, e2, fun ⟨a, b⟩ => e3 a b, e4⟩

/-- A reader in a refinement scan of the band 1..5 at bit 0, over the bits `01000000..`. -/
def c24State : B :=
  { bs := BitStream.newProgressive 1 0 1 5, rd := [0b01000000, 0, 0, 0, 0, 0] }

/-- A non-trivial case for `c24_refine_partial`: coefficient 1 is refined from 2 to 3 by the bits
`0` (code of symbol 0x01 with one code), `0` (sign), `1` (correction bit). -/
example : ((HuffmanTable.new (0 :: (oneCode 0x01).1) (oneCode 0x01).2 false true).bind fun t =>
    (decodeMcuAcRefine t ((List.replicate 64 0).set 1 2)
      { c24State with rd := [0b00100000, 0, 0, 0, 0, 0] }).1.toOption.map fun b' =>
        (b'[1]?, b'[8]?)) = some (some 3#16, some (-1#16)) := by
  decide +kernel

/-- **C24 is false in general.** The symbol 0xF1 in a band of five zero coefficients writes
coefficient 6, outside the band. -/
theorem c24_false : zigzag[6]? = some 3 ∧
    ((HuffmanTable.new (0 :: (oneCode 0xF1).1) (oneCode 0xF1).2 false true).bind fun t =>
      (decodeMcuAcRefine t (List.replicate 64 0) c24State).1.toOption.map fun b' => b'[3]?) =
        some (some 1) := by
  decide +kernel

/-! ### C25 -/

/-- Bit `i` of a two's complement number. -/
def Spec.bitAt (x : Int) (i : Nat) : Bool := x / 2 ^ i % 2 = 1

/-- The scans `i - 1, .., 0` applied to a coefficient, scan `j` being read by `S j`. -/
def refineDown (S : Nat → B) : Nat → I16 → Option I16
  | 0, c => some c
  | i + 1, c =>
    match (decodeProgDcRefine c (S i)).1 with
    | .ok c' => refineDown S i c'
    | _ => none

theorem one_shift (i : Nat) : (1#16 <<< i) = BitVec.ofInt 16 (2 ^ i) := by
  apply BitVec.eq_of_toNat_eq
  rw [BitVec.toNat_shiftLeft, BitVec.toNat_ofInt]
  have : ((2 : Int) ^ i) % ((2 : Nat) ^ 16 : Nat) = (((2 ^ i % 2 ^ 16 : Nat)) : Int) := by
    push_cast; rfl
  rw [this, Int.toNat_natCast, Nat.shiftLeft_eq]
  show (1 * 2 ^ i) % 2 ^ 16 = _
  rw [Nat.one_mul]

/-- **C25, first scan.** The first DC scan at point transform `Al` stores the value shifted right
and back left by `Al`; the prediction is that of the shifted values. -/
theorem c25_first {counts values : List Nat} {prog : Bool} {t : HuffmanTable}
    (ht : Accepted counts values true prog t) (word : Nat → List Bool) (x prev : Int)
    {s : B} {rest : List Bool} {tail}
    (hm : (word (category (x / 2 ^ s.bs.succLow - prev)), category (x / 2 ^ s.bs.succLow - prev)) ∈
      codeBook counts values)
    (h : Rep s (dcCode word (x / 2 ^ s.bs.succLow - prev) ++ rest) tail)
    (hready : s.bs.bitsLeft < 16 ∨ (dcCode word (x / 2 ^ s.bs.succLow - prev)).length ≤ 16 ∨
      (dcCode word (x / 2 ^ s.bs.succLow - prev)).length ≤ s.bs.bitsLeft) :
    ∃ s', decodeProgDcFirst t (BitVec.ofInt 32 prev) s =
        (.ok (BitVec.ofInt 16 (x / 2 ^ s.bs.succLow * 2 ^ s.bs.succLow),
          BitVec.ofInt 32 (x / 2 ^ s.bs.succLow)), s') ∧ Rep s' rest tail := by
  obtain ⟨s', e, r⟩ := c18_dc_partial ht word _ (BitVec.ofInt 32 prev) hm h hready
  refine ⟨s', ?_, r⟩
  have hs : s'.bs.succLow = s.bs.succLow := by
    have hw : wp True True (decodeDc t (BitVec.ofInt 32 prev)) (fun _ s' => Same s s')
        (fun _ _ => True) s :=
      wp_decodeDc (fun h => absurd trivial h) (fun _ _ h => h) (fun _ _ _ => trivial)
    exact (wp_ok hw e).sl
  have hp : BitVec.ofInt 32 prev + BitVec.ofInt 32 (x / 2 ^ s.bs.succLow - prev) =
      BitVec.ofInt 32 (x / 2 ^ s.bs.succLow) := by
    rw [← BitVec.ofInt_add]; congr 1; omega
  rw [decodeProgDcFirst, M.bind_ok e, M.bind_ok (M.get_apply s'), hs, hp]
  have hsw : (BitVec.ofInt 32 (x / 2 ^ s.bs.succLow)).setWidth 16 =
      BitVec.ofInt 16 (x / 2 ^ s.bs.succLow) := by
    apply BitVec.eq_of_toNat_eq
    simp only [BitVec.toNat_setWidth, BitVec.toNat_ofInt]
    omega
  rw [hsw, one_shift, ← BitVec.ofInt_mul]
  rfl

/-- **C25.** From the coefficient of the first scan at `Al`, the refinement scans `Al - 1, .., 0`
whose next bits are the corresponding bits of `x` rebuild `x`. -/
theorem c25_rebuild (x : Int) (al : Nat) (S : Nat → B) (rest : Nat → List Bool)
    (tail : Nat → Option (UInt8 × List UInt8)) (hlow : ∀ i < al, (S i).bs.succLow = i)
    (hrep : ∀ i < al, Rep (S i) (bitAt x i :: rest i) (tail i)) :
    refineDown S al (BitVec.ofInt 16 (x / 2 ^ al * 2 ^ al)) = some (BitVec.ofInt 16 x) := by
  induction al with
  | zero => simp [refineDown]
  | succ i ih =>
    have hr := hrep i (by omega)
    obtain ⟨s1, r1, r2, r3, r4⟩ := hr.refillIfBelow 1 (by omega)
    have h1 : 1 ≤ s1.bs.bitsLeft := by
      rcases r3 with r3 | r3
      · exact r3
      · simp at r3; omega
    obtain ⟨s2, q1, q2, -⟩ := r2.getBit h1
    have hs : s2.bs.succLow = i := by
      have hw : wp True True (do refillIfBelow 1; getBitM) (fun _ s' => Same (S i) s')
          (fun _ _ => True) (S i) := by
        rw [wp_bind]
        refine wp_refillIfBelow (fun s' h => ?_) (fun _ _ => trivial)
        exact wp_getBitM fun _ _ h' => h.trans h'
      have := wp_ok hw (a := bitAt x i) (s' := s2) (by rw [M.bind_ok r1, q1])
      rw [this.sl, hlow i (by omega)]
    have e : decodeProgDcRefine (BitVec.ofInt 16 (x / 2 ^ (i + 1) * 2 ^ (i + 1))) (S i) =
        (.ok (BitVec.ofInt 16 (x / 2 ^ i * 2 ^ i)), s2) := by
      rw [decodeProgDcRefine, M.bind_ok r1, M.bind_ok q1, M.bind_ok (M.get_apply s2), hs]
      have hq : x / 2 ^ (i + 1) = x / 2 ^ i / 2 := by
        rw [Int.pow_succ, Int.ediv_ediv_of_nonneg (by positivity)]
      have hm := Int.emod_two_eq (x / 2 ^ i)
      have hdm := Int.mul_ediv_add_emod (x / 2 ^ i) 2
      unfold bitAt
      by_cases hb : x / 2 ^ i % 2 = 1
      · simp only [hb, decide_true, if_true]
        rw [one_shift, M.pure_apply, ← BitVec.ofInt_add]
        have : x / 2 ^ (i + 1) * 2 ^ (i + 1) + 2 ^ i = x / 2 ^ i * 2 ^ i := by
          rw [hq, Int.pow_succ]
          have : x / 2 ^ i = 2 * (x / 2 ^ i / 2) + 1 := by omega
          generalize x / 2 ^ i / 2 = y at *
          rw [this]; ring
        rw [this]
      · have h0 : x / 2 ^ i % 2 = 0 := by omega
        simp only [h0]
        have : x / 2 ^ (i + 1) * 2 ^ (i + 1) = x / 2 ^ i * 2 ^ i := by
          rw [hq, Int.pow_succ]
          have : x / 2 ^ i = 2 * (x / 2 ^ i / 2) := by omega
          generalize x / 2 ^ i / 2 = y at *
          rw [this]; ring
        rw [this]; rfl
    rw [refineDown, e]
    exact ih (fun j hj => hlow j (by omega)) (fun j hj => hrep j (by omega))

/-- Readers for the three refinement scans of the value -6 = ...11010. -/
example : ∀ i < 3, Rep { bs := { succLow := i }, rd := [if bitAt (-6) i then 0x80 else 0] }
    (bitAt (-6) i :: List.replicate 7 false) none := by
  intro i hi
  have he : ∀ i < 3, scanEnd [if bitAt (-6) i then 0x80 else 0] = none := by decide +kernel
  have h := rep_new [if bitAt (-6) i then 0x80 else 0] { succLow := i } rfl rfl
    (by rw [he i hi]; simp)
  rw [he i hi] at h
  have hb : ∀ i < 3, bytesBits (scanData [if bitAt (-6) i then 0x80 else 0]) =
      bitAt (-6) i :: List.replicate 7 false := by decide +kernel
  rw [← hb i hi]
  exact h

end Zune
