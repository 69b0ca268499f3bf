import Verif.Lemmas.AcRefine
import Verif.Lemmas.Gray
/-! One block of each kind of progressive scan. -/

namespace Zune
open Spec

/-- The eob run does not matter for the bits. -/
theorem Rep.eob {s : B} {bits tail} (h : Rep s bits tail) (n : Nat) :
    Rep { s with bs := { s.bs with eobRun := n } } bits tail :=
  ⟨h.le, h.sync, h.le63, h.pre, h.atEnd, h.exact⟩

/-! ### Arithmetic of the point transform -/

theorem one_shl (al : Nat) : (1#16 <<< al) = BitVec.ofInt 16 (2 ^ al) := by
  rw [BitVec.shiftLeft_eq_mul_twoPow, BitVec.one_mul]
  apply BitVec.eq_of_toNat_eq
  rw [BitVec.toNat_twoPow, show ((2 : Int) ^ al) = ((2 ^ al : Nat) : Int) by push_cast; rfl,
    BitVec.ofInt_natCast, BitVec.toNat_ofNat]

theorem shl_mul (x : Int) (al : Nat) :
    BitVec.ofInt 16 x * (1#16 <<< al) = BitVec.ofInt 16 (x * 2 ^ al) := by
  rw [one_shl, BitVec.ofInt_mul]

theorem pointAc_succ (al : Nat) (x : Int) : pointAc (al + 1) x = (pointAc al x).tdiv 2 := by
  unfold pointAc
  have h : ∀ y : Int, 0 ≤ y → y.tdiv (2 ^ (al + 1)) = (y.tdiv (2 ^ al)).tdiv 2 := by
    intro y hy
    rw [Int.tdiv_eq_ediv_of_nonneg hy, Int.tdiv_eq_ediv_of_nonneg hy,
      Int.tdiv_eq_ediv_of_nonneg (Int.ediv_nonneg hy (by positivity)),
      Int.ediv_ediv_of_nonneg (by positivity), pow_succ]
  by_cases hx : 0 ≤ x
  · exact h x hx
  · have := h (-x) (by omega)
    rw [Int.neg_tdiv, Int.neg_tdiv, Int.neg_tdiv] at this
    omega

theorem tdiv_two (q : Int) : (0 ≤ q → q.tdiv 2 = q / 2) ∧ (q < 0 → q.tdiv 2 = -((-q) / 2)) := by
  refine ⟨fun h => Int.tdiv_eq_ediv_of_nonneg h, fun h => ?_⟩
  have := Int.tdiv_eq_ediv_of_nonneg (a := -q) (b := 2) (by omega)
  rw [Int.neg_tdiv] at this
  omega

theorem pointDc_succ (al : Nat) (x : Int) : pointDc (al + 1) x = pointDc al x / 2 := by
  unfold pointDc
  rw [Int.ediv_ediv_of_nonneg (by positivity), pow_succ]

theorem pointAc_abs (al : Nat) (x : Int) : (pointAc al x).natAbs * 2 ^ al ≤ x.natAbs := by
  unfold pointAc
  rw [Int.natAbs_tdiv, Int.natAbs_pow]
  exact Nat.div_mul_le_self _ _

theorem and_shl (h : Int) (al : Nat) :
    BitVec.ofInt 16 (h * 2 ^ (al + 1)) &&& (1#16 <<< al) = 0 := by
  rw [← shl_mul, BitVec.shiftLeft_eq_mul_twoPow, BitVec.one_mul, ← BitVec.shiftLeft_eq_mul_twoPow]
  apply BitVec.eq_of_getLsbD_eq
  intro i hi
  simp only [BitVec.getLsbD_and, BitVec.getLsbD_shiftLeft]
  by_cases he : i < al + 1
  · simp [he]
  · have : i - al ≠ 0 := by omega
    simp [this]

theorem toInt_ofInt16 {x : Int} (h : x.natAbs < 2 ^ 15) : (BitVec.ofInt 16 x).toInt = x := by
  rw [BitVec.toInt_ofInt]
  exact Int.bmod_eq_of_le (by omega) (by omega)

theorem ofInt16_zero {x : Int} (h : x.natAbs < 2 ^ 15) : BitVec.ofInt 16 x = 0 ↔ x = 0 := by
  constructor
  · intro e
    have := congrArg BitVec.toInt e
    rwa [toInt_ofInt16 h] at this
  · rintro rfl; rfl

/-- A coefficient that is refined by the bit of weight `2 ^ al`. -/
theorem refines_point {al : Nat} {x : Int} (hx : x.natAbs < 2 ^ 15) {k : Nat} (hk : k ≠ 0) :
    Refines (1#16 <<< al) (pointAc al x) (BitVec.ofInt 16 (approx (some (al + 1)) k x))
      (BitVec.ofInt 16 (approx (some al) k x)) := by
  have hq := pointAc_abs al x
  have hs := pointAc_succ al x
  unfold approx
  dsimp only
  rw [if_neg hk, if_neg hk, hs]
  obtain ⟨q, hqe⟩ : ∃ q, pointAc al x = q := ⟨_, rfl⟩
  rw [hqe] at hq ⊢
  have ht := tdiv_two q
  obtain ⟨y, hy⟩ : ∃ y, q.tdiv 2 = y := ⟨_, rfl⟩
  rw [hy] at ht ⊢
  obtain ⟨p, hp⟩ : ∃ p : Nat, 2 ^ al = p := ⟨_, rfl⟩
  have hp' : ((2 : Int) ^ al) = (p : Int) := by rw [← hp]; push_cast; rfl
  have hp0 : 0 < p := by rw [← hp]; positivity
  rw [hp] at hq
  have h2 : y * 2 ^ (al + 1) = 2 * y * p := by rw [pow_succ, hp']; ring
  have habs : (2 * y * (p : Int)).natAbs ≤ x.natAbs := by
    rw [Int.natAbs_mul, Int.natAbs_natCast]
    refine Nat.le_trans (Nat.mul_le_mul_right p ?_) hq
    omega
  have hand := and_shl (y) al
  rw [h2] at hand
  rw [h2, hp']
  have hbit : (1#16 <<< al) = BitVec.ofInt 16 p := by rw [one_shl, hp']
  rw [hbit] at hand ⊢
  have hzero : BitVec.ofInt 16 (2 * y * (p : Int)) = 0 ↔ q.natAbs < 2 := by
    rw [ofInt16_zero (by omega)]
    constructor
    · intro h
      rcases Int.mul_eq_zero.1 h with h | h
      · omega
      · omega
    · intro h
      have : y = 0 := by omega
      rw [this]; simp
  refine ⟨hzero, fun hge => ?_, ?_, ?_, ?_⟩
  · by_cases hodd : q.natAbs % 2 = 1
    · rw [if_pos hodd]
      unfold refineCoef
      rw [if_pos hand, toInt_ofInt16 (by omega)]
      by_cases hpos : 0 < q
      · rw [if_pos, ← BitVec.ofInt_add]
        · congr 1
          have : q = 2 * y + 1 := by omega
          conv_lhs => rw [this]
          ring
        · exact Int.mul_nonneg (by omega) (by omega)
      · rw [if_neg, BitVec.sub_eq_add_neg, ← BitVec.ofInt_neg, ← BitVec.ofInt_add]
        · congr 1
          have : q = 2 * y - 1 := by omega
          conv_lhs => rw [this]
          ring
        · intro h
          have h1 : 2 * y * (p : Int) < 0 := Int.mul_neg_of_neg_of_pos (by omega) (by omega)
          omega
    · rw [if_neg hodd]
      have : q = 2 * y := by omega
      conv_lhs => rw [this]
  · rintro rfl
    rw [Int.one_mul]
  · rintro rfl
    rw [← BitVec.ofInt_neg]
    congr 1
    omega
  · rintro rfl
    have : y = 0 := by omega
    rw [this]
    simp

/-! ### Blocks -/

/-- A stored coefficient. -/
def valAt (lev : Nat → Option Nat) (b : List Int) (k : Nat) : I16 :=
  BitVec.ofInt 16 (approx (lev k) k (b.getD k 0))

theorem approxBlock_get {lev : Nat → Option Nat} {b : List Int} {k : Nat} (hk : k < b.length) :
    (approxBlock lev b)[k]? = some (approx (lev k) k (b.getD k 0)) := by
  unfold approxBlock
  rw [List.getElem?_mapIdx, List.getD_eq_getElem?_getD, List.getElem?_eq_getElem hk]
  rfl

theorem approxBlock_val {lev : Nat → Option Nat} {b : List Int} (hb : b.length = 64) {k z : Nat}
    (hz : zigzag[k]? = some z) : (coded (approxBlock lev b))[z]? = some (valAt lev b k) := by
  have hk : k < 64 := by
    have := (List.getElem?_eq_some_iff.1 hz).1
    rwa [zigzag_length] at this
  exact coded_get hz (approxBlock_get (by omega))

theorem mixed_start {lev lev' : Nat → Option Nat} {b : List Int} (hb : b.length = 64) {n : Nat}
    (h : ∀ k, k < n → lev' k = lev k) :
    Mixed (valAt lev b) (valAt lev' b) (coded (approxBlock lev b)) n := by
  refine ⟨coded_length _, fun k z hz => ?_⟩
  rw [approxBlock_val hb hz]
  by_cases hk : k < n
  · rw [if_pos hk, valAt, valAt, h k hk]
  · rw [if_neg hk]

theorem mixed_end {lev lev' : Nat → Option Nat} {b : List Int} (hb : b.length = 64) {n : Nat}
    {block : List I16} (h : ∀ k, n ≤ k → lev' k = lev k)
    (hm : Mixed (valAt lev b) (valAt lev' b) block n) : block = coded (approxBlock lev' b) := by
  apply List.ext_getElem?
  intro z
  by_cases hz : z < 64
  · obtain ⟨k, -, hkz⟩ := zigzag_surj z hz
    rw [hm.2 k z hkz, approxBlock_val hb hkz]
    by_cases hk : k < n
    · rw [if_pos hk]
    · rw [if_neg hk, valAt, valAt, h k (by omega)]
  · rw [List.getElem?_eq_none (by rw [hm.1]; omega), List.getElem?_eq_none (by rw [coded_length]; omega)]

theorem band_length {ss se al : Nat} {b : List Int} (hb : b.length = 64) (hse : se < 64) :
    (band ss se al b).length = se + 1 - ss := by
  simp [band, hb]; omega

theorem band_get {ss se al : Nat} {b : List Int} (hb : b.length = 64) (hse : se < 64) {i : Nat} {q : Int}
    (h : (band ss se al b)[i]? = some q) : ss + i ≤ se ∧ q = pointAc al (b.getD (ss + i) 0) := by
  have hi := (List.getElem?_eq_some_iff.1 h).1
  rw [band_length hb hse] at hi
  refine ⟨by omega, ?_⟩
  unfold band at h
  rw [List.getElem?_map, List.getElem?_drop, List.getElem?_take_of_lt (by omega),
    List.getElem?_eq_getElem (by omega)] at h
  rw [List.getD_eq_getElem?_getD, List.getElem?_eq_getElem (by omega)]
  simpa using h.symm

/-- The coefficients fit in 16 bits. -/
structure BlockOk (b : List Int) : Prop where
  len : b.length = 64
  small : ∀ x ∈ b, x.natAbs < 2 ^ 15

theorem BlockOk.get {b : List Int} (h : BlockOk b) (k : Nat) : (b.getD k 0).natAbs < 2 ^ 15 := by
  rw [List.getD_eq_getElem?_getD]
  by_cases hk : k < b.length
  · rw [List.getElem?_eq_getElem hk]
    exact h.small _ (List.getElem_mem hk)
  · rw [List.getElem?_eq_none (by omega)]
    exact (by decide : (0 : Int).natAbs < 2 ^ 15)

theorem setLevel_in {lev : Nat → Option Nat} {ss se al k : Nat} (h1 : ss ≤ k) (h2 : k ≤ se) :
    setLevel lev ss se al k = some al := if_pos ⟨h1, h2⟩

theorem setLevel_out {lev : Nat → Option Nat} {ss se al k : Nat} (h : k < ss ∨ se < k) :
    setLevel lev ss se al k = lev k := if_neg (by omega)

theorem lookup_of {counts values : List Nat} {prog : Bool} {t : HuffmanTable}
    (ht : Accepted counts values false prog t) : ∃ L, t.acLookup = some L := by
  obtain ⟨-, -, -, -, h, -⟩ := table_parts ht.len ht.table
  exact ⟨_, h⟩

/-- A symbol has a code, and the fast path of the decoder does not spoil it. -/
def Coded (counts values : List Nat) (word : Nat → List Bool) (p : Nat × List Bool) : Prop :=
  (word p.1, p.1) ∈ codeBook counts values ∧ (6 ≤ p.1 % 16 → 9 < (word p.1).length + p.1 % 16)

/-- The run counter after the symbols of a block. -/
def runLeft (fin : Option Nat) (s : B) : B :=
  match fin with
  | none => s
  | some n => { s with bs := { s.bs with eobRun := n - 1 } }

theorem runLeft_rep {fin : Option Nat} {s : B} {bits tail} (h : Rep s bits tail) :
    Rep (runLeft fin s) bits tail := by
  cases fin with
  | none => exact h
  | some n => exact h.eob _

section
variable {t : HuffmanTable} {counts values : List Nat} {word : Nat → List Bool} {ss se al : Nat}
  {lev : Nat → Option Nat} {b : List Int} {s : B} {rest : List Bool}
  {tail : Option (UInt8 × List UInt8)}

/-- First scan of a band: one block. -/
theorem acFirst_block (ht : Accepted counts values false true t) (hb : BlockOk b) (h1 : 1 ≤ ss)
    (hss : ss ≤ se) (hse : se < 64) (hlev : ∀ k, ss ≤ k → k ≤ se → lev k = none)
    (e1 : s.bs.succLow = al) (e2 : s.bs.specStart = ss) (e3 : s.bs.specEnd = se)
    {fin : Option Nat} (hfin : ∀ n ∈ fin, 1 ≤ n ∧ n < 2 ^ 15)
    (hend : fin.isSome ↔ endsZero (band ss se al b))
    (hc : ∀ p ∈ coefSymbols 0 (band ss se al b) ++ (fin.map eobSymbol).toList,
      Coded counts values word p)
    (hr : Rep s (symbolBits word (coefSymbols 0 (band ss se al b) ++ (fin.map eobSymbol).toList) ++ rest)
      tail) :
    ∃ s', decodeMcuAcFirst t (coded (approxBlock lev b)) s =
        (.ok (coded (approxBlock (setLevel lev ss se al) b)), runLeft fin s') ∧
      Rep s' rest tail ∧ Kept s s' := by
  obtain ⟨L, hL⟩ := lookup_of ht
  have hbl := band_length (ss := ss) (al := al) hb.len hse
  have hval : ∀ i c, (band ss se al b)[i]? = some c →
      valAt (setLevel lev ss se al) b (ss + 0 + i) = BitVec.ofInt 16 c * (1#16 <<< al) := by
    intro i c hi
    obtain ⟨h2, rfl⟩ := band_get hb.len hse hi
    rw [Nat.add_zero, valAt, setLevel_in (by omega) h2, shl_mul]
    unfold approx
    dsimp only
    rw [if_neg (by omega : ¬ ss + i = 0)]
  have hold : ∀ k, ss ≤ k → k ≤ se → valAt lev b k = 0 := by
    intro k h2 h3
    rw [valAt, hlev k h2 h3]; rfl
  obtain ⟨block', s', r1, r2, s'', r3, r4, r5⟩ := first_band (sh := al) (se := se) ht hL word
    (old := valAt lev b) (new := valAt (setLevel lev ss se al) b) (tail := tail) rest hse fin hfin
    (band ss se al b) s (coded (approxBlock lev b)) ss 0 65 (by omega) hss (by omega)
    (mixed_start hb.len fun k hk => setLevel_out (Or.inl hk)) (fun k hk => absurd hk (by omega))
    (fun i c hi h0 => by
      rw [hval i c hi, h0]
      obtain ⟨h2, -⟩ := band_get hb.len hse hi
      rw [hold _ (by omega) (by omega)]
      simp)
    (fun i c hi _ => hval i c hi)
    (fun c hc => by
      obtain ⟨i, hi⟩ := List.mem_iff_getElem?.1 hc
      obtain ⟨h2, rfl⟩ := band_get hb.len hse hi
      have h3 := pointAc_abs al (b.getD (ss + i) 0)
      have h4 := hb.get (ss + i)
      have h5 : 0 < 2 ^ al := by positivity
      have h6 : (pointAc al (b.getD (ss + i) 0)).natAbs ≤ (pointAc al (b.getD (ss + i) 0)).natAbs * 2 ^ al :=
        Nat.le_mul_of_pos_right _ h5
      have h7 : (pointAc al (b.getD (ss + i) 0)).natAbs < 2 ^ 15 := by omega
      exact category_le h7)
    (by simpa [endsZero] using hend)
    (fun p hp => (hc p hp).1) (fun p hp => (hc p (by simp [hp])).2) hr
  refine ⟨s'', ?_, r3, r4⟩
  unfold decodeMcuAcFirst
  have hu : M.unwrap t.acLookup s = (.ok L, s) := by rw [hL]; rfl
  rw [M.bind_ok (M.get_apply s), M.bind_ok hu, e1, e2, e3, r1, r5,
    mixed_end hb.len (fun k hk => setLevel_out (Or.inr (by omega))) r2]
  cases fin <;> rfl

/-- The corrections after the end of band symbol. -/
theorem eob_part (hb : BlockOk b) (h1 : 1 ≤ ss) (hse : se < 64) {k n : Nat} (hk : ss ≤ k)
    {block : List I16} {qs : List Int}
    (hmix : Mixed (valAt lev b) (valAt (setLevel lev ss se al) b) block k)
    (hl : k + qs.length = se + 1)
    (href : ∀ i q, qs[i]? = some q → Refines (1#16 <<< al) q (valAt lev b (k + i))
      (valAt (setLevel lev ss se al) b (k + i)))
    (hno : ∀ q ∈ qs, q.natAbs ≠ 1) (he : s.bs.eobRun = n + 1)
    (hr : Rep s (corrections qs ++ rest) tail) :
    ∃ s', (do
        let block ← if (block.drop 1).any (· ≠ 0) then do
            refill
            eobRefine (1#16 <<< al) se (se + 1 - k) k block
          else pure block
        M.modify fun s => { s with bs := { s.bs with eobRun := s.bs.eobRun - 1 } }
        pure block : M B (List I16)) s =
        (.ok (coded (approxBlock (setLevel lev ss se al) b)),
          { s' with bs := { s'.bs with eobRun := n } }) ∧
      Rep s' rest tail ∧ Kept s s' := by
  by_cases hany : (block.drop 1).any (· ≠ 0) = true
  · obtain ⟨s1, f1, f2, f3, k1, -⟩ := hr.refill
    obtain ⟨block', s2, a1, a2, a3, a4⟩ := eobRefine_spec (bit := 1#16 <<< al) hse rest qs s1 block k
      (se + 1 - k) hmix rfl hl href hno (by unfold Avail; omega) f2
    have k2 : Kept s s2 := Kept.trans k1 a4
    refine ⟨s2, ?_, a3, k2⟩
    rw [if_pos hany, M.bind_ok f1, M.bind_ok a1]
    dsimp only
    rw [M.bind_ok (M.modify_apply _ s2), k2.eob, he,
      mixed_end hb.len (fun k hk => setLevel_out (Or.inr (by omega))) a2]
    rfl
  · -- all coefficients are zero
    have hz : ∀ j, k ≤ j → j ≤ se → valAt lev b j = 0 := by
      intro j h2 h3
      obtain ⟨z, hz', hlt, -⟩ := zz_ok j (by omega) s
      have hg := hmix.get hz' h2
      by_contra hne
      apply hany
      rw [List.any_eq_true]
      refine ⟨valAt lev b j, ?_, by simpa using hne⟩
      have hz1 : 1 ≤ z := by
        rcases Nat.eq_zero_or_pos z with h0 | h0
        · subst h0
          have := zigzag_inj hz' (show zigzag[0]? = some 0 by decide)
          omega
        · exact h0
      rw [List.mem_iff_getElem?]
      exact ⟨z - 1, by rw [List.getElem?_drop, Nat.add_sub_cancel' hz1]; exact hg⟩
    have hsmall : ∀ (i : Nat) (q : Int), qs[i]? = some q → q = 0 := by
      intro i q hi
      have hlt := (List.getElem?_eq_some_iff.1 hi).1
      have h2 := ((href i q hi).zero).1 (hz _ (by omega) (by omega))
      have := hno q (List.mem_of_getElem? hi)
      omega
    have hcorr : corrections qs = [] := by
      unfold corrections
      rw [List.map_eq_nil_iff, List.filter_eq_nil_iff]
      intro q hq
      obtain ⟨i, hi⟩ := List.mem_iff_getElem?.1 hq
      rw [hsmall i q hi]
      decide
    rw [hcorr, List.nil_append] at hr
    have hm : Mixed (valAt lev b) (valAt (setLevel lev ss se al) b) block (se + 1) := by
      refine hmix.extend (by omega) fun j h2 h3 => ?_
      have hj : (j - k) < qs.length := by omega
      have := href (j - k) _ (List.getElem?_eq_getElem hj)
      rw [Nat.add_sub_cancel' h2] at this
      exact this.none (hsmall _ _ (List.getElem?_eq_getElem hj))
    refine ⟨s, ?_, hr, Kept.refl s⟩
    have hp : (pure block : M B (List I16)) s = (.ok block, s) := rfl
    rw [if_neg hany, M.bind_ok hp]
    dsimp only
    rw [M.bind_ok (M.modify_apply _ s), he,
      mixed_end hb.len (fun k hk => setLevel_out (Or.inr (by omega))) hm]
    rfl

theorem band_refines (hb : BlockOk b) (h1 : 1 ≤ ss) (hse : se < 64)
    (hlev : ∀ k, ss ≤ k → k ≤ se → lev k = some (al + 1)) (i : Nat) (q : Int)
    (hi : (band ss se al b)[i]? = some q) : Refines (1#16 <<< al) q (valAt lev b (ss + i))
      (valAt (setLevel lev ss se al) b (ss + i)) := by
  obtain ⟨h2, rfl⟩ := band_get hb.len hse hi
  rw [valAt, valAt, hlev _ (by omega) h2, setLevel_in (by omega) h2]
  exact refines_point (hb.get _) (by omega)

/-- Refinement of a band: a block that begins with symbols. -/
theorem acRefine_block {prog : Bool} (ht : Accepted counts values false prog t) (hb : BlockOk b)
    (h1 : 1 ≤ ss) (hss : ss ≤ se) (hse : se < 64) (hal : al < 15)
    (hlev : ∀ k, ss ≤ k → k ≤ se → lev k = some (al + 1))
    (e1 : s.bs.succLow = al) (e2 : s.bs.specStart = ss) (e3 : s.bs.specEnd = se)
    (e4 : s.bs.eobRun = 0) {fin : Option Nat} (hfin : ∀ n ∈ fin, 1 ≤ n ∧ n < 2 ^ 15)
    {corr : List Bool} (hsym : (refineSymbols 0 [] (band ss se al b)).2 = fin.map fun _ => corr)
    (hcorr : fin = none → corr = [])
    (hc : ∀ p ∈ (refineSymbols 0 [] (band ss se al b)).1 ++ (fin.map eobSymbol).toList,
      (word p.1, p.1) ∈ codeBook counts values)
    (hr : Rep s (symbolBits word ((refineSymbols 0 [] (band ss se al b)).1 ++
      (fin.map eobSymbol).toList) ++ (corr ++ rest)) tail) :
    ∃ s', decodeMcuAcRefine t (coded (approxBlock lev b)) s =
        (.ok (coded (approxBlock (setLevel lev ss se al) b)), runLeft fin s') ∧
      Rep s' rest tail ∧ Kept s s' := by
  have hbl := band_length (ss := ss) (al := al) hb.len hse
  have hbit : (1#16 <<< al) ≠ 0 ∧ -(1#16 <<< al) ≠ 0 := by
    have : ∀ a : Fin 15, (1#16 <<< (a : Nat)) ≠ 0 ∧ -(1#16 <<< (a : Nat)) ≠ 0 := by decide
    exact this ⟨al, hal⟩
  obtain ⟨k', block', qs', s1, s2, a1, a2, a3, a4, a5, a6, a7, a8, a9, a10, a11⟩ :=
    refine_band (bit := 1#16 <<< al) (old := valAt lev b) (new := valAt (setLevel lev ss se al) b)
      (tail := tail) ht word rest hse hbit.1 hbit.2 fin hfin corr _ (band ss se al b) s
      (coded (approxBlock lev b)) ss 65 (Nat.le_refl _) (by omega) hss (by omega)
      (mixed_start hb.len fun k hk => setLevel_out (Or.inl hk)) (band_refines hb h1 hse hlev) hsym hcorr hc hr
  unfold decodeMcuAcRefine
  rw [M.bind_ok (M.get_apply s)]
  dsimp only
  rw [e1, e2, e3, e4, if_pos rfl, M.bind_ok a1]
  dsimp only
  rw [M.bind_ok (M.get_apply s1)]
  cases fin with
  | none =>
    have hs1 : s1 = s2 := a11
    subst hs1
    rw [hcorr rfl, List.nil_append] at a9
    refine ⟨s1, ?_, a9, a10⟩
    rw [if_neg (by rw [a10.eob, e4]; omega)]
    have hq := a8 rfl
    subst hq
    have hk' : k' = se + 1 := by simpa using a3
    subst hk'
    rw [mixed_end hb.len (fun k hk => setLevel_out (Or.inr (by omega))) a2]
    rfl
  | some n =>
    have hs1 : s1 = { s2 with bs := { s2.bs with eobRun := n } } := a11
    obtain ⟨n1, n15⟩ := hfin n rfl
    obtain ⟨m, rfl⟩ : ∃ m, n = m + 1 := ⟨n - 1, by omega⟩
    have he : s1.bs.eobRun = m + 1 := by rw [hs1]
    rw [if_pos (by omega)]
    have hr1 : Rep s1 (corrections qs' ++ rest) tail := by rw [hs1, ← a7]; exact a9.eob _
    obtain ⟨s3, b1, b2, b3⟩ := eob_part hb h1 hse a4 a2 a3 a5 a6 he hr1
    -- the run counter is overwritten
    refine ⟨{ s3 with bs := { s3.bs with eobRun := 0 } }, ?_, b2.eob _, ?_⟩
    · rw [b1]; rfl
    · obtain ⟨x1, x2, x3, x4, ex⟩ := a10
      obtain ⟨y1, y2, y3, y4, ey⟩ := b3
      refine ⟨y1, y2, y3, y4, ?_⟩
      show ({ s3.bs with eobRun := 0 } : BitStream) = _
      rw [ey, hs1]
      show ({ ({ s2.bs with eobRun := m + 1 } : BitStream) with
        buffer := y1, aligned := y2, bitsLeft := y3, marker := y4, eobRun := 0 } : BitStream) = _
      rw [ex, ← e4]

/-- Refinement of a band: a block inside an end of band run. -/
theorem acRefine_inside (hb : BlockOk b)
    (h1 : 1 ≤ ss) (hss : ss ≤ se) (hse : se < 64)
    (hlev : ∀ k, ss ≤ k → k ≤ se → lev k = some (al + 1))
    (e1 : s.bs.succLow = al) (e2 : s.bs.specStart = ss) (e3 : s.bs.specEnd = se) {n : Nat}
    (e4 : s.bs.eobRun = n + 1) (hno : ∀ q ∈ band ss se al b, q.natAbs ≠ 1)
    (hr : Rep s (corrections (band ss se al b) ++ rest) tail) :
    ∃ s', decodeMcuAcRefine t (coded (approxBlock lev b)) s =
        (.ok (coded (approxBlock (setLevel lev ss se al) b)),
          { s' with bs := { s'.bs with eobRun := n } }) ∧
      Rep s' rest tail ∧ Kept s s' := by
  have hbl := band_length (ss := ss) (al := al) hb.len hse
  obtain ⟨s3, b1, b2, b3⟩ := eob_part (al := al) (qs := band ss se al b) hb h1 hse (Nat.le_refl ss)
    (mixed_start hb.len fun k hk => setLevel_out (Or.inl hk)) (by omega)
    (band_refines hb h1 hse hlev) hno e4 hr
  refine ⟨s3, ?_, b2, b3⟩
  unfold decodeMcuAcRefine
  rw [M.bind_ok (M.get_apply s)]
  dsimp only
  have hp : (pure (ss, coded (approxBlock lev b)) : M B (Nat × List I16)) s =
    (.ok (ss, coded (approxBlock lev b)), s) := rfl
  rw [e1, e2, e3, if_neg (by omega), M.bind_ok hp]
  dsimp only
  rw [M.bind_ok (M.get_apply s), if_pos (by omega), b1]

end

/-! ### DC coefficients -/

theorem coded_set_dc {lev : Nat → Option Nat} {al : Nat} {b : List Int} (hb : b.length = 64) {v : I16}
    (hv : v = BitVec.ofInt 16 (pointDc al (dcOfBlock b) * 2 ^ al)) :
    (coded (approxBlock lev b)).set 0 v = coded (approxBlock (setLevel lev 0 0 al) b) := by
  have hd : b.getD 0 0 = dcOfBlock b := by
    cases b <;> rfl
  refine mixed_end (lev := lev) hb (n := 1) (fun k hk => setLevel_out (Or.inr (by omega))) ?_
  refine (mixed_start (n := 0) hb fun k hk => absurd hk (by omega)).set (z := 0) v (by decide) ?_
  rw [hv, valAt, setLevel_in (by omega) (by omega), hd]
  rfl

theorem coded_get_dc {lev : Nat → Option Nat} {b : List Int} (hb : b.length = 64) :
    (coded (approxBlock lev b))[0]? = some (BitVec.ofInt 16 (approx (lev 0) 0 (dcOfBlock b))) := by
  have hd : b.getD 0 0 = dcOfBlock b := by
    cases b <;> rfl
  rw [approxBlock_val hb (k := 0) (by decide), valAt, hd]

/-- First scan of the DC coefficients: one block. -/
theorem dcFirst_block {counts values : List Nat} {prog : Bool} {t : HuffmanTable}
    (ht : Accepted counts values true prog t) {word : Nat → List Bool} {al : Nat} {x p : Int}
    (hm : (word (category (x - p)), category (x - p)) ∈ codeBook counts values)
    (h16 : (dcCode word (x - p)).length ≤ 16)
    {s : B} {rest : List Bool} {tail} (hal : s.bs.succLow = al)
    (h : Rep s (dcCode word (x - p) ++ rest) tail) :
    ∃ s', decodeProgDcFirst t (BitVec.ofInt 32 p) s =
        (.ok (BitVec.ofInt 16 (x * 2 ^ al), BitVec.ofInt 32 x), s') ∧
      Rep s' rest tail ∧ Kept s s' ∧
      (s'.bs.marker = none → 16 ≤ s'.bs.bitsLeft + (dcCode word (x - p)).length) := by
  have h15 := dc_symbol_le ht hm
  obtain ⟨hw1, hw2, -⟩ := word_length ht hm
  obtain ⟨d, hd⟩ : ∃ d, x - p = d := ⟨_, rfl⟩
  rw [hd] at hm h16 h h15 hw1 hw2 ⊢
  have hlen : (dcCode word d).length = (word (category d)).length + category d := by
    simp [dcCode]
  obtain ⟨s1, e1, r1, r2, k1⟩ := h.refillIfBelow 16 (by omega)
  have hl1 : (dcCode word d).length ≤ s1.bs.bitsLeft := by
    rcases r2 with r2 | r2
    · omega
    · simp only [List.length_append] at r2; omega
  have h16' : s1.bs.marker = none → 16 ≤ s1.bs.bitsLeft := by
    intro hm'
    unfold Zune.refillIfBelow at e1
    by_cases hlt : s.bs.bitsLeft < 16
    · rw [if_pos hlt] at e1
      obtain ⟨s2, x1, -, -, -, x2⟩ := h.refill
      rw [e1] at x1
      cases x1
      have := x2 hm'
      omega
    · rw [if_neg hlt] at e1
      cases e1
      omega
  have r1' : Rep s1 (word (category d) ++ (magnitudeBits d ++ rest)) tail := by
    rw [← List.append_assoc]; exact r1
  obtain ⟨q1, q2⟩ := Rep.decodeSymbol ht hm r1' (by omega)
  have hsum : BitVec.ofInt 32 p + BitVec.ofInt 32 d = BitVec.ofInt 32 x := by rw [← hd, ofInt_diff]
  have hdec : ∃ s', decodeDc t (BitVec.ofInt 32 p) s = (.ok (BitVec.ofInt 32 x), s') ∧ Rep s' rest tail ∧
      Kept s s' ∧ (s'.bs.marker = none → 16 ≤ s'.bs.bitsLeft + (dcCode word d).length) := by
    rw [decodeDc_eq, M.bind_ok e1, M.bind_ok q1]
    by_cases h0 : d = 0
    · subst h0
      refine ⟨_, ?_, by simpa [magnitudeBits, natBits] using q2, Kept.trans k1 (Kept.drop _ _), ?_⟩
      · rw [if_neg (by simp), ← hsum]
        simp
      · intro hm'
        have := h16' hm'
        show 16 ≤ s1.bs.bitsLeft - (word (category 0)).length + _
        omega
    · have hc := (category_spec d h0).1
      obtain ⟨s2, q3, q4, q5, -, q6⟩ := q2.getBits (w := magnitudeBits d)
        (by simp only [BitStream.drop, magnitudeBits_length]; omega) (by simp; omega)
      refine ⟨s2, ?_, q4, (Kept.trans k1 (Kept.drop _ _)).trans (Kept.getBits q3), ?_⟩
      · rw [magnitudeBits_length] at q3
        rw [if_pos (by omega), M.bind_ok q3, huffExtend_magnitude d h0 h15, ← hsum]
        rfl
      · intro hm'
        rw [q6] at hm'
        have := h16' hm'
        rw [q5, magnitudeBits_length]
        show 16 ≤ s1.bs.bitsLeft - _ - _ + _
        omega
  obtain ⟨s', d1, d2, d3, d4⟩ := hdec
  refine ⟨s', ?_, d2, d3, d4⟩
  unfold decodeProgDcFirst
  rw [M.bind_ok d1, M.bind_ok (M.get_apply s'), d3.low, hal, setWidth_ofInt, shl_mul]
  rfl

/-- Refinement of a DC coefficient. -/
theorem dcRefine_block {al : Nat} {x : Int} {s : B} {rest : List Bool} {tail}
    (hal : s.bs.succLow = al) (h : Rep s (decide (pointDc al x % 2 = 1) :: rest) tail) :
    ∃ s', decodeProgDcRefine (BitVec.ofInt 16 (pointDc (al + 1) x * 2 ^ (al + 1))) s =
        (.ok (BitVec.ofInt 16 (pointDc al x * 2 ^ al)), s') ∧
      Rep s' rest tail ∧ Kept s s' := by
  obtain ⟨s1, f1, f2, f3, k1⟩ := h.refillIfBelow 1 (by omega)
  obtain ⟨s2, g1, g2, -⟩ := f2.getBit (by
    rcases f3 with h | h
    · exact h
    · simp only [List.length_cons] at h; omega)
  have k2 : Kept s s2 := Kept.trans k1 (Kept.getBit g1)
  refine ⟨s2, ?_, g2, k2⟩
  have hv : pointDc (al + 1) x * 2 ^ (al + 1) = 2 * (pointDc al x / 2) * 2 ^ al := by
    rw [pointDc_succ, pow_succ]; ring
  unfold decodeProgDcRefine
  rw [M.bind_ok f1, M.bind_ok g1, M.bind_ok (M.get_apply s2), k2.low, hal, one_shl, hv]
  by_cases hodd : pointDc al x % 2 = 1
  · rw [if_pos (by simpa using hodd), ← BitVec.ofInt_add]
    have : 2 * (pointDc al x / 2) * 2 ^ al + 2 ^ al = pointDc al x * 2 ^ al := by
      have h1 : pointDc al x = 2 * (pointDc al x / 2) + 1 := by omega
      conv_rhs => rw [h1]
      ring
    rw [this]
    rfl
  · rw [if_neg (by simpa using hodd)]
    have : 2 * (pointDc al x / 2) = pointDc al x := by omega
    rw [this]
    rfl

end Zune
