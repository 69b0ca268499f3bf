import Verif.Lemmas.AcLoop
import Verif.Spec.Progressive
/-! The first scan of a band, block by block. -/

namespace Zune
open Spec

/-! ### Fields that reading bits leaves alone -/

/-- Only the buffer and the marker differ. -/
def Kept (s s' : B) : Prop :=
  ∃ a b c d, s'.bs = { s.bs with buffer := a, aligned := b, bitsLeft := c, marker := d }

theorem Kept.refl (s : B) : Kept s s := ⟨_, _, _, _, rfl⟩

theorem Kept.trans {a b c : B} (h : Kept a b) (h' : Kept b c) : Kept a c := by
  obtain ⟨p, q, r, x, e⟩ := h
  obtain ⟨p', q', r', x', e'⟩ := h'
  exact ⟨p', q', r', x', by rw [e', e]⟩

theorem Kept.drop (s : B) (n : Nat) : Kept s { s with bs := s.bs.drop n } := ⟨_, _, _, _, rfl⟩

theorem Kept.getBits {n : Nat} {s s' : B} {v : Out I32} (h : getBitsM n s = (v, s')) : Kept s s' := by
  have : s' = (getBitsM n s).2 := by rw [h]
  rw [this]
  exact ⟨_, _, _, _, rfl⟩

theorem Kept.getBit {s s' : B} {v : Out Bool} (h : getBitM s = (v, s')) : Kept s s' := by
  have : s' = (getBitM s).2 := by rw [h]
  rw [this]
  exact ⟨_, _, _, _, rfl⟩

theorem Kept.eob {s s' : B} (h : Kept s s') : s'.bs.eobRun = s.bs.eobRun := by
  obtain ⟨_, _, _, _, e⟩ := h; rw [e]

theorem Kept.low {s s' : B} (h : Kept s s') : s'.bs.succLow = s.bs.succLow := by
  obtain ⟨_, _, _, _, e⟩ := h; rw [e]

theorem Kept.start {s s' : B} (h : Kept s s') : s'.bs.specStart = s.bs.specStart := by
  obtain ⟨_, _, _, _, e⟩ := h; rw [e]

theorem Kept.stop {s s' : B} (h : Kept s s') : s'.bs.specEnd = s.bs.specEnd := by
  obtain ⟨_, _, _, _, e⟩ := h; rw [e]

/-! ### A block that is being changed -/

/-- `block` holds the first `n` entries of `new` in zig-zag order and the other entries of `old`. -/
def Mixed (old new : Nat → I16) (block : List I16) (n : Nat) : Prop :=
  block.length = 64 ∧
    ∀ k z, zigzag[k]? = some z → block[z]? = some (if k < n then new k else old k)

section
variable {old new : Nat → I16} {block : List I16}

theorem Mixed.extend {n m : Nat} (h : Mixed old new block n) (hm : n ≤ m)
    (hz : ∀ k, n ≤ k → k < m → new k = old k) : Mixed old new block m := by
  refine ⟨h.1, fun k z hk => ?_⟩
  rw [h.2 k z hk]
  congr 1
  by_cases h1 : k < n
  · rw [if_pos h1, if_pos (by omega)]
  · rw [if_neg h1]
    by_cases h2 : k < m
    · rw [if_pos h2, hz k (by omega) h2]
    · rw [if_neg h2]

theorem Mixed.set {n z : Nat} (h : Mixed old new block n) (v : I16) (hz : zigzag[n]? = some z)
    (hv : v = new n) : Mixed old new (block.set z v) (n + 1) := by
  have hz64 : z < 64 := zigzag_lt _ (List.mem_of_getElem? hz)
  have hl := h.1
  refine ⟨by simp [hl], fun k y hk => ?_⟩
  rw [List.getElem?_set]
  by_cases he : z = y
  · subst he
    have := zigzag_inj hz hk
    subst this
    rw [if_pos rfl, if_pos (by omega), if_pos (by omega), hv]
  · rw [if_neg he, h.2 k y hk]
    have : k ≠ n := by rintro rfl; rw [hz] at hk; exact he (Option.some.inj hk)
    congr 1
    by_cases h1 : k < n
    · rw [if_pos h1, if_pos (by omega)]
    · rw [if_neg h1, if_neg (by omega)]

theorem Mixed.get {n k z : Nat} (h : Mixed old new block n) (hz : zigzag[k]? = some z) (hk : n ≤ k) :
    block[z]? = some (old k) := by
  rw [h.2 k z hz, if_neg (by omega)]

end

/-! ### Rounds of the loop -/

section
variable {t : HuffmanTable} {L : List I16} {sh se : Nat}

theorem acFirst_fast {fuel k : Nat} {block : List I16}
    {s s1 : B} {e : I16} {x z : Nat} (hr : refill s = (.ok (), s1))
    (hL : L[s1.bs.peek 9]? = some e) (he : e ≠ 0) (hx : t.lookup[s1.bs.peek 9]? = some x)
    (hz : zigzag[min (k + ((e >>> 4) &&& 63).toNat) 63]? = some z) (hb : block.length = 64) :
    acFirstLoop t L sh se (fuel + 1) k block s =
      (if k + ((e >>> 4) &&& 63).toNat + 1 > se then
          pure (block.set z (e.sshiftRight 10 * (1#16 <<< sh)))
        else acFirstLoop t L sh se fuel (k + ((e >>> 4) &&& 63).toNat + 1)
          (block.set z (e.sshiftRight 10 * (1#16 <<< sh))) : M B (List I16))
        { s1 with bs := s1.bs.drop (e &&& 15).toNat } := by
  obtain ⟨z', hz', hlt, hzz⟩ := zz_ok (min (k + ((e >>> 4) &&& 63).toNat) 63) (by omega) s1
  rw [hz] at hz'; cases hz'
  rw [acFirstLoop, M.bind_ok hr, M.bind_ok (M.get_apply s1)]
  simp only [HUFF_LOOKAHEAD]
  rw [M.bind_ok (M.idx_some hL s1), M.bind_ok (M.idx_some hx s1), if_pos he, M.bind_ok hzz]
  have : setBlock block z (e.sshiftRight 10 * (1#16 <<< sh)) s1 =
      (.ok (block.set z (e.sshiftRight 10 * (1#16 <<< sh))), s1) := by
    rw [setBlock, if_pos (by omega)]
  rw [M.bind_ok this, M.bind_ok (M.modify_apply _ s1)]

theorem acFirst_slow {fuel k : Nat} {block : List I16}
    {s s1 s2 : B} {x sym : Nat} (hr : refill s = (.ok (), s1))
    (hL : L[s1.bs.peek 9]? = some 0) (hx : t.lookup[s1.bs.peek 9]? = some x)
    (hs : decodeSymbol t s1 = (.ok sym, s2)) :
    acFirstLoop t L sh se (fuel + 1) k block s =
      (if sym % 16 ≠ 0 then do
          let bits ← getBitsM (sym % 16)
          let i ← zz ((k + sym / 16) &&& 63)
          let block ← setBlock block i ((huffExtend bits (sym % 16)).setWidth 16 * (1#16 <<< sh))
          if k + sym / 16 + 1 > se then pure block
          else acFirstLoop t L sh se fuel (k + sym / 16 + 1) block
        else if sym / 16 ≠ 15 then do
          let bits ← getBitsM (sym / 16)
          M.modify fun s => { s with bs := { s.bs with
            eobRun := (1 <<< (sym / 16)) + bits.toNat - 1 } }
          pure block
        else if k + 16 > se then pure block
        else acFirstLoop t L sh se fuel (k + 16) block : M B (List I16)) s2 := by
  have hs' : decodeHuff t x s1 = (.ok sym, s2) := by
    rw [← hs, decodeSymbol, M.bind_ok (M.get_apply s1)]
    simp only [HUFF_LOOKAHEAD]
    rw [M.bind_ok (M.idx_some hx s1)]
  rw [acFirstLoop, M.bind_ok hr, M.bind_ok (M.get_apply s1)]
  simp only [HUFF_LOOKAHEAD]
  rw [M.bind_ok (M.idx_some hL s1), M.bind_ok (M.idx_some hx s1), if_neg (by simp),
    M.bind_ok hs']
  have e1 : sym &&& 15 = sym % 16 := Nat.and_two_pow_sub_one_eq_mod _ 4
  have e2 : sym >>> 4 = sym / 16 := by rw [Nat.shiftRight_eq_div_pow]
  simp only [e1, e2]

variable {counts values : List Nat}

/-- 16 zeros. -/
theorem first_zrl (ht : Accepted counts values false true t) (hL : t.acLookup = some L)
    {w rest : List Bool} {s : B} {tail} (hm : (w, 0xF0) ∈ codeBook counts values)
    (h : Rep s (w ++ rest) tail) (block : List I16) {k : Nat} (fuel : Nat) (hk : k + 16 ≤ se) :
    ∃ s', acFirstLoop t L sh se (fuel + 1) k block s = acFirstLoop t L sh se fuel (k + 16) block s' ∧
      Rep s' rest tail ∧ Kept s s' := by
  obtain ⟨s1, e, y, r1, r2, r3, -, r4, r5, r6⟩ := ac_round ht hL (x := []) hm rfl (by simpa using h)
  obtain ⟨s1', r1', -, -, kp, -⟩ := h.refill
  rw [r1] at r1'; cases r1'
  simp only [List.nil_append] at r2
  simp only [List.length_nil, Nat.add_zero] at r3
  by_cases he : e = 0
  · subst he
    obtain ⟨q1, q2⟩ := Rep.decodeSymbol ht hm r2 r3
    refine ⟨_, ?_, q2, Kept.trans kp (Kept.drop _ _)⟩
    rw [acFirst_slow r1 r4 r5 q1, if_neg (by omega), if_neg (by omega), if_neg (by omega)]
  · exact absurd ((r6 he).2.1 (by omega)) (by decide)

theorem first_zrls (ht : Accepted counts values false true t) (hL : t.acLookup = some L)
    {w : List Bool} (hm : (w, 0xF0) ∈ codeBook counts values) {tail} (block : List I16)
    (rest : List Bool) (q : Nat) :
    ∀ (s : B) (k fuel : Nat), Rep s ((List.replicate q w).flatten ++ rest) tail →
      k + 16 * q ≤ se → se + 2 ≤ fuel + k →
      ∃ s' fuel', acFirstLoop t L sh se fuel k block s =
          acFirstLoop t L sh se fuel' (k + 16 * q) block s' ∧
        Rep s' rest tail ∧ Kept s s' ∧ se + 2 ≤ fuel' + (k + 16 * q) := by
  induction q with
  | zero =>
    intro s k fuel h1 h2 h3
    exact ⟨s, fuel, rfl, by simpa using h1, Kept.refl s, h3⟩
  | succ q ih =>
    intro s k fuel h1 h2 h3
    obtain ⟨fuel, rfl⟩ : ∃ f, fuel = f + 1 := ⟨fuel - 1, by omega⟩
    rw [List.replicate_succ, List.flatten_cons, List.append_assoc] at h1
    obtain ⟨s1, e1, r1, k1⟩ := first_zrl (sh := sh) ht hL hm h1 block fuel (k := k) (se := se) (by omega)
    obtain ⟨s2, fuel', e2, r2, k2, h6⟩ := ih s1 (k + 16) fuel r1 (by omega) (by omega)
    have e : k + 16 + 16 * q = k + 16 * (q + 1) := by ring
    rw [e] at e2 h6
    exact ⟨s2, fuel', e1.trans e2, r2, k1.trans k2, h6⟩

/-- A non-zero coefficient after fewer than 16 zeros. -/
theorem first_coef (ht : Accepted counts values false true t) (hL : t.acLookup = some L)
    {w rest : List Bool} {run : Nat} {c : Int} {s : B} {tail} (hc : c ≠ 0) (hc15 : category c ≤ 15)
    (hrun : run < 16) (hm : (w, 16 * run + category c) ∈ codeBook counts values)
    (hsafe : 6 ≤ category c → 9 < w.length + category c)
    (h : Rep s (w ++ (magnitudeBits c ++ rest)) tail) {old new : Nat → I16} {block : List I16}
    {pos : Nat} (fuel : Nat) (hpos : pos + run ≤ se) (hse : se < 64) (hf : Mixed old new block pos)
    (hz : ∀ k, k < run → new (pos + k) = old (pos + k))
    (hv : new (pos + run) = BitVec.ofInt 16 c * (1#16 <<< sh)) :
    ∃ block' s', acFirstLoop t L sh se (fuel + 1) pos block s =
        (if pos + run + 1 > se then pure block'
          else acFirstLoop t L sh se fuel (pos + run + 1) block' : M B (List I16)) s' ∧
      Mixed old new block' (pos + run + 1) ∧ Rep s' rest tail ∧ Kept s s' := by
  have hfr : Mixed old new block (pos + run) := hf.extend (by omega) fun k h1 h2 => by
    have := hz (k - pos) (by omega); rwa [Nat.add_sub_cancel' h1] at this
  obtain ⟨hcat1, hcat2⟩ := category_spec c hc
  have hdiv : (16 * run + category c) / 16 = run := by omega
  have hmod : (16 * run + category c) % 16 = category c := by omega
  have hb := hf.1
  obtain ⟨s1, e, y, r1, r2, r3, hlate, r4, r5, r6⟩ := ac_round ht hL (x := magnitudeBits c) hm
    (by rw [hmod]; simp) h
  obtain ⟨s1', r1', -, -, kp, -⟩ := h.refill
  rw [r1] at r1'; cases r1'
  rw [hmod, hdiv] at r6
  obtain ⟨z, hzz⟩ := zigzag_some (pos + run) (by omega)
  rw [magnitudeBits_length] at r3 r6
  by_cases he : e = 0
  · subst he
    obtain ⟨q1, q2⟩ := Rep.decodeSymbol ht hm r2 (by omega)
    obtain ⟨s2, q3, q4, q5, -, q7⟩ := q2.getBits (w := magnitudeBits c)
      (by simp only [BitStream.drop, magnitudeBits_length]; omega) (by simp; omega)
    obtain ⟨z', hz', hlt, hzz'⟩ := zz_ok (pos + run) (by omega) s2
    rw [hzz] at hz'; cases hz'
    refine ⟨block.set z (BitVec.ofInt 16 c * (1#16 <<< sh)), s2, ?_, hfr.set _ hzz hv.symm, q4,
      (Kept.trans kp (Kept.drop _ _)).trans (Kept.getBits q3)⟩
    rw [acFirst_slow r1 r4 r5 q1, hmod, hdiv, if_pos (by omega)]
    rw [magnitudeBits_length] at q3
    have hand : (pos + run) &&& 63 = pos + run := by
      rw [show (63 : Nat) = 2 ^ 6 - 1 from rfl, Nat.and_two_pow_sub_one_eq_mod,
        Nat.mod_eq_of_lt (by omega)]
    rw [M.bind_ok q3, hand, M.bind_ok hzz', huffExtend_magnitude c hc hc15]
    have hsw : (BitVec.ofInt 32 c).setWidth 16 = BitVec.ofInt 16 c := by
      apply BitVec.eq_of_toNat_eq
      simp only [BitVec.toNat_setWidth, BitVec.toNat_ofInt]
      omega
    rw [hsw]
    have : setBlock block z (BitVec.ofInt 16 c * (1#16 <<< sh)) s2 =
        (.ok (block.set z (BitVec.ofInt 16 c * (1#16 <<< sh))), s2) := by
      rw [setBlock, if_pos (by omega)]
    rw [M.bind_ok this]
  · obtain ⟨c0, -, c2, -, -⟩ := r6 he
    have := c0 (by omega)
    obtain ⟨q1, q2, q3⟩ := c2 hcat1 (by omega)
    refine ⟨block.set z (e.sshiftRight 10 * (1#16 <<< sh)),
      { s1 with bs := s1.bs.drop (e &&& 15).toNat }, ?_, ?_, ?_, Kept.trans kp (Kept.drop _ _)⟩
    · rw [acFirst_fast r1 r4 he r5 (z := z)
        (by rw [q1, Nat.min_eq_left (by omega)]; exact hzz) hf.1, q1]
    · refine hfr.set _ hzz ?_
      rw [hv]
      congr 1
      apply BitVec.eq_of_toInt_eq
      obtain ⟨a, b⟩ := extend_additional _ _ hcat1 hcat2
      rw [q2, bitsNat_magnitude c hc, b, BitVec.toInt_ofInt, Int.bmod_def]
      have := hcat2.2
      have : 2 ^ category c ≤ 2 ^ 5 := Nat.pow_le_pow_right (by norm_num) (by omega)
      omega
    · rw [q3]
      have r2' : Rep s1 ((w ++ magnitudeBits c) ++ rest) tail := by
        rw [List.append_assoc]; exact r2
      have := r2'.drop (by simp; omega)
      simpa using this

/-- The number in an end of band symbol. -/
theorem eob_value {n : Nat} (h1 : 1 ≤ n) (h15 : n < 2 ^ 15) :
    n.log2 ≤ 14 ∧ (1 <<< n.log2) + (BitVec.ofNat 32 (bitsNat (natBits n.log2 (n - 2 ^ n.log2)))).toNat =
      n := by
  have hl : n.log2 ≤ 14 := by
    have := (Nat.log2_lt (by omega : n ≠ 0)).2 h15
    omega
  have h2 : 2 ^ n.log2 ≤ n := Nat.log2_self_le (by omega)
  have h3 : n < 2 ^ (n.log2 + 1) := Nat.lt_log2_self
  have h4 : 2 ^ n.log2 ≤ 2 ^ 14 := Nat.pow_le_pow_right (by norm_num) hl
  refine ⟨hl, ?_⟩
  rw [Nat.pow_succ] at h3
  rw [bitsNat_natBits, BitVec.toNat_ofNat, Nat.shiftLeft_eq, Nat.mod_eq_of_lt (a := n - _) (by omega),
    Nat.mod_eq_of_lt (by omega)]
  omega

/-- End of band. -/
theorem first_eob (ht : Accepted counts values false true t) (hL : t.acLookup = some L)
    {w rest : List Bool} {s : B} {tail} {n : Nat} (h1 : 1 ≤ n) (h15 : n < 2 ^ 15)
    (hm : (w, (eobSymbol n).1) ∈ codeBook counts values)
    (h : Rep s (w ++ ((eobSymbol n).2 ++ rest)) tail) (block : List I16) (k fuel : Nat) :
    ∃ s', acFirstLoop t L sh se (fuel + 1) k block s =
        (.ok block, { s' with bs := { s'.bs with eobRun := n - 1 } }) ∧
      Rep s' rest tail ∧ Kept s s' := by
  obtain ⟨hl, hn⟩ := eob_value h1 h15
  unfold eobSymbol at hm h
  dsimp only at hm h
  have hmod : 16 * n.log2 % 16 = 0 := by omega
  have hdiv : 16 * n.log2 / 16 = n.log2 := by omega
  obtain ⟨hw1, hw2, -⟩ := word_length ht hm
  obtain ⟨s1, r1, r2, r3, kp, -⟩ := h.refill
  have hbits : w.length + n.log2 ≤ s1.bs.bitsLeft := by
    rcases r3 with r3 | r3
    · omega
    · simp only [List.length_append, natBits_length] at r3; omega
  obtain ⟨s1', e, y, r1', -, -, -, r4, r5, r6⟩ := ac_round ht hL (x := []) hm (by rw [hmod]; rfl)
    (by simpa using h)
  rw [r1] at r1'; cases r1'
  have he : e = 0 := by
    by_contra he
    exact absurd ((r6 he).2.1 hmod) (by decide)
  subst he
  obtain ⟨q1, q2⟩ := Rep.decodeSymbol ht hm r2 (by omega)
  obtain ⟨s2, q3, q4, q5, -, q7⟩ := q2.getBits (w := natBits n.log2 (n - 2 ^ n.log2))
    (by simp only [BitStream.drop, natBits_length]; omega) (by simp; omega)
  refine ⟨s2, ?_, q4, (Kept.trans kp (Kept.drop _ _)).trans (Kept.getBits q3)⟩
  rw [acFirst_slow r1 r4 r5 q1, hmod, hdiv, if_neg (by omega), if_pos (by omega)]
  rw [natBits_length] at q3
  rw [M.bind_ok q3, M.bind_ok (M.modify_apply _ s2), hn]
  rfl

/-- The band of a block. `fin` is the number in the end of band symbol, `none` if there is none. -/
theorem first_band (ht : Accepted counts values false true t) (hL : t.acLookup = some L)
    (word : Nat → List Bool) {old new : Nat → I16} {tail} (rest : List Bool) (hse : se < 64)
    (fin : Option Nat) (hfin : ∀ n ∈ fin, 1 ≤ n ∧ n < 2 ^ 15) (cs : List Int) :
    ∀ (s : B) (block : List I16) (pos run fuel : Nat), pos + run + cs.length = se + 1 → pos ≤ se →
      se + 2 ≤ fuel + pos →
      Mixed old new block pos → (∀ k, k < run → new (pos + k) = old (pos + k)) →
      (∀ i c, cs[i]? = some c → c = 0 → new (pos + run + i) = old (pos + run + i)) →
      (∀ i c, cs[i]? = some c → c ≠ 0 →
        new (pos + run + i) = BitVec.ofInt 16 c * (1#16 <<< sh)) →
      (∀ c ∈ cs, category c ≤ 15) →
      (fin.isSome ↔ ∀ c ∈ (List.replicate run 0 ++ cs).getLast?, c = 0) →
      (∀ p ∈ coefSymbols run cs ++ (fin.map eobSymbol).toList,
        (word p.1, p.1) ∈ codeBook counts values) →
      (∀ p ∈ coefSymbols run cs, 6 ≤ p.1 % 16 → 9 < (word p.1).length + p.1 % 16) →
      Rep s (symbolBits word (coefSymbols run cs ++ (fin.map eobSymbol).toList) ++ rest) tail →
      ∃ block' s', acFirstLoop t L sh se fuel pos block s = (.ok block', s') ∧
        Mixed old new block' (se + 1) ∧
        ∃ s'', Rep s'' rest tail ∧ Kept s s'' ∧
          s' = (match fin with
            | none => s''
            | some n => { s'' with bs := { s''.bs with eobRun := n - 1 } }) := by
  induction cs with
  | nil =>
    intro s block pos run fuel hlen hpos hfuel hf hz _ _ _ hend hbook _ hrep
    simp only [List.length_nil, Nat.add_zero] at hlen
    obtain ⟨run, rfl⟩ : ∃ r, run = r + 1 := ⟨run - 1, by omega⟩
    have : fin.isSome := by
      rw [hend, List.append_nil]
      intro c hc
      exact List.eq_of_mem_replicate (List.mem_of_getLast? hc)
    obtain ⟨n, rfl⟩ := Option.isSome_iff_exists.1 this
    obtain ⟨h1, h15⟩ := hfin n rfl
    obtain ⟨fuel, rfl⟩ : ∃ f, fuel = f + 1 := ⟨fuel - 1, by omega⟩
    obtain ⟨s', e1, r1, k1⟩ := first_eob (sh := sh) (se := se) ht hL (rest := rest) (tail := tail) (s := s)
      (w := word (eobSymbol n).1) h1 h15
      (hbook _ (by simp [coefSymbols])) (by simpa [coefSymbols, symbolBits] using hrep) block pos fuel
    refine ⟨block, _, e1, hf.extend (by omega) ?_, s', r1, k1, rfl⟩
    intro k h1 h2
    have := hz (k - pos) (by omega); rwa [Nat.add_sub_cancel' h1] at this
  | cons c cs ih =>
    intro s block pos run fuel hlen hpos hfuel hf hz hv0 hv h15 hend hbook hsafe hrep
    simp only [List.length_cons] at hlen
    by_cases hc : c = 0
    · have e : coefSymbols run (c :: cs) = coefSymbols (run + 1) cs := by
        simp [coefSymbols, hc]
      rw [e] at hbook hsafe hrep
      refine ih s block pos (run + 1) fuel (by omega) hpos hfuel hf ?_ ?_ ?_
        (fun c h => h15 c (by simp [h])) ?_ hbook hsafe hrep
      · intro k hk
        by_cases hk' : k < run
        · exact hz k hk'
        · have : k = run := by omega
          subst this
          exact hv0 0 c rfl hc
      · intro i c' hi h0
        have := hv0 (i + 1) c' (by simpa using hi) h0
        rwa [show pos + run + (i + 1) = pos + (run + 1) + i by omega] at this
      · intro i c' hi h0
        have := hv (i + 1) c' (by simpa using hi) h0
        rwa [show pos + run + (i + 1) = pos + (run + 1) + i by omega] at this
      · rw [hend, hc, List.replicate_succ', List.append_assoc]
        rfl
    · have e : coefSymbols run (c :: cs) = List.replicate (run / 16) (0xF0, []) ++
          (16 * (run % 16) + category c, magnitudeBits c) :: coefSymbols 0 cs := by
        simp [coefSymbols, hc]
      rw [e] at hbook hsafe hrep
      have hcat := h15 c (by simp)
      obtain ⟨syms, hsyms⟩ : ∃ l, coefSymbols 0 cs ++ (fin.map eobSymbol).toList = l := ⟨_, rfl⟩
      have hrep' : Rep s ((List.replicate (run / 16) (word 0xF0)).flatten ++
          (word (16 * (run % 16) + category c) ++ (magnitudeBits c ++
            (symbolBits word syms ++ rest)))) tail := by
        rw [← hsyms]
        simpa only [symbolBits, List.flatMap_append, replicate_flatMap_word, List.flatMap_cons,
          List.append_assoc, List.cons_append] using hrep
      have step1 : ∃ s' fuel', acFirstLoop t L sh se fuel pos block s =
            acFirstLoop t L sh se fuel' (pos + 16 * (run / 16)) block s' ∧
          Rep s' (word (16 * (run % 16) + category c) ++ (magnitudeBits c ++
            (symbolBits word syms ++ rest))) tail ∧ Kept s s' ∧
          se + 2 ≤ fuel' + (pos + 16 * (run / 16)) := by
        by_cases hq : run / 16 = 0
        · rw [hq] at hrep' ⊢
          exact ⟨s, fuel, rfl, by simpa using hrep', Kept.refl s, by simpa using hfuel⟩
        · refine first_zrls ht hL (hbook (0xF0, []) ?_) block _ _ s pos fuel hrep' (by omega) hfuel
          simp [hq]
      obtain ⟨s1, f1, e1, r1, k1, h1⟩ := step1
      have g1 : Mixed old new block (pos + 16 * (run / 16)) := hf.extend (by omega) fun k h1 h2 => by
        have := hz (k - pos) (by omega); rwa [Nat.add_sub_cancel' h1] at this
      obtain ⟨f1, rfl⟩ : ∃ f, f1 = f + 1 := ⟨f1 - 1, by omega⟩
      have hmem : (16 * (run % 16) + category c, magnitudeBits c) ∈
          List.replicate (run / 16) (0xF0, []) ++
          (16 * (run % 16) + category c, magnitudeBits c) :: coefSymbols 0 cs := by simp
      have hs := hsafe _ hmem
      have hmod : (16 * (run % 16) + category c) % 16 = category c := by omega
      simp only [hmod] at hs
      obtain ⟨b2, s2, e2, g2, r2, k2⟩ := first_coef (sh := sh) (se := se) ht hL (run := run % 16) hc hcat
        (by omega) (hbook _ (List.mem_append_left _ hmem)) hs r1 (new := new) f1 (by omega) hse g1
        (fun k hk => by
          have := hz (16 * (run / 16) + k) (by omega)
          rwa [← Nat.add_assoc] at this)
        (by
          have := hv 0 c rfl hc
          rw [← this]; congr 1; omega)
      have ep : pos + 16 * (run / 16) + run % 16 + 1 = pos + run + 1 := by omega
      rw [ep] at e2 g2
      have hlast : (List.replicate run 0 ++ c :: cs).getLast? = (c :: cs).getLast? := by
        rw [List.getLast?_append, List.getLast?_cons]; rfl
      rw [hlast] at hend
      by_cases hcs : cs = []
      · subst hcs
        have hnone : fin = none := by
          cases fin with
          | none => rfl
          | some n => exact absurd (hend.1 rfl c rfl) hc
        subst hnone
        simp only [List.length_nil] at hlen
        refine ⟨b2, s2, ?_, by rwa [show pos + run + 1 = se + 1 by omega] at g2, s2, ?_, k1.trans k2,
          rfl⟩
        · rw [e1, e2, if_pos (by omega)]
          rfl
        · rw [← hsyms] at r2
          simpa [coefSymbols, symbolBits] using r2
      · have hcl : cs.length ≠ 0 := by simpa using hcs
        rw [if_neg (by omega)] at e2
        obtain ⟨b3, s3, e3, g3, s4, r3, k3, e4⟩ := ih s2 b2 (pos + run + 1) 0 f1 (by omega) (by omega)
          (by omega) g2 (fun k hk => by omega)
          (fun i c' hi h0 => by
            have := hv0 (i + 1) c' (by simpa using hi) h0
            rwa [show pos + run + (i + 1) = pos + run + 1 + 0 + i by omega] at this)
          (fun i c' hi h0 => by
            have := hv (i + 1) c' (by simpa using hi) h0
            rwa [show pos + run + (i + 1) = pos + run + 1 + 0 + i by omega] at this)
          (fun c h => h15 c (by simp [h]))
          (by
            rw [hend]
            obtain ⟨a, l, rfl⟩ : ∃ a l, cs = a :: l := by
              cases cs with
              | nil => exact absurd rfl hcs
              | cons a l => exact ⟨a, l, rfl⟩
            rw [List.getLast?_cons_cons]
            rfl)
          (fun p hp => hbook p (by
            rcases List.mem_append.1 hp with hp | hp
            · simp [hp]
            · simp only [List.mem_append]; exact Or.inr hp))
          (fun p hp => hsafe p (by simp [hp])) (by rw [hsyms]; exact r2)
        exact ⟨b3, s3, by rw [e1, e2, e3], g3, s4, r3, (k1.trans k2).trans k3, e4⟩

end

end Zune
